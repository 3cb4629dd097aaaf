import Verif.Props.Metadata
import Verif.Props.BeaconCmd
import Verif.Props.Screen
import Verif.Props.Queries
import Verif.Props.Prompt
import Verif.Props.TranCmds
/-!
# Exactly where C24, C50, C53, C72, C74, C82, C101, C102, C103 and C111 hold

For each of these claims, which the code keeps in part, the exact conditions under which it does.
-/
namespace Saratoga

/-! ## C82 -/

/-- **C82** The pause is the interval in seconds exactly up to 9223372036 seconds. -/
theorem C82_interval_iff (n : Nat) : sleepTime n = n * 1000000000 ↔ n ≤ 9223372036 := by
  refine ⟨fun h => ?_, C82_interval_partial n⟩
  have : sleepTime n < 2 ^ 63 := BitVec.toInt_lt
  omega

example : sleepTime 9223372036 = 9223372036000000000 := by decide
example : sleepTime 9223372037 ≠ 9223372037000000000 := by decide

/-! ## C24 -/

/-- **C24** `Encode` of a metadata frame returns a frame for every directory entry; it ends after the checksum exactly
if the entry has no descriptor of 2, 4 or 8 bytes, a path of more than 1024 bytes or a size above its limit, and
otherwise the encoded entry follows the checksum. Any tables. -/
theorem C24_exact (T : Tables) (m : MetaData) (r : Except Err (List Byte)) (dir : m.dir.encode T = .ret r) :
    ∃ frame, m.encode T = .ret frame ∧
      (frame.length = 8 + m.checksum.length ↔
        ¬ ∃ n, HasWidthD T m.dir.header n ∧ m.dir.path.length ≤ 1024 ∧ m.dir.size.toNat ≤ direntMax n) ∧
      ((∃ de, m.dir.encode T = .ret (.ok de) ∧ frame = be32 m.header ++ be32 m.session ++ m.checksum ++ de) ↔
        ∃ n, HasWidthD T m.dir.header n ∧ m.dir.path.length ≤ 1024 ∧ m.dir.size.toNat ≤ direntMax n) := by
  have he := MetaData.encode_eq dir
  rw [← C22_encodable_iff]
  refine ⟨_, he, ?_, ?_⟩
  · cases r with
    | error e =>
      refine ⟨fun _ ⟨b, hb⟩ => ?_, fun _ => by simp [bytesOrNil]; omega⟩
      rw [dir] at hb; cases hb
    | ok de =>
      obtain ⟨desc, n, hd, hn, hp, hs, hde⟩ := DirEnt.encode_inv dir
      refine ⟨fun hl => ?_, fun h => absurd ⟨de, dir⟩ h⟩
      rw [hde] at hl
      simp [bytesOrNil] at hl
      omega
  · refine ⟨fun ⟨de, h, _⟩ => ⟨de, h⟩, fun ⟨de, h⟩ => ⟨de, h, ?_⟩⟩
    rw [dir] at h
    cases h
    rfl

/-! ## C101 -/

/-- **C101** The user's window cannot be seen exactly if it is the packet window and its key was pressed an even number
of times. -/
theorem C101_current_iff (maxx maxy : Nat) (fits : layoutOk maxx maxy = true) (keys : List WindowKey) :
    (Screen.init.run keys).Hidden maxx maxy (Screen.init.run keys).current ↔
      (Screen.init.run keys).current = "packet" ∧ packetKeys keys % 2 = 0 :=
  C101_visible maxx maxy fits keys _

/-! ## C102 -/

theorem escape_not_drawn (cs : List Char) (t : Term) (h : ∀ p ∈ t.drawn, p.1 ≠ '\x1b') :
    ∀ p ∈ (cs.foldl Term.put t).drawn, p.1 ≠ '\x1b' := by
  induction cs generalizing t with
  | nil => exact h
  | cons c cs ih =>
    refine ih _ ?_
    unfold Term.put
    split
    · split
      · exact h
      · rename_i hc
        intro p hp
        simp only [List.mem_append, List.mem_singleton] at hp
        rcases hp with hp | rfl
        · exact h p hp
        · exact hc
    · split <;> exact h
    · repeat' split
      all_goals exact h

/-- **C102** A text in a known colour is shown wholly in that colour exactly if it has no escape in it. -/
theorem C102_shown_iff (p q : String) (i j : Nat) (hp : p ∈ ["", "u", "i"]) (hq : q ∈ ["", "b"]) (hi : i < 8)
    (hj : j < 8) (text : String) :
    (Term.blank.write (colouredText (colourName p i q j) text)).drawn =
        (text.toList.map fun c => (c, lookOf p i q j)) ↔ '\x1b' ∉ text.toList := by
  constructor
  · intro h hm
    refine escape_not_drawn (colouredText (colourName p i q j) text).toList Term.blank (by intro p hp; cases hp)
      ('\x1b', lookOf p i q j) ?_ rfl
    unfold Term.write at h
    rw [h]
    exact List.mem_map.2 ⟨_, hm, rfl⟩
  · intro h
    rw [C102_shown_partial p q i j hp hq hi hj text h]

/-- **C102** The known colours that look alike: an underlined colour on a plain one and the plain colour on the bright
one; no others. -/
theorem C102_alike (p q p' q' : String) (i j i' j' : Nat) (hp : p ∈ ["", "u", "i"]) (hq : q ∈ ["", "b"])
    (hp' : p' ∈ ["", "u", "i"]) (hq' : q' ∈ ["", "b"]) :
    lookOf p i q j = lookOf p' i' q' j' ↔
      i = i' ∧ j = j' ∧ ((p, q) = (p', q') ∨ (p, q, p', q') = ("u", "", "", "b") ∨
        (p, q, p', q') = ("", "b", "u", "")) := by
  simp only [List.mem_cons, List.not_mem_nil, or_false] at hp hq hp' hq'
  unfold lookOf
  rcases hp with rfl | rfl | rfl <;> rcases hq with rfl | rfl <;> rcases hp' with rfl | rfl | rfl <;>
    rcases hq' with rfl | rfl <;> simp

/-! ## C103 -/

/-- **C103** Any order is possible: the texts of any prints can be shown in any order whatever. (By `C103_once` nothing
but an order of them.) -/
theorem C103_any_order (texts shown : List String) (perm : shown.Perm texts) :
    ∃ steps, printed steps = texts ∧ Printer.run ⟨[], []⟩ steps = ⟨[], shown⟩ := by
  have app : ∀ (a b : List PrintStep) (p : Printer), p.run (a ++ b) = (p.run a).run b := by
    intro a
    induction a with
    | nil => intro b p; rfl
    | cons s a ih => intro b p; exact ih b _
  have all : ∀ (ts pend sh : List String), Printer.run ⟨pend, sh⟩ (ts.map .print) = ⟨pend ++ ts, sh⟩ := by
    intro ts
    induction ts with
    | nil => intro pend sh; simp [Printer.run]
    | cons t ts ih => intro pend sh; simp [Printer.run, Printer.step, ih]
  have pr : ∀ (ts : List String) (rest : List PrintStep), printed (ts.map .print ++ rest) = ts ++ printed rest := by
    intro ts
    induction ts with
    | nil => intro rest; rfl
    | cons t ts ih => intro rest; simp [printed, ih]
  have take : ∀ (out pend sh : List String), out.Perm pend →
      ∃ steps, printed steps = [] ∧ Printer.run ⟨pend, sh⟩ steps = ⟨[], sh ++ out⟩ := by
    intro out
    induction out with
    | nil =>
      intro pend sh h
      obtain rfl := h.nil_eq
      exact ⟨[], rfl, by simp [Printer.run]⟩
    | cons t out ih =>
      intro pend sh h
      have hm : t ∈ pend := h.subset (List.mem_cons_self ..)
      obtain ⟨i, hi, rfl⟩ := List.getElem_of_mem hm
      have hi' : pend[i]? = some pend[i] := List.getElem?_eq_getElem hi
      have hp := (h.trans (eraseIdx_perm hi')).cons_inv
      obtain ⟨steps, h1, h2⟩ := ih (pend.eraseIdx i) (sh ++ [pend[i]]) hp
      refine ⟨.show i :: steps, h1, ?_⟩
      show Printer.run (Printer.step _ _) steps = _
      simp only [Printer.step, hi', h2, List.append_assoc, List.singleton_append]
  obtain ⟨steps, h1, h2⟩ := take shown texts [] perm
  refine ⟨texts.map .print ++ steps, by rw [pr, h1, List.append_nil], ?_⟩
  rw [app, all]
  exact h2

example : ∃ steps, printed steps = ["a", "b", "c"] ∧ Printer.run ⟨[], []⟩ steps = ⟨[], ["c", "a", "b"]⟩ :=
  C103_any_order _ _ (by decide)

/-! ## C111 -/

/-- **C111** Exactly the question for the metadata timer does not tell its setting. -/
theorem C111_tells_iff (H : CmdTable) (q : List String) (s : Setting) (known : (q, s) ∈ queryTable) :
    Tells H q s ↔ s ≠ .metadata := by
  refine ⟨?_, C111_tells_partial H q s known⟩
  rintro h rfl
  have : q = ["timeout", "metadata"] := by
    simp [queryTable] at known
    exact known
  subst this
  exact (C111_counterexample H).2 h

/-! ## C72 -/

/-- **C72** What is typed is what runs, for every text typed, exactly if the prompt has no colon. -/
theorem C72_typed_iff (commands handlers : List String) (prompt : String) (n : Nat) :
    (∀ typed, getLine commands handlers (promptLine prompt n typed) =
      if typed = "" then .ret .nothing
      else if typed = "exit" ∨ typed = "quit" then .fatal
      else runLine commands handlers typed) ↔ ':' ∉ prompt.toList := by
  refine ⟨fun h hm => ?_, fun h => C72_typed_partial commands handlers prompt h n⟩
  have h1 := h "exit"
  rw [if_neg (by decide), if_pos (.inl rfl), (C54_getLine_exact commands handlers _).2] at h1
  obtain ⟨p, hp, e⟩ := h1
  obtain ⟨a, b, e2, ha⟩ := List.eq_append_cons_of_mem hm
  have key : ∀ w : String, (promptLine prompt n "exit").toList = p ++ ':' :: w.toList → ':' ∉ w.toList → False := by
    intro w ew hw
    have h2 := afterColon_some (t := w.toList) hp
    have e3 : (promptLine prompt n "exit").toList =
        a ++ ':' :: (b ++ ("[" ++ toString n ++ "]").toList ++ ':' :: "exit".toList) := by
      unfold promptLine
      simp only [String.toList_append, e2]
      simp
    rw [← ew, e3, afterColon_some ha] at h2
    injection h2 with h2
    rw [← h2] at hw
    exact hw (by simp)
  rcases e with e | e
  · exact key "exit" e (by decide)
  · exact key "quit" e (by decide)

/-! ## C53 -/

/-- **C53** The handler of a transfer command returns exactly if it is not one of the four sending commands, or the line
has not two arguments, or the address is none, or no transfer is started; otherwise it waits for ever
(`C53_never_ends`). -/
theorem C53_returns_iff (name : String) (h : CmdEnv → TranWorld → List String → CmdOut)
    (cmd : (name, h) ∈ tranCommands) (E : CmdEnv) (w w' : TranWorld) (args : List String)
    (replies : List CmdReply) (n : Next) (ran : h E w (name :: args) = .ret (w', replies, n)) :
    n = .returned ↔ ¬ (name ∈ doCommands ∧ ∃ a f u w1 t, args = [a, f] ∧ E.address a = .ok u ∧
      E.initiate w name u f = .ret (w1, .ok t)) := by
  constructor
  · rintro rfl ⟨sends, a, f, u, w1, t, rfl, good, started⟩
    obtain ⟨h', c1, c2, _⟩ := C53_counterexample name sends E w w1 a f u t good started
    have : h = h' := by
      simp only [tranCommands, List.mem_cons, List.not_mem_nil, or_false, Prod.mk.injEq] at cmd c1
      rcases cmd with ⟨rfl, rfl⟩ | ⟨rfl, rfl⟩ | ⟨rfl, rfl⟩ | ⟨rfl, rfl⟩ | ⟨rfl, rfl⟩ | ⟨rfl, rfl⟩ | ⟨rfl, rfl⟩ |
        ⟨rfl, rfl⟩ | ⟨rfl, rfl⟩ <;> (simp at c1; exact c1.symm)
    subst this
    rw [c2] at ran
    cases ran
  · intro no
    rcases C53_returns_partial name h cmd E w w' _ replies n ran with h | ⟨h1, a, f, u, t, h2, h3, h4, _⟩
    · exact h
    · exact absurd ⟨h1, a, f, u, w', t, h2, h3, h4⟩ no

/-! ## C74 -/

/-- **C74** The commands that tell a bad address, and only a bad one, are exactly `getdir`, `take`, `put`, `putblind`
and `delete`. -/
theorem C74_reported_iff (name : String) (h : CmdEnv → TranWorld → List String → CmdOut)
    (cmd : (name, h) ∈ tranCommands) (two : name ≠ "tran" ∧ name ≠ "files") :
    (∀ (E : CmdEnv) (w w' : TranWorld) (a f : String) (replies : List CmdReply) (n : Next),
      h E w [name, a, f] = .ret (w', replies, n) → (badAddress a ∈ replies ↔ ∃ e, E.address a = .error e)) ↔
    name ∈ ["getdir", "take", "put", "putblind", "delete"] := by
  constructor
  · intro all
    obtain ⟨e, bad⟩ : ∃ e, exampleCmds.address "not an address" = .error e := ⟨_, rfl⟩
    obtain ⟨c1, _, c2, _⟩ := C74_counterexample exampleCmds (TranWorld.start exampleFS) "not an address" "f"
    have c1 := c1 e bad
    obtain ⟨rs, c2, c3⟩ := c2 e bad
    simp only [tranCommands, List.mem_cons, List.not_mem_nil, or_false, Prod.mk.injEq] at cmd
    rcases cmd with ⟨rfl, rfl⟩ | ⟨rfl, rfl⟩ | ⟨rfl, rfl⟩ | ⟨rfl, rfl⟩ | ⟨rfl, rfl⟩ | ⟨rfl, rfl⟩ | ⟨rfl, rfl⟩ |
        ⟨rfl, rfl⟩ | ⟨rfl, rfl⟩
    · have := (all _ _ _ _ _ _ _ c1).2 ⟨e, bad⟩
      cases this
    · simp
    · simp
    · simp
    · simp
    · exact absurd ((all _ _ _ _ _ _ _ c2).2 ⟨e, bad⟩) c3
    · simp
    · exact absurd rfl two.1
    · exact absurd rfl two.2
  · intro known E w w' a f replies n ran
    cases hx : E.address a with
    | error e =>
      obtain ⟨rs, h1, h2⟩ := C74_reported_partial name h cmd known E w a f e hx
      rw [h1] at ran
      cases ran
      exact ⟨fun _ => ⟨e, rfl⟩, fun _ => h2⟩
    | ok u =>
      have := C74_only_then_partial name h cmd known E w w' a f u hx replies n ran
      exact ⟨fun h => absurd h this, fun ⟨e, h⟩ => by cases h⟩

/-! ## C50 -/

/-- The word a line sets the willingness to transmit to: `txwilling` with one of its three words. -/
def setsTx : List String → Option String
  | [name, v] => if name = "txwilling" ∧ (v = "on" ∨ v = "off" ∨ v = "capable") then some v else none
  | _ => none

theorem setsTx_other {name : String} (h : name ≠ "txwilling") (rest : List String) : setsTx (name :: rest) = none := by
  match rest with
  | [] => rfl
  | [a] => simp [setsTx, h]
  | _ :: _ :: _ => rfl

theorem setting_tx (H : CmdTable) (c : Cliflags) (args : List String) :
    assoc "txwilling" (settingCmd H c args).1.global = (setsTx args).or (assoc "txwilling" c.global) := by
  match args with
  | [] => rfl
  | name :: rest =>
    by_cases ht : name = "txwilling"
    · subst ht
      show assoc "txwilling" (cmdTxwilling H c ("txwilling" :: rest)).1.global = _
      match rest with
      | [] => rfl
      | [a] =>
        simp only [cmdTxwilling, setsTx, true_and]
        by_cases h1 : a = "on"
        · subst h1; simp [Cliflags.setFlag, assoc_mapSet]
        by_cases h2 : a = "off"
        · subst h2; simp [Cliflags.setFlag, assoc_mapSet]
        by_cases h3 : a = "capable"
        · subst h3; simp [Cliflags.setFlag, assoc_mapSet]
        by_cases h4 : a = "?"
        · subst h4; simp
        simp [h1, h2, h3, h4]
      | _ :: _ :: _ => rfl
    · rw [setsTx_other ht, Option.none_or]
      simp only [settingCmd]
      cases hh : assoc name settingHandlers with
      | none => rfl
      | some fn =>
        have := mem_of_assoc' hh
        simp only [settingHandlers, List.mem_cons, List.not_mem_nil, or_false, Prod.mk.injEq] at this
        have F : ∀ k v, k ≠ "txwilling" →
            assoc "txwilling" (c.setFlag k v).global = assoc "txwilling" c.global := by
          intro k v hk
          simp [Cliflags.setFlag, assoc_mapSet, hk.symm]
        rcases this with ⟨rfl, rfl⟩ | ⟨rfl, rfl⟩ | ⟨rfl, rfl⟩ | ⟨rfl, rfl⟩ | ⟨rfl, rfl⟩ | ⟨rfl, rfl⟩ |
          ⟨rfl, rfl⟩ | ⟨rfl, rfl⟩ | ⟨rfl, rfl⟩ | ⟨rfl, rfl⟩ | ⟨rfl, rfl⟩ | ⟨rfl, rfl⟩
        case inr.inr.inr.inr.inr.inr.inr.inr.inr.inr.inr => exact absurd rfl ht
        all_goals
          match rest with
          | [] => first | rfl | simp only [cmdTimeout]
          | [a] =>
            simp only [cmdBcount, cmdChecksum, cmdDescriptor, cmdFreespace, cmdInterval, cmdReqtstamp, cmdRxwilling,
              cmdStream, cmdTimeout, cmdTimestamp, cmdTimezone]
            repeat' split
            all_goals first
              | rfl
              | exact F _ _ (by decide)
              | exact F "reqtstamp" "yes" (by decide)
          | [a, b] =>
            first
              | rfl
              | (simp only [cmdTimeout]
                 repeat' split
                 all_goals rfl)
          | _ :: _ :: _ :: _ => rfl

/-- **C50** Exactly when the flag map is legal after a sequence of command lines: if no line set the willingness to
transmit, or the last one that did set it to `capable`. -/
theorem C50_legal_iff (H : CmdTable) (c : Cliflags) (ok : ValidGlobal shipped c.global) (lines : List (List String)) :
    ValidGlobal shipped (settingRun H c lines).global ↔
      (lines.filterMap setsTx).getLast? = none ∨ (lines.filterMap setsTx).getLast? = some "capable" := by
  have leg : ∀ (ls : List (List String)) (c : Cliflags), LegalButTx c.global →
      LegalButTx (settingRun H c ls).global := by
    intro ls
    unfold settingRun
    induction ls with
    | nil => exact fun c h => h
    | cons l ls ih => exact fun c h => ih _ (legalButTx_step H c h l)
  have tx : ∀ (ls : List (List String)) (c : Cliflags),
      assoc "txwilling" (settingRun H c ls).global =
        ((ls.filterMap setsTx).getLast?).or (assoc "txwilling" c.global) := by
    intro ls
    unfold settingRun
    induction ls with
    | nil => exact fun c => rfl
    | cons l ls ih =>
      intro c
      rw [List.foldl_cons, ih, setting_tx, List.filterMap_cons]
      cases hl : setsTx l with
      | none => simp
      | some v => 
        simp only [List.getLast?_cons, Option.some_or]
        cases (List.filterMap setsTx ls).getLast? <;> simp
  have words : ∀ v, (lines.filterMap setsTx).getLast? = some v → v = "on" ∨ v = "off" ∨ v = "capable" := by
    intro v hv
    obtain ⟨l, _, hl⟩ := List.mem_filterMap.1 (List.mem_of_getLast? hv)
    match l, hl with
    | [a, b], hl =>
      simp only [setsTx, Option.ite_none_right_eq_some, Option.some.injEq] at hl
      exact hl.2 ▸ hl.1.2
  have htx := tx lines c
  constructor
  · intro good
    cases hv : (lines.filterMap setsTx).getLast? with
    | none => exact .inl rfl
    | some v =>
      rw [hv, Option.some_or] at htx
      have := good.2.2.2 _ (mem_of_assoc' htx)
      rcases words v hv with rfl | rfl | rfl
      · revert this; decide +kernel
      · revert this; decide +kernel
      · exact .inr rfl
  · intro h
    have hv : ∃ v, assoc "txwilling" (settingRun H c lines).global = some v ∧ valid shipped "txwilling" v = true := by
      rcases h with h | h
      · rw [h, Option.none_or] at htx
        obtain ⟨v, hv⟩ := ok.2.2.1 "txwilling" (by decide)
        exact ⟨v, htx.trans (assoc_of_mem' ok.1 hv), ok.2.2.2 _ hv⟩
      · rw [h, Option.some_or] at htx
        exact ⟨_, htx, by decide +kernel⟩
    obtain ⟨v, hv, valid⟩ := hv
    obtain ⟨gl', h1, h2⟩ := leg lines c ⟨_, ok, .inl rfl⟩
    rcases h2 with e | ⟨u, e⟩
    · rw [e]; exact h1
    · rw [e, assoc_mapSet, if_pos rfl] at hv
      cases hv
      rw [e]
      exact h1.set (by decide) valid

/-- The operator turns it on, off and back: the settings are legal again. -/
example : ([["txwilling", "on"], ["stream", "yes"], ["txwilling", "off"], ["txwilling", "yes"],
    ["txwilling", "capable"], ["txwilling", "?"]].filterMap setsTx).getLast? = some "capable" := by decide

end Saratoga
