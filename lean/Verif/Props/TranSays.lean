import Verif.Lemmas.TranSays
import Verif.Props.TranCmds
/-!
# C129: what a transfer command says is so

`said E w name args replies` is all that the command line `args` prints before the command returns or waits. Each
theorem reads it against the table before (`w`) and after (`w'`).
-/
namespace Saratoga

/-- **C129 (partial)** Every line of a transfer command is answered, but for `get` with a host that is none: that
prints nothing. -/
theorem C129_answered_partial (name : String) (h : CmdEnv → TranWorld → List String → CmdOut)
    (cmd : (name, h) ∈ tranCommands) (E : CmdEnv) (w w' : TranWorld) (args : List String) (rs : List CmdReply)
    (n : Next) (ran : h E w args = .ret (w', rs, n)) :
    said E w name args rs = [] ↔ name = "get" ∧ ∃ c a f e, args = [c, a, f] ∧ E.address a = .error e := by
  by_cases hn : (name = "tran" ∨ name = "files") ∨ ∀ c a f, args ≠ [c, a, f]
  · obtain ⟨-, -, hr⟩ := other_lines cmd hn ran
    have hne : rs ≠ [] := by
      rcases hr with ⟨_, rfl⟩ | ⟨_, rfl⟩ | ⟨_, rfl⟩ <;> simp [helpReply, helpLines]
    constructor
    · intro hs
      simp only [said, List.append_eq_nil_iff, List.map_eq_nil_iff] at hs
      exact absurd hs.2 hne
    · rintro ⟨rfl, c, a, f, e, rfl, -⟩
      rcases hn with hn | hn
      · exact absurd hn (by decide)
      · exact absurd rfl (hn _ _ _)
  · simp only [not_or, Classical.not_forall, Classical.not_not] at hn
    obtain ⟨hn, c, a, f, rfl⟩ := hn
    rcases start_three cmd hn ran with ⟨⟨e, he⟩, -, -, rfl⟩ | ⟨u, r, hu, hr, -⟩
    · constructor
      · intro hs
        simp only [said, List.append_eq_nil_iff, List.map_eq_nil_iff] at hs
        refine ⟨?_, c, a, f, e, rfl, he⟩
        have hs := hs.2
        split at hs
        · assumption
        · split at hs
          · cases hs
          · split at hs <;> cases hs
      · rintro ⟨rfl, -⟩
        simp [said, he]
    · constructor
      · intro hs
        simp only [said, List.append_eq_nil_iff, hn.1, hn.2, or_self, if_false, hu, List.map_eq_nil_iff] at hs
        exact absurd hs.1 (initiateNotes_ne_nil _ _ _ _ _)
      · rintro ⟨rfl, c', a', f', e, hl, he⟩
        simp only [List.cons.injEq, and_true] at hl
        obtain ⟨-, rfl, rfl⟩ := hl
        rw [hu] at he; cases he

example : ("put", cmdPut) ∈ tranCommands ∧
    (cmdPut exampleCmds (TranWorld.start exampleFS) ["put", "1.1.1.1", "f"]).returns :=
  ⟨by simp [tranCommands], by decide +kernel⟩

/-- The lines of `NewInitiator` are printed only where it was called. -/
theorem said_note {E : CmdEnv} {w : TranWorld} {name : String} {args : List String} {rs : List CmdReply} {m : Note}
    (hm : .inl m ∈ said E w name args rs) :
    (name ≠ "tran" ∧ name ≠ "files") ∧
      ∃ c a f u, args = [c, a, f] ∧ E.address a = .ok u ∧ m ∈ initiateNotes E.env w name u (utf8 f) := by
  simp only [said, List.mem_append, List.mem_map, reduceCtorEq, and_false, exists_false, or_false] at hm
  split at hm
  · split at hm
    · cases hm
    · rename_i hn
      rw [not_or] at hn
      split at hm
      · rename_i u hu
        simp only [List.mem_map, Sum.inl.injEq, exists_eq_right] at hm
        exact ⟨hn, _, _, _, u, rfl, hu, hm⟩
      · cases hm
  · cases hm

theorem note_said {E : CmdEnv} {w : TranWorld} {name c a f : String} {u : UDPAddr} {rs : List CmdReply} {m : Note}
    (hn : name ≠ "tran" ∧ name ≠ "files") (hu : E.address a = .ok u)
    (hm : m ∈ initiateNotes E.env w name u (utf8 f)) : .inl m ∈ said E w name [c, a, f] rs := by
  simp only [said, hn.1, hn.2, or_self, if_false, hu, List.mem_append, List.mem_map, Sum.inl.injEq, exists_eq_right]
  exact .inl hm

theorem lookup_self (str : UDPAddr → String) {t : Transfer} {ts : List Transfer} (h : t ∈ ts) :
    (lookup str ts t.direction t.session (str t.peer)).isSome = true := by
  unfold lookup
  rw [List.find?_isSome]
  exact ⟨t, h, by simp⟩

/-- **C129** A command says that it added a transfer just when the table has one more, and that one is of the type,
for the peer and with the file name it said. -/
theorem C129_added_iff (name : String) (h : CmdEnv → TranWorld → List String → CmdOut)
    (cmd : (name, h) ∈ tranCommands) (E : CmdEnv) (w w' : TranWorld) (args : List String) (rs : List CmdReply)
    (n : Next) (ran : h E w args = .ret (w', rs, n)) (ty : String) (p : UDPAddr) (fn : List Byte) :
    .inl (.added ty p fn) ∈ said E w name args rs ↔
      ∃ t, w'.transfers = w.transfers ++ [t] ∧ t.ttype = ty ∧ t.peer = p ∧ t.filename = fn := by
  constructor
  · intro hm
    obtain ⟨hn, c, a, f, u, rfl, hu, hm⟩ := said_note hm
    obtain ⟨hs, rfl, rfl, rfl⟩ := added_mem.1 hm
    rcases start_three cmd hn ran with ⟨⟨e, he⟩, -⟩ | ⟨u', r, hu', hr, -⟩
    · rw [hu] at he; cases he
    · rw [hu] at hu'; cases hu'
      rcases newInitiator_ret hr with ⟨-, -, -, e, rfl⟩ | ⟨-, t, -, ha⟩
      · unfold CmdEnv.initiate newInitiator at hr
        rw [hs] at hr
        obtain ⟨⟨w1, t⟩, -, hr⟩ := Out.bind_eq_ret hr
        cases hr
      · have ha := addInitiator_ret ha
        exact ⟨t, ha.1, ha.2.2.2.2.2.1, ha.2.2.2.2.1, ha.2.2.2.1⟩
  · rintro ⟨t, ht, rfl, rfl, rfl⟩
    by_cases hn : (name = "tran" ∨ name = "files") ∨ ∀ c a f, args ≠ [c, a, f]
    · obtain ⟨rfl, -, -⟩ := other_lines cmd hn ran
      have := congrArg List.length ht
      simp at this
    · simp only [not_or, Classical.not_forall, Classical.not_not] at hn
      obtain ⟨hn, c, a, f, rfl⟩ := hn
      rcases start_three cmd hn ran with ⟨-, rfl, -⟩ | ⟨u, r, hu, hr, -⟩
      · have := congrArg List.length ht
        simp at this
      · rcases newInitiator_ret hr with ⟨hsub, -⟩ | ⟨hs, t', -, ha⟩
        · have := hsub.length_le
          simp only [ht, List.length_append, List.length_singleton] at this
          omega
        · have ha := addInitiator_ret ha
          rw [ha.1] at ht
          simp only [List.append_cancel_left_eq, List.cons.injEq, and_true] at ht
          subst ht
          exact note_said hn hu (added_mem.2 ⟨hs, ha.2.2.2.2.2.1, ha.2.2.2.2.1, ha.2.2.2.1⟩)

/-- **C129** With a transfer that is added come the troubles it has: no dialling just when it has no connection, no
look at the file just when it has no metadata, and if the file could not be opened it has none. -/
theorem C129_troubles (name : String) (h : CmdEnv → TranWorld → List String → CmdOut)
    (cmd : (name, h) ∈ tranCommands) (E : CmdEnv) (w w' : TranWorld) (args : List String) (rs : List CmdReply)
    (n : Next) (ran : h E w args = .ret (w', rs, n)) (t : Transfer) (added : w'.transfers = w.transfers ++ [t]) :
    (.inl (.cannotDial t.peer) ∈ said E w name args rs ↔ t.conn = none) ∧
    (.inl .cannotLook ∈ said E w name args rs ↔ t.filemeta = none) ∧
    (.inl .cannotOpen ∈ said E w name args rs → t.fp = none) := by
  obtain ⟨hn, c, a, f, u, rfl, hu, hm⟩ :=
    said_note ((C129_added_iff name h cmd E w w' args rs n ran _ _ _).2 ⟨t, added, rfl, rfl, rfl⟩)
  obtain ⟨hs, -, -, -⟩ := added_mem.1 hm
  have mem : ∀ m, .inl m ∈ said E w name [c, a, f] rs ↔ m ∈ initiateNotes E.env w name u (utf8 f) := by
    intro m
    constructor
    · intro hm
      obtain ⟨-, c', a', f', u', hl, hu', hm⟩ := said_note hm
      simp only [List.cons.injEq, and_true] at hl
      obtain ⟨-, rfl, rfl⟩ := hl
      rw [hu] at hu'; cases hu'; exact hm
    · exact note_said hn hu
  rcases start_three cmd hn ran with ⟨⟨e, he⟩, -⟩ | ⟨u', r, hu', hr, -⟩
  · rw [hu] at he; cases he
  rw [hu] at hu'; cases hu'
  rcases newInitiator_ret hr with ⟨hsub, -⟩ | ⟨-, t', -, ha⟩
  · have := hsub.length_le
    simp only [added, List.length_append, List.length_singleton] at this
    omega
  have ha' := addInitiator_ret ha
  rw [ha'.1] at added
  simp only [List.append_cancel_left_eq, List.cons.injEq, and_true] at added
  subst added
  rw [mem, mem, mem]
  unfold initiateNotes
  rw [hs]
  unfold addInitiator at ha
  cases hfo : fileOpen E.env.sardir w.fs (utf8 f) name with | mk fs o => ?_
  rw [hfo] at ha
  obtain ⟨fm, hfm, ha⟩ := Out.bind_eq_ret ha
  cases hc : E.c.copy with
  | error e => rw [hc] at ha; cases ha
  | ok fl =>
    rw [hc] at ha
    simp only [Out.ret.injEq, Prod.mk.injEq] at ha
    obtain ⟨-, rfl⟩ := ha
    rw [hfm]
    refine ⟨?_, ?_, ?_⟩
    · cases E.env.dial u <;> simp [mem_noteIf]
    · cases fm <;> simp [mem_noteIf, lookFailed]
    · cases o <;> simp [mem_noteIf]

/-- **C129 (partial)** A refusal has its reason: a file called already here is, and a command for a file and peer
called in progress has its transfer in the table. When a connection is called missing, a transfer without one is in
the table (it need not be one to that peer, see the counterexample). -/
theorem C129_reasons_partial (E : CmdEnv) (w : TranWorld) (name : String) (args : List String)
    (rs : List CmdReply) :
    (∀ f, .inl (.alreadyHere f) ∈ said E w name args rs → fileExists E.env.sardir w.fs f = true) ∧
    (∀ f p, .inl (.inProgress f p) ∈ said E w name args rs →
      ∃ t ∈ w.transfers, t.filename = f ∧ E.env.str t.peer = E.env.str p) ∧
    (∀ p, .inl (.noConnection p) ∈ said E w name args rs → ∃ t ∈ w.transfers, t.conn = none) := by
  refine ⟨?_, ?_, ?_⟩
  · intro f hm
    obtain ⟨-, c, a, f', u, -, -, hm⟩ := said_note hm
    unfold initiateNotes at hm
    split at hm <;> simp [mem_noteIf] at hm
    rename_i hs
    subst hm; exact (scan_fileExists hs).1
  · intro f p hm
    obtain ⟨-, c, a, f', u, -, -, hm⟩ := said_note hm
    unfold initiateNotes at hm
    split at hm <;> simp [mem_noteIf] at hm
    rename_i hs
    obtain ⟨rfl, rfl⟩ := hm; exact scan_inProgress hs
  · intro p hm
    obtain ⟨-, c, a, f', u, -, -, hm⟩ := said_note hm
    unfold initiateNotes at hm
    split at hm <;> simp [mem_noteIf] at hm
    rename_i i hs
    exact ⟨i, scan_noConnection hs⟩

/-- **C129** No command ever says that it cannot remove a transfer: the one it removes is in the table. -/
theorem C129_can_remove (E : CmdEnv) (w : TranWorld) (name : String) (args : List String) (rs : List CmdReply)
    (session : BitVec 32) : .inl (.cannotRemove session) ∉ said E w name args rs := by
  intro hm
  obtain ⟨-, c, a, f, u, -, -, hm⟩ := said_note hm
  unfold initiateNotes at hm
  split at hm <;> simp [mem_noteIf] at hm
  rename_i i hs
  rw [remove_eq, if_pos (lookup_self E.env.str (scan_noConnection hs).1)] at hm
  exact absurd hm.1 (by simp)

/-- **C129 (partial)** Five of the seven commands call an address invalid just when it is. -/
theorem C129_address_partial (name : String) (h : CmdEnv → TranWorld → List String → CmdOut)
    (cmd : (name, h) ∈ tranCommands) (five : name ∈ ["getdir", "take", "put", "putblind", "delete"]) (E : CmdEnv)
    (w w' : TranWorld) (args : List String) (rs : List CmdReply) (n : Next)
    (ran : h E w args = .ret (w', rs, n)) (a : String) :
    .inr (badAddress a) ∈ said E w name args rs ↔ ∃ c f e, args = [c, a, f] ∧ E.address a = .error e := by
  have hn : name ≠ "tran" ∧ name ≠ "files" ∧ name ≠ "get" ∧ name ≠ "give" := by
    simp only [List.mem_cons, List.not_mem_nil, or_false] at five
    rcases five with rfl | rfl | rfl | rfl | rfl <;> decide
  have hin : .inr (badAddress a) ∈ said E w name args rs ↔ badAddress a ∈ rs := by
    simp only [said, List.mem_append, List.mem_map, Sum.inr.injEq, exists_eq_right]
    refine or_iff_right ?_
    repeat' split
    all_goals simp
  rw [hin]
  by_cases h3 : ∀ c a f, args ≠ [c, a, f]
  · obtain ⟨-, -, hr⟩ := other_lines cmd (.inr h3) ran
    constructor
    · intro hm
      rcases hr with ⟨_, rfl⟩ | ⟨_, rfl⟩ | ⟨_, rfl⟩
      · exact absurd (List.mem_singleton.1 hm) (badAddress_ne_info _ _ _)
      · exact absurd hm (badAddress_not_help _ _ _)
      · exact absurd (List.mem_singleton.1 hm) (badAddress_ne_usage _ _ _)
    · rintro ⟨c, f, e, rfl, -⟩
      exact absurd rfl (h3 _ _ _)
  · simp only [Classical.not_forall, Classical.not_not] at h3
    obtain ⟨c, b, f, rfl⟩ := h3
    rcases start_three cmd ⟨hn.1, hn.2.1⟩ ran with ⟨⟨e, he⟩, -, -, rfl⟩ | ⟨u, r, hu, -, rfl, -⟩
    · simp only [hn.2.2.1, hn.2.2.2, if_false]
      constructor
      · intro hm
        have : a = b := by
          split at hm
          · exact badAddress_inj (List.mem_singleton.1 hm)
          · rcases List.mem_cons.1 hm with hm | hm
            · exact badAddress_inj hm
            · exact absurd (List.mem_singleton.1 hm) (badAddress_ne_usage _ _ _)
        subst this
        exact ⟨c, f, e, rfl, he⟩
      · rintro ⟨c', f', e', hl, -⟩
        simp only [List.cons.injEq, and_true] at hl
        obtain ⟨-, rfl, -⟩ := hl
        split <;> simp
    · constructor
      · intro hm
        cases r with
        | ok _ => cases hm
        | error _ =>
          simp only [hn.2.2.1, hn.2.2.2, if_false, refusal, List.mem_cons, List.not_mem_nil, or_false] at hm
          rcases hm with hm | hm
          · exact absurd hm (badAddress_ne_msg _ _)
          · exact absurd hm (badAddress_ne_usage _ _ _)
      · rintro ⟨c', f', e', hl, he⟩
        simp only [List.cons.injEq, and_true] at hl
        obtain ⟨-, rfl, -⟩ := hl
        rw [hu] at he; cases he

/-- **C129 (partial)** When a transfer is refused, four of the seven commands print their own help and usage. -/
theorem C129_refused_partial (name : String) (h : CmdEnv → TranWorld → List String → CmdOut)
    (cmd : (name, h) ∈ tranCommands) (four : name ∈ ["getdir", "take", "putblind", "delete"]) (E : CmdEnv)
    (w w' : TranWorld) (c a f : String) (rs : List CmdReply) (n : Next) (u : UDPAddr) (good : E.address a = .ok u)
    (ran : h E w [c, a, f] = .ret (w', rs, n)) (refused : ¬ ∃ t, w'.transfers = w.transfers ++ [t]) :
    .inr (.line (.msg (prhelp E.H name))) ∈ said E w name [c, a, f] rs ∧
    .inr (.line (.err (prusage E.H name))) ∈ said E w name [c, a, f] rs ∧ n = .returned := by
  have hn : name ≠ "tran" ∧ name ≠ "files" ∧ name ≠ "get" ∧ name ≠ "give" ∧ name ≠ "put" := by
    simp only [List.mem_cons, List.not_mem_nil, or_false] at four
    rcases four with rfl | rfl | rfl | rfl <;> decide
  rcases start_three cmd ⟨hn.1, hn.2.1⟩ ran with ⟨⟨e, he⟩, -⟩ | ⟨u', r, -, hr, hrs, hnext⟩
  · rw [good] at he; cases he
  · cases r with
    | ok t =>
      rcases newInitiator_ret hr with ⟨-, -, -, e, he⟩ | ⟨-, t', -, ha⟩
      · cases he
      · exact absurd ⟨t', (addInitiator_ret ha).1⟩ refused
    | error e =>
      simp only [hn.2.2.1, hn.2.2.2.1, hn.2.2.2.2, if_false] at hrs
      subst hrs
      refine ⟨?_, ?_, hnext e rfl⟩ <;>
      · simp only [said, List.mem_append, List.mem_map, Sum.inr.injEq, exists_eq_right]
        exact .inr (by simp [refusal, usageReply])

/-- **C129** `get` with a host that is none says nothing. `give` calls an address invalid just when it is good and
the transfer is refused. A refused `put` shows the help of `getrm`, and no command is called that. A connection is
called missing to a peer to which none is. -/
theorem C129_counterexample :
    (∀ (E : CmdEnv) (w : TranWorld), cmdGet E w ["get", "x", "f"] = .ret (w, [], .returned) ∧
      said E w "get" ["get", "x", "f"] [] = []) ∧
    (∀ (E : CmdEnv) (w w' : TranWorld) (c a f : String) (rs : List CmdReply) (n : Next),
      cmdGive E w [c, a, f] = .ret (w', rs, n) →
      (.inr (badAddress a) ∈ said E w "give" [c, a, f] rs ↔
        ∃ u e, E.address a = .ok u ∧ E.initiate w "give" u f = .ret (w', .error e))) ∧
    (∀ (E : CmdEnv) (w w' : TranWorld) (c a f : String) (u : UDPAddr) (e : Err), E.address a = .ok u →
      E.initiate w "put" u f = .ret (w', .error e) →
      cmdPut E w [c, a, f] =
        .ret (w', [.line (.msg (prhelp E.H "getrm")), .line (.err (prusage E.H "getrm"))], .returned)) ∧
    (∃ (E : CmdEnv) (w : TranWorld) (p : UDPAddr), (∀ t ∈ w.transfers, t.peer ≠ p) ∧
      .inl (.noConnection p) ∈ said E w "get" ["get", "1.1.1.1", "f"] []) := by
  have hx : ∀ E : CmdEnv, E.address "x" = .error "Invalid IPAddress" := by
    intro E
    have h6 : isIPv6 "x" = false := by decide +kernel
    have h4 : isIPv4 "x" = false := by decide +kernel
    simp [CmdEnv.address, udpAddress, h6, h4]
  refine ⟨?_, ?_, ?_, ?_⟩
  · intro E w
    exact ⟨by simp only [cmdGet, hx], by simp [said, hx]⟩
  · intro E w w' c a f rs n ran
    have hin : .inr (badAddress a) ∈ said E w "give" [c, a, f] rs ↔ badAddress a ∈ rs := by
      simp only [said, List.mem_append, List.mem_map, Sum.inr.injEq, exists_eq_right]
      refine or_iff_right ?_
      repeat' split
      all_goals simp
    rw [hin]
    rcases start_three (name := "give") (h := cmdGive) (by simp [tranCommands]) (by decide) ran with
      ⟨⟨e, he⟩, -, -, rfl⟩ | ⟨u, r, hu, hr, rfl, -⟩
    · constructor
      · intro hm
        simp [badAddress_ne_usage] at hm
      · rintro ⟨u, e', hu, -⟩
        rw [hu] at he; cases he
    · cases r with
      | ok t =>
        constructor
        · intro hm; cases hm
        · rintro ⟨u', e', hu', hr'⟩
          rw [hu] at hu'; cases hu'
          rw [hr] at hr'; cases hr'
      | error e =>
        simp only [String.reduceEq, if_false, if_true, List.mem_cons, true_or, true_iff]
        exact ⟨u, e, hu, hr⟩
  · intro E w w' c a f u e hu hr
    simp only [cmdPut, cmdSend, hu, hr]
    rfl
  · refine ⟨exampleCmds, ⟨[{ Transfer.zero with peer := hostB }], 0, exampleFS⟩, ⟨[], 7542, "1.1.1.1:7542"⟩, ?_, ?_⟩
    · decide +kernel
    · exact note_said (by decide) (u := ⟨[], 7542, "1.1.1.1:7542"⟩) (by rfl) (by decide +kernel)

/-- What the examples look at: the lines of `NewInitiator` and how many lines there are in all. -/
def saidOutline (E : CmdEnv) (w : TranWorld) (name : String) (args : List String)
    (h : CmdEnv → TranWorld → List String → CmdOut) : Option (List Note × Nat) :=
  match h E w args with
  | .ret (_, rs, _) => some ((said E w name args rs).filterMap Sum.getLeft?, (said E w name args rs).length)
  | _ => none

/-- A first transfer to a peer that can be dialled and to one that cannot; there is no such file. -/
example : saidOutline exampleCmds (TranWorld.start exampleFS) "put" ["put", "1.1.1.1", "f"] cmdPut =
    some ([.cannotOpen, .cannotLook, .added "put" ⟨[], 7542, "1.1.1.1:7542"⟩ [0x66#8]], 3) := by decide +kernel
example : saidOutline exampleCmds (TranWorld.start exampleFS) "put" ["put", "9.9.9.9", "f"] cmdPut =
    some ([.cannotDial ⟨[], 7542, "9.9.9.9:7542"⟩, .cannotOpen, .cannotLook,
      .added "put" ⟨[], 7542, "9.9.9.9:7542"⟩ [0x66#8]], 4) := by decide +kernel
/-- The same again is refused, with help and usage. -/
example : (match cmdDelete exampleCmds (TranWorld.start exampleFS) ["delete", "1.1.1.1", "f"] with
    | .ret (w, _, _) => saidOutline exampleCmds w "delete" ["delete", "1.1.1.1", "f"] cmdDelete
    | _ => none) = some ([.inProgress [0x66#8] ⟨[], 7542, "1.1.1.1:7542"⟩], 3) := by decide +kernel
/-- An address that is none. -/
example : saidOutline exampleCmds (TranWorld.start exampleFS) "take" ["take", "x", "f"] cmdTake = some ([], 1) := by
  decide +kernel

end Saratoga
