import Verif.Model.Ending
import Verif.Props.Limits
import Verif.Props.Program
import Verif.Props.MainCrash
/-! # How the process ends: C146 -/
namespace Saratoga

theorem wayOut_isSome {α : Type} (b : Bool) (x : Out α) : (wayOut b x).isSome = true ↔ ¬ x.returns := by
  cases x <;> simp [wayOut, Out.returns]

/-- `x` does not panic. -/
def Calm {α : Type} (x : Out α) : Prop := x ≠ .panic

theorem Calm.bind {α β : Type} {x : Out α} {f : α → Out β} (hx : Calm x) (hf : ∀ a, Calm (f a)) : Calm (x >>= f) := by
  cases x with
  | ret a => exact hf a
  | fatal => exact fun h => by cases h
  | panic => exact absurd rfl hx

theorem calm_ret {α : Type} (a : α) : Calm (Out.ret a) := fun h => by cases h

theorem calm_ite {α : Type} {c : Prop} [Decidable c] {x y : Out α} (hx : Calm x) (hy : Calm y) :
    Calm (if c then x else y) := by split <;> assumption

theorem calm_getStr (T : Tables) (h : BitVec 32) (f : String) : Calm (getStr T h f) := by
  unfold getStr; split <;> exact fun h => by cases h

theorem calm_getTStr (T : Tables) (h : BitVec 8) : Calm (getTStr T h) := by
  unfold getTStr; dsimp only; split <;> exact fun h => by cases h

theorem calm_set (T : Tables) (h : BitVec 32) (f v : String) : Calm (set T h f v) := by
  unfold set
  split
  · exact fun h => by cases h
  · split
    · split <;> exact fun h => by cases h
    · exact fun h => by cases h

theorem calm_print (T : Tables) (t : Timestamp) : Calm (t.print T) :=
  (calm_getTStr _ _).bind fun _ => calm_ret _

theorem calm_now (T : Tables) (t : Timestamp) (flag : String) (clock : GoTime) : Calm (t.now T flag clock) := by
  refine Calm.bind ?_ fun _ => calm_ret _
  unfold Timestamp.new
  refine Calm.bind ?_ fun _ => ?_
  · unfold setT; split <;> exact fun h => by cases h
  · dsimp only
    repeat' first | exact calm_ret _ | apply calm_ite

/-- Nothing the main loop does with a frame panics, with any tables. -/
theorem calm_answer {T : Tables} (clock : GoTime) (fs : FS) (trans : List RxTran) (result : Bool) (code : String)
    (hc : code ∈ tranCodes) : Calm (answerWith T clock fs trans ("errcode=" ++ code) result) := by
  have hs : (strSplit (stripSpaces ("errcode=" ++ code)) ',').map (strSplit · '=') = [["errcode", code]] := by
    revert hc
    revert code
    decide +kernel
  unfold answerWith Status.new
  refine Calm.bind ?_ fun r => ?_
  · refine (calm_set _ _ _ _).bind fun h1 => (calm_set _ _ _ _).bind fun h2 => ?_
    refine Calm.bind ?_ fun r => ?_
    · obtain ⟨x, hx⟩ : ∃ x, strSplit (stripSpaces ("errcode=" ++ code)) ',' = [x] := by
        generalize strSplit (stripSpaces ("errcode=" ++ code)) ',' = l at hs
        cases l with
        | nil => cases hs
        | cons x l =>
          cases l with
          | nil => exact ⟨x, rfl⟩
          | cons y l => simp at hs
      rw [hx] at hs ⊢
      simp only [List.map_cons, List.map_nil, List.cons.injEq, and_true] at hs
      unfold flagLoop
      rw [hs]
      refine Calm.bind ?_ fun r => ?_
      · have e : first ["errcode", code] ∈ statusNames := by show "errcode" ∈ statusNames; decide
        unfold Status.newStep
        dsimp only
        rw [if_pos e]
        refine Calm.bind (calm_ret _ : Calm (second ["errcode", code])) fun v => ?_
        exact (calm_set _ _ _ _).bind fun _ => calm_ret _
      · obtain ⟨s, _ | e⟩ := r <;> exact calm_ret _
    · obtain ⟨s, _ | e⟩ := r <;> exact calm_ret _
  · obtain ⟨s, _ | e⟩ := r <;> exact calm_ret _

theorem calm_addRxTran (T : Tables) (clock : GoTime) (sardir : List Byte) (fs : FS) (trans : List RxTran) (r : Request)
    (source : UDPAddr) : Calm (addRxTran T clock sardir fs trans r source) := by
  have ans : ∀ fs trans result code, code ∈ tranCodes → Calm (answerWith T clock fs trans ("errcode=" ++ code) result) :=
    fun fs trans result code hc => calm_answer clock fs trans result code hc
  have start : ∀ ttype, Calm (startTran T clock fs trans r ttype source) := fun ttype =>
    (calm_now _ _ _ _).bind fun _ => ans _ _ _ "success" (by decide)
  unfold addRxTran
  refine (calm_getStr _ _ _).bind fun ttype => (calm_getStr _ _ _).bind fun version => ?_
  refine calm_ite (ans _ _ _ "badrequest" (by decide)) ?_
  refine (calm_getStr _ _ _).bind fun u => ?_
  refine calm_ite (ans _ _ _ "badrequest" (by decide)) ?_
  refine (calm_getStr _ _ _).bind fun u => ?_
  refine calm_ite (ans _ _ _ "badrequest" (by decide)) ?_
  refine (calm_getStr _ _ _).bind fun u => ?_
  refine calm_ite (ans _ _ _ "cantreceive" (by decide)) ?_
  refine (calm_getStr _ _ _).bind fun u => ?_
  refine calm_ite (ans _ _ _ "cantsend" (by decide)) ?_
  dsimp only
  refine calm_ite (calm_ite (ans _ _ _ "cantreceive" (by decide))
    (calm_ite (ans _ _ _ "filenotfound" (by decide)) (start _))) ?_
  refine calm_ite (calm_ite (ans _ _ _ "filenotfound" (by decide)) ?_) ?_
  · split
    · exact ans _ _ _ "didnotdelete" (by decide)
    · exact ans _ _ _ "success" (by decide)
  refine calm_ite (calm_ite (ans _ _ _ "cantsend" (by decide))
    (calm_ite (ans _ _ _ "fileinuse" (by decide)) (start _))) ?_
  exact ans _ _ _ "badrequest" (by decide)

theorem findPeer_lt {addr : String} : ∀ (ps : List Peer) (i j : Nat), findPeer addr ps i = some j → i ≤ j ∧ j < i + ps.length
  | [], _, _, h => by cases h
  | p :: ps, i, j, h => by
    unfold findPeer at h
    split at h
    · cases h; simp
    · have := findPeer_lt ps (i + 1) j h
      simp only [List.length_cons]
      omega

theorem calm_newPeer (T : Tables) (ipText : List Byte → String) (clock : GoTime) (peers : List Peer) (b : Beacon)
    (a : Option UDPAddr) : Calm (newPeer T ipText clock peers b a) := by
  have dif : ∀ d h f v, Calm (orDiffers T d h f v) := by
    intro d h f v
    unfold orDiffers
    split
    · exact calm_ret _
    · exact (calm_getStr _ _ _).bind fun _ => calm_ret _
  unfold newPeer
  cases a with
  | none => exact calm_ret _
  | some a =>
    dsimp only
    cases hf : findPeer (ipText a.ip) peers 0 with
    | some i =>
      have hi := (findPeer_lt _ _ _ hf).2
      dsimp only
      unfold updatePeer
      rw [List.getElem?_eq_getElem (by omega)]
      dsimp only
      refine Calm.bind ?_ fun d => calm_ite ?_ (calm_ret _)
      · exact (dif _ _ _ _).bind fun _ => (dif _ _ _ _).bind fun _ => dif _ _ _ _
      · refine Calm.bind ?_ fun _ => calm_ret _
        exact (calm_getStr _ _ _).bind fun _ => (calm_getStr _ _ _).bind fun _ => (calm_getStr _ _ _).bind fun _ =>
          (calm_now _ _ _ _).bind fun _ => calm_ret _
    | none =>
      refine Calm.bind ?_ fun _ => calm_ret _
      exact (calm_getStr _ _ _).bind fun _ => (calm_getStr _ _ _).bind fun _ => (calm_getStr _ _ _).bind fun _ =>
        (calm_now _ _ _ _).bind fun _ => calm_ret _

theorem calm_status (T : Tables) (s : Status) : Calm (s.shortPrint T) := by
  have last : Calm (do let _ ← getStr T s.header "errcode"; pure () : Out Unit) :=
    (calm_getStr _ _ _).bind fun _ => calm_ret _
  refine (calm_getStr _ _ _).bind fun rt => ?_
  exact calm_ite ((calm_print _ _).bind fun _ => last) last

theorem calm_rx (S : Setup) (w : World) (clock : GoTime) (source : UDPAddr) (f : Frame) :
    w.rxEnding S clock source f = none ∨ w.rxEnding S clock source f = some .fatal := by
  have out : ∀ {α : Type} (x : Out α), Calm x → wayOut true x = none ∨ wayOut true x = some .fatal := by
    intro α x hx
    cases x with
    | ret a => exact .inl rfl
    | fatal => exact .inr rfl
    | panic => exact absurd rfl hx
  cases f with
  | beacon b =>
    refine out _ (Calm.bind ?_ fun _ => calm_newPeer _ _ _ _ _ _)
    exact (calm_getStr _ _ _).bind fun _ => calm_ret _
  | data d => exact out _ ((calm_getStr _ _ _).bind fun _ => calm_ite (calm_print _ _) (calm_ret _))
  | metadata m =>
    exact out _ ((calm_getStr _ _ _).bind fun _ => (calm_print _ _).bind fun _ => calm_print _ _)
  | request r => exact out _ (calm_addRxTran _ _ _ _ _ _ _)
  | status s => exact out _ (calm_status _ _)

/-! ## It is told of the ends there are -/

theorem orEnd_ended {α : Type} {w : World} (b : Bool) (x : Out α) (f : α → World)
    (hf : ∀ a, (f a).main ≠ .ended) : (w.orEnd x f).main = .ended ↔ (wayOut b x).isSome = true := by
  cases x with
  | ret a => exact ⟨fun h => absurd h (hf a), fun h => by cases h⟩
  | fatal => exact ⟨fun _ => rfl, fun _ => rfl⟩
  | panic => exact ⟨fun _ => rfl, fun _ => rfl⟩

theorem command_main {M : Machine} {o : Replies} {p p' : Program} {cmd : String} {args : List String}
    (h : p.command M o cmd args = .ret p') : p'.net.main = p.net.main := by
  unfold Program.command at h
  split at h
  · cases h; rfl
  · split at h
    · obtain ⟨r, _, h2⟩ := Out.bind_eq_ret h
      cases h2; rfl
    · split at h
      · obtain ⟨r, _, h2⟩ := Out.bind_eq_ret h
        cases h2; rfl
      · split at h
        · obtain ⟨r, _, h2⟩ := Out.bind_eq_ret h
          cases h2; rfl
        · split at h <;> (cases h; rfl)

/-- **C146, which steps.** A step of the running program ends the process exactly if a way is told here. -/
theorem C146_agrees {M : Machine} {p p' : Program} {e : Event} (running : p.net.main ≠ .ended)
    (h : p.step M e = some p') : p'.net.main = .ended ↔ (p.ending M e).isSome = true := by
  rcases program_step_cases h with ⟨a, w, rfl, _, hs, rfl⟩ | ⟨line, o, rfl, _, rfl⟩
  · show w.main = .ended ↔ (p.net.ending M.S a).isSome = true
    rcases step_cases hs with ⟨d, rfl, hm, hr, rfl⟩ | ⟨g, rfl, hm, hr, rfl⟩ | ⟨g, clock, f, addr, rfl, hm, hr, rfl⟩ |
      ⟨g, s, addr, rfl, hm, hr, rfl⟩ | ⟨g, rfl, hm, hr, rfl⟩ | ⟨rfl, hm, rfl⟩ | ⟨rfl, hm, rfl⟩ | ⟨f, rfl, hm, rfl⟩
    · refine orEnd_ended false _ _ fun act => ?_
      cases act <;> exact running
    · exact ⟨fun h => absurd h running, fun h => by cases h⟩
    · simp only [World.ending, hr]
      unfold World.onRx
      cases f with
      | beacon b => exact orEnd_ended true _ _ fun _ => running
      | data d => exact orEnd_ended true _ _ fun _ => running
      | metadata m => exact orEnd_ended true _ _ fun _ => running
      | request r =>
        refine orEnd_ended true _ _ fun e => ?_
        cases e.sent with
        | none => exact running
        | some st => exact fun h => by cases h
      | status s => exact orEnd_ended true _ _ fun _ => running
    · simp only [World.ending, hr]
      exact orEnd_ended true _ _ fun _ => running
    · exact ⟨fun _ => rfl, fun _ => rfl⟩
    · exact ⟨fun _ => rfl, fun _ => rfl⟩
    · exact absurd rfl ‹Action.kill ≠ .kill›
    · exact ⟨fun h => absurd h running, fun h => by cases h⟩
  · unfold Program.enter Program.ending
    dsimp only
    cases getLine (M.H.map Prod.fst) cmdHandlers line with
    | fatal => exact ⟨fun _ => rfl, fun _ => rfl⟩
    | panic => exact ⟨fun _ => rfl, fun _ => rfl⟩
    | ret r =>
      cases r with
      | started cmd args =>
        dsimp only
        cases hc : p.command M o cmd args with
        | fatal => exact ⟨fun _ => rfl, fun _ => rfl⟩
        | panic => exact ⟨fun _ => rfl, fun _ => rfl⟩
        | ret p' =>
          rw [command_main hc]
          exact ⟨fun h => absurd h running, fun h => by cases h⟩
      | _ => exact ⟨fun h => absurd h running, fun h => by cases h⟩

example : ∃ p', (Program.init exampleFS shippedSettings).net.main ≠ .ended ∧
    (Program.init exampleFS shippedSettings).step exampleMachine (.net (.recv ⟨.v4, ⟨0, 0⟩, someRequest, someone⟩)) = some p' :=
  ⟨_, by decide, rfl⟩

/-! ## C146 -/

/-- **C146, the running program.** However it ends, with any tables and any machine: the terminal is not given back, and
the exit status is 1 or 2. -/
theorem C146_never_in_order {M : Machine} {p : Program} {e : Event} {how : Ending} (h : p.ending M e = some how) :
    how.closes = false ∧ (how.status = 1 ∨ how.status = 2) := by
  have net : ∀ (x : Option Ending), x = none ∨ x = some .fatal → x = some how →
      how.closes = false ∧ (how.status = 1 ∨ how.status = 2) := by
    rintro x (rfl | rfl) hx
    · cases hx
    · cases hx; exact ⟨rfl, .inl rfl⟩
  have other : ∀ {α : Type} (x : Out α), wayOut false x = some how →
      how.closes = false ∧ (how.status = 1 ∨ how.status = 2) := by
    intro α x hx
    cases x with
    | ret a => cases hx
    | fatal => cases hx; exact ⟨rfl, .inl rfl⟩
    | panic => cases hx; exact ⟨rfl, .inr rfl⟩
  cases e with
  | net a =>
    cases a with
    | recv d => exact other _ h
    | takeRx fam clock =>
      simp only [Program.ending, World.ending] at h
      split at h
      · exact net _ (calm_rx _ _ _ _ _) h
      · cases h
    | takeTx fam =>
      simp only [Program.ending, World.ending] at h
      split at h
      · rename_i s _ _
        refine net _ ?_ h
        have := calm_status M.S.T s
        cases hs : s.shortPrint M.S.T with
        | ret a => exact .inl rfl
        | fatal => exact .inr rfl
        | panic => exact absurd hs this
      · cases h
    | takeQuit fam => cases h; exact ⟨rfl, .inl rfl⟩
    | userQuit => cases h; exact ⟨rfl, .inl rfl⟩
    | _ => cases h
  | typed line o =>
    simp only [Program.ending] at h
    split at h
    · exact other _ h
    · cases h
    · cases h; exact ⟨rfl, .inl rfl⟩
    · cases h; exact ⟨rfl, .inr rfl⟩

/-- **C146, before the loop.** What is told of the ends before the loop agrees with whether the loop is reached: the
process ends at the start exactly if `start` does not get there, and returns, is ended by `log.Fatal` or panics as told. -/
theorem C146_start_agrees (h : Host) (args : List String) :
    (startEnding h args = none ↔ ∃ r, start h args = .ret (some r)) ∧
    ((∃ up, startEnding h args = some (up, .back)) ↔ start h args = .ret none) ∧
    ((∃ up, startEnding h args = some (up, .fatal)) ↔ start h args = .fatal) ∧
    ((∃ up, startEnding h args = some (up, .mainPanic)) ↔ start h args = .panic) ∧
    ∀ up, startEnding h args ≠ some (up, .otherPanic) := by
  match args with
  | [] => simp [startEnding, start]
  | [_] => simp [startEnding, start]
  | [_, _] => simp [startEnding, start]
  | _ :: _ :: _ :: _ :: _ => simp [startEnding, start]
  | [prog, file, name] =>
  cases hc : h.config file with
  | fatal => simp [startEnding, start, hc, bind, Out.bind]
  | panic => simp [startEnding, start, hc, bind, Out.bind]
  | ret r =>
  cases r with
  | error e => simp [startEnding, start, hc, bind, Out.bind, pure]
  | ok c =>
  rcases hch : h.fs.chdir c.sardir with ⟨fs, _ | e⟩
  · cases hst : fs.stat c.sardir with
    | none => simp [startEnding, start, hc, hch, hst, bind, Out.bind, pure]
    | some n =>
    cases hif : h.iface name with
    | none => simp [startEnding, start, hc, hch, hst, hif, bind, Out.bind, pure]
    | some mtu =>
    cases hg : h.gui with
    | false => simp [startEnding, start, hc, hch, hst, hif, hg, bind, Out.bind, pure]
    | true =>
    cases hi : h.interfaces with
    | false => simp [startEnding, start, hc, hch, hst, hif, hg, hi, bind, Out.bind, pure]
    | true =>
    cases hk : h.keys with
    | false => simp [startEnding, start, hc, hch, hst, hif, hg, hi, hk, bind, Out.bind, pure]
    | true =>
    cases h6 : openGroup h .v6 name c.v6multicast c.port with
    | fatal => simp [startEnding, start, hc, hch, hst, hif, hg, hi, hk, h6, wayOut, bind, Out.bind, pure]
    | panic => simp [startEnding, start, hc, hch, hst, hif, hg, hi, hk, h6, wayOut, bind, Out.bind, pure]
    | ret g6 =>
    cases h4 : openGroup h .v4 name c.v4multicast c.port with
    | fatal => simp [startEnding, start, hc, hch, hst, hif, hg, hi, hk, h6, h4, wayOut, bind, Out.bind, pure]
    | panic => simp [startEnding, start, hc, hch, hst, hif, hg, hi, hk, h6, h4, wayOut, bind, Out.bind, pure]
    | ret g4 => simp [startEnding, start, hc, hch, hst, hif, hg, hi, hk, h6, h4, wayOut, bind, Out.bind, pure]
  · simp [startEnding, start, hc, hch, bind, Out.bind, pure]

theorem openGroup_out (h : Host) (fam : Fam) (iface group : String) (port : Int) :
    (∃ m, h.Joins fam iface group port m) ∧ wayOut true (openGroup h fam iface group port) = none ∨
    (¬ ∃ m, h.Joins fam iface group port m) ∧ wayOut true (openGroup h fam iface group port) = some .fatal := by
  cases ho : openGroup h fam iface group port with
  | ret m => exact .inl ⟨⟨m, (openGroup_iff ..).1 ho⟩, rfl⟩
  | fatal =>
    refine .inr ⟨?_, rfl⟩
    rintro ⟨m, hm⟩
    rw [(openGroup_iff ..).2 hm] at ho; cases ho
  | panic =>
    exfalso
    unfold openGroup at ho
    split at ho
    · cases ho
    · split at ho
      · cases ho
      · split at ho <;> cases ho

/-- What `start` has got past when the windows are up. -/
theorem windows_up {h : Host} {args : List String} {e : Ending} (hs : startEnding h args = some (true, e)) :
    ∃ prog file name c dir, args = [prog, file, name] ∧ h.config file = .ret (.ok c) ∧ h.Enters c.sardir dir ∧
      (∃ mtu, h.iface name = some mtu) ∧ h.gui = true := by
  unfold startEnding at hs
  split at hs
  · rename_i prog file name
    split at hs
    · cases hs
    · cases hs
    · cases hs
    · rename_i c hc
      rcases hch : h.fs.chdir c.sardir with ⟨fs, _ | er⟩
      · rw [hch] at hs
        simp only at hs
        cases hst : fs.stat c.sardir with
        | none => rw [hst] at hs; cases hs
        | some n =>
        rw [hst] at hs
        simp only at hs
        cases hif : h.iface name with
        | none => rw [hif] at hs; cases hs
        | some mtu =>
        rw [hif] at hs
        simp only at hs
        split at hs
        · cases hs
        rename_i hg
        unfold FS.chdir at hch
        split at hch
        · cases hch
        rename_i l hl
        split at hch
        · cases hch
        rename_i hr
        split at hch
        · rename_i hd
          cases hch
          refine ⟨prog, file, name, c, l, rfl, hc, ⟨hl, hd, by simpa using hr, ?_⟩, ⟨mtu, hif⟩, by simpa using hg⟩
          unfold FS.stat at hst
          split at hst
          · cases hst
          · rename_i l' hl'
            split at hst
            · cases hst
            · rename_i hr'
              exact ⟨l', hl', by simpa using hr', fun e => nomatch e.symm.trans hst⟩
        · cases hch
      · rw [hch] at hs; cases hs
  · cases hs

/-- **C146, at the start.** The start leaves the terminal as it has made it exactly if, behind the windows, the
interfaces cannot be listed, or one of the two groups cannot be joined. -/
theorem C146_start_terminal (h : Host) (args : List String) :
    (∃ e, startEnding h args = some (true, e) ∧ e.closes = false) ↔
      ∃ prog file name c dir, args = [prog, file, name] ∧ h.config file = .ret (.ok c) ∧ h.Enters c.sardir dir ∧
        (∃ mtu, h.iface name = some mtu) ∧ h.gui = true ∧
        (h.interfaces = false ∨ h.keys = true ∧
          ((¬ ∃ m, h.Joins .v6 name c.v6multicast c.port m) ∨ ¬ ∃ m, h.Joins .v4 name c.v4multicast c.port m)) := by
  constructor
  · rintro ⟨e, hs, hcl⟩
    obtain ⟨prog, file, name, c, dir, rfl, hc, hen, ⟨mtu, hif⟩, hg⟩ := windows_up hs
    refine ⟨prog, file, name, c, dir, rfl, hc, hen, ⟨mtu, hif⟩, hg, ?_⟩
    obtain ⟨p1, p2, p3, l, p4, p5, p6⟩ := hen
    have hch : h.fs.chdir c.sardir = ({ h.fs with cwd := dir }, none) := by simp [FS.chdir, p1, p2, p3]
    obtain ⟨n, hst⟩ : ∃ n, FS.stat { h.fs with cwd := dir } c.sardir = some n := by
      unfold FS.stat; rw [p4]; simp only [p5]; exact Option.ne_none_iff_exists'.1 p6
    simp only [startEnding, hc, hch, hst, hif, hg] at hs
    cases hi : h.interfaces with
    | false => exact .inl rfl
    | true =>
    cases hk : h.keys with
    | false => simp [hi, hk] at hs; subst hs; cases hcl
    | true =>
    refine .inr ⟨rfl, ?_⟩
    simp only [hi, hk] at hs
    rcases openGroup_out h .v6 name c.v6multicast c.port with ⟨_, h6⟩ | ⟨h6, _⟩
    · rcases openGroup_out h .v4 name c.v4multicast c.port with ⟨_, h4⟩ | ⟨h4, _⟩
      · simp [h6, h4] at hs
      · exact .inr h4
    · exact .inl h6
  · rintro ⟨prog, file, name, c, dir, rfl, hc, ⟨p1, p2, p3, l, p4, p5, p6⟩, ⟨mtu, hif⟩, hg, rest⟩
    have hch : h.fs.chdir c.sardir = ({ h.fs with cwd := dir }, none) := by simp [FS.chdir, p1, p2, p3]
    obtain ⟨n, hst⟩ : ∃ n, FS.stat { h.fs with cwd := dir } c.sardir = some n := by
      unfold FS.stat; rw [p4]; simp only [p5]; exact Option.ne_none_iff_exists'.1 p6
    refine ⟨.fatal, ?_, rfl⟩
    simp only [startEnding, hc, hch, hst, hif, hg]
    cases hi : h.interfaces with
    | false => simp
    | true =>
    rcases rest with r | ⟨hk, r⟩
    · rw [hi] at r; cases r
    rw [hk]
    rcases openGroup_out h .v6 name c.v6multicast c.port with ⟨j6, h6⟩ | ⟨_, h6⟩
    · rcases openGroup_out h .v4 name c.v4multicast c.port with ⟨j4, h4⟩ | ⟨_, h4⟩
      · rcases r with r | r
        · exact absurd j6 r
        · exact absurd j4 r
      · simp [h6, h4]
    · simp [h6]

/-- **C146, status 0.** Once it is called, the exit status is 0 exactly if it did not start: for a wrong number of
arguments, or a configuration that cannot be read. -/
theorem C146_status_zero (h : Host) (args : List String) :
    (∃ up e, startEnding h args = some (up, e) ∧ e.status = 0) ↔
      args.length ≠ 3 ∨ ∃ prog file name er, args = [prog, file, name] ∧ h.config file = .ret (.error er) := by
  rw [← C105_message, ← (C146_start_agrees h args).2.1]
  constructor
  · rintro ⟨up, e, h1, h2⟩
    cases e <;> first | exact ⟨up, h1⟩ | cases h2
  · rintro ⟨up, h1⟩
    exact ⟨up, .back, h1, rfl⟩

/-- **C146, the other statuses.** Before the loop the status is 1 exactly if `log.Fatal` ended the start, and 2 exactly
if it panicked, as the Go runtime has it. -/
theorem C146_status_start (h : Host) (args : List String) :
    ((∃ up e, startEnding h args = some (up, e) ∧ e.status = 1) ↔ start h args = .fatal) ∧
    ((∃ up e, startEnding h args = some (up, e) ∧ e.status = 2) ↔ start h args = .panic) := by
  obtain ⟨_, _, a3, a4, a5⟩ := C146_start_agrees h args
  rw [← a3, ← a4]
  refine ⟨⟨?_, ?_⟩, ⟨?_, ?_⟩⟩
  · rintro ⟨up, e, h1, h2⟩
    cases e <;> first | exact ⟨up, h1⟩ | cases h2
  · rintro ⟨up, h1⟩; exact ⟨up, _, h1, rfl⟩
  · rintro ⟨up, e, h1, h2⟩
    cases e <;> first | exact ⟨up, h1⟩ | exact absurd h1 (a5 up) | cases h2
  · rintro ⟨up, h1⟩; exact ⟨up, _, h1, rfl⟩

/-- **C146, partial.** With both arguments and a configuration that can be read, a start that does not reach the loop ends
with a status other than 0; and before the windows are up there is no terminal to give back. What is missing: the status
of the two failures `C146_status_zero` names, and everything once the windows are up (`C146_never_in_order`). -/
theorem C146_failures_partial {h : Host} {prog file name : String} {c : Cliflags} (read : h.config file = .ret (.ok c))
    (fails : ¬ ∃ r, start h [prog, file, name] = .ret (some r)) :
    ∃ up how, startEnding h [prog, file, name] = some (up, how) ∧ how.status ≠ 0 := by
  have hne : startEnding h [prog, file, name] ≠ none := fun e => fails ((C146_start_agrees h _).1.1 e)
  obtain ⟨⟨up, how⟩, hs⟩ := Option.ne_none_iff_exists'.1 hne
  refine ⟨up, how, hs, fun h0 => ?_⟩
  rcases (C146_status_zero h _).1 ⟨up, how, hs, h0⟩ with hl | ⟨p, f, n, er, he, hc⟩
  · exact hl rfl
  · cases he
    rw [read] at hc
    cases hc

/-- Such a start: the interface asked for is not there. -/
example : startEnding { exampleHost with iface := fun _ => none } ["saratoga", "saratoga.json", "en0"] =
    some (false, .fatal) := by
  decide +kernel

/-- **C146, counterexample.** Ctrl-C, with nothing wrong: exit status 1, and the terminal is not given back. A
configuration that cannot be read: exit status 0. -/
theorem C146_counterexample :
    (∃ (M : Machine) (fs : FS) (c : Cliflags) (p : Program) (how : Ending),
      (Program.init fs c).step M (.net .userQuit) = some p ∧ p.net.main = .ended ∧
      (Program.init fs c).ending M (.net .userQuit) = some how ∧ how.status = 1 ∧ how.closes = false) ∧
    ∃ (h : Host) (args : List String) (e : Err), args = ["saratoga", "saratoga.json", "en0"] ∧
      h.config "saratoga.json" = .ret (.error e) ∧ ∃ up how, startEnding h args = some (up, how) ∧ how.status = 0 :=
  ⟨⟨exampleMachine, exampleFS, shippedSettings, _, _, rfl, rfl, rfl, rfl, rfl⟩,
    { exampleHost with config := fun _ => .ret (.error "no such file") }, _, "no such file", rfl, rfl, _, _, rfl, rfl⟩

/-- A host on which the start leaves the terminal: it cannot join the group for IPv4. -/
example : startEnding { exampleHost with join := fun fam m => if fam = .v4 then none else exampleHost.join fam m }
    ["saratoga", "saratoga.json", "en0"] = some (true, .fatal) := by
  decide +kernel

/-- A request with the shipped tables: an end in the goroutine of `main`, and no panic. -/
example : ((Program.init exampleFS shippedSettings).run exampleMachine
    [.net (.recv ⟨.v4, ⟨0, 0⟩, someRequest, someone⟩)]).map (fun p =>
      p.ending exampleMachine (.net (.takeRx .v4 ⟨5, 0⟩))) = some (some .fatal) := by
  decide +kernel

end Saratoga
