import Verif.Props.Arrivals
/-!
# C139: Ctrl-C when requests are answered
-/
namespace Saratoga

theorem asked_sticks {S : Setup} (ht : TranTables S.T) {fs : FS} {w : World} (reach : Reachable S fs w)
    (asked : AskedFor w) : w.main ≠ .select := by
  revert asked
  refine reachable_induction (P := fun w => AskedFor w → w.main ≠ .select) (fun ⟨_, h, _⟩ => by cases h) ?_ reach
  intro w b w' ih hs asked
  by_cases old : AskedFor w
  · exact (stuck_stays (ih old) [b] (by show (w.step S b).bind _ = _; rw [hs]; rfl)).1
  · have same : w'.handled = w.handled → w'.main ≠ .select := fun e =>
      absurd (by unfold AskedFor at asked ⊢; rw [e] at asked; exact asked) old
    rcases step_cases hs with ⟨d, rfl, _, hr, rfl⟩ | ⟨g, rfl, _, hr, rfl⟩ | ⟨g, clock, f, a, rfl, hm, hr, rfl⟩ |
      ⟨g, s, addr, rfl, hm, hr, rfl⟩ | ⟨g, rfl, hm, hr, rfl⟩ | ⟨rfl, hm, rfl⟩ |
      ⟨rfl, hm, rfl⟩ | ⟨fs1, rfl, hm, rfl⟩
    · refine same ?_
      rcases onRecv_cases S w d with ⟨_, h⟩ | ⟨hf, h⟩ | ⟨f, hf, h⟩ | ⟨s, hf, h⟩ <;> rw [h] <;> rfl
    · exact same rfl
    · obtain ⟨x, hx, r, hxr⟩ := asked
      rw [(onRx_logs S w g clock f a).2.2.1, List.mem_append] at hx
      rcases hx with hx | hx
      · exact absurd ⟨x, hx, r, hxr⟩ old
      · rw [List.mem_singleton] at hx
        subst hx
        simp only at hxr
        subst hxr
        exact request_sticks ht hr hs
    · exact same (onTx_logs S w g s addr).2.2.1
    · exact same rfl
    · exact same rfl
    · exact same rfl
    · exact same rfl

/-- After Ctrl-C the main loop can take the end of the windows exactly if it is at its `select`. -/
theorem quit_iff {M : Machine} {d : Desk} (left : d.left = true) :
    (∃ d', d.step M (.net .userQuit) = some d') ↔ d.prog.net.main = .select := by
  simp only [Desk.step, if_pos left, Program.step, World.step]
  cases d.prog.net.main with
  | select => exact ⟨fun _ => rfl, fun _ => ⟨_, rfl⟩⟩
  | sending r => exact ⟨(by rintro ⟨_, h⟩; cases h), nofun⟩
  | ended => exact ⟨(by rintro ⟨_, h⟩; cases h), nofun⟩

/-- **C139** what holds: with tables that let requests be answered, Ctrl-C is taken in every state of a running process,
and the main loop can then end the process exactly if no request has been handled so far. -/
theorem C139_ends_iff_partial {M : Machine} (ht : TranTables M.S.T) {prompt : String} {ppad : Int}
    {width r1 r2 r3 r4 : Nat} {fs : FS} {c : Cliflags} {es : List DeskEvent} {d : Desk}
    (h : (Desk.start prompt ppad width r1 r2 r3 r4 fs c).run M es = some d) (running : ¬ d.prog.Ended) :
    (d.left = false → ∀ o, d.step M (.press (.key .ctrlC) o) = some { d with left := true }) ∧
    (d.left = true → ((∃ d', d.step M (.net .userQuit) = some d') ↔ ¬ AskedFor d.prog.net)) := by
  refine ⟨fun hl o => ?_, fun hl => ?_⟩
  · simp only [Desk.step]
    rw [if_neg (fun e => e.elim running (by rw [hl]; exact nofun)), (C125_quit _ _ d.term _).2 rfl]
  · obtain ⟨ps, p1, _⟩ := C136_program h
    rw [quit_iff hl]
    exact ⟨fun hm asked => asked_sticks ht (C127_network p1) asked hm,
      fun no => (unasked (C127_network p1) no).2.resolve_right running⟩

/-- **C139** fails: once a request was handled, in every continuation the main loop never takes the end of the windows. -/
theorem C139_deaf {M : Machine} (ht : TranTables M.S.T) {prompt : String} {ppad : Int}
    {width r1 r2 r3 r4 : Nat} {fs : FS} {c : Cliflags} {es : List DeskEvent} {d : Desk}
    (h : (Desk.start prompt ppad width r1 r2 r3 r4 fs c).run M es = some d) (asked : AskedFor d.prog.net)
    (more : List DeskEvent) (d' : Desk) (hr : d.run M more = some d') : d'.step M (.net .userQuit) = none := by
  have h' : (Desk.start prompt ppad width r1 r2 r3 r4 fs c).run M (es ++ more) = some d' :=
    (desk_append es).2 ⟨d, h, hr⟩
  obtain ⟨ps, p1, _⟩ := C136_program h
  have stay := desk_induction (M := M) (P := fun _ x => x.prog.net.main ≠ .select) ?_ more (pre := [])
    (asked_sticks ht (C127_network p1) asked) hr
  · by_cases hl : d'.left = true
    · cases hx : d'.step M (.net .userQuit) with
      | none => rfl
      | some y => exact absurd ((quit_iff hl).1 ⟨y, hx⟩) stay
    · simp only [Desk.step, if_neg hl]
  · intro _ x e y hm hs
    rcases desk_step_cases hs with ⟨o, rfl, _, _, rfl⟩ | ⟨k, o, u, n, rfl, _, _, _, hp, rfl⟩ |
      ⟨k, o, u, r, rfl, _, _, _, hp, hg, rfl⟩ | ⟨k, o, rfl, _, hg, rfl⟩ | ⟨a, p, rfl, _, hp, rfl⟩ |
      ⟨z, u, rfl, _, _, _, hu, _, _, rfl⟩
    · exact hm
    · exact hm
    · rcases enter_cases M o x.prog (String.ofList x.term.cmd.line) with ⟨e, _⟩ | ⟨cmd, args, _, p', hc, e⟩ | ⟨e, _⟩
      · simp only [e]; exact hm
      · simp only [e]
        rw [(command_done hc).net]
        exact hm
      · simp only [e]; exact fun e => by cases e
    · exact fun e => by cases e
    · rcases program_step_cases hp with ⟨b, w, e, _, h1, rfl⟩ | ⟨line, o, e, _⟩
      · cases e
        exact (stuck_stays hm [_] (by show (x.prog.net.step M.S a).bind _ = _; rw [h1]; rfl)).1
      · cases e
    · exact hm

/-- The machine of the examples with tables that let requests be answered. -/
def answeringMachine : Machine := { exampleMachine with S := patchedSetup }

example : ((Desk.start "saratoga" 3 40 4 10 4 10 tranFS shippedSettings).run answeringMachine
    [.net (.recv ⟨.v4, ⟨0, 0⟩, plainBeacon, someone⟩), .net (.takeRx .v4 ⟨5, 0⟩)]).map
      (fun d => d.prog.net.main == .ended) = some false := by decide +kernel

/-- **C139** fails: a request comes in and is handled; then the user presses Ctrl-C. The windows are gone, the process
runs, and in no continuation does the main loop ever notice. -/
theorem C139_counterexample : ∃ (M : Machine) (es : List DeskEvent) (d : Desk), TranTables M.S.T ∧
    (Desk.start "saratoga" 3 40 4 10 4 10 tranFS shippedSettings).run M es = some d ∧ d.left = true ∧ ¬ d.prog.Ended ∧
    (∀ k o, d.step M (.press k o) = none) ∧
    ∀ more d', d.run M more = some d' → d'.step M (.net .userQuit) = none := by
  obtain ⟨d, h, hl, hm, ha⟩ : ∃ d, (Desk.start "saratoga" 3 40 4 10 4 10 tranFS shippedSettings).run answeringMachine
      [.net (.recv ⟨.v4, ⟨0, 0⟩, someRequest, someone⟩), .net (.takeRx .v4 ⟨1000000000, 0⟩),
       .press (.key .ctrlC) calmReplies] = some d ∧ d.left = true ∧ d.prog.net.main ≠ .ended ∧
      d.prog.net.handled = [⟨.v4, .request ⟨0x210F0001#32, 5, [0x66#8], []⟩, someone, ⟨1000000000, 0⟩⟩] :=
    ⟨_, rfl, rfl, by decide +kernel, by decide +kernel⟩
  refine ⟨answeringMachine, _, d, patched_tables, h, hl, hm, fun k o => if_pos (.inr hl), fun more d' hr => ?_⟩
  exact C139_deaf (M := answeringMachine) patched_tables h
    ⟨_, by rw [ha]; exact List.mem_singleton.2 rfl, _, rfl⟩ more d' hr

/-- Without a request it ends. -/
example : ((Desk.start "saratoga" 3 40 4 10 4 10 tranFS shippedSettings).run answeringMachine
    [.net (.recv ⟨.v4, ⟨0, 0⟩, plainBeacon, someone⟩), .net (.takeRx .v4 ⟨5, 0⟩), .press (.key .ctrlC) calmReplies,
      .net .userQuit]).map (fun d => (d.left, d.prog.net.main == .ended)) = some (true, true) := by
  decide +kernel

end Saratoga
