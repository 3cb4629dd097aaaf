import Verif.Props.Network
import Verif.Props.Desk
import Verif.Spec.Busy
/-! # Commands at the same time: C145 -/
namespace Saratoga

theorem busy_induction {M : Machine} {P : List BusyEvent → Busy → Prop}
    (step : ∀ es b e b', P es b → b.step M e = some b' → P (es ++ [e]) b') :
    ∀ (es : List BusyEvent) {pre : List BusyEvent} {b b' : Busy}, P pre b → b.run M es = some b' → P (pre ++ es) b'
  | [], pre, b, b', h, hr => by cases hr; rw [List.append_nil]; exact h
  | e :: es, pre, b, b', h, hr => by
    unfold Busy.run at hr
    cases h1 : b.step M e with
    | none => rw [h1] at hr; cases hr
    | some b1 =>
      rw [h1] at hr
      have := busy_induction step es (step _ _ _ _ h h1) hr
      rwa [List.append_assoc] at this

theorem busyLeads_induction {M : Machine} {fs : FS} {c : Cliflags} {P : List BusyEvent → Busy → Prop}
    (init : P [] (Busy.init fs c)) (step : ∀ es b e b', P es b → b.step M e = some b' → P (es ++ [e]) b')
    {es : List BusyEvent} {b : Busy} (h : BusyLeads M fs c es b) : P es b :=
  busy_induction step es (pre := []) init h

theorem busy_run_append {M : Machine} : ∀ (es fs : List BusyEvent) (b : Busy),
    b.run M (es ++ fs) = (b.run M es).bind fun b => b.run M fs
  | [], _, _ => rfl
  | e :: es, fs, b => by
    show (b.step M e).bind _ = ((b.step M e).bind _).bind _
    cases b.step M e with
    | none => rfl
    | some b1 => exact busy_run_append es fs b1

/-- The goroutines that wait were started by their lines. -/
def Busy.Honest (M : Machine) (b : Busy) : Prop :=
  ∀ q ∈ b.queue, getLine (M.H.map Prod.fst) cmdHandlers q.line = .ret (.started q.cmd q.args)

/-- What one step amounts to when commands run one after another. -/
inductive Amounts (M : Machine) (b b' : Busy) : BusyEvent → List Event → Prop where
  | net (a : Action) : b.prog.step M (.net a) = some b'.prog → b'.queue = b.queue →
      b'.trace ++ b'.holder.getD [] = b.trace ++ b.holder.getD [] → b'.holder = b.holder → Amounts M b b' (.net a) [.net a]
  | start (line : String) (q : Queued) : getLine (M.H.map Prod.fst) cmdHandlers line = .ret (.started q.cmd q.args) →
      q.line = line → b'.queue = b.queue ++ [q] → b'.prog = b.prog → b'.holder = b.holder → b'.trace = b.trace →
      Amounts M b b' (.typed line) []
  | other (line : String) (o : Replies) : b.prog.step M (.typed line o) = some b'.prog → b'.queue = b.queue →
      b'.holder = b.holder → b'.trace = b.trace → b.prog.emits M o line = [] → o = calmReplies →
      Amounts M b b' (.typed line) [.typed line o]
  | begin (i : Nat) (o : Replies) (q : Queued) (before after : List Queued) : b.queue = before ++ q :: after →
      before.length = i →
      b'.queue = before ++ after → b.prog.step M (.typed q.line o) = some b'.prog → b'.trace = b.trace →
      (needsLock q.cmd = true → b.holder = none) →
      framesOf (b'.holder.getD []) = framesOf (b.holder.getD []) ++ b.prog.emits M o q.line →
      Amounts M b b' (.begin i o) [.typed q.line o]
  | act : b.holder ≠ none → b'.prog = b.prog → b'.queue = b.queue →
      b'.trace ++ b'.holder.getD [] = b.trace ++ b.holder.getD [] → Amounts M b b' .act []

theorem command_of_beacon {M : Machine} {o : Replies} {p : Program} {args : List String} :
    p.command M o "beacon" args =
      (cmdBeacon (M.beaconEnv o) p.settings p.beacon args >>= fun r => .ret { p with beacon := r.1 }) := rfl

theorem enter_of_started {M : Machine} {o : Replies} {p : Program} {line cmd : String} {args : List String}
    (h : getLine (M.H.map Prod.fst) cmdHandlers line = .ret (.started cmd args)) :
    p.enter M o line = (match p.command M o cmd args with | .ret p' => p' | .fatal => p.end_ | .panic => p.end_) := by
  simp only [Program.enter, h]
  cases p.command M o cmd args <;> rfl

theorem busy_amounts {M : Machine} {b b' : Busy} {e : BusyEvent} (honest : b.Honest M) (h : b.step M e = some b') :
    ∃ es, Amounts M b b' e es := by
  unfold Busy.step at h
  split at h
  · cases h
  rename_i running
  cases e with
  | net a =>
    obtain ⟨p, h1, h2⟩ := Option.map_eq_some_iff.1 h
    subst h2
    exact ⟨_, .net a h1 rfl rfl rfl⟩
  | typed line =>
    simp only [Option.some.injEq] at h
    subst h
    have run : ∀ o, b.prog.step M (.typed line o) = some (b.prog.enter M o line) := fun o => by
      simp only [Program.step, if_neg running]
    unfold Busy.enter
    cases hg : getLine (M.H.map Prod.fst) cmdHandlers line with
    | fatal =>
      refine ⟨_, .other line calmReplies ?_ rfl rfl rfl ?_ rfl⟩
      · rw [run]; simp only [Program.enter, hg]
      · simp only [Program.emits, hg]
    | panic =>
      refine ⟨_, .other line calmReplies ?_ rfl rfl rfl ?_ rfl⟩
      · rw [run]; simp only [Program.enter, hg]
      · simp only [Program.emits, hg]
    | ret r =>
      cases r with
      | started cmd args => exact ⟨_, .start line ⟨line, cmd, args⟩ hg rfl rfl rfl rfl rfl⟩
      | _ =>
        refine ⟨_, .other line calmReplies ?_ rfl rfl rfl ?_ rfl⟩
        · rw [run]; simp only [Program.enter, hg]
        · simp only [Program.emits, hg]
  | begin i o =>
    simp only at h
    cases hq : b.queue[i]? with
    | none => rw [hq] at h; cases h
    | some q =>
      rw [hq] at h
      simp only at h
      split at h
      · cases h
      rename_i free
      simp only [Option.some.injEq] at h
      obtain ⟨hi, hget⟩ := List.getElem?_eq_some_iff.1 hq
      have hqueue : b.queue = b.queue.take i ++ q :: b.queue.drop (i + 1) := by
        rw [← hget, List.getElem_cons_drop, List.take_append_drop]
      have hg := honest q (hget ▸ List.getElem_mem hi)
      have run : b.prog.step M (.typed q.line o) = some (b.prog.enter M o q.line) := by
        simp only [Program.step, if_neg running]
      have lock : needsLock q.cmd = true → b.holder = none := by
        intro hl
        cases hh : b.holder with
        | none => rfl
        | some acts => exact absurd ⟨hl, by rw [hh]; exact fun e => by cases e⟩ free
      have er : b.queue.eraseIdx i = b.queue.take i ++ b.queue.drop (i + 1) := List.eraseIdx_eq_take_drop_succ ..
      subst h
      rw [er]
      rw [enter_of_started hg] at run
      refine ⟨_, .begin i o q (b.queue.take i) (b.queue.drop (i + 1)) hqueue ?_ ?_ ?_ ?_ lock ?_⟩
      · rw [List.length_take]; omega
      · unfold Busy.begin; cases b.prog.command M o q.cmd q.args <;> rfl
      · rw [run]; unfold Busy.begin; cases b.prog.command M o q.cmd q.args <;> rfl
      · unfold Busy.begin; cases b.prog.command M o q.cmd q.args <;> rfl
      · by_cases hb : q.cmd = "beacon"
        · have hn : b.holder = none := lock (by rw [hb]; rfl)
          unfold Busy.begin
          rw [hb, command_of_beacon, hn]
          cases hc : cmdBeacon (M.beaconEnv o) b.prog.settings b.prog.beacon q.args with
          | ret r =>
            have em : b.prog.emits M o q.line = framesOf r.2 := by simp only [Program.emits, hg, if_pos hb, hc]
            rw [Out.ret_bind, em]
            simp only [if_pos, beaconPlan, hb, hc]
            rfl
          | fatal =>
            have em : b.prog.emits M o q.line = [] := by simp only [Program.emits, hg, if_pos hb, hc]
            rw [em]; rfl
          | panic =>
            have em : b.prog.emits M o q.line = [] := by simp only [Program.emits, hg, if_pos hb, hc]
            rw [em]; rfl
        · have em : b.prog.emits M o q.line = [] := by simp only [Program.emits, hg, if_neg hb]
          rw [em, List.append_nil]
          unfold Busy.begin
          cases b.prog.command M o q.cmd q.args with
          | ret p => simp only [if_neg hb]
          | fatal => rfl
          | panic => rfl
  | act =>
    simp only at h
    cases hh : b.holder with
    | none => rw [hh] at h; cases h
    | some acts =>
      rw [hh] at h
      cases acts with
      | nil =>
        simp only [Option.some.injEq] at h
        subst h
        exact ⟨_, .act (by rw [hh]; exact fun e => by cases e) rfl rfl (by rw [hh]; rfl)⟩
      | cons a rest =>
        simp only [Option.some.injEq] at h
        subst h
        exact ⟨_, .act (by rw [hh]; exact fun e => by cases e) rfl rfl (by rw [hh]; simp)⟩

theorem amounts_honest {M : Machine} {b b' : Busy} {e : BusyEvent} {es : List Event} (honest : b.Honest M)
    (h : Amounts M b b' e es) : b'.Honest M := by
  cases h with
  | net a _ hq => intro q hm; exact honest q (hq ▸ hm)
  | start line q hg hl hq =>
    intro r hm
    rw [hq] at hm
    rcases List.mem_append.1 hm with hm | hm
    · exact honest r hm
    · cases List.mem_singleton.1 hm; rw [hl]; exact hg
  | other line o _ hq => intro q hm; exact honest q (hq ▸ hm)
  | begin i o q before after h1 _ h2 =>
    intro r hm
    rw [h2] at hm
    refine honest r ?_
    rw [h1]
    rcases List.mem_append.1 hm with hm | hm
    · exact List.mem_append_left _ hm
    · exact List.mem_append_right _ (List.mem_cons_of_mem _ hm)
  | act _ _ hq => intro q hm; exact honest q (hq ▸ hm)

theorem busy_honest {M : Machine} {fs : FS} {c : Cliflags} {es : List BusyEvent} {b : Busy}
    (h : BusyLeads M fs c es b) : b.Honest M := by
  refine busyLeads_induction (P := fun _ b => b.Honest M) (fun q hq => by cases hq) ?_ h
  intro es b e b' ih hs
  obtain ⟨ps, ha⟩ := busy_amounts ih hs
  exact amounts_honest ih ha

/-- Every step of the execution amounts to a run of the program. -/
theorem amounts_run {M : Machine} {b b' : Busy} {e : BusyEvent} {es : List Event} (h : Amounts M b b' e es) :
    b.prog.run M es = some b'.prog := by
  cases h with
  | net a h1 => show (b.prog.step M _).bind _ = _; rw [h1]; rfl
  | start line q _ _ _ hp => rw [hp]; rfl
  | other line o h1 => show (b.prog.step M _).bind _ = _; rw [h1]; rfl
  | begin i o q before after _ _ _ h1 => show (b.prog.step M _).bind _ = _; rw [h1]; rfl
  | act _ hp => rw [hp]; rfl

theorem amounts_net {M : Machine} {b b' : Busy} {e : BusyEvent} {es : List Event} (h : Amounts M b b' e es) :
    netEvents es = netSteps [e] := by
  cases h <;> rfl

theorem framesOf_append : ∀ x y, framesOf (x ++ y) = framesOf x ++ framesOf y
  | [], _ => rfl
  | a :: x, y => by cases a <;> simp [framesOf, framesOf_append x y]

/-- The wire of a step: what was already due and what the step adds. -/
theorem amounts_wire {M : Machine} {b b' : Busy} {e : BusyEvent} {es : List Event} (h : Amounts M b b' e es) :
    framesOf (b'.trace ++ b'.holder.getD []) = framesOf (b.trace ++ b.holder.getD []) ++ wireOf M b.prog es := by
  have fa := framesOf_append
  have one : ∀ line o, wireOf M b.prog [.typed line o] = b.prog.emits M o line := by
    intro line o
    simp only [wireOf]
    cases b.prog.step M (.typed line o) <;> simp
  cases h with
  | net a h1 _ h2 => rw [h2]; simp [wireOf, h1]
  | start line q _ _ _ _ hh ht => rw [hh, ht]; simp [wireOf]
  | other line o _ _ hh ht he => rw [hh, ht, one, he, List.append_nil]
  | begin i o q before after _ _ _ _ ht _ hf => rw [fa, fa, ht, hf, one, List.append_assoc]
  | act _ _ _ h2 => rw [h2]; simp [wireOf]

theorem program_run_append' {M : Machine} : ∀ (es fs : List Event) (p : Program),
    p.run M (es ++ fs) = (p.run M es).bind fun p => p.run M fs
  | [], _, _ => rfl
  | e :: es, fs, p => by
    show (p.step M e).bind _ = ((p.step M e).bind _).bind _
    cases p.step M e with
    | none => rfl
    | some p1 => exact program_run_append' es fs p1

theorem wireOf_append {M : Machine} : ∀ (es fs : List Event) (p p' : Program), p.run M es = some p' →
    wireOf M p (es ++ fs) = wireOf M p es ++ wireOf M p' fs
  | [], fs, p, p', h => by cases h; rfl
  | e :: es, fs, p, p', h => by
    unfold Program.run at h
    cases hs : p.step M e with
    | none => rw [hs] at h; cases h
    | some p1 =>
      rw [hs] at h
      simp only [List.cons_append, wireOf, hs]
      rw [wireOf_append es fs p1 p' h, List.append_assoc]

theorem amounts_lines {M : Machine} {b b' : Busy} {e : BusyEvent} {es : List Event} (h : Amounts M b b' e es) :
    ((linesOf es).map Prod.fst ++ b'.queue.map Queued.line).Perm (b.queue.map Queued.line ++ typedLines [e]) := by
  cases h with
  | net a _ hq => rw [hq]; simp [linesOf, typedLines]
  | start line q _ hl hq => rw [hq]; simp [linesOf, typedLines, hl]
  | other line o _ hq => rw [hq]; simpa [linesOf, typedLines] using List.perm_append_singleton line _ |>.symm
  | begin i o q before after h1 _ h2 =>
    rw [h1, h2]
    simp only [linesOf, typedLines, List.map_cons, List.map_nil, List.map_append, List.filterMap_cons, List.filterMap_nil,
      List.append_nil, List.singleton_append]
    exact List.perm_middle.symm
  | act _ _ hq => rw [hq]; simp [linesOf, typedLines]

theorem typedLines_append (es fs : List BusyEvent) : typedLines (es ++ fs) = typedLines es ++ typedLines fs :=
  List.filterMap_append

theorem netSteps_append (es fs : List BusyEvent) : netSteps (es ++ fs) = netSteps es ++ netSteps fs :=
  List.filterMap_append

/-- **C145, one after another.** Whenever the goroutines of the commands get on, and in whatever order: the program is as
after an execution with one command after another, with the same events on the network side, in which the lines are those
entered, in some order, without those whose commands have done nothing yet; and what has been put on the wire, with what the
beacon command under way has still to send, is what that execution puts there, in its order. -/
theorem C145_serial {M : Machine} {fs : FS} {c : Cliflags} {es : List BusyEvent} {b : Busy}
    (h : BusyLeads M fs c es b) :
    ∃ ps, Leads M fs c ps b.prog ∧ netEvents ps = netSteps es ∧
      ((linesOf ps).map Prod.fst ++ b.queue.map Queued.line).Perm (typedLines es) ∧
      framesOf (b.trace ++ b.holder.getD []) = wireOf M (Program.init fs c) ps := by
  refine (busyLeads_induction (P := fun es b => b.Honest M ∧ ∃ ps, Leads M fs c ps b.prog ∧ netEvents ps = netSteps es ∧
      ((linesOf ps).map Prod.fst ++ b.queue.map Queued.line).Perm (typedLines es) ∧
      framesOf (b.trace ++ b.holder.getD []) = wireOf M (Program.init fs c) ps)
    ⟨(fun q hq => by cases hq), [], rfl, rfl, List.Perm.refl _, rfl⟩ ?_ h).2
  rintro es b e b' ⟨honest, ps, i1, i2, i3, i4⟩ hs
  obtain ⟨qs, ha⟩ := busy_amounts honest hs
  refine ⟨amounts_honest honest ha, ps ++ qs, ?_, ?_, ?_, ?_⟩
  · show (Program.init fs c).run M (ps ++ qs) = _
    rw [program_run_append', show (Program.init fs c).run M ps = _ from i1]
    exact amounts_run ha
  · rw [netEvents_append, i2, amounts_net ha, netSteps_append]
  · rw [linesOf_append, typedLines_append, List.map_append, List.append_assoc]
    refine ((amounts_lines ha).append_left _).trans ?_
    rw [← List.append_assoc]
    exact i3.append_right _
  · rw [amounts_wire ha, i4, wireOf_append ps qs _ _ i1]

/-- The words of the lines of an execution. -/
theorem commandsTyped_wordsEntered (M : Machine) : ∀ ps : List Event,
    commandsTyped M ps = wordsEntered M ((linesOf ps).map Prod.fst)
  | [] => rfl
  | .net a :: ps => by simp only [commandsTyped, linesOf]; exact commandsTyped_wordsEntered M ps
  | .typed line o :: ps => by
    simp only [commandsTyped, linesOf, List.map_cons, wordsEntered, List.filterMap_cons]
    have ih := commandsTyped_wordsEntered M ps
    unfold wordsEntered at ih
    split
    · rename_i h; simp only [h, ih]
    · rename_i h
      rw [ih]
      cases hg : getLine (M.H.map Prod.fst) cmdHandlers line with
      | ret r =>
        cases r with
        | started cmd ws => exact absurd hg (h _ _)
        | _ => rfl
      | _ => rfl

/-- **C145, the settings.** They are what the commands of the lines entered, in some order and without those that have done
nothing yet, make of those read at the start. -/
theorem C145_settings_partial {M : Machine} {fs : FS} {c : Cliflags} {es : List BusyEvent} {b : Busy}
    (h : BusyLeads M fs c es b) :
    ∃ done, (done ++ b.queue.map Queued.args).Perm (wordsEntered M (typedLines es)) ∧
      b.prog.settings = settingRun M.H c done := by
  obtain ⟨ps, h1, _, h3, _⟩ := C145_serial h
  refine ⟨commandsTyped M ps, ?_, C127_settings h1⟩
  have hp := h3.filterMap fun line =>
    match getLine (M.H.map Prod.fst) cmdHandlers line with
    | .ret (.started _ ws) => some ws
    | _ => none
  rw [List.filterMap_append] at hp
  rw [commandsTyped_wordsEntered]
  refine (List.Perm.append_left _ ?_).trans hp
  have honest := busy_honest h
  have : ∀ qs : List Queued, (∀ q ∈ qs, getLine (M.H.map Prod.fst) cmdHandlers q.line = .ret (.started q.cmd q.args)) →
      qs.map Queued.args = (qs.map Queued.line).filterMap fun line =>
        match getLine (M.H.map Prod.fst) cmdHandlers line with
        | .ret (.started _ ws) => some ws
        | _ => none := by
    intro qs
    induction qs with
    | nil => intro _; rfl
    | cons q qs ih =>
      intro hq
      simp only [List.map_cons, List.filterMap_cons, hq q List.mem_cons_self]
      rw [ih fun r hr => hq r (List.mem_cons_of_mem _ hr)]
  rw [← this _ honest]

example : ((Busy.init exampleFS shippedSettings).run exampleMachine
    [.typed "saratoga[0]:timeout request 5", .typed "saratoga[1]:timeout request 7", .begin 1 calmReplies,
      .begin 0 calmReplies]).map (fun b => b.prog.settings.timeout.request) = some 5 := by decide +kernel

/-- **C145, in order.** As long as each line is entered only when every command before it has begun, the order is that of
the lines. Missing: nothing makes the program wait for that, see `C145_counterexample`. -/
theorem C145_in_order_partial {M : Machine} {fs : FS} {c : Cliflags} {es : List BusyEvent} {b : Busy}
    (h : BusyLeads M fs c es b) (calm : Unhurried M fs c es) :
    ∃ ps, Leads M fs c ps b.prog ∧ netEvents ps = netSteps es ∧
      (linesOf ps).map Prod.fst ++ b.queue.map Queued.line = typedLines es ∧
      framesOf (b.trace ++ b.holder.getD []) = wireOf M (Program.init fs c) ps := by
  refine (busyLeads_induction (P := fun es b => BusyLeads M fs c es b ∧ (Unhurried M fs c es → b.queue.length ≤ 1 ∧
      ∃ ps, Leads M fs c ps b.prog ∧ netEvents ps = netSteps es ∧
      (linesOf ps).map Prod.fst ++ b.queue.map Queued.line = typedLines es ∧
      framesOf (b.trace ++ b.holder.getD []) = wireOf M (Program.init fs c) ps))
    ⟨rfl, fun _ => ⟨Nat.zero_le _, [], rfl, rfl, rfl, rfl⟩⟩ ?_ h).2 calm |>.2
  rintro es b e b' ⟨hl, ih⟩ hs
  have hl' : BusyLeads M fs c (es ++ [e]) b' := by
    show (Busy.init fs c).run M (es ++ [e]) = _
    rw [busy_run_append, show (Busy.init fs c).run M es = _ from hl]
    show (b.step M e).bind _ = _
    rw [hs]; rfl
  refine ⟨hl', fun calm => ?_⟩
  obtain ⟨short, ps, i1, i2, i3, i4⟩ := ih fun before line after b he hb =>
    calm before line (after ++ [e]) b (by rw [he]; simp) hb
  obtain ⟨qs, ha⟩ := busy_amounts (busy_honest hl) hs
  have key : b'.queue.length ≤ 1 ∧
      (linesOf qs).map Prod.fst ++ b'.queue.map Queued.line = b.queue.map Queued.line ++ typedLines [e] := by
    cases ha with
    | net a _ hq => rw [hq]; exact ⟨short, by simp [linesOf, typedLines]⟩
    | start line q _ hln hq =>
      have := calm es line [] b rfl hl
      rw [hq, this]
      exact ⟨Nat.le_refl _, by simp [linesOf, typedLines, hln]⟩
    | other line o _ hq =>
      have := calm es line [] b rfl hl
      rw [hq, this]
      exact ⟨Nat.zero_le _, by simp [linesOf, typedLines]⟩
    | begin i o q before after h1 _ h2 =>
      rw [h1, List.length_append, List.length_cons] at short
      have e1 : before = [] := List.eq_nil_of_length_eq_zero (by omega)
      have e2 : after = [] := List.eq_nil_of_length_eq_zero (by omega)
      subst e1 e2
      rw [h1, h2]
      exact ⟨Nat.zero_le _, by simp [linesOf, typedLines]⟩
    | act _ _ hq => rw [hq]; exact ⟨short, by simp [linesOf, typedLines]⟩
  refine ⟨key.1, ps ++ qs, ?_, ?_, ?_, ?_⟩
  · show (Program.init fs c).run M (ps ++ qs) = _
    rw [program_run_append', show (Program.init fs c).run M ps = _ from i1]
    exact amounts_run ha
  · rw [netEvents_append, i2, amounts_net ha, netSteps_append]
  · rw [linesOf_append, typedLines_append, List.map_append, List.append_assoc, key.2, ← List.append_assoc, i3]
  · rw [amounts_wire ha, i4, wireOf_append ps qs _ _ i1]

/-- The beacon command that holds the lock can always get on until it gives the lock back. -/
theorem drain_holder {M : Machine} : ∀ (acts : List BeaconAct) (b : Busy), b.prog.net.main ≠ .ended → b.holder = some acts →
    ∃ es b', (∀ e ∈ es, e = .act) ∧ b.run M es = some b' ∧ b'.prog = b.prog ∧ b'.queue = b.queue ∧ b'.holder = none
  | [], b, hm, hh => by
    refine ⟨[.act], { b with holder := none }, by simp, ?_, rfl, rfl, rfl⟩
    show (b.step M .act).bind _ = _
    simp only [Busy.step, if_neg hm, hh]; rfl
  | a :: acts, b, hm, hh => by
    obtain ⟨es, b', h1, h2, h3⟩ := drain_holder (M := M) acts { b with holder := some acts, trace := b.trace ++ [a] } hm rfl
    refine ⟨.act :: es, b', ?_, ?_, h3⟩
    · intro e he
      rcases List.mem_cons.1 he with he | he
      · exact he
      · exact h1 e he
    · show (b.step M .act).bind _ = _
      simp only [Busy.step, if_neg hm, hh]
      exact h2

/-- **C145, no command waits for good.** Whatever the state, and whatever the system answers, the commands can get on with
nothing entered and nothing received until every one has done all it does, or one has ended the process. -/
theorem C145_no_deadlock {M : Machine} (o : Replies) (b : Busy) :
    ∃ es b', (∀ e ∈ es, e = .act ∨ ∃ i, e = .begin i o) ∧ b.run M es = some b' ∧
      (b'.prog.net.main = .ended ∨ b'.queue = [] ∧ b'.holder = none) := by
  suffices H : ∀ (n : Nat) (b : Busy), b.queue.length = n → ∃ es b', (∀ e ∈ es, e = .act ∨ ∃ i, e = .begin i o) ∧
      b.run M es = some b' ∧ (b'.prog.net.main = .ended ∨ b'.queue = [] ∧ b'.holder = none) from H _ b rfl
  intro n
  induction n with
  | zero =>
    intro b hn
    by_cases hm : b.prog.net.main = .ended
    · exact ⟨[], b, (fun e he => by cases he), rfl, .inl hm⟩
    have hq := List.eq_nil_of_length_eq_zero hn
    cases hh : b.holder with
    | none => exact ⟨[], b, (fun e he => by cases he), rfl, .inr ⟨hq, hh⟩⟩
    | some acts =>
      obtain ⟨es, b', h1, h2, _, h3, h4⟩ := drain_holder (M := M) acts b hm hh
      exact ⟨es, b', fun e he => .inl (h1 e he), h2, .inr ⟨h3.trans hq, h4⟩⟩
  | succ n ih =>
    intro b hn
    by_cases hm : b.prog.net.main = .ended
    · exact ⟨[], b, (fun e he => by cases he), rfl, .inl hm⟩
    have free : ∃ es b', (∀ e ∈ es, e = BusyEvent.act) ∧ b.run M es = some b' ∧ b'.prog = b.prog ∧ b'.queue = b.queue ∧
        b'.holder = none := by
      cases hh : b.holder with
      | none => exact ⟨[], b, (fun e he => by cases he), rfl, rfl, rfl, hh⟩
      | some acts => exact drain_holder acts b hm hh
    obtain ⟨es, b1, h1, h2, h3, h4, h5⟩ := free
    obtain ⟨q, rest, hq⟩ : ∃ q rest, b1.queue = q :: rest := by
      cases hq : b1.queue with
      | nil => rw [← h4, hq] at hn; cases hn
      | cons q rest => exact ⟨q, rest, rfl⟩
    have step : b1.step M (.begin 0 o) = some (b1.begin M o q rest) := by
      have hm1 : ¬ b1.prog.net.main = .ended := by rw [h3]; exact hm
      simp only [Busy.step, if_neg hm1, hq, List.getElem?_cons_zero, h5]
      simp
    have len : (b1.begin M o q rest).queue.length = n := by
      have : (b1.begin M o q rest).queue = rest := by
        unfold Busy.begin; cases b1.prog.command M o q.cmd q.args <;> rfl
      rw [this]
      rw [← h4, hq] at hn
      exact Nat.succ.inj hn
    obtain ⟨fs, b2, g1, g2, g3⟩ := ih _ len
    refine ⟨es ++ .begin 0 o :: fs, b2, ?_, ?_, g3⟩
    · intro e he
      rcases List.mem_append.1 he with he | he
      · exact .inl (h1 e he)
      · rcases List.mem_cons.1 he with he | he
        · exact .inr ⟨0, he⟩
        · exact g1 e he
    · rw [busy_run_append, h2]
      show (b1.step M _).bind _ = _
      rw [step]
      exact g2

theorem command_unlocked {M : Machine} {o : Replies} {p p' : Program} {cmd : String} {args : List String}
    (h : p.command M o cmd args = .ret p') (hn : needsLock cmd = false) :
    p'.settings = p.settings ∧ p'.beacon = p.beacon := by
  unfold needsLock at hn
  rw [Bool.or_eq_false_iff] at hn
  have hb : cmd ≠ "beacon" := by simpa using hn.1
  have hs : assoc cmd settingHandlers = none := by simpa using hn.2
  unfold Program.command at h
  rw [hs] at h
  simp only [if_neg hb] at h
  cases ht : assoc cmd tranCommands with
  | some fn =>
    rw [ht] at h
    obtain ⟨r, _, h2⟩ := Out.bind_eq_ret h
    cases h2
    exact ⟨rfl, rfl⟩
  | none =>
    rw [ht] at h
    simp only at h
    split at h
    · obtain ⟨r, _, h2⟩ := Out.bind_eq_ret h
      cases h2
      exact ⟨rfl, rfl⟩
    · split at h <;> (cases h; exact ⟨rfl, rfl⟩)

/-- One step while a beacon command has acts left to do. -/
theorem held_step {M : Machine} {b b' : Busy} {e : BusyEvent} {acts : List BeaconAct} (hh : b.holder = some acts)
    (hs : b.step M e = some b') (he : e = .act → acts ≠ []) :
    b'.prog.settings = b.prog.settings ∧ b'.prog.beacon = b.prog.beacon ∧
      b'.holder = some (match (generalizing := false) e with | .act => acts.tail | _ => acts) := by
  unfold Busy.step at hs
  split at hs
  · cases hs
  cases e with
  | net a =>
    obtain ⟨p, h1, h2⟩ := Option.map_eq_some_iff.1 hs
    subst h2
    rcases program_step_cases h1 with ⟨a', w, _, _, _, hp⟩ | ⟨_, _, h3, _⟩
    · subst hp; exact ⟨rfl, rfl, by simpa using hh⟩
    · cases h3
  | typed line =>
    simp only [Option.some.injEq] at hs
    subst hs
    unfold Busy.enter
    cases getLine (M.H.map Prod.fst) cmdHandlers line with
    | ret r => cases r <;> exact ⟨rfl, rfl, by simpa using hh⟩
    | fatal => exact ⟨rfl, rfl, by simpa using hh⟩
    | panic => exact ⟨rfl, rfl, by simpa using hh⟩
  | begin i o =>
    simp only at hs
    cases hq : b.queue[i]? with
    | none => rw [hq] at hs; cases hs
    | some q =>
      rw [hq] at hs
      simp only at hs
      split at hs
      · cases hs
      rename_i free
      simp only [Option.some.injEq] at hs
      subst hs
      have hn : needsLock q.cmd = false := by
        cases hl : needsLock q.cmd with
        | false => rfl
        | true => exact absurd ⟨hl, by rw [hh]; exact fun e => by cases e⟩ free
      have hb : q.cmd ≠ "beacon" := by
        intro hb; rw [hb] at hn; cases hn
      unfold Busy.begin
      cases hc : b.prog.command M o q.cmd q.args with
      | ret p =>
        obtain ⟨h1, h2⟩ := command_unlocked hc hn
        exact ⟨h1, h2, by simpa [hb] using hh⟩
      | fatal => exact ⟨rfl, rfl, by simpa using hh⟩
      | panic => exact ⟨rfl, rfl, by simpa using hh⟩
  | act =>
    cases acts with
    | nil => exact absurd rfl (he rfl)
    | cons a rest =>
      rw [hh] at hs
      simp only [Option.some.injEq] at hs
      subst hs
      exact ⟨rfl, rfl, by simp⟩

/-- **C145, while beacons are sent.** From when a beacon command has the lock until it has done the last of its acts,
whatever else happens: no command changes a setting or the beacons to send. -/
theorem C145_held {M : Machine} : ∀ (es : List BusyEvent) (b b' : Busy) (acts : List BeaconAct), b.holder = some acts →
    b.run M es = some b' → (es.filter fun | .act => true | _ => false).length ≤ acts.length →
    b'.prog.settings = b.prog.settings ∧ b'.prog.beacon = b.prog.beacon
  | [], b, b', _, _, hr, _ => by cases hr; exact ⟨rfl, rfl⟩
  | e :: es, b, b', acts, hh, hr, hl => by
    unfold Busy.run at hr
    cases hs : b.step M e with
    | none => rw [hs] at hr; cases hr
    | some b1 =>
      rw [hs] at hr
      have he : e = .act → acts ≠ [] := by
        rintro rfl rfl
        simp at hl
      obtain ⟨h1, h2, h3⟩ := held_step hh hs he
      have := C145_held es b1 b' _ h3 hr (by
        cases e with
        | act =>
          cases acts with
          | nil => exact absurd rfl (he rfl)
          | cons a rest =>
            simp only [List.filter_cons, if_pos, List.length_cons] at hl
            simpa using hl
        | _ => simpa [List.filter_cons] using hl)
      exact ⟨this.1.trans h1, this.2.trans h2⟩

/-- Two lines, and the command of the second gets on first. -/
def hurriedEvents : List BusyEvent :=
  [.typed "saratoga[0]:timeout request 5", .typed "saratoga[1]:timeout request 7", .begin 1 calmReplies, .begin 0 calmReplies]

/-- **C145, counterexample.** The last line entered asks for 7 seconds; all commands are done, and it is 5. -/
theorem C145_counterexample :
    ∃ (M : Machine) (fs : FS) (c : Cliflags) (es : List BusyEvent) (b : Busy), BusyLeads M fs c es b ∧ b.queue = [] ∧
      b.holder = none ∧ wordsEntered M (typedLines es) = [["timeout", "request", "5"], ["timeout", "request", "7"]] ∧
      (settingRun M.H c (wordsEntered M (typedLines es))).timeout.request = 7 ∧ b.prog.settings.timeout.request = 5 := by
  have h : ((Busy.init exampleFS shippedSettings).run exampleMachine hurriedEvents).map (fun b =>
      (b.queue.length, b.holder.isNone, b.prog.settings.timeout.request)) = some (0, true, 5) := by decide +kernel
  obtain ⟨b, h1, h2⟩ := Option.map_eq_some_iff.1 h
  simp only [Prod.mk.injEq] at h2
  refine ⟨_, _, _, _, b, h1, List.eq_nil_of_length_eq_zero h2.1, Option.isNone_iff_eq_none.1 h2.2.1, ?_, ?_, h2.2.2⟩
  · decide +kernel
  · decide +kernel

/-- The execution of the counterexample with the commands one after another, in the order they got on. -/
example : ∃ ps b, BusyLeads exampleMachine exampleFS shippedSettings hurriedEvents b ∧
    Leads exampleMachine exampleFS shippedSettings ps b.prog ∧
    (linesOf ps).map Prod.fst = ["saratoga[1]:timeout request 7", "saratoga[0]:timeout request 5"] := by
  refine ⟨[.typed "saratoga[1]:timeout request 7" calmReplies, .typed "saratoga[0]:timeout request 5" calmReplies], ?_⟩
  cases h : (Busy.init exampleFS shippedSettings).run exampleMachine hurriedEvents with
  | none =>
    have : ((Busy.init exampleFS shippedSettings).run exampleMachine hurriedEvents).isSome = true := by decide +kernel
    rw [h] at this; cases this
  | some b =>
    refine ⟨b, h, ?_, rfl⟩
    have : (Busy.init exampleFS shippedSettings).run exampleMachine hurriedEvents =
        ((Program.init exampleFS shippedSettings).run exampleMachine
          [.typed "saratoga[1]:timeout request 7" calmReplies, .typed "saratoga[0]:timeout request 5" calmReplies]).map
            fun p => ⟨p, [], none, []⟩ := by
      rfl
    rw [this] at h
    obtain ⟨p, h1, h2⟩ := Option.map_eq_some_iff.1 h
    subst h2
    exact h1

/-- A machine that knows `beacon` and `exit` too. -/
def busyMachine : Machine :=
  { exampleMachine with H := exampleMachine.H ++ [("beacon", ⟨"send beacons", "beacon …"⟩), ("exit", ⟨"leave", "exit …"⟩)] }

/-- A beacon command holds the lock: a settings command waits until it is done, `exit` does
not. -/
def beaconEvents : List BusyEvent :=
  [.typed "saratoga[0]:beacon 1.1.1.1", .typed "saratoga[1]:timeout request 7", .begin 0 calmReplies, .act]

example : ((Busy.init exampleFS shippedSettings).run busyMachine beaconEvents).map (fun b =>
    (b.queue.map Queued.cmd, b.holder.map List.length, b.trace.length)) = some (["timeout"], some 7, 1) := by
  decide +kernel

example : ((Busy.init exampleFS shippedSettings).run busyMachine (beaconEvents ++ [.begin 0 calmReplies])).isNone = true ∧
    ((Busy.init exampleFS shippedSettings).run busyMachine (beaconEvents ++ List.replicate 8 .act ++ [.begin 0 calmReplies])).map (fun b =>
      b.prog.settings.timeout.request) = some 7 ∧
    ((Busy.init exampleFS shippedSettings).run busyMachine (beaconEvents ++
      [.typed "saratoga[2]:exit 0", .begin 1 calmReplies])).map (fun b => (b.queue.map Queued.cmd, b.prog.cexit)) =
        some (["timeout"], 0) := by
  decide +kernel

/-- An unhurried execution with two commands. -/
example : Unhurried exampleMachine exampleFS shippedSettings
    [.typed "saratoga[0]:timeout request 5", .begin 0 calmReplies, .typed "saratoga[1]:timeout request 7"] := by
  intro before line after b he hb
  have key : ∀ es, ((Busy.init exampleFS shippedSettings).run exampleMachine es).map (fun b => b.queue.length) = some 0 →
      before = es → b.queue = [] := by
    intro es hes hbe
    subst hbe
    rw [show (Busy.init exampleFS shippedSettings).run exampleMachine before = some b from hb] at hes
    exact List.eq_nil_of_length_eq_zero (Option.some.inj hes)
  rcases before with _ | ⟨e1, _ | ⟨e2, _ | ⟨e3, before⟩⟩⟩
  · exact key [] rfl rfl
  · simp only [List.cons_append, List.nil_append, List.cons.injEq, reduceCtorEq, false_and, and_false] at he
  · simp only [List.cons_append, List.nil_append, List.cons.injEq] at he
    obtain ⟨h1, h2, _⟩ := he
    subst h1 h2
    exact key [.typed "saratoga[0]:timeout request 5", .begin 0 calmReplies] (by decide +kernel) rfl
  · simp at he

end Saratoga
