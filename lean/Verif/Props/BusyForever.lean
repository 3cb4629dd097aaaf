import Verif.Spec.BusyForever
import Verif.Props.Busy
/-! # C166: every command entered gets its turn -/
namespace Saratoga

/-- A process that goes on for ever has not ended. -/
theorem BusyForever.runs {M : Machine} {fs : FS} {c : Cliflags} {at_ : Nat → Busy} {does : Nat → BusyEvent}
    (run : BusyForever M fs c at_ does) (i : Nat) : (at_ i).prog.net.main ≠ .ended := by
  intro hm
  have := run.goes i
  unfold Busy.step at this
  rw [if_pos hm] at this
  cases this

theorem BusyForever.leads {M : Machine} {fs : FS} {c : Cliflags} {at_ : Nat → Busy} {does : Nat → BusyEvent}
    (run : BusyForever M fs c at_ does) (i : Nat) : BusyLeads M fs c ((List.range i).map does) (at_ i) := by
  induction i with
  | zero => rw [run.start]; rfl
  | succ i ih =>
    show (Busy.init fs c).run M _ = _
    rw [List.range_succ, List.map_append, busy_run_append, show (Busy.init fs c).run M _ = _ from ih]
    show ((at_ i).step M (does i)).bind _ = _
    rw [run.goes i]; rfl

/-- While it waits, a goroutine is where `place` says. -/
theorem queue_place {M : Machine} {b b' : Busy} {e : BusyEvent} {p p' : Nat} {q : Queued} (hs : b.step M e = some b')
    (hq : b.queue[p]? = some q) (hp : e.place p = some p') : b'.queue[p']? = some q := by
  unfold Busy.step at hs
  split at hs
  · cases hs
  cases e with
  | net a =>
    cases hp
    obtain ⟨x, _, h2⟩ := Option.map_eq_some_iff.1 hs
    subst h2; exact hq
  | typed line =>
    cases hp
    simp only [Option.some.injEq] at hs
    subst hs
    unfold Busy.enter
    cases getLine (M.H.map Prod.fst) cmdHandlers line with
    | ret r =>
      cases r with
      | started cmd args =>
        show (b.queue ++ [_])[p]? = some q
        rw [List.getElem?_append_left (List.getElem?_eq_some_iff.1 hq).1]; exact hq
      | _ => exact hq
    | fatal => exact hq
    | panic => exact hq
  | act =>
    cases hp
    cases hh : b.holder with
    | none => rw [hh] at hs; cases hs
    | some acts =>
      rw [hh] at hs
      cases acts <;> (simp only [Option.some.injEq] at hs; subst hs; exact hq)
  | begin k o =>
    simp only at hs
    cases hk : b.queue[k]? with
    | none => rw [hk] at hs; cases hs
    | some r =>
      rw [hk] at hs
      simp only at hs
      split at hs
      · cases hs
      simp only [Option.some.injEq] at hs
      subst hs
      have : (b.begin M o r (b.queue.eraseIdx k)).queue = b.queue.eraseIdx k := by
        unfold Busy.begin; cases b.prog.command M o r.cmd r.args <;> rfl
      rw [this, List.getElem?_eraseIdx]
      simp only [BusyEvent.place] at hp
      by_cases h1 : k < p
      · rw [if_pos h1] at hp; cases hp
        rw [if_neg (by omega), show p - 1 + 1 = p by omega]; exact hq
      · rw [if_neg h1] at hp
        by_cases h2 : k = p
        · rw [if_pos h2] at hp; cases hp
        · rw [if_neg h2] at hp; cases hp
          rw [if_pos (by omega)]; exact hq

theorem queue_waits {M : Machine} {fs : FS} {c : Cliflags} {at_ : Nat → Busy} {does : Nat → BusyEvent}
    (run : BusyForever M fs c at_ does) {i p : Nat} {q : Queued} (hq : (at_ i).queue[p]? = some q) (n : Nat) {k : Nat}
    (hk : waitsAt does i p n = some k) : (at_ (i + n)).queue[k]? = some q := by
  induction n generalizing k with
  | zero => cases hk; exact hq
  | succ n ih =>
    obtain ⟨k', h1, h2⟩ := Option.bind_eq_some_iff.1 hk
    exact queue_place (run.goes (i + n)) (ih h1) h2

/-- A goroutine that begins in an execution that goes on: the command returns, and then it has the lock if it is a
beacon. -/
theorem begin_returns {M : Machine} {fs : FS} {c : Cliflags} {at_ : Nat → Busy} {does : Nat → BusyEvent}
    (run : BusyForever M fs c at_ does) {j k : Nat} {o : Replies} {q : Queued} (hd : does j = .begin k o)
    (hq : (at_ j).queue[k]? = some q) :
    (at_ j).prog.command M o q.cmd q.args = .ret (at_ (j + 1)).prog ∧
    (at_ (j + 1)).queue = (at_ j).queue.eraseIdx k ∧ (at_ (j + 1)).trace = (at_ j).trace ∧
    (at_ (j + 1)).holder = (if q.cmd = "beacon" then beaconPlan M o (at_ j).prog q else (at_ j).holder) := by
  have hs := run.goes j
  have hm' := run.runs (j + 1)
  generalize at_ (j + 1) = b' at hs hm' ⊢
  rw [hd, Busy.step, if_neg (run.runs j)] at hs
  simp only [hq] at hs
  split at hs
  · cases hs
  simp only [Option.some.injEq] at hs
  unfold Busy.begin at hs
  cases hc : (at_ j).prog.command M o q.cmd q.args with
  | ret p => rw [hc] at hs; subst hs; exact ⟨rfl, rfl, rfl, rfl⟩
  | fatal => rw [hc] at hs; subst hs; exact absurd rfl hm'
  | panic => rw [hc] at hs; subst hs; exact absurd rfl hm'

/-- What is still to be done under the lock stays until it is done, and what is done is the next of it. -/
theorem holder_step {M : Machine} {b b' : Busy} {e : BusyEvent} {acts : List BeaconAct} (hh : b.holder = some acts)
    (hs : b.step M e = some b') :
    (e ≠ .act → b'.holder = some acts ∧ b'.trace = b.trace) ∧
    (e = .act → (acts = [] → b'.holder = none ∧ b'.trace = b.trace) ∧
      ∀ a rest, acts = a :: rest → b'.holder = some rest ∧ b'.trace = b.trace ++ [a]) := by
  have keep : e ≠ .act → b'.holder = some acts := by
    intro he
    have := (held_step hh hs fun h => absurd h he).2.2
    cases e <;> simp_all
  refine ⟨fun he => ⟨keep he, ?_⟩, fun he => ?_⟩
  · unfold Busy.step at hs
    split at hs
    · cases hs
    cases e with
    | net a => obtain ⟨x, _, h2⟩ := Option.map_eq_some_iff.1 hs; subst h2; rfl
    | typed line =>
      simp only [Option.some.injEq] at hs
      subst hs
      unfold Busy.enter
      cases getLine (M.H.map Prod.fst) cmdHandlers line with
      | ret r => cases r <;> rfl
      | fatal => rfl
      | panic => rfl
    | act => exact absurd rfl he
    | begin k o =>
      simp only at hs
      split at hs
      · cases hs
      split at hs
      · cases hs
      simp only [Option.some.injEq] at hs
      subst hs
      unfold Busy.begin
      split <;> rfl
  · subst he
    rw [Busy.step] at hs
    split at hs
    · cases hs
    simp only [hh] at hs
    refine ⟨fun e => ?_, fun a rest e => ?_⟩ <;> subst e <;> simp only [Option.some.injEq] at hs <;> subst hs <;> exact ⟨rfl, rfl⟩

/-- Who holds the lock does the next act in the end. -/
theorem holder_acts {M : Machine} {fs : FS} {c : Cliflags} {at_ : Nat → Busy} {does : Nat → BusyEvent}
    (run : BusyForever M fs c at_ does) (fair : HolderFair at_ does) {i : Nat} {acts : List BeaconAct}
    (hh : (at_ i).holder = some acts) :
    ∃ j, i ≤ j ∧ does j = .act ∧ (at_ j).holder = some acts ∧ (at_ j).trace = (at_ i).trace := by
  apply Classical.byContradiction
  intro none
  have stays : ∀ n, (at_ (i + n)).holder = some acts ∧ (at_ (i + n)).trace = (at_ i).trace := by
    intro n
    induction n with
    | zero => exact ⟨hh, rfl⟩
    | succ n ih =>
      have := (holder_step ih.1 (run.goes (i + n))).1 fun he => none ⟨i + n, by omega, he, ih.1, ih.2⟩
      exact ⟨this.1, this.2.trans ih.2⟩
  have stays' : ∀ j, i ≤ j → (at_ j).holder = some acts ∧ (at_ j).trace = (at_ i).trace := fun j hj => by
    have := stays (j - i)
    rwa [show i + (j - i) = j by omega] at this
  obtain ⟨j, hj, he⟩ := fair i fun j hj => by rw [(stays' j hj).1]; simp
  exact none ⟨j, hj, he, (stays' j hj).1, (stays' j hj).2⟩

/-- **C166, the lock.** What a beacon command has to do under the lock it does, all of it and in order, with nothing of
another command in between, and gives the lock back. -/
theorem C166_lock (M : Machine) (fs : FS) (c : Cliflags) (at_ : Nat → Busy) (does : Nat → BusyEvent)
    (run : BusyForever M fs c at_ does) (fair : HolderFair at_ does) (i : Nat) (acts : List BeaconAct)
    (held : (at_ i).holder = some acts) :
    ∃ j, i < j ∧ (at_ j).holder = none ∧ (at_ j).trace = (at_ i).trace ++ acts := by
  induction acts generalizing i with
  | nil =>
    obtain ⟨j, hj, he, h1, h2⟩ := holder_acts run fair held
    have := ((holder_step h1 (run.goes j)).2 he).1 rfl
    exact ⟨j + 1, by omega, this.1, by rw [this.2, h2, List.append_nil]⟩
  | cons a rest ih =>
    obtain ⟨j, hj, he, h1, h2⟩ := holder_acts run fair held
    have := ((holder_step h1 (run.goes j)).2 he).2 a rest rfl
    obtain ⟨l, hl, h3, h4⟩ := ih (j + 1) this.1
    exact ⟨l, by omega, h3, by rw [h4, this.2, h2, List.append_assoc]; rfl⟩

/-- **C166, a turn.** Every goroutine that waits begins in the end, and its command does all it does before the next
step; if it is `beacon`, what it has planned then is done. -/
theorem C166_turn (M : Machine) (fs : FS) (c : Cliflags) (at_ : Nat → Busy) (does : Nat → BusyEvent)
    (run : BusyForever M fs c at_ does) (holders : HolderFair at_ does) (locks : LockFair at_ does) (i p : Nat) (q : Queued)
    (waits : (at_ i).queue[p]? = some q) :
    ∃ n k o, waitsAt does i p n = some k ∧ does (i + n) = .begin k o ∧ (at_ (i + n)).queue[k]? = some q ∧
      (at_ (i + n)).prog.command M o q.cmd q.args = .ret (at_ (i + n + 1)).prog := by
  obtain ⟨n, hn⟩ := locks i p q waits fun j _ => by
    cases hh : (at_ j).holder with
    | none => exact ⟨j, Nat.le_refl _, fun _ => hh⟩
    | some acts =>
      obtain ⟨k, hk, h1, _⟩ := C166_lock M fs c at_ does run holders j acts hh
      exact ⟨k, by omega, fun _ => h1⟩
  have : ∃ m k, waitsAt does i p m = some k ∧ (does (i + m)).place k = none := by
    induction n with
    | zero => cases hn
    | succ n ih =>
      cases h : waitsAt does i p n with
      | none => exact ih h
      | some k =>
        rw [waitsAt, h] at hn
        exact ⟨n, k, h, hn⟩
  obtain ⟨m, k, h1, h2⟩ := this
  have hq := queue_waits run waits m h1
  have : ∃ o, does (i + m) = .begin k o := by
    cases hd : does (i + m) with
    | begin k' o =>
      rw [hd] at h2
      simp only [BusyEvent.place] at h2
      split at h2
      · cases h2
      split at h2
      · rename_i e; exact ⟨o, by rw [e]⟩
      · cases h2
    | _ => rw [hd] at h2; cases h2
  obtain ⟨o, ho⟩ := this
  exact ⟨m, k, o, h1, ho, hq, (begin_returns run ho hq).1⟩

/-- **C166** Every line entered that names a command with a handler: the command is carried out in the end. -/
theorem C166_line (M : Machine) (fs : FS) (c : Cliflags) (at_ : Nat → Busy) (does : Nat → BusyEvent)
    (run : BusyForever M fs c at_ does) (holders : HolderFair at_ does) (locks : LockFair at_ does) (i : Nat) (line : String)
    (typed : does i = .typed line) (cmd : String) (args : List String)
    (names : getLine (M.H.map Prod.fst) cmdHandlers line = .ret (.started cmd args)) :
    ∃ j o, i < j ∧ (at_ j).prog.command M o cmd args = .ret (at_ (j + 1)).prog := by
  have hs := run.goes i
  rw [typed, Busy.step, if_neg (run.runs i)] at hs
  simp only [Busy.enter, names, Option.some.injEq] at hs
  have hq : (at_ (i + 1)).queue[(at_ i).queue.length]? = some ⟨line, cmd, args⟩ := by
    rw [← hs]; simp
  obtain ⟨n, k, o, _, _, _, h⟩ := C166_turn M fs c at_ does run holders locks (i + 1) _ _ hq
  exact ⟨i + 1 + n, o, by omega, h⟩

/-- **C166, beacons.** If the command is `beacon`, all the beacons it sends are sent in the end, one after another and with
nothing of another beacon command in between. -/
theorem C166_beacon (M : Machine) (fs : FS) (c : Cliflags) (at_ : Nat → Busy) (does : Nat → BusyEvent)
    (run : BusyForever M fs c at_ does) (holders : HolderFair at_ does) (locks : LockFair at_ does) (i : Nat) (line : String)
    (typed : does i = .typed line) (args : List String)
    (names : getLine (M.H.map Prod.fst) cmdHandlers line = .ret (.started "beacon" args)) :
    ∃ j l o acts, i < j ∧ j < l ∧
      cmdBeacon (M.beaconEnv o) (at_ j).prog.settings (at_ j).prog.beacon args = .ret ((at_ (j + 1)).prog.beacon, acts) ∧
      (at_ l).trace = (at_ j).trace ++ acts := by
  have hs := run.goes i
  rw [typed, Busy.step, if_neg (run.runs i)] at hs
  simp only [Busy.enter, names, Option.some.injEq] at hs
  have hq : (at_ (i + 1)).queue[(at_ i).queue.length]? = some ⟨line, "beacon", args⟩ := by
    rw [← hs]; simp
  obtain ⟨n, k, o, _, hd, hk, h⟩ := C166_turn M fs c at_ does run holders locks (i + 1) _ _ hq
  obtain ⟨_, _, h2, h3⟩ := begin_returns run hd hk
  rw [command_of_beacon] at h
  obtain ⟨⟨bs, acts⟩, h4, h5⟩ := Out.bind_eq_ret h
  rw [if_pos rfl, beaconPlan, if_pos rfl] at h3
  simp only [h4] at h3
  obtain ⟨l, hl, _, h6⟩ := C166_lock M fs c at_ does run holders _ acts h3
  refine ⟨i + 1 + n, l, o, acts, by omega, by omega, ?_, by rw [h6, h2]⟩
  rw [h4, ← Out.ret.inj h5]

/-- One step with nothing entered. -/
theorem silent_step {M : Machine} {b b' : Busy} {e : BusyEvent} (hs : b.step M e = some b')
    (silent : ∀ line, e ≠ .typed line) :
    b'.queue.length ≤ b.queue.length ∧ (b.queue = [] → b.holder = none →
      b'.holder = none ∧ b'.prog.settings = b.prog.settings ∧ b'.prog.table = b.prog.table ∧ b'.trace = b.trace) := by
  unfold Busy.step at hs
  split at hs
  · cases hs
  cases e with
  | net a =>
    obtain ⟨x, h1, h2⟩ := Option.map_eq_some_iff.1 hs
    subst h2
    rcases program_step_cases h1 with ⟨a', w, _, _, _, hp⟩ | ⟨_, _, h3, _⟩
    · subst hp; exact ⟨Nat.le_refl _, fun _ h => ⟨h, rfl, rfl, rfl⟩⟩
    · cases h3
  | typed line => exact absurd rfl (silent line)
  | act =>
    simp only at hs
    split at hs
    · cases hs
    · rename_i hh; cases hs; exact ⟨Nat.le_refl _, fun _ h => by rw [hh] at h; cases h⟩
    · rename_i hh; cases hs; exact ⟨Nat.le_refl _, fun _ h => by rw [hh] at h; cases h⟩
  | begin k o =>
    simp only at hs
    split at hs
    · cases hs
    rename_i r hk
    split at hs
    · cases hs
    simp only [Option.some.injEq] at hs
    subst hs
    have : (b.begin M o r (b.queue.eraseIdx k)).queue = b.queue.eraseIdx k := by
      unfold Busy.begin; cases b.prog.command M o r.cmd r.args <;> rfl
    rw [this]
    refine ⟨List.length_eraseIdx_le _ _, fun h => ?_⟩
    rw [h] at hk; simp at hk

theorem silent_shrinks {M : Machine} {fs : FS} {c : Cliflags} {at_ : Nat → Busy} {does : Nat → BusyEvent}
    (run : BusyForever M fs c at_ does) {i : Nat} (silent : ∀ j line, i ≤ j → does j ≠ .typed line) (j : Nat) (hj : i ≤ j)
    (n : Nat) : (at_ (j + n)).queue.length ≤ (at_ j).queue.length := by
  induction n with
  | zero => exact Nat.le_refl _
  | succ n ih =>
    exact Nat.le_trans (silent_step (run.goes (j + n)) fun line => silent _ line (by omega)).1 ih

theorem silent_empties {M : Machine} {fs : FS} {c : Cliflags} {at_ : Nat → Busy} {does : Nat → BusyEvent}
    (run : BusyForever M fs c at_ does) (holders : HolderFair at_ does) (locks : LockFair at_ does) {i : Nat}
    (silent : ∀ j line, i ≤ j → does j ≠ .typed line) :
    ∀ (n j : Nat), i ≤ j → (at_ j).queue.length ≤ n → ∃ l, j ≤ l ∧ (at_ l).queue = [] := by
  intro n
  induction n with
  | zero => exact fun j _ h => ⟨j, Nat.le_refl _, List.eq_nil_of_length_eq_zero (by omega)⟩
  | succ n ih =>
    intro j hj hn
    cases hq : (at_ j).queue with
    | nil => exact ⟨j, Nat.le_refl _, hq⟩
    | cons q rest =>
      obtain ⟨m, k, o, _, hd, hk, _⟩ := C166_turn M fs c at_ does run holders locks j 0 q (by rw [hq]; rfl)
      have h1 := (begin_returns run hd hk).2.1
      have h2 := silent_shrinks run silent j hj m
      have h3 : k < (at_ (j + m)).queue.length := (List.getElem?_eq_some_iff.1 hk).1
      obtain ⟨l, hl, e⟩ := ih (j + m + 1) (by omega) (by rw [h1, List.length_eraseIdx_of_lt h3]; omega)
      exact ⟨l, by omega, e⟩

/-- **C166, in the end.** If from some time on nothing is entered, all commands are done some time later, and from then on
neither a setting nor a transfer changes nor is a beacon sent. The settings are then what all the commands entered, in
some order, make of those read at the start. -/
theorem C166_settled (M : Machine) (fs : FS) (c : Cliflags) (at_ : Nat → Busy) (does : Nat → BusyEvent)
    (run : BusyForever M fs c at_ does) (holders : HolderFair at_ does) (locks : LockFair at_ does) (i : Nat)
    (silent : ∀ j line, i ≤ j → does j ≠ .typed line) :
    ∃ j done, i ≤ j ∧ done.Perm (wordsEntered M (typedLines ((List.range i).map does))) ∧
      ∀ k, j ≤ k → (at_ k).queue = [] ∧ (at_ k).holder = none ∧ (at_ k).prog.settings = settingRun M.H c done ∧
        (at_ k).prog.table = (at_ j).prog.table ∧ (at_ k).trace = (at_ j).trace := by
  obtain ⟨l, hl, hq⟩ := silent_empties run holders locks silent _ i (Nat.le_refl _) (Nat.le_refl _)
  have empty : ∀ k, l ≤ k → (at_ k).queue = [] := fun k hk => by
    have := silent_shrinks run silent l hl (k - l)
    rw [show l + (k - l) = k by omega, hq] at this
    exact List.eq_nil_of_length_eq_zero (by simpa using this)
  have : ∃ j, l ≤ j ∧ (at_ j).holder = none := by
    cases hh : (at_ l).holder with
    | none => exact ⟨l, Nat.le_refl _, hh⟩
    | some acts =>
      obtain ⟨j, hj, h, _⟩ := C166_lock M fs c at_ does run holders l acts hh
      exact ⟨j, by omega, h⟩
  obtain ⟨j, hj, hh⟩ := this
  obtain ⟨done, h1, h2⟩ := C145_settings_partial (run.leads j)
  rw [empty j hj, List.map_nil, List.append_nil] at h1
  have quiet : ∀ n, typedLines ((List.range (i + n)).map does) = typedLines ((List.range i).map does) := by
    intro n
    induction n with
    | zero => rfl
    | succ n ih =>
      rw [← ih, show i + (n + 1) = i + n + 1 by omega, List.range_succ, List.map_append, typedLines_append]
      have : typedLines [does (i + n)] = [] := by
        cases hd : does (i + n) with
        | typed line => exact absurd hd (silent _ line (by omega))
        | _ => rfl
      rw [List.map_singleton, this, List.append_nil]
  have hq' := quiet (j - i)
  rw [show i + (j - i) = j by omega] at hq'
  rw [hq'] at h1
  refine ⟨j, done, by omega, h1, fun k hk => ⟨empty k (by omega), ?_⟩⟩
  obtain ⟨n, rfl⟩ := Nat.le.dest hk
  clear hk
  induction n with
  | zero => exact ⟨hh, h2, rfl, rfl⟩
  | succ n ih =>
    obtain ⟨g1, g2, g3, g4⟩ := (silent_step (run.goes (j + n)) fun line => silent _ line (by omega)).2
      (empty _ (by omega)) ih.1
    exact ⟨g1, g2.trans ih.2.1, g3.trans ih.2.2.1, g4.trans ih.2.2.2⟩

/-- Every finite execution that has not ended can go on for ever. -/
theorem busyForever_of_run {M : Machine} {fs : FS} {c : Cliflags} {es : List BusyEvent} {b : Busy}
    (h : (Busy.init fs c).run M es = some b) (running : b.prog.net.main ≠ .ended) :
    ∃ at_ does, BusyForever M fs c at_ does ∧ (∀ j, es.length ≤ j → at_ j = b) ∧
      (∀ i e, es[i]? = some e → does i = e) ∧ ∀ j line, es.length ≤ j → does j ≠ .typed line := by
  have last : ∀ j, es.length ≤ j → ((Busy.init fs c).run M (es.take j)).getD b = b := by
    intro j hj
    rw [List.take_of_length_le hj, h]; rfl
  refine ⟨fun i => ((Busy.init fs c).run M (es.take i)).getD b, fun i => (es[i]?).getD (.net (.files b.prog.net.fs)),
    ⟨by simp [Busy.run], fun i => ?_⟩, last, fun i e he => by simp [he], fun j line hj => ?_⟩
  rotate_left
  · simp only [List.getElem?_eq_none hj, Option.getD_none]
    simp
  by_cases hi : i < es.length
  · have ht : es.take (i + 1) = es.take i ++ [es[i]] := by
      rw [List.take_add_one, List.getElem?_eq_getElem hi]; rfl
    have split : (Busy.init fs c).run M (es.take (i + 1) ++ es.drop (i + 1)) = some b := by
      rw [List.take_append_drop]; exact h
    rw [busy_run_append] at split
    cases h1 : (Busy.init fs c).run M (es.take (i + 1)) with
    | none => rw [h1] at split; cases split
    | some v =>
      have h1' := h1
      rw [ht, busy_run_append] at h1
      cases h2 : (Busy.init fs c).run M (es.take i) with
      | none => rw [h2] at h1; cases h1
      | some u =>
        rw [h2] at h1
        simp only [Option.bind_some, Busy.run] at h1
        simp only [h1', h2, Option.getD_some, List.getElem?_eq_getElem hi]
        cases h3 : u.step M es[i] with
        | none => rw [h3] at h1; cases h1
        | some x => rw [h3] at h1; exact h1
  · simp only [last i (by omega), last (i + 1) (by omega), List.getElem?_eq_none (Nat.le_of_not_lt hi),
      Option.getD_none, Busy.step, Program.step, World.step]
    rw [if_neg running, if_pos running]
    rfl

/-- If all commands are done from some time on, everybody had a turn. -/
theorem fair_of_done {M : Machine} {fs : FS} {c : Cliflags} {at_ : Nat → Busy} {does : Nat → BusyEvent}
    (run : BusyForever M fs c at_ does) (n : Nat) (done : ∀ j, n ≤ j → (at_ j).queue = [] ∧ (at_ j).holder = none) :
    HolderFair at_ does ∧ LockFair at_ does := by
  refine ⟨fun i always => absurd (done (i + n) (by omega)).2 (always _ (by omega)), fun i p q hq _ => ⟨n, ?_⟩⟩
  cases h : waitsAt does i p n with
  | none => rfl
  | some k =>
    have := queue_waits run hq n h
    rw [(done (i + n) (by omega)).1] at this
    simp at this

/-- A beacon command and a settings command that waits for the lock: both are done, and then nothing more happens. -/
example : ∃ at_ does, BusyForever busyMachine exampleFS shippedSettings at_ does ∧ HolderFair at_ does ∧ LockFair at_ does ∧
    does 0 = .typed "saratoga[0]:beacon 1.1.1.1" ∧ does 1 = .typed "saratoga[1]:timeout request 7" ∧
    ∀ j line, 13 ≤ j → does j ≠ .typed line := by
  have key : ((Busy.init exampleFS shippedSettings).run busyMachine
      (beaconEvents ++ List.replicate 8 .act ++ [.begin 0 calmReplies])).map (fun b =>
        (b.queue.length, b.holder.isNone, decide (b.prog.net.main = .ended))) = some (0, true, false) := by decide +kernel
  obtain ⟨b, h, e⟩ := Option.map_eq_some_iff.1 key
  simp only [Prod.mk.injEq, decide_eq_false_iff_not] at e
  obtain ⟨at_, does, run, last, first, silent⟩ := busyForever_of_run h e.2.2
  obtain ⟨h1, h2⟩ := fair_of_done run 13 fun j hj => by
    rw [last j (by simpa [beaconEvents] using hj)]
    exact ⟨List.eq_nil_of_length_eq_zero e.1, by simpa using e.2.1⟩
  exact ⟨at_, does, run, h1, h2, first 0 _ rfl, first 1 _ rfl, fun j line hj => silent j line (by simpa [beaconEvents] using hj)⟩

/-- The lines are of commands with handlers. -/
example : getLine (busyMachine.H.map Prod.fst) cmdHandlers "saratoga[0]:beacon 1.1.1.1" =
      .ret (.started "beacon" ["beacon", "1.1.1.1"]) ∧
    getLine (busyMachine.H.map Prod.fst) cmdHandlers "saratoga[1]:timeout request 7" =
      .ret (.started "timeout" ["timeout", "request", "7"]) := by decide +kernel

/-! ## What the lock has to promise -/

private def starved : Queued := ⟨"saratoga[0]:timeout request 7", "timeout", ["timeout", "request", "7"]⟩
private def greedy : Queued := ⟨"saratoga[1]:beacon off", "beacon", ["beacon", "off"]⟩

/-- The user enters `beacon off` again and again, and each time that gets the lock before the command entered first. -/
private def starve (b : Busy) : BusyEvent :=
  match b.holder with
  | some _ => .act
  | none => if b.queue = [] then .typed starved.line else if b.queue = [starved] then .typed greedy.line else
    .begin 1 calmReplies

private def starveAt : Nat → Busy
  | 0 => Busy.init exampleFS shippedSettings
  | n + 1 => ((starveAt n).step busyMachine (starve (starveAt n))).getD (starveAt n)

private structure Starving (b : Busy) : Prop where
  running : b.prog.net.main ≠ .ended
  settings : b.prog.settings = shippedSettings
  waits : b.queue = [starved] ∨ b.queue = [starved, greedy] ∧ b.holder = none

private theorem starve_step {b : Busy} (h : Starving b) : ∃ b', b.step busyMachine (starve b) = some b' ∧ Starving b' ∧
    (b.queue = [starved, greedy] → b'.queue = [starved] ∧ b'.holder ≠ none) ∧
    (b.queue = [starved] → b.holder = none → b'.queue = [starved, greedy] ∧ b'.holder = none) := by
  obtain ⟨h1, h2, h3⟩ := h
  cases hh : b.holder with
  | some acts =>
    have hq : b.queue = [starved] := by
      rcases h3 with h3 | ⟨_, h3⟩
      · exact h3
      · rw [hh] at h3; cases h3
    cases acts with
    | nil =>
      refine ⟨{ b with holder := none }, ?_, ⟨h1, h2, .inl hq⟩, fun g => ?_, fun _ g => ?_⟩
      · simp only [starve, hh, Busy.step, if_neg h1]
      · rw [hq] at g; cases g
      · cases g
    | cons a rest =>
      refine ⟨{ b with holder := some rest, trace := b.trace ++ [a] }, ?_, ⟨h1, h2, .inl hq⟩, fun g => ?_, fun _ g => ?_⟩
      · simp only [starve, hh, Busy.step, if_neg h1]
      · rw [hq] at g; cases g
      · cases g
  | none =>
    rcases h3 with h3 | ⟨h3, _⟩
    · have hg : getLine (busyMachine.H.map Prod.fst) cmdHandlers greedy.line =
          .ret (.started "beacon" ["beacon", "off"]) := by decide +kernel
      refine ⟨{ b with queue := b.queue ++ [greedy] }, ?_, ⟨h1, h2, .inr ⟨by simp [h3], hh⟩⟩, fun g => ?_, fun _ _ => ?_⟩
      · simp only [starve, hh, h3, Busy.step, if_neg h1, Busy.enter, hg]
        rfl
      · rw [h3] at g; cases g
      · exact ⟨by simp [h3], hh⟩
    · have hs : starve b = .begin 1 calmReplies := by
        simp only [starve, hh, h3]
        rw [if_neg (by simp), if_neg (by decide)]
      obtain ⟨p, acts, hc, hp, hpn, hps⟩ : ∃ p acts, b.prog.command busyMachine calmReplies "beacon" ["beacon", "off"] = .ret p ∧
          beaconPlan busyMachine calmReplies b.prog greedy = some acts ∧ p.net = b.prog.net ∧
          p.settings = b.prog.settings := ⟨_, _, rfl, rfl, rfl, rfl⟩
      refine ⟨{ b with prog := p, queue := [starved], holder := some acts }, ?_, ⟨by rw [hpn]; exact h1, hps.trans h2, .inl rfl⟩,
        fun _ => ⟨rfl, by simp⟩, fun g => ?_⟩
      · rw [hs]
        have hc' : b.prog.command busyMachine calmReplies greedy.cmd greedy.args = .ret p := hc
        simp only [Busy.step, if_neg h1, h3, List.getElem?_cons_succ, List.getElem?_cons_zero, hh, ne_eq, not_true,
          and_false, if_false, Busy.begin, hc', hp]
        rfl
      · rw [h3] at g; cases g

/-- **C166** The promise of the lock is needed: if only a goroutine that could begin at every moment has to, there is an
execution in which the command of the line entered first never gets the lock, because others get it first again and
again, and the settings never change. -/
theorem C166_promise_needed : ∃ at_ does, BusyForever busyMachine exampleFS shippedSettings at_ does ∧ HolderFair at_ does ∧
    WeakFair at_ does ∧ ¬ LockFair at_ does ∧ does 0 = .typed "saratoga[0]:timeout request 7" ∧
    ∀ j, (at_ j).prog.settings = shippedSettings := by
  have first : (starveAt 0).step busyMachine (starve (starveAt 0)) =
      some { Busy.init exampleFS shippedSettings with queue := [starved] } := by
    have hg : getLine (busyMachine.H.map Prod.fst) cmdHandlers starved.line =
        .ret (.started "timeout" ["timeout", "request", "7"]) := by decide +kernel
    show (Busy.init exampleFS shippedSettings).step busyMachine (.typed starved.line) = _
    simp only [Busy.step, Busy.enter, hg]
    rfl
  have inv : ∀ n, Starving (starveAt (n + 1)) := by
    intro n
    induction n with
    | zero =>
      show Starving (((starveAt 0).step busyMachine (starve (starveAt 0))).getD (starveAt 0))
      rw [first]
      exact ⟨(fun h => by cases h), rfl, .inl rfl⟩
    | succ n ih =>
      obtain ⟨b', h1, h2, _⟩ := starve_step ih
      show Starving (((starveAt (n + 1)).step busyMachine (starve (starveAt (n + 1)))).getD _)
      rw [h1]
      exact h2
  have next : ∀ n, ∃ b', (starveAt n).step busyMachine (starve (starveAt n)) = some b' ∧ starveAt (n + 1) = b' := by
    intro n
    cases n with
    | zero => exact ⟨_, first, by show Option.getD _ _ = _; rw [first]; rfl⟩
    | succ n =>
      obtain ⟨b', h1, _⟩ := starve_step (inv n)
      exact ⟨b', h1, by show Option.getD _ _ = _; rw [h1]; rfl⟩
  have after : ∀ n, ((starveAt (n + 1)).queue = [starved, greedy] → (starveAt (n + 2)).queue = [starved] ∧
        (starveAt (n + 2)).holder ≠ none) ∧
      ((starveAt (n + 1)).queue = [starved] → (starveAt (n + 1)).holder = none →
        (starveAt (n + 2)).queue = [starved, greedy] ∧ (starveAt (n + 2)).holder = none) := by
    intro n
    obtain ⟨b', h1, _, h2⟩ := starve_step (inv n)
    obtain ⟨b2, h3, h4⟩ := next (n + 1)
    rw [h1] at h3
    cases h3
    rw [h4]
    exact h2
  have run : BusyForever busyMachine exampleFS shippedSettings starveAt fun n => starve (starveAt n) :=
    ⟨rfl, fun i => by obtain ⟨b', h1, h2⟩ := next i; rw [h1, h2]⟩
  have empty : (starveAt 0).queue = [] := rfl
  -- the first command is at the head of those that wait, for ever
  have stays : ∀ n, waitsAt (fun n => starve (starveAt n)) 1 0 n = some 0 := by
    intro n
    induction n with
    | zero => rfl
    | succ n ih =>
      show (waitsAt _ 1 0 n).bind _ = _
      rw [ih]
      show (starve (starveAt (1 + n))).place 0 = some 0
      unfold starve
      cases (starveAt (1 + n)).holder with
      | some acts => rfl
      | none =>
        simp only
        split
        · rfl
        · split <;> rfl
  have held : ∀ i, 1 ≤ i → ∃ j, i ≤ j ∧ (starveAt j).holder ≠ none := by
    intro i hi
    obtain ⟨n, rfl⟩ : ∃ n, i = n + 1 := ⟨i - 1, by omega⟩
    by_cases hh : (starveAt (n + 1)).holder = none
    · rcases (inv n).waits with h | ⟨h, _⟩
      · obtain ⟨h1, _⟩ := (after n).2 h hh
        exact ⟨n + 3, by omega, ((after (n + 1)).1 h1).2⟩
      · exact ⟨n + 2, by omega, ((after n).1 h).2⟩
    · exact ⟨n + 1, Nat.le_refl _, hh⟩
  refine ⟨starveAt, fun n => starve (starveAt n), run, fun i always => ⟨i, Nat.le_refl _, ?_⟩, fun i p q hq could => ?_, ?_, rfl, ?_⟩
  · have := always i (Nat.le_refl _)
    show starve (starveAt i) = .act
    unfold starve
    cases hh : (starveAt i).holder with
    | none => exact absurd hh this
    | some acts => rfl
  · cases i with
    | zero => rw [empty] at hq; cases hq
    | succ i =>
      have first : q = starved → False := by
        rintro rfl
        obtain ⟨j, hj, h⟩ := held (i + 1) (by omega)
        exact h (could j hj (by decide))
      rcases (inv i).waits with h | ⟨h, hh⟩
      · rw [h] at hq
        cases p with
        | zero => cases hq; exact (first rfl).elim
        | succ p => simp at hq
      · rw [h] at hq
        cases p with
        | zero => cases hq; exact (first rfl).elim
        | succ p =>
          cases p with
          | zero =>
            refine ⟨1, ?_⟩
            show (starve (starveAt (i + 1))).place 1 = none
            unfold starve
            rw [hh, h, if_neg (by simp), if_neg (by decide)]
            rfl
          | succ p => simp at hq
  · intro fair
    have hq : (starveAt 1).queue[0]? = some starved := by
      rcases (inv 0).waits with h | ⟨h, _⟩ <;> rw [h] <;> rfl
    obtain ⟨n, hn⟩ := fair 1 0 starved hq fun j hj => by
      -- whoever holds the lock gives it back
      apply Classical.byContradiction
      intro none_
      have always : ∀ k, j ≤ k → (starveAt k).holder ≠ none := fun k hk h => none_ ⟨k, hk, fun _ => h⟩
      cases hh : (starveAt j).holder with
      | none => exact always j (Nat.le_refl _) hh
      | some acts =>
        have hf : HolderFair starveAt fun n => starve (starveAt n) := fun i always => ⟨i, Nat.le_refl _, by
          have := always i (Nat.le_refl _)
          show starve (starveAt i) = .act
          unfold starve
          cases hh : (starveAt i).holder with
          | none => exact absurd hh this
          | some acts => rfl⟩
        obtain ⟨k, hk, hn, _⟩ := C166_lock _ _ _ _ _ run hf j acts hh
        exact always k (by omega) hn
    rw [stays] at hn
    cases hn
  · intro j
    cases j with
    | zero => rfl
    | succ j => exact (inv j).settings

end Saratoga
