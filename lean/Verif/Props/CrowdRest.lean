import Verif.Props.CrowdForever
/-! # C176: a network at which nothing more is entered comes to rest -/
namespace Saratoga

variable {N : Type} [DecidableEq N]

/-- The steps in which commands get on: a goroutine begins or does the next thing under the lock of machine `n`. -/
def GetsOn (n : N) (e : CrowdEvent N) : Prop := (∃ k o source, e = .begin n k o source) ∨ e = .act n

theorem crowd_works_running {P : Plant N} {w w' : Crowd N} {e : CrowdEvent N} (h : w.step P e = some w') {n : N}
    (works : GetsOn n e) : ¬ (w.node n).prog.Ended := by
  intro hd
  rcases crowd_sees h n with ⟨_, na, nb, _⟩ | ⟨e', s1, _⟩
  · rcases works with ⟨k, o, s, rfl⟩ | rfl
    · exact nb k o s rfl
    · exact na rfl
  · unfold Busy.step at s1
    rw [if_pos (show (w.node n).prog.net.main = .ended from hd)] at s1; cases s1

theorem crowd_ended_stays {P : Plant N} {fs : N → FS} {c : N → Cliflags} {at_ : Nat → Crowd N} {does : Nat → CrowdEvent N}
    (run : CrowdForever P fs c at_ does) {n : N} {i : Nat} (h : ((at_ i).node n).prog.Ended) (t : Nat) :
    ((at_ (i + t)).node n).prog.Ended := (crowd_ended run h t).1

/-- A step at which nothing is entered adds nothing to what waits. -/
theorem crowd_silent_step {P : Plant N} {w w' : Crowd N} {e : CrowdEvent N} (h : w.step P e = some w') (n : N)
    (silent : ∀ line, e ≠ .typed n line) :
    (w'.node n).queue.length ≤ (w.node n).queue.length ∧
      ((w.node n).queue = [] → (w.node n).holder = none → (w'.node n).holder = none ∧ ¬ GetsOn n e) := by
  rcases crowd_sees h n with ⟨e1, na, nb, _⟩ | ⟨e', s1, ea, b1, b2, _, _, tl⟩
  · rw [e1]
    refine ⟨Nat.le_refl _, fun _ hh => ⟨hh, ?_⟩⟩
    rintro (⟨k, o, s, rfl⟩ | rfl)
    · exact nb k o s rfl
    · exact na rfl
  · have nt : ∀ line, e' ≠ .typed line := fun line he => silent line (tl line he)
    have := silent_step s1 nt
    refine ⟨this.1, fun hq hh => ⟨(this.2 hq hh).1, ?_⟩⟩
    rintro (⟨k, o, s, rfl⟩ | rfl)
    · rw [b2 k o s rfl] at s1
      unfold Busy.step at s1
      split at s1
      · cases s1
      simp only [hq, List.getElem?_nil] at s1
      cases s1
    · rw [ea.2 rfl] at s1
      unfold Busy.step at s1
      split at s1
      · cases s1
      simp only [hh] at s1
      cases s1

/-- Each machine for itself. -/
theorem crowd_machine_rests {P : Plant N} {fs : N → FS} {c : N → Cliflags} {at_ : Nat → Crowd N} {does : Nat → CrowdEvent N}
    (run : CrowdForever P fs c at_ does) (n : N)
    (holders : (∀ i, ¬ ((at_ i).node n).prog.Ended) → HolderFairAt at_ does n)
    (locks : (∀ i, ¬ ((at_ i).node n).prog.Ended) → LockFairAt at_ does n) (i : Nat)
    (silent : ∀ j line, i ≤ j → does j ≠ .typed n line) :
    ∃ j, i ≤ j ∧ ∀ k, j ≤ k → ¬ GetsOn n (does k) ∧
      (¬ ((at_ k).node n).prog.Ended → ((at_ k).node n).queue = [] ∧ ((at_ k).node n).holder = none) := by
  by_cases ends : ∃ l, ((at_ l).node n).prog.Ended
  · obtain ⟨l, hl⟩ := ends
    refine ⟨i + l, by omega, fun k hk => ?_⟩
    have := crowd_ended_stays run hl (k - l)
    rw [show l + (k - l) = k by omega] at this
    exact ⟨fun wk => crowd_works_running (run.goes k) wk this, fun h => absurd this h⟩
  have running : ∀ i, ¬ ((at_ i).node n).prog.Ended := fun i h => ends ⟨i, h⟩
  have hf := holders running
  have lf := locks running
  have shrinks : ∀ j, i ≤ j → ∀ t, ((at_ (j + t)).node n).queue.length ≤ ((at_ j).node n).queue.length := by
    intro j hj t
    induction t with
    | zero => exact Nat.le_refl _
    | succ t ih =>
      exact Nat.le_trans (crowd_silent_step (run.goes (j + t)) n fun line => silent _ line (by omega)).1 ih
  have empties : ∀ (len j : Nat), i ≤ j → ((at_ j).node n).queue.length ≤ len → ∃ l, j ≤ l ∧ ((at_ l).node n).queue = [] := by
    intro len
    induction len with
    | zero => exact fun j _ h => ⟨j, Nat.le_refl _, List.eq_nil_of_length_eq_zero (by omega)⟩
    | succ len ih =>
      intro j hj hl
      cases hq : ((at_ j).node n).queue with
      | nil => exact ⟨j, Nat.le_refl _, hq⟩
      | cons q rest =>
        obtain ⟨l, k, o, source, h1, h2, h3, _⟩ := C175_turn P fs c at_ does run n running hf lf j 0 q (by rw [hq]; rfl)
        have h4 := shrinks j hj (l - j)
        rw [show j + (l - j) = l by omega] at h4
        have h5 : k < ((at_ l).node n).queue.length := (List.getElem?_eq_some_iff.1 h3).1
        have h6 : ((at_ (l + 1)).node n).queue = ((at_ l).node n).queue.eraseIdx k := by
          have hs := run.goes l
          rw [h2] at hs
          obtain ⟨b, g1, g2⟩ := Option.map_eq_some_iff.1 hs
          rw [← g2]
          show ((Crowd.set _ n b).node n).queue = _
          rw [crowd_set_self]
          unfold Busy.step at g1
          simp only [h3] at g1
          split at g1
          · cases g1
          split at g1
          · cases g1
          simp only [Option.some.injEq] at g1
          rw [← g1]; unfold Busy.begin; split <;> rfl
        obtain ⟨m, hm, e⟩ := ih (l + 1) (by omega) (by rw [h6, List.length_eraseIdx_of_lt h5]; omega)
        exact ⟨m, by omega, e⟩
  obtain ⟨l, hl, he⟩ := empties _ i (Nat.le_refl _) (Nat.le_refl _)
  have stays : ∀ t, ((at_ (l + t)).node n).queue = [] := fun t => by
    have := shrinks l hl t
    rw [he] at this
    exact List.eq_nil_of_length_eq_zero (Nat.le_zero.1 this)
  have free : ∃ m, l ≤ m ∧ ((at_ m).node n).holder = none := by
    cases hh : ((at_ l).node n).holder with
    | none => exact ⟨l, Nat.le_refl _, hh⟩
    | some acts =>
      obtain ⟨⟨m, hm, h⟩, _⟩ := C175_lock P fs c at_ does run n hf l acts hh
      exact ⟨m, by omega, h⟩
  obtain ⟨m, hm, hh⟩ := free
  have rest : ∀ t, ((at_ (m + t)).node n).queue = [] ∧ ((at_ (m + t)).node n).holder = none := by
    intro t
    induction t with
    | zero =>
      have := stays (m - l)
      rw [show l + (m - l) = m by omega] at this
      exact ⟨this, hh⟩
    | succ t ih =>
      have h1 := stays (m + (t + 1) - l)
      rw [show l + (m + (t + 1) - l) = m + (t + 1) by omega] at h1
      exact ⟨h1, ((crowd_silent_step (run.goes (m + t)) n fun line => silent _ line (by omega)).2 ih.1 ih.2).1⟩
  refine ⟨m, by omega, fun k hk => ?_⟩
  have := rest (k - m)
  rw [show m + (k - m) = k by omega] at this
  exact ⟨((crowd_silent_step (run.goes k) n fun line => silent _ line (by omega)).2 this.1 this.2).2, fun _ => this⟩

/-- **C176** If from some time on nothing is entered at any of the machines, the network comes to rest, if at the programs
that go on scheduler and lock are fair: from some time on no command does anything anywhere and nothing more leaves; all
that happens is that datagrams sent before arrive and that something happens inside a machine. At every program that goes
on all commands are done. -/
theorem C176_rest (P : Plant N) (fs : N → FS) (c : N → Cliflags) (at_ : Nat → Crowd N) (does : Nat → CrowdEvent N)
    (run : CrowdForever P fs c at_ does) (machines : List N) (all : ∀ n, n ∈ machines)
    (holders : ∀ n, (∀ i, ¬ ((at_ i).node n).prog.Ended) → HolderFairAt at_ does n)
    (locks : ∀ n, (∀ i, ¬ ((at_ i).node n).prog.Ended) → LockFairAt at_ does n) (i : Nat)
    (silent : ∀ j n line, i ≤ j → does j ≠ .typed n line) :
    ∃ j, i ≤ j ∧ ∀ k, j ≤ k →
      ((∃ n l fam clock, does k = .arrives n l fam clock) ∨ ∃ n a, does k = .inside n a) ∧ (at_ k).air = (at_ j).air ∧
      ∀ n, ¬ ((at_ k).node n).prog.Ended → ((at_ k).node n).queue = [] ∧ ((at_ k).node n).holder = none := by
  have each : ∀ ns : List N, ∃ j, i ≤ j ∧ ∀ k, j ≤ k → ∀ n ∈ ns, ¬ GetsOn n (does k) ∧
      (¬ ((at_ k).node n).prog.Ended → ((at_ k).node n).queue = [] ∧ ((at_ k).node n).holder = none) := by
    intro ns
    induction ns with
    | nil => exact ⟨i, Nat.le_refl _, fun _ _ n hn => by cases hn⟩
    | cons n ns ih =>
      obtain ⟨j1, h1, h2⟩ := ih
      obtain ⟨j2, h3, h4⟩ := crowd_machine_rests run n (holders n) (locks n) i fun j line hj => silent j n line hj
      refine ⟨j1 + j2, by omega, fun k hk m hm => ?_⟩
      rcases List.mem_cons.1 hm with rfl | hm
      · exact h4 k (by omega)
      · exact h2 k (by omega) m hm
  obtain ⟨j, hj, h⟩ := each machines
  have kinds : ∀ k, j ≤ k → (∃ n l fam clock, does k = .arrives n l fam clock) ∨ ∃ n a, does k = .inside n a := by
    intro k hk
    cases hd : does k with
    | typed n line => exact absurd hd (silent k n line (by omega))
    | begin n l o s => exact absurd (.inl ⟨l, o, s, hd⟩) (h k hk n (all n)).1
    | act n => exact absurd (.inr hd) (h k hk n (all n)).1
    | arrives n l fam clock => exact .inl ⟨n, l, fam, clock, rfl⟩
    | inside n a => exact .inr ⟨n, a, rfl⟩
  have air : ∀ t, (at_ (j + t)).air = (at_ j).air := by
    intro t
    induction t with
    | zero => rfl
    | succ t ih =>
      rw [← ih]
      have hs := run.goes (j + t)
      show (at_ (j + t + 1)).air = _
      rcases crowd_step_cases hs with ⟨m, l, b, e, h1, e1⟩ | ⟨m, k, o, source, b, e, h1, e1⟩ | ⟨m, b, e, h1, e1⟩ |
        ⟨m, k, fam, clock, d, b, e, hd, hh, h1, e1⟩ | ⟨m, a, b, e, ha, h1, e1⟩
      · rw [e1]; rfl
      · rw [e1]; rfl
      · exact absurd (.inr e) (h (j + t) (by omega) m (all m)).1
      · rw [e1]; rfl
      · rw [e1]; rfl
  refine ⟨j, hj, fun k hk => ⟨kinds k hk, ?_, fun n => (h k hk n (all n)).2⟩⟩
  have := air (k - j)
  rwa [show j + (k - j) = k by omega] at this

/-- **C176, what was done.** If all programs go on, then at rest they are as after an execution with one command after
another (C131) in which at every machine all the lines entered there have been entered, in some order, and each machine has
sent exactly what it sent in that one. -/
theorem C176_done (P : Plant N) (fs : N → FS) (c : N → Cliflags) (at_ : Nat → Crowd N) (does : Nat → CrowdEvent N)
    (run : CrowdForever P fs c at_ does) (machines : List N) (all : ∀ n, n ∈ machines)
    (running : ∀ n i, ¬ ((at_ i).node n).prog.Ended) (holders : ∀ n, HolderFairAt at_ does n)
    (locks : ∀ n, LockFairAt at_ does n) (i : Nat) (silent : ∀ j n line, i ≤ j → does j ≠ .typed n line) :
    ∃ j, i ≤ j ∧ ∀ k, j ≤ k → ∃ es w, NetLeads P fs c es w ∧ (∀ n, w.node n = ((at_ k).node n).prog) ∧
      (∀ n, ((linesAt n es).map Prod.fst).Perm (enteredAt n ((List.range i).map does))) ∧
      ∀ n, sentBy n w.air = sentBy n (at_ k).air := by
  obtain ⟨j, hj, h⟩ := C176_rest P fs c at_ does run machines all (fun n _ => holders n) (fun n _ => locks n) i silent
  refine ⟨j, hj, fun k hk => ?_⟩
  obtain ⟨es, w, h1, h2, h3, _, h5⟩ := C174_network (run.leads k)
  have idle := fun n => (h k hk).2.2 n (running n k)
  have lines : ∀ n, enteredAt n ((List.range k).map does) = enteredAt n ((List.range i).map does) := by
    intro n
    have : ∀ t, enteredAt n ((List.range (i + t)).map does) = enteredAt n ((List.range i).map does) := by
      intro t
      induction t with
      | zero => rfl
      | succ t ih =>
        rw [show i + (t + 1) = i + t + 1 by omega, List.range_succ, List.map_append, enteredAt_append, ih]
        have : enteredAt n ([i + t].map does) = [] := by
          simp only [enteredAt, List.map_cons, List.map_nil]
          cases hd : does (i + t) with
          | typed m line => exact absurd hd (silent _ m line (by omega))
          | _ => rfl
        rw [this, List.append_nil]
    have := this (k - i)
    rwa [show i + (k - i) = k by omega] at this
  refine ⟨es, w, h1, h2, fun n => ?_, fun n => ?_⟩
  · have := h3 n
    rw [(idle n).1, List.map_nil, List.append_nil, lines n] at this
    exact this
  · rw [h5 n, due_eq, dueOf_none (idle n).2, List.append_nil]

/-! ## A concrete case -/

/-- Every finite execution in which some program has not ended can go on for ever. -/
theorem crowdForever_of_run {P : Plant N} {fs : N → FS} {c : N → Cliflags} {es : List (CrowdEvent N)} {w : Crowd N}
    (h : (Crowd.init fs c).run P es = some w) {n : N} (running : ¬ (w.node n).prog.Ended) :
    ∃ at_ does, CrowdForever P fs c at_ does ∧ (∀ j, es.length ≤ j → at_ j = w) ∧
      (∀ i e, es[i]? = some e → does i = e) ∧ ∀ j m line, es.length ≤ j → does j ≠ .typed m line := by
  have running : (w.node n).prog.net.main ≠ .ended := running
  have last : ∀ j, es.length ≤ j → ((Crowd.init fs c).run P (es.take j)).getD w = w := by
    intro j hj
    rw [List.take_of_length_le hj, h]; rfl
  refine ⟨fun i => ((Crowd.init fs c).run P (es.take i)).getD w,
    fun i => (es[i]?).getD (.inside n (.files (w.node n).prog.net.fs)),
    ⟨by simp [Crowd.run], fun i => ?_⟩, last, fun i e he => by simp [he], fun j m line hj => ?_⟩
  rotate_left
  · simp only [List.getElem?_eq_none hj, Option.getD_none]
    simp
  by_cases hi : i < es.length
  · have ht : es.take (i + 1) = es.take i ++ [es[i]] := by
      rw [List.take_add_one, List.getElem?_eq_getElem hi]; rfl
    have some_ : ∀ (l more : List (CrowdEvent N)) (w0 : Crowd N), w0.run P (l ++ more) = some w →
        ∃ v, w0.run P l = some v := by
      intro l
      induction l with
      | nil => exact fun _ w0 _ => ⟨w0, rfl⟩
      | cons e l ih =>
        intro more w0 hr
        have hr : (w0.step P e).bind (fun w => w.run P (l ++ more)) = some w := hr
        obtain ⟨w1, g1, g2⟩ := Option.bind_eq_some_iff.1 hr
        obtain ⟨v, hv⟩ := ih more w1 g2
        exact ⟨v, by show (w0.step P e).bind _ = _; rw [g1]; exact hv⟩
    obtain ⟨u, hu⟩ := some_ (es.take i) (es.drop i) _ (by rw [List.take_append_drop]; exact h)
    obtain ⟨v, hv⟩ := some_ (es.take (i + 1)) (es.drop (i + 1)) _ (by rw [List.take_append_drop]; exact h)
    have hv' := hv
    rw [ht, crowd_run_snoc, hu] at hv
    simp only [hv', hu, Option.getD_some, List.getElem?_eq_getElem hi]
    exact hv
  · simp only [last i (by omega), last (i + 1) (by omega), List.getElem?_eq_none (Nat.le_of_not_lt hi),
      Option.getD_none, Crowd.step, Busy.step, if_neg running, Program.step, World.step]
    rw [if_pos running]
    simp only [Option.map_some, Option.some.injEq]
    unfold Crowd.set
    congr 1
    funext m
    by_cases e : m = n
    · subst e; simp
    · simp [e]

/-- Three machines as those of `examplePlant`. -/
def smallPlant : Plant (Fin 3) where
  machine := fun n => examplePlant.machine n.val
  hears := fun n a => examplePlant.hears n.val a

/-- At machine 1 a beacon command and a settings command are entered. The second waits for the lock until the first has
sent its three beacons. -/
def smallEvents : List (CrowdEvent (Fin 3)) :=
  [.typed 1 "saratoga[0]:beacon 1.1.1.2", .typed 1 "saratoga[1]:descriptor d32",
   .begin 1 0 towardsTwo (fun _ => ⟨[1#8, 1#8, 1#8, 1#8], 5000, ""⟩)] ++
  List.replicate 9 (.act 1) ++ [.begin 1 0 calmReplies id]

example : ∃ at_ does, CrowdForever smallPlant (fun _ => exampleFS) (fun _ => shippedSettings) at_ does ∧
    (∀ n : Fin 3, n ∈ [0, 1, 2]) ∧ (∀ n i, ¬ ((at_ i).node n).prog.Ended) ∧ (∀ n, HolderFairAt at_ does n) ∧
    (∀ n, LockFairAt at_ does n) ∧ does 0 = .typed 1 "saratoga[0]:beacon 1.1.1.2" ∧
    (∀ j n line, smallEvents.length ≤ j → does j ≠ .typed n line) ∧
    ∀ j, smallEvents.length ≤ j → (at_ j).air.length = 3 := by
  have key : ((Crowd.init (fun _ => exampleFS) (fun _ => shippedSettings)).run smallPlant smallEvents).map (fun w =>
      (w.air.length, ([0, 1, 2] : List (Fin 3)).map fun n =>
        ((w.node n).queue.length, (w.node n).holder.isNone, decide ((w.node n).prog.net.main = .ended)))) =
      some (3, [(0, true, false), (0, true, false), (0, true, false)]) := by decide +kernel
  obtain ⟨w, h, e⟩ := Option.map_eq_some_iff.1 key
  simp only [List.map_cons, List.map_nil, Prod.mk.injEq, List.cons.injEq, decide_eq_false_iff_not] at e
  have each : ∀ n : Fin 3, (w.node n).queue.length = 0 ∧ (w.node n).holder.isNone = true ∧ ¬ (w.node n).prog.net.main = .ended := by
    intro n
    match n with
    | 0 => exact e.2.1
    | 1 => exact e.2.2.1
    | 2 => exact e.2.2.2.1
  obtain ⟨at_, does, run, last, first, silent⟩ := crowdForever_of_run h (n := 0) (each 0).2.2
  have done : ∀ n j, smallEvents.length ≤ j → ((at_ j).node n).queue = [] ∧ ((at_ j).node n).holder = none := by
    intro n j hj
    rw [last j hj]
    exact ⟨List.eq_nil_of_length_eq_zero (each n).1, by simpa using (each n).2.1⟩
  refine ⟨at_, does, run, by decide, fun n i he => ?_, fun n i always => ?_, fun n i p q hq _ => ?_, first 0 _ rfl, silent,
    fun j hj => by rw [last j hj]; exact e.1⟩
  · have := crowd_ended_stays run he smallEvents.length
    rw [last _ (by omega)] at this
    exact (each n).2.2 this
  · exact absurd (done n (i + smallEvents.length) (by omega)).2 (always _ (by omega))
  · refine ⟨smallEvents.length, ?_⟩
    cases hk : crowdWaits does n i p smallEvents.length with
    | none => rfl
    | some k =>
      have := crowd_queue_waits run hq _ hk
      rw [(done n (i + smallEvents.length) (by omega)).1] at this
      cases this

end Saratoga
