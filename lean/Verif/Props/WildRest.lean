import Verif.Props.WildTurn
/-! # C184: programs that strangers end and that are started again come to rest -/
namespace Saratoga

variable {N : Type} [DecidableEq N]

/-- A step at which nothing is entered at machine `n` and its program is not started again adds nothing to what waits. -/
theorem wild_silent_step {P : Plant N} {w w' : Crowd N} {e : WildEvent N} (h : w.wildStep P e = some w') (n : N)
    (stay : ∀ c f, e ≠ .goes (.restart n c f)) (silent : ∀ line, e ≠ .goes (.goes (.typed n line))) :
    (w'.node n).queue.length ≤ (w.node n).queue.length ∧
      ((w.node n).queue = [] → (w.node n).holder = none →
        (w'.node n).holder = none ∧ ∀ a, e = .goes (.goes a) → ¬ GetsOn n a) := by
  cases e with
  | stranger m d =>
    have h : ((w.node m).step (P.machine m) (.net (.recv d))).map (w.set m) = some w' := h
    obtain ⟨b, hb, rfl⟩ := Option.map_eq_some_iff.1 h
    by_cases hm : n = m
    · subst hm
      rw [crowd_set_self]
      have := silent_step hb fun line he => by cases he
      exact ⟨this.1, fun hq hh => ⟨(this.2 hq hh).1, fun a ha => by cases ha⟩⟩
    · rw [crowd_set_other _ _ hm]
      exact ⟨Nat.le_refl _, fun _ hh => ⟨hh, fun a ha => by cases ha⟩⟩
  | goes e =>
    cases e with
    | restart m c f =>
      have h : some (w.restart m c f) = some w' := h
      injection h with h
      have hm : n ≠ m := fun hm => stay c f (by rw [hm])
      have : w'.node n = w.node n := by
        rw [← h]
        show (w.set m (Busy.init f c)).node n = _
        exact crowd_set_other _ _ hm
      rw [this]
      exact ⟨Nat.le_refl _, fun _ hh => ⟨hh, fun a ha => by cases ha⟩⟩
    | goes e =>
      have := crowd_silent_step (show w.step P e = some w' from h) n fun line he => silent line (by rw [he])
      refine ⟨this.1, fun hq hh => ⟨(this.2 hq hh).1, fun a ha => ?_⟩⟩
      injection ha with ha
      injection ha with ha
      rw [← ha]
      exact (this.2 hq hh).2

/-- A program that has been ended stays so if it is not started again. -/
theorem wild_ended_stays {P : Plant N} {fs : N → FS} {c : N → Cliflags} {at_ : Nat → Crowd N} {does : Nat → WildEvent N}
    (run : WildForever P fs c at_ does) {n : N} {i : Nat} (stay : ∀ j c f, i ≤ j → does j ≠ .goes (.restart n c f))
    (h : ((at_ i).node n).prog.Ended) (t : Nat) : ((at_ (i + t)).node n).prog.Ended := by
  induction t with
  | zero => exact h
  | succ t ih =>
    have hs := run.goes (i + t)
    have no := fun c f => stay (i + t) c f (by omega)
    show ((at_ (i + t + 1)).node n).prog.Ended
    have none_ : ∀ e, ((at_ (i + t)).node n).step (P.machine n) e = none := by
      intro e
      unfold Busy.step
      rw [if_pos (show ((at_ (i + t)).node n).prog.net.main = .ended from ih)]
    cases hd : does (i + t) with
    | stranger m d =>
      rw [hd] at hs
      have hs : (((at_ (i + t)).node m).step (P.machine m) (.net (.recv d))).map ((at_ (i + t)).set m) = _ := hs
      obtain ⟨b, hb, e⟩ := Option.map_eq_some_iff.1 hs
      by_cases hm : n = m
      · subst hm; rw [none_] at hb; cases hb
      · rw [← e, crowd_set_other _ _ hm]; exact ih
    | goes e =>
      rw [hd] at hs
      cases e with
      | restart m c f =>
        have hs : some ((at_ (i + t)).restart m c f) = some (at_ (i + t + 1)) := hs
        injection hs with hs
        have hm : n ≠ m := fun hm => no c f (by rw [hd, hm])
        rw [← hs]
        show (((at_ (i + t)).set m (Busy.init f c)).node n).prog.Ended
        rw [crowd_set_other _ _ hm]; exact ih
      | goes e =>
        rcases crowd_sees (show (at_ (i + t)).step P e = _ from hs) n with ⟨e1, _⟩ | ⟨e', s1, _⟩
        · rw [e1]; exact ih
        · rw [none_] at s1; cases s1

/-- **C184, one machine.** If from some time on nothing is entered at a machine and its program is not started again, its
commands come to an end, if scheduler and lock are fair should it go on: from some time on none of them does anything, and
if the program goes on all of them are done. Others may be ended and started again and strangers may send for ever. -/
theorem C184_machine (P : Plant N) (fs : N → FS) (c : N → Cliflags) (at_ : Nat → Crowd N) (does : Nat → WildEvent N)
    (run : WildForever P fs c at_ does) (n : N) (T : Nat) (stay : ∀ i c f, does (T + i) ≠ .goes (.restart n c f))
    (silent : ∀ i line, does (T + i) ≠ .goes (.goes (.typed n line)))
    (holders : (∀ i, ¬ ((at_ (T + i)).node n).prog.Ended) →
      HolderFairAt (fun i => at_ (T + i)) (fun i => (does (T + i)).seen) n)
    (locks : (∀ i, ¬ ((at_ (T + i)).node n).prog.Ended) →
      LockFairAt (fun i => at_ (T + i)) (fun i => (does (T + i)).seen) n) :
    ∃ j, T ≤ j ∧ ∀ k, j ≤ k → (∀ l o source, does k ≠ .goes (.goes (.begin n l o source))) ∧ does k ≠ .goes (.goes (.act n)) ∧
      (¬ ((at_ k).node n).prog.Ended → ((at_ k).node n).queue = [] ∧ ((at_ k).node n).holder = none) := by
  have stay' : ∀ j, T ≤ j → ∀ c f, does j ≠ .goes (.restart n c f) := fun j hj c f => by
    rw [show j = T + (j - T) by omega]; exact stay _ c f
  have silent' : ∀ j, T ≤ j → ∀ line, does j ≠ .goes (.goes (.typed n line)) := fun j hj line => by
    rw [show j = T + (j - T) by omega]; exact silent _ line
  by_cases ends : ∃ l, ((at_ (T + l)).node n).prog.Ended
  · obtain ⟨l, hl⟩ := ends
    refine ⟨T + l, by omega, fun k hk => ?_⟩
    have := wild_ended_stays run (fun j c f hj => stay' j (by omega) c f) hl (k - (T + l))
    rw [show T + l + (k - (T + l)) = k by omega] at this
    have idle : ∀ e, does k = .goes (.goes e) → ¬ GetsOn n e := by
      intro e he wk
      have hs := run.goes k
      rw [he] at hs
      exact crowd_works_running (show (at_ k).step P e = _ from hs) wk this
    exact ⟨fun l o source e => idle _ e (.inl ⟨l, o, source, rfl⟩), fun e => idle _ e (.inr rfl), fun h => absurd this h⟩
  have running : ∀ i, ¬ ((at_ (T + i)).node n).prog.Ended := fun i h => ends ⟨i, h⟩
  have hf := holders running
  have lf := locks running
  have step := fun j (hj : T ≤ j) => wild_silent_step (run.goes j) n (stay' j hj) (silent' j hj)
  have shrinks : ∀ j, T ≤ j → ∀ t, ((at_ (j + t)).node n).queue.length ≤ ((at_ j).node n).queue.length := by
    intro j hj t
    induction t with
    | zero => exact Nat.le_refl _
    | succ t ih => exact Nat.le_trans (step (j + t) (by omega)).1 ih
  have empties : ∀ (len j : Nat), T ≤ j → ((at_ j).node n).queue.length ≤ len → ∃ l, j ≤ l ∧ ((at_ l).node n).queue = [] := by
    intro len
    induction len with
    | zero => exact fun j _ h => ⟨j, Nat.le_refl _, List.eq_nil_of_length_eq_zero (by omega)⟩
    | succ len ih =>
      intro j hj hl
      cases hq : ((at_ j).node n).queue with
      | nil => exact ⟨j, Nat.le_refl _, hq⟩
      | cons q rest =>
        obtain ⟨l, k, o, source, h1, h2, h3, _⟩ := C183_turn P fs c at_ does run n T stay running hf lf j 0 hj q (by rw [hq]; rfl)
        have h4 := shrinks j hj (l - j)
        rw [show j + (l - j) = l by omega] at h4
        have h5 : k < ((at_ l).node n).queue.length := (List.getElem?_eq_some_iff.1 h3).1
        have h6 : ((at_ (l + 1)).node n).queue = ((at_ l).node n).queue.eraseIdx k := by
          have hs := run.goes l
          rw [h2] at hs
          obtain ⟨b, g1, g2⟩ := Option.map_eq_some_iff.1 hs
          rw [← g2]
          show ((Crowd.set _ n b).node n).queue = _
          rw [crowd_set_self]
          unfold Busy.step at g1
          simp only [h3] at g1
          split at g1
          · cases g1
          split at g1
          · cases g1
          simp only [Option.some.injEq] at g1
          rw [← g1]; unfold Busy.begin; split <;> rfl
        obtain ⟨m, hm, e⟩ := ih (l + 1) (by omega) (by rw [h6, List.length_eraseIdx_of_lt h5]; omega)
        exact ⟨m, by omega, e⟩
  obtain ⟨l, hl, he⟩ := empties _ T (Nat.le_refl _) (Nat.le_refl _)
  have stays : ∀ t, ((at_ (l + t)).node n).queue = [] := fun t => by
    have := shrinks l hl t
    rw [he] at this
    exact List.eq_nil_of_length_eq_zero (Nat.le_zero.1 this)
  have free : ∃ m, l ≤ m ∧ ((at_ m).node n).holder = none := by
    cases hh : ((at_ l).node n).holder with
    | none => exact ⟨l, Nat.le_refl _, hh⟩
    | some acts =>
      obtain ⟨c', v, x, does', L⟩ := last_run run stay running hf lf
      obtain ⟨⟨m, hm, h⟩, _⟩ := C182_lock P.runs _ c' v does' L.run x L.holders l acts (by rw [L.node l hl]; exact hh)
      exact ⟨m, by omega, by rw [← L.node m (by omega)]; exact h⟩
  obtain ⟨m, hm, hh⟩ := free
  have rest : ∀ t, ((at_ (m + t)).node n).queue = [] ∧ ((at_ (m + t)).node n).holder = none := by
    intro t
    induction t with
    | zero =>
      have := stays (m - l)
      rw [show l + (m - l) = m by omega] at this
      exact ⟨this, hh⟩
    | succ t ih =>
      have h1 := stays (m + (t + 1) - l)
      rw [show l + (m + (t + 1) - l) = m + (t + 1) by omega] at h1
      exact ⟨h1, ((step (m + t) (by omega)).2 ih.1 ih.2).1⟩
  refine ⟨m, by omega, fun k hk => ?_⟩
  have := rest (k - m)
  rw [show m + (k - m) = k by omega] at this
  have idle := ((step k (by omega)).2 this.1 this.2).2
  exact ⟨fun l o source e => idle _ e (.inl ⟨l, o, source, rfl⟩), fun e => idle _ e (.inr rfl), fun _ => this⟩

/-- **C184, rest.** If from some time on nothing is entered at any of the machines and no program is started again, the
network comes to rest, whatever has happened before and whatever strangers go on sending: from some time on no command does
anything anywhere and nothing more leaves; at every program that goes on all commands are done. -/
theorem C184_rest (P : Plant N) (fs : N → FS) (c : N → Cliflags) (at_ : Nat → Crowd N) (does : Nat → WildEvent N)
    (run : WildForever P fs c at_ does) (machines : List N) (all : ∀ n, n ∈ machines) (T : Nat)
    (stay : ∀ i n c f, does (T + i) ≠ .goes (.restart n c f))
    (silent : ∀ i n line, does (T + i) ≠ .goes (.goes (.typed n line)))
    (holders : ∀ n, (∀ i, ¬ ((at_ (T + i)).node n).prog.Ended) →
      HolderFairAt (fun i => at_ (T + i)) (fun i => (does (T + i)).seen) n)
    (locks : ∀ n, (∀ i, ¬ ((at_ (T + i)).node n).prog.Ended) →
      LockFairAt (fun i => at_ (T + i)) (fun i => (does (T + i)).seen) n) :
    ∃ j, T ≤ j ∧ ∀ k, j ≤ k →
      ((∃ n d, does k = .stranger n d) ∨ (∃ n l fam clock, does k = .goes (.goes (.arrives n l fam clock))) ∨
        ∃ n a, does k = .goes (.goes (.inside n a))) ∧ (at_ k).air = (at_ j).air ∧
      ∀ n, ¬ ((at_ k).node n).prog.Ended → ((at_ k).node n).queue = [] ∧ ((at_ k).node n).holder = none := by
  have each : ∀ ns : List N, ∃ j, T ≤ j ∧ ∀ k, j ≤ k → ∀ n ∈ ns, (∀ l o source, does k ≠ .goes (.goes (.begin n l o source))) ∧
      does k ≠ .goes (.goes (.act n)) ∧
      (¬ ((at_ k).node n).prog.Ended → ((at_ k).node n).queue = [] ∧ ((at_ k).node n).holder = none) := by
    intro ns
    induction ns with
    | nil => exact ⟨T, Nat.le_refl _, fun _ _ n hn => by cases hn⟩
    | cons n ns ih =>
      obtain ⟨j1, h1, h2⟩ := ih
      obtain ⟨j2, h3, h4⟩ := C184_machine P fs c at_ does run n T (fun i => stay i n) (fun i => silent i n) (holders n) (locks n)
      refine ⟨j1 + j2, by omega, fun k hk m hm => ?_⟩
      rcases List.mem_cons.1 hm with rfl | hm
      · exact h4 k (by omega)
      · exact h2 k (by omega) m hm
  obtain ⟨j, hj, h⟩ := each machines
  have kinds : ∀ k, j ≤ k → (∃ n d, does k = .stranger n d) ∨ (∃ n l fam clock, does k = .goes (.goes (.arrives n l fam clock))) ∨
      ∃ n a, does k = .goes (.goes (.inside n a)) := by
    intro k hk
    have ek : k = T + (k - T) := by omega
    cases hd : does k with
    | stranger n d => exact .inl ⟨n, d, rfl⟩
    | goes e =>
      cases e with
      | restart n c f => exact absurd (by rw [← ek]; exact hd) (stay (k - T) n c f)
      | goes e =>
        cases e with
        | typed n line => exact absurd (by rw [← ek]; exact hd) (silent (k - T) n line)
        | begin n l o s => exact absurd hd ((h k hk n (all n)).1 l o s)
        | act n => exact absurd hd (h k hk n (all n)).2.1
        | arrives n l fam clock => exact .inr (.inl ⟨n, l, fam, clock, rfl⟩)
        | inside n a => exact .inr (.inr ⟨n, a, rfl⟩)
  have air : ∀ t, (at_ (j + t)).air = (at_ j).air := by
    intro t
    induction t with
    | zero => rfl
    | succ t ih =>
      rw [← ih]
      have hs := run.goes (j + t)
      show (at_ (j + t + 1)).air = _
      rcases kinds (j + t) (by omega) with ⟨n, d, e⟩ | ⟨n, l, fam, clock, e⟩ | ⟨n, a, e⟩
      · rw [e] at hs
        obtain ⟨b, _, e1⟩ := Option.map_eq_some_iff.1 hs
        rw [← e1]; rfl
      · rw [e] at hs
        have hs : (at_ (j + t)).step P (.arrives n l fam clock) = some (at_ (j + t + 1)) := hs
        rcases crowd_step_cases hs with ⟨_, _, _, e', _⟩ | ⟨_, _, _, _, _, e', _⟩ |
          ⟨_, _, e', _⟩ | ⟨_, _, _, _, _, _, e', _, _, _, e1⟩ | ⟨_, _, _, e', _⟩ <;> cases e'
        rw [e1]; rfl
      · rw [e] at hs
        have hs : (at_ (j + t)).step P (.inside n a) = some (at_ (j + t + 1)) := hs
        rcases crowd_step_cases hs with ⟨_, _, _, e', _⟩ | ⟨_, _, _, _, _, e', _⟩ |
          ⟨_, _, e', _⟩ | ⟨_, _, _, _, _, _, e', _⟩ | ⟨_, _, _, e', _, _, e1⟩ <;> cases e'
        rw [e1]; rfl
  refine ⟨j, hj, fun k hk => ⟨kinds k hk, ?_, fun n => (h k hk n (all n)).2.2⟩⟩
  have := air (k - j)
  rwa [show j + (k - j) = k by omega] at this

/-! ## A concrete case -/

theorem restart_same {w w0 : Crowd N} {n : N} {c : Cliflags} {f : FS} (node : ∀ m, m ≠ n → w.node m = w0.node m)
    (self : Busy.init f c = w0.node n) (conns : w.conns = w0.conns) (free : w0.conns n = none) (air : w.air = w0.air) :
    w.restart n c f = w0 := by
  obtain ⟨n0, a0, k0⟩ := w0
  obtain ⟨n1, a1, k1⟩ := w
  simp only at node self conns free air
  subst conns air
  show Crowd.mk _ _ _ = Crowd.mk _ _ _
  congr 1
  · funext m
    show (if m = n then _ else n1 m) = _
    split
    · rename_i hm; rw [hm]; exact self
    · rename_i hm; exact node m hm
  · funext m
    show (if m = n then _ else k1 m) = _
    split
    · rename_i hm; rw [hm]; exact free.symm
    · rfl

/-- The program of machine 2 is ended by a stranger and started again; then two commands are entered at machine 1, the second
of which waits for the lock until the first has sent its three beacons, and then nothing more. -/
example : ∃ at_ does, WildForever smallPlant (fun _ => exampleFS) (fun _ => shippedSettings) at_ does ∧
    (∀ n : Fin 3, n ∈ [0, 1, 2]) ∧ ((at_ 1).node 2).prog.Ended ∧ (∃ c f, does 1 = .goes (.restart 2 c f)) ∧
    does 2 = .goes (.goes (.typed 1 "saratoga[0]:beacon 1.1.1.2")) ∧ ∃ T, ¬ ((at_ (T + 0)).node 2).prog.Ended ∧
    ((at_ T).node 1).queue ≠ [] ∧ (at_ T).air = [] ∧
    (∀ i n c f, does (T + i) ≠ .goes (.restart n c f)) ∧ (∀ i n line, does (T + i) ≠ .goes (.goes (.typed n line))) ∧
    (∀ n, HolderFairAt (fun i => at_ (T + i)) (fun i => (does (T + i)).seen) n) ∧
    (∀ n, LockFairAt (fun i => at_ (T + i)) (fun i => (does (T + i)).seen) n) ∧ ∃ j, (at_ j).air.length = 3 := by
  have key : ((Crowd.init (fun _ => exampleFS) (fun _ => shippedSettings)).run smallPlant smallEvents).map (fun w =>
      (w.air.length, ([0, 1, 2] : List (Fin 3)).map fun n =>
        ((w.node n).queue.length, (w.node n).holder.isNone, decide ((w.node n).prog.net.main = .ended)))) =
      some (3, [(0, true, false), (0, true, false), (0, true, false)]) := by decide +kernel
  obtain ⟨w, h, e⟩ := Option.map_eq_some_iff.1 key
  simp only [List.map_cons, List.map_nil, Prod.mk.injEq, List.cons.injEq, decide_eq_false_iff_not] at e
  have each : ∀ n : Fin 3, (w.node n).queue.length = 0 ∧ (w.node n).holder.isNone = true ∧ ¬ (w.node n).prog.net.main = .ended := by
    intro n
    match n with
    | 0 => exact e.2.1
    | 1 => exact e.2.2.1
    | 2 => exact e.2.2.2.1
  obtain ⟨at_, does, run, last, first, silent⟩ := crowdForever_of_run h (n := 0) (each 0).2.2
  have done : ∀ n j, smallEvents.length ≤ j → ((at_ j).node n).queue = [] ∧ ((at_ j).node n).holder = none := by
    intro n j hj
    rw [last j hj]
    exact ⟨List.eq_nil_of_length_eq_zero (each n).1, by simpa using (each n).2.1⟩
  let w0 : Crowd (Fin 3) := Crowd.init (fun _ => exampleFS) (fun _ => shippedSettings)
  obtain ⟨w1, s1, s2, s3, s4⟩ := C180_ended_by (P := smallPlant) w0 2 rfl strangersVersion (fun h => by cases h) rfl (by
    rw [← C42_returns_iff_partial ⟨0, 0⟩]
    have : (match listenFrame shipped ⟨0, 0⟩ (smallPlant.machine 2).S.mtu strangersVersion.bytes with
      | .ret _ => false | _ => true) = true := by decide +kernel
    intro h
    split at this
    · cases this
    · rename_i no
      cases hl : listenFrame shipped ⟨0, 0⟩ (smallPlant.machine 2).S.mtu strangersVersion.bytes with
      | ret r => exact no r hl
      | fatal => rw [hl] at h; exact h
      | panic => rw [hl] at h; exact h)
  have both : w1.conns = w0.conns ∧ w1.air = w0.air := by
    have s1' : ((w0.node 2).step (smallPlant.machine 2) (.net (.recv strangersVersion))).map (w0.set 2) = some w1 := s1
    obtain ⟨b, _, e⟩ := Option.map_eq_some_iff.1 s1'
    rw [← e]; exact ⟨rfl, rfl⟩
  obtain ⟨conns, air⟩ := both
  let at' : Nat → Crowd (Fin 3) := fun i => match i with
    | 0 => w0
    | 1 => w1
    | i + 2 => at_ i
  let does' : Nat → WildEvent (Fin 3) := fun i => match i with
    | 0 => .stranger 2 strangersVersion
    | 1 => .goes (.restart 2 shippedSettings exampleFS)
    | i + 2 => .goes (.goes (does i))
  have e3 : ∀ i, at' (4 + i) = at_ (2 + i) := fun i => by rw [show 4 + i = 2 + i + 2 by omega]
  have e4 : ∀ i, does' (4 + i) = .goes (.goes (does (2 + i))) := fun i => by rw [show 4 + i = 2 + i + 2 by omega]
  have e1 : (fun i => at' (4 + i)) = fun i => at_ (2 + i) := by funext i; exact e3 i
  have e2 : (fun i => (does' (4 + i)).seen) = fun i => does (2 + i) := by funext i; rw [e4]; rfl
  have two : ((Crowd.init (fun _ => exampleFS) (fun _ => shippedSettings)).run smallPlant (smallEvents.take 2)).map (fun w =>
      (w.air.length, (w.node 1).queue.length)) = some (0, 2) := by decide +kernel
  have at2 : (Crowd.init (fun _ => exampleFS) (fun _ => shippedSettings)).run smallPlant (smallEvents.take 2) = some (at_ 2) := by
    have g0 := run.goes 0
    have g1 := run.goes 1
    rw [run.start, first 0 _ rfl] at g0
    rw [first 1 _ rfl] at g1
    show (Crowd.step _ _ _).bind (fun w => (w.step _ _).bind some) = _
    rw [g0]
    show (Crowd.step _ _ _).bind some = _
    rw [g1]; rfl
  rw [at2] at two
  simp only [Option.map_some, Option.some.injEq, Prod.mk.injEq] at two
  have typed : ∀ i n line, does (2 + i) ≠ .typed n line := by
    intro i n line he
    by_cases hi : 2 + i < smallEvents.length
    · have hs : ∀ k : Fin 11, (match smallEvents[2 + k.val]? with | some (.typed _ _) => false | some _ => true | none => false)
          = true := by decide +kernel
      have len : smallEvents.length = 13 := rfl
      have this : (match smallEvents[2 + i]? with | some (.typed _ _) => false | some _ => true | none => false) = true :=
        hs ⟨i, by omega⟩
      generalize hk : smallEvents[2 + i]? = a at this
      match a, hk, this with
      | some a, hk, this =>
        rw [first _ a hk] at he
        subst he
        cases this
    · exact silent _ n line (by omega) he
  refine ⟨at', does', ⟨rfl, fun i => ?_⟩, by decide, s2, ⟨_, _, rfl⟩, ?_, 4, fun he => ?_, fun hq => ?_, ?_, fun i n c f => ?_,
    fun i n line => ?_, fun n i always => ?_, fun n i p q hq _ => ?_, smallEvents.length + 2, ?_⟩
  · match i with
    | 0 => exact s1
    | 1 =>
      show some (w1.restart 2 shippedSettings exampleFS) = some (at_ 0)
      rw [run.start]
      exact congrArg some (restart_same (w0 := w0) s4 rfl conns rfl air)
    | i + 2 => exact run.goes i
  · show WildEvent.goes (.goes (does 0)) = _
    rw [first 0 _ rfl]
  · have he : ((at_ 2).node 2).prog.Ended := he
    have := crowd_ended_stays run he smallEvents.length
    rw [last _ (by omega)] at this
    exact (each 2).2.2 this
  · have hq : ((at_ 2).node 1).queue = [] := hq
    rw [hq] at two
    cases two.2
  · exact List.eq_nil_of_length_eq_zero two.1
  · rw [e4]; exact fun h => by cases h
  · rw [e4]
    intro h
    injection h with h
    injection h with h
    exact typed i n line h
  · refine absurd ?_ (always (i + smallEvents.length) (by omega))
    rw [e1]
    exact (done n (2 + (i + smallEvents.length)) (by omega)).2
  · rw [e2]
    have hq : ((at' (4 + i)).node n).queue[p]? = some q := hq
    rw [e3] at hq
    refine ⟨smallEvents.length, ?_⟩
    rw [waits_shift does]
    cases hk : crowdWaits does n (2 + i) p smallEvents.length with
    | none => rfl
    | some k =>
      have := crowd_queue_waits run hq _ hk
      rw [(done n (2 + i + smallEvents.length) (by omega)).1] at this
      cases this
  · show (at_ smallEvents.length).air.length = 3
    rw [last _ (Nat.le_refl _)]; exact e.1

end Saratoga
