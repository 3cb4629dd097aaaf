import Verif.Lemmas.HolesWork
import Verif.Props.RecordSize
/-!
# C161: the work of recording what was received

`Holes.addWork` counts what one `Add` does: rounds of the loop of `optimise`, elements moved by `remove`, calls of
`optimise` inside one another. A history is any list of `Add` calls beginning with nothing, every call with its own
tie order of the sort.
-/
namespace Saratoga

/-- The works of the calls of a history, in order. -/
def worksOf (hist : List AddCall) : List Work := Holes.worksFrom [] hist

/-- The history never has more than `M` ranges on record. -/
def AtMost (M : Nat) (hist : List AddCall) : Prop :=
  ∀ before after, hist = before ++ after → (Holes.run before).length ≤ M

theorem run_snoc (hist : List AddCall) (c : AddCall) :
    Holes.run (hist ++ [c]) = Holes.add c.srt (Holes.run hist) c.start c.stop := by
  simp [Holes.run]

theorem worksFrom_append (l : List Hole) (h : List AddCall) (c : AddCall) :
    Holes.worksFrom l (h ++ [c]) = Holes.worksFrom l h ++
      [Holes.addWork c.srt (h.foldl (fun f c => Holes.add c.srt f c.start c.stop) l) c.start c.stop] := by
  induction h generalizing l with
  | nil => rfl
  | cons d h ih => simp [Holes.worksFrom, ih]

theorem worksOf_snoc (hist : List AddCall) (c : AddCall) :
    worksOf (hist ++ [c]) = worksOf hist ++ [Holes.addWork c.srt (Holes.run hist) c.start c.stop] :=
  worksFrom_append [] hist c

/-- **C161** What one call does is known from how many ranges are on record before and after it: the loop goes round
`before` times if one range remains and else `after * (before + 2 - after)` times; one call of `optimise` is inside
another as often as ranges were joined; fewer than `before` elements are moved for each range joined. -/
theorem C161_one_call (hist : List AddCall) (c : AddCall) (something : c.start < c.stop) (nonempty : Holes.run hist ≠ []) :
    (Holes.addWork c.srt (Holes.run hist) c.start c.stop).rounds =
      (if (Holes.run (hist ++ [c])).length = 1 then (Holes.run hist).length
       else (Holes.run (hist ++ [c])).length * ((Holes.run hist).length + 2 - (Holes.run (hist ++ [c])).length)) ∧
    (Holes.addWork c.srt (Holes.run hist) c.start c.stop).depth =
      (Holes.run hist).length + 2 - (Holes.run (hist ++ [c])).length ∧
    (Holes.addWork c.srt (Holes.run hist) c.start c.stop).moved ≤
      ((Holes.run hist).length + 1 - (Holes.run (hist ++ [c])).length) * ((Holes.run hist).length - 1) := by
  rw [run_snoc]
  have hc := C02_canonical hist
  generalize Holes.run hist = l at *
  have pos : 0 < l.length := List.length_pos_iff.2 nonempty
  have n : (l ++ [(⟨c.start, c.stop⟩ : Hole)]).length > 1 := by simp; omega
  have perm := c.srt.perm (l ++ [⟨c.start, c.stop⟩])
  have hs : SortedS (c.srt.sort (l ++ [⟨c.start, c.stop⟩])) := c.srt.sorted _
  have hn : NonE (c.srt.sort (l ++ [⟨c.start, c.stop⟩])) := by
    intro h hh
    rw [perm.mem_iff] at hh
    rcases List.mem_append.1 hh with hh | hh
    · exact hc.1 h hh
    · rw [List.mem_singleton] at hh; subst hh; exact something
  have len : (c.srt.sort (l ++ [⟨c.start, c.stop⟩])).length = l.length + 1 := by rw [perm.length_eq]; simp
  simp only [Holes.add, Holes.addWork, Holes.optimise, Holes.optimiseWork, if_neg (Int.not_le.2 something), if_pos n]
  generalize c.srt.sort (l ++ [⟨c.start, c.stop⟩]) = s at *
  have s2' : ¬ s.length ≤ 1 := by omega
  simp only [if_neg s2']
  obtain ⟨s1, s2, s3, s4⟩ := loopWork_spec s 0 (by omega) hs hn (by intro j _ hj; omega)
  have s5 := (Holes.optLoop s 0).2
  rw [s2, s3]
  generalize (Holes.optLoop s 0).1.length = k at *
  rw [len] at s4 ⊢
  refine ⟨?_, by omega, by simpa using s4⟩
  unfold roundsOf
  split
  · omega
  · have e : l.length + 2 - k = (l.length + 1 - k) + 1 := by omega
    rw [len] at s5
    rw [e, Nat.mul_add]
    omega

/-- How many elements one call moves: with `k` the ranges joined and `a` the ranges on record that begin after the
end of the piece, `k * (2 * a + k - 1) / 2`. -/
theorem C161_moved (hist : List AddCall) (c : AddCall) (something : c.start < c.stop) (nonempty : Holes.run hist ≠ []) :
    2 * (Holes.addWork c.srt (Holes.run hist) c.start c.stop).moved =
      ((Holes.run hist).length + 1 - (Holes.run (hist ++ [c])).length) *
        (2 * ((Holes.run hist).filter (fun h => decide (c.stop < h.start))).length +
          ((Holes.run hist).length + 1 - (Holes.run (hist ++ [c])).length) - 1) := by
  rw [run_snoc]
  have hc := C02_canonical hist
  generalize Holes.run hist = l at *
  have pos : 0 < l.length := List.length_pos_iff.2 nonempty
  have n : (l ++ [(⟨c.start, c.stop⟩ : Hole)]).length > 1 := by simp; omega
  have perm := c.srt.perm (l ++ [⟨c.start, c.stop⟩])
  have hs : SortedS (c.srt.sort (l ++ [⟨c.start, c.stop⟩])) := c.srt.sorted _
  have hn : NonE (c.srt.sort (l ++ [⟨c.start, c.stop⟩])) := by
    intro h hh
    rw [perm.mem_iff] at hh
    rcases List.mem_append.1 hh with hh | hh
    · exact hc.1 h hh
    · rw [List.mem_singleton] at hh; subst hh; exact something
  have len : (c.srt.sort (l ++ [⟨c.start, c.stop⟩])).length = l.length + 1 := by rw [perm.length_eq]; simp
  simp only [Holes.add, Holes.addWork, Holes.optimise, Holes.optimiseWork, if_neg (Int.not_le.2 something), if_pos n]
  generalize c.srt.sort (l ++ [⟨c.start, c.stop⟩]) = s at *
  have s2' : ¬ s.length ≤ 1 := by omega
  simp only [if_neg s2']
  obtain ⟨p, q, rfl⟩ := List.append_of_mem (perm.mem_iff.2 (by simp) : (⟨c.start, c.stop⟩ : Hole) ∈ s)
  have rest : (p ++ q).Perm l :=
    ((List.perm_middle.symm.trans perm).trans (List.perm_append_comm (l₁ := l) (l₂ := [⟨c.start, c.stop⟩]))).cons_inv
  have sub : (p ++ q).Sublist (p ++ ⟨c.start, c.stop⟩ :: q) := List.Sublist.append_left (List.sublist_cons_self _ _) _
  have either : l.Pairwise (fun a b => a.stop < b.start ∨ b.stop < a.start) := hc.2.imp fun h => Or.inl h
  have either' : (p ++ q).Pairwise (fun a b => a.stop < b.start ∨ b.stop < a.start) :=
    (List.Perm.pairwise_iff (fun h => h.symm) rest).2 either
  have apart : (p ++ q).Pairwise (fun a b => a.stop < b.start) := by
    refine ((hs.sublist sub).and either').imp_of_mem fun {a b} ha hb h => ?_
    have := hn b (sub.mem hb)
    rcases h.2 with h2 | h2
    · exact h2
    · have := h.1
      omega
  have key := loopWork_insert p q ⟨c.start, c.stop⟩ hs hn apart
  have count : q.countP (fun h => decide (c.stop < h.start)) = (l.filter (fun h => decide (c.stop < h.start))).length := by
    rw [← List.countP_eq_length_filter, ← rest.countP_eq, List.countP_append]
    have zero : p.countP (fun h => decide (c.stop < h.start)) = 0 := List.countP_eq_zero.2 fun h hh => by
      have := (List.pairwise_append.1 hs).2.2 h hh ⟨c.start, c.stop⟩ (by simp)
      simp only [decide_eq_true_eq]
      simp only at this
      omega
    omega
  rw [count] at key
  generalize (Holes.optLoop (p ++ ⟨c.start, c.stop⟩ :: q) 0).1.length = k at *
  rw [len] at key
  exact key

/-- Two pieces apart from one another. -/
def twoApart : List AddCall := [⟨exampleSort, 0, 10⟩, ⟨exampleSort, 20, 30⟩]

theorem twoApart_run : Holes.run twoApart = [⟨0, 10⟩, ⟨20, 30⟩] :=
  canonical_ext _ _ (C02_canonical _) ⟨by decide, by decide⟩ fun x => by
    rw [C01_received_exactly]; simp [Received, Covers, twoApart]

/-- A piece that closes the gap: two rounds, two ranges joined. -/
example : (Holes.addWork exampleSort [⟨0, 10⟩, ⟨20, 30⟩] 5 25).rounds = 2 ∧
    (Holes.addWork exampleSort [⟨0, 10⟩, ⟨20, 30⟩] 5 25).depth = 3 := by
  have run : Holes.run (twoApart ++ [⟨exampleSort, 5, 25⟩]) = [⟨0, 30⟩] :=
    canonical_ext _ _ (C02_canonical _) ⟨by decide, by decide⟩ fun x => by
      rw [C01_received_exactly]; simp [Received, Covers, twoApart]; omega
  have := C161_one_call twoApart ⟨exampleSort, 5, 25⟩ (by decide) (by rw [twoApart_run]; decide)
  rw [run, twoApart_run] at this
  exact ⟨this.1, this.2.1⟩

/-- Two ranges more behind the gap: three elements are moved by the first join and two by the second. -/
example : (Holes.addWork exampleSort [⟨0, 10⟩, ⟨20, 30⟩, ⟨40, 50⟩, ⟨60, 70⟩] 5 25).moved = 5 := by
  have r1 : Holes.run (twoApart ++ [⟨exampleSort, 40, 50⟩, ⟨exampleSort, 60, 70⟩]) =
      [⟨0, 10⟩, ⟨20, 30⟩, ⟨40, 50⟩, ⟨60, 70⟩] :=
    canonical_ext _ _ (C02_canonical _) ⟨by decide, by decide⟩ fun x => by
      rw [C01_received_exactly]; simp [Received, Covers, twoApart]
  have r2 : Holes.run (twoApart ++ [⟨exampleSort, 40, 50⟩, ⟨exampleSort, 60, 70⟩] ++ [⟨exampleSort, 5, 25⟩]) =
      [⟨0, 30⟩, ⟨40, 50⟩, ⟨60, 70⟩] :=
    canonical_ext _ _ (C02_canonical _) ⟨by decide, by decide⟩ fun x => by
      rw [C01_received_exactly]; simp [Received, Covers, twoApart]; omega
  have := C161_moved (twoApart ++ [⟨exampleSort, 40, 50⟩, ⟨exampleSort, 60, 70⟩]) ⟨exampleSort, 5, 25⟩ (by decide)
    (by rw [r1]; decide)
  rw [r2, r1] at this
  simp at this
  omega

/-- The first piece and pieces of nothing are no work. -/
theorem C161_nothing (hist : List AddCall) (c : AddCall) (h : c.stop ≤ c.start ∨ Holes.run hist = []) :
    Holes.addWork c.srt (Holes.run hist) c.start c.stop = ⟨0, 0, 0⟩ := by
  unfold Holes.addWork
  split
  · rfl
  · rename_i hne
    rcases h with h | h
    · exact absurd h hne
    · simp [h]

/-- A bound on rounds and moves kept over the calls: every range that is on record was paid for when it came. -/
theorem total_bound (M : Nat) (hist : List AddCall) (few : AtMost M hist) :
    ((worksOf hist).map (·.rounds)).sum + (Holes.run hist).length * M ≤ 2 * hist.length * M ∧
    ((worksOf hist).map (·.moved)).sum + (Holes.run hist).length * M ≤ hist.length * M := by
  suffices H : ∀ h : List AddCall, AtMost M h.reverse →
      ((worksOf h.reverse).map (·.rounds)).sum + (Holes.run h.reverse).length * M ≤ 2 * h.length * M ∧
      ((worksOf h.reverse).map (·.moved)).sum + (Holes.run h.reverse).length * M ≤ h.length * M by
    have := H hist.reverse (by simpa using few)
    simpa using this
  intro h
  induction h with
  | nil => intro _; simp [worksOf, Holes.worksFrom, Holes.run]
  | cons c h ih =>
    intro few
    simp only [List.reverse_cons] at few ⊢
    have ih' := ih (fun b a e => few b (a ++ [c]) (by rw [e, List.append_assoc]))
    have bM := few h.reverse [c] rfl
    have aM := few (h.reverse ++ [c]) [] (by simp)
    have grow := C149_one_more h.reverse c
    rw [worksOf_snoc]
    simp only [List.map_append, List.sum_append, List.map_cons, List.map_nil, List.sum_cons, List.sum_nil,
      List.length_cons, Nat.add_zero]
    have key : (Holes.addWork c.srt (Holes.run h.reverse) c.start c.stop).rounds +
          (Holes.run (h.reverse ++ [c])).length * M ≤ (Holes.run h.reverse).length * M + 2 * M ∧
        (Holes.addWork c.srt (Holes.run h.reverse) c.start c.stop).moved +
          (Holes.run (h.reverse ++ [c])).length * M ≤ (Holes.run h.reverse).length * M + M := by
      by_cases triv : c.stop ≤ c.start ∨ Holes.run h.reverse = []
      · rw [C161_nothing _ _ triv]
        have : (Holes.run (h.reverse ++ [c])).length * M ≤ ((Holes.run h.reverse).length + 1) * M :=
          Nat.mul_le_mul_right _ grow
        rw [Nat.add_mul] at this
        simp only
        omega
      · obtain ⟨w1, -, w3⟩ := C161_one_call h.reverse c (by omega) (fun e => triv (Or.inr e))
        rw [w1]
        generalize (Holes.run (h.reverse ++ [c])).length = a at *
        generalize (Holes.run h.reverse).length = b at *
        obtain ⟨d, hd⟩ : ∃ d, b + 1 = a + d := ⟨b + 1 - a, by omega⟩
        have m1 : (b + 1 - a) * (b - 1) ≤ d * M := by
          have : b + 1 - a = d := by omega
          rw [this]; exact Nat.mul_le_mul_left _ (by omega)
        have e1 : a * M + d * M = b * M + M := by
          rw [← Nat.add_mul, ← hd, Nat.add_mul]; omega
        constructor
        · split
          · rename_i one
            subst one
            have : b * 1 ≤ b * M := Nat.mul_le_mul_left _ aM
            omega
          · have : a * (b + 2 - a) ≤ M * (d + 1) := Nat.mul_le_mul aM (by omega)
            rw [Nat.mul_add, Nat.mul_comm M d] at this
            omega
        · omega
    obtain ⟨i1, i2⟩ := ih'
    obtain ⟨k1, k2⟩ := key
    constructor
    · have : 2 * (h.length + 1) * M = 2 * h.length * M + 2 * M := by
        rw [Nat.mul_add, Nat.add_mul]
      omega
    · rw [Nat.add_mul]
      omega

/-- **C161** All calls together: with never more than `M` ranges on record, `m` calls go round the loop at most
`2 * m * M` times and move at most `m * M` elements, and no more than `M + 1` calls of `optimise` are ever inside one
another. -/
theorem C161_total (M : Nat) (hist : List AddCall) (few : AtMost M hist) :
    ((worksOf hist).map (·.rounds)).sum ≤ 2 * hist.length * M ∧
    ((worksOf hist).map (·.moved)).sum ≤ hist.length * M ∧
    ∀ w ∈ worksOf hist, w.depth ≤ M + 1 := by
  have t := total_bound M hist few
  refine ⟨by omega, by omega, ?_⟩
  suffices H : ∀ h : List AddCall, AtMost M h.reverse → ∀ w ∈ worksOf h.reverse, w.depth ≤ M + 1 by
    simpa using H hist.reverse (by simpa using few)
  intro h
  induction h with
  | nil => intro _ w hw; cases hw
  | cons c h ih =>
    intro few w hw
    simp only [List.reverse_cons] at few hw
    rw [worksOf_snoc] at hw
    rcases List.mem_append.1 hw with hw | hw
    · exact ih (fun b a e => few b (a ++ [c]) (by rw [e, List.append_assoc])) w hw
    · rw [List.mem_singleton] at hw
      subst hw
      by_cases triv : c.stop ≤ c.start ∨ Holes.run h.reverse = []
      · rw [C161_nothing _ _ triv]; exact Nat.zero_le _
      · rw [(C161_one_call h.reverse c (by omega) (fun e => triv (Or.inr e))).2.1]
        have bM := few h.reverse [c] rfl
        have : (Holes.run (h.reverse ++ [c])).length ≠ 0 := by
          intro e
          have e' := List.length_eq_zero_iff.1 e
          have := (C01_received_exactly (h.reverse ++ [c]) c.start).2
            ⟨c, by simp, Int.le_refl _, by omega⟩
          rw [e'] at this
          exact Covers_nil _ this
        omega

example : AtMost 2 twoApart := fun b a e => by
  have h1 := C149_calls b
  have h2 : (b.filter fun c => decide (c.start < c.stop)).length ≤ b.length := List.length_filter_le ..
  have h3 : b.length + a.length = 2 := by rw [← List.length_append, ← e]; rfl
  omega

/-- The number of calls is such a bound, so the work of `m` calls grows at most with the square of `m`. -/
theorem C161_square (hist : List AddCall) :
    ((worksOf hist).map (·.rounds)).sum ≤ 2 * hist.length * hist.length ∧
    ((worksOf hist).map (·.moved)).sum ≤ hist.length * hist.length := by
  have t := C161_total hist.length hist (fun b a e => by
    have h1 := C149_calls b
    have h2 : (b.filter fun c => decide (c.start < c.stop)).length ≤ b.length := List.length_filter_le ..
    rw [e, List.length_append]; omega)
  exact ⟨t.1, t.2.1⟩

example := C161_square exampleHist

/-- The pieces come one after the other without gaps, beginning at `at_`. -/
def InOrder (at_ : Int) : List AddCall → Prop
  | [] => True
  | c :: rest => c.start = at_ ∧ at_ < c.stop ∧ InOrder c.stop rest

/-- **C161** Pieces that come in order cost next to nothing: each but the first goes round the loop once, nothing is
moved, and `optimise` is called once inside itself. -/
theorem C161_in_order (from_ : Int) (hist : List AddCall) (order : InOrder from_ hist) :
    ∀ w ∈ worksOf hist, w = ⟨0, 0, 0⟩ ∨ w = ⟨1, 0, 2⟩ := by
  cases hist with
  | nil => intro w hw; cases hw
  | cons c rest =>
    obtain ⟨h1, h2, h3⟩ := order
    have start : Holes.add c.srt [] c.start c.stop = [⟨from_, c.stop⟩] := by
      simp [Holes.add, h1]; omega
    have first : Holes.addWork c.srt [] c.start c.stop = ⟨0, 0, 0⟩ := by
      simp [Holes.addWork]
    intro w hw
    simp only [worksOf, Holes.worksFrom, List.mem_cons] at hw
    rw [first, start] at hw
    rcases hw with hw | hw
    · exact Or.inl hw
    · refine Or.inr ?_
      clear start first h1
      generalize c.stop = at_ at *
      induction rest generalizing at_ with
      | nil => cases hw
      | cons d rest ih =>
        obtain ⟨g1, g2, g3⟩ := h3
        have gd : ¬ d.stop ≤ d.start := by omega
        have sorted : d.srt.sort [⟨from_, at_⟩, ⟨d.start, d.stop⟩] = [⟨from_, at_⟩, ⟨d.start, d.stop⟩] := by
          have p := d.srt.perm [⟨from_, at_⟩, ⟨d.start, d.stop⟩]
          have s := d.srt.sorted [⟨from_, at_⟩, ⟨d.start, d.stop⟩]
          refine List.Perm.eq_of_pairwise (le := fun a b => a.start ≤ b.start) ?_ s ?_ p
          · intro a b ha hb h1 h2
            rw [p.mem_iff] at ha
            simp only [List.mem_cons, List.not_mem_nil, or_false] at ha hb
            rcases ha with rfl | rfl <;> rcases hb with rfl | rfl <;> simp_all <;> omega
          · simp; omega
        have e : Holes.merge [⟨from_, at_⟩, ⟨d.start, d.stop⟩] 0 (by simp) = [⟨from_, d.stop⟩] := by
          rw [merge_eq]; simp; omega
        have touch : d.start ≤ at_ := by omega
        have work : Holes.addWork d.srt [⟨from_, at_⟩] d.start d.stop = ⟨1, 0, 2⟩ := by
          simp only [Holes.addWork, if_neg gd, List.cons_append, List.nil_append, List.length_cons, List.length_nil,
            sorted, Holes.optimiseWork]
          rw [Holes.loopWork]
          simp [touch, e, Holes.optimise, Holes.loopWork]
        have rec_ : Holes.add d.srt [⟨from_, at_⟩] d.start d.stop = [⟨from_, d.stop⟩] := by
          simp only [Holes.add, if_neg gd, List.cons_append, List.nil_append, List.length_cons, List.length_nil,
            sorted]
          simp [Holes.optimise, optLoop_eq, touch, e]
        simp only [Holes.worksFrom, List.mem_cons, work, rec_] at hw
        rcases hw with hw | hw
        · exact hw
        · exact ih d.stop (by omega) g3 hw

example : InOrder 0 [⟨exampleSort, 0, 10⟩, ⟨exampleSort, 10, 25⟩, ⟨exampleSort, 25, 30⟩] := by
  simp [InOrder]

/-- Pieces each apart from those before it. -/
def apart (m : Nat) : List AddCall := (List.range m).map fun k : Nat => ⟨exampleSort, 2 * (k : Int), 2 * (k : Int) + 1⟩

theorem apart_run (m : Nat) : Holes.run (apart m) = (List.range m).map fun k : Nat => ⟨2 * (k : Int), 2 * (k : Int) + 1⟩ := by
  refine canonical_ext _ _ (C02_canonical _) ⟨?_, ?_⟩ fun x => ?_
  · intro h hh
    obtain ⟨k, -, rfl⟩ := List.mem_map.1 hh
    simp only; omega
  · rw [List.pairwise_map]
    exact List.pairwise_lt_range.imp fun h => by simp only; omega
  · rw [C01_received_exactly]
    simp only [Received, Covers, apart, List.mem_map, List.mem_range]
    constructor
    · rintro ⟨c, ⟨k, hk, rfl⟩, h⟩; exact ⟨_, ⟨k, hk, rfl⟩, h⟩
    · rintro ⟨c, ⟨k, hk, rfl⟩, h⟩; exact ⟨_, ⟨k, hk, rfl⟩, h⟩

/-- **C161** The square is reached: `m` pieces apart from one another go round the loop `m * (m + 1) / 2` times, less
the once that the first does not; and a piece that then joins all `m` has `m + 1` calls of `optimise` inside one
another. -/
theorem C161_reached (m : Nat) (some : 0 < m) :
    2 * (((worksOf (apart m)).map (·.rounds)).sum + 1) = m * (m + 1) ∧
    (Holes.addWork exampleSort (Holes.run (apart m)) 0 (2 * m)).depth = m + 1 := by
  constructor
  · induction m with
    | zero => omega
    | succ m ih =>
      have e : apart (m + 1) = apart m ++ [⟨exampleSort, 2 * m, 2 * m + 1⟩] := by
        simp [apart, List.range_succ]
      by_cases m0 : m = 0
      · subst m0; simp [apart, worksOf, Holes.worksFrom, Holes.addWork]
      · have ih := ih (by omega)
        have one := C161_one_call (apart m) ⟨exampleSort, 2 * m, 2 * m + 1⟩ (by simp only; omega) (by
          rw [apart_run]; simp [m0])
        rw [← e, apart_run, apart_run] at one
        simp only [List.length_map, List.length_range] at one
        rw [if_neg (by omega)] at one
        rw [e, worksOf_snoc, apart_run]
        simp only [List.map_append, List.sum_append, List.map_cons, List.map_nil, List.sum_cons, List.sum_nil, Nat.add_zero]
        rw [one.1]
        have : m + 2 - (m + 1) = 1 := by omega
        rw [this]
        have : (m + 1) * (m + 1 + 1) = m * (m + 1) + 2 * (m + 1) := by
          rw [← Nat.add_mul, Nat.mul_comm]
        omega
  · have all : Holes.run (apart m ++ [⟨exampleSort, 0, 2 * m⟩]) = [⟨0, 2 * m⟩] :=
      canonical_ext _ _ (C02_canonical _) ⟨by simp; omega, by simp⟩ fun x => by
        rw [C01_received_exactly]
        simp only [Received, Covers, apart, List.mem_append, List.mem_map, List.mem_range, List.mem_singleton]
        constructor
        · rintro ⟨c, ⟨k, hk, rfl⟩ | rfl, h1, h2⟩
          · exact ⟨_, rfl, by simp only at *; omega, by simp only at *; omega⟩
          · exact ⟨_, rfl, h1, h2⟩
        · rintro ⟨h, rfl, h1, h2⟩
          exact ⟨⟨exampleSort, 0, 2 * m⟩, Or.inr rfl, h1, h2⟩
    have one := C161_one_call (apart m) ⟨exampleSort, 0, 2 * m⟩ (by simp only; omega) (by
      rw [apart_run]; simp; omega)
    rw [all] at one
    rw [one.2.1, apart_run]
    simp

end Saratoga
