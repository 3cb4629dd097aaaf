import Verif.Lemmas.HolesHeap
import Verif.Props.Holes
/-!
# C06: what `Add` does to lists a caller already holds

`grow` stands for any choice of capacities by the Go runtime. `s.Wf h` says that the slice lies in the heap;
every slice a program can hold does.
-/
namespace Saratoga

/-! ## Helper lemmas -/

theorem seen_length {h : HoleHeap} {s : HoleSlice} (wf : s.Wf h) : (s.seen h).length = s.len := by
  have : s.len ≤ (s.array h).length := wf.1
  simp [HoleSlice.seen]; omega

/-- Everything about one `Add`: the new slice, the other arrays, and what the array looks like when the slice
had spare capacity. -/
theorem heap_add (srt : GoSort) (grow : Nat → Nat) {h : HoleHeap} {s : HoleSlice} (wf : s.Wf h)
    (start stop : Int) :
    (s.add srt grow h start stop).2.Wf (s.add srt grow h start stop).1 ∧
    (s.add srt grow h start stop).2.seen (s.add srt grow h start stop).1
      = Holes.add srt (s.seen h) start stop ∧
    (∀ k : HoleSlice, k.Wf h → (k.arr ≠ s.arr ∨ ¬ s.len < s.cap h) →
      k.seen (s.add srt grow h start stop).1 = k.seen h) ∧
    (start < stop → s.len < s.cap h → ∀ k : HoleSlice, k.arr = s.arr → ∃ (a : List Hole) (n : Nat),
      k.seen (s.add srt grow h start stop).1 = a.take k.len ∧
      a.take n = Holes.add srt (s.seen h) start stop ∧ n ≤ s.len + 1 ∧ s.len + 1 ≤ a.length) := by
  unfold HoleSlice.add Holes.add
  by_cases e : stop ≤ start
  · simp only [if_pos e]
    refine ⟨wf, trivial, fun k _ _ => trivial, ?_⟩
    intro h1; omega
  · simp only [if_neg e]
    have ap := append_spec (grow := grow) (x := ⟨start, stop⟩) wf
    generalize hap : s.append grow h ⟨start, stop⟩ = r at ap
    obtain ⟨h1, s1⟩ := r
    obtain ⟨a1, a2, a3, a4, a5, a6, a7, a8⟩ := ap
    simp only at a1 a2 a3 a4 a5 a6 a7 a8 ⊢
    have sl := seen_length wf
    have len2 : (s.seen h ++ [(⟨start, stop⟩ : Hole)]).length = s1.len := by simp [sl, a3]
    by_cases g : s1.len > 1
    · rw [if_pos g, if_pos (by omega)]
      cases har : s1.arr with
      | none => exact absurd har a4
      | some p =>
        simp only
        have hp := a1.2 p har
        have td := arrTidy_spec srt (s1.array h1) s1.len a1.1
        generalize arrTidy srt (s1.array h1) s1.len = r at td
        obtain ⟨b, m⟩ := r
        obtain ⟨t1, t2, t3, t4⟩ := td
        simp only at t1 t2 t3 t4 ⊢
        have tk : (s1.array h1).take s1.len = s.seen h ++ [⟨start, stop⟩] := a2
        rw [tk] at t3
        have ar : ∀ k : HoleSlice, k.arr = some p → k.array (h1.store p b) = b := by
          intro k hk; rw [array_store, if_pos ⟨hk, hp⟩]
        have w1 : s1.len ≤ (s1.array h1).length := a1.1
        refine ⟨⟨?_, ?_⟩, ?_, ?_, ?_⟩
        · simp only [HoleSlice.cap, ar ⟨some p, m⟩ rfl]; omega
        · intro q hq; cases hq; simpa [HoleHeap.store] using hp
        · simp only [HoleSlice.seen, ar ⟨some p, m⟩ rfl] at t3 ⊢; exact t3
        · intro k wk hk
          have kne : k.arr ≠ some p := by
            intro hkp
            rcases hk with hk | hk
            · by_cases sp : s.len < s.cap h
              · rw [← har, a6 sp] at hkp; exact hk hkp
              · have := a7 sp
                rw [har] at this
                cases this
                exact absurd (wk.2 _ hkp) (Nat.lt_irrefl _)
            · have := a7 hk
              rw [har] at this
              cases this
              exact absurd (wk.2 _ hkp) (Nat.lt_irrefl _)
          have : k.array (h1.store p b) = k.array h1 := by
            rw [array_store, if_neg (fun x => kne x.1)]
          have k8 := (a8 k wk (by
            intro hks
            rcases hk with hk | hk
            · exact absurd hks hk
            · have c1 := wk.1
              have : k.cap h = s.cap h := by simp only [HoleSlice.cap, HoleSlice.array, hks]
              omega)).1
          rw [← k8]
          simp only [HoleSlice.seen, this]
        · intro _ sp k hk
          have hk' : k.arr = some p := by rw [hk, ← a6 sp, har]
          refine ⟨b, m, by simp only [HoleSlice.seen, ar k hk'], t3, by omega, by omega⟩
    · rw [if_neg g, if_neg (by omega)]
      have l0 : s.len = 0 := by omega
      refine ⟨a1, a2, ?_, ?_⟩
      · intro k wk hk
        refine (a8 k wk ?_).1
        intro hks
        rcases hk with hk | hk
        · exact absurd hks hk
        · have c1 := wk.1
          have : k.cap h = s.cap h := by simp only [HoleSlice.cap, HoleSlice.array, hks]
          omega
      · intro _ sp k hk
        have hk' : k.arr = s1.arr := by rw [hk, a6 sp]
        have w1 : s1.len ≤ (s1.array h1).length := a1.1
        refine ⟨s1.array h1, s1.len, ?_, a2, by omega, by omega⟩
        simp only [HoleSlice.seen, HoleSlice.array, hk']

/-- The capacity after `Add` of a non-empty range. -/
theorem heap_add_cap (srt : GoSort) (grow : Nat → Nat) {h : HoleHeap} {s : HoleSlice} (wf : s.Wf h)
    {start stop : Int} (lt : start < stop) :
    (s.add srt grow h start stop).2.cap (s.add srt grow h start stop).1
      = if s.len < s.cap h then s.cap h else max (s.len + 1) (grow (s.cap h)) := by
  unfold HoleSlice.add
  rw [if_neg (by omega)]
  have ap := append_spec (grow := grow) (x := ⟨start, stop⟩) wf
  have ac := append_cap (grow := grow) (x := ⟨start, stop⟩) wf
  generalize s.append grow h ⟨start, stop⟩ = r at ap ac
  obtain ⟨h1, s1⟩ := r
  simp only at ap ac ⊢
  rw [← ac]
  split
  · cases har : s1.arr with
    | none => rfl
    | some p =>
      have td := arrTidy_spec srt (s1.array h1) s1.len ap.1.1
      generalize arrTidy srt (s1.array h1) s1.len = r at td
      obtain ⟨b, m⟩ := r
      simp only at td ⊢
      have : (⟨some p, m⟩ : HoleSlice).array (h1.store p b) = b := by
        rw [array_store, if_pos ⟨rfl, ap.1.2 p har⟩]
      simp only [HoleSlice.cap, this, td.1]
  · rfl

theorem run_wf (grow : Nat → Nat) (h : HoleHeap) (hist : List AddCall) :
    (HoleSlice.run grow h hist).2.Wf (HoleSlice.run grow h hist).1 := by
  unfold HoleSlice.run
  have : ∀ (hist : List AddCall) (h : HoleHeap) (s : HoleSlice), s.Wf h →
      (hist.foldl (fun x c => x.2.add c.srt grow x.1 c.start c.stop) (h, s)).2.Wf
        (hist.foldl (fun x c => x.2.add c.srt grow x.1 c.start c.stop) (h, s)).1 := by
    intro hist
    induction hist with
    | nil => intro h s w; exact w
    | cons c cs ih =>
      intro h s w
      exact ih _ _ (heap_add c.srt grow w c.start c.stop).1
  exact this _ _ _ (HoleSlice.wf_nil _)

/-! ## The properties -/

/-- A caller that only goes on with the returned list sees exactly what C01 to C05 say: the sharing of the
arrays is not visible to it, whatever else is in the heap and whatever capacities the runtime chooses. -/
theorem C06_refines (grow : Nat → Nat) (h : HoleHeap) (hist : List AddCall) :
    (HoleSlice.run grow h hist).2.seen (HoleSlice.run grow h hist).1 = Holes.run hist := by
  have gen : ∀ (hist : List AddCall) (h : HoleHeap) (s : HoleSlice), s.Wf h →
      (hist.foldl (fun x c => x.2.add c.srt grow x.1 c.start c.stop) (h, s)).2.seen
        (hist.foldl (fun x c => x.2.add c.srt grow x.1 c.start c.stop) (h, s)).1
      = hist.foldl (fun fills c => Holes.add c.srt fills c.start c.stop) (s.seen h) := by
    intro hist
    induction hist with
    | nil => intro h s _; rfl
    | cons c cs ih =>
      intro h s wf
      have := heap_add c.srt grow wf c.start c.stop
      simp only [List.foldl_cons]
      rw [ih _ _ this.1, this.2.1]
  exact gen hist h HoleSlice.nil (HoleSlice.wf_nil h)

/-- Lists in other arrays are never altered, and no list at all is altered when the list added to has no spare
capacity. Missing for the full C06: lists in the same array when there is spare capacity, see
`C06_kept_iff` and `C06_counterexample`. -/
theorem C06_kept_partial (srt : GoSort) (grow : Nat → Nat) {h : HoleHeap} {s k : HoleSlice} (ws : s.Wf h)
    (wk : k.Wf h) (start stop : Int) (hk : k.arr ≠ s.arr ∨ s.len = s.cap h ∨ stop ≤ start) :
    k.seen (s.add srt grow h start stop).1 = k.seen h := by
  rcases hk with hk | hk | hk
  · exact (heap_add srt grow ws start stop).2.2.1 k wk (Or.inl hk)
  · exact (heap_add srt grow ws start stop).2.2.1 k wk (Or.inr (by omega))
  · simp only [HoleSlice.add, if_pos hk]

/-- When there is spare capacity the list kept by the caller stays as it was exactly if the new range was
received before or lies strictly behind all of them; any other range shows in the kept list. -/
theorem C06_kept_iff (srt : GoSort) (grow : Nat → Nat) {h : HoleHeap} {s : HoleSlice} (wf : s.Wf h)
    (can : Canonical (s.seen h)) {start stop : Int} (lt : start < stop) (spare : s.len < s.cap h) :
    s.seen (s.add srt grow h start stop).1 = s.seen h ↔
      (∀ x, start ≤ x → x < stop → Covers (s.seen h) x) ∨ (∀ r ∈ s.seen h, r.stop < start) := by
  obtain ⟨a, n, e1, e2, e3, e4⟩ := (heap_add srt grow wf start stop).2.2.2 lt spare s rfl
  obtain ⟨can', cov⟩ := add_spec srt (s.seen h) start stop can
  have sl := seen_length wf
  generalize Holes.add srt (s.seen h) start stop = R at *
  generalize s.seen h = K at *
  rw [e1]
  have lR : R.length = n := by rw [← e2]; simp; omega
  constructor
  · intro ek
    by_cases hn : n ≤ s.len
    · left
      have RK : R = K.take n := by rw [← ek, ← e2, List.take_take, Nat.min_eq_left hn]
      intro x h1 h2
      have := (cov x).2 (Or.inr ⟨h1, h2⟩)
      rw [RK] at this
      obtain ⟨r, hr, hx⟩ := this
      exact ⟨r, List.mem_of_mem_take hr, hx⟩
    · right
      have hn' : n = s.len + 1 := by omega
      have hlt : s.len < a.length := by omega
      have RK : R = K ++ [a[s.len]] := by
        rw [← e2, hn', List.take_succ_eq_append_getElem hlt, ek]
      generalize a[s.len] = z at RK
      rw [RK] at can' cov
      obtain ⟨c1, c2⟩ := can'
      rw [List.pairwise_append] at c2
      intro r hr
      by_cases hs : r.stop < start
      · exact hs
      · exfalso
        have hrz : r.stop < z.start := c2.2.2 r hr z (by simp)
        have hz : z.start < z.stop := c1 z (by simp)
        -- `z` holds nothing the old list held, so it is part of the new range
        have inside : ∀ x, z.start ≤ x → x < z.stop → start ≤ x ∧ x < stop := by
          intro x x1 x2
          rcases (cov x).1 ⟨z, by simp, x1, x2⟩ with hc | hc
          · obtain ⟨q, hq, q1, q2⟩ := hc
            have := c2.2.2 q hq z (by simp)
            omega
          · exact hc
        have i1 := inside z.start (Int.le_refl _) hz
        -- the first offset behind `r` is in the new range but in none of the ranges of the result
        rcases (Covers_append _ _ _).1 ((cov r.stop).2 (Or.inr ⟨by omega, by omega⟩)) with hc | hc
        · obtain ⟨q, hq, q1, q2⟩ := hc
          have kp := c2.1
          rcases List.mem_iff_append.1 hr with ⟨u, v, huv⟩
          rw [huv] at hq kp
          rw [List.pairwise_append] at kp
          have hrr := c1 r (by simp [hr])
          rcases List.mem_append.1 hq with hq | hq
          · have := kp.2.2 q hq r (by simp); omega
          · rcases List.mem_cons.1 hq with hq | hq
            · rw [hq] at q2; omega
            · have := (List.pairwise_cons.1 kp.2.1).1 q hq; omega
        · obtain ⟨q, hq, q1, q2⟩ := hc
          simp only [List.mem_singleton] at hq
          rw [hq] at q1; omega
  · intro hx
    rcases hx with hx | hx
    · have RK : R = K := canonical_ext R K can' can (fun x => by
        rw [cov x]; exact ⟨fun y => y.elim id (fun y => hx x y.1 y.2), Or.inl⟩)
      rw [← RK, ← e2]
      rw [RK, sl] at lR
      rw [lR]
    · have RK : R = K ++ [⟨start, stop⟩] := by
        apply canonical_ext _ _ can'
        · refine ⟨?_, ?_⟩
          · intro r hr
            rcases List.mem_append.1 hr with hr | hr
            · exact can.1 r hr
            · simp only [List.mem_singleton] at hr; rw [hr]; exact lt
          · rw [List.pairwise_append]
            refine ⟨can.2, by simp, ?_⟩
            intro r hr q hq
            simp only [List.mem_singleton] at hq
            rw [hq]; exact hx r hr
        · intro x
          rw [cov x, Covers_append, Covers_cons]
          simp [Covers_nil]
      have hn : n = s.len + 1 := by rw [← lR, RK]; simp [sl]
      have : a.take s.len = (a.take n).take s.len := by rw [List.take_take, hn, Nat.min_eq_left (by omega)]
      rw [this, e2, RK, List.take_append_of_le_length (by omega), List.take_of_length_le (by omega)]

/-- So a range in front of all others always shows: the kept list then begins with something else. -/
theorem C06_front_shows (srt : GoSort) (grow : Nat → Nat) {h : HoleHeap} {s : HoleSlice} (wf : s.Wf h)
    (can : Canonical (s.seen h)) {start stop : Int} (lt : start < stop) (spare : s.len < s.cap h)
    (ne : s.len ≠ 0) (front : ∀ r ∈ s.seen h, start < r.start) :
    s.seen (s.add srt grow h start stop).1 ≠ s.seen h := by
  intro e
  have sl := seen_length wf
  rcases (C06_kept_iff srt grow wf can lt spare).1 e with hc | hc
  · obtain ⟨r, hr, h1, h2⟩ := hc start (Int.le_refl _) lt
    have := front r hr; omega
  · cases hk : s.seen h with
    | nil => rw [hk] at sl; exact ne sl.symm
    | cons r rest =>
      have hr : r ∈ s.seen h := by rw [hk]; exact List.mem_cons_self
      have h1 := hc r hr
      have h2 := front r hr
      have h3 := can.1 r hr
      omega

/-- How Go grows small slices: 0, 1, 2, 4, 8 elements. -/
def doubling (n : Nat) : Nat := if n = 0 then 1 else 2 * n

/-- Three separate ranges; Go then has a spare slot. -/
def threeAdds : List AddCall :=
  [⟨exampleSort, 10, 20⟩, ⟨exampleSort, 30, 40⟩, ⟨exampleSort, 50, 60⟩]

/-- The ranges and the capacities after one, two and three calls. -/
theorem threeAdds_run :
    ((HoleSlice.run doubling [] (threeAdds.take 2)).2.len = 2 ∧
      (HoleSlice.run doubling [] (threeAdds.take 2)).2.cap (HoleSlice.run doubling [] (threeAdds.take 2)).1 = 2) ∧
    (HoleSlice.run doubling [] threeAdds).2.seen (HoleSlice.run doubling [] threeAdds).1
      = [⟨10, 20⟩, ⟨30, 40⟩, ⟨50, 60⟩] ∧
    (HoleSlice.run doubling [] threeAdds).2.cap (HoleSlice.run doubling [] threeAdds).1 = 4 := by
  have r1 : Holes.run (threeAdds.take 1) = [⟨10, 20⟩] := by
    apply canonical_ext _ _ (C02_canonical _) (by simp [Canonical])
    intro x; rw [C01_received_exactly]; simp [threeAdds, Received, Covers]
  have r2 : Holes.run (threeAdds.take 2) = [⟨10, 20⟩, ⟨30, 40⟩] := by
    apply canonical_ext _ _ (C02_canonical _) (by simp [Canonical])
    intro x; rw [C01_received_exactly]; simp [threeAdds, Received, Covers]
  have r3 : Holes.run threeAdds = [⟨10, 20⟩, ⟨30, 40⟩, ⟨50, 60⟩] := by
    apply canonical_ext _ _ (C02_canonical _) (by simp [Canonical])
    intro x; rw [C01_received_exactly]; simp [threeAdds, Received, Covers]
  have c1 := heap_add_cap exampleSort doubling (HoleSlice.wf_nil []) (show (10 : Int) < 20 by omega)
  have l1 := seen_length (run_wf doubling [] (threeAdds.take 1))
  rw [C06_refines, r1] at l1
  have c2 := heap_add_cap exampleSort doubling (run_wf doubling [] (threeAdds.take 1)) (show (30 : Int) < 40 by omega)
  have l2 := seen_length (run_wf doubling [] (threeAdds.take 2))
  rw [C06_refines, r2] at l2
  have c3 := heap_add_cap exampleSort doubling (run_wf doubling [] (threeAdds.take 2)) (show (50 : Int) < 60 by omega)
  have e1 : HoleSlice.run doubling [] (threeAdds.take 1) = HoleSlice.nil.add exampleSort doubling [] 10 20 := rfl
  have e2 : HoleSlice.run doubling [] (threeAdds.take 2)
      = (HoleSlice.run doubling [] (threeAdds.take 1)).2.add exampleSort doubling
        (HoleSlice.run doubling [] (threeAdds.take 1)).1 30 40 := rfl
  have e3 : HoleSlice.run doubling [] threeAdds
      = (HoleSlice.run doubling [] (threeAdds.take 2)).2.add exampleSort doubling
        (HoleSlice.run doubling [] (threeAdds.take 2)).1 50 60 := rfl
  rw [← e1] at c1
  rw [← e2] at c2
  rw [← e3] at c3
  have c1' : (HoleSlice.run doubling [] (threeAdds.take 1)).2.cap
      (HoleSlice.run doubling [] (threeAdds.take 1)).1 = 1 := c1
  rw [c1', ← l1] at c2
  have c2' : (HoleSlice.run doubling [] (threeAdds.take 2)).2.cap
      (HoleSlice.run doubling [] (threeAdds.take 2)).1 = 2 := c2
  rw [c2', ← l2] at c3
  exact ⟨⟨l2.symm, c2'⟩, by rw [C06_refines, r3], c3⟩

example : let r := HoleSlice.run doubling [] threeAdds
    r.2.seen (r.2.add exampleSort doubling r.1 0 5).1 ≠ r.2.seen r.1 := by
  obtain ⟨_, e, c⟩ := threeAdds_run
  have wf := run_wf doubling [] threeAdds
  have l := seen_length wf
  rw [e] at l
  simp only [List.length_cons, List.length_nil] at l
  refine C06_front_shows exampleSort doubling wf ?_ (by omega) (by rw [c]; omega) (by omega) ?_
  · rw [C06_refines]; exact C02_canonical _
  · rw [e]; simp

/-- C06 as stated fails with Go's own capacities: a list of three ranges, made by `Add` on a nil slice, changes
under the caller's hands when `Add(0, 5)` is called on it. -/
theorem C06_counterexample :
    ∃ (h : HoleHeap) (s : HoleSlice), (h, s) = HoleSlice.run doubling [] threeAdds ∧
      s.seen (s.add exampleSort doubling h 0 5).1 ≠ s.seen h := by
  refine ⟨(HoleSlice.run doubling [] threeAdds).1, (HoleSlice.run doubling [] threeAdds).2, rfl, ?_⟩
  obtain ⟨_, e, c⟩ := threeAdds_run
  have wf := run_wf doubling [] threeAdds
  have l := seen_length wf
  rw [e] at l
  simp only [List.length_cons, List.length_nil] at l
  refine C06_front_shows exampleSort doubling wf ?_ (by omega) (by rw [c]; omega) (by omega) ?_
  · rw [C06_refines]; exact C02_canonical _
  · rw [e]
    intro r hr
    simp only [List.mem_cons, List.not_mem_nil, or_false] at hr
    rcases hr with rfl | rfl | rfl <;> simp

/-! ## Concrete cases -/

/-- A range behind the last one does not show in the kept list. -/
example : let r := HoleSlice.run doubling [] threeAdds
    r.2.seen (r.2.add exampleSort doubling r.1 70 80).1 = r.2.seen r.1 := by
  obtain ⟨_, e, c⟩ := threeAdds_run
  have wf := run_wf doubling [] threeAdds
  have l := seen_length wf
  rw [e] at l
  simp only [List.length_cons, List.length_nil] at l
  refine (C06_kept_iff exampleSort doubling wf ?_ (by omega) (by rw [c]; omega)).2 (Or.inr ?_)
  · rw [C06_refines]; exact C02_canonical _
  · rw [e]; simp

/-- Two ranges fill an array of two, so the next `Add` moves to a new array and the kept list stays. -/
example : let r := HoleSlice.run doubling [] (threeAdds.take 2)
    r.2.seen (r.2.add exampleSort doubling r.1 0 5).1 = r.2.seen r.1 := by
  obtain ⟨⟨l, c⟩, _⟩ := threeAdds_run
  exact C06_kept_partial exampleSort doubling (run_wf _ _ _) (run_wf _ _ _) 0 5 (Or.inr (Or.inl (by rw [l, c])))

end Saratoga
