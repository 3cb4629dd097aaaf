import Verif.Lemmas.Holes
/-!
# C01 - C05: the received-range bookkeeping of `holes/holes.go`

A history is any list of `Add` calls on an initially nil slice; every call carries its own behaviour
of the unstable sort (`GoSort`), so the theorems hold for every tie order.
-/
namespace Saratoga

/-- One possible behaviour of the sort, used only in the examples. -/
def exampleSort : GoSort where
  sort l := l.mergeSort (fun a b => decide (a.start ≤ b.start))
  perm l := List.mergeSort_perm l _
  sorted l := by
    have h := List.pairwise_mergeSort (le := fun a b : Hole => decide (a.start ≤ b.start))
      (fun a b c h1 h2 => by simp at h1 h2 ⊢; omega) (fun a b => by simp; omega) l
    exact h.imp (fun h => by simpa using h)

/-- A history with overlap, containment, adjacency, a repeat and an empty call. -/
def exampleHist : List AddCall :=
  [⟨exampleSort, 100, 200⟩, ⟨exampleSort, 10, 20⟩, ⟨exampleSort, 15, 40⟩, ⟨exampleSort, 40, 50⟩,
   ⟨exampleSort, 10, 20⟩, ⟨exampleSort, 7, 3⟩, ⟨exampleSort, 120, 130⟩]

/-- **C01** An offset is in the recorded ranges iff some `Add` call received it. -/
theorem C01_received_exactly (hist : List AddCall) (x : Int) :
    Covers (Holes.run hist) x ↔ Received hist x := by
  have := (foldl_spec hist [] ⟨by simp, by simp⟩).2 x
  unfold Holes.run
  rw [this]
  simp [Covers_nil]

/-- **C02** The recorded ranges are sorted, non-empty and pairwise separated. -/
theorem C02_canonical (hist : List AddCall) : Canonical (Holes.run hist) :=
  (foldl_spec hist [] ⟨by simp, by simp⟩).1

/-- **C03** Histories that received the same offsets leave identical lists, whatever the order,
repetition, cutting or sort behaviour. -/
theorem C03_history_independent (h₁ h₂ : List AddCall)
    (same : ∀ x, Received h₁ x ↔ Received h₂ x) : Holes.run h₁ = Holes.run h₂ :=
  canonical_ext _ _ (C02_canonical h₁) (C02_canonical h₂)
    (fun x => by rw [C01_received_exactly, C01_received_exactly, same x])

example := C03_history_independent exampleHist exampleHist.reverse (by intro x; simp [Received])

/-- **C03** for reorderings of the arguments, with arbitrary sort behaviours on both sides. -/
theorem C03_permutation (h₁ h₂ : List AddCall)
    (perm : (h₁.map fun c => (c.start, c.stop)).Perm (h₂.map fun c => (c.start, c.stop))) :
    Holes.run h₁ = Holes.run h₂ := by
  apply C03_history_independent
  have key : ∀ h : List AddCall, ∀ x, Received h x ↔
      ∃ p ∈ h.map (fun c => (c.start, c.stop)), p.1 ≤ x ∧ x < p.2 := by
    intro h x
    simp only [Received, List.mem_map]
    constructor
    · rintro ⟨c, hc, h⟩; exact ⟨_, ⟨c, hc, rfl⟩, h⟩
    · rintro ⟨_, ⟨c, hc, rfl⟩, h⟩; exact ⟨c, hc, h⟩
  intro x
  rw [key, key]
  simp only [perm.mem_iff]

example := C03_permutation exampleHist exampleHist.reverse (by
  rw [List.map_reverse]; exact (List.reverse_perm _).symm)

/-- **C04** `Getholes` lists exactly the offsets from 0 up that are missing below some received
offset, as a canonical list. -/
theorem C04_holes_exact (hist : List AddCall)
    (nonneg : ∀ c ∈ hist, c.start < c.stop → 0 ≤ c.start) :
    Canonical (Holes.getholes (Holes.run hist)) ∧
    ∀ x, Covers (Holes.getholes (Holes.run hist)) x ↔
      0 ≤ x ∧ ¬ Received hist x ∧ ∃ y, x < y ∧ Received hist y := by
  have h0 : ∀ h ∈ Holes.run hist, 0 ≤ h.start := by
    intro h hh
    have hne := (C02_canonical hist).1 h hh
    obtain ⟨c, hc, h1, h2⟩ := (C01_received_exactly hist h.start).1 ⟨h, hh, by omega, hne⟩
    have := nonneg c hc (by omega)
    by_cases hneg : 0 ≤ h.start
    · exact hneg
    · omega
  have := getholes_spec _ (C02_canonical hist) h0
  refine ⟨this.1, fun x => ?_⟩
  rw [this.2 x]
  simp only [C01_received_exactly]

example := C04_holes_exact exampleHist (by simp [exampleHist])

/-- **C04** With nothing received no hole is reported (so an empty list does not mean complete). -/
theorem C04_nothing_received : Holes.getholes (Holes.run []) = [] := rfl

/-- **C04** `Lenholes` counts the reported holes. -/
theorem C04_lenholes (l : List Hole) : Holes.lenholes l = (Holes.getholes l).length := rfl

/-- **C05** The list is the single entry `[0,n]` iff exactly the offsets `0..n-1` were received. -/
theorem C05_complete_iff (hist : List AddCall) (n : Int) (hn : 0 < n) :
    Holes.run hist = [⟨0, n⟩] ↔ ∀ x, Received hist x ↔ 0 ≤ x ∧ x < n := by
  constructor
  · intro h x
    rw [← C01_received_exactly, h, Covers_cons]
    simp [Covers_nil]
  · intro h
    apply canonical_ext _ _ (C02_canonical hist)
    · refine ⟨?_, by simp⟩
      intro y hy; simp at hy; subst hy; exact hn
    · intro x
      rw [C01_received_exactly, h x, Covers_cons]
      simp [Covers_nil]

example := C05_complete_iff [⟨exampleSort, 3, 8⟩, ⟨exampleSort, 0, 4⟩] 8 (by decide)

/-- **C05** When the transfer is complete no hole is reported. -/
theorem C05_complete_no_holes (hist : List AddCall) (n : Int)
    (h : Holes.run hist = [⟨0, n⟩]) : Holes.getholes (Holes.run hist) = [] := by
  rw [h]; rfl

/-! ## The hypotheses are met by non-trivial histories -/

example : Received exampleHist 39 ∧ ¬ Received exampleHist 60 := by
  constructor
  · exact ⟨⟨exampleSort, 15, 40⟩, by simp [exampleHist], by decide, by decide⟩
  · simp [exampleHist, Received]

/-- The example history ends in two ranges. -/
example : Holes.run exampleHist = [⟨10, 50⟩, ⟨100, 200⟩] := by
  apply canonical_ext _ _ (C02_canonical _) (by simp [Canonical])
  intro x
  rw [C01_received_exactly]
  simp [exampleHist, Received, Covers]
  omega

example : ∀ c ∈ exampleHist, c.start < c.stop → 0 ≤ c.start := by simp [exampleHist]

example : ∀ x, Received exampleHist x ↔ Received exampleHist.reverse x := by
  intro x; simp [Received]

example : ∀ x, Received [⟨exampleSort, 3, 8⟩, ⟨exampleSort, 0, 4⟩] x ↔ 0 ≤ x ∧ x < (8 : Int) := by
  intro x; simp [Received]; omega

end Saratoga
