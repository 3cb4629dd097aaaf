import Verif.Model.Holes
/-! # Specification vocabulary for range lists (what the user means, not how the code works) -/
namespace Saratoga

/-- Offset `x` lies in one of the half open ranges. -/
def Covers (l : List Hole) (x : Int) : Prop := ∃ h ∈ l, h.start ≤ x ∧ x < h.stop

/-- Offset `x` was received by some `Add(start, end)` call of the history. -/
def Received (hist : List AddCall) (x : Int) : Prop := ∃ c ∈ hist, c.start ≤ x ∧ x < c.stop

/-- Sorted, non-empty ranges with at least one uncovered offset between any two. -/
def Canonical (l : List Hole) : Prop :=
  (∀ h ∈ l, h.start < h.stop) ∧ l.Pairwise (fun a b => a.stop < b.start)

end Saratoga
