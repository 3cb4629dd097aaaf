import Verif.Spec.New
/-! # Specification vocabulary for frames built in a fresh variable -/
namespace Saratoga

/-- Only the assigned fields are set: each shows the last value assigned to it, all other fields of the frame type have
number 0, and so has every bit that belongs to none of the assigned fields (bits counted from the left). -/
def OnlySets (T : Tables) (fields : List String) (assigns : List (String × String)) (h : BitVec 32) : Prop :=
  (∀ f ∈ fields, ∀ v, lastValue f assigns = some v → getStr T h f = .ret v) ∧
  (∀ f ∈ fields, lastValue f assigns = none → get T h f = 0) ∧
  (∀ j, (∀ f ∈ fields, lastValue f assigns ≠ none →
      j < (T.flag f).msb.toNat ∨ (T.flag f).msb.toNat + (T.flag f).len.toNat ≤ j) → h.getMsbD j = false)

end Saratoga
