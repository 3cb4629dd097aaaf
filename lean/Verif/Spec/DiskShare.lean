/-! # What C186 speaks of -/
namespace Saratoga

/-- The distance of two numbers. -/
def offBy (a b : Nat) : Nat := (a - b) + (b - a)

/-- The whole numbers that a `float32` can be, exponents not bounded: those of at most 24 significant bits. -/
def IsFloat (x : Nat) : Prop := ∃ m k, m < 2 ^ 24 ∧ x = m * 2 ^ k

/-- `x` is a `float32`, and none is nearer to `n / d`. -/
structure NearestFloat (n d x : Nat) : Prop where
  float : IsFloat x
  nearest : ∀ y, IsFloat y → offBy (x * d) n ≤ offBy (y * d) n

end Saratoga
