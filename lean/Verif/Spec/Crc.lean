import Verif.Model.Go
/-! # Specification vocabulary for checksums -/
namespace Saratoga

/-- The bits of the bytes, the lowest of each byte first. -/
def bitsOf (bytes : List Byte) : List Bool := bytes.flatMap fun b => (List.range 8).map b.getLsbD

/-- The files differ in bit `j`. -/
def DifferAt (f g : List Byte) (j : Nat) : Prop := (bitsOf f)[j]? ≠ (bitsOf g)[j]?

end Saratoga
