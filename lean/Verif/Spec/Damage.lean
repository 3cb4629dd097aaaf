import Verif.Spec.Crc
import Verif.Spec.Files
import Verif.Model.Data
import Verif.Model.Shipped
/-! # Specification vocabulary for damage on the way -/
namespace Saratoga

/-- The bytes `got` are those of the frame with other bytes in the place of the payload, or the same ones. -/
def SameHead (x : Data) (frame got : List Byte) : Prop :=
  got.length = frame.length ∧ got.take (frame.length - x.payload.length) = frame.take (frame.length - x.payload.length)

/-- The piece `a` is what some reader got out of the bytes of the frame `x` after damage to its payload. -/
def ReadDamaged (x : Data) (a : Arrival) : Prop :=
  ∃ (frame got : List Byte) (d0 y : Data), x.encode shipped = .ret (.ok frame) ∧ SameHead x frame got ∧
    d0.decode shipped got = .ret (y, none) ∧ a.off = y.offset ∧ a.data = y.payload

/-- The piece brings bit `j` of the file, and wrongly. -/
def WrongAt (file : List Byte) (a : Arrival) (j : Nat) : Prop :=
  8 * a.off.toNat ≤ j ∧ j < 8 * (a.off.toNat + a.data.length) ∧
  (bitsOf a.data)[j - 8 * a.off.toNat]? ≠ (bitsOf file)[j]?

end Saratoga
