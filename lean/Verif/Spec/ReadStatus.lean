import Verif.Model.ReadStatus
import Verif.Spec.Listen
/-! # What reading statuses should do: specification for C130 -/
namespace Saratoga

/-- The words among the acts, and the positions. -/
def Act.word? : Act → Option String
  | .word w => some w
  | _ => none

def Act.position? : Act → Option (BitVec 64 × BitVec 64)
  | .position p i => some (p, i)
  | _ => none

/-- The frame is a status of version 1 that says all is well; 0 is the number of `success`. -/
def SaysWell (f : List Byte) : Prop :=
  4 ≤ f.length ∧ versionNumber (headWord f) = 1 ∧ typeNumber (headWord f) = 4 ∧ errcodeNumber (headWord f) = 0

/-- The bit of a status with which the other end tells that it has not got the metadata. -/
def lacksMeta (h : BitVec 32) : Nat := bitsAt h 18 1

end Saratoga
