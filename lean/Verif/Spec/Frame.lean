import Verif.Model.Frame
import Verif.Spec.Flags
/-! # Specification vocabulary for frames -/
namespace Saratoga

/-- The number a reader gets when `v` is sent in `n` bytes. -/
def wireNum (n : Nat) (v : BitVec 64) : BitVec 64 := BitVec.ofNat 64 (v.toNat % 256 ^ n)

/-- Width in bytes of the numbers in a frame with this descriptor name. -/
def descWidth : String → Option Nat
  | "d16" => some 2
  | "d32" => some 4
  | "d64" => some 8
  | _ => none

/-- The descriptor named by a header word gives the width `n`. -/
def HasWidth (T : Tables) (field : String) (h : BitVec 32) (n : Nat) : Prop :=
  ∃ desc, getStr T h field = .ret desc ∧ descWidth desc = some n

/-- The big endian number formed by bytes. -/
def beNum : List Byte → Nat
  | [] => 0
  | b :: bs => b.toNat * 256 ^ bs.length + beNum bs

end Saratoga

namespace Saratoga

/-- The first word of a frame, big endian: its header. -/
def headWord (frame : List Byte) : BitVec 32 := BitVec.ofNat 32 (beNum (frame.take 4))

/-- The `len` bits of a header word from bit `lo` (counted from the right) on, as a number. -/
def bitsAt {w : Nat} (h : BitVec w) (lo len : Nat) : Nat := h.toNat / 2 ^ lo % 2 ^ len

/-! Layout of the header fields under the shipped tables. -/

/-- 0 = d16, 1 = d32, 2 = d64, 3 = d128. -/
def descNumber (h : BitVec 32) : Nat := bitsAt h 22 2
/-- 1 = a timestamp follows. -/
def stampNumber (h : BitVec 32) : Nat := bitsAt h 19 1

end Saratoga

namespace Saratoga

/-- 1 = a beacon carries the free space. -/
def freeNumber (h : BitVec 32) : Nat := bitsAt h 14 1
/-- Width of the free space: 0 = d16, 1 = d32, 2 = d64, 3 = d128. -/
def freeDescNumber (h : BitVec 32) : Nat := bitsAt h 12 2

end Saratoga

namespace Saratoga

/-- Descriptor of a directory entry: 0 = d16, 1 = d32, 2 = d64, 3 = d128. -/
def direntDescNumber (h : BitVec 16) : Nat := bitsAt h 6 2
/-- Checksum length in words. -/
def csumlenNumber (h : BitVec 32) : Nat := bitsAt h 4 4

/-- The descriptor named by a directory entry header gives the width `n`. -/
def HasWidthD (T : Tables) (h : BitVec 16) (n : Nat) : Prop :=
  ∃ desc, getDStr T h "descriptor" = .ret desc ∧ descWidth desc = some n

/-- The first two bytes as a number. -/
def headHalf (frame : List Byte) : BitVec 16 := BitVec.ofNat 16 (beNum (frame.take 2))

/-- The tables know the timestamp type of directory entries, and entries are usable. -/
def HasEpoch (T : Tables) : Prop := T.ts.WF ∧ (assoc "epoch2000_32" T.ts.options).isSome = true

instance (T : Tables) : Decidable (HasEpoch T) := by unfold HasEpoch; infer_instance

end Saratoga
