import Verif.Model.Go
/-! # Specification vocabulary for names on the wire -/
namespace Saratoga

/-- No byte is zero: the name can be ended by a NUL. -/
def NoNul (name : List Byte) : Prop := ∀ b ∈ name, b ≠ 0#8

/-- All bytes are below 0x80. -/
def Ascii (name : List Byte) : Prop := ∀ b ∈ name, b.toNat < 128

/-- Number of bytes from 0x80 on. -/
def highBytes (name : List Byte) : Nat := name.countP (fun b => decide (128 ≤ b.toNat))

/-- The name up to the first NUL. -/
def upToNul (l : List Byte) : List Byte := l.takeWhile (fun b => decide (b ≠ 0#8))

/-- What a receiver makes of a name: bytes from 0x80 on are taken for Latin-1 characters and written
as two bytes each (110000xx 10xxxxxx). -/
def garbled (name : List Byte) : List Byte :=
  name.flatMap fun b =>
    if b.toNat < 128 then [b] else [BitVec.ofNat 8 (192 + b.toNat / 64), BitVec.ofNat 8 (128 + b.toNat % 64)]

instance (l : List Byte) : Decidable (NoNul l) := by unfold NoNul; infer_instance
instance (l : List Byte) : Decidable (Ascii l) := by unfold Ascii; infer_instance

end Saratoga
