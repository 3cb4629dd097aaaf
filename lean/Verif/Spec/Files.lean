import Verif.Model.Files
import Verif.Spec.Ranges
/-! # Specification vocabulary for files -/
namespace Saratoga

/-- The names of a path never climb above where they start: every initial part has at most as many
`..` as real names. -/
def StaysBelow (names : List Name) : Prop :=
  ∀ p, p <+: names →
    (p.filter fun c => c = [dot, dot]).length ≤
      (p.filter fun c => c ≠ [] ∧ c ≠ [dot] ∧ c ≠ [dot, dot]).length

/-- The byte a file must hold at offset `i` after `buf` was written at `pos` over `old`. -/
def byteAfter (old : List Byte) (pos : Nat) (buf : List Byte) (i : Nat) : Option Byte :=
  if pos ≤ i ∧ i < pos + buf.length then buf[i - pos]?
  else if old.length ≤ i ∧ i < pos ∧ buf ≠ [] then some 0
  else old[i]?

/-- A piece of a file that arrives: where it goes, its bytes, how the operating system fails the write if
it does, and the order the sort of the range list happens to use. -/
structure Arrival where
  off : BitVec 64
  data : List Byte
  short : Option Nat
  srt : GoSort

/-- The piece is cut out of the file content `F`. -/
def Arrival.Of (a : Arrival) (F : List Byte) : Prop :=
  a.off.toNat + a.data.length ≤ F.length ∧
  ∀ i, i < a.data.length → a.data[i]? = F[a.off.toNat + i]?

/-- Storing a piece: write it at its offset and record the range of the bytes that were written. -/
def store (h : Handle) (s : FS × List Hole) (a : Arrival) : FS × List Hole :=
  ((fileWrite s.1 (some h) a.off a.data a.short).1,
   Holes.add a.srt s.2 a.off.toNat
     (a.off.toNat + (fileWrite s.1 (some h) a.off a.data a.short).2.1))

/-- Storing many pieces in the order they arrive. -/
def storeAll (h : Handle) (fs : FS) (as : List Arrival) : FS × List Hole :=
  as.foldl (store h) (fs, [])

/-- Nothing changed except possibly at `l`. -/
def SameExceptAt (l : Loc) (a b : FS) : Prop := ∀ m, m ≠ l → b.node m = a.node m

end Saratoga
