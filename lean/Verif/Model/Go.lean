/-!
# The fragment of Go the model is written in

Nothing here comes from `/repo`; these definitions fix the meaning of the Go constructs the code uses.
-/
namespace Saratoga

/-- How a Go call ends: it returns, `log.Fatalln` ends the process, or the runtime panics. -/
inductive Out (α : Type) where
  | ret (a : α)
  | fatal
  | panic
deriving DecidableEq, Repr

namespace Out
variable {α β : Type}

/-- Sequencing: a crash ends the computation. -/
protected def bind (x : Out α) (f : α → Out β) : Out β :=
  match x with
  | ret a => f a
  | fatal => fatal
  | panic => panic

instance : Monad Out where
  pure := ret
  bind := Out.bind

@[simp] theorem pure_eq (a : α) : (pure a : Out α) = ret a := rfl
@[simp] theorem ret_bind (a : α) (f : α → Out β) : (ret a >>= f) = f a := rfl
@[simp] theorem fatal_bind (f : α → Out β) : ((fatal : Out α) >>= f) = fatal := rfl
@[simp] theorem panic_bind (f : α → Out β) : ((panic : Out α) >>= f) = panic := rfl
@[simp] theorem map_ret (f : α → β) (a : α) : f <$> (ret a) = ret (f a) := rfl
@[simp] theorem map_fatal (f : α → β) : f <$> (fatal : Out α) = fatal := rfl
@[simp] theorem map_panic (f : α → β) : f <$> (panic : Out α) = panic := rfl

theorem bind_assoc {γ : Type} (x : Out α) (f : α → Out β) (g : β → Out γ) :
    (x >>= f) >>= g = x >>= fun a => f a >>= g := by cases x <;> rfl

/-- The call came back to its caller (meaning of Go, not in /repo). -/
def returns : Out α → Prop
  | ret _ => True
  | _ => False

instance (x : Out α) : Decidable x.returns := by cases x <;> unfold returns <;> infer_instance

end Out

/-- A non-nil Go `error`; the message is reduced to a tag. -/
abbrev Err := String

/-- One byte (Go `byte`). -/
abbrev Byte := BitVec 8

/-! ## Slices of bytes -/

/-- `f[lo:hi]` on a slice with capacity = length: panics when out of range (meaning of Go, used for instance at
data/data.go:152-211). -/
def slice (f : List Byte) (lo hi : Nat) : Out (List Byte) :=
  if lo ≤ hi ∧ hi ≤ f.length then .ret ((f.drop lo).take (hi - lo)) else .panic

/-- `f[lo:]` (meaning of Go, used for instance at data/data.go:152-211). -/
def sliceFrom (f : List Byte) (lo : Nat) : Out (List Byte) := slice f lo f.length

/-- `make([]byte, n)` (meaning of Go, used for instance at data/data.go:214-267). -/
def mkBytes (n : Nat) : List Byte := List.replicate n 0#8

/-- `copy(dst[lo:hi], src)`: copies `min (hi-lo) (len src)` bytes (meaning of Go, used for instance at
metadata/metadata.go:242-266). -/
def copyAt (dst : List Byte) (lo hi : Nat) (src : List Byte) : Out (List Byte) :=
  if lo ≤ hi ∧ hi ≤ dst.length then
    .ret (dst.take lo ++ src.take (hi - lo) ++ dst.drop (lo + min (hi - lo) src.length))
  else .panic

/-- `binary.BigEndian.PutUintN(dst[lo:hi], v)`, given the big endian bytes of `v`: panics unless the
window is large enough (library, used for instance at data/data.go:214-267). -/
def putAt (dst : List Byte) (lo hi : Nat) (bytes : List Byte) : Out (List Byte) :=
  if lo ≤ hi ∧ hi ≤ dst.length ∧ bytes.length ≤ hi - lo then
    .ret (dst.take lo ++ bytes ++ dst.drop (lo + bytes.length))
  else .panic

/-! ## encoding/binary, big endian -/

/-- `binary.BigEndian.PutUint16` (library, used for instance at data/data.go:214-267). -/
def be16 (v : BitVec 16) : List Byte := [v.extractLsb' 8 8, v.extractLsb' 0 8]

/-- `binary.BigEndian.PutUint32` (library, used for instance at data/data.go:214-267). -/
def be32 (v : BitVec 32) : List Byte :=
  [v.extractLsb' 24 8, v.extractLsb' 16 8, v.extractLsb' 8 8, v.extractLsb' 0 8]

/-- `binary.BigEndian.PutUint64` (library, used for instance at data/data.go:214-267). -/
def be64 (v : BitVec 64) : List Byte :=
  [v.extractLsb' 56 8, v.extractLsb' 48 8, v.extractLsb' 40 8, v.extractLsb' 32 8,
   v.extractLsb' 24 8, v.extractLsb' 16 8, v.extractLsb' 8 8, v.extractLsb' 0 8]

/-- `binary.BigEndian.Uint16(b)`: panics on fewer than 2 bytes (library, used for instance at data/data.go:152-211). -/
def rd16 : List Byte → Out (BitVec 16)
  | a :: b :: _ => .ret (a ++ b)
  | _ => .panic
/-- `binary.BigEndian.Uint32(b)` (library, used for instance at data/data.go:152-211). -/
def rd32 : List Byte → Out (BitVec 32)
  | a :: b :: c :: d :: _ => .ret (a ++ b ++ c ++ d)
  | _ => .panic
/-- `binary.BigEndian.Uint64(b)` (library, used for instance at data/data.go:152-211). -/
def rd64 : List Byte → Out (BitVec 64)
  | a :: b :: c :: d :: e :: f :: g :: h :: _ => .ret (a ++ b ++ c ++ d ++ e ++ f ++ g ++ h)
  | _ => .panic

/-! ## Strings -/

/-- `string(b)` for a byte `b`: the UTF-8 encoding of the code point `b`, two bytes from 0x80 on (meaning of Go, used
for instance at request/request.go:122-145). -/
def runeOfByte (b : Byte) : List Byte :=
  if b.toNat < 0x80 then [b] else [0xC0#8 ||| (b >>> 6), 0x80#8 ||| (b &&& 0x3F#8)]

/-- Split a character list at every `c` (`strings.Split`, used for instance at data/data.go:49-108). -/
def splitChars (c : Char) : List Char → List (List Char)
  | [] => [[]]
  | x :: xs =>
    if x = c then [] :: splitChars c xs
    else match splitChars c xs with
      | [] => [[x]]
      | p :: ps => (x :: p) :: ps

/-- `strings.Split(s, sep)` for a one character separator (library, used for instance at data/data.go:49-108). -/
def strSplit (s : String) (c : Char) : List String := (splitChars c s.toList).map String.ofList

/-- `strings.Replace(s, " ", "", -1)` (library, used for instance at data/data.go:60). -/
def stripSpaces (s : String) : String := String.ofList (s.toList.filter (· ≠ ' '))

/-- `strings.TrimRight(s, ",")` (library, used at sarflags/sarflags.go:782). -/
def trimCommas (s : String) : String :=
  String.ofList ((s.toList.reverse.dropWhile (· = ',')).reverse)

/-- `f[1]` on the result of a split: panics when there is no second part (meaning of Go, used for instance at
data/data.go:49-108). -/
def second (f : List String) : Out String :=
  match f with
  | _ :: b :: _ => .ret b
  | _ => .panic

/-- `f[0]` on the result of a split (never empty) (meaning of Go, used for instance at data/data.go:49-108). -/
def first (f : List String) : String :=
  match f with
  | a :: _ => a
  | [] => ""

/-- The UTF-8 bytes of a text, `[]byte(s)` (meaning of Go, used for instance at request/request.go:104-119). -/
def utf8 (s : String) : List Byte := s.toUTF8.toList.map UInt8.toBitVec

/-! ## Maps -/

/-- `m[k]` with the `ok` flag, on an association list with distinct keys (meaning of Go, used for instance at
sarflags/sarflags.go:569-575). -/
def assoc {β : Type} (k : String) : List (String × β) → Option β
  | [] => none
  | (a, b) :: rest => if a = k then some b else assoc k rest

end Saratoga
