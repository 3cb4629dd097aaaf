import Verif.Model.Holes
/-!
# `holes/holes.go` with slices that share their backing arrays

`Verif.Model.Holes` takes a `Holes` value to be a list. In Go it is a slice: a pointer to a backing array
and a length, and copying the slice does not copy the array. Here the arrays live in a heap. All slices of
this file start at index 0 of their array, so a slice is an address and a length; its capacity is the
length of the array.
-/
namespace Saratoga

/-- All backing arrays that were ever made; the address of an array is its position (holes/holes.go:23-31). -/
abbrev HoleHeap := List (List Hole)

/-- A `Holes` slice; the nil slice has no array (holes/holes.go:23-31). -/
structure HoleSlice where
  arr : Option Nat
  len : Nat
deriving DecidableEq, Repr

/-- The nil slice (holes/holes.go:23-31). -/
def HoleSlice.nil : HoleSlice := ⟨none, 0⟩

/-- The backing array of a slice (holes/holes.go:23-31). -/
def HoleSlice.array (h : HoleHeap) (s : HoleSlice) : List Hole :=
  match s.arr with
  | none => []
  | some p => (h[p]?).getD []

/-- What a program sees through the slice (holes/holes.go:23-31). -/
def HoleSlice.seen (h : HoleHeap) (s : HoleSlice) : List Hole := (s.array h).take s.len

/-- `cap(s)` (meaning of Go, used at holes/holes.go:35-38, 71-87). -/
def HoleSlice.cap (h : HoleHeap) (s : HoleSlice) : Nat := (s.array h).length

/-- Writing an array back at an address (meaning of Go, used at holes/holes.go:35-87). -/
def HoleHeap.store (h : HoleHeap) (p : Nat) (a : List Hole) : HoleHeap := h.set p a

/-- `append(fills, fill)` (holes/holes.go:78). With spare capacity the slot behind the slice is overwritten,
otherwise the elements move to a new array. `grow` gives its capacity from the old one; Go's own choice is
not fixed by the language, only that it is large enough. -/
def HoleSlice.append (grow : Nat → Nat) (h : HoleHeap) (s : HoleSlice) (x : Hole) : HoleHeap × HoleSlice :=
  match s.arr with
  | some p =>
    if s.len < s.cap h then (h.store p ((s.array h).set s.len x), ⟨some p, s.len + 1⟩)
    else
      (h ++ [s.seen h ++ [x] ++ List.replicate (grow (s.cap h) - (s.len + 1)) ⟨0, 0⟩],
        ⟨some h.length, s.len + 1⟩)
  | none => (h ++ [[x] ++ List.replicate (grow 0 - 1) ⟨0, 0⟩], ⟨some h.length, 1⟩)

/-- `Holes.remove` (holes/holes.go:35-38) on an array `a` and a slice of length `len` of it: `copy` moves the
elements behind `i` one to the left, the last slot of the slice keeps its old value, the rest of the array is
not touched. -/
def arrRemove (a : List Hole) (len i : Nat) : List Hole :=
  a.take i ++ (a.take len).drop (i + 1) ++ a.drop (len - 1)

/-- The body of the `if` in `optimise` (holes/holes.go:51-60). -/
def arrMerge (a : List Hole) (len i : Nat) : List Hole :=
  if (a.getD (i + 1) ⟨0, 0⟩).stop ≤ (a.getD i ⟨0, 0⟩).stop then arrRemove a len (i + 1)
  else
    arrRemove (a.set i { a.getD i ⟨0, 0⟩ with stop := (a.getD (i + 1) ⟨0, 0⟩).stop }) len (i + 1)

/-- The `for` loop of `optimise` (holes/holes.go:47-64) on the array and the length of the slice, at loop
index `i`. The subtype only serves termination. -/
def arrLoop (a : List Hole) (len i : Nat) : { r : List Hole × Nat // r.2 ≤ len } :=
  if h : i + 1 < len then
    if (a.getD (i + 1) ⟨0, 0⟩).start ≤ (a.getD i ⟨0, 0⟩).stop then
      match (if len - 1 ≤ 1 then ⟨(arrMerge a len i, len - 1), by simp; omega⟩
        else ⟨(arrLoop (arrMerge a len i) (len - 1) 0).1,
          by have := (arrLoop (arrMerge a len i) (len - 1) 0).2; omega⟩ :
          { r : List Hole × Nat // r.2 + 1 ≤ len }) with
      | ⟨r, hr⟩ => ⟨(arrLoop r.1 r.2 (i + 1)).1, by have := (arrLoop r.1 r.2 (i + 1)).2; omega⟩
    else
      arrLoop a len (i + 1)
  else
    ⟨(a, len), Nat.le_refl _⟩
termination_by (len, len - i)

/-- `Holes.optimise` (holes/holes.go:43-65). -/
def arrOptimise (a : List Hole) (len : Nat) : List Hole × Nat :=
  if len ≤ 1 then (a, len) else (arrLoop a len 0).1

/-- `sort.Slice` (holes/holes.go:80-82) and `optimise` on the array: only the part the slice covers is
sorted. -/
def arrTidy (srt : GoSort) (a : List Hole) (len : Nat) : List Hole × Nat :=
  arrOptimise (srt.sort (a.take len) ++ a.drop len) len

/-- `Holes.Add` (holes/holes.go:71-87). -/
def HoleSlice.add (srt : GoSort) (grow : Nat → Nat) (h : HoleHeap) (s : HoleSlice) (start stop : Int) :
    HoleHeap × HoleSlice :=
  if stop ≤ start then (h, s)
  else
    let (h, s) := s.append grow h ⟨start, stop⟩
    if s.len > 1 then
      match s.arr with
      | none => (h, s)
      | some p =>
        let (a, len) := arrTidy srt (s.array h) s.len
        (h.store p a, ⟨some p, len⟩)
    else (h, s)

/-- Repeated `fills = fills.Add(start, end)` on a nil slice, in a heap that may hold anything (holes/holes.go:71-87).
-/
def HoleSlice.run (grow : Nat → Nat) (h : HoleHeap) (hist : List AddCall) : HoleHeap × HoleSlice :=
  hist.foldl (fun x c => x.2.add c.srt grow x.1 c.start c.stop) (h, HoleSlice.nil)

end Saratoga
