/-!
# Model of `holes/holes.go`

Go `int` is only compared and copied in this file, never computed with, so `Int` is exact.
A `Holes` value is the list of elements of the slice.  Sharing of the backing array is ignored here
and modelled separately in `Verif.Model.HolesHeap`.
-/
namespace Saratoga

/-- `type Hole struct { Start int; End int }` (holes/holes.go:23-26). `stop` is Go's `End`. -/
structure Hole where
  start : Int
  stop : Int
deriving DecidableEq, Repr, Inhabited

/-- A behaviour of `sort.Slice(fills, by Start)` (holes/holes.go:80-82).  `sort.Slice` is not
stable, so all that is known is that the result is a permutation ordered by `Start`. -/
structure GoSort where
  sort : List Hole → List Hole
  perm : ∀ l, List.Perm (sort l) l
  sorted : ∀ l, List.Pairwise (fun a b => a.start ≤ b.start) (sort l)

/-- `Holes.remove` (holes/holes.go:35-38): shift the tail left over index `i`, drop the last slot. -/
def Holes.remove (fills : List Hole) (i : Nat) : List Hole :=
  fills.take i ++ fills.drop (i + 1)

/-- The body of the `if` in `optimise` (holes/holes.go:51-60) for neighbours `i`, `i+1` that touch
or overlap: drop the next fill, extending the current one when the next one reaches further. -/
def Holes.merge (fills : List Hole) (i : Nat) (h : i + 1 < fills.length) : List Hole :=
  if fills[i+1].stop ≤ fills[i].stop then
    Holes.remove fills (i + 1)
  else
    Holes.remove (fills.set i { fills[i] with stop := fills[i+1].stop }) (i + 1)

theorem Holes.length_merge (fills : List Hole) (i : Nat) (h : i + 1 < fills.length) :
    (Holes.merge fills i h).length + 1 = fills.length := by
  unfold Holes.merge Holes.remove
  split <;> simp <;> omega

/-- The `for` loop of `Holes.optimise` (holes/holes.go:47-64) at loop index `i`.  After a merge the
function calls itself on the whole list (line 61, `if len(fills) <= 1` is line 44) and the loop
then goes on at `i+1` on what that call returned.  The subtype only serves termination. -/
def Holes.optLoop (fills : List Hole) (i : Nat) : { r : List Hole // r.length ≤ fills.length } :=
  if h : i + 1 < fills.length then
    if fills[i+1].start ≤ fills[i].stop then
      have hm := Holes.length_merge fills i h
      match (if (Holes.merge fills i h).length ≤ 1 then ⟨Holes.merge fills i h, by omega⟩
        else ⟨(Holes.optLoop (Holes.merge fills i h) 0).1,
          by have := (Holes.optLoop (Holes.merge fills i h) 0).2; omega⟩ :
          { r : List Hole // r.length + 1 ≤ fills.length }) with
      | ⟨r, hr⟩ =>
        ⟨(Holes.optLoop r (i + 1)).1, by have := (Holes.optLoop r (i + 1)).2; omega⟩
    else
      Holes.optLoop fills (i + 1)
  else
    ⟨fills, Nat.le_refl _⟩
termination_by (fills.length, fills.length - i)

/-- `Holes.optimise` (holes/holes.go:43-65). -/
def Holes.optimise (fills : List Hole) : List Hole :=
  if fills.length ≤ 1 then fills else (Holes.optLoop fills 0).1

/-- `Holes.Add` (holes/holes.go:71-87). -/
def Holes.add (srt : GoSort) (fills : List Hole) (start stop : Int) : List Hole :=
  if stop ≤ start then fills
  else
    let fills := fills ++ [⟨start, stop⟩]
    if fills.length > 1 then Holes.optimise (srt.sort fills) else fills

/-- The loop of `Holes.Getholes` over consecutive fills (holes/holes.go:98-109, the `f < lenfills-1`
branch). -/
def Holes.gaps : List Hole → List Hole
  | a :: b :: rest => ⟨a.stop, b.start⟩ :: Holes.gaps (b :: rest)
  | _ => []

/-- `Holes.Getholes` (holes/holes.go:91-111). -/
def Holes.getholes (fills : List Hole) : List Hole :=
  match fills with
  | [] => []
  | a :: _ => (if a.start ≠ 0 then [⟨0, a.start⟩] else []) ++ Holes.gaps fills

/-- `Holes.Lenholes` (holes/holes.go:114-116). -/
def Holes.lenholes (fills : List Hole) : Nat := (Holes.getholes fills).length

/-- One `Add` call of a history: the tie order the sort happens to use, and the arguments (holes/holes.go:71-87). -/
structure AddCall where
  srt : GoSort
  start : Int
  stop : Int

/-- Repeated `fills = fills.Add(start, end)` on a nil slice (holes/holes.go:71-87). -/
def Holes.run (hist : List AddCall) : List Hole :=
  hist.foldl (fun fills c => Holes.add c.srt fills c.start c.stop) []

end Saratoga
