import Verif.Model.Holes
/-!
# Model of the work `holes/holes.go` does

The functions of `Verif.Model.Holes` with counters: how often the loop of `optimise` goes round, how many elements
`remove` copies and how deep `optimise` calls itself. The work of `append` and `sort.Slice` is the library's and not
counted.
-/
namespace Saratoga

/-- What is counted: rounds of the `for` loop (holes/holes.go:47), elements copied by `copy(fills[i:], fills[i+1:])`
(holes/holes.go:36) and calls of `optimise` under way at the same time (holes/holes.go:61). -/
structure Work where
  rounds : Nat
  moved : Nat
  depth : Nat
deriving DecidableEq, Repr

theorem Holes.optimise_length (fills : List Hole) : (Holes.optimise fills).length ≤ fills.length := by
  unfold Holes.optimise
  split
  · exact Nat.le_refl _
  · exact (Holes.optLoop fills 0).2

/-- The work of the `for` loop of `optimise` (holes/holes.go:47-64) from loop index `i` on, with the work of the calls
it makes. The round with `i == len(fills)-1` returns (lines 48-50). -/
def Holes.loopWork (fills : List Hole) (i : Nat) : Work :=
  if h : i + 1 < fills.length then
    if fills[i+1].start ≤ fills[i].stop then
      have hm := Holes.length_merge fills i h
      have ho := Holes.optimise_length (Holes.merge fills i h)
      let called := if (Holes.merge fills i h).length ≤ 1 then ⟨0, 0, 1⟩ else Holes.loopWork (Holes.merge fills i h) 0
      let after := Holes.loopWork (Holes.optimise (Holes.merge fills i h)) (i + 1)
      ⟨1 + called.rounds + after.rounds, (fills.length - (i + 2)) + called.moved + after.moved,
        max (called.depth + 1) after.depth⟩
    else
      let after := Holes.loopWork fills (i + 1)
      ⟨1 + after.rounds, after.moved, after.depth⟩
  else
    ⟨if i < fills.length then 1 else 0, 0, 1⟩
termination_by (fills.length, fills.length - i)

/-- The work of `Holes.optimise` (holes/holes.go:43-65). -/
def Holes.optimiseWork (fills : List Hole) : Work :=
  if fills.length ≤ 1 then ⟨0, 0, 1⟩ else Holes.loopWork fills 0

/-- The work of `Holes.Add` (holes/holes.go:71-87), but for `append` and `sort.Slice`. -/
def Holes.addWork (srt : GoSort) (fills : List Hole) (start stop : Int) : Work :=
  if stop ≤ start then ⟨0, 0, 0⟩
  else
    let fills := fills ++ [⟨start, stop⟩]
    if fills.length > 1 then Holes.optimiseWork (srt.sort fills) else ⟨0, 0, 0⟩

/-- The work of each call in a row `fills = fills.Add(start, end)` (holes/holes.go:71-87) beginning with `fills`. -/
def Holes.worksFrom (fills : List Hole) : List AddCall → List Work
  | [] => []
  | c :: rest => Holes.addWork c.srt fills c.start c.stop :: Holes.worksFrom (Holes.add c.srt fills c.start c.stop) rest

end Saratoga
