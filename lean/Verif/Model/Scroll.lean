import Verif.Model.Go
/-!
# Model of moving up and down in a window (`sarwin/sarwin.go` lines 106-119, 365-382, 467-508)

The window library (gocui, not in /repo) keeps the lines printed to a window; a line wider than the window takes
several rows. `SetCursor` refuses rows outside the window, `SetOrigin` negative ones, `Clear` forgets the lines and
leaves origin and cursor. After every event the window is drawn, from the row at the origin on; a window with
`Autoscroll` is moved to its end if it has more rows than fit. Columns are left out.
-/
namespace Saratoga

/-- A window: how many lines were printed to it, how many rows they take, how many rows fit, whether it scrolls by
itself, the first row shown, and where the cursor is below that (sarwin/sarwin.go:166-253). -/
structure Pane where
  lines : Nat
  rows : Nat
  height : Nat
  auto : Bool
  oy : Nat
  cy : Nat
deriving DecidableEq, Repr

/-- `SetCursor`; `none` is its error (library, used at sarwin/sarwin.go:467-508). -/
def Pane.setRow (p : Pane) (y : Int) : Option Pane :=
  if y < 0 ∨ (p.height : Int) ≤ y then none else some { p with cy := y.toNat }

/-- `SetOrigin`; nothing changes when it refuses (library, used at sarwin/sarwin.go:365-381, 467-508). -/
def Pane.setOrigin (p : Pane) (y : Int) : Pane := if y < 0 then p else { p with oy := y.toNat }

/-- `CursorDown` (sarwin/sarwin.go:467-489). The row is compared with the number of lines. -/
def Pane.down (p : Pane) : Pane :=
  if (p.oy : Int) + p.cy = p.lines - 1 then p
  else match p.setRow (p.cy + 1) with
    | some q => q
    | none => p.setOrigin (p.oy + 1)

/-- `CursorUp` (sarwin/sarwin.go:492-508). -/
def Pane.up (p : Pane) : Pane :=
  match p.setRow (p.cy - 1) with
  | some q => q
  | none => if p.oy > 0 then p.setOrigin (p.oy - 1) else p

/-- `gotolastrow` (sarwin/sarwin.go:365-382), called for the window switched to, or for the packet window
while that is shown (`Terminal.switch`). -/
def Pane.last (p : Pane) : Pane :=
  if (p.oy : Int) + p.cy = p.lines - 1 then p
  else match p.setRow (p.lines - 1) with
    | some q => q
    | none =>
      let q := p.setOrigin (p.lines - p.height - 1)
      (q.setRow (p.height - 1)).getD q

/-- `Clearwin` (sarwin/sarwin.go:113-117) of this window. -/
def Pane.clear (p : Pane) : Pane :=
  let q := { p with lines := 0, rows := 0 }
  (q.setRow 0).getD q

/-- Drawing (window library). -/
def Pane.draw (p : Pane) : Pane :=
  if p.auto ∧ p.rows > p.height then { p with oy := p.rows - p.height } else p

/-- What happens to a window: a key, printing so many lines and rows more, `clear` (sarwin/sarwin.go:106-119, 304-348,
467-508). -/
inductive PaneAct where
  | up
  | down
  | last
  | print (lines rows : Nat)
  | clear
deriving DecidableEq, Repr

/-- The event itself (sarwin/sarwin.go:106-119, 304-348, 467-508). -/
def Pane.act (p : Pane) : PaneAct → Pane
  | .up => p.up
  | .down => p.down
  | .last => p.last
  | .print l r => { p with lines := p.lines + l, rows := p.rows + r }
  | .clear => p.clear

/-- An event and the drawing after it (sarwin/sarwin.go:106-119, 304-348, 467-508). -/
def Pane.step (p : Pane) (a : PaneAct) : Pane := (p.act a).draw

/-- Events one after another (sarwin/sarwin.go:106-119, 304-348, 467-508). -/
def Pane.run (p : Pane) (acts : List PaneAct) : Pane := acts.foldl Pane.step p

/-- A window when it is made (sarwin/sarwin.go:178-236): the packet window does not scroll by itself. -/
def Pane.new (height : Nat) (auto : Bool) : Pane := ⟨0, 0, height, auto, 0, 0⟩

end Saratoga
