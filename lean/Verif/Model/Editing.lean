import Verif.Model.Prompt
/-!
# Model of editing the command line (`sarwin/sarwin.go` lines 411-464, 511-536)

The command window is editable and in overwrite mode (sarwin/sarwin.go:186-189). The window library (gocui, not in
/repo) holds the cells of each line; it is modelled for the one line the cursor is on: `SetCursor` refuses positions
outside the window, a typed character goes into the cell under the cursor, after filling up with empty cells if the line
is shorter, `EditDelete(true)` removes the cell before the cursor. A character typed into the last column moves the cursor
to the next row; what happens then, the arrow keys up and down and the other lines are in `Model/Console.lean`.
-/
namespace Saratoga

/-- The line the cursor is on: its cells, the column of the cursor, the width of the window, and whether the cursor has
left the line (sarwin/sarwin.go:186-189, 411-464). -/
structure EditView where
  line : List Char
  cx : Nat
  width : Nat
  gone : Bool := false
deriving DecidableEq, Repr

/-- `len(line)`: bytes, not cells (sarwin/sarwin.go:411-464). -/
def goLen (line : List Char) : Nat := (line.map Char.utf8Size).sum

/-- `promptlen` (sarwin/sarwin.go:511-513). -/
def promptlen (prompt : String) (curline : Nat) (ppad : Int) : Int :=
  goLen prompt.toList + goLen (toString curline).toList + ppad

/-- `View.SetCursor`; all callers go on if it refuses (library, used at sarwin/sarwin.go:411-464). -/
def EditView.setCursor (v : EditView) (x : Int) : EditView :=
  if x < 0 ∨ (v.width : Int) ≤ x then v else { v with cx := x.toNat }

/-- A key pressed in the command window; `erase` is any of backspace (two codes) and delete
(sarwin/sarwin.go:635-643). -/
inductive EditKey
  | char (c : Char)
  | left
  | right
  | erase
deriving DecidableEq, Repr

/-- `BackSpace` (sarwin/sarwin.go:411-424) in the command window; `plen` is `promptlen(Cinfo)`. -/
def EditView.backSpace (v : EditView) (plen : Int) : EditView :=
  if (v.cx : Int) ≤ plen then v
  else { v with
    line := v.line.eraseIdx (v.cx - 1)
    cx := v.cx - 1 }

/-- `CursorLeft` (sarwin/sarwin.go:427-443) in the command window. -/
def EditView.cursorLeft (v : EditView) (plen : Int) : EditView :=
  if (v.cx : Int) ≤ plen then v else v.setCursor (v.cx - 1)

/-- `CursorRight` (sarwin/sarwin.go:446-464) in the command window. -/
def EditView.cursorRight (v : EditView) : EditView :=
  if (v.cx : Int) ≥ goLen v.line - 1 then v.setCursor (goLen v.line) else v.setCursor (v.cx + 1)

/-- A character typed, in overwrite mode (window library). -/
def EditView.write (v : EditView) (c : Char) : EditView :=
  let cells := v.line ++ List.replicate (v.cx + 1 - v.line.length) '\x00'
  if v.cx + 1 < v.width then { v with line := cells.set v.cx c, cx := v.cx + 1 }
  else { v with line := cells.set v.cx c, gone := true }

/-- One key; when the cursor has left the line, it is no longer in this model (sarwin/sarwin.go:411-464). -/
def EditView.press (plen : Int) (v : EditView) (k : EditKey) : EditView :=
  if v.gone then v
  else match k with
    | .char c => v.write c
    | .left => v.cursorLeft plen
    | .right => v.cursorRight
    | .erase => v.backSpace plen

/-- A fresh prompt (sarwin/sarwin.go:516-536): the text shown, the cursor put at `promptlen`. The colour of the
prompt is no text. The window is `width` columns wide; before, the cursor was in column `cx`. -/
def EditView.fresh (prompt : String) (curline : Nat) (ppad : Int) (width cx : Nat) : EditView :=
  EditView.setCursor ⟨(promptLine prompt curline "").toList, cx, width, false⟩ (promptlen prompt curline ppad)

/-- Keys one after another after a fresh prompt (sarwin/sarwin.go:411-464, 519-543). -/
def editRun (prompt : String) (curline : Nat) (ppad : Int) (width cx : Nat) (keys : List EditKey) : EditView :=
  keys.foldl (EditView.press (promptlen prompt curline ppad)) (.fresh prompt curline ppad width cx)

end Saratoga
