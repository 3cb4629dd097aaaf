import Verif.Model.Editing
/-!
# Model of the command window with all its lines (`sarwin/sarwin.go` lines 411-607)

`Model/Editing.lean` has one line, here are all of them: a character typed into the last column moves the cursor to the
start of the next row, Enter takes the line the cursor is on, and the arrows move between lines. The window library is as
in `Model/Editing.lean` and `Model/Scroll.lean`; a character typed behind the last line makes a new line, and the window
is drawn after every key. Prompts are taken to be narrower than the window; then no line is wider, and lines and rows are
the same. What `CmdPrintf` prints is in the window before the next key is pressed. The history is in `Model/History.lean`.
-/
namespace Saratoga

/-- The command window, with the prompt and its padding (configured) and the number of the current prompt (`Cinfo`)
(sarwin/sarwin.go:97-103, 166-253). -/
structure Console where
  prompt : String
  ppad : Int
  width : Nat
  height : Nat
  lines : List (List Char)
  oy : Nat
  cx : Nat
  cy : Nat
  curline : Nat
deriving DecidableEq, Repr

/-- `promptlen(Cinfo)` (sarwin/sarwin.go:511-513). -/
def Console.plen (c : Console) : Int := promptlen c.prompt c.curline c.ppad

/-- `SetCursor`; `none` is its error (library, used at sarwin/sarwin.go:411-543). -/
def Console.setCursor (c : Console) (x y : Int) : Option Console :=
  if x < 0 ∨ (c.width : Int) ≤ x ∨ y < 0 ∨ (c.height : Int) ≤ y then none
  else some { c with cx := x.toNat, cy := y.toNat }

/-- `SetCursor` where the error is ignored (sarwin/sarwin.go:467-543). -/
def Console.tryCursor (c : Console) (x y : Int) : Console := (c.setCursor x y).getD c

/-- `v.Line(cy)`; behind the last line it is an error and the text is empty (library, used at
sarwin/sarwin.go:575-607). -/
def Console.line (c : Console) : List Char := c.lines.getD (c.oy + c.cy) []

/-- Drawing (window library). -/
def Console.draw (c : Console) : Console :=
  if c.lines.length > c.height then { c with oy := c.lines.length - c.height } else c

/-- A character typed, in overwrite mode (window library). -/
def Console.write (c : Console) (ch : Char) : Console :=
  let lines := c.lines ++ List.replicate (c.oy + c.cy + 1 - c.lines.length) []
  let cells := c.line ++ List.replicate (c.cx + 1 - c.line.length) '\x00'
  let d := { c with lines := lines.set (c.oy + c.cy) (cells.set c.cx ch) }
  if c.cx + 1 < c.width then { d with cx := c.cx + 1 }
  else if c.cy + 1 < c.height then { d with cx := 0, cy := c.cy + 1 }
  else { d with cx := 0, oy := c.oy + 1 }

/-- `BackSpace` (sarwin/sarwin.go:411-424). -/
def Console.backSpace (c : Console) : Console :=
  if (c.cx : Int) ≤ c.plen then c
  else { c with lines := c.lines.modify (c.oy + c.cy) (·.eraseIdx (c.cx - 1)), cx := c.cx - 1 }

/-- `CursorLeft` (sarwin/sarwin.go:427-443). -/
def Console.left (c : Console) : Console := if (c.cx : Int) ≤ c.plen then c else c.tryCursor (c.cx - 1) c.cy

/-- `CursorRight` (sarwin/sarwin.go:446-464). -/
def Console.right (c : Console) : Console :=
  if (c.cx : Int) ≥ goLen c.line - 1 then c.tryCursor (goLen c.line) c.cy else c.tryCursor (c.cx + 1) c.cy

/-- `CursorDown` (sarwin/sarwin.go:467-489). -/
def Console.down (c : Console) : Console :=
  if (c.oy : Int) + c.cy = c.lines.length - 1 then c
  else match c.setCursor c.cx (c.cy + 1) with
    | some d => d
    | none => { c with oy := c.oy + 1 }

/-- `CursorUp` (sarwin/sarwin.go:492-508). -/
def Console.up (c : Console) : Console :=
  match c.setCursor c.cx (c.cy - 1) with
  | some d => d
  | none => if c.oy > 0 then { c with oy := c.oy - 1 } else c

/-- `prompt` after the first time (sarwin/sarwin.go:520-544): what it does to the window at once, the drawing, and what it
has printed then. -/
def Console.reprompt (c : Console) : Console :=
  if c.oy + c.cy = c.curline then
    let c := { c with curline := c.curline + 1 }
    let c := c.tryCursor c.plen c.cy
    let c := c.down
    let c := c.tryCursor c.plen (c.cy + 1)
    let c := c.draw
    { c with lines := c.lines ++ [(promptLine c.prompt c.curline "").toList] }
  else c

/-- `GetLine` in the command window (sarwin/sarwin.go:580-603): the line is looked at and run as in `getLine`; after an
empty command there is no prompt. -/
def Console.enter (commands handlers : List String) (c : Console) : Out (Console × List RunEnd) := do
  let r ← getLine commands handlers (String.ofList c.line)
  if r = .nothing then pure (c, []) else pure (c.reprompt, [r])

/-- The keys of the command window (sarwin/sarwin.go:610-645). -/
inductive ConsoleKey where
  | char (c : Char)
  | left
  | right
  | erase
  | up
  | down
  | enter
deriving DecidableEq, Repr

/-- A key and the drawing after it: the window, and what was started (sarwin/sarwin.go:411-607). -/
def Console.press (commands handlers : List String) (c : Console) : ConsoleKey → Out (Console × List RunEnd)
  | .char ch => .ret ((c.write ch).draw, [])
  | .left => .ret (c.left.draw, [])
  | .right => .ret (c.right.draw, [])
  | .erase => .ret (c.backSpace.draw, [])
  | .up => .ret (c.up.draw, [])
  | .down => .ret (c.down.draw, [])
  | .enter => do
    let (c, rs) ← c.enter commands handlers
    pure (c.draw, rs)

/-- Keys one after another (sarwin/sarwin.go:411-607). -/
def Console.run (commands handlers : List String) (c : Console) : List ConsoleKey → Out (Console × List RunEnd)
  | [] => .ret (c, [])
  | k :: ks => do
    let (c, rs) ← c.press commands handlers k
    let (c, rest) ← c.run commands handlers ks
    pure (c, rs ++ rest)

/-- The first prompt (sarwin/sarwin.go:237-251, 526-531). -/
def Console.start (prompt : String) (ppad : Int) (width height : Nat) : Console :=
  let c : Console := ⟨prompt, ppad, width, height, [(promptLine prompt 0 "").toList], 0, 0, 0, 0⟩
  (c.tryCursor c.plen 0).draw

end Saratoga
