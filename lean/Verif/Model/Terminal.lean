import Verif.Model.Console
import Verif.Model.Keys
import Verif.Model.Screen
import Verif.Model.Scroll
/-!
# Model of the four windows together (`sarwin/sarwin.go` lines 350-508, 551-607)

The command window is that of `Model/Console.lean`, the others those of `Model/Scroll.lean`; which one gets the keys, and
which is on top, is in `Model/Screen.lean`, and what a key calls in `Model/Keys.lean`. The function called is handed the
window that gets the keys. A key that calls nothing goes to the editor of the window (window library), and only the
command window has one (sarwin/sarwin.go:186, 202, 219, 235); of these keys the characters are modelled. After every event
all windows are drawn (window library). In the windows other than the command window the cursor stays in the first column:
it is set only to a column it is in (sarwin/sarwin.go:377-380, 476, 495).
-/
namespace Saratoga

/-- All windows: their order, the command window, and the three that are printed to (sarwin/sarwin.go:166-253). -/
structure Terminal where
  screen : Screen
  cmd : Console
  msg : Pane
  err : Pane
  packet : Pane

/-- A key with a code of its own, or a character (sarwin/sarwin.go:610-645). -/
inductive TermKey where
  | key (k : BoundKey)
  | char (c : Char)
deriving DecidableEq, Repr

/-- What a key leads to: it ends the main loop (`ErrQuit`), or the windows go on, commands were started, and texts are
handed over to be printed to the error window (sarwin/sarwin.go:551-553, 575-645). -/
inductive TermEnd where
  | quit
  | on (t : Terminal) (started : List RunEnd) (notes : List String)

/-- Drawing all windows (window library). -/
def Terminal.draw (t : Terminal) : Terminal :=
  { t with cmd := t.cmd.draw, msg := t.msg.draw, err := t.err.draw, packet := t.packet.draw }

/-- `gotolastrow` (sarwin/sarwin.go:365-382) of the command window. -/
def Console.last (c : Console) : Console :=
  if (c.oy : Int) + c.cy = c.lines.length - 1 then c
  else match c.setCursor c.cx (c.lines.length - 1) with
    | some d => d
    | none =>
      let y : Int := c.lines.length - c.height - 1
      let d := if y < 0 then c else { c with oy := y.toNat }
      d.tryCursor c.cx (c.height - 1)

/-- The text `gotolastrow` prints first (sarwin/sarwin.go:370-371); the number called `ox` is that called `oy`. -/
def lastRowText (oy cx cy lines : Nat) : String :=
  "gotolastrow ox=" ++ toString oy ++ " oy=" ++ toString oy ++ " cx=" ++ toString cx ++ " cy=" ++ toString cy ++
    " blines=" ++ toString lines ++ "\n"

/-- `gotolastrow` of one of the windows, and the text it prints (sarwin/sarwin.go:365-381). -/
def Terminal.last (t : Terminal) : String → Terminal × List String
  | "cmd" => ({ t with cmd := t.cmd.last }, [lastRowText t.cmd.oy t.cmd.cx t.cmd.cy t.cmd.lines.length])
  | "msg" => ({ t with msg := t.msg.last }, [lastRowText t.msg.oy 0 t.msg.cy t.msg.lines])
  | "err" => ({ t with err := t.err.last }, [lastRowText t.err.oy 0 t.err.cy t.err.lines])
  | "packet" => ({ t with packet := t.packet.last }, [lastRowText t.packet.oy 0 t.packet.cy t.packet.lines])
  | _ => (t, [])

/-- `switchView` (sarwin/sarwin.go:384-408): `setCurrentViewOnTop` returns the window it has put on top
(sarwin/sarwin.go:357-361), and that one goes to `gotolastrow`. -/
def Terminal.switch (t : Terminal) : Terminal × List String :=
  let next := nextWindow t.screen.showpacket t.screen.current
  { t with screen := t.screen.step .rotate }.last (if t.screen.showpacket then "packet" else next)

/-- `CursorDown` (sarwin/sarwin.go:467-489) in the window that gets the keys. -/
def Terminal.down (t : Terminal) : Terminal :=
  match t.screen.current with
  | "cmd" => { t with cmd := t.cmd.down }
  | "msg" => { t with msg := t.msg.down }
  | "err" => { t with err := t.err.down }
  | "packet" => { t with packet := t.packet.down }
  | _ => t

/-- `CursorUp` (sarwin/sarwin.go:492-508). -/
def Terminal.up (t : Terminal) : Terminal :=
  match t.screen.current with
  | "cmd" => { t with cmd := t.cmd.up }
  | "msg" => { t with msg := t.msg.up }
  | "err" => { t with err := t.err.up }
  | "packet" => { t with packet := t.packet.up }
  | _ => t

/-- `CursorLeft`, `CursorRight` and `BackSpace` (sarwin/sarwin.go:411-464), and a character: the command window alone. -/
def Terminal.inCmd (t : Terminal) (f : Console → Console) : Terminal :=
  if t.screen.current = "cmd" then { t with cmd := f t.cmd } else t

/-- The function a key calls; `GetLine` (sarwin/sarwin.go:575-607) is `CursorDown` in the other windows. -/
def Terminal.act (commands handlers : List String) (t : Terminal) : KeyAction → Out TermEnd
  | .switchView => let (t, notes) := t.switch; .ret (.on t [] notes)
  | .cursorDown => .ret (.on t.down [] [])
  | .cursorUp => .ret (.on t.up [] [])
  | .cursorLeft => .ret (.on (t.inCmd Console.left) [] [])
  | .cursorRight => .ret (.on (t.inCmd Console.right) [] [])
  | .showPacket => .ret (.on { t with screen := t.screen.step .packet } [] [])
  | .quit => .ret .quit
  | .getLine =>
    if t.screen.current = "cmd" then do
      let (c, rs) ← t.cmd.enter commands handlers
      pure (.on { t with cmd := c } rs [])
    else .ret (.on t.down [] [])
  | .backSpace => .ret (.on (t.inCmd Console.backSpace) [] [])

/-- The drawing after an event (library, started at saratoga/saratoga.go:736-740). -/
def TermEnd.draw : TermEnd → TermEnd
  | .quit => .quit
  | .on t rs notes => .on t.draw rs notes

/-- A key, all keys having been bound (`Model/Keys.lean`), and the drawing (sarwin/sarwin.go:384-645). -/
def Terminal.press (commands handlers : List String) (t : Terminal) : TermKey → Out TermEnd
  | .char c => .ret (TermEnd.draw (.on (t.inCmd fun v => v.write c) [] []))
  | .key k =>
    match pressed (keybindings fun _ => none).1 k with
    | none => .ret (TermEnd.draw (.on t [] []))
    | some a => do
      let e ← t.act commands handlers a
      pure e.draw

/-- Printing to the windows other than the command window, and clearing one (sarwin/sarwin.go:106-119). -/
inductive TermEvent where
  | press (k : TermKey)
  | msg (lines rows : Nat)
  | err (lines rows : Nat)
  | packet (lines rows : Nat)
  | clear (win : String)
deriving DecidableEq, Repr

/-- An event while the main loop runs (sarwin/sarwin.go:106-119, 304-348, 384-645). -/
def Terminal.step (commands handlers : List String) (t : Terminal) : TermEvent → Out TermEnd
  | .press k => t.press commands handlers k
  | .msg l r => .ret (TermEnd.draw (.on { t with msg := t.msg.act (.print l r) } [] []))
  | .err l r => .ret (TermEnd.draw (.on { t with err := t.err.act (.print l r) } [] []))
  | .packet l r => .ret (TermEnd.draw (.on { t with packet := t.packet.act (.print l r) } [] []))
  | .clear "msg" => .ret (TermEnd.draw (.on { t with msg := t.msg.act .clear } [] []))
  | .clear "err" => .ret (TermEnd.draw (.on { t with err := t.err.act .clear } [] []))
  | .clear "packet" => .ret (TermEnd.draw (.on { t with packet := t.packet.act .clear } [] []))
  | .clear _ => .ret (TermEnd.draw (.on t [] []))

/-- Events one after another, until the main loop is left (saratoga/saratoga.go:736-740). -/
def Terminal.run (commands handlers : List String) (t : Terminal) : List TermEvent → Out TermEnd
  | [] => .ret (.on t [] [])
  | e :: es => do
    match ← t.step commands handlers e with
    | .quit => pure .quit
    | .on t rs notes =>
      match ← t.run commands handlers es with
      | .quit => pure .quit
      | .on t rs' notes' => pure (.on t (rs ++ rs') (notes ++ notes'))

/-- The windows when the program starts (sarwin/sarwin.go:167-253) with so many rows each. -/
def Terminal.start (prompt : String) (ppad : Int) (width cmdRows msgRows errRows packetRows : Nat) : Terminal :=
  ⟨.init, .start prompt ppad width cmdRows, .new msgRows true, .new errRows true, .new packetRows false⟩

end Saratoga
