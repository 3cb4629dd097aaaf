import Verif.Model.Listing
import Verif.Model.Startup
/-!
# Model of binding the keys and of the text of a transfer (`sarwin/sarwin.go` lines 551-553, 611-646, 1240-1245)

`SetKeybinding` of the window library (gocui, not in /repo) either binds the key in every window or answers an error. Every
key is asked for once, so its answer is a function of the key.
-/
namespace Saratoga

/-- The keys of the program (sarwin/sarwin.go:610-645). -/
inductive BoundKey where
  | ctrlSpace
  | arrowDown
  | arrowUp
  | arrowLeft
  | arrowRight
  | ctrlP
  | ctrlC
  | enter
  | backspace
  | backspace2
  | delete
deriving DecidableEq, Repr

/-- The functions called by keys (sarwin/sarwin.go:610-645). -/
inductive KeyAction where
  | switchView
  | cursorDown
  | cursorUp
  | cursorLeft
  | cursorRight
  | showPacket
  | quit
  | getLine
  | backSpace
deriving DecidableEq, Repr

/-- The calls of `SetKeybinding` in `Keybindings` (sarwin/sarwin.go:612-644), and whether the error is handed on (`return
err`) or not (`return nil`). -/
def keyCalls : List (BoundKey × KeyAction × Bool) :=
  [(.ctrlSpace, .switchView, true),
   (.arrowDown, .cursorDown, true),
   (.arrowUp, .cursorUp, true),
   (.arrowLeft, .cursorLeft, false),
   (.arrowRight, .cursorRight, false),
   (.ctrlP, .showPacket, false),
   (.ctrlC, .quit, true),
   (.enter, .getLine, true),
   (.backspace, .backSpace, false),
   (.backspace2, .backSpace, false),
   (.delete, .backSpace, false)]

/-- The calls one after another up to the first error (sarwin/sarwin.go:610-645). -/
def bindKeys (sets : BoundKey → Option Err) : List (BoundKey × KeyAction × Bool) → List (BoundKey × KeyAction) × Option Err
  | [] => ([], none)
  | (k, a, handsOn) :: rest =>
    match sets k with
    | some e => ([], if handsOn then some e else none)
    | none => let (bound, err) := bindKeys sets rest; ((k, a) :: bound, err)

/-- `Keybindings` (sarwin/sarwin.go:611-646): what is bound, and the error answered. -/
def keybindings (sets : BoundKey → Option Err) : List (BoundKey × KeyAction) × Option Err := bindKeys sets keyCalls

/-- What a key does when it is pressed (window library); `none`: it goes to the editor of the window. -/
def pressed (bound : List (BoundKey × KeyAction)) (k : BoundKey) : Option KeyAction :=
  (bound.find? fun b => b.1 = k).map (·.2)

/-- What `main` sees of `Keybindings` (saratoga/saratoga.go:506-508). -/
def Host.withKeys (h : Host) (sets : BoundKey → Option Err) : Host := { h with keys := (keybindings sets).2.isNone }

/-- `Directions` (sarwin/sarwin.go:856). -/
def directionName (initiator : Bool) : String := if initiator then "Initiator" else "Responder"

/-- `Print` of a transfer (sarwin/sarwin.go:1240-1245); the text of an address is that of `net.UDPAddr`. -/
def Transfer.printText (str : UDPAddr → String) (t : Transfer) : List Byte :=
  utf8 (directionName t.direction) ++ utf8 "|" ++ utf8 t.ttype ++ utf8 "|" ++ utf8 (str t.peer) ++ utf8 "|" ++ t.filename

end Saratoga
