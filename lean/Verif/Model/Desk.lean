import Verif.Model.Program
import Verif.Model.Terminal
/-!
# Model of the program at its screen and keyboard

The windows and keys (`Model/Terminal.lean`) and the running program (`Model/Program.lean`) in one state: a key that
starts a command runs it. What is printed to the windows is free: any number of lines of any width at any time.
-/
namespace Saratoga

/-- The windows, the program, whether the loop of the windows (`g.MainLoop`) has been left, and, for the statements
only, what the lines entered came to (saratoga/saratoga.go:600-740). -/
structure Desk where
  term : Terminal
  prog : Program
  left : Bool
  ran : List RunEnd

/-- `go cmdhandler[...]` (sarwin/sarwin.go:2497-2521) for what a line came to: a command runs, the other lines only
print. A command that does not come back ends the process. -/
def Program.started (M : Machine) (o : Replies) (p : Program) : RunEnd → Program
  | .started cmd args =>
    match p.command M o cmd args with
    | .ret p' => p'
    | .fatal => p.end_
    | .panic => p.end_
  | _ => p

/-- What can happen: a key, with what the system answers should it start a command; something on the network side or
the loop of `main`; output to a window (saratoga/saratoga.go:605-732, sarwin/sarwin.go:610-645). -/
inductive DeskEvent where
  | press (k : TermKey) (o : Replies)
  | net (a : Action)
  | output (e : TermEvent)

/-- One step; `none` if it cannot happen. Keys and output need the loop of the windows; a panic in it ends the process.
Ctrl-C leaves it, and then its error waits in the channel `errflag` of one place for the loop of `main`
(saratoga/saratoga.go:599-600, 725-729, 736-740): `userQuit` is taking it. -/
def Desk.step (M : Machine) (d : Desk) : DeskEvent → Option Desk
  | .press k o =>
    if d.prog.net.main = .ended ∨ d.left = true then none
    else match d.term.press (M.H.map Prod.fst) cmdHandlers k with
      | .ret .quit => some { d with left := true }
      | .ret (.on t rs _) => 
          some { d with term := t, prog := rs.foldl (Program.started M o) d.prog, ran := d.ran ++ rs }
      | .fatal => some { d with prog := d.prog.end_ }
      | .panic => some { d with prog := d.prog.end_ }
  | .net .userQuit =>
    if d.left = true then (d.prog.step M (.net .userQuit)).map fun p => { d with prog := p } else none
  | .net a => (d.prog.step M (.net a)).map fun p => { d with prog := p }
  | .output (.press _) => none
  | .output e =>
    if d.prog.net.main = .ended ∨ d.left = true then none
    else match d.term.step (M.H.map Prod.fst) cmdHandlers e with
      | .ret (.on t _ _) => some { d with term := t }
      | _ => none

/-- An execution (saratoga/saratoga.go:600-732). -/
def Desk.run (M : Machine) (d : Desk) : List DeskEvent → Option Desk
  | [] => some d
  | e :: es => (d.step M e).bind fun d => d.run M es

/-- The windows have been drawn for the first time and the loop of `main` begins (saratoga/saratoga.go:600-605). -/
def Desk.start (prompt : String) (ppad : Int) (width cmdRows msgRows errRows packetRows : Nat) (fs : FS) (c : Cliflags) :
    Desk :=
  ⟨.start prompt ppad width cmdRows msgRows errRows packetRows, .init fs c, false, []⟩

end Saratoga
