import Verif.Model.Network
/-!
# Model of the running program with its commands at the same time

`Model/Program.lean` runs a command in one step, at its line. In the program the line only starts a goroutine
(sarwin/sarwin.go:2517); when that gets on is open, also after lines that were entered later. The settings commands and
`beacon` do all they do under `Climu` (see `Model/Locks.lean`, `Model/BeaconLock.lean`); a goroutine that waits for the
lock may get it before one that has waited longer. A settings command is short and one step here, so is a transfer command:
what is between its steps is in `Model/Transfers.lean` and `Model/Locks.lean`. `beacon` keeps the lock while it sends and
sleeps, act by act. As everywhere, a command that ends the process does nothing before that.
-/
namespace Saratoga

/-- A goroutine that was started and has done nothing yet: the line entered, the command and its words
(sarwin/sarwin.go:2497-2521). -/
structure Queued where
  line : String
  cmd : String
  args : List String
deriving DecidableEq, Repr

/-- The program, the goroutines that have done nothing yet, oldest first, what the beacon command that holds `Climu` has
still to do, and what beacon commands have done so far (sarwin/sarwin.go:1276-1366, 2517). -/
structure Busy where
  prog : Program
  queue : List Queued
  holder : Option (List BeaconAct)
  trace : List BeaconAct

/-- What can happen: something on the network side; a line is entered; a goroutine gets on, with what the system answers to
it; the beacon command that holds the lock gets on (saratoga/saratoga.go:605-732, sarwin/sarwin.go:575-607, 699-729,
2517). -/
inductive BusyEvent where
  | net (a : Action)
  | typed (line : String)
  | begin (i : Nat) (o : Replies)
  | act

/-- At the loop of `main` (saratoga/saratoga.go:599-606). -/
def Busy.init (fs : FS) (c : Cliflags) : Busy := ⟨Program.init fs c, [], none, []⟩

/-- The commands that begin with `sarflags.Climu.Lock()` (sarwin/sarwin.go:1279, 1373, 1442, 1547, 1698, 1723, 2010, 2110,
2140, 2170, 2314, 2358, 2409). -/
def needsLock (cmd : String) : Bool := cmd == "beacon" || (assoc cmd settingHandlers).isSome

/-- What a beacon command has to do once it has the lock (sarwin/sarwin.go:1276-1366). -/
def beaconPlan (M : Machine) (o : Replies) (p : Program) (q : Queued) : Option (List BeaconAct) :=
  if q.cmd = "beacon" then
    match cmdBeacon (M.beaconEnv o) p.settings p.beacon q.args with
    | .ret (_, acts) => some acts
    | _ => none
  else none

/-- A line is entered (sarwin/sarwin.go:575-607, 2497-2521). -/
def Busy.enter (M : Machine) (b : Busy) (line : String) : Busy :=
  match getLine (M.H.map Prod.fst) cmdHandlers line with
  | .ret (.started cmd args) => { b with queue := b.queue ++ [⟨line, cmd, args⟩] }
  | .ret _ => b
  | .fatal => { b with prog := b.prog.end_ }
  | .panic => { b with prog := b.prog.end_ }

/-- Goroutine `q` gets on and is no longer among those that have done nothing (sarwin/sarwin.go:1279-1280, 2517). -/
def Busy.begin (M : Machine) (o : Replies) (b : Busy) (q : Queued) (rest : List Queued) : Busy :=
  match b.prog.command M o q.cmd q.args with
  | .ret p =>
    { b with prog := p, queue := rest, holder := if q.cmd = "beacon" then beaconPlan M o b.prog q else b.holder }
  | .fatal => { b with prog := b.prog.end_, queue := rest }
  | .panic => { b with prog := b.prog.end_, queue := rest }

/-- One step; `none` if it cannot happen (saratoga/saratoga.go:605-732, sarwin/sarwin.go:575-607, 699-729, 1279-1280,
2517). -/
def Busy.step (M : Machine) (b : Busy) (e : BusyEvent) : Option Busy :=
  if b.prog.net.main = .ended then none
  else match e with
  | .net a => (b.prog.step M (.net a)).map fun p => { b with prog := p }
  | .typed line => some (b.enter M line)
  | .begin i o =>
    match b.queue[i]? with
    | none => none
    | some q =>
      if needsLock q.cmd = true ∧ b.holder ≠ none then none
      else some (b.begin M o q (b.queue.eraseIdx i))
  | .act =>
    match b.holder with
    | none => none
    | some [] => some { b with holder := none }
    | some (a :: rest) => some { b with holder := some rest, trace := b.trace ++ [a] }

/-- An execution (saratoga/saratoga.go:600-732). -/
def Busy.run (M : Machine) (b : Busy) : List BusyEvent → Option Busy
  | [] => some b
  | e :: es => (b.step M e).bind fun b => b.run M es

end Saratoga
