import Verif.Model.BeaconCmd
import Verif.Model.Help
import Verif.Model.MainLoop
import Verif.Model.Prompt
import Verif.Model.TranCmds
/-!
# Model of the whole running program

The network side (`Model/MainLoop.lean`: listeners and main loop of `saratoga/saratoga.go`) and the command line of
`sarwin/sarwin.go` in one process, on one file system. A command runs from its line to its end in one step; what two
commands at the same time do to each other is in `Model/Transfers.lean`, `Model/Locks.lean` and `Model/TableRace.lean`.
What is printed is left out; it is in the models of the commands.
-/
namespace Saratoga

/-- What does not change while the program runs: the set-up of the network side, the command table
(`sarflags.Commands`), the process number and the text of an address (`net.UDPAddr.String`)
(saratoga/saratoga.go:439-600). -/
structure Machine where
  S : Setup
  H : CmdTable
  pid : BitVec 32
  str : UDPAddr → String

/-- What the operating system and the network library answer during one command: see `TranEnv` and `BeaconEnv`.
`remote` and `nearby` are the two addresses of the connection `net.DialUDP` makes. -/
structure Replies where
  resolve : String → Except Err UDPAddr
  remote : UDPAddr → Except Err String
  nearby : UDPAddr → Except Err String
  file : FileEnv
  disk : DiskEnv
  fails : UDPAddr → Nat → Option Err

/-- The outside world of a transfer command (sarwin/sarwin.go:921-986). -/
def Machine.tranEnv (M : Machine) (o : Replies) : TranEnv := ⟨M.str, o.resolve, o.remote, M.S.sardir, M.pid, o.file⟩

/-- The outside world of a beacon command (sarwin/sarwin.go:699-729, 1276-1366). -/
def Machine.beaconEnv (M : Machine) (o : Replies) : BeaconEnv :=
  ⟨M.H, M.S.T, M.str, o.resolve, o.nearby, M.pid.toNat, o.disk, o.fails⟩

/-- The global variables: those of the network side with the files, `sarflags.Cliflag`, `Transfers` and `sessionid`
(sarwin/sarwin.go:859, 896), `clibeacon` (1272) and `Cexit` (1501). -/
structure Program where
  net : World
  settings : Cliflags
  table : List Transfer
  sessionid : BitVec 32
  beacon : BeaconState
  cexit : Int

/-- At the loop of `main` (saratoga/saratoga.go:599-606), with the settings read from the configuration. -/
def Program.init (fs : FS) (c : Cliflags) : Program := ⟨World.init fs, c, [], 0, BeaconState.init, -1⟩

/-- The transfer commands work on the table, the session number and the files (sarwin/sarwin.go:859-895). -/
def Program.tranWorld (p : Program) : TranWorld := ⟨p.table, p.sessionid, p.net.fs⟩

/-- The table, session number and files after a transfer command (sarwin/sarwin.go:859-895). -/
def Program.withTran (p : Program) (w : TranWorld) : Program :=
  { p with net := { p.net with fs := w.fs }, table := w.transfers, sessionid := w.sessionid }

/-- The handler of a command (`cmdhandler`, sarwin/sarwin.go:2459-2494) with the words of its line. The commands not
named here only print: `?`, `help`, `usage`, `history`, `home`, `ls`, `cancel`, `clear` and `peers`. -/
def Program.command (M : Machine) (o : Replies) (p : Program) (cmd : String) (args : List String) : Out Program :=
  match assoc cmd settingHandlers with
  | some h => .ret { p with settings := (h M.H p.settings args).1 }
  | none =>
    match assoc cmd tranCommands with
    | some h => do
      let (w, _, _) ← h ⟨M.H, M.tranEnv o, p.settings⟩ p.tranWorld args
      .ret (p.withTran w)
    | none =>
      if cmd = "rmtran" then do
        let (ts, _) ← cmdRmtran M.str p.table args
        .ret { p with table := ts }
      else if cmd = "beacon" then do
        let (b, _) ← cmdBeacon (M.beaconEnv o) p.settings p.beacon args
        .ret { p with beacon := b }
      else if cmd = "exit" ∨ cmd = "quit" then .ret { p with cexit := (cmdExit M.H p.cexit args).1 }
      else .ret p

/-- `log.Fatal` or a panic in any goroutine ends the process (as in saratoga/saratoga.go:722-730). -/
def Program.end_ (p : Program) : Program := { p with net := { p.net with main := .ended } }

/-- Enter in the command window with this line in it, prompt included (sarwin/sarwin.go:575-607, 2497-2521).
Left out: what a command that ends the process did to the files before it ended. -/
def Program.enter (M : Machine) (o : Replies) (p : Program) (line : String) : Program :=
  match getLine (M.H.map Prod.fst) cmdHandlers line with
  | .ret (.started cmd args) =>
    match p.command M o cmd args with
    | .ret p' => p'
    | .fatal => p.end_
    | .panic => p.end_
  | .ret _ => p
  | .fatal => p.end_
  | .panic => p.end_

/-- What can happen: something on the network side, or a line is entered (saratoga/saratoga.go:605-732,
sarwin/sarwin.go:575-607). -/
inductive Event where
  | net (a : Action)
  | typed (line : String) (o : Replies)

/-- One step; `none` if it cannot happen. The process is ended by its own goroutines only
(saratoga/saratoga.go:605-732, sarwin/sarwin.go:2497-2521). -/
def Program.step (M : Machine) (p : Program) : Event → Option Program
  | .net .kill => none
  | .net a => (p.net.step M.S a).map fun w => { p with net := w }
  | .typed line o => if p.net.main = .ended then none else some (p.enter M o line)

/-- An execution (saratoga/saratoga.go:600-732). -/
def Program.run (M : Machine) (p : Program) : List Event → Option Program
  | [] => some p
  | e :: es => (p.step M e).bind fun p => p.run M es

end Saratoga
