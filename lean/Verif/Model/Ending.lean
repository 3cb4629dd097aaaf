import Verif.Model.Program
import Verif.Model.Startup
/-!
# Model of how the process ends

`Model/Program.lean` and `Model/Startup.lean` tell when the process ends; here it is told how. `main` calls `g.Close()`,
which gives the terminal back, in a `defer` (saratoga/saratoga.go:497). Go runs it when `main` returns, and when the
goroutine of `main` panics; not when another goroutine panics, and not at `log.Fatal`, which is `os.Exit(1)`. Listeners,
commands, and the key handlers of the interface run in goroutines of their own (saratoga/saratoga.go:585, 593, 600,
sarwin/sarwin.go:2517). That a runtime finds maps used at the same time, or is out of memory, is left out.
-/
namespace Saratoga

/-- How a process ends: `main` returns, `log.Fatal`, a panic in the goroutine of `main`, a panic in another
(saratoga/saratoga.go:439-732). -/
inductive Ending where
  | back
  | fatal
  | mainPanic
  | otherPanic
deriving DecidableEq, Repr

/-- The exit status the shell sees: 0 for a return, 1 for `log.Fatal`, 2 for a panic (library, used at
saratoga/saratoga.go:439-732). -/
def Ending.status : Ending → Nat
  | .back => 0
  | .fatal => 1
  | .mainPanic => 2
  | .otherPanic => 2

/-- The deferred `g.Close()` is run (saratoga/saratoga.go:497). -/
def Ending.closes : Ending → Bool
  | .back => true
  | .fatal => false
  | .mainPanic => true
  | .otherPanic => false

/-- How the process ends if this is done in the goroutine of `main`, or in another (as in saratoga/saratoga.go:722-730). -/
def wayOut {α : Type} (inMain : Bool) : Out α → Option Ending
  | .ret _ => none
  | .fatal => some .fatal
  | .panic => some (if inMain then .mainPanic else .otherPanic)

/-- How `main` ends before its loop, and whether the terminal was the program's by then, that is behind
`gocui.NewGui` (saratoga/saratoga.go:439-592); `none` if it gets to the loop. -/
def startEnding (h : Host) (args : List String) : Option (Bool × Ending) :=
  match args with
  | [_, file, name] =>
    match h.config file with
    | .fatal => some (false, .fatal)
    | .panic => some (false, .mainPanic)
    | .ret (.error _) => some (false, .back)
    | .ret (.ok c) =>
      match h.fs.chdir c.sardir with
      | (_, some _) => some (false, .fatal)
      | (fs, none) =>
        match fs.stat c.sardir with
        | none => some (false, .fatal)
        | some _ =>
          match h.iface name with
          | none => some (false, .fatal)
          | some _ =>
            if h.gui = false then some (false, .fatal)
            else if h.interfaces = false then some (true, .fatal)
            else if h.keys = false then some (true, .mainPanic)
            else
              match wayOut true (openGroup h .v6 name c.v6multicast c.port) with
              | some e => some (true, e)
              | none => (wayOut true (openGroup h .v4 name c.v4multicast c.port)).map fun e => (true, e)
  | _ => some (false, .back)

/-- What the main loop does with a frame (saratoga/saratoga.go:607-671). -/
def World.rxEnding (S : Setup) (w : World) (clock : GoTime) (source : UDPAddr) : Frame → Option Ending
  | .beacon b => wayOut true (do b.shortPrint S.T; newPeer S.T S.ipText clock w.peers b (some source))
  | .data d => wayOut true (d.shortPrint S.T)
  | .metadata m => wayOut true (m.shortPrint S.T)
  | .request r => wayOut true (addRxTran S.T clock S.sardir w.fs w.transfers r source)
  | .status s => wayOut true (s.shortPrint S.T)

/-- How the process ends in this step, if it does: the network side (saratoga/saratoga.go:166-424, 605-732). -/
def World.ending (S : Setup) (w : World) : Action → Option Ending
  | .recv d => wayOut false (listenFrame S.T d.clock S.mtu d.bytes)
  | .takeRx fam clock =>
    match w.listener fam with
    | .sendRx f a => w.rxEnding S clock a f
    | _ => none
  | .takeTx fam =>
    match w.listener fam with
    | .sendTx s _ => wayOut true (s.shortPrint S.T)
    | _ => none
  | .takeQuit _ => some .fatal
  | .userQuit => some .fatal
  | _ => none

/-- How the process ends in this step, if it does (saratoga/saratoga.go:605-732, sarwin/sarwin.go:575-607, 2497-2521). -/
def Program.ending (M : Machine) (p : Program) : Event → Option Ending
  | .net a => p.net.ending M.S a
  | .typed line o =>
    match getLine (M.H.map Prod.fst) cmdHandlers line with
    | .ret (.started cmd args) => wayOut false (p.command M o cmd args)
    | .ret _ => none
    | .fatal => some .fatal
    | .panic => some .otherPanic

end Saratoga
