import Verif.Model.Go
/-!
# The mutexes of the program and who takes them

A goroutine is what it still does with mutexes: a list of `Lock` and `Unlock` calls. What it does between them is left out
and takes no time here; that it comes to an end is assumed (`sendbeacons` under `Climu` does, C85; opening a pipe that
nobody writes to, under `Trmu`, does not). A deferred `Unlock` stands where the function returns. The local mutex of `Setglobal`
(sarflags/sarflags.go:770) is a new one in each call and is left out, and so is the commented out code of
saratoga/saratoga.go:88-158. Printing (sarwin/sarwin.go:304-352) takes no lock in the goroutine that prints, but
`ViewMu` later in that of the interface.
-/
namespace Saratoga

/-- The mutexes: `ViewMu` (sarwin/sarwin.go:94), `smu` (sarwin/sarwin.go:859), `Trmu` of `sarwin` (sarwin/sarwin.go:894),
`Climu` (sarflags/sarflags.go:267), `pmu` (beacon/beacon.go:339), `Trmu` of `trans` (trans/trans.go:42). -/
inductive Mutex where
  | view
  | session
  | transfers
  | settings
  | peers
  | received
deriving DecidableEq, Repr

/-- A call of `Lock` or `Unlock` (sarwin/sarwin.go:307-308 and the other places). -/
inductive LockOp where
  | lock (m : Mutex)
  | unlock (m : Mutex)
deriving DecidableEq, Repr

/-- A function that holds a mutex from one place to its end (sarwin/sarwin.go:1372-1374 and others). -/
def holding (m : Mutex) (inside : List LockOp) : List LockOp := .lock m :: inside ++ [.unlock m]

/-- `newsession` (sarwin/sarwin.go:736-746). -/
def newsessionLocks : List (List LockOp) := [holding .session []]

/-- `Remove` of a transfer (sarwin/sarwin.go:1216-1230); `Lookup` takes no lock (sarwin/sarwin.go:898-908). -/
def removeLocks : List (List LockOp) := [holding .transfers []]

/-- `NewInitiator` (sarwin/sarwin.go:921-986), by path: it refuses, it removes a transfer and refuses, or it makes a transfer,
with a new session number. -/
def newInitiatorLocks : List (List LockOp) :=
  [] :: removeLocks ++ newsessionLocks.map fun inside => holding .transfers inside

/-- `NewResponder` (sarwin/sarwin.go:990-1086). -/
def newResponderLocks : List (List LockOp) := [[], holding .transfers []]

/-- `Change` of a transfer (sarwin/sarwin.go:1191-1213). -/
def changeLocks : List (List LockOp) := [holding .transfers []]

/-- The commands that change settings, and `beacon` (sarwin/sarwin.go:1279, 1373, 1442, 1547, 1698, 1723, 2010, 2110, 2140,
2170, 2314, 2358, 2409). -/
def settingLocks : List (List LockOp) := [holding .settings []]

/-- `ReadConfig` (sarflags/sarflags.go:322-566): without a file, or one that is no JSON, it returns before. -/
def readConfigLocks : List (List LockOp) := [[], holding .settings []]

/-- `NewPeer` (beacon/beacon.go:344-385); with an address it locks in either case. -/
def newPeerLocks : List (List LockOp) := [[], holding .peers []]

/-- `AddRxTran` (trans/trans.go:50-233): a request that is refused takes no lock. -/
def addRxTranLocks : List (List LockOp) := [[], holding .received []]

/-- A text reaching a window (sarwin/sarwin.go:304-348). -/
def printLocks : List (List LockOp) := [holding .view []]

/-- Every path through a function that takes a mutex (sarwin/sarwin.go:304-2410, sarflags/sarflags.go:322-566,
beacon/beacon.go:344-385, trans/trans.go:50-233). -/
def lockPaths : List (List LockOp) :=
  newsessionLocks ++ removeLocks ++ newInitiatorLocks ++ newResponderLocks ++ changeLocks ++ settingLocks ++
    readConfigLocks ++ newPeerLocks ++ addRxTranLocks ++ printLocks

/-- The mutexes, what each goroutine has still to do with them, and what happened, oldest first (`sync.Mutex`, as used in
sarwin/sarwin.go:94, 859, 894 and the other places). -/
structure MutexWorld where
  holder : Mutex → Option Nat
  todo : List (List LockOp)
  log : List (Nat × LockOp)

/-- All mutexes are free (sarwin/sarwin.go:94, 859, 894: a mutex that is not set is free). -/
def MutexWorld.init (todo : List (List LockOp)) : MutexWorld := ⟨fun _ => none, todo, []⟩

/-- Goroutine `k` gets on (`sync.Mutex`; sarwin/sarwin.go:307-308 and the other places): `none` if it waits or has
nothing to do. Whoever calls it, `Unlock` of a mutex that is free ends the process. -/
def MutexWorld.step (w : MutexWorld) (k : Nat) : Option (Out MutexWorld) :=
  match w.todo[k]? with
  | none => none
  | some [] => none
  | some (.lock m :: rest) =>
    match w.holder m with
    | some _ => none
    | none => some (.ret ⟨fun x => if x = m then some k else w.holder x, w.todo.set k rest, w.log ++ [(k, .lock m)]⟩)
  | some (.unlock m :: rest) =>
    match w.holder m with
    | none => some .fatal
    | some _ => some (.ret ⟨fun x => if x = m then none else w.holder x, w.todo.set k rest, w.log ++ [(k, .unlock m)]⟩)

end Saratoga
