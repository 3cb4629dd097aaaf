import Verif.Model.BeaconCmd
/-!
# Beacon commands at the same time

Every command runs in a goroutine of its own (sarwin/sarwin.go:2517) and `cmdBeacon` holds `Climu` from start to end
(sarwin/sarwin.go:1279-1280), also while it sends and sleeps. What a call does, act by act, is known once it has the
lock: all it looks at is protected by the lock or is the outside world during the call.
-/
namespace Saratoga

/-- Where a goroutine is inside `cmdBeacon`: not in it, or holding the lock with these acts to come
(sarwin/sarwin.go:1276-1366). -/
inductive BeaconPc where
  | out
  | acting (rest : List BeaconAct)
deriving DecidableEq, Repr

/-- Shared memory, the goroutines, and what happened so far, oldest first (sarwin/sarwin.go:1264-1280). -/
structure BeaconWorld where
  /-- `clibeacon` (sarwin/sarwin.go:1272) -/
  state : BeaconState
  /-- `Climu` (sarflags/sarflags.go:267): who holds it -/
  owner : Option Nat
  pc : Nat → BeaconPc
  /-- the calls that got the lock -/
  calls : List (BeaconEnv × Cliflags × List String)
  /-- what they did, act by act -/
  trace : List BeaconAct

/-- At the start: no beacons yet, the lock is free, nobody is in the command (sarwin/sarwin.go:1264-1273). -/
def BeaconWorld.init : BeaconWorld := ⟨.init, none, fun _ => .out, [], []⟩

/-- Whose turn it is, with its next call: the outside world during the call, the settings, the words
(sarwin/sarwin.go:1276, 2517). -/
structure BeaconTurn where
  k : Nat
  env : BeaconEnv
  settings : Cliflags
  args : List String

/-- The next action of a goroutine: taking the lock, one act, or the deferred unlock. One that waits for the lock does
nothing with its turn (sarwin/sarwin.go:1279-1366). -/
def BeaconWorld.step (w : BeaconWorld) (t : BeaconTurn) : Out BeaconWorld :=
  let goto (w : BeaconWorld) (p : BeaconPc) : BeaconWorld := { w with pc := fun j => if j = t.k then p else w.pc j }
  match w.pc t.k with
  | .out =>
    match w.owner with
    | some _ => .ret w
    | none => do
      let (b, acts) ← cmdBeacon t.env t.settings w.state t.args
      pure (goto { w with
        state := b, owner := some t.k, calls := w.calls ++ [(t.env, t.settings, t.args)] } (.acting acts))
  | .acting (a :: rest) => .ret (goto { w with trace := w.trace ++ [a] } (.acting rest))
  | .acting [] => .ret (goto { w with owner := none } .out)

/-- A schedule: the goroutines in the order they act (sarwin/sarwin.go:2517). -/
def BeaconWorld.run (w : BeaconWorld) : List BeaconTurn → Out BeaconWorld
  | [] => .ret w
  | t :: ts => (w.step t).bind fun w => w.run ts

end Saratoga
