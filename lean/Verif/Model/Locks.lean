import Verif.Model.Settings
/-!
# Settings commands and copies of the settings at the same time

Every command runs in a goroutine of its own (`go fn(g, vals)`, sarwin/sarwin.go:2517). The settings commands hold
`Climu` from start to end (sarwin/sarwin.go:1373, 1442, 1547, 1698, 1723, 2010, 2110, 2140, 2170, 2314, 2358, 2409,
each with a deferred unlock). `CopyCliflags` (sarflags/sarflags.go:630-657), which `NewInitiator` and `NewResponder`
call (sarwin/sarwin.go:978, 1075) in the goroutine of a transfer command and in the main loop, takes no lock: its loop
over the flag map runs at the same time.

A command's part between lock and unlock is two actions: it reads all it looks at, and it stores all it changes. The
real one touches fewer words at a time. The runtime marks a map while it is written to and ends the process if the map
is written to or iterated over by another goroutine meanwhile; it does not promise to notice, the model always does.
-/
namespace Saratoga

/-- Where a goroutine is inside a settings command (sarwin/sarwin.go:1372-1403 and the other settings commands). -/
inductive SetPc where
  /-- not in a command -/
  | out
  /-- `Climu` is held -/
  | locked (args : List String)
  /-- the settings have been looked at and are being changed -/
  | changing (args : List String) (seen : Cliflags)
  /-- changed; the deferred unlock is next -/
  | changed
deriving DecidableEq, Repr

/-- Where a goroutine is inside the loop of `CopyCliflags` (sarflags/sarflags.go:653-655). -/
inductive CopyPc where
  /-- not in the loop -/
  | out
  /-- the keys still to come, in the order the runtime picked, and the copy so far -/
  | reading (todo : List String) (got : List (String × String))
deriving DecidableEq, Repr

/-- Shared memory, the goroutines, and what happened so far, oldest first (sarflags/sarflags.go:271-293). -/
structure LockWorld where
  /-- `sarflags.Cliflag` -/
  settings : Cliflags
  /-- `Climu` (sarflags/sarflags.go:267): who holds it -/
  owner : Option Nat
  /-- who is writing to the map `Global` -/
  writers : List Nat
  call : Nat → SetPc
  copying : Nat → CopyPc
  /-- who got the lock, with the words of the command -/
  entered : List (Nat × List String)
  /-- the commands done, with the lines they showed -/
  log : List (Nat × List String × List Shown)
  /-- the copies made -/
  copies : List (List (String × String))

/-- A moment at which nobody is in a command or in a copy (sarflags/sarflags.go:271-293). -/
def LockWorld.idle (c : Cliflags) : LockWorld := ⟨c, none, [], fun _ => .out, fun _ => .out, [], [], []⟩

/-- Command goroutine `k` is now at `p` (the commands, started at sarwin/sarwin.go:2517). -/
def LockWorld.goto (w : LockWorld) (k : Nat) (p : SetPc) : LockWorld :=
  { w with call := fun j => if j = k then p else w.call j }

/-- Copying goroutine `k` is now at `p` (`CopyCliflags`, sarflags/sarflags.go:630-657). -/
def LockWorld.gotoCopy (w : LockWorld) (k : Nat) (p : CopyPc) : LockWorld :=
  { w with copying := fun j => if j = k then p else w.copying j }

/-- Does the command assign to an entry of `Global`? Which entries a handler assigns to does not depend on those there
are, and an assignment to an empty map leaves an entry (sarwin/sarwin.go:1372-2434). -/
def writesMap (H : CmdTable) (c : Cliflags) (args : List String) : Bool :=
  (settingCmd H { c with global := [] } args).1.global ≠ []

/-- Whose turn it is: a goroutine for commands, with the words of its next command, or one for copies, with the order in
which its next loop meets the keys (sarwin/sarwin.go:2517, sarflags/sarflags.go:630-657). -/
inductive LockAct where
  | command (k : Nat) (args : List String)
  | copy (k : Nat) (order : List String)
deriving DecidableEq, Repr

/-- The next action of a goroutine. One that waits for the lock does nothing with its turn (sarwin/sarwin.go:1372-2434,
sarflags/sarflags.go:630-657). -/
def LockWorld.step (H : CmdTable) (w : LockWorld) : LockAct → Out LockWorld
  | .command k args =>
    match w.call k with
    | .out =>
      match w.owner with
      | some _ => .ret w
      | none => .ret ({ w with owner := some k, entered := w.entered ++ [(k, args)] }.goto k (.locked args))
    | .locked args =>
      if writesMap H w.settings args then
        if w.writers ≠ [] then .panic
        else .ret ({ w with writers := k :: w.writers }.goto k (.changing args w.settings))
      else .ret (w.goto k (.changing args w.settings))
    | .changing args seen =>
      let r := settingCmd H seen args
      .ret ({ w with settings := r.1, writers := w.writers.erase k, log := w.log ++ [(k, args, r.2)] }.goto k .changed)
    | .changed => .ret ({ w with owner := none }.goto k .out)
  | .copy k order =>
    match w.copying k with
    | .out => .ret (w.gotoCopy k (.reading order []))
    | .reading [] got => .ret ({ w with copies := w.copies ++ [got] }.gotoCopy k .out)
    | .reading (g :: todo) got =>
      if w.writers ≠ [] then .panic
      else .ret (w.gotoCopy k (.reading todo (got ++ [(g, w.settings.flag g)])))

/-- A schedule: the goroutines in the order they act (sarwin/sarwin.go:2517, sarflags/sarflags.go:630-657). -/
def LockWorld.run (H : CmdTable) (w : LockWorld) : List LockAct → Out LockWorld
  | [] => .ret w
  | a :: as => (w.step H a).bind fun w => w.run H as

end Saratoga
