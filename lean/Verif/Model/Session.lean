/-!
# Model of `newsession` (sarwin/sarwin.go:736-746)

Callers run at the same time in any order. One action of a caller is one access to shared memory: taking
the mutex `smu`, the test of `sessionid`, the read and the write of `sessionid++`, the read of
`return sessionid`, and the deferred unlock. Each caller may call again as often as it likes.
-/
namespace Saratoga

/-- Where a caller is inside `newsession` (sarwin/sarwin.go:736-746). -/
inductive SessPc where
  /-- not in a call -/
  | out
  /-- line 737 done: the mutex is held -/
  | locked
  /-- line 740 done, with the result of the test -/
  | tested (isZero : Bool)
  /-- line 743: the old value has been read -/
  | incrementing (old : BitVec 32)
  /-- line 741 or 743 done -/
  | stored
  /-- line 745: the result has been read, the deferred unlock is next -/
  | leaving (result : BitVec 32)
deriving DecidableEq, Repr

/-- Shared memory, the callers, and the results handed out so far with their receivers, oldest first
(sarwin/sarwin.go:736-746, 859-860). -/
structure SessWorld where
  /-- `sessionid` (sarwin/sarwin.go:859) -/
  sessionid : BitVec 32
  /-- `smu` (sarwin/sarwin.go:858): who holds it -/
  owner : Option Nat
  pc : Nat → SessPc
  given : List (Nat × BitVec 32)

/-- The program start (sarwin/sarwin.go:859-860). -/
def SessWorld.init : SessWorld := ⟨0, none, fun _ => .out, []⟩

/-- Caller `k` is now at `p` (sarwin/sarwin.go:736-746). -/
def SessWorld.goto (w : SessWorld) (k : Nat) (p : SessPc) : SessWorld :=
  { w with pc := fun j => if j = k then p else w.pc j }

/-- The next action of caller `k` in a process with number `pid` (`uint32(os.Getpid())`); `none` when it
has to wait for the mutex (sarwin/sarwin.go:736-746). -/
def SessWorld.step (pid : BitVec 32) (w : SessWorld) (k : Nat) : Option SessWorld :=
  match w.pc k with
  | .out =>
    match w.owner with
    | some _ => none
    | none => some ({ w with owner := some k }.goto k .locked)
  | .locked => some (w.goto k (.tested (w.sessionid == 0)))
  | .tested true => some ({ w with sessionid := pid + 1 }.goto k .stored)
  | .tested false => some (w.goto k (.incrementing w.sessionid))
  | .incrementing old => some ({ w with sessionid := old + 1 }.goto k .stored)
  | .stored => some (w.goto k (.leaving w.sessionid))
  | .leaving r => some ({ w with owner := none, given := w.given ++ [(k, r)] }.goto k .out)

/-- A schedule: the callers in the order they act (sarwin/sarwin.go:736-746). -/
def SessWorld.run (pid : BitVec 32) (w : SessWorld) : List Nat → Option SessWorld
  | [] => some w
  | k :: ks => (w.step pid k).bind fun w => w.run pid ks

end Saratoga
