import Verif.Model.Receive
/-!
# Model of the lines on their way to the windows

`Model/Receive.lean` says which lines the listeners and the main loop print. Printing hands a function to `Update`
(sarwin/sarwin.go:304-348), which starts a goroutine; the loop of the windows runs the functions in any order, one at a
time. Ctrl-C leaves that loop (saratoga/saratoga.go:723-740): from then on nothing is shown, although the process still
runs until the main loop takes notice. The lines of commands are left out.
-/
namespace Saratoga

/-- The program with the lines printed, the lines on their way, the lines in the windows, and whether the loop of the
windows was left (saratoga/saratoga.go:605-740, sarwin/sarwin.go:304-348). -/
structure Watch where
  spoken : Spoken
  pending : List Said
  shown : List Said
  left : Bool

/-- What can happen (saratoga/saratoga.go:605-740, sarwin/sarwin.go:304-348). -/
inductive WatchEvent where
  | act (a : Action)
  | show (i : Nat)
  | leave

/-- At the first `select` (saratoga/saratoga.go:600-605). -/
def Watch.init (fs : FS) : Watch := ⟨.init fs, [], [], false⟩

/-- One step; `none` if it cannot happen. The end of the windows waits in `errflag` (saratoga/saratoga.go:725-729). -/
def Watch.step (S : Setup) (v : Watch) : WatchEvent → Option Watch
  | .act .userQuit =>
    if v.left then (v.spoken.step S .userQuit).map fun k => { v with spoken := k } else none
  | .act a =>
    (v.spoken.step S a).map fun k => { v with spoken := k, pending := v.pending ++ v.spoken.world.says S a }
  | .show i =>
    if v.spoken.world.main = .ended ∨ v.left then none
    else
      match v.pending[i]? with
      | none => none
      | some l => some { v with pending := v.pending.eraseIdx i, shown := v.shown ++ [l] }
  | .leave => if v.spoken.world.main = .ended ∨ v.left then none else some { v with left := true }

/-- An execution (saratoga/saratoga.go:605-740, sarwin/sarwin.go:304-348). -/
def Watch.run (S : Setup) (v : Watch) : List WatchEvent → Option Watch
  | [] => some v
  | e :: es => (v.step S e).bind fun v => v.run S es

end Saratoga
