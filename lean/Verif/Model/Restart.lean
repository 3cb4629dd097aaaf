import Verif.Model.Crowd
/-!
# Model of several running programs that may be ended and started again

As `Model/Crowd.lean`, and at any moment the program of a machine may be ended, by whatever means, also in the middle of a
command, and started again. Everything the program has in memory is gone (there is no file in which it keeps anything:
C154); the configuration file is read again; what is in the air stays there. Files may have been changed while no program
was running. The time between end and start is left out: what arrives then is lost, as the network may lose anything.
Simplified: a transfer command has either done nothing or all it does when the program is ended (`Model/Busy.lean`).
-/
namespace Saratoga

/-- What can happen: what can happen in `Model/Crowd.lean`; or the program of a machine is ended and started again, and
finds this configuration and these files (saratoga/saratoga.go:439-600). -/
inductive RestartEvent (N : Type) where
  | goes (e : CrowdEvent N)
  | restart (n : N) (c : Cliflags) (f : FS)

variable {N : Type} [DecidableEq N]

/-- The program of machine `n` is started again (saratoga/saratoga.go:439-606). -/
def Crowd.restart (w : Crowd N) (n : N) (c : Cliflags) (f : FS) : Crowd N :=
  { w.set n (Busy.init f c) with conns := fun m => if m = n then none else w.conns m }

/-- One step; `none` if it cannot happen (saratoga/saratoga.go:439-733). -/
def Crowd.again (P : Plant N) (w : Crowd N) : RestartEvent N → Option (Crowd N)
  | .goes e => w.step P e
  | .restart n c f => some (w.restart n c f)

/-- An execution (saratoga/saratoga.go:439-733, one per machine). -/
def Crowd.runAgain (P : Plant N) (w : Crowd N) : List (RestartEvent N) → Option (Crowd N)
  | [] => some w
  | e :: es => (w.again P e).bind fun w => w.runAgain P es

end Saratoga
