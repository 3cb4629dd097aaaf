import Verif.Model.Restart
import Verif.Model.Strangers
/-!
# Model of several running programs with restarts and strangers

As `Model/Restart.lean`, and at any moment a datagram of a stranger may arrive at a machine, as in `Model/Strangers.lean`.
-/
namespace Saratoga

/-- What can happen: what can happen in `Model/Restart.lean`; or a datagram of a stranger arrives at a machine
(saratoga/saratoga.go:166-424). -/
inductive WildEvent (N : Type) where
  | goes (e : RestartEvent N)
  | stranger (n : N) (d : Datagram)

variable {N : Type} [DecidableEq N]

/-- One step; `none` if it cannot happen. The listener reads a stranger's datagram as any other
(saratoga/saratoga.go:180). -/
def Crowd.wildStep (P : Plant N) (w : Crowd N) : WildEvent N → Option (Crowd N)
  | .goes e => w.again P e
  | .stranger n d => ((w.node n).step (P.machine n) (.net (.recv d))).map (w.set n)

/-- An execution (saratoga/saratoga.go:439-733, one per machine). -/
def Crowd.wildRun (P : Plant N) (w : Crowd N) : List (WildEvent N) → Option (Crowd N)
  | [] => some w
  | e :: es => (w.wildStep P e).bind fun w => w.wildRun P es

end Saratoga
