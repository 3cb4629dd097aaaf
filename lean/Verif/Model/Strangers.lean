import Verif.Model.Crowd
/-!
# Model of several running programs on a network with strangers

As `Model/Crowd.lean`, and at any moment a datagram that none of the programs has sent, with any bytes and any source
address, may arrive at a machine. Strangers see and do whatever they like; only what arrives from them matters here.
-/
namespace Saratoga

/-- What can happen: what can happen in `Model/Crowd.lean`; or a datagram of a stranger arrives at a machine
(saratoga/saratoga.go:166-424). -/
inductive OpenEvent (N : Type) where
  | goes (e : CrowdEvent N)
  | stranger (n : N) (d : Datagram)

variable {N : Type} [DecidableEq N]

/-- One step; `none` if it cannot happen. The listener reads a stranger's datagram as any other
(saratoga/saratoga.go:180). -/
def Crowd.openStep (P : Plant N) (w : Crowd N) : OpenEvent N → Option (Crowd N)
  | .goes e => w.step P e
  | .stranger n d => ((w.node n).step (P.machine n) (.net (.recv d))).map (w.set n)

/-- An execution (saratoga/saratoga.go:439-733, one per machine). -/
def Crowd.openRun (P : Plant N) (w : Crowd N) : List (OpenEvent N) → Option (Crowd N)
  | [] => some w
  | e :: es => (w.openStep P e).bind fun w => w.openRun P es

end Saratoga
