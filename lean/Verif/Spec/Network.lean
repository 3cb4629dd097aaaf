import Verif.Model.Network
import Verif.Spec.BeaconCmd
import Verif.Spec.Peers
import Verif.Spec.Program
/-! # Specification vocabulary for several programs -/
namespace Saratoga

variable {N : Type} [DecidableEq N]

/-- The events lead to this state from the start of all programs. -/
def NetLeads (P : Plant N) (fs : N → FS) (c : N → Cliflags) (es : List (NetEvent N)) (w : Network N) : Prop :=
  (Network.init fs c).run P es = some w

/-- The free kilobytes a node tells with these settings while its disk answers so. -/
def toldFree (gl : List (String × String)) (disk : DiskEnv) : BitVec 64 :=
  if assoc "freespace" gl = some "yes" then
    match disk.statfs with
    | .ok (bsize, bavail) => bsize * bavail / 1024#64
    | .error _ => 0
  else 0

/-- The entry of a peer shows what the sender of the packet was when it sent it: the name of its connection, its free
space and its settings. -/
structure Packet.Tells (d : Packet N) (p : Peer) : Prop where
  eid : p.eid = d.outside.eid d.dest
  descriptor : assoc "descriptor" d.settings.global = some p.maxdesc
  rxwilling : assoc "rxwilling" d.settings.global = some p.canrx
  txwilling : assoc "txwilling" d.settings.global = some p.cantx
  freespace : p.freespace = toldFree d.settings.global d.outside.disk

/-- The lines entered at one node, in order. -/
def linesAt (n : N) : List (NetEvent N) → List (String × Replies)
  | [] => []
  | .typed m line o _ :: es => if m = n then (line, o) :: linesAt n es else linesAt n es
  | _ :: es => linesAt n es

/-- The lines among the events of one program, in order. -/
def linesOf : List Event → List (String × Replies)
  | [] => []
  | .typed line o :: es => (line, o) :: linesOf es
  | _ :: es => linesOf es

/-- The events of one node: lines entered at it, datagrams of the air it hears, and what happens inside it. -/
def EventAt (P : Plant N) (es : List (NetEvent N)) (w : Network N) (n : N) : Event → Prop
  | .typed line o => ∃ source, .typed n line o source ∈ es
  | .net (.recv d) => ∃ x ∈ w.air, P.hears n x.dest = true ∧ d.bytes = x.bytes ∧ d.source = x.source
  | .net a => .inside n a ∈ es

end Saratoga
