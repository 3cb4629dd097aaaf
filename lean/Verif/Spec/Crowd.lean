import Verif.Model.Crowd
import Verif.Spec.Busy
/-! # Specification vocabulary for several programs whose commands run at the same time -/
namespace Saratoga

variable {N : Type} [DecidableEq N]

/-- The events lead to this state from the start of all programs. -/
def CrowdLeads (P : Plant N) (fs : N → FS) (c : N → Cliflags) (es : List (CrowdEvent N)) (w : Crowd N) : Prop :=
  (Crowd.init fs c).run P es = some w

/-- The lines entered at one machine, in order. -/
def enteredAt (n : N) (es : List (CrowdEvent N)) : List String :=
  es.filterMap fun
    | .typed m line => if m = n then some line else none
    | _ => none

/-- What happens on the network side of a machine, other than datagrams. -/
def insideAt (n : N) (es : List (CrowdEvent N)) : List Action :=
  es.filterMap fun
    | .inside m a => if m = n then some a else none
    | _ => none

/-- The same for programs with one command after another. -/
def insideOf (n : N) (es : List (NetEvent N)) : List Action :=
  es.filterMap fun
    | .inside m a => if m = n then some a else none
    | _ => none

/-- The packets a machine has sent, in order. -/
def sentBy (n : N) (air : List (Packet N)) : List (Packet N) := air.filter fun d => decide (d.sender = n)

/-- The packets that the beacon command under way at a machine has still to send, in order. -/
def Crowd.due (w : Crowd N) (n : N) : List (Packet N) :=
  match w.conns n with
  | none => []
  | some (source, outside) => (framesOf ((w.node n).holder.getD [])).map fun f =>
      ⟨source f.1, f.1, f.2, n, (w.node n).prog.settings, outside⟩

end Saratoga
