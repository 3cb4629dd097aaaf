import Verif.Model.Strangers
import Verif.Spec.Crowd
/-! # Specification vocabulary for networks with strangers -/
namespace Saratoga

variable {N : Type} [DecidableEq N]

/-- The events lead to this state from the start of all programs. -/
def OpenLeads (P : Plant N) (fs : N → FS) (c : N → Cliflags) (es : List (OpenEvent N)) (w : Crowd N) : Prop :=
  (Crowd.init fs c).openRun P es = some w

/-- What happens without strangers. -/
def ownEvents (es : List (OpenEvent N)) : List (CrowdEvent N) :=
  es.filterMap fun
    | .goes e => some e
    | .stranger _ _ => none

/-- What strangers have sent to a machine, in order. -/
def strangersAt (n : N) (es : List (OpenEvent N)) : List Datagram :=
  es.filterMap fun
    | .stranger m d => if m = n then some d else none
    | .goes _ => none

/-- What users and their commands do: lines entered, commands that get on. -/
def CrowdEvent.byUsers : CrowdEvent N → Bool
  | .typed _ _ => true
  | .begin _ _ _ _ => true
  | .act _ => true
  | .arrives _ _ _ _ => false
  | .inside _ _ => false

/-- What the users of one machine have: the settings, the transfers and the commands under way, and what is done. -/
structure SameUser (a b : Busy) : Prop where
  commands : SameCommands a.prog b.prog
  queue : a.queue = b.queue
  holder : a.holder = b.holder
  trace : a.trace = b.trace

end Saratoga
