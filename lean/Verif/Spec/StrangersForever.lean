import Verif.Spec.Strangers
import Verif.Spec.CrowdForever
/-! # Specification vocabulary for networks with strangers that run for ever -/
namespace Saratoga

variable {N : Type} [DecidableEq N]

/-- The states `at_ 0, at_ 1, …` and what happens between them, from the start of all programs on. -/
structure OpenForever (P : Plant N) (fs : N → FS) (c : N → Cliflags) (at_ : Nat → Crowd N) (does : Nat → OpenEvent N) : Prop
    where
  start : at_ 0 = Crowd.init fs c
  goes : ∀ i, (at_ i).openStep P (does i) = some (at_ (i + 1))

/-- How an event is called at the machines: a datagram of a stranger is one that is received. -/
def OpenEvent.seen : OpenEvent N → CrowdEvent N
  | .goes e => e
  | .stranger n d => .inside n (.recv d)

end Saratoga
