import Verif.Model.Wild
import Verif.Spec.Restart
import Verif.Spec.StrangersForever
/-! # Specification vocabulary for networks with restarts and strangers -/
namespace Saratoga

variable {N : Type} [DecidableEq N]

/-- The events lead to this state from the first start of all programs. -/
def WildLeads (P : Plant N) (fs : N → FS) (c : N → Cliflags) (es : List (WildEvent N)) (w : Crowd N) : Prop :=
  (Crowd.init fs c).wildRun P es = some w

/-- How an event is called at the machines: a datagram of a stranger is one that is received. -/
def WildEvent.plain : WildEvent N → RestartEvent N
  | .goes e => e
  | .stranger n d => .goes (.inside n (.recv d))

/-- What has happened without strangers and restarts. -/
def wildOwn (es : List (WildEvent N)) : List (CrowdEvent N) :=
  es.filterMap fun
    | .goes (.goes e) => some e
    | _ => none

/-- What strangers have sent to a machine, in order. -/
def wildStrangersAt (n : N) (es : List (WildEvent N)) : List Datagram :=
  es.filterMap fun
    | .stranger m d => if m = n then some d else none
    | .goes _ => none

/-- The events in the network of the runs, if machine `n` has been started again `k n` times. -/
def WildEvent.ofRun (k : N → Nat) : WildEvent N → OpenEvent (N × Nat)
  | .goes e => .goes (e.ofRun k)
  | .stranger n d => .stranger (n, k n) d

/-- The events in that network, from there on. -/
def ofWildRuns (k : N → Nat) : List (WildEvent N) → List (OpenEvent (N × Nat))
  | [] => []
  | e :: es => e.ofRun k :: ofWildRuns (e.plain.counts k) es

/-- `since` is what has happened since the program of machine `n` was started for the last time, with configuration `c0`. -/
def LastStart (c : N → Cliflags) (n : N) (es since : List (WildEvent N)) (c0 : Cliflags) : Prop :=
  (∀ e ∈ since, ∀ c f, e ≠ .goes (.restart n c f)) ∧
  ((es = since ∧ c0 = c n) ∨ ∃ before f, es = before ++ .goes (.restart n c0 f) :: since)

/-- The states `at_ 0, at_ 1, …` and what happens between them, from the first start of all programs on. -/
structure WildForever (P : Plant N) (fs : N → FS) (c : N → Cliflags) (at_ : Nat → Crowd N) (does : Nat → WildEvent N) : Prop
    where
  start : at_ 0 = Crowd.init fs c
  goes : ∀ i, (at_ i).wildStep P (does i) = some (at_ (i + 1))

/-- What the others see of an event. -/
def WildEvent.seen (e : WildEvent N) : CrowdEvent N := e.plain.seen

end Saratoga
