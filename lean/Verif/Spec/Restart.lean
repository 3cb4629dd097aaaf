import Verif.Model.Restart
import Verif.Spec.CrowdForever
/-! # Specification vocabulary for programs that are started again -/
namespace Saratoga

variable {N : Type} [DecidableEq N]

/-- The events lead to this state from the first start of all programs. -/
def RestartLeads (P : Plant N) (fs : N → FS) (c : N → Cliflags) (es : List (RestartEvent N)) (w : Crowd N) : Prop :=
  (Crowd.init fs c).runAgain P es = some w

/-- How often each machine has been started again, if it was `k` times before `e`. -/
def RestartEvent.counts (e : RestartEvent N) (k : N → Nat) : N → Nat :=
  match e with
  | .goes _ => k
  | .restart n _ _ => fun m => if m = n then k m + 1 else k m

/-- How often each machine is started again. -/
def restarts : List (RestartEvent N) → N → Nat
  | [] => fun _ => 0
  | e :: es => fun n => e.counts (fun _ => 0) n + restarts es n

/-- A network in which every run of a program is a machine of its own: `(n, k)` is machine `n` after its `k`-th restart. -/
def Plant.runs (P : Plant N) : Plant (N × Nat) := ⟨fun x => P.machine x.1, fun x => P.hears x.1⟩

/-- An event in that network, if machine `n` has been started again `k n` times. -/
def CrowdEvent.ofRun (k : N → Nat) : CrowdEvent N → CrowdEvent (N × Nat)
  | .typed n line => .typed (n, k n) line
  | .begin n i o source => .begin (n, k n) i o source
  | .act n => .act (n, k n)
  | .arrives n i fam clock => .arrives (n, k n) i fam clock
  | .inside n a => .inside (n, k n) a

/-- A restart is there only that the next run finds the files. -/
def RestartEvent.ofRun (k : N → Nat) : RestartEvent N → CrowdEvent (N × Nat)
  | .goes e => e.ofRun k
  | .restart n _ f => .inside (n, k n + 1) (.files f)

/-- The events in that network. -/
def ofRuns (k : N → Nat) : List (RestartEvent N) → List (CrowdEvent (N × Nat))
  | [] => []
  | e :: es => e.ofRun k :: ofRuns (e.counts k) es

/-- A packet of that network as one of the machines. -/
def Packet.home (d : Packet (N × Nat)) : Packet N := ⟨d.source, d.dest, d.bytes, d.sender.1, d.settings, d.outside⟩

/-- The states `at_ 0, at_ 1, …` and what happens between them, from the first start of all programs on. -/
structure RestartForever (P : Plant N) (fs : N → FS) (c : N → Cliflags) (at_ : Nat → Crowd N) (does : Nat → RestartEvent N) :
    Prop where
  start : at_ 0 = Crowd.init fs c
  goes : ∀ i, (at_ i).again P (does i) = some (at_ (i + 1))

/-- What the others see of an event: a restart as a change of the files. -/
def RestartEvent.seen : RestartEvent N → CrowdEvent N
  | .goes e => e
  | .restart n _ f => .inside n (.files f)

/-- How often each machine is started again before time `i`. -/
def restartsBy (does : Nat → RestartEvent N) : Nat → N → Nat
  | 0 => fun _ => 0
  | i + 1 => (does i).counts (restartsBy does i)

end Saratoga
