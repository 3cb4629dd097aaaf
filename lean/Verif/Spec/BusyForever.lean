import Verif.Spec.Busy
/-! # Specification vocabulary for executions with commands at the same time that go on for ever -/
namespace Saratoga

/-- The states `at_ 0, at_ 1, …` and what happens between them, from program start on. -/
structure BusyForever (M : Machine) (fs : FS) (c : Cliflags) (at_ : Nat → Busy) (does : Nat → BusyEvent) : Prop where
  start : at_ 0 = Busy.init fs c
  goes : ∀ i, (at_ i).step M (does i) = some (at_ (i + 1))

/-- Where among those that wait the goroutine at place `p` is afterwards; `none` if it has begun. -/
def BusyEvent.place (e : BusyEvent) (p : Nat) : Option Nat :=
  match e with
  | .begin k _ => if k < p then some (p - 1) else if k = p then none else some p
  | _ => some p

/-- Where the goroutine that is at place `p` at time `i` is `n` steps later; `none` if it has begun by then. -/
def waitsAt (does : Nat → BusyEvent) (i p : Nat) : Nat → Option Nat
  | 0 => some p
  | n + 1 => (waitsAt does i p n).bind fun k => (does (i + n)).place k

/-- Who holds the lock gets on: a send returns, a sleep is over in the end. -/
def HolderFair (at_ : Nat → Busy) (does : Nat → BusyEvent) : Prop :=
  ∀ i, (∀ j, i ≤ j → (at_ j).holder ≠ none) → ∃ j, i ≤ j ∧ does j = .act

/-- What the scheduler and `sync.Mutex` promise (a waiter that has lost the lock for a millisecond is served first): a
goroutine that again and again could begin does. -/
def LockFair (at_ : Nat → Busy) (does : Nat → BusyEvent) : Prop :=
  ∀ i p q, (at_ i).queue[p]? = some q → (∀ j, i ≤ j → ∃ k, j ≤ k ∧ (needsLock q.cmd = true → (at_ k).holder = none)) →
    ∃ n, waitsAt does i p n = none

/-- Less than `LockFair`: only a goroutine that from some time on could begin at every moment has to. -/
def WeakFair (at_ : Nat → Busy) (does : Nat → BusyEvent) : Prop :=
  ∀ i p q, (at_ i).queue[p]? = some q → (∀ j, i ≤ j → needsLock q.cmd = true → (at_ j).holder = none) →
    ∃ n, waitsAt does i p n = none

end Saratoga
