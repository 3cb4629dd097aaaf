import Verif.Spec.MainLoop
/-! # Specification vocabulary for executions that go on for ever -/
namespace Saratoga

/-- The states `at_ 0, at_ 1, …` and what happens between them, from the start with the files `fs` on. -/
structure Forever (S : Setup) (fs : FS) (at_ : Nat → World) (does : Nat → Action) : Prop where
  start : at_ 0 = World.init fs
  goes : ∀ i, (at_ i).step S (does i) = some (at_ (i + 1))

/-- The main loop receives from the listener of this family. -/
def Action.Takes (fam : Fam) (a : Action) : Prop :=
  (∃ clock, a = .takeRx fam clock) ∨ a = .takeTx fam ∨ a = .takeQuit fam

/-- The listener stands at one of its channel sends. -/
def World.Offers (w : World) (fam : Fam) : Prop := w.listener fam ≠ .reading ∧ w.listener fam ≠ .gone

/-- What `select` in Go promises at least: a case that is ready from some time on for ever is taken. -/
def Fair (at_ : Nat → World) (does : Nat → Action) : Prop :=
  ∀ fam i, (∀ j, i ≤ j → (at_ j).main = .select ∧ (at_ j).Offers fam) → ∃ j, i ≤ j ∧ (does j).Takes fam

end Saratoga
