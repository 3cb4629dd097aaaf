import Verif.Spec.Network
import Verif.Spec.Forever
/-! # Specification vocabulary for networks that run for ever -/
namespace Saratoga

variable {N : Type} [DecidableEq N]

/-- The states `at_ 0, at_ 1, …` of the network and what happens between them, from the start of all programs on. -/
structure NetForever (P : Plant N) (fs : N → FS) (c : N → Cliflags) (at_ : Nat → Network N) (does : Nat → NetEvent N) : Prop
    where
  start : at_ 0 = Network.init fs c
  goes : ∀ i, (at_ i).step P (does i) = some (at_ (i + 1))

/-- `select` at machine `n` is fair: a listener that holds something out for ever is heard. -/
def SelectFair (at_ : Nat → Network N) (does : Nat → NetEvent N) (n : N) : Prop :=
  ∀ fam i, (∀ j, i ≤ j → ((at_ j).node n).net.main = .select ∧ ((at_ j).node n).net.Offers fam) →
    ∃ j, i ≤ j ∧ ∃ a, does j = .inside n a ∧ a.Takes fam

/-- At time `j` a line entered somewhere puts a datagram from `s` into the air, to an address heard at `n`. -/
def SentTo (P : Plant N) (at_ : Nat → Network N) (does : Nat → NetEvent N) (n : N) (s : UDPAddr) (j : Nat) : Prop :=
  ∃ m line o source dest frame, does j = .typed m line o source ∧ (dest, frame) ∈ ((at_ j).node m).emits (P.machine m) o line ∧
    P.hears n dest = true ∧ source dest = s

/-- The network may lose any number of datagrams, but not all of them: of those sent from `s` to `n` again and again, some
arrive again and again. -/
def LosesSome (P : Plant N) (at_ : Nat → Network N) (does : Nat → NetEvent N) (n : N) (s : UDPAddr) : Prop :=
  (∀ i, ∃ j, i ≤ j ∧ SentTo P at_ does n s j) →
    ∀ i, ∃ j, i ≤ j ∧ ∃ k fam clock d, does j = .arrives n k fam clock ∧ (at_ j).air[k]? = some d ∧ d.source = s

end Saratoga
