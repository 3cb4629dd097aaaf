import Verif.Spec.CrowdForever
/-! # Specification vocabulary for what a peer table shows in the end -/
namespace Saratoga

variable {N : Type} [DecidableEq N]

/-- No datagram is on its way to machine `n` for ever: each arrives there for some time only, as often as it likes. -/
def Passes (does : Nat → CrowdEvent N) (n : N) : Prop :=
  ∀ k, ∃ i, ∀ j, i ≤ j → ∀ fam clock, does j ≠ .arrives n k fam clock

/-- At time `t` the datagram `d` leaves the machine that sends it, whose settings are those noted in it. -/
structure Leaves (at_ : Nat → Crowd N) (does : Nat → CrowdEvent N) (d : Packet N) (t : Nat) : Prop where
  acts : does t = .act d.sender
  air : (at_ (t + 1)).air = (at_ t).air ++ [d]
  settings : d.settings = ((at_ t).node d.sender).prog.settings

end Saratoga
