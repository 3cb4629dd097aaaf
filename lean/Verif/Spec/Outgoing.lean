import Verif.Spec.Network
/-! # Specification vocabulary for what one program sends -/
namespace Saratoga

/-- What machine `n` has put on the wire so far, oldest first: where to and which bytes. -/
def packetsFrom {N : Type} [DecidableEq N] (n : N) (w : Network N) : List (UDPAddr × List Byte) :=
  (w.air.filter fun d => d.sender = n).map fun d => (d.dest, d.bytes)

end Saratoga
