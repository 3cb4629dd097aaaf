import Verif.Spec.Network
/-! # Specification vocabulary for the sizes of beacons -/
namespace Saratoga

variable {N : Type} [DecidableEq N]

/-- What the system tells as local address of a connection, wherever a line is entered, has from 2 to 63 bytes. (The
shortest text of an address with its port is `0.0.0.0:0`. The longest has 39 bytes of address, a zone of 15 bytes and `%`,
brackets, and 6 bytes for colon and port.) -/
def AddressesFit (P : NetEvent N → Prop) : Prop :=
  ∀ n line o source, P (.typed n line o source) → ∀ a l, o.nearby a = .ok l → 2 ≤ (utf8 l).length ∧ (utf8 l).length ≤ 63

end Saratoga
