import Verif.Spec.Crowd
import Verif.Spec.Forever
import Verif.Spec.BusyForever
import Verif.Spec.BeaconCmd
/-! # Specification vocabulary for networks whose commands run at the same time and that run for ever -/
namespace Saratoga

variable {N : Type} [DecidableEq N]

/-- The states `at_ 0, at_ 1, …` and what happens between them, from the start of all programs on. -/
structure CrowdForever (P : Plant N) (fs : N → FS) (c : N → Cliflags) (at_ : Nat → Crowd N) (does : Nat → CrowdEvent N) : Prop
    where
  start : at_ 0 = Crowd.init fs c
  goes : ∀ i, (at_ i).step P (does i) = some (at_ (i + 1))

/-- `select` at machine `n` is fair: a listener that holds something out for ever is heard. -/
def SelectFairAt (at_ : Nat → Crowd N) (does : Nat → CrowdEvent N) (n : N) : Prop :=
  ∀ fam i, (∀ j, i ≤ j → ((at_ j).node n).prog.net.main = .select ∧ ((at_ j).node n).prog.net.Offers fam) →
    ∃ j, i ≤ j ∧ ∃ a, does j = .inside n a ∧ a.Takes fam

/-- Who holds the lock of machine `n` gets on: a send returns, a sleep is over in the end. -/
def HolderFairAt (at_ : Nat → Crowd N) (does : Nat → CrowdEvent N) (n : N) : Prop :=
  ∀ i, (∀ j, i ≤ j → ((at_ j).node n).holder ≠ none) → ∃ j, i ≤ j ∧ does j = .act n

/-- Where among those that wait at machine `n` the goroutine at place `p` is afterwards; `none` if it has begun. -/
def CrowdEvent.place (n : N) (e : CrowdEvent N) (p : Nat) : Option Nat :=
  match e with
  | .begin m k _ _ => if m = n then (if k < p then some (p - 1) else if k = p then none else some p) else some p
  | _ => some p

/-- Where the goroutine that is at place `p` of machine `n` at time `i` is `t` steps later; `none` if it has begun. -/
def crowdWaits (does : Nat → CrowdEvent N) (n : N) (i p : Nat) : Nat → Option Nat
  | 0 => some p
  | t + 1 => (crowdWaits does n i p t).bind fun k => (does (i + t)).place n k

/-- What the scheduler and `sync.Mutex` promise at machine `n`: a goroutine that again and again could begin does. -/
def LockFairAt (at_ : Nat → Crowd N) (does : Nat → CrowdEvent N) (n : N) : Prop :=
  ∀ i p q, ((at_ i).node n).queue[p]? = some q →
    (∀ j, i ≤ j → ∃ k, j ≤ k ∧ (needsLock q.cmd = true → ((at_ k).node n).holder = none)) →
    ∃ t, crowdWaits does n i p t = none

/-- At time `j` a datagram from `s` to an address heard at `n` leaves some machine. -/
def LeavesFor (P : Plant N) (at_ : Nat → Crowd N) (does : Nat → CrowdEvent N) (n : N) (s : UDPAddr) (j : Nat) : Prop :=
  ∃ m d, does j = .act m ∧ (at_ (j + 1)).air = (at_ j).air ++ [d] ∧ P.hears n d.dest = true ∧ d.source = s

/-- The network may lose any number of datagrams, but not all of them: of those sent from `s` to `n` again and again, some
arrive again and again. -/
def LosesSomeAt (P : Plant N) (at_ : Nat → Crowd N) (does : Nat → CrowdEvent N) (n : N) (s : UDPAddr) : Prop :=
  (∀ i, ∃ j, i ≤ j ∧ LeavesFor P at_ does n s j) →
    ∀ i, ∃ j, i ≤ j ∧ ∃ k fam clock d, does j = .arrives n k fam clock ∧ (at_ j).air[k]? = some d ∧ d.source = s

/-- At machine `m` lines with the command `beacon word` are entered again and again. -/
def KeepsEntering (P : Plant N) (does : Nat → CrowdEvent N) (m : N) (word : String) : Prop :=
  ∀ i, ∃ j line, i ≤ j ∧ does j = .typed m line ∧
    getLine ((P.machine m).H.map Prod.fst) cmdHandlers line = .ret (.started "beacon" ["beacon", word])

/-- Whenever that command begins at machine `m`, the settings there are legal and ask for at least one beacon, the system
does its part, `word` means the address `to`, and the local address of the connection is `s`. -/
def BeaconsWork (P : Plant N) (at_ : Nat → Crowd N) (does : Nat → CrowdEvent N) (m : N) (word : String) (to s : UDPAddr) : Prop :=
  ∀ j k o source q, does j = .begin m k o source → ((at_ j).node m).queue[k]? = some q → q.args = ["beacon", word] →
    ValidGlobal shipped ((at_ j).node m).prog.settings.global ∧ ((at_ j).node m).prog.settings.bcount ≠ 0 ∧
    ((P.machine m).beaconEnv o).Works ∧ meant ((P.machine m).beaconEnv o) ((at_ j).node m).prog.settings word = some to ∧
    source to = s

/-- What the system tells as local address of a connection has from 2 to 63 bytes (see `AddressesFit`). -/
def NearbyFits (es : CrowdEvent N → Prop) : Prop :=
  ∀ n k o source, es (.begin n k o source) → ∀ a l, o.nearby a = .ok l → 2 ≤ (utf8 l).length ∧ (utf8 l).length ≤ 63

end Saratoga
