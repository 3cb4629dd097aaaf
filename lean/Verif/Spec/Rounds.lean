import Verif.Spec.Files
import Verif.Model.StatusOut
import Verif.Spec.FlagText
import Verif.Spec.New
import Verif.Spec.Frame
import Verif.Spec.Ranges
import Verif.Spec.StatusOut
import Verif.Model.Shipped
/-! # Specification vocabulary for sending again what was lost, round after round -/
namespace Saratoga

/-- A piece of the file as it is sent: where it goes and its bytes. -/
structure Piece where
  off : BitVec 64
  data : List Byte

/-- The piece is cut out of the file content `F`. -/
def Piece.Of (p : Piece) (F : List Byte) : Prop :=
  p.off.toNat + p.data.length ≤ F.length ∧ ∀ i, i < p.data.length → p.data[i]? = F[p.off.toNat + i]?

/-- The byte at offset `x` is in one of the pieces sent. -/
def Sends (ps : List Piece) (x : Nat) : Prop := ∃ p ∈ ps, p.off.toNat ≤ x ∧ x < p.off.toNat + p.data.length

/-- The byte at offset `x` is in what was written of one of the pieces that came. -/
def Comes (as : List Arrival) (x : Nat) : Prop :=
  ∃ a ∈ as, a.off.toNat ≤ x ∧
    x < a.off.toNat + (match a.short with | none => a.data.length | some n => min n a.data.length)

/-- All that came in the first `n` rounds, in this order. -/
def soFar (comes : Nat → List Arrival) (n : Nat) : List Arrival := (List.range n).flatMap comes

/-- `st` is read from a frame of a report (without timestamp, with a descriptor that holds the size of the file) that
`WriteStatus` made of the record `record`. -/
def ReadsReport (record : List Hole) (size : Nat) (st : Status) : Prop :=
  ∃ (t : Transfer) (mtu : Int) (clock : Nat → GoTime) (fails : Nat → Option Err) (ps : List (String × String))
    (d : String) (n : Nat) (frames : List (List Byte)) (f : List Byte),
    t.curfills = record ∧ PlainPairs ps ∧ (∀ p ∈ ps, valid shipped p.1 p.2 = true) ∧
    lastValue "descriptor" ps = some d ∧ descWidth d = some n ∧ lastValue "reqtstamp" ps ≠ some "yes" ∧
    (∀ p ∈ ps, p.1 ∉ bareStamps) ∧ size ≤ 256 ^ n ∧ t.progress.toNat < 256 ^ n ∧ t.inrespto.toNat < 256 ^ n ∧
    t.writeStatus shipped mtu clock fails (render ps) = .ret (frames, "success") ∧ f ∈ frames ∧
    Status.zero.decode shipped f = .ret (st, none)

/-- Rounds without end of sending pieces of `F` and storing what comes of them. Nothing comes that was not sent in this
round; it may be lost, doubled, put in another order or written in part only. What is sent has in it every byte of the
file, or every byte that some report names as missing and all that lies beyond what had come by then. The report may be
old: later ones may be lost. -/
structure Rounds (F : List Byte) (h : Handle) (fs : FS) (sends : Nat → List Piece) (comes : Nat → List Arrival) :
    Prop where
  cut : ∀ i, ∀ p ∈ sends i, p.Of F
  sent : ∀ i, ∀ a ∈ comes i, ⟨a.off, a.data⟩ ∈ sends i
  asked : ∀ i, (∀ x < F.length, Sends (sends i) x) ∨
    ∃ j ≤ i, ∃ st, ReadsReport (storeAll h fs (soFar comes j)).2 F.length st ∧
      (∀ x : Nat, Covers st.holes x → Sends (sends i) x) ∧
      (∀ x < F.length, (∀ y, Comes (soFar comes j) y → y < x) → Sends (sends i) x)

/-- A byte that is sent in infinitely many rounds comes at least once. -/
def FairLoss (sends : Nat → List Piece) (comes : Nat → List Arrival) : Prop :=
  ∀ x, (∀ n, ∃ i ≥ n, Sends (sends i) x) → ∃ i, Comes (comes i) x

/-- A byte that is sent in each of the first `k` rounds comes in one of them. -/
def LossBelow (k : Nat) (sends : Nat → List Piece) (comes : Nat → List Arrival) : Prop :=
  ∀ x, (∀ i < k, Sends (sends i) x) → ∃ i < k, Comes (comes i) x

end Saratoga
