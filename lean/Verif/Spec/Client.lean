import Verif.Model.Client
import Verif.Spec.FlagText
import Verif.Spec.StatusOut
/-! # Specification vocabulary for sending a file -/
namespace Saratoga

/-- A flag text for data frames that nothing is wrong with: plain words, only names data frames know, only
options in the tables, and not a bundle. -/
def DataText (ps : List (String × String)) : Prop :=
  PlainPairs ps ∧ ps ≠ [] ∧
  ∀ p ∈ ps, p.1 ∈ ["version", "descriptor", "reqstatus", "eod", "transfer", "reqtstamp"] ∧
    valid shipped p.1 p.2 = true ∧ p ≠ ("transfer", "bundle")

instance (ps : List (String × String)) : Decidable (DataText ps) := by unfold DataText; infer_instance

/-- The text asks for timestamps. -/
def wantsStamp (ps : List (String × String)) : Prop :=
  lookupFirst "reqtstamp" ps = "yes" ∨ lastValue "reqtstamp" ps = some "yes"

instance (ps : List (String × String)) : Decidable (wantsStamp ps) := by unfold wantsStamp; infer_instance

/-- `t` is the second of the reading `clock` as a 32 bit timestamp that can be written. -/
def PosixTime (clock : GoTime) (t : Timestamp) : Prop :=
  t.Wire shipped ∧ t.ttype = "posix32" ∧ t.secs.toInt = clock.sec

/-- The times and reads `senddata` meets are fine. -/
def SendEnv.Fine (E : SendEnv) : Prop := ∀ i, (E.clock i).InRange ∧ E.readFails i = false

/-- The words other than success the connection answered in the first `k` rounds. -/
def complaints (E : SendEnv) (k : Nat) : List String := ((List.range k).map E.write).filter (· ≠ "success")

/-- Bytes of a number of the size a descriptor names. -/
def numSize : String → Nat
  | "d16" => 2
  | "d32" => 4
  | "d64" => 8
  | "d128" => 16
  | _ => 0

/-- Bytes of all the descriptors a text names. -/
def namedBytes (ps : List (String × String)) : Nat :=
  (ps.map fun p => if p.1 = "descriptor" then numSize p.2 else 0).sum

/-- Yes or no. -/
def yesNo (p : Prop) [Decidable p] : String := if p then "yes" else "no"

/-- What `x` must be as frame `k` of `last + 1` frames: the `k`-th block of `plen` bytes of the file at its place,
marked as the end if it is the last, asking for a status if it is the last or a hundredth. -/
structure FrameAt (file : List Byte) (plen : Nat) (session : BitVec 32) (ps : List (String × String))
    (last k : Nat) (x : Data) : Prop where
  session : x.session = session
  offset : x.offset.toNat = k * plen
  payload : x.payload = (file.drop (k * plen)).take plen
  eod : getStr shipped x.header "eod" = .ret (yesNo (k = last))
  reqstatus : getStr shipped x.header "reqstatus" = .ret (yesNo (k = last ∨ 100 ∣ k + 1))
  stamp : getStr shipped x.header "reqtstamp" = .ret (yesNo (wantsStamp ps))
  descriptor : getStr shipped x.header "descriptor" = .ret ((lastValue "descriptor" ps).getD "d16")
  frametype : getStr shipped x.header "frametype" = .ret "data"

end Saratoga
