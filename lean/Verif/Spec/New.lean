import Verif.Spec.Flags
import Verif.Spec.Timestamp
import Verif.Model.Go
/-! # Specification vocabulary for building frames from flag text

Which flag text each `New` accepts, and what it makes of it, as tables. -/
namespace Saratoga

/-- The parts of a flag text without blanks: parts are separated by commas, a part has a name and
(after the first `=`, up to a second one) a value. -/
def textParts (text : String) : List (String × Option String) :=
  (strSplit text ',').map fun p =>
    match strSplit p '=' with
    | n :: v :: _ => (n, some v)
    | [n] => (n, none)
    | [] => ("", none)

/-- The parts of a flag text; blanks are dropped first. -/
def flagParts (text : String) : List (String × Option String) := textParts (stripSpaces text)

/-- The parts of a flag text when commas at the end are dropped too (request frames only). -/
def flagPartsTrimmed (text : String) : List (String × Option String) :=
  textParts (trimCommas (stripSpaces text))

/-- How a call ends. -/
inductive Verdict where
  | ok | error | exit | panic
deriving DecidableEq, Repr

/-- The way a call with an error value ended. -/
def Out.verdict {α : Type} : Out (α × Option Err) → Verdict
  | .ret (_, none) => .ok
  | .ret (_, some _) => .error
  | .fatal => .exit
  | .panic => .panic

/-- The first verdict that is not `ok`. -/
def firstBad : List Verdict → Verdict
  | [] => .ok
  | v :: vs => if v = .ok then firstBad vs else v

/-- A listed field with a listed option is fine, anything else ends the process, and a missing value
panics. -/
def settable (T : Tables) (n : String) : Option String → Verdict
  | none => .panic
  | some v => if valid T n v then .ok else .exit

/-- Names of timestamp types a data frame takes as value of `reqtstamp`. -/
def tsTypeNames : List String :=
  ["localinterp", "posix32", "posix64", "posix32_32", "posix64_32", "epoch2000_32"]

/-- Verdict on one part of the text of a data frame. -/
def dataVerdict (T : Tables) (p : String × Option String) : Verdict :=
  if p.1 ∈ ["version", "descriptor", "reqstatus", "eod"] then settable T p.1 p.2
  else if p.1 = "transfer" then
    match p.2 with
    | none => .panic
    | some v => if v = "bundle" then .error else .ok
  else if p.1 = "reqtstamp" then
    match p.2 with
    | none => .panic
    | some v => if v ∈ "no" :: "yes" :: tsTypeNames then .ok else .error
  else .error

/-- What one part of the text of a data frame assigns. -/
def dataAssigns (p : String × Option String) : List (String × String) :=
  if p.1 ∈ ["version", "descriptor", "reqstatus", "eod"] then [(p.1, p.2.getD "")]
  else if p.1 = "reqtstamp" then [("reqtstamp", if p.2 = some "no" then "no" else "yes")]
  else []

/-- Verdict on one part of the text of a status frame. -/
def statusVerdict (T : Tables) (p : String × Option String) : Verdict :=
  if p.1 ∈ ["descriptor", "stream", "metadatarecvd", "allholes", "reqholes", "errcode", "reqtstamp"] then
    settable T p.1 p.2
  else if p.1 ∈ ["localinterp", "posix32", "posix64", "posix32_32", "posix64_32"] then .ok
  else .error

/-- What one part of the text of a status frame assigns. A bare timestamp type asks for a timestamp. -/
def statusAssigns (p : String × Option String) : List (String × String) :=
  if p.1 ∈ ["descriptor", "stream", "metadatarecvd", "allholes", "reqholes", "errcode", "reqtstamp"] then
    [(p.1, p.2.getD "")]
  else if p.1 ∈ ["localinterp", "posix32", "posix64", "posix32_32", "posix64_32"] then
    [("reqtstamp", "yes")]
  else []

/-- Verdict on one part of the text of a request frame. -/
def requestVerdict (T : Tables) (p : String × Option String) : Verdict :=
  if p.2 = none then .panic
  else if p.1 ∈ ["frametype", "version", "descriptor", "stream", "txwilling", "rxwilling", "fileordir",
      "reqtype", "udplite"] then settable T p.1 p.2
  else .error

/-- What one part of the text of a request frame assigns. -/
def requestAssigns (p : String × Option String) : List (String × String) :=
  if p.1 ∈ ["frametype", "version", "descriptor", "stream", "txwilling", "rxwilling", "fileordir",
      "reqtype", "udplite"] then [(p.1, p.2.getD "")]
  else []

/-- Verdict on one part of the text of a metadata frame. The checksum type is also looked up among the
checksum lengths. -/
def metadataVerdict (T : Tables) (p : String × Option String) : Verdict :=
  if p.1 ∈ ["descriptor", "progress", "transfer", "reliability"] then settable T p.1 p.2
  else if p.1 = "csumtype" then
    match p.2 with
    | none => .panic
    | some v => if valid T "csumtype" v ∧ valid T "csumlen" v then .ok else .exit
  else .error

/-- What one part of the text of a metadata frame assigns. -/
def metadataAssigns (p : String × Option String) : List (String × String) :=
  if p.1 = "csumtype" then [("csumtype", p.2.getD ""), ("csumlen", p.2.getD "")]
  else if p.1 ∈ ["descriptor", "progress", "transfer", "reliability"] then [(p.1, p.2.getD "")]
  else []

/-- Verdict on one part of the text of a beacon frame. -/
def beaconVerdict (T : Tables) (p : String × Option String) : Verdict :=
  if p.2 = none then (if p.1 = "freespaced" ∧ valid T "freespace" "yes" = false then .exit else .panic)
  else if p.1 ∈ ["descriptor", "stream", "txwilling", "rxwilling", "udplite", "freespace"] then
    settable T p.1 p.2
  else if p.1 = "freespaced" then
    if valid T "freespace" "yes" = false then .exit
    else if p.2 ∈ [some "d16", some "d32", some "d64"] then settable T p.1 p.2 else .error
  else .error

/-- What one part of the text of a beacon frame assigns. -/
def beaconAssigns (p : String × Option String) : List (String × String) :=
  if p.1 = "freespaced" then [("freespace", "yes"), ("freespaced", p.2.getD "")]
  else if p.1 ∈ ["descriptor", "stream", "txwilling", "rxwilling", "udplite", "freespace"] then
    [(p.1, p.2.getD "")]
  else []

/-- The last value a list of assignments gives to a field. -/
def lastValue (field : String) : List (String × String) → Option String
  | [] => none
  | (f, v) :: rest =>
    match lastValue field rest with
    | some w => some w
    | none => if f = field then some v else none

/-- Usable fields that share no bit. -/
def Separated (T : Tables) (fields : List String) : Prop :=
  (∀ f ∈ fields, (T.flag f).WF) ∧
  ∀ f ∈ fields, ∀ g ∈ fields, f ≠ g → (T.flag f).Disjoint (T.flag g)

instance (T : Tables) (fs : List String) : Decidable (Separated T fs) := by
  unfold Separated; infer_instance

/-- `h'` is what the assignments make of `h`: every field shows the last value assigned to it, a field
that is not assigned keeps its number, and no bit outside the assigned fields changes (bits counted from
the left as in the tables). -/
def Carries (T : Tables) (fields : List String) (assigns : List (String × String)) (h h' : BitVec 32) :
    Prop :=
  (∀ f ∈ fields, ∀ v, lastValue f assigns = some v → getStr T h' f = .ret v) ∧
  (∀ f ∈ fields, lastValue f assigns = none → get T h' f = get T h f) ∧
  (∀ j, (∀ f ∈ fields, lastValue f assigns ≠ none →
      j < (T.flag f).msb.toNat ∨ (T.flag f).msb.toNat + (T.flag f).len.toNat ≤ j) →
    h'.getMsbD j = h.getMsbD j)

/-- Fields of each frame type that flag text can reach. -/
def dataFields : List String := ["version", "frametype", "descriptor", "reqstatus", "eod", "reqtstamp"]
def statusFields : List String :=
  ["version", "frametype", "descriptor", "stream", "metadatarecvd", "allholes", "reqholes", "errcode",
   "reqtstamp"]
def requestFields : List String :=
  ["version", "frametype", "descriptor", "stream", "txwilling", "rxwilling", "fileordir", "reqtype",
   "udplite"]
def metadataFields : List String :=
  ["version", "frametype", "descriptor", "progress", "transfer", "reliability", "csumtype", "csumlen"]
def beaconFields : List String :=
  ["version", "frametype", "descriptor", "stream", "txwilling", "rxwilling", "udplite", "freespace",
   "freespaced"]

/-- The tables know what `New` itself sets. -/
def BasicTables (T : Tables) : Prop :=
  valid T "version" "v1" = true ∧
  (∀ t ∈ ["data", "status", "request", "metadata", "beacon"], valid T "frametype" t = true) ∧
  valid T "reqtstamp" "yes" = true ∧ valid T "reqtstamp" "no" = true ∧
  ∀ v ∈ tsTypeNames, goodT T v = true

instance (T : Tables) : Decidable (BasicTables T) := by unfold BasicTables; infer_instance

/-- A clock between 2000 and 2106, when all timestamp types work. -/
def GoTime.InRange (t : GoTime) : Prop := 946684800 ≤ t.sec ∧ t.sec < 2 ^ 32 ∧ t.nsec < 1000000000

instance (t : GoTime) : Decidable t.InRange := by unfold GoTime.InRange; infer_instance

end Saratoga
