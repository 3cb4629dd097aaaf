import Verif.Spec.New
/-! # Specification vocabulary for sending status reports -/
namespace Saratoga

/-- Bytes taken by two numbers of the size a descriptor names: a hole, or progress and in-response-to. -/
def pairSize : String → Option Nat
  | "d16" => some 4
  | "d32" => some 8
  | "d64" => some 16
  | "d128" => some 32
  | _ => none

/-- Name and value of every part of a flag text. -/
def namedValues (text : String) : List (String × String) :=
  (flagParts text).map fun p => (p.1, p.2.getD "")

/-- How often the text asks for a timestamp with `reqtstamp=yes`. -/
def stampCount (text : String) : Nat := (flagParts text).count ("reqtstamp", some "yes")

/-- How often the text names `reqtstamp`. -/
def stampMentions (text : String) : Nat := (flagParts text).countP (·.1 = "reqtstamp")

/-- Timestamp types a status frame takes as a name of their own. -/
def bareStamps : List String := ["localinterp", "posix32", "posix64", "posix32_32", "posix64_32"]

/-- No part of the text is a bare timestamp type. -/
def NoBareStamp (text : String) : Prop := ∀ p ∈ flagParts text, p.1 ∉ bareStamps

instance (text : String) : Decidable (NoBareStamp text) := by unfold NoBareStamp; infer_instance

/-- Bytes of IP (60) and UDP (8) header the program reckons with. -/
def ipUdp : Nat := 68

end Saratoga
