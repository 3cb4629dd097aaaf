import Verif.Model.Timestamp
/-! # Specification vocabulary for timestamps -/
namespace Saratoga

/-- The timestamp types with a defined wire form. -/
def readableTypes : List String := ["posix32", "posix64", "posix32_32", "posix64_32", "epoch2000_32"]

/-- The timestamp is of a readable type named by its header, and its numbers fit that type. -/
def Timestamp.Wire (T : Tables) (t : Timestamp) : Prop :=
  nameT T t.header = .ret t.ttype ∧ t.ttype ∈ readableTypes ∧ t.loc = [] ∧
  (t.ttype = "posix32" ∨ t.ttype = "posix32_32" ∨ t.ttype = "epoch2000_32" → t.secs.toNat < 2 ^ 32) ∧
  (t.ttype = "posix32" ∨ t.ttype = "posix64" ∨ t.ttype = "epoch2000_32" → t.nsecs = 0) ∧
  t.nsecs.toNat < 2 ^ 32

instance (T : Tables) (t : Timestamp) : Decidable (t.Wire T) := by
  unfold Timestamp.Wire; infer_instance

/-- A time as Go can hold it: seconds in an `int64`, less than 1e9 nanoseconds. -/
def GoTime.Ok (t : GoTime) : Prop := -2 ^ 63 ≤ t.sec ∧ t.sec < 2 ^ 63 ∧ t.nsec < 1000000000

/-- Moreover the nanoseconds since 1970 fit an `int64` (years 1678 to 2262). -/
def GoTime.NanoOk (t : GoTime) : Prop :=
  t.Ok ∧ -2 ^ 63 ≤ t.sec * 1000000000 + t.nsec ∧ t.sec * 1000000000 + t.nsec < 2 ^ 63

instance (t : GoTime) : Decidable t.Ok := by unfold GoTime.Ok; infer_instance
instance (t : GoTime) : Decidable t.NanoOk := by unfold GoTime.NanoOk; infer_instance

end Saratoga
