import Verif.Model.Flags
/-!
# Model of the lists of flag names (`FrameD`, `FlagD` and `FrameT` of `sarflags`)

Go goes through a map in any order, so the order is a parameter: `range m` is the order in which `m` is gone through this time.
-/
namespace Saratoga

/-- `for k := range m { s = append(s, k) }` (sarflags/sarflags.go:844-848). -/
def collectKeys {β : Type} (range : List (String × β)) : List String := range.foldl (fun s e => s ++ [e.1]) []

/-- `FrameD` (sarflags/sarflags.go:843-849). An unknown field has the zero value, without options. -/
def frameD (range : List (String × BitVec 16) → List (String × BitVec 16)) (T : Tables) (field : String) : List String :=
  collectKeys (range (T.dflag field).options)

/-- `FlagD` (sarflags/sarflags.go:852-858). -/
def flagD (range : List (String × FlagType 16) → List (String × FlagType 16)) (T : Tables) : List String :=
  collectKeys (range T.dirent)

/-- `FrameT` (sarflags/sarflags.go:995-1001). -/
def frameT (range : List (String × BitVec 8) → List (String × BitVec 8)) (T : Tables) : List String :=
  collectKeys (range T.ts.options)

end Saratoga
