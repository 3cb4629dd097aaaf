import Verif.Model.Go
/-!
# Model of the flag tables and flag functions of `sarflags/sarflags.go`

The global maps `Flags`, `DirentFlags`, `TimeStamps` and `Frameflags` are one value of type `Tables`
that every function takes.
-/
namespace Saratoga

/-- `Flagtype`, `DirentFlagtype`, `TimeStamptype` (sarflags/sarflags.go:205-210, 217-221, 228-232) for
header words of `w` bits. `Frametypes` is never read by the code and is left out. -/
structure FlagType (w : Nat) where
  len : BitVec w
  msb : BitVec w
  options : List (String × BitVec w)
deriving DecidableEq, Repr

/-- The zero value, which Go returns for a key that is not in the map. -/
def FlagType.zero (w : Nat) : FlagType w := ⟨0, 0, []⟩

/-- The global tables (sarflags/sarflags.go:214, 225, 236, 240). -/
structure Tables where
  flags : List (String × FlagType 32)
  dirent : List (String × FlagType 16)
  ts : FlagType 8
  frameflags : List (String × List String)
deriving DecidableEq, Repr

/-- `Flags[field]` (sarflags/sarflags.go:569-765). -/
def Tables.flag (T : Tables) (field : String) : FlagType 32 :=
  (assoc field T.flags).getD (FlagType.zero 32)

/-- `DirentFlags[field]` (sarflags/sarflags.go:789-929). -/
def Tables.dflag (T : Tables) (field : String) : FlagType 16 :=
  (assoc field T.dirent).getD (FlagType.zero 16)

/-- First option with the given number in the iteration order of the list (sarflags/sarflags.go:743-754, 867-878,
982-992). -/
def optName {w : Nat} (v : BitVec w) : List (String × BitVec w) → Option String
  | [] => none
  | (k, x) :: rest => if x = v then some k else optName v rest

/-! ## 32 bit headers -/

/-- `Good` (sarflags/sarflags.go:762-765). -/
def good (T : Tables) (field : String) : Bool := (assoc field T.flags).isSome

/-- `Valid` (sarflags/sarflags.go:569-575). -/
def valid (T : Tables) (flag option : String) : Bool :=
  if good T flag then (assoc option (T.flag flag).options).isSome else false

/-- `Value` (sarflags/sarflags.go:665-671). -/
def value (T : Tables) (flag option : String) : Int :=
  match assoc option (T.flag flag).options with
  | none => -1
  | some v => v.toNat

/-- `Get` (sarflags/sarflags.go:674-680). -/
def get (T : Tables) (cur : BitVec 32) (field : String) : BitVec 32 :=
  let fl := T.flag field
  let shiftbits := 32#32 - fl.len - fl.msb
  let maskbits := (1#32 <<< fl.len) - 1#32
  let setbits := maskbits <<< shiftbits
  (cur &&& setbits) >>> shiftbits

/-- `GetStr` (sarflags/sarflags.go:683-693). An unknown number ends the process. -/
def getStr (T : Tables) (cur : BitVec 32) (field : String) : Out String :=
  match optName (get T cur field) (T.flag field).options with
  | some k => .ret k
  | none => .fatal

/-- `Set` (sarflags/sarflags.go:697-726). Every failure path calls `log.Fatalln` before its
`return`, so the returned error is always nil. -/
def set (T : Tables) (cur : BitVec 32) (field flagname : String) : Out (BitVec 32) :=
  match assoc field T.flags with
  | none => .fatal
  | some fl =>
    if good T field then
      match assoc flagname (T.flag field).options with
      | none => .fatal
      | some newval =>
        let shiftbits := 32#32 - fl.len - fl.msb
        let maskbits := (1#32 <<< fl.len) - 1#32
        let setbits := maskbits <<< shiftbits
        .ret ((cur &&& ~~~setbits) ||| (newval <<< shiftbits))
    else .fatal

/-- `SetFlags` (sarflags/sarflags.go:729-734), for one iteration order of the map. -/
def setFlags (T : Tables) (cur : BitVec 32) : List (String × String) → Out (BitVec 32)
  | [] => .ret cur
  | (f, v) :: rest => do
    let cur ← set T cur f v
    setFlags T cur rest

/-- `Test` (sarflags/sarflags.go:737-740). -/
def test (T : Tables) (cur : BitVec 32) (field flagname : String) : Out Bool := do
  let v ← set T 0 field flagname
  pure (decide (get T cur field = get T v field))

/-- `Name` (sarflags/sarflags.go:743-754). -/
def name (T : Tables) (cur : BitVec 32) (field : String) : Out String :=
  let fl := T.flag field
  let x := get T cur field
  match optName x fl.options with
  | some k => .ret k
  | none => .fatal

/-- `Values` and `Fields` (sarflags/sarflags.go:660-662, 757-759). -/
def values (T : Tables) (ftype : String) : List String := (assoc ftype T.frameflags).getD []

/-! ## 16 bit directory entry headers -/

/-- `GoodD` (sarflags/sarflags.go:881-884). -/
def goodD (T : Tables) (field : String) : Bool := (assoc field T.dirent).isSome

/-- `ValidD` (sarflags/sarflags.go:887-893). -/
def validD (T : Tables) (flag option : String) : Bool :=
  if goodD T flag then (assoc option (T.dflag flag).options).isSome else false

/-- `GetD` (sarflags/sarflags.go:789-797). -/
def getD (T : Tables) (cur : BitVec 16) (field : String) : BitVec 16 :=
  let shiftbits := 16#16 - (T.dflag field).len - (T.dflag field).msb
  let maskbits := (1#16 <<< (T.dflag field).len) - 1#16
  let setbits := maskbits <<< shiftbits
  (cur &&& setbits) >>> shiftbits

/-- `GetDStr` (sarflags/sarflags.go:800-814). -/
def getDStr (T : Tables) (cur : BitVec 16) (field : String) : Out String :=
  let shiftbits := 16#16 - (T.dflag field).len - (T.dflag field).msb
  let maskbits := (1#16 <<< (T.dflag field).len) - 1#16
  let setbits := maskbits <<< shiftbits
  let val := (cur &&& setbits) >>> shiftbits
  match optName val (T.dflag field).options with
  | some k => .ret k
  | none => .fatal

/-- `SetD` (sarflags/sarflags.go:817-840); like `Set` it never returns a non-nil error. -/
def setD (T : Tables) (cur : BitVec 16) (field flagname : String) : Out (BitVec 16) :=
  if goodD T field then
    match assoc flagname (T.dflag field).options with
    | none => .fatal
    | some newval =>
      let shiftbits := 16#16 - (T.dflag field).len - (T.dflag field).msb
      let maskbits := (1#16 <<< (T.dflag field).len) - 1#16
      let setbits := maskbits <<< shiftbits
      .ret ((cur &&& ~~~setbits) ||| (newval <<< shiftbits))
  else .fatal

/-- `TestD` (sarflags/sarflags.go:861-864). -/
def testD (T : Tables) (cur : BitVec 16) (field flagname : String) : Out Bool := do
  let v ← setD T 0 field flagname
  pure (decide (getD T cur field = getD T v field))

/-- `NameD` (sarflags/sarflags.go:867-878). -/
def nameD (T : Tables) (cur : BitVec 16) (field : String) : Out String :=
  let x := getD T cur field
  match optName x (T.dflag field).options with
  | some k => .ret k
  | none => .fatal

/-! ## 8 bit timestamp headers -/

/-- `GetT` (sarflags/sarflags.go:935-942). -/
def getT (T : Tables) (cur : BitVec 8) : BitVec 8 :=
  let shiftbits := 8#8 - T.ts.len - T.ts.msb
  let maskbits := (1#8 <<< T.ts.len) - 1#8
  let setbits := maskbits <<< shiftbits
  (cur &&& setbits) >>> shiftbits

/-- `GetTStr` (sarflags/sarflags.go:945-959). -/
def getTStr (T : Tables) (cur : BitVec 8) : Out String :=
  let shiftbits := 8#8 - T.ts.len - T.ts.msb
  let maskbits := (1#8 <<< T.ts.len) - 1#8
  let setbits := maskbits <<< shiftbits
  let val := (cur &&& setbits) >>> shiftbits
  match optName val T.ts.options with
  | some k => .ret k
  | none => .fatal

/-- `SetT` (sarflags/sarflags.go:962-979); an unknown name ends the process. -/
def setT (T : Tables) (cur : BitVec 8) (flagname : String) : Out (BitVec 8) :=
  match assoc flagname T.ts.options with
  | none => .fatal
  | some newval =>
    let shiftbits := 8#8 - T.ts.len - T.ts.msb
    let maskbits := (1#8 <<< T.ts.len) - 1#8
    let setbits := maskbits <<< shiftbits
    .ret ((cur &&& ~~~setbits) ||| (newval <<< shiftbits))

/-- `NameT` (sarflags/sarflags.go:982-992). -/
def nameT (T : Tables) (cur : BitVec 8) : Out String :=
  let x := getT T cur
  match optName x T.ts.options with
  | some k => .ret k
  | none => .fatal

/-- `GoodT` (sarflags/sarflags.go:1004-1007). -/
def goodT (T : Tables) (field : String) : Bool := (assoc field T.ts.options).isSome

/-! ## Flag text -/

/-- `AddFlag` (sarflags/sarflags.go:578-590). -/
def addFlag (T : Tables) (curflag flag option : String) : Out String :=
  if valid T flag option then
    if curflag ≠ "" then .ret (curflag ++ "," ++ flag ++ "=" ++ option)
    else .ret (flag ++ "=" ++ option)
  else .fatal

/-- `AddFlagD` (sarflags/sarflags.go:896-908). -/
def addFlagD (T : Tables) (curflag flag option : String) : Out String :=
  if validD T flag option then
    if curflag ≠ "" then .ret (curflag ++ "," ++ flag ++ "=" ++ option)
    else .ret (flag ++ "=" ++ option)
  else .fatal

/-- The loop of `FlagValue` (sarflags/sarflags.go:598-603). -/
def flagValueLoop (flag : String) : List String → Out String
  | [] => .ret ""
  | s :: rest =>
    let f := strSplit s '='
    if first f = flag then second f else flagValueLoop flag rest

/-- `FlagValue` (sarflags/sarflags.go:594-605). -/
def flagValue (flags flag : String) : Out String :=
  flagValueLoop flag (strSplit (stripSpaces flags) ',')

/-- The loop of `ReplaceFlag` (sarflags/sarflags.go:613-622); state: (newflags, replaced). -/
def replaceLoop (add : String → String → String → Out String) (value option : String) :
    List String → String → Bool → Out (String × Bool)
  | [], newflags, replaced => .ret (newflags, replaced)
  | s :: rest, newflags, replaced => do
    let f := strSplit s '='
    if first f = value then
      let nf ← add newflags value option
      replaceLoop add value option rest nf true
    else
      let v ← second f
      let nf ← add newflags (first f) v
      replaceLoop add value option rest nf replaced

/-- `ReplaceFlag` (sarflags/sarflags.go:609-627). -/
def replaceFlag (T : Tables) (flags value option : String) : Out String := do
  let (newflags, replaced) ← replaceLoop (addFlag T) value option (strSplit flags ',') "" false
  if !replaced then addFlag T newflags value option else pure newflags

/-- `ReplaceFlagD` (sarflags/sarflags.go:911-929). -/
def replaceFlagD (T : Tables) (flags value option : String) : Out String := do
  let (newflags, replaced) ← replaceLoop (addFlagD T) value option (strSplit flags ',') "" false
  if !replaced then addFlagD T newflags value option else pure newflags

/-- The inner loop `for g := range c.Global` of `Setglobal` (sarflags/sarflags.go:775-779): adds the
pair once for the key equal to `f` (keys of a map are distinct). -/
def setglobalInner (f : String) (fs : String) (gl : List (String × String)) :
    List (String × String) → String
  | [] => fs
  | (g, _) :: rest =>
    setglobalInner f
      (if g = f then fs ++ f ++ "=" ++ (assoc f gl).getD "" ++ "," else fs) gl rest

/-- `Setglobal` (sarflags/sarflags.go:769-783). `gl` is `c.Global`, in some iteration order. -/
def setglobal (T : Tables) (frametype : String) (gl : List (String × String)) : String :=
  trimCommas ((values T frametype).foldl (fun fs f => setglobalInner f fs gl gl) "")

end Saratoga
