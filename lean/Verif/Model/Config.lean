import Verif.Model.Settings
/-!
# Model of `ReadConfig` (`sarflags/sarflags.go:322-566`)

Reading the file and `json.Unmarshal` are outside: the model starts from the decoded document. An object is a
Go map, so its members have different names and the order of the list is the order in which one run happens to
iterate over it. A JSON number is a `float64` of some type `F`; the conversions to Go integers are the
parameter `Conv F`, because the language leaves them open for values that do not fit.
-/
namespace Saratoga

/-- A decoded JSON value, Go's `interface{}` (sarflags/sarflags.go:322-352). -/
inductive Json (F : Type) where
  | null
  | bool (b : Bool)
  | num (x : F)
  | str (s : String)
  | arr (l : List (Json F))
  | obj (m : List (String × Json F))

/-- The conversions `int(x)`, `uint(x)`, `uint32(x)`, `uint16(x)`, `uint8(x)` of a `float64`
(sarflags/sarflags.go:352-566). -/
structure Conv (F : Type) where
  int : F → Int
  uint : F → Nat
  u32 : F → BitVec 32
  u16 : F → BitVec 16
  u8 : F → BitVec 8

variable {F : Type}

/-- `value.(string)`: another type is a runtime panic; so for the others below (sarflags/sarflags.go:352-566). -/
def Json.asStr : Json F → Out String
  | .str s => .ret s
  | _ => .panic

/-- `value.(float64)` (sarflags/sarflags.go:352-566). -/
def Json.asNum : Json F → Out F
  | .num x => .ret x
  | _ => .panic

/-- `value.(map[string]interface{})` (sarflags/sarflags.go:352-566). -/
def Json.asObj : Json F → Out (List (String × Json F))
  | .obj m => .ret m
  | _ => .panic

/-- `value.([]interface{})` (sarflags/sarflags.go:352-566). -/
def Json.asArr : Json F → Out (List (Json F))
  | .arr l => .ret l
  | _ => .panic

/-- `for k, v := range m { … }` (sarflags/sarflags.go:352-566). -/
def eachMember {σ : Type} (f : σ → String → Json F → Out σ) : σ → List (String × Json F) → Out σ
  | s, [] => .ret s
  | s, (k, v) :: rest => do
    let s ← f s k v
    eachMember f s rest

/-- `for _, v := range info { l = append(l, v.(string)) }` (sarflags/sarflags.go:352-566). -/
def appendStrs : List String → List (Json F) → Out (List String)
  | l, [] => .ret l
  | l, v :: rest => do
    let s ← v.asStr
    appendStrs (l ++ [s]) rest

/-- The local variable `conf` (sarflags/sarflags.go:351; type at 243-264) without the maps, which the code
writes to the global tables instead. -/
structure Conf where
  v4multicast : String
  v6multicast : String
  port : Int
  descriptor : String
  csumtype : String
  freespace : String
  txwilling : String
  rxwilling : String
  stream : String
  reqtstamp : String
  reqstatus : String
  udplite : String
  timestamp : String
  timezone : String
  sardir : String
  prompt : String
  ppad : Int
  buffersize : Int
  bcount : Nat
  timeout : Timeouts
deriving DecidableEq, Repr

/-- `var conf config` (sarflags/sarflags.go:243-264, 322-350). -/
def Conf.zero : Conf :=
  ⟨"", "", 0, "", "", "", "", "", "", "", "", "", "", "", "", "", 0, 0, 0, ⟨0, 0, 0, 0, 0, 0⟩⟩

/-- What the big loop changes (sarflags/sarflags.go:352-566). -/
structure Loading where
  conf : Conf
  tables : Tables
  commands : CmdTable
deriving DecidableEq, Repr

/-- The inner loop for `"timeout"` (sarflags/sarflags.go:397-412). -/
def timerStep (cv : Conv F) (t : Timeouts) (k : String) (v : Json F) : Out Timeouts :=
  if k = "metadata" then do let x ← v.asNum; pure { t with metadata := cv.int x }
  else if k = "request" then do let x ← v.asNum; pure { t with request := cv.int x }
  else if k = "status" then do let x ← v.asNum; pure { t with status := cv.int x }
  else if k = "transfer" then do let x ← v.asNum; pure { t with transfer := cv.int x }
  else if k = "binterval" then do let x ← v.asNum; pure { t with binterval := cv.uint x }
  else if k = "datacounter" then do let x ← v.asNum; pure { t with datacounter := cv.int x }
  else .ret t

/-- The inner loop for one command (sarflags/sarflags.go:419-426). -/
def cmdStep (c : CmdText) (k : String) (v : Json F) : Out CmdText :=
  if k = "help" then do let s ← v.asStr; pure { c with help := s }
  else if k = "usage" then do let s ← v.asStr; pure { c with usage := s }
  else .ret c

/-- The loop over `"commands"` (sarflags/sarflags.go:416-428). -/
def commandsStep (cs : CmdTable) (k : String) (v : Json F) :
    Out CmdTable := do
  let info ← v.asObj
  let c ← eachMember cmdStep ⟨"", ""⟩ info
  pure (mapSet k c cs)

/-- The loop over `"frameflags"` (sarflags/sarflags.go:434-440). A frame type with an empty list gets no entry
in the map. -/
def frameflagsStep (ff : List (String × List String)) (k : String) (v : Json F) :
    Out (List (String × List String)) := do
  let info ← v.asArr
  let l ← appendStrs ((assoc k ff).getD []) info
  pure (if info = [] then ff else mapSet k l ff)

/-- The loop over `"options"` (sarflags/sarflags.go:468-470, 497-499, 517-519). -/
def optionStep {w : Nat} (u : F → BitVec w) (os : List (String × BitVec w)) (k : String) (v : Json F) :
    Out (List (String × BitVec w)) := do
  let x ← v.asNum
  pure (mapSet k (u x) os)

/-- The loop over one entry of `"direntflags"` (sarflags/sarflags.go:487-501) or over `"timestamps"`
(508-521). -/
def fieldStep {w : Nat} (u : F → BitVec w) (t : FlagType w) (k : String) (v : Json F) : Out (FlagType w) :=
  if k = "len" then do let x ← v.asNum; pure { t with len := u x }
  else if k = "msb" then do let x ← v.asNum; pure { t with msb := u x }
  else if k = "options" then do
    let info ← v.asObj
    let os ← eachMember (optionStep u) [] info
    pure { t with options := os }
  else .ret t

/-- The loop over one entry of `"flags"` (sarflags/sarflags.go:452-473): it also reads `"frametypes"`, which
nothing ever uses, so only its type matters. -/
def flagStep (cv : Conv F) (t : FlagType 32) (k : String) (v : Json F) : Out (FlagType 32) :=
  if k = "frametypes" then do
    let info ← v.asArr
    let _ ← appendStrs [] info
    pure t
  else fieldStep cv.u32 t k v

/-- The loop over `"flags"` (sarflags/sarflags.go:448-476). -/
def flagsStep (cv : Conv F) (fs : List (String × FlagType 32)) (k : String) (v : Json F) :
    Out (List (String × FlagType 32)) := do
  let info ← v.asObj
  let t ← eachMember (flagStep cv) (FlagType.zero 32) info
  pure (mapSet k t fs)

/-- The loop over `"direntflags"` (sarflags/sarflags.go:483-503). -/
def direntStep (cv : Conv F) (ds : List (String × FlagType 16)) (k : String) (v : Json F) :
    Out (List (String × FlagType 16)) := do
  let info ← v.asObj
  let t ← eachMember (fieldStep cv.u16) (FlagType.zero 16) info
  pure (mapSet k t ds)

/-- One turn of the big loop (sarflags/sarflags.go:353-524) for the members that are one text or number. -/
def confStep (cv : Conv F) (c : Conf) (k : String) (v : Json F) : Out Conf :=
  if k = "v4multicast" then do let s ← v.asStr; pure { c with v4multicast := s }
  else if k = "v6multicast" then do let s ← v.asStr; pure { c with v6multicast := s }
  else if k = "udpport" then do let x ← v.asNum; pure { c with port := cv.int x }
  else if k = "descriptor" then do let s ← v.asStr; pure { c with descriptor := s }
  else if k = "csumtype" then do let s ← v.asStr; pure { c with csumtype := s }
  else if k = "freespace" then do let s ← v.asStr; pure { c with freespace := s }
  else if k = "txwilling" then do let s ← v.asStr; pure { c with txwilling := s }
  else if k = "rxwilling" then do let s ← v.asStr; pure { c with rxwilling := s }
  else if k = "stream" then do let s ← v.asStr; pure { c with stream := s }
  else if k = "reqtstamp" then do let s ← v.asStr; pure { c with reqtstamp := s }
  else if k = "reqstatus" then do let s ← v.asStr; pure { c with reqstatus := s }
  else if k = "udplite" then do let s ← v.asStr; pure { c with udplite := s }
  else if k = "timestamp" then do let s ← v.asStr; pure { c with timestamp := s }
  else if k = "timezone" then do let s ← v.asStr; pure { c with timezone := s }
  else if k = "sardir" then do let s ← v.asStr; pure { c with sardir := s }
  else if k = "prompt" then do let s ← v.asStr; pure { c with prompt := s }
  else if k = "ppad" then do let x ← v.asNum; pure { c with ppad := cv.int x }
  else if k = "buffersize" then do let x ← v.asNum; pure { c with buffersize := cv.int x }
  else if k = "bcount" then do let x ← v.asNum; pure { c with bcount := cv.uint x }
  else .ret c

/-- One turn of the big loop (sarflags/sarflags.go:353-524). -/
def loadStep (cv : Conv F) (st : Loading) (k : String) (v : Json F) : Out Loading :=
  if k = "timeout" then do
    let m ← v.asObj
    let t ← eachMember (timerStep cv) st.conf.timeout m
    pure { st with conf := { st.conf with timeout := t } }
  else if k = "commands" then do
    let m ← v.asObj
    let cs ← eachMember commandsStep st.commands m
    pure { st with commands := cs }
  else if k = "frameflags" then do
    let m ← v.asObj
    let ff ← eachMember frameflagsStep st.tables.frameflags m
    pure { st with tables := { st.tables with frameflags := ff } }
  else if k = "flags" then do
    let m ← v.asObj
    let fs ← eachMember (flagsStep cv) st.tables.flags m
    pure { st with tables := { st.tables with flags := fs } }
  else if k = "direntflags" then do
    let m ← v.asObj
    let ds ← eachMember (direntStep cv) st.tables.dirent m
    pure { st with tables := { st.tables with dirent := ds } }
  else if k = "timestamps" then do
    let m ← v.asObj
    let t ← eachMember (fieldStep cv.u8) st.tables.ts m
    pure { st with tables := { st.tables with ts := t } }
  else do
    let c ← confStep cv st.conf k v
    pure { st with conf := c }

/-- The nine assignments to the new `Global` map (sarflags/sarflags.go:527-536). -/
def Conf.global (c : Conf) : List (String × String) :=
  mapSet "descriptor" c.descriptor <| mapSet "udplite" c.udplite <| mapSet "reqstatus" c.reqstatus <|
  mapSet "reqtstamp" c.reqtstamp <| mapSet "stream" c.stream <| mapSet "rxwilling" c.rxwilling <|
  mapSet "txwilling" c.txwilling <| mapSet "freespace" c.freespace <| mapSet "csumtype" c.csumtype []

/-- The settings (sarflags/sarflags.go:526-557); `env` is the environment variable `SARDIR`. -/
def Conf.settings (c : Conf) (env : List Byte) : Cliflags where
  global := c.global
  v4multicast := c.v4multicast
  v6multicast := c.v6multicast
  port := c.port
  timestamp := c.timestamp
  timeout := c.timeout
  timezone := c.timezone
  prompt := c.prompt
  ppad := c.ppad
  sardir := if env = [] then utf8 c.sardir else env
  buffersize := c.buffersize
  bcount := c.bcount

/-- The last loop (sarflags/sarflags.go:559-564), over the flags in one order of iteration. -/
def firstInvalid (T : Tables) : List (String × String) → Option Err
  | [] => none
  | (f, v) :: rest => if valid T f v = false then some ("Invalid Flag:" ++ f ++ "=" ++ v) else firstInvalid T rest

/-- What a call of `ReadConfig` leaves behind: the settings, the global tables and the commands
(sarflags/sarflags.go:322-566). -/
structure Loaded where
  settings : Cliflags
  tables : Tables
  commands : CmdTable
deriving DecidableEq, Repr

/-- `ReadConfig` (sarflags/sarflags.go:322-566) on a decoded document. The four maps are made new at the start,
`TimeStamps` keeps its old value `oldTs` unless the document changes it. `iter` is the order in which the last
loop visits the flags. `getmaxdesc` cannot fail on a 64 bit machine and is left out. -/
def readConfig (cv : Conv F) (iter : List (String × String) → List (String × String)) (env : List Byte)
    (oldTs : FlagType 8) (doc : List (String × Json F)) : Out (Loaded × Option Err) := do
  let st ← eachMember (loadStep cv) ⟨Conf.zero, ⟨[], [], oldTs, []⟩, []⟩ doc
  let c := st.conf.settings env
  pure (⟨c, st.tables, st.commands⟩, firstInvalid st.tables (iter c.global))

end Saratoga
