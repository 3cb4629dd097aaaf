import Verif.Model.Cliflags
/-!
# Model of the settings commands (`sarwin/sarwin.go`)

Every handler is a function of the settings and the words of the command line (`args[0]` is the command).
It gives the settings afterwards and the lines printed, in order; the colours are left out. A handler holds
`Climu` from start to end, so handlers run one after another.
-/
namespace Saratoga

/-- A line printed in the message window or in the error window (sarwin/sarwin.go:130-132, 150-152). -/
inductive Shown where
  | msg (s : String)
  | err (s : String)
deriving DecidableEq, Repr

/-- `Cmdtype` (sarflags/sarflags.go:196-199). -/
structure CmdText where
  usage : String
  help : String
deriving DecidableEq, Repr

/-- `sarflags.Commands` (sarflags/sarflags.go:196-202). -/
abbrev CmdTable := List (String × CmdText)

/-- `prhelp` (sarwin/sarwin.go:664-671). -/
def prhelp (H : CmdTable) (cf : String) : String :=
  match assoc cf H with
  | some t => cf ++ ":" ++ t.help
  | none => "Invalid Command"

/-- `prusage` (sarwin/sarwin.go:674-681). -/
def prusage (H : CmdTable) (cf : String) : String :=
  match assoc cf H with
  | some t => "usage:" ++ t.usage
  | none => "Invalid Command"

/-- The answer to `<command> ?` (sarwin/sarwin.go:664-681). -/
def helpLines (H : CmdTable) (cf : String) : List Shown := [.msg (prhelp H cf), .msg (prusage H cf)]

/-- `sarflags.Cliflag.Global[k]` (as at sarwin/sarwin.go:1372-1403). -/
def Cliflags.flag (c : Cliflags) (k : String) : String := (assoc k c.global).getD ""

/-- `sarflags.Cliflag.Global[k] = v` (as at sarwin/sarwin.go:1372-1403). -/
def Cliflags.setFlag (c : Cliflags) (k v : String) : Cliflags := { c with global := mapSet k v c.global }

/-- `cmdChecksum` (sarwin/sarwin.go:1372-1403). -/
def cmdChecksum (H : CmdTable) (c : Cliflags) : List String → Cliflags × List Shown
  | [_] => (c, [.msg ("Checksum " ++ c.flag "csumtype")])
  | [_, a] =>
    if a = "?" then (c, helpLines H "checksum")
    else if a = "off" ∨ a = "none" then done "none"
    else if a = "crc32" then done "crc32"
    else if a = "md5" then done "md5"
    else if a = "sha1" then done "sha1"
    else (c, [.err (prusage H "checksum")])
  | _ => (c, [.err (prusage H "checksum"), .err (prusage H "checksum")])
where
  done (v : String) : Cliflags × List Shown :=
    let c := c.setFlag "csumtype" v
    (c, [.msg ("Checksum " ++ c.flag "csumtype")])

/-- `cmdDescriptor` (sarwin/sarwin.go:1441-1498) on a 64 bit machine: `MaxUint` equals `MaxUint64`, so
`auto` gives `d64` and `d16`, `d32` and `d64` are supported. -/
def cmdDescriptor (H : CmdTable) (c : Cliflags) : List String → Cliflags × List Shown
  | [_] => (c, [.msg ("Descriptor " ++ c.flag "descriptor")])
  | [_, a] =>
    if a = "?" then (c, helpLines H "descriptor")
    else if a = "auto" then done (c.setFlag "descriptor" "d64") []
    else if a = "d16" then done (c.setFlag "descriptor" "d16") []
    else if a = "d32" then done (c.setFlag "descriptor" "d32") []
    else if a = "d64" then done (c.setFlag "descriptor" "d64") []
    else if a = "d128" then done c [.msg "128 bit descriptors not supported on this platform"]
    else done c [.err ("usage:" ++ prusage H "descriptor")]
  | _ => (c, [.err ("usage:" ++ prusage H "descriptor")])
where
  done (c : Cliflags) (before : List Shown) : Cliflags × List Shown :=
    (c, before ++ [.msg ("Descriptor size is " ++ c.flag "descriptor")])

/-- `cmdFreespace` (sarwin/sarwin.go:1546-1575). -/
def cmdFreespace (H : CmdTable) (c : Cliflags) : List String → Cliflags × List Shown
  | [_] =>
    (c, [.msg (if c.flag "freespace" = "yes" then "Free space is advertised" else "Free space is not advertised")])
  | [_, a] =>
    if a = "?" then (c, helpLines H "freespace")
    else if a = "yes" then (c.setFlag "freespace" "yes", [.msg "freespace is advertised"])
    else if a = "no" then (c.setFlag "freespace" "no", [.msg "freespace is not advertised"])
    else (c, [.err ("usage:" ++ prusage H "freespace")])
  | _ => (c, [.err ("usage:" ++ prusage H "freespace")])

/-- `cmdReqtstamp` (sarwin/sarwin.go:2009-2036). -/
def cmdReqtstamp (H : CmdTable) (c : Cliflags) : List String → Cliflags × List Shown
  | [_] =>
    (c, [.msg (if c.flag "reqtstamp" = "yes" then "Time stamps requested" else "Time stamps not requested")])
  | [_, a] =>
    if a = "?" then (c, helpLines H "reqtstamp")
    else if a = "yes" then (c.setFlag "reqtstamp" "yes", [])
    else if a = "no" then (c.setFlag "reqtstamp" "no", [])
    else (c, [.err ("usage:" ++ prusage H "reqtstamp")])
  | _ => (c, [.err ("usage:" ++ prusage H "reqtstamp")])

/-- `cmdRxwilling` (sarwin/sarwin.go:2109-2135). -/
def cmdRxwilling (H : CmdTable) (c : Cliflags) : List String → Cliflags × List Shown
  | [_] => (c, [.msg ("Receive Files:" ++ c.flag "rxwilling")])
  | [_, a] =>
    if a = "?" then (c, helpLines H "rxwilling")
    else if a = "on" then (c.setFlag "rxwilling" "yes", [])
    else if a = "off" then (c.setFlag "rxwilling" "no", [])
    else if a = "capable" then (c.setFlag "rxwilling" "capable", [])
    else (c, [.err (prusage H "rxwilling")])
  | _ => (c, [.err (prusage H "rxwilling")])

/-- `cmdStream` (sarwin/sarwin.go:2139-2166). -/
def cmdStream (H : CmdTable) (c : Cliflags) : List String → Cliflags × List Shown
  | [_] => (c, [.msg (if c.flag "stream" = "yes" then "Can stream" else "Cannot stream")])
  | [_, a] =>
    if a = "?" then (c, helpLines H "stream")
    else if a = "yes" then (c.setFlag "stream" "yes", [])
    else if a = "no" then (c.setFlag "stream" "no", [])
    else (c, [.err (prusage H "stream")])
  | _ => (c, [.err (prusage H "stream")])

/-- `cmdTxwilling` (sarwin/sarwin.go:2408-2434). It stores `on` and `off` as typed. -/
def cmdTxwilling (H : CmdTable) (c : Cliflags) : List String → Cliflags × List Shown
  | [_] => (c, [.msg ("Transmit Files:" ++ c.flag "txwilling")])
  | [_, a] =>
    if a = "?" then (c, helpLines H "txwilling")
    else if a = "on" then (c.setFlag "txwilling" "on", [])
    else if a = "off" then (c.setFlag "txwilling" "off", [])
    else if a = "capable" then (c.setFlag "txwilling" "capable", [])
    else (c, [.err (prusage H "txwilling")])
  | _ => (c, [.err (prusage H "txwilling")])

/-- `cmdTimestamp` (sarwin/sarwin.go:2313-2354). -/
def cmdTimestamp (H : CmdTable) (c : Cliflags) : List String → Cliflags × List Shown
  | [_] => (c, [.msg ("Timestamps are " ++ c.flag "reqtstamp" ++ " and " ++ c.timestamp)])
  | [_, a] =>
    if a = "?" then (c, helpLines H "timestamp")
    else if a = "off" then (c.setFlag "reqtstamp" "no", [])
    else if a = "32" then use "posix32"
    else if a = "32_32" then use "posix32_32"
    else if a = "64" then use "posix64"
    else if a = "64_32" then use "posix64_32"
    else if a = "32_y2k" then use "epoch2000_32"
    else if a = "local" then use "localinterp"
    else (c, [.err (prusage H "timestamp")])
  | _ => (c, [.err (prusage H "timestamp")])
where
  use (ts : String) : Cliflags × List Shown := ({ c.setFlag "reqtstamp" "yes" with timestamp := ts }, [])

/-- `cmdTimezone` (sarwin/sarwin.go:2357-2380). -/
def cmdTimezone (H : CmdTable) (c : Cliflags) : List String → Cliflags × List Shown
  | [_] => (c, [.msg ("Timezone:" ++ c.timezone)])
  | [_, a] =>
    if a = "?" then (c, helpLines H "timezone")
    else if a = "local" then ({ c with timezone := "local" }, [])
    else if a = "utc" then ({ c with timezone := "utc" }, [])
    else (c, [.err (prusage H "timezone")])
  | _ => (c, [.err (prusage H "timezone")])

/-- `cmdBcount` (sarwin/sarwin.go:1697-1720). -/
def cmdBcount (H : CmdTable) (c : Cliflags) : List String → Cliflags × List Shown
  | [_] => (c, [.msg (toString c.bcount ++ " Beacons to be sent")])
  | [_, a] =>
    if a = "?" then (c, helpLines H "bcount")
    else match atoi a with
      | some n => if n ≥ 0 then ({ c with bcount := n.toNat }, []) else bad
      | none => bad
  | _ => (c, [.err (prusage H "bcount")])
where
  bad : Cliflags × List Shown := (c, [.err (prusage H "bcount"), .err (prusage H "bcount")])

/-- `cmdInterval` (sarwin/sarwin.go:1722-1753). -/
def cmdInterval (H : CmdTable) (c : Cliflags) : List String → Cliflags × List Shown
  | [_] =>
    (c, [.msg (if c.timeout.binterval = 0 then "Single Beacon Interation"
      else "Beacons sent every " ++ toString c.timeout.binterval ++ " seconds")])
  | [_, a] =>
    if a = "?" then (c, helpLines H "interval")
    else if a = "off" then set 0
    else match atoi a with
      | some n => if n ≥ 0 then set n.toNat else bad
      | none => bad
  | _ => (c, [.err (prusage H "interval")])
where
  set (n : Nat) : Cliflags × List Shown := ({ c with timeout := { c.timeout with binterval := n } }, [])
  bad : Cliflags × List Shown := (c, [.err (prusage H "interval"), .err (prusage H "interval")])

/-- The text for a timer: `<name>:No Timeout` or `<name>:<n> sec`. The first number decides, the second is
printed: `timeout metadata` looks at the request timer (sarwin/sarwin.go:2213-2218). -/
def timerText (name : String) (test shown : Int) : String :=
  if test = 0 then name ++ ":No Timeout" else name ++ ":" ++ toString shown ++ " sec"

/-- `cmdTimeout` (sarwin/sarwin.go:2169-2310). -/
def cmdTimeout (H : CmdTable) (c : Cliflags) : List String → Cliflags × List Shown
  | [_] =>
    let t := c.timeout
    let (t', d) := if t.datacounter = 0 then ({ t with datacounter := 100 }, "Data Counter every 100 frames")
      else (t, "datacounter:" ++ toString t.datacounter ++ " frames")
    ({ c with timeout := t' },
      [.msg (timerText "metadata" t.metadata t.metadata), .msg (timerText "request" t.request t.request),
       .msg (timerText "status" t.status t.status), .msg d,
       .msg (timerText "transfer" t.transfer t.transfer)])
  | [_, a] =>
    let t := c.timeout
    if a = "?" then (c, helpLines H "timeout")
    else if a = "request" then (c, [.msg (timerText "request" t.request t.request)])
    else if a = "metadata" then (c, [.msg (timerText "metadata" t.request t.metadata)])
    else if a = "status" then (c, [.msg (timerText "status" t.status t.status)])
    else if a = "datacounter" then
      if t.datacounter = 0 then set { t with datacounter := 100 } "datacounter:Never"
      else (c, [.msg ("datacounter:" ++ toString t.datacounter ++ " frames")])
    else if a = "transfer" then (c, [.msg (timerText "transfer" t.transfer t.transfer)])
    else (c, [.err (prusage H "timeout")])
  | [_, a, b] =>
    let t := c.timeout
    match (atoi b).filter (· ≥ 0) with
    | some n =>
      if a = "metadata" then set { t with metadata := n } (timerText "metadata" n n)
      else if a = "request" then set { t with request := n } (timerText "request" n n)
      else if a = "status" then set { t with status := n } (timerText "status" n n)
      else if a = "datacounter" then
        if n = 0 then set { t with datacounter := 100 } "datacounter:Default set to every 100 frames"
        else set { t with datacounter := n } ("datacounter:" ++ toString n ++ " frames")
      else if a = "transfer" then set { t with transfer := n } (timerText "transfer" n n)
      else (c, [.err (prusage H "timeout")])
    | none =>
      if b = "off" then
        if a = "metadata" then set { t with metadata := 60 } "metadata:60 sec"
        else if a = "request" then set { t with request := 60 } "request:60 sec"
        else if a = "status" then set { t with status := 60 } "status:60 sec"
        else if a = "datacounter" then set { t with datacounter := 100 } "datacounter:100 frames"
        else if a = "transfer" then set { t with transfer := 60 } "transfer:60 sec"
        else (c, [])
      else (c, [.err (prusage H "timeout")])
  | _ => (c, [.err (prusage H "timeout")])
where
  set (t : Timeouts) (m : String) : Cliflags × List Shown := ({ c with timeout := t }, [.msg m])

/-- The entries of `cmdhandler` (sarwin/sarwin.go:2459-2494) that read or write the settings. -/
def settingHandlers : List (String × (CmdTable → Cliflags → List String → Cliflags × List Shown)) :=
  [("bcount", cmdBcount), ("checksum", cmdChecksum), ("descriptor", cmdDescriptor),
   ("freespace", cmdFreespace), ("interval", cmdInterval), ("reqtstamp", cmdReqtstamp),
   ("rxwilling", cmdRxwilling), ("stream", cmdStream), ("timeout", cmdTimeout),
   ("timestamp", cmdTimestamp), ("timezone", cmdTimezone), ("txwilling", cmdTxwilling)]

/-- A settings command line, given as its words: the handler of `args[0]`. Other words change no
settings (sarwin/sarwin.go:2459-2521). -/
def settingCmd (H : CmdTable) (c : Cliflags) (args : List String) : Cliflags × List Shown :=
  match args with
  | [] => (c, [])
  | name :: _ =>
    match assoc name settingHandlers with
    | some fn => fn H c args
    | none => (c, [])

/-- The settings after a sequence of command lines (sarwin/sarwin.go:2497-2521). -/
def settingRun (H : CmdTable) (c : Cliflags) (lines : List (List String)) : Cliflags :=
  lines.foldl (fun c args => (settingCmd H c args).1) c

end Saratoga
