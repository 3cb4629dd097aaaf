import Verif.Model.Beacon
import Verif.Model.Sarnet
import Verif.Model.Settings
/-!
# Model of the beacon command (`sarwin/sarwin.go` lines 699-727 and 1262-1366)

`cmdBeacon` holds `Climu` from start to end, so it runs alone among the commands. What it does is a list of
acts in order; a call that ends the process has none. Colours are left out.
-/
namespace Saratoga

/-- `Beaconcmd` (sarwin/sarwin.go:1263-1270), the type of the global `clibeacon`. -/
structure BeaconState where
  flags : String
  count : Nat
  interval : Nat
  v4mcast : Bool
  v6mcast : Bool
  hosts : List UDPAddr
deriving DecidableEq, Repr

/-- `var clibeacon Beaconcmd` (sarwin/sarwin.go:1272). -/
def BeaconState.init : BeaconState := ⟨"", 0, 0, false, false, []⟩

/-- What the command does: print a line, put a frame on the wire, or sleep so many nanoseconds
(sarwin/sarwin.go:699-729, 1276-1366). -/
inductive BeaconAct where
  | show (s : Shown)
  | send (dest : UDPAddr) (frame : List Byte)
  | sleep (nanoseconds : Int)
deriving DecidableEq, Repr

/-- The outside world during one command: `str` is `net.UDPAddr.String`, `resolve` is
`net.ResolveUDPAddr("udp", ·)`, `dial` is `net.DialUDP("udp", nil, ·)` with the local address text of the
connection, `pid` is `os.Getpid()`, `disk` the answers to `Getwd` and `Statfs`, `fails` the answer to write
number `i` to an address (a short write counts as a failure too) (asked at sarwin/sarwin.go:699-729, 1276-1366). -/
structure BeaconEnv where
  H : CmdTable
  T : Tables
  str : UDPAddr → String
  resolve : String → Except Err UDPAddr
  dial : UDPAddr → Except Err String
  pid : Nat
  disk : DiskEnv
  fails : UDPAddr → Nat → Option Err

/-- `time.Duration(clib.interval) * time.Second`: 64 bit numbers that wrap around (sarwin/sarwin.go:699-729). -/
def sleepTime (interval : Nat) : Int := (BitVec.ofNat 64 interval * 1000000000#64).toInt

/-- The loop of `sendbeacons` (sarwin/sarwin.go:718-726) with `n` rounds to go, this being write number `i`.
`Beacon.Send` (beacon/beacon.go:305-325) is the encoding and the write. -/
def beaconLoop (E : BeaconEnv) (addr : UDPAddr) (txb : Beacon) (interval : Nat) :
    Nat → Nat → Out (List BeaconAct)
  | 0, _ => .ret []
  | n + 1, i => do
    match ← txb.encode E.T with
    | .error e => pure [.show (.err ("Error:" ++ e ++ " Unable to send beacon to " ++ E.str addr))]
    | .ok frame =>
      match E.fails addr i with
      | some e => pure [.show (.err ("Error:" ++ e ++ " Unable to send beacon to " ++ E.str addr))]
      | none => do
        txb.shortPrint E.T
        let rest ← beaconLoop E addr txb interval n (i + 1)
        pure (.send addr frame :: .sleep (sleepTime interval) :: rest)

/-- `sendbeacons` (sarwin/sarwin.go:699-727). -/
def sendBeacons (E : BeaconEnv) (b : BeaconState) (addr : UDPAddr) : Out (List BeaconAct) :=
  match E.dial addr with
  | .error e => .ret [.show (.err ("Error:" ++ e ++ "Unable to Dial" ++ E.str addr))]
  | .ok local_ => do
    let (txb, e) ← Beacon.new E.T E.disk Beacon.zero b.flags ⟨0, utf8 (local_ ++ "-" ++ toString E.pid)⟩
    match e with
    | some e => pure [.show (.msg ("Sending beacon to " ++ E.str addr)), .show (.err ("New Beacon Error:" ++ e))]
    | none => do
      let acts ← beaconLoop E addr txb b.interval b.count 0
      pure (.show (.msg ("Sending beacon to " ++ E.str addr)) :: acts)

/-- The message before beacons to one address (sarwin/sarwin.go:1339, 1357). -/
def sendingLine (E : BeaconEnv) (b : BeaconState) (addr : UDPAddr) : BeaconAct :=
  .show (.msg ("Sending " ++ toString b.count ++ " beacons to " ++ E.str addr))

/-- The two lines for a bad address (sarwin/sarwin.go:1344-1345, 1361-1362). -/
def badBeaconAddress (E : BeaconEnv) (a : String) : List BeaconAct :=
  [.show (.err ("Invalid IP Address:" ++ a)), .show (.err (prusage E.H "beacon"))]

/-- The answer to `beacon` alone (sarwin/sarwin.go:1285-1303). -/
def beaconList (E : BeaconEnv) (b : BeaconState) : List BeaconAct :=
  if b.v4mcast = false ∧ b.v6mcast = false ∧ b.hosts.length = 0 then
    [.show (.msg "No beacons currently being sent")]
  else
    (if b.v4mcast then [.show (.msg ("Sending " ++ toString b.count ++ " IPv4 multicast beacons"))] else []) ++
    (if b.v6mcast then [.show (.msg ("Sending " ++ toString b.count ++ " IPv6 multicast beacons"))] else []) ++
    (if b.hosts.length > 0 then
      .show (.msg ("Sending " ++ toString b.count ++ " beacons to:")) ::
        b.hosts.map fun h => .show (.msg ("\t" ++ E.str h))
    else [])

/-- One round of the loop over the words from the third on (sarwin/sarwin.go:1349-1363); `off` says whether
the second word is `off`. -/
def beaconWord (E : BeaconEnv) (off : Bool) (b : BeaconState) (a : String) : Out (BeaconState × List BeaconAct) :=
  match udpAddress E.resolve a with
  | .error _ => .ret (b, badBeaconAddress E a)
  | .ok addr =>
    if off then .ret ({ b with hosts := removeUDPAddrValue E.str b.hosts addr }, [])
    else do
      let acts ← sendBeacons E b addr
      pure (b, sendingLine E b addr :: acts)

/-- The loop (sarwin/sarwin.go:1349-1364). -/
def beaconWords (E : BeaconEnv) (off : Bool) : BeaconState → List String → Out (BeaconState × List BeaconAct)
  | b, [] => .ret (b, [])
  | b, a :: rest => do
    let (b, acts) ← beaconWord E off b a
    let (b, more) ← beaconWords E off b rest
    pure (b, acts ++ more)

/-- `beacon v4` and `beacon v6` after their first line and mark (sarwin/sarwin.go:1321-1323, 1330-1333). -/
def beaconMulticast (E : BeaconEnv) (b : BeaconState) (line group : String) : Out (BeaconState × List BeaconAct) :=
  match udpAddress E.resolve group with
  | .error _ => .ret (b, [.show (.msg line)])
  | .ok addr => do
    let acts ← sendBeacons E b addr
    pure (b, .show (.msg line) :: acts)

/-- `cmdBeacon` (sarwin/sarwin.go:1275-1366) on the words of a line; `args[0]` is the command. -/
def cmdBeacon (E : BeaconEnv) (c : Cliflags) (b : BeaconState) (args : List String) :
    Out (BeaconState × List BeaconAct) :=
  let b := { b with flags := setglobal E.T "beacon" c.global, interval := c.timeout.binterval, count := c.bcount }
  match args with
  | [_] => .ret (b, beaconList E b)
  | [_, a] =>
    if a = "?" then .ret (b, (helpLines E.H "beacon").map .show)
    else if a = "off" then .ret ({ b with hosts := [] }, [.show (.msg "Beacons Disabled")])
    else if a = "v4" then
      beaconMulticast E { b with v4mcast := true } "Sending beacon to IPv4 Multicast" c.v4multicast
    else if a = "v6" then
      beaconMulticast E { b with v6mcast := true } "Sending beacon to IPv6 Multicast" c.v6multicast
    else
      match udpAddress E.resolve a with
      | .ok addr => do
        let acts ← sendBeacons E b addr
        pure (b, sendingLine E b addr :: acts)
      | .error _ => .ret (b, badBeaconAddress E a)
  | _ :: a :: rest => beaconWords E (a == "off") b rest
  | [] => .ret (b, [])

/-- Commands one after another, each with its own outside world and settings (sarwin/sarwin.go:1276-1366, started at
2517). -/
def beaconRun (b : BeaconState) : List (BeaconEnv × Cliflags × List String) →
    Out (BeaconState × List BeaconAct)
  | [] => .ret (b, [])
  | (E, c, args) :: rest => do
    let (b, acts) ← cmdBeacon E c b args
    let (b, more) ← beaconRun b rest
    pure (b, acts ++ more)

end Saratoga
