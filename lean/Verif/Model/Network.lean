import Verif.Model.Program
/-!
# Model of several running programs and the network between them

Any number of programs (`Model/Program.lean`), each on a machine of its own. What they put on the wire stays in the air
and may arrive anywhere it is heard, at any time, in any order, never, or many times. Nobody else sends.

The beacon command is the only part of a running program that puts something on the wire. The replies of the listeners
are printed (saratoga/saratoga.go:672-721), the main loop cannot send its own (C44), and `Status.Send` on the connection
of a transfer is refused by the system (sarwin/sarwin.go:1179, C109). There is no other call of a `Send` outside the old
client (`Write` and `WriteTo` in beacon/beacon.go:317, data/data.go:307, metadata/metadata.go:327, request/request.go:179,
status/status.go:367).
-/
namespace Saratoga

/-- The frames among the acts of a beacon command, with their destinations (sarwin/sarwin.go:699-729). -/
def framesOf : List BeaconAct → List (UDPAddr × List Byte)
  | [] => []
  | .send dest frame :: acts => (dest, frame) :: framesOf acts
  | _ :: acts => framesOf acts

/-- What entering a line puts on the wire (sarwin/sarwin.go:575-607, 718-726). A beacon command that ends the process does
so at its first beacon, before it has sent one: `Beacon.New` either always or never gets past the flags it is given. -/
def Program.emits (M : Machine) (o : Replies) (p : Program) (line : String) : List (UDPAddr × List Byte) :=
  match getLine (M.H.map Prod.fst) cmdHandlers line with
  | .ret (.started cmd args) =>
    if cmd = "beacon" then
      match cmdBeacon (M.beaconEnv o) p.settings p.beacon args with
      | .ret (_, acts) => framesOf acts
      | _ => []
    else []
  | _ => []

/-- A datagram in the air. The last three fields are a log no program sees: who sent it, with which settings, in which
outside world (beacon/beacon.go:305-325). -/
structure Packet (N : Type) where
  source : UDPAddr
  dest : UDPAddr
  bytes : List Byte
  sender : N
  settings : Cliflags
  outside : BeaconEnv

/-- What does not change: the machines, and which addresses a machine hears (its own and the multicast groups it has
joined) (saratoga/saratoga.go:531-560). -/
structure Plant (N : Type) where
  machine : N → Machine
  hears : N → UDPAddr → Bool

/-- The programs and the air (saratoga/saratoga.go:439-733, one per machine). -/
structure Network (N : Type) where
  node : N → Program
  air : List (Packet N)

/-- What can happen: somebody enters a line at a machine, where `source` tells the local address of each connection made;
a datagram of the air arrives; something else happens inside a machine (sarwin/sarwin.go:575-607,
saratoga/saratoga.go:180, 605-732). -/
inductive NetEvent (N : Type) where
  | typed (n : N) (line : String) (o : Replies) (source : UDPAddr → UDPAddr)
  | arrives (n : N) (k : Nat) (fam : Fam) (clock : GoTime)
  | inside (n : N) (a : Action)

variable {N : Type} [DecidableEq N]

/-- Machine `n` goes on to `p` (saratoga/saratoga.go:439-733, one per machine). -/
def Network.set (w : Network N) (n : N) (p : Program) : Network N :=
  { w with node := fun m => if m = n then p else w.node m }

/-- What a line entered at machine `n` adds to the air (sarwin/sarwin.go:699-729, beacon/beacon.go:305-325). -/
def Network.sent (P : Plant N) (w : Network N) (n : N) (line : String) (o : Replies) (source : UDPAddr → UDPAddr) :
    List (Packet N) :=
  ((w.node n).emits (P.machine n) o line).map fun f =>
    ⟨source f.1, f.1, f.2, n, (w.node n).settings, (P.machine n).beaconEnv o⟩

/-- One step; `none` if it cannot happen (sarwin/sarwin.go:575-607, saratoga/saratoga.go:180, 605-732). -/
def Network.step (P : Plant N) (w : Network N) : NetEvent N → Option (Network N)
  | .typed n line o source =>
    ((w.node n).step (P.machine n) (.typed line o)).map fun p =>
      { w.set n p with air := w.air ++ w.sent P n line o source }
  | .arrives n k fam clock =>
    match w.air[k]? with
    | none => none
    | some d =>
      if P.hears n d.dest then
        ((w.node n).step (P.machine n) (.net (.recv ⟨fam, clock, d.bytes, d.source⟩))).map (w.set n)
      else none
  | .inside _ (.recv _) => none
  | .inside n a => ((w.node n).step (P.machine n) (.net a)).map (w.set n)

/-- An execution (saratoga/saratoga.go:439-733, one per machine). -/
def Network.run (P : Plant N) (w : Network N) : List (NetEvent N) → Option (Network N)
  | [] => some w
  | e :: es => (w.step P e).bind fun w => w.run P es

/-- All programs just started, nothing in the air (saratoga/saratoga.go:600-605). -/
def Network.init (fs : N → FS) (c : N → Cliflags) : Network N := ⟨fun n => Program.init (fs n) (c n), []⟩

end Saratoga
