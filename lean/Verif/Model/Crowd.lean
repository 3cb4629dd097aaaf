import Verif.Model.Busy
/-!
# Model of several running programs whose commands run at the same time

As `Model/Network.lean`, with programs as in `Model/Busy.lean`: a line starts a goroutine, which gets on when it likes, and
the beacons of a beacon command leave one by one while other commands run and datagrams arrive.
-/
namespace Saratoga

/-- The programs, the air, and for each machine the connections of the beacon command that was the last to get the lock:
their local addresses and, as a log no program sees, the outside world it met (sarwin/sarwin.go:699-729,
saratoga/saratoga.go:439-733). -/
structure Crowd (N : Type) where
  node : N → Busy
  air : List (Packet N)
  conns : N → Option ((UDPAddr → UDPAddr) × BeaconEnv)

/-- What can happen: somebody enters a line at a machine; a goroutine of a machine gets on, where `source` tells the local
address of each connection it makes; the beacon command that holds the lock of a machine gets on; a datagram of the air
arrives; something else happens inside a machine (sarwin/sarwin.go:575-607, 699-729, 2517, saratoga/saratoga.go:180,
605-732). -/
inductive CrowdEvent (N : Type) where
  | typed (n : N) (line : String)
  | begin (n : N) (i : Nat) (o : Replies) (source : UDPAddr → UDPAddr)
  | act (n : N)
  | arrives (n : N) (k : Nat) (fam : Fam) (clock : GoTime)
  | inside (n : N) (a : Action)

variable {N : Type} [DecidableEq N]

/-- Machine `n` goes on to `b` (saratoga/saratoga.go:439-733, one per machine). -/
def Crowd.set (w : Crowd N) (n : N) (b : Busy) : Crowd N :=
  { w with node := fun m => if m = n then b else w.node m }

/-- The connections of the command of machine `n` that gets on now, if it is a beacon command (sarwin/sarwin.go:705). -/
def Crowd.connect (P : Plant N) (w : Crowd N) (n : N) (i : Nat) (o : Replies) (source : UDPAddr → UDPAddr) :
    N → Option ((UDPAddr → UDPAddr) × BeaconEnv) :=
  match (w.node n).queue[i]? with
  | some q => if q.cmd = "beacon" then fun m => if m = n then some (source, (P.machine n).beaconEnv o) else w.conns m else w.conns
  | none => w.conns

/-- What the beacon command that holds the lock of machine `n` puts into the air when it gets on (sarwin/sarwin.go:718-726,
beacon/beacon.go:305-325). -/
def Crowd.departs (w : Crowd N) (n : N) : List (Packet N) :=
  match (w.node n).holder, w.conns n with
  | some (.send dest frame :: _), some (source, outside) =>
    [⟨source dest, dest, frame, n, (w.node n).prog.settings, outside⟩]
  | _, _ => []

/-- One step; `none` if it cannot happen (sarwin/sarwin.go:575-607, 699-729, 2517, saratoga/saratoga.go:180, 605-732). -/
def Crowd.step (P : Plant N) (w : Crowd N) : CrowdEvent N → Option (Crowd N)
  | .typed n line => ((w.node n).step (P.machine n) (.typed line)).map (w.set n)
  | .begin n i o source =>
    ((w.node n).step (P.machine n) (.begin i o)).map fun b => { w.set n b with conns := w.connect P n i o source }
  | .act n => ((w.node n).step (P.machine n) .act).map fun b => { w.set n b with air := w.air ++ w.departs n }
  | .arrives n k fam clock =>
    match w.air[k]? with
    | none => none
    | some d =>
      if P.hears n d.dest then
        ((w.node n).step (P.machine n) (.net (.recv ⟨fam, clock, d.bytes, d.source⟩))).map (w.set n)
      else none
  | .inside _ (.recv _) => none
  | .inside n a => ((w.node n).step (P.machine n) (.net a)).map (w.set n)

/-- An execution (saratoga/saratoga.go:439-733, one per machine). -/
def Crowd.run (P : Plant N) (w : Crowd N) : List (CrowdEvent N) → Option (Crowd N)
  | [] => some w
  | e :: es => (w.step P e).bind fun w => w.run P es

/-- All programs just started, nothing in the air (saratoga/saratoga.go:600-605). -/
def Crowd.init (fs : N → FS) (c : N → Cliflags) : Crowd N := ⟨fun n => Busy.init (fs n) (c n), [], fun _ => none⟩

end Saratoga
