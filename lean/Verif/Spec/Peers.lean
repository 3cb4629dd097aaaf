import Verif.Model.Peers
/-! # Specification vocabulary for the peer list -/
namespace Saratoga

/-- A beacon that came in: from where, what, when. -/
structure Sighting where
  source : UDPAddr
  beacon : Beacon
  time : GoTime
deriving DecidableEq, Repr

/-- The address as it is printed. -/
def Sighting.addr (ipText : List Byte → String) (s : Sighting) : String := ipText s.source.ip

/-- The tables can read every beacon header and know the timestamp type of the list. -/
def PeerTables (T : Tables) : Prop :=
  (∀ h f, f ∈ ["descriptor", "rxwilling", "txwilling"] → (getStr T h f).returns) ∧
  goodT T "posix32_32" = true

/-- The list after beacons came in one after the other. -/
def receiveAll (T : Tables) (ipText : List Byte → String) (peers : List Peer) :
    List Sighting → Out (List Peer)
  | [] => .ret peers
  | s :: rest => do
    let (peers, _) ← newPeer T ipText s.time peers s.beacon (some s.source)
    receiveAll T ipText peers rest

/-- Each text once, in order of first appearance. -/
def firstSeen : List String → List String
  | [] => []
  | a :: rest => a :: (firstSeen rest).filter (· ≠ a)

/-- The entry shows what the beacon says. -/
def Peer.Shows (T : Tables) (p : Peer) (b : Beacon) : Prop :=
  p.freespace = b.freespace ∧ p.eid = b.eid ∧ getStr T b.header "descriptor" = .ret p.maxdesc ∧
  getStr T b.header "rxwilling" = .ret p.canrx ∧ getStr T b.header "txwilling" = .ret p.cantx

/-- The two beacons say the same. -/
def SameNews (T : Tables) (a b : Beacon) : Prop :=
  a.freespace = b.freespace ∧ a.eid = b.eid ∧
  ∀ f ∈ ["descriptor", "rxwilling", "txwilling"], getStr T a.header f = getStr T b.header f

instance (T : Tables) (a b : Beacon) : Decidable (SameNews T a b) := by
  unfold SameNews; infer_instance

/-- When the last beacon with news came, after one at `t` that said what `prev` says. -/
def newsAfter (T : Tables) (prev : Beacon) (t : GoTime) : List Sighting → GoTime
  | [] => t
  | s :: rest => newsAfter T s.beacon (if SameNews T prev s.beacon then t else s.time) rest

/-- The timestamp is that of the given time. -/
def StampOf (T : Tables) (time : GoTime) (t : Timestamp) : Prop :=
  ∃ e, Timestamp.zero.now T "posix32_32" time = .ret (t, e)

/-- The entry sums up the beacons `first :: rest` of its address: it shows the last of them, was created
at the time of the first, and updated at the time of the last that said something new. -/
def Peer.SumsUp (T : Tables) (p : Peer) (first : Sighting) (rest : List Sighting) : Prop :=
  p.Shows T ((first :: rest).getLast (by simp)).beacon ∧ StampOf T first.time p.created ∧
  StampOf T (newsAfter T first.beacon first.time rest) p.updated

end Saratoga
