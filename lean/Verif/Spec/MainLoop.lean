import Verif.Spec.Listen
import Verif.Spec.Peers
import Verif.Model.MainLoop
/-! # Specification vocabulary for executions of the program -/
namespace Saratoga

/-- `w` can be reached from the start with the files `fs`. -/
def Reachable (S : Setup) (fs : FS) (w : World) : Prop := ∃ acts, (World.init fs).run S acts = some w

/-- The datagram carries the frame: proper size, version 1, and that is what it says. -/
def Carries1 (S : Setup) (d : Datagram) (f : Frame) : Prop :=
  Sized S.mtu d.bytes ∧ getStr S.T (headWord d.bytes) "version" = .ret "v1" ∧ Says S.T d.bytes f

/-- The frames carried by datagrams, in order, with their senders; datagrams that carry none are passed
over. -/
inductive CarryAll (S : Setup) : List Datagram → List (Frame × UDPAddr) → Prop
  | nil : CarryAll S [] []
  | skip {ds fs} (d : Datagram) (none : ∀ f, ¬ Carries1 S d f) : CarryAll S ds fs → CarryAll S (ds ++ [d]) fs
  | take {ds fs} (d : Datagram) (f : Frame) (says : Carries1 S d f) :
      CarryAll S ds fs → CarryAll S (ds ++ [d]) (fs ++ [(f, d.source)])

/-- The packets the main loop has handled from one socket. -/
def World.handledFrom (w : World) (fam : Fam) : List (Frame × UDPAddr) :=
  (w.handled.filter (·.fam = fam)).map fun h => (h.frame, h.source)

/-- The packet a listener is holding out to the main loop. -/
def World.offered (w : World) (fam : Fam) : List (Frame × UDPAddr) :=
  match w.listener fam with
  | .sendRx f a => [(f, a)]
  | _ => []

/-- The beacons among the packets handled, with sender and time. -/
def sightings : List Handled → List Sighting
  | [] => []
  | ⟨_, .beacon b, a, t⟩ :: hs => ⟨a, b, t⟩ :: sightings hs
  | _ :: hs => sightings hs

/-- Some packet handled was a request. -/
def AskedFor (w : World) : Prop := ∃ h ∈ w.handled, ∃ r, h.frame = .request r

end Saratoga
