import Verif.Spec.MainLoop
import Verif.Spec.Trans
import Verif.Model.Receive
/-! # Specification vocabulary for what is printed about datagrams -/
namespace Saratoga

/-- The sender a line about a datagram names. -/
def Told.about : Told → Option UDPAddr
  | .tooShort a => some a
  | .tooLong _ a => some a
  | .otherVersion a => some a
  | .badBeacon a => some a
  | .badRequest a => some a
  | .badData a _ => some a
  | .badMetadata a _ => some a
  | .badStatus a _ => some a
  | .unknownType a => some a
  | _ => none

/-- What is printed in the error window. -/
def errorLines (ls : List Said) : List Told := (ls.filter (·.board = .err)).map Said.told

/-- The session number a datagram carries in its bytes 4 to 7. -/
def wordFour (dg : List Byte) : BitVec 32 := BitVec.ofNat 32 (beNum ((dg.drop 4).take 4))

/-- A datagram of a size and version the listener looks into, of the given type, that says nothing. -/
def Unreadable (mtu : Nat) (dg : List Byte) (type : Nat) : Prop :=
  Sized mtu dg ∧ versionNumber (headWord dg) = 1 ∧ typeNumber (headWord dg) = type ∧ ∀ f, ¬ Says shipped dg f

/-- What the line tells is what is wrong with the datagram, by the layout of the shipped tables. -/
def Faulty (mtu : Nat) (dg : List Byte) : Told → Prop
  | .tooShort _ => dg.length < 8
  | .tooLong n _ => 8 ≤ dg.length ∧ mtu < dg.length + 60 ∧ n = min dg.length (mtu + 40)
  | .otherVersion _ => Sized mtu dg ∧ versionNumber (headWord dg) = 0
  | .badBeacon _ => Unreadable mtu dg 0
  | .badRequest _ => Unreadable mtu dg 1
  | .badMetadata _ s => Unreadable mtu dg 2 ∧ s = wordFour dg
  | .badData _ s => Unreadable mtu dg 3 ∧ s = if dg.length < 10 then 0 else wordFour dg
  | .badStatus _ s => Unreadable mtu dg 4 ∧ s = wordFour dg
  | _ => False

/-- `k` can be reached from the start with the files `fs`. -/
def Spoken.Reached (S : Setup) (fs : FS) (k : Spoken) : Prop := ∃ acts, (Spoken.init fs).run S acts = some k

/-- The senders of the datagrams that carry no frame, in order. -/
inductive DropAll (S : Setup) : List Datagram → List UDPAddr → Prop
  | nil : DropAll S [] []
  | carried {ds as} (d : Datagram) (f : Frame) (says : Carries1 S d f) : DropAll S ds as → DropAll S (ds ++ [d]) as
  | dropped {ds as} (d : Datagram) (none : ∀ f, ¬ Carries1 S d f) :
      DropAll S ds as → DropAll S (ds ++ [d]) (as ++ [d.source])

/-- The frame a line "Rx" shows. -/
def Said.shown : Said → Option Frame
  | ⟨.packet, .rx f⟩ => some f
  | _ => none

/-- The status a line about a reply shows. -/
def Said.reply : Said → Option Status
  | ⟨.msg, .toSend s⟩ => some s
  | _ => none

/-- The error code that goes with a line about a request. -/
def Told.code : Told → Option String
  | .udplite => some "badrequest"
  | .streams => some "badrequest"
  | .unknownRequest => some "badrequest"
  | .rxInvalid => some "cantreceive"
  | .rxUnwilling _ => some "cantreceive"
  | .txInvalid => some "cantsend"
  | .txUnwilling _ => some "cantsend"
  | .missing _ _ => some "filenotfound"
  | .notRemoved _ => some "didnotdelete"
  | .present _ _ => some "fileinuse"
  | _ => none

/-- What the line tells of the request `q` for the file `fname` is so. -/
def Told.IsSo (q : Asked) (fname : List Byte) : Told → Prop
  | .udplite => q.udplite ≠ "no"
  | .streams => q.stream ≠ "no"
  | .rxInvalid => q.rxwilling = "invalid"
  | .txInvalid => q.txwilling = "invalid"
  | .rxUnwilling s => s = q.rxwilling ∧ s ≠ "yes"
  | .txUnwilling s => s = q.txwilling ∧ s ≠ "yes"
  | .missing f t => f = fname ∧ t = q.reqtype ∧ q.present = false
  | .notRemoved f => f = fname ∧ q.removable = false
  | .present f t => f = fname ∧ t = q.reqtype ∧ q.present = true
  | .unknownRequest => q.reqtype ∉ ["get", "getdir", "take", "put", "give", "delete"]
  | _ => False

end Saratoga
