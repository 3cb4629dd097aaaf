import Verif.Spec.Frame
import Verif.Spec.Request
import Verif.Model.Listen
/-! # Specification vocabulary for the listener -/
namespace Saratoga

/-! Layout of the header under the shipped tables. -/

/-- 1 = version 1. -/
def versionNumber (h : BitVec 32) : Nat := bitsAt h 29 3
/-- 0 = beacon, 1 = request, 2 = metadata, 3 = data, 4 = status. -/
def typeNumber (h : BitVec 32) : Nat := bitsAt h 24 5
/-- The error code of a status frame. -/
def errcodeNumber (h : BitVec 32) : Nat := bitsAt h 0 8

/-- A size the listener looks at: at least 8 bytes and at most the MTU less 60. -/
def Sized (mtu : Nat) (datagram : List Byte) : Prop :=
  8 ≤ datagram.length ∧ datagram.length + 60 ≤ mtu

instance (mtu : Nat) (dg : List Byte) : Decidable (Sized mtu dg) := by unfold Sized; infer_instance

/-- A status frame that the decoder can make sense of, if it copes with it at all. -/
def StatusComplete (f : List Byte) : Prop :=
  12 ≤ f.length ∧ descNumber (headWord f) < 3 ∧
    (stampNumber (headWord f) = 0 ∨ ∃ kind, f[8]? = some kind ∧ kind.toNat ≠ 0)

/-- `f` is what the bytes say, read into an empty variable of the type the header names. -/
def Says (T : Tables) (bytes : List Byte) : Frame → Prop
  | .beacon b => getStr T (headWord bytes) "frametype" = .ret "beacon" ∧
      Beacon.zero.decode T bytes = .ret (b, none)
  | .request r => getStr T (headWord bytes) "frametype" = .ret "request" ∧
      Request.zero.decode bytes = .ret (r, none)
  | .data d => getStr T (headWord bytes) "frametype" = .ret "data" ∧
      Data.zero.decode T bytes = .ret (d, none)
  | .metadata m => getStr T (headWord bytes) "frametype" = .ret "metadata" ∧
      MetaData.zero.decode T bytes = .ret (m, none)
  | .status s => getStr T (headWord bytes) "frametype" = .ret "status" ∧
      Status.zero.decode T bytes = .ret (s, none)

end Saratoga
