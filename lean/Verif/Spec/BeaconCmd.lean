import Verif.Model.BeaconCmd
import Verif.Model.Shipped
import Verif.Spec.Global
/-! # Specification vocabulary for the beacon command -/
namespace Saratoga

/-- The frames put on the wire, in order, with their destinations. -/
def sends (acts : List BeaconAct) : List (UDPAddr × List Byte) :=
  acts.filterMap fun a => match a with
    | .send d f => some (d, f)
    | _ => none

/-- The pauses, in nanoseconds. -/
def sleeps (acts : List BeaconAct) : List Int :=
  acts.filterMap fun a => match a with
    | .sleep n => some n
    | _ => none

/-- The address a word of the command means: `beacon [off] [v4|v6|<ip>...]`. -/
def meant (E : BeaconEnv) (c : Cliflags) (word : String) : Option UDPAddr :=
  (udpAddress E.resolve
    (if word = "v4" then c.v4multicast else if word = "v6" then c.v6multicast else word)).toOption

/-- Nothing goes wrong outside: the disk answers, every address can be dialled and every write succeeds. -/
structure BeaconEnv.Works (E : BeaconEnv) : Prop where
  tables : E.T = shipped
  wd : E.disk.getwd = none
  disk : ∃ bs ba, E.disk.statfs = .ok (bs, ba)
  dials : ∀ a, ∃ l, E.dial a = .ok l
  writes : ∀ a i, E.fails a i = none

/-- The name a beacon carries: local address and process number. -/
def BeaconEnv.eid (E : BeaconEnv) (a : UDPAddr) : List Byte :=
  match E.dial a with
  | .ok l => utf8 (l ++ "-" ++ toString E.pid)
  | .error _ => []

end Saratoga
