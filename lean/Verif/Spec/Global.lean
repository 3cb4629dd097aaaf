import Verif.Spec.New
/-! # Specification vocabulary for the user's global settings -/
namespace Saratoga

/-- The settings a user has (`Cliflags.Global`). -/
def globalKeys : List String :=
  ["csumtype", "freespace", "txwilling", "rxwilling", "stream", "reqtstamp", "reqstatus", "udplite",
   "descriptor"]

/-- Settings that passed validation: each key once, and exactly the known keys, each with an option of
its field. The order is that of a map, so arbitrary. -/
def ValidGlobal (T : Tables) (gl : List (String × String)) : Prop :=
  gl.Pairwise (fun a b => a.1 ≠ b.1) ∧ (∀ p ∈ gl, p.1 ∈ globalKeys) ∧
  (∀ k ∈ globalKeys, ∃ v, (k, v) ∈ gl) ∧ ∀ p ∈ gl, valid T p.1 p.2 = true

/-- The settings that apply to a frame type, in the order in which the tables list its fields. -/
def settingsFor (T : Tables) (frametype : String) (gl : List (String × String)) : List (String × String) :=
  (values T frametype).filterMap fun f => (assoc f gl).map fun v => (f, v)

end Saratoga
