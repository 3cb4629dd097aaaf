import Verif.Model.Shipped
/-! # Specification vocabulary for header fields -/
namespace Saratoga

/-- The number held by the field of `len` bits whose most significant bit is bit `msb` counted from
the left of a `w` bit word. -/
def fieldNumber (w len msb cur : Nat) : Nat := cur / 2 ^ (w - len - msb) % 2 ^ len

/-- A usable table entry: the field lies in the word, option numbers fit the field, and no two
options share a number or a name. -/
def FlagType.WF {w : Nat} (f : FlagType w) : Prop :=
  f.len.toNat + f.msb.toNat ≤ w ∧
  (∀ o ∈ f.options, o.2.toNat < 2 ^ f.len.toNat) ∧
  f.options.Pairwise (fun a b => a.2 ≠ b.2) ∧
  f.options.Pairwise (fun a b => a.1 ≠ b.1)

instance {w : Nat} (f : FlagType w) : Decidable f.WF := by unfold FlagType.WF; infer_instance

/-- Two fields share no bit. -/
def FlagType.Disjoint {w : Nat} (f g : FlagType w) : Prop :=
  f.msb.toNat + f.len.toNat ≤ g.msb.toNat ∨ g.msb.toNat + g.len.toNat ≤ f.msb.toNat

instance {w : Nat} (f g : FlagType w) : Decidable (f.Disjoint g) := by
  unfold FlagType.Disjoint; infer_instance

/-- Two tables that are the same maps, possibly iterated in different orders. -/
def SameMaps (T T' : Tables) : Prop :=
  (∀ f, (T.flag f).len = (T'.flag f).len ∧ (T.flag f).msb = (T'.flag f).msb ∧
    (T.flag f).options.Perm (T'.flag f).options) ∧
  (∀ f, (T.dflag f).len = (T'.dflag f).len ∧ (T.dflag f).msb = (T'.dflag f).msb ∧
    (T.dflag f).options.Perm (T'.dflag f).options) ∧
  (T.ts.len = T'.ts.len ∧ T.ts.msb = T'.ts.msb ∧ T.ts.options.Perm T'.ts.options)

end Saratoga
