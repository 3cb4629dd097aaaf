import Verif.Lemmas.Flags
import Verif.Lemmas.Frame
import Verif.Lemmas.Timestamp
import Verif.Model.Shipped
/-! # What the shipped tables make of a header word -/
namespace Saratoga

/-- Reading a field as a number, for any usable entry. -/
theorem get_ofNat {T : Tables} {field : String} (wf : (T.flag field).WF) (h : BitVec 32)
    (lo len : Nat) (hl : (T.flag field).len.toNat = len)
    (hm : 32 - (T.flag field).len.toNat - (T.flag field).msb.toNat = lo) :
    get T h field = BitVec.ofNat 32 (bitsAt h lo len) := by
  apply BitVec.eq_of_toNat_eq
  have hlen : len ≤ 32 := by have := wf.1; omega
  have hlt : bitsAt h lo len < 2 ^ len := Nat.mod_lt _ (Nat.pow_pos (by decide))
  have h2 : 2 ^ len ≤ 2 ^ 32 := Nat.pow_le_pow_right (by decide) hlen
  rw [get_eq, bitsGet_toNat (by decide) _ _ _ wf.1, hm, hl, BitVec.toNat_ofNat]
  show bitsAt h lo len = bitsAt h lo len % 2 ^ 32
  rw [Nat.mod_eq_of_lt (by omega)]

theorem getD_ofNat {T : Tables} {field : String} (wf : (T.dflag field).WF) (h : BitVec 16)
    (lo len : Nat) (hl : (T.dflag field).len.toNat = len)
    (hm : 16 - (T.dflag field).len.toNat - (T.dflag field).msb.toNat = lo) :
    getD T h field = BitVec.ofNat 16 (bitsAt h lo len) := by
  apply BitVec.eq_of_toNat_eq
  have hlen : len ≤ 16 := by have := wf.1; omega
  have hlt : bitsAt h lo len < 2 ^ len := Nat.mod_lt _ (Nat.pow_pos (by decide))
  have h2 : 2 ^ len ≤ 2 ^ 16 := Nat.pow_le_pow_right (by decide) hlen
  rw [getD_eq, bitsGet_toNat (by decide) _ _ _ wf.1, hm, hl, BitVec.toNat_ofNat]
  show bitsAt h lo len = bitsAt h lo len % 2 ^ 16
  rw [Nat.mod_eq_of_lt (by omega)]

/-- Names of the descriptor numbers. -/
def descNameOf (k : Nat) : String :=
  if k = 0 then "d16" else if k = 1 then "d32" else if k = 2 then "d64" else "d128"

theorem descSize_nameOf (k : Nat) :
    descSize (descNameOf k) = if k < 3 then some (2 ^ (k + 1)) else none := by
  unfold descNameOf
  by_cases h0 : k = 0
  · subst h0; rfl
  · by_cases h1 : k = 1
    · subst h1; rfl
    · by_cases h2 : k = 2
      · subst h2; rfl
      · rw [if_neg h0, if_neg h1, if_neg h2, if_neg (by omega)]; rfl

theorem getStr_descriptor (h : BitVec 32) :
    getStr shipped h "descriptor" = .ret (descNameOf (descNumber h)) := by
  unfold getStr
  rw [get_ofNat (by decide) h 22 2 (by decide) (by decide)]
  have hlt : bitsAt h 22 2 < 4 := Nat.mod_lt _ (by decide)
  unfold descNumber
  generalize bitsAt h 22 2 = k at hlt
  have : k = 0 ∨ k = 1 ∨ k = 2 ∨ k = 3 := by omega
  rcases this with rfl | rfl | rfl | rfl <;> rfl

theorem getStr_reqtstamp (h : BitVec 32) :
    getStr shipped h "reqtstamp" = .ret (if stampNumber h = 1 then "yes" else "no") := by
  unfold getStr
  rw [get_ofNat (by decide) h 19 1 (by decide) (by decide)]
  have hlt : bitsAt h 19 1 < 2 := Nat.mod_lt _ (by decide)
  unfold stampNumber
  generalize bitsAt h 19 1 = k at hlt
  have : k = 0 ∨ k = 1 := by omega
  rcases this with rfl | rfl <;> rfl

theorem hasWidth_iff (h : BitVec 32) (n : Nat) :
    HasWidth shipped "descriptor" h n ↔ descNumber h < 3 ∧ n = 2 ^ (descNumber h + 1) := by
  unfold HasWidth
  rw [getStr_descriptor]
  constructor
  · rintro ⟨d, hd, hn⟩
    cases hd
    rw [← descSize_eq, descSize_nameOf] at hn
    split at hn
    · cases hn; exact ⟨by assumption, rfl⟩
    · cases hn
  · rintro ⟨h1, h2⟩
    exact ⟨_, rfl, by rw [← descSize_eq, descSize_nameOf, if_pos h1, h2]⟩

/-- The timestamp type byte: 0 is local interpretation, 1 to 5 are readable, others unnamed. -/
theorem getTStr_cases (b : Byte) :
    (b.toNat = 0 ∧ getTStr shipped b = .ret "localinterp") ∨
    (1 ≤ b.toNat ∧ b.toNat ≤ 5 ∧ ∃ s ∈ readableTypes, getTStr shipped b = .ret s) ∨
    (6 ≤ b.toNat ∧ getTStr shipped b = .fatal) := by
  have : ∀ b : Byte, (b.toNat = 0 ∧ getTStr shipped b = .ret "localinterp") ∨
    (1 ≤ b.toNat ∧ b.toNat ≤ 5 ∧ ∃ s ∈ readableTypes, getTStr shipped b = .ret s) ∨
    (6 ≤ b.toNat ∧ getTStr shipped b = .fatal) := by
    decide +kernel
  exact this b

end Saratoga

namespace Saratoga

/-- `Get` on a 16 byte field with the shipped tables: the first byte decides. -/
theorem get16_shipped (t : Timestamp) {b : List Byte} (hb : b.length = 16) :
    ∃ h, b[0]? = some h ∧
      ((6 ≤ h.toNat ∧ t.get shipped b = .fatal) ∨
       (1 ≤ h.toNat ∧ h.toNat ≤ 5 ∧ ∃ t', t.get shipped b = .ret (t', none)) ∨
       (h.toNat = 0 ∧ ∃ t' e, t.get shipped b = .ret (t', some e))) := by
  obtain ⟨h, h0, hc⟩ := get16_cases shipped t hb
  refine ⟨h, h0, ?_⟩
  rcases getTStr_cases h with ⟨hz, hs⟩ | ⟨h1, h5, s, hr, hs⟩ | ⟨h6, hs⟩
  · rcases hc with ⟨hf, _⟩ | ⟨s, hf, hm, _⟩ | ⟨s, hf, hm, hg⟩
    · rw [hs] at hf; cases hf
    · rw [hs] at hf; cases hf; exact absurd hm (by decide)
    · exact Or.inr (Or.inr ⟨hz, hg⟩)
  · rcases hc with ⟨hf, _⟩ | ⟨s, hf, hm, hg⟩ | ⟨s', hf, hm, hg⟩
    · rw [hs] at hf; cases hf
    · exact Or.inr (Or.inl ⟨h1, h5, hg⟩)
    · rw [hs] at hf; cases hf; exact absurd hr hm
  · rcases hc with ⟨hf, hg⟩ | ⟨s, hf, hm, _⟩ | ⟨s, hf, hm, hg⟩
    · exact Or.inl ⟨h6, hg⟩
    · rw [hs] at hf; cases hf
    · rw [hs] at hf; cases hf

end Saratoga

namespace Saratoga

theorem getStr_freespaced (h : BitVec 32) :
    getStr shipped h "freespaced" = .ret (descNameOf (freeDescNumber h)) := by
  unfold getStr
  rw [get_ofNat (by decide) h 12 2 (by decide) (by decide)]
  have hlt : bitsAt h 12 2 < 4 := Nat.mod_lt _ (by decide)
  unfold freeDescNumber
  generalize bitsAt h 12 2 = k at hlt
  have : k = 0 ∨ k = 1 ∨ k = 2 ∨ k = 3 := by omega
  rcases this with rfl | rfl | rfl | rfl <;> rfl

theorem getStr_freespace (h : BitVec 32) :
    getStr shipped h "freespace" = .ret (if freeNumber h = 1 then "yes" else "no") := by
  unfold getStr
  rw [get_ofNat (by decide) h 14 1 (by decide) (by decide)]
  have hlt : bitsAt h 14 1 < 2 := Nat.mod_lt _ (by decide)
  unfold freeNumber
  generalize bitsAt h 14 1 = k at hlt
  have : k = 0 ∨ k = 1 := by omega
  rcases this with rfl | rfl <;> rfl

theorem two_pow_desc {k : Nat} (h : k < 3) : 2 ^ (k + 1) = 2 ∨ 2 ^ (k + 1) = 4 ∨ 2 ^ (k + 1) = 8 := by
  have : k = 0 ∨ k = 1 ∨ k = 2 := by omega
  rcases this with e | e | e <;> rw [e] <;> decide

end Saratoga

namespace Saratoga

theorem getDStr_eq (T : Tables) (h : BitVec 16) (f : String) :
    getDStr T h f = match optName (getD T h f) (T.dflag f).options with
      | some k => .ret k
      | none => .fatal := rfl

theorem getDStr_descriptor (h : BitVec 16) :
    getDStr shipped h "descriptor" = .ret (descNameOf (direntDescNumber h)) := by
  rw [getDStr_eq, getD_ofNat (by decide) h 6 2 (by decide) (by decide)]
  have hlt : bitsAt h 6 2 < 4 := Nat.mod_lt _ (by decide)
  unfold direntDescNumber
  generalize bitsAt h 6 2 = k at hlt
  have : k = 0 ∨ k = 1 ∨ k = 2 ∨ k = 3 := by omega
  rcases this with rfl | rfl | rfl | rfl <;> rfl

theorem get_csumlen (h : BitVec 32) : (get shipped h "csumlen").toNat = csumlenNumber h := by
  rw [get_ofNat (by decide) h 4 4 (by decide) (by decide), BitVec.toNat_ofNat]
  have hlt : bitsAt h 4 4 < 16 := Nat.mod_lt _ (by decide)
  rw [Nat.mod_eq_of_lt (by omega)]
  rfl

end Saratoga
