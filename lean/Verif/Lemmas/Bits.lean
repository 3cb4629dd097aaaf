import Verif.Model.Flags
/-! # Bit field arithmetic for headers of any width -/
namespace Saratoga

/-- The common expression of `Get`, `GetD`, `GetT`. -/
def bitsGet {w : Nat} (len msb cur : BitVec w) : BitVec w :=
  let shiftbits := BitVec.ofNat w w - len - msb
  let maskbits := (1#w <<< len) - 1#w
  let setbits := maskbits <<< shiftbits
  (cur &&& setbits) >>> shiftbits

/-- The common expression of `Set`, `SetD`, `SetT`. -/
def bitsSet {w : Nat} (len msb cur newval : BitVec w) : BitVec w :=
  let shiftbits := BitVec.ofNat w w - len - msb
  let maskbits := (1#w <<< len) - 1#w
  let setbits := maskbits <<< shiftbits
  (cur &&& ~~~setbits) ||| (newval <<< shiftbits)

variable {w : Nat}

theorem shift_toNat (len msb : BitVec w) (h : len.toNat + msb.toNat ≤ w) :
    (BitVec.ofNat w w - len - msb).toNat = w - len.toNat - msb.toNat := by
  have hw : w < 2 ^ w := Nat.lt_two_pow_self
  have h1 : (BitVec.ofNat w w).toNat = w := by simp [Nat.mod_eq_of_lt hw]
  have h2 : (BitVec.ofNat w w - len).toNat = w - len.toNat := by
    rw [BitVec.toNat_sub_of_le (by rw [BitVec.le_def, h1]; omega), h1]
  rw [BitVec.toNat_sub_of_le (by rw [BitVec.le_def, h2]; omega), h2]

theorem mask_getLsbD (hw : 0 < w) (len : BitVec w) (h : len.toNat ≤ w) (i : Nat) :
    ((1#w <<< len) - 1#w).getLsbD i = decide (i < len.toNat) := by
  have hpos : 0 < 2 ^ len.toNat := Nat.pos_of_ne_zero (by simp)
  have h1 : (1#w).toNat = 1 := by
    have : 1 < 2 ^ w := Nat.one_lt_two_pow (by omega)
    simp [Nat.mod_eq_of_lt this]
  have key : ((1#w <<< len) - 1#w).toNat = 2 ^ len.toNat - 1 := by
    rw [BitVec.toNat_sub, h1]
    have e : (1#w <<< len).toNat = 2 ^ len.toNat % 2 ^ w := by
      show (1#w <<< len.toNat).toNat = _
      rw [BitVec.toNat_shiftLeft, h1, Nat.one_shiftLeft]
    rw [e]
    have hwp : 0 < 2 ^ w := Nat.pos_of_ne_zero (by simp)
    rcases Nat.lt_or_eq_of_le h with hlt | heq
    · have hp : 2 ^ len.toNat < 2 ^ w := Nat.pow_lt_pow_right (by omega) hlt
      rw [Nat.mod_eq_of_lt hp]
      have : 2 ^ w - 1 + 2 ^ len.toNat = (2 ^ len.toNat - 1) + 2 ^ w := by omega
      rw [this, Nat.add_mod_right, Nat.mod_eq_of_lt (by omega)]
    · rw [heq, Nat.mod_self, Nat.add_zero, Nat.mod_eq_of_lt (by omega)]
  rw [BitVec.getLsbD, key, Nat.testBit_two_pow_sub_one]

/-- Bit `i` of a field value read from a header. -/
theorem bitsGet_getLsbD (hw : 0 < w) (len msb cur : BitVec w) (h : len.toNat + msb.toNat ≤ w)
    (i : Nat) : (bitsGet len msb cur).getLsbD i =
      (decide (i < len.toNat) && cur.getLsbD (w - len.toNat - msb.toNat + i)) := by
  unfold bitsGet
  simp only [BitVec.shiftLeft_eq', BitVec.ushiftRight_eq']
  rw [shift_toNat len msb h, BitVec.getLsbD_ushiftRight, BitVec.getLsbD_and,
    BitVec.getLsbD_shiftLeft]
  have e : w - len.toNat - msb.toNat + i - (w - len.toNat - msb.toNat) = i := by omega
  rw [e]
  have hm := mask_getLsbD hw len (by omega) i
  simp only [BitVec.shiftLeft_eq'] at hm
  rw [hm]
  by_cases hi : i < len.toNat
  · have h2 : w - len.toNat - msb.toNat + i < w := by omega
    simp [hi, h2]
  · simp [hi]

/-- Bit `j` of the header after setting a field. -/
theorem bitsSet_getLsbD (hw : 0 < w) (len msb cur nv : BitVec w) (h : len.toNat + msb.toNat ≤ w)
    (hv : nv.toNat < 2 ^ len.toNat) (j : Nat) : (bitsSet len msb cur nv).getLsbD j =
      if w - len.toNat - msb.toNat ≤ j ∧ j < w - msb.toNat then
        nv.getLsbD (j - (w - len.toNat - msb.toNat))
      else cur.getLsbD j := by
  unfold bitsSet
  simp only [BitVec.shiftLeft_eq']
  rw [shift_toNat len msb h, BitVec.getLsbD_or, BitVec.getLsbD_and, BitVec.getLsbD_not,
    BitVec.getLsbD_shiftLeft, BitVec.getLsbD_shiftLeft]
  have hm := mask_getLsbD hw len (by omega)
  simp only [BitVec.shiftLeft_eq'] at hm
  rw [hm]
  have hvb : ∀ k, len.toNat ≤ k → nv.getLsbD k = false := by
    intro k hk
    rw [BitVec.getLsbD]
    exact Nat.testBit_lt_two_pow (Nat.lt_of_lt_of_le hv (Nat.pow_le_pow_right (by omega) hk))
  by_cases hj : j < w
  · by_cases h1 : w - len.toNat - msb.toNat ≤ j
    · by_cases h2 : j < w - msb.toNat
      · have h3 : j - (w - len.toNat - msb.toNat) < len.toNat := by omega
        have h4 : ¬ j < w - len.toNat - msb.toNat := by omega
        simp [hj, h1, h2, h3, h4]
      · have h3 : ¬ (j - (w - len.toNat - msb.toNat) < len.toNat) := by omega
        have h4 : ¬ j < w - len.toNat - msb.toNat := by omega
        have h5 := hvb (j - (w - len.toNat - msb.toNat)) (by omega)
        simp [hj, h1, h2, h3, h4, h5]
    · have h4 : j < w - len.toNat - msb.toNat := by omega
      simp [hj, h1, h4]
  · have e1 : cur.getLsbD j = false := BitVec.getLsbD_of_ge _ _ (by omega)
    have e2 : ¬ (w - len.toNat - msb.toNat ≤ j ∧ j < w - msb.toNat) := by omega
    rw [if_neg e2]
    simp [hj, e1]

/-- Reading a field back after setting it. -/
theorem bitsGet_bitsSet (hw : 0 < w) (len msb cur nv : BitVec w) (h : len.toNat + msb.toNat ≤ w)
    (hv : nv.toNat < 2 ^ len.toNat) : bitsGet len msb (bitsSet len msb cur nv) = nv := by
  apply BitVec.eq_of_getLsbD_eq
  intro i hi
  rw [bitsGet_getLsbD hw _ _ _ h, bitsSet_getLsbD hw _ _ _ _ h hv]
  by_cases hl : i < len.toNat
  · have h1 : w - len.toNat - msb.toNat + i < w - msb.toNat := by omega
    have h2 : w - len.toNat - msb.toNat + i - (w - len.toNat - msb.toNat) = i := by omega
    simp [hl, h1, h2]
  · have : nv.getLsbD i = false := by
      rw [BitVec.getLsbD]
      exact Nat.testBit_lt_two_pow
        (Nat.lt_of_lt_of_le hv (Nat.pow_le_pow_right (by omega) (by omega)))
    simp [hl, this]

/-- Reading a field after setting a disjoint one. -/
theorem bitsGet_bitsSet_disjoint (hw : 0 < w) (len msb len' msb' cur nv : BitVec w)
    (h : len.toNat + msb.toNat ≤ w) (h' : len'.toNat + msb'.toNat ≤ w)
    (hv : nv.toNat < 2 ^ len'.toNat)
    (hd : msb.toNat + len.toNat ≤ msb'.toNat ∨ msb'.toNat + len'.toNat ≤ msb.toNat) :
    bitsGet len msb (bitsSet len' msb' cur nv) = bitsGet len msb cur := by
  apply BitVec.eq_of_getLsbD_eq
  intro i hi
  rw [bitsGet_getLsbD hw _ _ _ h, bitsGet_getLsbD hw _ _ _ h, bitsSet_getLsbD hw _ _ _ _ h' hv]
  by_cases hl : i < len.toNat
  · have : ¬ (w - len'.toNat - msb'.toNat ≤ w - len.toNat - msb.toNat + i ∧
        w - len.toNat - msb.toNat + i < w - msb'.toNat) := by omega
    rw [if_neg this]
  · simp [hl]

/-- The number in a field, as arithmetic on the header's value. -/
theorem bitsGet_toNat (hw : 0 < w) (len msb cur : BitVec w) (h : len.toNat + msb.toNat ≤ w) :
    (bitsGet len msb cur).toNat =
      cur.toNat / 2 ^ (w - len.toNat - msb.toNat) % 2 ^ len.toNat := by
  apply Nat.eq_of_testBit_eq
  intro i
  have := bitsGet_getLsbD hw len msb cur h i
  rw [BitVec.getLsbD, BitVec.getLsbD] at this
  rw [this, Nat.testBit_mod_two_pow, Nat.testBit_div_two_pow, Nat.add_comm i]

theorem bitsGet_lt (hw : 0 < w) (len msb cur : BitVec w) (h : len.toNat + msb.toNat ≤ w) :
    (bitsGet len msb cur).toNat < 2 ^ len.toNat := by
  rw [bitsGet_toNat hw _ _ _ h]
  exact Nat.mod_lt _ (Nat.pos_of_ne_zero (by simp))

/-- Bits outside the field are untouched. -/
theorem bitsSet_outside (hw : 0 < w) (len msb cur nv : BitVec w) (h : len.toNat + msb.toNat ≤ w)
    (hv : nv.toNat < 2 ^ len.toNat) (j : Nat)
    (hj : j < w - len.toNat - msb.toNat ∨ w - msb.toNat ≤ j) :
    (bitsSet len msb cur nv).getLsbD j = cur.getLsbD j := by
  rw [bitsSet_getLsbD hw _ _ _ _ h hv, if_neg (by omega)]

/-- Setting disjoint fields commutes. -/
theorem bitsSet_comm (hw : 0 < w) (len msb len' msb' cur nv nv' : BitVec w)
    (h : len.toNat + msb.toNat ≤ w) (h' : len'.toNat + msb'.toNat ≤ w)
    (hv : nv.toNat < 2 ^ len.toNat) (hv' : nv'.toNat < 2 ^ len'.toNat)
    (hd : msb.toNat + len.toNat ≤ msb'.toNat ∨ msb'.toNat + len'.toNat ≤ msb.toNat) :
    bitsSet len msb (bitsSet len' msb' cur nv') nv =
      bitsSet len' msb' (bitsSet len msb cur nv) nv' := by
  apply BitVec.eq_of_getLsbD_eq
  intro i hi
  simp only [bitsSet_getLsbD hw _ _ _ _ h hv, bitsSet_getLsbD hw _ _ _ _ h' hv']
  by_cases h1 : w - len.toNat - msb.toNat ≤ i ∧ i < w - msb.toNat
  · have h2 : ¬ (w - len'.toNat - msb'.toNat ≤ i ∧ i < w - msb'.toNat) := by omega
    rw [if_pos h1, if_neg h2, if_pos h1]
  · rw [if_neg h1, if_neg h1]

theorem bitsSet_bitsSet (hw : 0 < w) (len msb cur nv nv' : BitVec w)
    (h : len.toNat + msb.toNat ≤ w)
    (hv : nv.toNat < 2 ^ len.toNat) (hv' : nv'.toNat < 2 ^ len.toNat) :
    bitsSet len msb (bitsSet len msb cur nv') nv = bitsSet len msb cur nv := by
  apply BitVec.eq_of_getLsbD_eq
  intro i hi
  simp only [bitsSet_getLsbD hw _ _ _ _ h hv, bitsSet_getLsbD hw _ _ _ _ h hv']
  split <;> rfl

end Saratoga
