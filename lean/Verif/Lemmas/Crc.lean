import Verif.Model.Crc
import Verif.Spec.Crc
/-! # Lemmas about the checksum -/
namespace Saratoga

theorem crcRound_xor (a b : BitVec 32) : crcRound (a ^^^ b) = crcRound a ^^^ crcRound b := by
  unfold crcRound
  rw [BitVec.getLsbD_xor]
  have d : (a ^^^ b) >>> 1 = (a >>> 1) ^^^ (b >>> 1) := BitVec.ushiftRight_xor_distrib ..
  cases a.getLsbD 0 <;> cases b.getLsbD 0 <;> simp only [d, Bool.bne_false, Bool.bne_true, Bool.false_bne, Bool.true_bne,
    Bool.not_true, Bool.not_false, Bool.false_eq_true, if_true, if_false]
  · ac_rfl
  · ac_rfl
  · have : ieee ^^^ ieee = 0 := BitVec.xor_self
    rw [show (a >>> 1 ^^^ ieee) ^^^ (b >>> 1 ^^^ ieee) = ((a >>> 1) ^^^ (b >>> 1)) ^^^ (ieee ^^^ ieee) by ac_rfl, this]
    exact BitVec.xor_zero.symm

theorem crcRound_top (a : BitVec 32) : (crcRound a).getLsbD 31 = a.getLsbD 0 := by
  unfold crcRound
  cases h : a.getLsbD 0
  · simp
  · simp [ieee]

theorem crcRound_zero {a : BitVec 32} (h : crcRound a = 0) : a = 0 := by
  have top := crcRound_top a
  rw [h] at top
  have h0 : a.getLsbD 0 = false := by rw [← top]; simp
  unfold crcRound at h
  rw [h0] at h
  simp only [Bool.false_eq_true, if_false] at h
  apply BitVec.eq_of_getLsbD_eq
  intro i hi
  cases i with
  | zero => rw [h0]; simp
  | succ i =>
    have := congrArg (fun x => x.getLsbD i) h
    simp only [BitVec.getLsbD_ushiftRight] at this
    rw [Nat.add_comm] at this
    rw [this]; simp

theorem crcRound_inj {a b : BitVec 32} (h : crcRound a = crcRound b) : a = b := by
  have : crcRound (a ^^^ b) = 0 := by rw [crcRound_xor, h, BitVec.xor_self]; rfl
  exact BitVec.xor_eq_zero_iff.1 (crcRound_zero this)

/-- `n` rounds. -/
def crcRounds : Nat → BitVec 32 → BitVec 32
  | 0, a => a
  | n + 1, a => crcRounds n (crcRound a)

theorem crcRounds_xor (n : Nat) (a b : BitVec 32) : crcRounds n (a ^^^ b) = crcRounds n a ^^^ crcRounds n b := by
  induction n generalizing a b with
  | zero => rfl
  | succ n ih => simp only [crcRounds, crcRound_xor, ih]

theorem crcRounds_inj {n : Nat} {a b : BitVec 32} (h : crcRounds n a = crcRounds n b) : a = b := by
  induction n generalizing a b with
  | zero => exact h
  | succ n ih => exact crcRound_inj (ih h)

theorem crcRounds_add (m n : Nat) (a : BitVec 32) : crcRounds (m + n) a = crcRounds n (crcRounds m a) := by
  induction m generalizing a with
  | zero => rw [Nat.zero_add]; rfl
  | succ m ih => rw [Nat.succ_add]; exact ih (crcRound a)

/-- A number whose lowest `n` bits are zero is only shifted. -/
theorem crcRounds_shift {n : Nat} {a : BitVec 32} (low : ∀ i < n, a.getLsbD i = false) : crcRounds n a = a >>> n := by
  induction n generalizing a with
  | zero => simp [crcRounds]
  | succ n ih =>
    have h1 : crcRound a = a >>> 1 := by
      unfold crcRound
      rw [low 0 (by omega)]; simp
    rw [crcRounds, h1, ih (fun i hi => ?_)]
    · apply BitVec.eq_of_getLsbD_eq
      intro i hi
      simp only [BitVec.getLsbD_ushiftRight]
      congr 1; omega
    · rw [BitVec.getLsbD_ushiftRight]
      exact low _ (by omega)

/-- The table only saves time: eight rounds on the number with the byte added. -/
theorem crcByte_eq (crc : BitVec 32) (v : Byte) : crcByte crc v = crcRounds 8 (crc ^^^ v.setWidth 32) := by
  have split : crc ^^^ v.setWidth 32 = (crc.setWidth 8 ^^^ v).setWidth 32 ^^^ (crc >>> 8 <<< 8) := by
    apply BitVec.eq_of_getLsbD_eq
    intro i hi
    simp only [BitVec.getLsbD_xor, BitVec.getLsbD_setWidth, BitVec.getLsbD_shiftLeft, BitVec.getLsbD_ushiftRight]
    by_cases h : i < 8
    · simp [h, hi]
    · have e : 8 + (i - 8) = i := by omega
      have hv : v.getLsbD i = false := BitVec.getLsbD_of_ge _ _ (by omega)
      simp [h, hi, e, hv]
  rw [split, crcRounds_xor]
  have h2 : crcRounds 8 (crc >>> 8 <<< 8) = crc >>> 8 := by
    rw [crcRounds_shift (fun i hi => by
      simp only [BitVec.getLsbD_shiftLeft]
      simp [show i < 8 from hi])]
    apply BitVec.eq_of_getLsbD_eq
    intro i hi
    simp only [BitVec.getLsbD_shiftLeft, BitVec.getLsbD_ushiftRight]
    by_cases h : 8 + i < 32
    · simp [h]
    · have : crc.getLsbD (8 + i) = false := BitVec.getLsbD_of_ge _ _ (by omega)
      simp [h, this]
  rw [h2]
  rfl

/-- The number with the bits, the first lowest. -/
def wordOf : List Bool → BitVec 32
  | [] => 0
  | b :: bs => (if b then 1#32 else 0#32) ^^^ (wordOf bs <<< 1)

/-- The bits one after another. -/
def crcBits (crc : BitVec 32) (bits : List Bool) : BitVec 32 :=
  bits.foldl (fun s b => crcRound (s ^^^ if b then 1#32 else 0#32)) crc

theorem getLsbD_one {i : Nat} : (1 : BitVec 32).getLsbD i = decide (i = 0) := by
  simp

theorem wordOf_bit {bits : List Bool} {i : Nat} (hi : i < 32) : (wordOf bits).getLsbD i = bits.getD i false := by
  induction bits generalizing i with
  | nil => simp [wordOf]
  | cons b bs ih =>
    rw [wordOf, BitVec.getLsbD_xor, BitVec.getLsbD_shiftLeft]
    cases i with
    | zero => cases b <;> simp
    | succ i =>
      rw [Nat.add_sub_cancel, ih (by omega)]
      cases b <;> simp [hi]

theorem crcBits_word {bits : List Bool} (short : bits.length ≤ 32) (crc : BitVec 32) :
    crcBits crc bits = crcRounds bits.length (crc ^^^ wordOf bits) := by
  induction bits generalizing crc with
  | nil => simp [crcBits, wordOf, crcRounds]
  | cons b bs ih =>
    have hl : bs.length + 1 ≤ 32 := by simpa using short
    have shift : crcRound (wordOf bs <<< 1) = wordOf bs := by
      have := crcRounds_shift (n := 1) (a := wordOf bs <<< 1) (fun i hi => by
        have : i = 0 := by omega
        subst this; simp)
      rw [show crcRound (wordOf bs <<< 1) = crcRounds 1 (wordOf bs <<< 1) from rfl, this]
      apply BitVec.eq_of_getLsbD_eq
      intro i hi
      simp only [BitVec.getLsbD_ushiftRight, BitVec.getLsbD_shiftLeft]
      by_cases h : 1 + i < 32
      · simp [h]
      · rw [wordOf_bit hi]
        have : bs.getD i false = false := by
          rw [List.getD_eq_getElem?_getD, List.getElem?_eq_none (by omega)]; rfl
        rw [this]; simp [h]
    show crcBits (crcRound (crc ^^^ if b then 1#32 else 0#32)) bs = crcRounds (bs.length + 1) _
    rw [ih (by omega), crcRounds, wordOf, ← BitVec.xor_assoc, crcRound_xor _ (wordOf bs <<< 1), shift]

theorem bits_ext {a b : List Bool} (len : a.length = b.length) (short : a.length ≤ 32) (same : wordOf a = wordOf b) :
    a = b := by
  apply List.ext_getElem len
  intro i h1 h2
  have e1 := wordOf_bit (bits := a) (i := i) (by omega)
  have e2 := wordOf_bit (bits := b) (i := i) (by omega)
  rw [same, e2] at e1
  simpa [List.getD_eq_getElem?_getD, List.getElem?_eq_getElem, h1, h2] using e1.symm

theorem xor_left_inj {a b c : BitVec 32} (h : a ^^^ b = a ^^^ c) : b = c := by
  have := congrArg (a ^^^ ·) h
  simpa [← BitVec.xor_assoc] using this

/-- From one number, different bits, at most 32 of them, lead to different numbers. -/
theorem crcBits_short {a b : List Bool} (len : a.length = b.length) (short : a.length ≤ 32) (crc : BitVec 32)
    (same : crcBits crc a = crcBits crc b) : a = b := by
  rw [crcBits_word short, crcBits_word (by omega), ← len] at same
  exact bits_ext len short (xor_left_inj (crcRounds_inj same))

/-- The same bits from different numbers lead to different numbers. -/
theorem crcBits_inj {bits : List Bool} {s t : BitVec 32} (same : crcBits s bits = crcBits t bits) : s = t := by
  induction bits generalizing s t with
  | nil => exact same
  | cons b bs ih =>
    have := crcRound_inj (ih (s := crcRound (s ^^^ if b then 1#32 else 0#32)) (t := crcRound (t ^^^ if b then 1#32 else 0#32)) same)
    rw [BitVec.xor_comm s, BitVec.xor_comm t] at this
    exact xor_left_inj this

theorem crcBits_append (crc : BitVec 32) (a b : List Bool) : crcBits crc (a ++ b) = crcBits (crcBits crc a) b := by
  unfold crcBits; rw [List.foldl_append]

theorem wordOf_byte (v : Byte) : wordOf ((List.range 8).map v.getLsbD) = v.setWidth 32 := by
  apply BitVec.eq_of_getLsbD_eq
  intro i hi
  rw [wordOf_bit hi, BitVec.getLsbD_setWidth]
  by_cases h : i < 8
  · simp [List.getD_eq_getElem?_getD, h, hi]
  · have : v.getLsbD i = false := BitVec.getLsbD_of_ge _ _ (by omega)
    rw [this, List.getD_eq_getElem?_getD, List.getElem?_eq_none (by simp; omega)]
    simp

theorem crcByte_bits (crc : BitVec 32) (v : Byte) : crcByte crc v = crcBits crc ((List.range 8).map v.getLsbD) := by
  rw [crcByte_eq, crcBits_word (by simp), wordOf_byte]
  rfl

theorem foldl_crcByte (crc : BitVec 32) (bytes : List Byte) : bytes.foldl crcByte crc = crcBits crc (bitsOf bytes) := by
  induction bytes generalizing crc with
  | nil => rfl
  | cons b bs ih =>
    show bs.foldl crcByte (crcByte crc b) = crcBits crc ((List.range 8).map b.getLsbD ++ bitsOf bs)
    rw [ih, crcByte_bits, crcBits_append]

/-- The pieces the file is read in do not matter. -/
theorem crcWrite_append (crc : BitVec 32) (a b : List Byte) : crcWrite crc (a ++ b) = crcWrite (crcWrite crc a) b := by
  unfold crcWrite
  rw [List.foldl_append, BitVec.not_not]

theorem crcWrites (crc : BitVec 32) (pieces : List (List Byte)) :
    pieces.foldl crcWrite crc = crcWrite crc pieces.flatten := by
  induction pieces generalizing crc with
  | nil => simp [crcWrite]
  | cons p ps ih => rw [List.foldl_cons, ih, List.flatten_cons, crcWrite_append]

theorem bitsOf_length (bytes : List Byte) : (bitsOf bytes).length = 8 * bytes.length := by
  induction bytes with
  | nil => rfl
  | cons b bs ih =>
    show ((List.range 8).map b.getLsbD ++ bitsOf bs).length = _
    rw [List.length_append, ih]; simp; omega

theorem bitsOf_append (a b : List Byte) : bitsOf (a ++ b) = bitsOf a ++ bitsOf b := by
  unfold bitsOf; exact List.flatMap_append

theorem bitsOf_inj {a b : List Byte} (h : bitsOf a = bitsOf b) : a = b := by
  have len : a.length = b.length := by
    have := congrArg List.length h
    rw [bitsOf_length, bitsOf_length] at this; omega
  induction a generalizing b with
  | nil => exact (List.length_eq_zero_iff.1 len.symm).symm
  | cons x xs ih =>
    cases b with
    | nil => cases len
    | cons y ys =>
      have h : (List.range 8).map x.getLsbD ++ bitsOf xs = (List.range 8).map y.getLsbD ++ bitsOf ys := h
      obtain ⟨h1, h2⟩ := List.append_inj h (by simp)
      rw [ih h2 (by simpa using len)]
      congr 1
      apply BitVec.eq_of_getLsbD_eq
      intro i hi
      have := congrArg (fun l => l[i]?) h1
      simpa [hi] using this

theorem crcSum_inj {p q : List (List Byte)} (h : crcSum p = crcSum q) :
    p.foldl crcWrite 0 = q.foldl crcWrite 0 := by
  unfold crcSum at h
  simp only [List.cons.injEq, and_true] at h
  obtain ⟨h3, h2, h1, h0⟩ := h
  generalize List.foldl crcWrite 0 p = a at *
  generalize List.foldl crcWrite 0 q = b at *
  apply BitVec.eq_of_getLsbD_eq
  intro i hi
  have get : ∀ k, (k = 0 ∨ k = 8 ∨ k = 16 ∨ k = 24) → i / 8 * 8 = k →
      (a >>> k).setWidth 8 = (b >>> k).setWidth 8 → a.getLsbD i = b.getLsbD i := by
    intro k _ hk e
    have := congrArg (fun x => x.getLsbD (i % 8)) e
    simp only [BitVec.getLsbD_setWidth, BitVec.getLsbD_ushiftRight] at this
    have e1 : k + i % 8 = i := by omega
    rw [e1] at this
    simpa [Nat.mod_lt] using this
  have : i / 8 = 0 ∨ i / 8 = 1 ∨ i / 8 = 2 ∨ i / 8 = 3 := by omega
  rcases this with h | h | h | h
  · exact get 0 (by omega) (by omega) (by simpa using h0)
  · exact get 8 (by omega) (by omega) h1
  · exact get 16 (by omega) (by omega) h2
  · exact get 24 (by omega) (by omega) h3

/-! ## Sums of files -/

theorem crcBits_xor {a b : List Bool} (len : a.length = b.length) (s t : BitVec 32) :
    crcBits (s ^^^ t) (List.zipWith xor a b) = crcBits s a ^^^ crcBits t b := by
  induction a generalizing b s t with
  | nil => rw [List.length_eq_zero_iff.1 len.symm]; rfl
  | cons x xs ih =>
    cases b with
    | nil => cases len
    | cons y ys =>
      show crcBits (crcRound ((s ^^^ t) ^^^ if xor x y then 1#32 else 0#32)) (List.zipWith xor xs ys) =
        crcBits (crcRound (s ^^^ if x then 1#32 else 0#32)) xs ^^^ crcBits (crcRound (t ^^^ if y then 1#32 else 0#32)) ys
      have e : ((s ^^^ t) ^^^ if xor x y then 1#32 else 0#32) =
          (s ^^^ if x then 1#32 else 0#32) ^^^ (t ^^^ if y then 1#32 else 0#32) := by
        have : (if xor x y then 1#32 else 0#32) = (if x then 1#32 else 0#32) ^^^ (if y then 1#32 else 0#32) := by
          cases x <;> cases y <;> decide
        rw [this]; ac_rfl
      rw [e, crcRound_xor]
      exact ih (by simpa using len) _ _

theorem crcBits_zeros (n : Nat) (s : BitVec 32) : crcBits s (List.replicate n false) = crcRounds n s := by
  induction n generalizing s with
  | zero => rfl
  | succ n ih =>
    show crcBits (crcRound (s ^^^ 0#32)) (List.replicate n false) = crcRounds n (crcRound s)
    rw [ih, BitVec.xor_zero]

/-! ## How soon the rounds come back -/

/-- Rounds are sums of columns: the number made of the columns of the bits set. -/
def crcApply : List (BitVec 32) → BitVec 32 → BitVec 32
  | [], _ => 0
  | c :: cs, v => (if v.getLsbD 0 then c else 0) ^^^ crcApply cs (v >>> 1)

/-- What `n` rounds make of each bit. -/
def crcCols (n : Nat) : List (BitVec 32) := (List.range 32).map fun i => crcRounds n (1#32 <<< i)

theorem crcApply_cols (n : Nat) (v : BitVec 32) : crcApply (crcCols n) v = crcRounds n v := by
  have key : ∀ k j, j + k = 32 → ∀ v : BitVec 32, (∀ i, k ≤ i → v.getLsbD i = false) →
      crcApply ((List.range' j k).map fun i => crcRounds n (1#32 <<< i)) v = crcRounds n (v <<< j) := by
    intro k
    induction k with
    | zero =>
      intro j hj v hv
      have : v = 0 := by
        apply BitVec.eq_of_getLsbD_eq
        intro i _
        rw [hv i (by omega)]; simp
      subst this
      have z : crcRounds n 0 = 0 := by
        have := crcRounds_xor n 0 0
        rw [BitVec.xor_self, BitVec.xor_self] at this
        exact this
      simp only [List.range'_zero, List.map_nil, crcApply]
      rw [show (0 : BitVec 32) <<< j = 0 by simp, z]
    | succ k ih =>
      intro j hj v hv
      rw [List.range'_succ, List.map_cons, crcApply, ih (j + 1) (by omega) (v >>> 1) (fun i hi => by
        rw [BitVec.getLsbD_ushiftRight]; exact hv _ (by omega))]
      have z : crcRounds n 0 = 0 := by
        have := crcRounds_xor n 0 0
        rw [BitVec.xor_self, BitVec.xor_self] at this
        exact this
      have e : v <<< j = (if v.getLsbD 0 then 1#32 <<< j else 0) ^^^ ((v >>> 1) <<< (j + 1)) := by
        apply BitVec.eq_of_getLsbD_eq
        intro i hi
        rw [BitVec.getLsbD_xor, BitVec.getLsbD_shiftLeft, BitVec.getLsbD_shiftLeft, BitVec.getLsbD_ushiftRight]
        have one : (if v.getLsbD 0 then 1#32 <<< j else 0).getLsbD i = (decide (i = j) && v.getLsbD 0) := by
          cases v.getLsbD 0
          · simp
          · simp only [if_true, BitVec.getLsbD_shiftLeft, getLsbD_one, Bool.and_true]
            by_cases h : i < j
            · have : ¬ i = j := by omega
              simp [h, this]
            · by_cases h' : i = j
              · subst h'; simp [hi]
              · have : ¬ i - j = 0 := by omega
                simp [h', this]
        rw [one]
        by_cases h : i < j
        · have h1 : ¬ i = j := by omega
          have h2 : i < j + 1 := by omega
          simp [h, h1, h2]
        · by_cases h' : i = j
          · subst h'; simp [hi]
          · have h2 : ¬ i < j + 1 := by omega
            have h3 : 1 + (i - (j + 1)) = i - j := by omega
            simp [h, h', h2, h3]
      rw [e, crcRounds_xor]
      congr 1
      split
      · rfl
      · exact z.symm
  have := key 32 0 rfl v (fun i hi => BitVec.getLsbD_of_ge _ _ hi)
  rw [BitVec.shiftLeft_zero] at this
  rw [← this]
  unfold crcCols
  rw [List.range_eq_range']

/-- The columns of twice as many rounds. -/
theorem crcCols_double (n : Nat) : crcCols (n + n) = (crcCols n).map (crcApply (crcCols n)) := by
  rw [funext (crcApply_cols n)]
  unfold crcCols
  rw [List.map_map]
  apply List.map_congr_left
  intro i _
  exact crcRounds_add n n _

/-- `crcRounds n` on a number, by doubling. -/
def crcFast (cols : List (BitVec 32)) : Nat → Nat → BitVec 32 → BitVec 32
  | 0, _, v => v
  | fuel + 1, n, v =>
    if n = 0 then v
    else crcFast (cols.map (crcApply cols)) fuel (n / 2) (if n % 2 = 1 then crcApply cols v else v)

theorem crcFast_eq (fuel : Nat) : ∀ (k n : Nat) (v : BitVec 32), n < 2 ^ fuel →
    crcFast (crcCols k) fuel n v = crcRounds (n * k) v := by
  induction fuel with
  | zero => intro k n v h; have : n = 0 := by omega
            subst this; simp [crcFast, crcRounds]
  | succ fuel ih =>
    intro k n v h
    unfold crcFast
    by_cases h0 : n = 0
    · subst h0; simp [crcRounds]
    · rw [if_neg h0, ← crcCols_double, ih _ _ _ (by omega), crcApply_cols]
      have e : n * k = (n % 2) * k + n / 2 * (k + k) := by
        have := Nat.div_add_mod n 2
        calc n * k = (2 * (n / 2) + n % 2) * k := by rw [this]
          _ = _ := by rw [Nat.add_mul, Nat.mul_add, Nat.two_mul, Nat.add_mul, Nat.add_comm]
      rw [e, crcRounds_add]
      congr 1
      split
      · rename_i h1; rw [h1, Nat.one_mul]
      · have : n % 2 = 0 := by omega
        rw [this, Nat.zero_mul]; rfl

/-- The first columns, to compute with. -/
theorem crcRounds_fast (n : Nat) (h : n < 2 ^ 32) (v : BitVec 32) : crcRounds n v = crcFast (crcCols 1) 32 n v := by
  rw [crcFast_eq 32 1 n v h, Nat.mul_one]

end Saratoga
