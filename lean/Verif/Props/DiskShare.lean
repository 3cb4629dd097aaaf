import Verif.Model.DiskShare
import Verif.Spec.DiskShare
import Verif.Props.System
/-! # C186: the share of a disk that is used -/
namespace Saratoga

/-! ## Rounding -/

theorem roundEven_near (n d : Nat) (hd : 0 < d) : 2 * offBy (roundEven n d * d) n ≤ d := by
  have h := Nat.div_add_mod n d
  have hr := Nat.mod_lt n hd
  rw [Nat.mul_comm] at h
  unfold roundEven offBy
  split
  · omega
  · rw [Nat.succ_mul (n / d) d]; omega

theorem roundEven_mono {n m d : Nat} (h : n ≤ m) : roundEven n d ≤ roundEven m d := by
  have hn := Nat.div_add_mod n d
  have hm := Nat.div_add_mod m d
  have hq : n / d ≤ m / d := Nat.div_le_div_right h
  have up : roundEven n d ≤ n / d + 1 := by unfold roundEven; split <;> omega
  have down : m / d ≤ roundEven m d := by unfold roundEven; split <;> omega
  by_cases e : n / d = m / d
  · rw [e] at hn
    unfold roundEven
    rw [e]
    split <;> split <;> omega
  · omega

theorem roundEven_scale (n c d : Nat) (hd : 0 < d) : roundEven (d * n) (d * c) = roundEven n c := by
  unfold roundEven
  rw [Nat.mul_mod_mul_left, Nat.mul_div_mul_left _ _ hd]
  have e1 : 2 * (d * (n % c)) < d * c ↔ 2 * (n % c) < c := by
    rw [Nat.mul_left_comm]; exact Nat.mul_lt_mul_left hd
  have e2 : 2 * (d * (n % c)) = d * c ↔ 2 * (n % c) = c := by
    rw [Nat.mul_left_comm]; exact Nat.mul_right_inj (by omega)
  simp only [e1, e2]

theorem roundEven_one (n : Nat) : roundEven n 1 = n := by
  unfold roundEven
  rw [Nat.mod_one]
  simp

theorem round24_scale (c d : Nat) (hd : 0 < d) : round24 (d * c) d = round24 c 1 := by
  unfold round24
  simp only [Nat.mul_div_cancel_left _ hd, Nat.div_one, Nat.one_mul]
  rw [roundEven_scale _ _ _ hd]

theorem round24_small (n : Nat) (h : n < 2 ^ 24) : round24 n 1 = n := by
  unfold round24
  have : n.log2 + 1 - 24 = 0 := by
    by_cases h0 : n = 0
    · subst h0; decide
    · have := (Nat.log2_lt h0).2 h; omega
  simp only [Nat.div_one, this, Nat.pow_zero, Nat.mul_one, roundEven_one]

/-- The bits of a number of at least 24 bits. -/
theorem bits24 {x : Nat} (h : 2 ^ 23 ≤ x) :
    2 ^ 23 * 2 ^ (x.log2 + 1 - 24) ≤ x ∧ x < 2 ^ 24 * 2 ^ (x.log2 + 1 - 24) := by
  have h0 : x ≠ 0 := by omega
  have h1 : 23 ≤ x.log2 := (Nat.le_log2 h0).2 h
  rw [← Nat.pow_add, ← Nat.pow_add]
  have e1 : 23 + (x.log2 + 1 - 24) = x.log2 := by omega
  have e2 : 24 + (x.log2 + 1 - 24) = x.log2 + 1 := by omega
  rw [e1, e2]
  exact ⟨Nat.log2_self_le h0, Nat.lt_log2_self⟩

theorem round24_le (n d : Nat) (hd : 0 < d) : round24 n d ≤ 2 ^ 24 * 2 ^ ((n / d).log2 + 1 - 24) := by
  unfold round24
  refine Nat.mul_le_mul_right _ ?_
  have up : 0 < 2 ^ ((n / d).log2 + 1 - 24) := Nat.two_pow_pos _
  have lt : n / d < 2 ^ 24 * 2 ^ ((n / d).log2 + 1 - 24) := by
    by_cases h : 2 ^ 23 ≤ n / d
    · exact (bits24 h).2
    · have := Nat.mul_le_mul_left (2 ^ 24) (Nat.succ_le_of_lt up); omega
  have := roundEven_mono (d := d * 2 ^ ((n / d).log2 + 1 - 24))
    (Nat.le_of_lt ((Nat.div_lt_iff_lt_mul hd).1 lt))
  refine Nat.le_trans this ?_
  have e : 2 ^ 24 * 2 ^ ((n / d).log2 + 1 - 24) * d = d * 2 ^ ((n / d).log2 + 1 - 24) * 2 ^ 24 := by
    rw [Nat.mul_comm _ d, Nat.mul_comm (2 ^ 24), Nat.mul_assoc]
  rw [e]
  have := roundEven_scale (2 ^ 24) 1 (d * 2 ^ ((n / d).log2 + 1 - 24)) (Nat.mul_pos hd up)
  rw [Nat.mul_one] at this
  rw [this, roundEven_one]
  exact Nat.le_refl _

theorem round24_ge (n d : Nat) (hd : 0 < d) (h : 2 ^ 23 ≤ n / d) :
    2 ^ 23 * 2 ^ ((n / d).log2 + 1 - 24) ≤ round24 n d := by
  unfold round24
  refine Nat.mul_le_mul_right _ ?_
  have up : 0 < 2 ^ ((n / d).log2 + 1 - 24) := Nat.two_pow_pos _
  have := roundEven_mono (d := d * 2 ^ ((n / d).log2 + 1 - 24))
    ((Nat.le_div_iff_mul_le hd).1 (bits24 h).1)
  refine Nat.le_trans ?_ this
  have e : 2 ^ 23 * 2 ^ ((n / d).log2 + 1 - 24) * d = d * 2 ^ ((n / d).log2 + 1 - 24) * 2 ^ 23 := by
    rw [Nat.mul_comm _ d, Nat.mul_comm (2 ^ 23), Nat.mul_assoc]
  rw [e]
  have := roundEven_scale (2 ^ 23) 1 (d * 2 ^ ((n / d).log2 + 1 - 24)) (Nat.mul_pos hd up)
  rw [Nat.mul_one] at this
  rw [this, roundEven_one]
  exact Nat.le_refl _

theorem log2_mono {a b : Nat} (h : a ≤ b) : a.log2 ≤ b.log2 := by
  by_cases ha : a = 0
  · subst ha; exact Nat.zero_le _
  · exact (Nat.le_log2 (by omega)).2 (Nat.le_trans (Nat.log2_self_le ha) h)

theorem round24_mono {n m d : Nat} (hd : 0 < d) (h : n ≤ m) : round24 n d ≤ round24 m d := by
  have hl := log2_mono (Nat.div_le_div_right (c := d) h)
  by_cases e : (n / d).log2 + 1 - 24 = (m / d).log2 + 1 - 24
  · unfold round24
    rw [e]
    exact Nat.mul_le_mul_right _ (roundEven_mono h)
  · have big : 2 ^ 23 ≤ m / d := by
      have h0 : m / d ≠ 0 := fun h0 => by rw [h0, show Nat.log2 0 = 0 from by decide] at hl e; omega
      exact (Nat.le_log2 h0).1 (by omega)
    refine Nat.le_trans (round24_le n d hd) (Nat.le_trans ?_ (round24_ge m d hd big))
    rw [← Nat.pow_add, ← Nat.pow_add]
    exact Nat.pow_le_pow_right (by omega) (by omega)

/-- The error is at most a part of 2^24. -/
theorem round24_near (n d : Nat) (hd : 0 < d) (h : 2 ^ 23 ≤ n / d) : offBy (round24 n d * d) n * 2 ^ 24 ≤ n := by
  have h1 := (Nat.le_div_iff_mul_le hd).1 (bits24 h).1
  have h2 := roundEven_near n (d * 2 ^ ((n / d).log2 + 1 - 24)) (Nat.mul_pos hd (Nat.two_pow_pos _))
  have e : round24 n d * d = roundEven n (d * 2 ^ ((n / d).log2 + 1 - 24)) * (d * 2 ^ ((n / d).log2 + 1 - 24)) := by
    unfold round24
    rw [Nat.mul_assoc, Nat.mul_comm d]
  rw [e]
  have e' : 2 ^ 23 * 2 ^ ((n / d).log2 + 1 - 24) * d = 2 ^ 23 * (d * 2 ^ ((n / d).log2 + 1 - 24)) := by
    rw [Nat.mul_assoc, Nat.mul_comm d]
  rw [e'] at h1
  generalize d * 2 ^ ((n / d).log2 + 1 - 24) = D at *
  generalize offBy (roundEven n D * D) n = a at *
  omega

theorem float32_near (n : Nat) : offBy (round24 n 1) n * 2 ^ 24 ≤ n := by
  by_cases h : n < 2 ^ 24
  · rw [round24_small n h]; unfold offBy; omega
  · have := round24_near n 1 (by omega) (by rw [Nat.div_one]; omega)
    rwa [Nat.mul_one] at this

/-- **C186, rounding.** What the arithmetic of the model answers is the `float32` nearest to the true quotient. -/
theorem C186_rounding (n d : Nat) (hd : 0 < d) (h : d = 1 ∨ 2 ^ 23 ≤ n / d) : NearestFloat n d (round24 n d) := by
  by_cases small : n / d < 2 ^ 23
  · cases h.resolve_right (by omega)
    rw [Nat.div_one] at small
    rw [round24_small n (by omega)]
    exact ⟨⟨n, 0, by omega, by rw [Nat.pow_zero, Nat.mul_one]⟩, fun y _ => by
      rw [Nat.mul_one]; unfold offBy; omega⟩
  have big : 2 ^ 23 ≤ n / d := by omega
  have le := round24_le n d hd
  have lower := (Nat.le_div_iff_mul_le hd).1 (bits24 big).1
  have near := roundEven_near n (d * 2 ^ ((n / d).log2 + 1 - 24)) (Nat.mul_pos hd (Nat.two_pow_pos _))
  have low := round24_ge n d hd big
  unfold round24 at le low ⊢
  generalize (n / d).log2 + 1 - 24 = k at *
  simp only at *
  have up : 0 < 2 ^ k := Nat.two_pow_pos _
  generalize hM : roundEven n (d * 2 ^ k) = M at *
  have hM' : M ≤ 2 ^ 24 := Nat.le_of_mul_le_mul_right le up
  refine ⟨?_, ?_⟩
  · by_cases e : M = 2 ^ 24
    · exact ⟨2 ^ 23, k + 1, by omega, by rw [e, Nat.pow_succ 2 k]; omega⟩
    · exact ⟨M, k, by omega, rfl⟩
  · have er : M * 2 ^ k * d = M * (d * 2 ^ k) := by rw [Nat.mul_assoc, Nat.mul_comm d]
    rw [er]
    -- the multiples of the unit
    have grid : ∀ z, offBy (M * (d * 2 ^ k)) n ≤ offBy (z * (d * 2 ^ k)) n := by
      intro z
      rcases Nat.lt_trichotomy M z with h | h | h
      · have := Nat.mul_le_mul_right (d * 2 ^ k) (show M + 1 ≤ z from h)
        rw [Nat.succ_mul] at this
        unfold offBy at near ⊢
        omega
      · subst h; exact Nat.le_refl _
      · have := Nat.mul_le_mul_right (d * 2 ^ k) (show z + 1 ≤ M from h)
        rw [Nat.succ_mul] at this
        unfold offBy at near ⊢
        omega
    rintro y ⟨m, j, hm, rfl⟩
    by_cases hy : 2 ^ 23 * 2 ^ k ≤ m * 2 ^ j
    · have hj : k ≤ j := by
        refine Classical.byContradiction fun no => ?_
        have h1 : 2 ^ (j + 1) ≤ 2 ^ k := Nat.pow_le_pow_right (by omega) (by omega)
        have h2 : m * 2 ^ j < 2 ^ 24 * 2 ^ j := Nat.mul_lt_mul_of_pos_right hm (Nat.two_pow_pos _)
        rw [Nat.pow_succ 2 j] at h1
        omega
      obtain ⟨i, rfl⟩ : ∃ i, j = k + i := ⟨j - k, by omega⟩
      have := grid (m * 2 ^ i)
      rwa [show m * 2 ^ (k + i) * d = m * 2 ^ i * (d * 2 ^ k) by
        rw [Nat.pow_add, Nat.mul_comm (2 ^ k), ← Nat.mul_assoc, Nat.mul_assoc (m * 2 ^ i), Nat.mul_comm (2 ^ k)]]
    · have h1 := grid (2 ^ 23)
      have h2 : m * 2 ^ j * d ≤ 2 ^ 23 * 2 ^ k * d := Nat.mul_le_mul_right _ (by omega)
      rw [show 2 ^ 23 * 2 ^ k * d = 2 ^ 23 * (d * 2 ^ k) by rw [Nat.mul_assoc, Nat.mul_comm d]] at lower h2
      refine Nat.le_trans h1 ?_
      unfold offBy
      omega

/-- **C186, halves.** What lies halfway between two neighbouring `float32` becomes the even one. -/
theorem C186_halves (m k d : Nat) (h : 2 ^ 23 ≤ m) (h' : m < 2 ^ 24) (hd : 0 < d) :
    round24 (d * ((2 * m + 1) * 2 ^ k)) d = (m + m % 2) * 2 ^ (k + 1) := by
  rw [round24_scale _ _ hd]
  have low : 2 ^ (24 + k) ≤ (2 * m + 1) * 2 ^ k := by
    rw [Nat.pow_add]; exact Nat.mul_le_mul_right _ (by omega)
  have high : (2 * m + 1) * 2 ^ k < 2 ^ (25 + k) := by
    rw [Nat.pow_add]; exact Nat.mul_lt_mul_of_pos_right (by omega) (Nat.two_pow_pos _)
  have h0 : (2 * m + 1) * 2 ^ k ≠ 0 := by have := Nat.two_pow_pos (24 + k); omega
  have l1 := (Nat.le_log2 h0).2 low
  have l2 := (Nat.log2_lt h0).2 high
  unfold round24
  simp only [Nat.div_one, Nat.one_mul]
  rw [show ((2 * m + 1) * 2 ^ k).log2 + 1 - 24 = k + 1 by omega]
  refine congrArg (· * 2 ^ (k + 1)) ?_
  rw [Nat.pow_succ, Nat.mul_comm _ (2 ^ k), roundEven_scale _ _ _ (Nat.two_pow_pos _)]
  unfold roundEven
  split <;> omega

example := C186_halves (2 ^ 23) 0 1 (by decide) (by decide) (by decide)

example : round24 (2 ^ 24 + 1) 1 = 2 ^ 24 ∧ round24 (2 ^ 24 + 3) 1 = 2 ^ 24 + 4 := by decide +kernel

/-! ## The share -/

theorem round24_pos {n : Nat} (h : 0 < n) : 0 < round24 n 1 := by
  have := round24_mono (d := 1) (by omega) (show 1 ≤ n from h)
  rw [round24_small 1 (by decide)] at this
  omega

theorem round24_zero {d : Nat} (h : 0 < d) : round24 0 d = 0 := by
  unfold round24 roundEven
  simp [h]

theorem round24_size (u : BitVec 64) : round24 u.toNat 1 ≤ 2 ^ 64 := by
  have := round24_mono (d := 1) (by omega) (Nat.le_of_lt u.isLt)
  rwa [show round24 (2 ^ 64) 1 = 2 ^ 64 by decide] at this

/-- What is divided is large enough for 24 bits. -/
theorem share_big {a b : Nat} (ha : 0 < a) (hb : 0 < b) (hb' : b ≤ 2 ^ 64) : 2 ^ 23 ≤ a * 2 ^ 88 / b :=
  (Nat.le_div_iff_mul_le hb).2 (by omega)

/-- **C186, not a number.** Only a disk without size, such as one that cannot be asked about, has no share. -/
theorem C186_number (u : DiskUsage) : (∃ x, u.usage = .units x) ↔ u.size ≠ 0 := by
  unfold DiskUsage.usage
  simp only
  by_cases h : u.size = 0
  · rw [h, show round24 (0 : BitVec 64).toNat 1 = 0 by decide, if_pos rfl]
    refine ⟨fun ⟨x, e⟩ => ?_, fun no => (no rfl).elim⟩
    split at e <;> cases e
  · have : 0 < u.size.toNat := Nat.pos_of_ne_zero fun e => h (BitVec.eq_of_toNat_eq e)
    have := round24_pos this
    rw [if_neg (by omega)]
    exact ⟨fun _ => h, fun _ => ⟨_, rfl⟩⟩

theorem usage_units {u : DiskUsage} {x : Nat} (h : u.usage = .units x) : 0 < u.size.toNat ∧ 0 < round24 u.size.toNat 1 ∧
    x = round24 (round24 u.used.toNat 1 * 2 ^ 88) (round24 u.size.toNat 1) := by
  have ne := (C186_number u).1 ⟨x, h⟩
  have : 0 < u.size.toNat := Nat.pos_of_ne_zero fun e => ne (BitVec.eq_of_toNat_eq e)
  have pos := round24_pos this
  unfold DiskUsage.usage at h
  simp only at h
  rw [if_neg (by omega)] at h
  injection h with h
  exact ⟨this, pos, h.symm⟩

/-- **C186, share.** Of a disk of which not more is used than there is the answer is between 0 and 1, 0 exactly if nothing is
used, and 1 if all is. -/
theorem C186_share (u : DiskUsage) (x : Nat) (is : u.usage = .units x) :
    (u.used.toNat ≤ u.size.toNat → x ≤ 2 ^ 88) ∧ (x = 0 ↔ u.used = 0) ∧ (u.used = u.size → x = 2 ^ 88) := by
  obtain ⟨-, pos, rfl⟩ := usage_units is
  have one : round24 (round24 u.size.toNat 1 * 2 ^ 88) (round24 u.size.toNat 1) = 2 ^ 88 := by
    rw [round24_scale _ _ pos]; decide
  refine ⟨fun le => ?_, ⟨fun e => ?_, fun e => ?_⟩, fun e => by rw [e]; exact one⟩
  · refine Nat.le_trans ?_ (Nat.le_of_eq one)
    exact round24_mono pos (Nat.mul_le_mul_right _ (round24_mono (by omega) le))
  · refine Classical.byContradiction fun no => ?_
    have ha : 0 < round24 u.used.toNat 1 := round24_pos (Nat.pos_of_ne_zero fun e => no (BitVec.eq_of_toNat_eq e))
    have := round24_ge _ _ pos (share_big ha pos (round24_size _))
    rw [e] at this
    have := Nat.mul_pos (show 0 < 2 ^ 23 by decide)
      (Nat.two_pow_pos ((round24 u.used.toNat 1 * 2 ^ 88 / round24 u.size.toNat 1).log2 + 1 - 24))
    omega
  · rw [e, show round24 (0 : BitVec 64).toNat 1 = 0 by decide, Nat.zero_mul]
    exact round24_zero pos

/-- **C186, range.** The numbers divided are at most 2^64, and the answer is 0 or between 2^-65 and 2^64: all within the range
in which `float32` has its 24 bits (2^-126 to 2^127), so that leaving out the bounds of the exponent changes nothing. -/
theorem C186_range (u : DiskUsage) (x : Nat) (is : u.usage = .units x) :
    round24 u.used.toNat 1 ≤ 2 ^ 64 ∧ round24 u.size.toNat 1 ≤ 2 ^ 64 ∧ (x = 0 ∨ 2 ^ 23 ≤ x ∧ x ≤ 2 ^ (88 + 64)) := by
  refine ⟨round24_size _, round24_size _, ?_⟩
  by_cases h0 : u.used = 0
  · exact .inl (((C186_share u x is).2.1).2 h0)
  obtain ⟨-, pos, rfl⟩ := usage_units is
  have ha : 0 < round24 u.used.toNat 1 := round24_pos (Nat.pos_of_ne_zero fun e => h0 (BitVec.eq_of_toNat_eq e))
  refine .inr ⟨?_, ?_⟩
  · refine Nat.le_trans ?_ (round24_ge _ _ pos (share_big ha pos (round24_size _)))
    exact Nat.le_mul_of_pos_right _ (Nat.two_pow_pos _)
  · have le : round24 u.used.toNat 1 * 2 ^ 88 ≤ round24 u.size.toNat 1 * 2 ^ (88 + 64) := by
      have := round24_size u.used
      refine Nat.le_trans (Nat.mul_le_mul_right _ this) ?_
      rw [← Nat.pow_add]
      exact Nat.le_mul_of_pos_left _ pos
    have := round24_mono pos le
    rwa [round24_scale _ _ pos, show round24 (2 ^ (88 + 64)) 1 = 2 ^ (88 + 64) by decide +kernel] at this

/-- **C186, order.** Of two disks of one size the one with more used has no smaller share. -/
theorem C186_order (u v : DiskUsage) (x y : Nat) (hu : u.usage = .units x) (hv : v.usage = .units y)
    (size : u.size = v.size) (more : u.used.toNat ≤ v.used.toNat) : x ≤ y := by
  obtain ⟨-, pos, rfl⟩ := usage_units hu
  obtain ⟨-, -, rfl⟩ := usage_units hv
  rw [size] at pos ⊢
  exact round24_mono pos (Nat.mul_le_mul_right _ (round24_mono (by omega) more))

theorem offBy_scale (a b c : Nat) : offBy a b * c = offBy (a * c) (b * c) := by
  unfold offBy
  rw [Nat.add_mul, Nat.sub_mul, Nat.sub_mul]

theorem offBy_bounds {a b c : Nat} (h : offBy a b * c ≤ b) : a * c ≤ b * (c + 1) ∧ b * c ≤ a * c + b := by
  rw [offBy_scale] at h
  unfold offBy at h
  rw [Nat.mul_succ]
  omega

theorem bounds_offBy {a b c : Nat} (h1 : a * c ≤ b * c + b) (h2 : b * c ≤ a * c + b) :
    offBy a b * c ≤ b := by
  rw [offBy_scale]
  unfold offBy
  omega

theorem bounds_chain {p q A A' : Nat} (low : p * 16777215 ≤ q * 16777216) (high : q * 16777216 ≤ p * 16777217)
    (l1 : q * 16777216 ≤ A' * 16777217) (l2 : A' * 16777216 ≤ q * 16777216 + A')
    (k4 : A' * 16777216 ≤ A * 16777217) (k5 : A * 16777215 ≤ A' * 16777216) :
    p * 4194304 ≤ A * 4194304 + A ∧ A * 4194304 ≤ p * 4194304 + A := by
  omega

theorem errors_add {a a' b b' x s : Nat} (n1 : offBy a' a * 2 ^ 24 ≤ a) (n2 : offBy b' b * 2 ^ 24 ≤ b)
    (n3 : offBy (x * b') (a' * s) * 2 ^ 24 ≤ a' * s) : offBy (x * b) (a * s) * 2 ^ 22 ≤ a * s := by
  have k1 := offBy_bounds n1
  have k2 := offBy_bounds n2
  have k3 := offBy_bounds n3
  clear n1 n2 n3
  have low : x * (b * 16777215) ≤ x * (b' * 16777216) := Nat.mul_le_mul_left _ (by omega)
  have high : x * (b' * 16777216) ≤ x * (b * 16777217) := Nat.mul_le_mul_left _ (by omega)
  have k4 : (a' * 16777216) * s ≤ (a * 16777217) * s := Nat.mul_le_mul_right _ (by omega)
  have k5 : (a * 16777215) * s ≤ (a' * 16777216) * s := Nat.mul_le_mul_right _ (by omega)
  rw [← Nat.mul_assoc, ← Nat.mul_assoc] at low high
  rw [Nat.mul_right_comm a', Nat.mul_right_comm a] at k4 k5
  have := bounds_chain low high (by simpa using k3.1) (by simpa using k3.2) k4 k5
  exact bounds_offBy (by simpa using this.1) (by simpa using this.2)

/-- **C186, accuracy.** The answer differs from the true share by less than a part in 2^22 of it. -/
theorem C186_accuracy (u : DiskUsage) (x : Nat) (is : u.usage = .units x) :
    offBy (x * u.size.toNat) (u.used.toNat * 2 ^ 88) * 2 ^ 22 ≤ u.used.toNat * 2 ^ 88 := by
  by_cases h0 : u.used = 0
  · rw [((C186_share u x is).2.1).2 h0, h0]
    show offBy (0 * _) (0 * 2 ^ 88) * 2 ^ 22 ≤ 0 * 2 ^ 88
    rw [Nat.zero_mul, Nat.zero_mul]; decide
  obtain ⟨-, pos, e⟩ := usage_units is
  have ha : 0 < round24 u.used.toNat 1 := round24_pos (Nat.pos_of_ne_zero fun e => h0 (BitVec.eq_of_toNat_eq e))
  have n1 := float32_near u.used.toNat
  have n2 := float32_near u.size.toNat
  have n3 := round24_near _ _ pos (share_big ha pos (round24_size _))
  rw [← e] at n3
  exact errors_add n1 n2 n3

/-- **C186, on a disk.** On linux and darwin, of a disk of less than 2^64 bytes, the answer is the share of the disk that is
used up to a part in 2^22, and not more than 1. -/
theorem C186_disk (s : Statfs) (d : Disk) (of : s.Of d) (some_ : 0 < d.size) (fits : d.size < 2 ^ 64) :
    ∃ x, (DiskUsage.unix (some s)).usage = .units x ∧ x ≤ 2 ^ 88 ∧
      offBy (x * d.size) ((d.size - d.free) * 2 ^ 88) * 2 ^ 22 ≤ (d.size - d.free) * 2 ^ 88 := by
  obtain ⟨h1, h2, h3, h4⟩ := C120_unix_partial s d of fits
  obtain ⟨x, hx⟩ := (C186_number (DiskUsage.unix (some s))).2 fun e => by
    have : (DiskUsage.unix (some s)).size.toNat = 0 := by rw [e]; rfl
    omega
  have acc := C186_accuracy _ x hx
  rw [h1, h4] at acc
  exact ⟨x, hx, (C186_share _ x hx).1 (by omega), acc⟩

/-- **C186, on windows.** There what is free but not for the user counts as used (C120). -/
theorem C186_windows (s : WinSpace) (d : Disk) (of : s.Of d) (some_ : 0 < d.size) :
    ∃ x, (DiskUsage.windows (some s)).usage = .units x ∧ x ≤ 2 ^ 88 ∧
      offBy (x * d.size) ((d.size - d.available) * 2 ^ 88) * 2 ^ 22 ≤ (d.size - d.available) * 2 ^ 88 := by
  obtain ⟨h1, h2, h3, h4, h5⟩ := of
  have e1 : (DiskUsage.windows (some s)).size.toNat = d.size := h1.symm
  have e2 : (DiskUsage.windows (some s)).used.toNat = d.size - d.available := by
    show (s.total - s.toCaller).toNat = _
    rw [BitVec.toNat_sub_of_le (by rw [BitVec.le_def]; omega), h1, h3]
  obtain ⟨x, hx⟩ := (C186_number (DiskUsage.windows (some s))).2 fun e => by
    have : (DiskUsage.windows (some s)).size.toNat = 0 := by rw [e]; rfl
    omega
  have acc := C186_accuracy _ x hx
  rw [e1, e2] at acc
  exact ⟨x, hx, (C186_share _ x hx).1 (by omega), acc⟩

example := C186_windows ⟨1000, 4000, 2000⟩ ⟨4000, 2000, 1000⟩ (by unfold WinSpace.Of; decide) (by decide)

/-- A disk half full, one of which a third is used, which is rounded, and one that cannot be asked. -/
example : (DiskUsage.unix (some ⟨4096, 1000, 500, 400⟩)).usage = .units (2 ^ 87) ∧
    (DiskUsage.unix (some ⟨4096, 3, 2, 2⟩)).usage = .units (11184811 * 2 ^ 63) ∧
    (DiskUsage.unix none).usage = .nan := by decide +kernel

example := C186_share (DiskUsage.unix (some ⟨4096, 1000, 500, 400⟩)) (2 ^ 87) (by decide +kernel)

example := C186_order (DiskUsage.unix (some ⟨4096, 1000, 500, 400⟩)) (DiskUsage.unix (some ⟨4096, 1000, 250, 150⟩)) (2 ^ 87)
  (3 * 2 ^ 86) (by decide +kernel) (by decide +kernel) (by decide +kernel) (by decide +kernel)

example := C186_rounding 2000000000 3 (by decide) (.inr (by decide))

example := C186_disk ⟨4096, 1000, 500, 400⟩ ⟨4096000, 2048000, 1638400⟩ (by unfold Statfs.Of; decide) (by decide) (by decide)

/-- **C186** What is documented as a percentage is a share: of a disk half full the answer is a half, not fifty. -/
theorem C186_no_percentage : ∃ s : Statfs, ∃ d : Disk, s.Of d ∧ d.size = 2 * d.free ∧ 0 < d.size ∧
    (DiskUsage.unix (some s)).usage = .units (2 ^ 88 / 2) ∧ (DiskUsage.unix (some s)).usage ≠ .units (50 * 2 ^ 88) :=
  ⟨⟨4096, 1000, 500, 400⟩, ⟨4096000, 2048000, 1638400⟩, by unfold Statfs.Of; decide, by decide, by decide, by decide +kernel,
    by decide +kernel⟩

end Saratoga
