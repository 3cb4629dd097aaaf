import Verif.Spec.Timestamp
import Verif.Lemmas.Bytes
import Verif.Lemmas.Flags
/-! # Helper lemmas about timestamps -/
namespace Saratoga

theorem getTStr_eq_nameT (T : Tables) (h : BitVec 8) : getTStr T h = nameT T h := rfl

theorem setWidth_32_64 {v : BitVec 64} (h : v.toNat < 2 ^ 32) : (v.setWidth 32).setWidth 64 = v := by
  apply BitVec.eq_of_toNat_eq
  simp [Nat.mod_eq_of_lt h]
  omega

theorem put_bytes {T : Tables} {t : Timestamp} (hw : t.Wire T) :
    ∃ b, t.put T = .ret b ∧ b.length = 16 ∧ ∀ t1 : Timestamp, t1.get T b = .ret (t, none) := by
  obtain ⟨hn, hr, hl, hs, hz, hk⟩ := hw
  obtain ⟨hd, s, n, l, tt⟩ := t
  simp only at hn hr hl hs hz hk
  subst hl
  simp only [readableTypes, List.mem_cons, List.not_mem_nil, or_false] at hr
  have hb : putAt (mkBytes 16) 0 1 [hd] = .ret ([hd] ++ mkBytes 15) :=
    putAt_mk0 16 1 [hd] (by simp) (by simp)
  rcases hr with rfl | rfl | rfl | rfl | rfl
  · have hs := hs (by simp); have hz := hz (by simp); subst hz
    refine ⟨[hd] ++ be32 (s.setWidth 32) ++ mkBytes 11, ?_, by simp, ?_⟩
    · simp only [Timestamp.put, hb, hn, Out.ret_bind, if_true]
      rw [putAt_mk [hd] 15 1 5 _ rfl (by simp) (by simp)]
      rfl
    · intro t1
      simp only [Timestamp.get]
      rw [show byteAt ([hd] ++ be32 (s.setWidth 32) ++ mkBytes 11) 0 = .ret hd from rfl]
      simp only [getTStr_eq_nameT, hn, Out.ret_bind, if_true]
      rw [slice_mid [hd] (be32 (s.setWidth 32)) (mkBytes 11) 1 5 rfl rfl]
      simp [setWidth_32_64 hs]
  · have hz := hz (by simp); subst hz
    refine ⟨[hd] ++ be64 s ++ mkBytes 7, ?_, by simp, ?_⟩
    · simp only [Timestamp.put, hb, hn, Out.ret_bind]
      rw [if_neg (by decide), if_pos trivial, putAt_mk [hd] 15 1 9 _ rfl (by simp) (by simp)]
      rfl
    · intro t1
      simp only [Timestamp.get]
      rw [show byteAt ([hd] ++ be64 s ++ mkBytes 7) 0 = .ret hd from rfl]
      simp only [getTStr_eq_nameT, hn, Out.ret_bind]
      rw [if_neg (by decide), if_pos trivial,
        slice_mid [hd] (be64 s) (mkBytes 7) 1 9 rfl rfl]
      simp
  · have hs := hs (by simp)
    refine ⟨[hd] ++ be32 (s.setWidth 32) ++ be32 (n.setWidth 32) ++ mkBytes 7, ?_, by simp, ?_⟩
    · simp only [Timestamp.put, hb, hn, Out.ret_bind]
      rw [if_neg (by decide), if_neg (by decide), if_pos trivial,
        putAt_mk [hd] 15 1 5 _ rfl (by simp) (by simp)]
      simp only [Out.ret_bind]
      rw [putAt_mk ([hd] ++ be32 (s.setWidth 32)) _ 5 9 _ rfl (by simp) (by simp)]
      rfl
    · intro t1
      simp only [Timestamp.get]
      rw [show byteAt ([hd] ++ be32 (s.setWidth 32) ++ be32 (n.setWidth 32) ++ mkBytes 7) 0 = .ret hd
        from rfl]
      simp only [getTStr_eq_nameT, hn, Out.ret_bind]
      rw [if_neg (by decide), if_neg (by decide), if_pos trivial]
      rw [slice_mid ([hd] ++ be32 (s.setWidth 32)) (be32 (n.setWidth 32)) (mkBytes 7) 5 9 rfl rfl,
        List.append_assoc, slice_mid [hd] (be32 (s.setWidth 32)) _ 1 5 rfl rfl]
      simp [setWidth_32_64 hs, setWidth_32_64 hk]
  · refine ⟨[hd] ++ be64 s ++ be32 (n.setWidth 32) ++ mkBytes 3, ?_, by simp, ?_⟩
    · simp only [Timestamp.put, hb, hn, Out.ret_bind]
      rw [if_neg (by decide), if_neg (by decide), if_neg (by decide), if_pos trivial,
        putAt_mk [hd] 15 1 9 _ rfl (by simp) (by simp)]
      simp only [Out.ret_bind]
      rw [putAt_mk ([hd] ++ be64 s) _ 9 13 _ rfl (by simp) (by simp)]
      rfl
    · intro t1
      simp only [Timestamp.get]
      rw [show byteAt ([hd] ++ be64 s ++ be32 (n.setWidth 32) ++ mkBytes 3) 0 = .ret hd
        from rfl]
      simp only [getTStr_eq_nameT, hn, Out.ret_bind]
      rw [if_neg (by decide), if_neg (by decide), if_neg (by decide), if_pos trivial]
      rw [slice_mid ([hd] ++ be64 s) (be32 (n.setWidth 32)) (mkBytes 3) 9 13 rfl rfl,
        List.append_assoc, slice_mid [hd] (be64 s) _ 1 9 rfl rfl]
      simp [setWidth_32_64 hk]
  · have hs := hs (by simp); have hz := hz (by simp); subst hz
    refine ⟨[hd] ++ be32 (s.setWidth 32) ++ mkBytes 11, ?_, by simp, ?_⟩
    · simp only [Timestamp.put, hb, hn, Out.ret_bind]
      rw [if_neg (by decide), if_neg (by decide), if_neg (by decide), if_neg (by decide), if_pos trivial,
        putAt_mk [hd] 15 1 5 _ rfl (by simp) (by simp)]
      rfl
    · intro t1
      simp only [Timestamp.get]
      rw [show byteAt ([hd] ++ be32 (s.setWidth 32) ++ mkBytes 11) 0 = .ret hd from rfl]
      simp only [getTStr_eq_nameT, hn, Out.ret_bind]
      rw [if_neg (by decide), if_neg (by decide), if_neg (by decide), if_neg (by decide), if_pos trivial,
        slice_mid [hd] (be32 (s.setWidth 32)) (mkBytes 11) 1 5 rfl rfl]
      simp [setWidth_32_64 hs]

/-! ## Signed words -/

theorem gt_max_iff (x : BitVec 64) : x > maxUint32 ↔ ¬ (0 ≤ x.toInt ∧ x.toInt < 2 ^ 32) := by
  have h1 : x > maxUint32 ↔ 4294967295 < x.toNat := by
    rw [gt_iff_lt, BitVec.lt_def]; rfl
  rw [h1, BitVec.toInt_eq_toNat_cond]
  have := x.isLt
  split <;> omega

theorem toNat_of_toInt {x : BitVec 64} (h : 0 ≤ x.toInt) : (x.toNat : Int) = x.toInt := by
  rw [BitVec.toInt_eq_toNat_cond] at *
  have := x.isLt
  split at h
  · rename_i c; rw [if_pos c]
  · omega

theorem toInt_ofInt64 {i : Int} (h1 : -2 ^ 63 ≤ i) (h2 : i < 2 ^ 63) : (BitVec.ofInt 64 i).toInt = i := by
  rw [BitVec.toInt_ofInt]
  exact Int.bmod_eq_of_le (by omega) (by omega)

theorem toInt_1e9 : (1000000000#64).toInt = 1000000000 := by decide

theorem tdiv_cases (i : Int) :
    (0 ≤ i ∧ i.tdiv 1000000000 = i / 1000000000 ∧ i.tmod 1000000000 = i % 1000000000) ∨
    (i < 0 ∧ i.tdiv 1000000000 = -((-i) / 1000000000) ∧ i.tmod 1000000000 = -((-i) % 1000000000)) := by
  by_cases h : 0 ≤ i
  · exact Or.inl ⟨h, Int.tdiv_eq_ediv_of_nonneg h, Int.tmod_eq_emod_of_nonneg h⟩
  · right
    refine ⟨by omega, ?_, ?_⟩
    · rw [← Int.tdiv_eq_ediv_of_nonneg (by omega : 0 ≤ -i), Int.neg_tdiv, Int.neg_neg]
    · rw [← Int.tmod_eq_emod_of_nonneg (by omega : 0 ≤ -i), Int.neg_tmod, Int.neg_neg]

theorem toInt_div1e9 (x : BitVec 64) : (x.sdiv 1000000000#64).toInt = x.toInt.tdiv 1000000000 := by
  rw [BitVec.toInt_sdiv, toInt_1e9]
  have h1 := @BitVec.toInt_lt 64 x
  have h2 := @BitVec.le_toInt 64 x
  apply Int.bmod_eq_of_le
  · rcases tdiv_cases x.toInt with ⟨_, h, _⟩ | ⟨_, h, _⟩ <;> rw [h] <;> omega
  · rcases tdiv_cases x.toInt with ⟨_, h, _⟩ | ⟨_, h, _⟩ <;> rw [h] <;> omega

theorem toInt_mod1e9 (x : BitVec 64) : (x.srem 1000000000#64).toInt = x.toInt.tmod 1000000000 := by
  rw [BitVec.toInt_srem, toInt_1e9]

/-- What `New` makes of a type that exists in the table. -/
theorem new_header {T : Tables} {t0 t : Timestamp} {flag : String} {ts : GoTime} {e : Option Err}
    (wf : T.ts.WF) (h : t0.new T flag ts = .ret (t, e)) :
    nameT T t.header = .ret (stripSpaces flag) ∧ t.ttype = stripSpaces flag := by
  unfold Timestamp.new at h
  simp only at h
  cases ho : assoc (stripSpaces flag) T.ts.options with
  | none => simp [setT, ho] at h
  | some v =>
    have hv : v.toNat < 2 ^ T.ts.len.toNat := wf.2.1 _ (assoc_mem ho)
    rw [setT_eq ho] at h
    have key : nameT T (bitsSet T.ts.len T.ts.msb 0 v) = .ret (stripSpaces flag) := by
      simp only [nameT, getT_eq, bitsGet_bitsSet (by decide : 0 < 8) _ _ _ _ wf.1 hv]
      rw [optName_of_mem wf.2.2.1 (assoc_mem ho)]
    simp only [Out.ret_bind, Out.pure_eq] at h
    repeat' split at h
    all_goals
      simp only [Out.ret.injEq, Prod.mk.injEq] at h
      obtain ⟨rfl, _⟩ := h
      exact ⟨key, rfl⟩

end Saratoga

namespace Saratoga

theorem le_max_iff (x : BitVec 64) : ¬ x > maxUint32 ↔ x.toNat < 2 ^ 32 := by
  rw [gt_iff_lt, BitVec.lt_def]
  simp only [maxUint32]
  show ¬ 4294967295 < _ ↔ _
  omega

theorem tmod_abs (x : BitVec 64) :
    (x.srem 1000000000#64).toNat < 2 ^ 32 ↔ 0 ≤ x.toInt.tmod 1000000000 := by
  rw [← toInt_mod1e9]
  have h1 := toInt_mod1e9 x
  constructor
  · intro h
    rw [BitVec.toInt_eq_toNat_cond, if_pos (by omega)]
    omega
  · intro h
    have := toNat_of_toInt h
    have h3 : x.toInt.tmod 1000000000 < 1000000000 := by
      rcases tdiv_cases x.toInt with ⟨_, _, h⟩ | ⟨_, _, h⟩ <;> rw [h] <;> omega
    omega

/-- Explicit result of `New` on a type that exists in the table. -/
theorem new_ret {T : Tables} {t0 : Timestamp} {flag : String} {ts : GoTime} {r : Timestamp × Option Err}
    (h : t0.new T flag ts = .ret r) :
    ∃ v hd, assoc (stripSpaces flag) T.ts.options = some v ∧ hd = bitsSet T.ts.len T.ts.msb 0 v ∧
    (stripSpaces flag = "posix32" → r.2 = none → ¬ ts.unix > maxUint32 ∧
      r.1 = ⟨hd, ts.unix, 0, [], "posix32"⟩) ∧
    (stripSpaces flag = "posix64" → r.2 = none →
      r.1 = ⟨hd, ts.unix, 0, [], "posix64"⟩) ∧
    (stripSpaces flag = "posix32_32" → r.2 = none →
      ¬ (ts.unixNano.sdiv 1000000000#64) > maxUint32 ∧
      r.1 = ⟨hd, ts.unixNano.sdiv 1000000000#64, ts.unixNano.srem 1000000000#64, [], "posix32_32"⟩) ∧
    (stripSpaces flag = "posix64_32" → r.2 = none →
      ¬ (ts.unixNano.srem 1000000000#64) > maxUint32 ∧
      r.1 = ⟨hd, ts.unixNano.sdiv 1000000000#64, ts.unixNano.srem 1000000000#64, [], "posix64_32"⟩) ∧
    (stripSpaces flag = "epoch2000_32" → r.2 = none → ¬ (ts.unix - 946684800#64) > maxUint32 ∧
      r.1 = ⟨hd, ts.unix - 946684800#64, 0, [], "epoch2000_32"⟩) := by
  unfold Timestamp.new at h
  simp only at h
  cases ho : assoc (stripSpaces flag) T.ts.options with
  | none => simp [setT, ho] at h
  | some v =>
    rw [setT_eq ho] at h
    refine ⟨v, _, rfl, rfl, ?_⟩
    simp only [Out.ret_bind, Out.pure_eq] at h
    repeat' split at h
    all_goals
      simp only [Out.ret.injEq] at h
      subst h
      simp_all

end Saratoga

namespace Saratoga

/-- `Get` on the 16 bytes of a timestamp field. -/
theorem get16_cases (T : Tables) (t : Timestamp) {b : List Byte} (hb : b.length = 16) :
    ∃ h, b[0]? = some h ∧
      ((getTStr T h = .fatal ∧ t.get T b = .fatal) ∨
       (∃ s, getTStr T h = .ret s ∧ s ∈ readableTypes ∧ ∃ t', t.get T b = .ret (t', none)) ∨
       (∃ s, getTStr T h = .ret s ∧ s ∉ readableTypes ∧ ∃ t' e, t.get T b = .ret (t', some e))) := by
  match b, hb with
  | h :: b1 :: b2 :: b3 :: b4 :: b5 :: b6 :: b7 :: b8 :: b9 :: b10 :: b11 :: b12 :: b13 :: b14 :: [b15], _ =>
    refine ⟨h, rfl, ?_⟩
    have e1 : byteAt (h :: b1 :: b2 :: b3 :: b4 :: b5 :: b6 :: b7 :: b8 :: b9 :: b10 :: b11 :: b12 ::
      b13 :: b14 :: [b15]) 0 = .ret h := rfl
    unfold Timestamp.get
    rw [e1]
    simp only [Out.ret_bind]
    cases hs : getTStr T h with
    | fatal => exact Or.inl ⟨rfl, rfl⟩
    | panic => unfold getTStr at hs; simp only at hs; split at hs <;> cases hs
    | ret s =>
      right
      simp only [Out.ret_bind]
      by_cases h1 : s = "posix32"
      · subst h1; exact Or.inl ⟨_, rfl, by decide, ⟨_, rfl⟩⟩
      by_cases h2 : s = "posix64"
      · subst h2; exact Or.inl ⟨_, rfl, by decide, ⟨_, rfl⟩⟩
      by_cases h3 : s = "posix32_32"
      · subst h3; exact Or.inl ⟨_, rfl, by decide, ⟨_, rfl⟩⟩
      by_cases h4 : s = "posix64_32"
      · subst h4; exact Or.inl ⟨_, rfl, by decide, ⟨_, rfl⟩⟩
      by_cases h5 : s = "epoch2000_32"
      · subst h5; exact Or.inl ⟨_, rfl, by decide, ⟨_, rfl⟩⟩
      right
      refine ⟨s, rfl, ?_, ?_⟩
      · simp [readableTypes, h1, h2, h3, h4, h5]
      · rw [if_neg h1, if_neg h2, if_neg h3, if_neg h4, if_neg h5]
        exact ⟨_, _, rfl⟩

theorem get_receiver (T : Tables) (t t' : Timestamp) (b : List Byte) : t.get T b = t'.get T b := rfl

end Saratoga

namespace Saratoga

/-- Whatever `Put` writes is 16 bytes long. -/
theorem put_length {T : Tables} {t : Timestamp} {b : List Byte} (h : t.put T = .ret b) :
    b.length = 16 := by
  unfold Timestamp.put at h
  obtain ⟨b0, h0, h⟩ := Out.bind_eq_ret h
  have l0 := putAt_length h0
  simp at l0
  obtain ⟨nm, _, h⟩ := Out.bind_eq_ret h
  split at h
  · rw [putAt_length h, l0]
  split at h
  · rw [putAt_length h, l0]
  split at h
  · obtain ⟨b1, h1, h⟩ := Out.bind_eq_ret h
    rw [putAt_length h, putAt_length h1, l0]
  split at h
  · obtain ⟨b1, h1, h⟩ := Out.bind_eq_ret h
    rw [putAt_length h, putAt_length h1, l0]
  split at h
  · rw [putAt_length h, l0]
  · rw [copyAt_length h, l0]

end Saratoga
