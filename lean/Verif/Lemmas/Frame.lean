import Verif.Spec.Frame
import Verif.Lemmas.Bytes
/-! # Helper lemmas about the shared frame blocks -/
namespace Saratoga

theorem descSize_eq (d : String) : descSize d = descWidth d := by
  unfold descSize descWidth
  split
  · simp_all
  · split
    · simp_all
    · split
      · simp_all
      · split <;> simp_all

theorem descSize_cases {d : String} {n : Nat} (h : descSize d = some n) : n = 2 ∨ n = 4 ∨ n = 8 := by
  unfold descSize at h
  split at h
  · simp_all
  · split at h
    · simp_all
    · split at h <;> simp_all

theorem numBytes_length {n : Nat} (hn : n = 2 ∨ n = 4 ∨ n = 8) (v : BitVec 64) :
    (numBytes n v).length = n := by
  rcases hn with rfl | rfl | rfl <;> simp [numBytes]

theorem wireNum_eq {n : Nat} {v : BitVec 64} (h : v.toNat < 256 ^ n) : wireNum n v = v := by
  simp [wireNum, Nat.mod_eq_of_lt h]

theorem wireNum_toNat {n : Nat} (hn : n ≤ 8) (v : BitVec 64) : (wireNum n v).toNat = v.toNat % 256 ^ n := by
  unfold wireNum
  rw [BitVec.toNat_ofNat]
  apply Nat.mod_eq_of_lt
  have h1 : v.toNat % 256 ^ n < 256 ^ n := Nat.mod_lt _ (Nat.pow_pos (by decide))
  have h2 : 256 ^ n ≤ 256 ^ 8 := Nat.pow_le_pow_right (by decide) hn
  have h3 : (256 : Nat) ^ 8 = 2 ^ 64 := by decide
  omega

theorem readNum_mid {n : Nat} (hn : n = 2 ∨ n = 4 ∨ n = 8) (pre post : List Byte) (v : BitVec 64)
    (pos : Nat) (hp : pos = pre.length) :
    readNum (pre ++ numBytes n v ++ post) pos n = .ret (wireNum n v) := by
  unfold readNum
  rw [slice_mid pre (numBytes n v) post pos (pos + n) hp (by rw [numBytes_length hn, hp])]
  rcases hn with rfl | rfl | rfl
  · simp only [numBytes, if_true, Out.ret_bind, rd16_be16', Out.pure_eq, Out.ret.injEq]
    apply BitVec.eq_of_toNat_eq
    rw [wireNum_toNat (by decide)]
    simp
    omega
  · simp only [numBytes, if_true, Out.ret_bind, Out.pure_eq, if_neg (by decide : ¬ (4 = 2)),
      rd32_be32', Out.ret.injEq]
    apply BitVec.eq_of_toNat_eq
    rw [wireNum_toNat (by decide)]
    simp
    omega
  · simp only [numBytes, Out.ret_bind, if_neg (by decide : ¬ (8 = 2)), if_neg (by decide : ¬ (8 = 4)),
      rd64_be64', Out.ret.injEq]
    apply BitVec.eq_of_toNat_eq
    rw [wireNum_toNat (by decide)]
    have := v.isLt
    omega

theorem readWord_mid (pre post : List Byte) (v : BitVec 32) (pos : Nat) (hp : pos = pre.length) :
    readWord (pre ++ be32 v ++ post) pos = .ret v := by
  unfold readWord
  rw [slice_mid pre (be32 v) post pos (pos + 4) hp (by simp [hp])]
  simp

theorem readWord_start (post : List Byte) (v : BitVec 32) : readWord (be32 v ++ post) 0 = .ret v := by
  have := readWord_mid [] post v 0 rfl
  simpa using this

/-- Reading a number: panics exactly when the frame is too short. -/
theorem readNum_cases {n : Nat} (hn : n = 2 ∨ n = 4 ∨ n = 8) (f : List Byte) (pos : Nat) :
    (pos + n ≤ f.length ∧ ∃ v, readNum f pos n = .ret v) ∨
    (f.length < pos + n ∧ readNum f pos n = .panic) := by
  by_cases h : pos + n ≤ f.length
  · left
    refine ⟨h, ?_⟩
    unfold readNum
    rw [slice_ok (by omega) h]
    have hl : ((f.drop pos).take (pos + n - pos)).length = n := by simp; omega
    simp only [Out.ret_bind]
    rcases hn with rfl | rfl | rfl
    · rcases rd16_cases ((f.drop pos).take (pos + 2 - pos)) with ⟨_, v, hv, _⟩ | ⟨hh, _⟩
      · rw [if_pos rfl, hv]; exact ⟨_, rfl⟩
      · omega
    · rcases rd32_cases ((f.drop pos).take (pos + 4 - pos)) with ⟨_, v, hv, _⟩ | ⟨hh, _⟩
      · rw [if_neg (by decide), if_pos rfl, hv]; exact ⟨_, rfl⟩
      · omega
    · rcases rd64_cases ((f.drop pos).take (pos + 8 - pos)) with ⟨_, v, hv⟩ | ⟨hh, _⟩
      · rw [if_neg (by decide), if_neg (by decide), hv]; exact ⟨_, rfl⟩
      · omega
  · right
    refine ⟨by omega, ?_⟩
    unfold readNum
    rw [slice_bad (by omega)]
    rfl

theorem readNum_ok {n : Nat} (hn : n = 2 ∨ n = 4 ∨ n = 8) {f : List Byte} {pos : Nat}
    (h : pos + n ≤ f.length) : ∃ v, readNum f pos n = .ret v := by
  rcases readNum_cases hn f pos with ⟨_, h⟩ | ⟨h, _⟩
  · exact h
  · omega

theorem readNum_bad {n : Nat} (hn : n = 2 ∨ n = 4 ∨ n = 8) {f : List Byte} {pos : Nat}
    (h : f.length < pos + n) : readNum f pos n = .panic := by
  rcases readNum_cases hn f pos with ⟨h, _⟩ | ⟨_, h⟩
  · omega
  · exact h

theorem readWord_ok {f : List Byte} {pos : Nat} (h : pos + 4 ≤ f.length) :
    ∃ v, readWord f pos = .ret v := by
  unfold readWord
  rw [slice_ok (by omega) h]
  have hl : ((f.drop pos).take (pos + 4 - pos)).length = 4 := by simp; omega
  rcases rd32_cases ((f.drop pos).take (pos + 4 - pos)) with ⟨_, v, hv, _⟩ | ⟨hh, _⟩
  · exact ⟨v, by rw [Out.ret_bind]; exact hv⟩
  · omega

theorem readWord_bad {f : List Byte} {pos : Nat} (h : f.length < pos + 4) :
    readWord f pos = .panic := by
  unfold readWord
  rw [slice_bad (by omega)]
  rfl

theorem sliceFrom_ok {f : List Byte} {lo : Nat} (h : lo ≤ f.length) :
    sliceFrom f lo = .ret (f.drop lo) := by
  unfold sliceFrom
  rw [slice_ok h (Nat.le_refl _), List.take_of_length_le (by simp)]

theorem sliceFrom_bad {f : List Byte} {lo : Nat} (h : f.length < lo) :
    sliceFrom f lo = .panic := by
  unfold sliceFrom slice
  rw [if_neg]; omega

theorem getStr_cases (T : Tables) (h : BitVec 32) (f : String) :
    (∃ s, getStr T h f = .ret s) ∨ getStr T h f = .fatal := by
  unfold getStr
  split
  · exact Or.inl ⟨_, rfl⟩
  · exact Or.inr rfl

theorem getDStr_cases (T : Tables) (h : BitVec 16) (f : String) :
    (∃ s, getDStr T h f = .ret s) ∨ getDStr T h f = .fatal := by
  unfold getDStr
  simp only
  split
  · exact Or.inl ⟨_, rfl⟩
  · exact Or.inr rfl

end Saratoga

namespace Saratoga

theorem beNum_lt (l : List Byte) : beNum l < 256 ^ l.length := by
  induction l with
  | nil => simp [beNum]
  | cons b bs ih =>
    simp only [beNum, List.length_cons, Nat.pow_succ]
    have := b.isLt
    have h : b.toNat * 256 ^ bs.length + 256 ^ bs.length ≤ 256 ^ bs.length * 256 := by
      rw [← Nat.succ_mul, Nat.mul_comm]
      exact Nat.mul_le_mul_left _ (by omega)
    omega

theorem toNat_appendByte {w : Nat} (x : BitVec w) (b : Byte) :
    (x ++ b).toNat = x.toNat * 256 + b.toNat := by
  rw [BitVec.toNat_append, ← Nat.shiftLeft_add_eq_or_of_lt b.isLt, Nat.shiftLeft_eq]

theorem rd16_val {b : List Byte} {v : BitVec 16} (h : rd16 b = .ret v) :
    v.toNat = beNum (b.take 2) := by
  match b with
  | [] => cases h
  | [_] => cases h
  | a :: b :: r =>
    cases h
    simp [toNat_appendByte, beNum]

theorem rd32_val {b : List Byte} {v : BitVec 32} (h : rd32 b = .ret v) :
    v.toNat = beNum (b.take 4) := by
  match b with
  | [] => cases h
  | [_] => cases h
  | [_, _] => cases h
  | [_, _, _] => cases h
  | a :: b :: c :: d :: r =>
    cases h
    simp [toNat_appendByte, beNum]
    omega

theorem rd64_val {b : List Byte} {v : BitVec 64} (h : rd64 b = .ret v) :
    v.toNat = beNum (b.take 8) := by
  match b with
  | [] => cases h
  | [_] => cases h
  | [_, _] => cases h
  | [_, _, _] => cases h
  | [_, _, _, _] => cases h
  | [_, _, _, _, _] => cases h
  | [_, _, _, _, _, _] => cases h
  | [_, _, _, _, _, _, _] => cases h
  | a :: b :: c :: d :: e :: f :: g :: i :: r =>
    cases h
    simp [toNat_appendByte, beNum]
    omega

/-- The number read is the big endian number of its bytes. -/
theorem readNum_val {n : Nat} (hn : n = 2 ∨ n = 4 ∨ n = 8) {f : List Byte} {pos : Nat} {v : BitVec 64}
    (h : readNum f pos n = .ret v) : v.toNat = beNum ((f.drop pos).take n) := by
  have hlen : pos + n ≤ f.length := by
    rcases readNum_cases hn f pos with ⟨h, _⟩ | ⟨_, hh⟩
    · exact h
    · rw [hh] at h; cases h
  unfold readNum at h
  rw [slice_ok (by omega) hlen, show pos + n - pos = n by omega] at h
  simp only [Out.ret_bind] at h
  rcases hn with rfl | rfl | rfl
  · rw [if_pos rfl] at h
    cases hr : rd16 ((f.drop pos).take 2) with
    | ret w =>
      rw [hr] at h; cases h
      have := rd16_val hr
      simp only [List.take_take, Nat.min_self] at this
      rw [← this]
      simp; have := w.isLt; omega
    | _ => rw [hr] at h; cases h
  · rw [if_neg (by decide), if_pos rfl] at h
    cases hr : rd32 ((f.drop pos).take 4) with
    | ret w =>
      rw [hr] at h; cases h
      have := rd32_val hr
      simp only [List.take_take, Nat.min_self] at this
      rw [← this]
      simp; have := w.isLt; omega
    | _ => rw [hr] at h; cases h
  · rw [if_neg (by decide), if_neg (by decide)] at h
    have := rd64_val h
    simpa only [List.take_take, Nat.min_self] using this

theorem readWord_val {f : List Byte} {pos : Nat} {v : BitVec 32}
    (h : readWord f pos = .ret v) : v.toNat = beNum ((f.drop pos).take 4) := by
  have hlen : pos + 4 ≤ f.length := by
    by_cases hh : pos + 4 ≤ f.length
    · exact hh
    · rw [readWord_bad (by omega)] at h; cases h
  unfold readWord at h
  rw [slice_ok (by omega) hlen, show pos + 4 - pos = 4 by omega] at h
  have := rd32_val h
  simpa only [List.take_take, Nat.min_self] using this

theorem readWord_eq {f : List Byte} {pos : Nat} (h : pos + 4 ≤ f.length) :
    readWord f pos = .ret (BitVec.ofNat 32 (beNum ((f.drop pos).take 4))) := by
  obtain ⟨v, hv⟩ := readWord_ok h
  have := readWord_val hv
  rw [hv, ← this, BitVec.ofNat_toNat, BitVec.setWidth_eq]

theorem readWord_head {f : List Byte} (h : 4 ≤ f.length) :
    readWord f 0 = .ret (headWord f) := by
  have := readWord_eq (f := f) (pos := 0) (by omega)
  simpa [headWord] using this

theorem readNum_eq {n : Nat} (hn : n = 2 ∨ n = 4 ∨ n = 8) {f : List Byte} {pos : Nat}
    (h : pos + n ≤ f.length) :
    readNum f pos n = .ret (BitVec.ofNat 64 (beNum ((f.drop pos).take n))) := by
  obtain ⟨v, hv⟩ := readNum_ok hn h
  have := readNum_val hn hv
  rw [hv, ← this, BitVec.ofNat_toNat, BitVec.setWidth_eq]

end Saratoga

namespace Saratoga

theorem beNum_be32 (v : BitVec 32) : beNum (be32 v) = v.toNat := by
  have := rd32_val (rd32_be32' v)
  rw [this]; rfl

theorem beNum_be16 (v : BitVec 16) : beNum (be16 v) = v.toNat := by
  have := rd16_val (rd16_be16' v)
  rw [this]; rfl

theorem beNum_numBytes {n : Nat} (hn : n = 2 ∨ n = 4 ∨ n = 8) (v : BitVec 64) :
    beNum (numBytes n v) = v.toNat % 256 ^ n := by
  have h1 := readNum_mid hn [] [] v 0 rfl
  have h2 := readNum_val hn h1
  rw [wireNum_toNat (by omega)] at h2
  rw [h2]
  simp [List.take_of_length_le, numBytes_length hn]

end Saratoga
