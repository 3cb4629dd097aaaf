import Verif.Model.Go
/-! # Helper lemmas about bytes and big endian numbers -/
namespace Saratoga

@[simp] theorem be16_length (v : BitVec 16) : (be16 v).length = 2 := rfl
@[simp] theorem be32_length (v : BitVec 32) : (be32 v).length = 4 := rfl
@[simp] theorem be64_length (v : BitVec 64) : (be64 v).length = 8 := rfl
@[simp] theorem mkBytes_length (n : Nat) : (mkBytes n).length = n := by simp [mkBytes]

theorem bytes16 (v : BitVec 16) : v.extractLsb' 8 8 ++ v.extractLsb' 0 8 = v := by
  ext i hi
  simp only [BitVec.getElem_append, BitVec.getElem_extractLsb']
  simp only [← BitVec.getLsbD_eq_getElem]
  split <;> congr 1 <;> omega

theorem bytes32 (v : BitVec 32) :
    v.extractLsb' 24 8 ++ v.extractLsb' 16 8 ++ v.extractLsb' 8 8 ++ v.extractLsb' 0 8 = v := by
  ext i hi
  simp only [BitVec.getElem_append, BitVec.getElem_extractLsb']
  simp only [← BitVec.getLsbD_eq_getElem]
  repeat' split
  all_goals congr 1; omega

theorem bytes64 (v : BitVec 64) :
    v.extractLsb' 56 8 ++ v.extractLsb' 48 8 ++ v.extractLsb' 40 8 ++ v.extractLsb' 32 8 ++
    v.extractLsb' 24 8 ++ v.extractLsb' 16 8 ++ v.extractLsb' 8 8 ++ v.extractLsb' 0 8 = v := by
  ext i hi
  simp only [BitVec.getElem_append, BitVec.getElem_extractLsb']
  simp only [← BitVec.getLsbD_eq_getElem]
  repeat' split
  all_goals congr 1; omega

theorem rd16_be16 (v : BitVec 16) (r : List Byte) : rd16 (be16 v ++ r) = .ret v := by
  simp only [be16, List.cons_append, rd16, Out.ret.injEq]
  exact bytes16 v

theorem rd32_be32 (v : BitVec 32) (r : List Byte) : rd32 (be32 v ++ r) = .ret v := by
  simp only [be32, List.cons_append, rd32, Out.ret.injEq]
  exact bytes32 v

theorem rd64_be64 (v : BitVec 64) (r : List Byte) : rd64 (be64 v ++ r) = .ret v := by
  simp only [be64, List.cons_append, rd64, Out.ret.injEq]
  exact bytes64 v

@[simp] theorem rd16_be16' (v : BitVec 16) : rd16 (be16 v) = .ret v := by
  have := rd16_be16 v []; simpa using this
@[simp] theorem rd32_be32' (v : BitVec 32) : rd32 (be32 v) = .ret v := by
  have := rd32_be32 v []; simpa using this
@[simp] theorem rd64_be64' (v : BitVec 64) : rd64 (be64 v) = .ret v := by
  have := rd64_be64 v []; simpa using this

theorem be16_rd16 (a b : Byte) : be16 (a ++ b) = [a, b] := by
  simp only [be16, List.cons.injEq, and_true]
  refine ⟨?_, ?_⟩ <;> ext i hi <;>
  simp only [BitVec.getElem_extractLsb', BitVec.getLsbD_append] <;>
  (repeat' split) <;> first | omega | (simp only [BitVec.getLsbD_eq_getElem, *]; congr 1; try omega) | skip
  all_goals (rw [← BitVec.getLsbD_eq_getElem]; congr 1; omega)

theorem be32_rd32 (a b c d : Byte) : be32 (a ++ b ++ c ++ d) = [a, b, c, d] := by
  simp only [be32, List.cons.injEq, and_true]
  refine ⟨?_, ?_, ?_, ?_⟩ <;> ext i hi <;>
  simp only [BitVec.getElem_extractLsb', BitVec.getLsbD_append] <;>
  (repeat' split) <;> first | omega | (simp only [BitVec.getLsbD_eq_getElem, *]; congr 1; try omega) | skip
  all_goals (rw [← BitVec.getLsbD_eq_getElem]; congr 1; omega)

/-! ## Reading -/

/-- `b` starts with at least `n` bytes. -/
theorem rd16_cases (b : List Byte) :
    (2 ≤ b.length ∧ ∃ v, rd16 b = .ret v ∧ b.take 2 = be16 v) ∨ (b.length < 2 ∧ rd16 b = .panic) := by
  match b with
  | [] => right; simp [rd16]
  | [_] => right; simp [rd16]
  | a :: b :: r => left; exact ⟨by simp, _, rfl, by simp [be16_rd16]⟩

theorem rd32_cases (b : List Byte) :
    (4 ≤ b.length ∧ ∃ v, rd32 b = .ret v ∧ b.take 4 = be32 v) ∨ (b.length < 4 ∧ rd32 b = .panic) := by
  match b with
  | [] => right; simp [rd32]
  | [_] => right; simp [rd32]
  | [_, _] => right; simp [rd32]
  | [_, _, _] => right; simp [rd32]
  | a :: b :: c :: d :: r => left; exact ⟨by simp, _, rfl, by simp [be32_rd32]⟩

theorem rd64_ret_iff (b : List Byte) : (∃ v, rd64 b = .ret v) ↔ 8 ≤ b.length := by
  match b with
  | [] => simp [rd64]
  | [_] => simp [rd64]
  | [_, _] => simp [rd64]
  | [_, _, _] => simp [rd64]
  | [_, _, _, _] => simp [rd64]
  | [_, _, _, _, _] => simp [rd64]
  | [_, _, _, _, _, _] => simp [rd64]
  | [_, _, _, _, _, _, _] => simp [rd64]
  | _ :: _ :: _ :: _ :: _ :: _ :: _ :: _ :: r => simp [rd64]

theorem rd64_cases (b : List Byte) :
    (8 ≤ b.length ∧ ∃ v, rd64 b = .ret v) ∨ (b.length < 8 ∧ rd64 b = .panic) := by
  by_cases h : 8 ≤ b.length
  · exact Or.inl ⟨h, (rd64_ret_iff b).2 h⟩
  · right
    refine ⟨by omega, ?_⟩
    match b with
    | [] => rfl
    | [_] => rfl
    | [_, _] => rfl
    | [_, _, _] => rfl
    | [_, _, _, _] => rfl
    | [_, _, _, _, _] => rfl
    | [_, _, _, _, _, _] => rfl
    | [_, _, _, _, _, _, _] => rfl
    | _ :: _ :: _ :: _ :: _ :: _ :: _ :: _ :: r => simp at h

theorem slice_ok {f : List Byte} {lo hi : Nat} (h1 : lo ≤ hi) (h2 : hi ≤ f.length) :
    slice f lo hi = .ret ((f.drop lo).take (hi - lo)) := by simp [slice, h1, h2]

theorem slice_bad {f : List Byte} {lo hi : Nat} (h : f.length < hi) :
    slice f lo hi = .panic := by
  unfold slice; rw [if_neg]; omega

/-- Slicing out the middle part. -/
theorem slice_mid (pre mid post : List Byte) (lo hi : Nat) (h1 : lo = pre.length)
    (h2 : hi = pre.length + mid.length) : slice (pre ++ mid ++ post) lo hi = .ret mid := by
  subst h1 h2
  rw [slice_ok (by omega) (by simp)]
  congr 1
  rw [List.append_assoc, List.drop_left]
  have : pre.length + mid.length - pre.length = mid.length := by omega
  rw [this, List.take_left]

/-- Slicing out the last part. -/
theorem sliceFrom_end (pre post : List Byte) (lo : Nat) (h1 : lo = pre.length) :
    sliceFrom (pre ++ post) lo = .ret post := by
  subst h1
  unfold sliceFrom
  rw [slice_ok (by simp) (by simp)]
  congr 1
  rw [List.drop_left]
  simp

/-! ## Writing -/

theorem mkBytes_drop (n k : Nat) : (mkBytes n).drop k = mkBytes (n - k) := by simp [mkBytes]
theorem mkBytes_take (n k : Nat) : (mkBytes n).take k = mkBytes (min k n) := by simp [mkBytes]

/-- A put right after the written part of a fresh buffer. -/
theorem putAt_mk (pre : List Byte) (n : Nat) (lo hi : Nat) (bs : List Byte) (h1 : lo = pre.length)
    (h2 : lo + bs.length ≤ hi) (h3 : hi ≤ pre.length + n) :
    putAt (pre ++ mkBytes n) lo hi bs = .ret (pre ++ bs ++ mkBytes (n - bs.length)) := by
  subst h1
  unfold putAt
  rw [if_pos (by simp; omega)]
  congr 1
  rw [List.take_left, List.drop_append, List.drop_eq_nil_of_le (by omega), mkBytes_drop]
  simp

theorem putAt_mk0 (n : Nat) (hi : Nat) (bs : List Byte) (h2 : bs.length ≤ hi) (h3 : hi ≤ n) :
    putAt (mkBytes n) 0 hi bs = .ret (bs ++ mkBytes (n - bs.length)) := by
  have := putAt_mk [] n 0 hi bs rfl (by omega) (by simpa using h3)
  simpa using this

/-- A copy right after the written part of a fresh buffer, with room for all of it. -/
theorem copyAt_mk (pre : List Byte) (n : Nat) (lo hi : Nat) (bs : List Byte) (h1 : lo = pre.length)
    (h2 : lo + bs.length ≤ hi) (h3 : hi ≤ pre.length + n) :
    copyAt (pre ++ mkBytes n) lo hi bs = .ret (pre ++ bs ++ mkBytes (n - bs.length)) := by
  subst h1
  unfold copyAt
  rw [if_pos (by simp; omega)]
  congr 1
  have hm : min (hi - pre.length) bs.length = bs.length := by omega
  rw [List.take_left, hm, List.drop_append, List.drop_eq_nil_of_le (by omega), mkBytes_drop,
    List.take_of_length_le (by omega)]
  simp

end Saratoga

namespace Saratoga

theorem putAt_length {d r bs : List Byte} {lo hi : Nat} (h : putAt d lo hi bs = .ret r) :
    r.length = d.length := by
  unfold putAt at h
  split at h
  · rename_i hc; cases h; simp; omega
  · cases h

theorem copyAt_length {d r bs : List Byte} {lo hi : Nat} (h : copyAt d lo hi bs = .ret r) :
    r.length = d.length := by
  unfold copyAt at h
  split at h
  · rename_i hc; cases h; simp; omega
  · cases h

theorem Out.bind_eq_ret {α β : Type} {x : Out α} {f : α → Out β} {b : β} (h : (x >>= f) = .ret b) :
    ∃ a, x = .ret a ∧ f a = .ret b := by
  cases x with
  | ret a => exact ⟨a, rfl, h⟩
  | fatal => cases h
  | panic => cases h

end Saratoga
