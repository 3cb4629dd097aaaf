import Verif.Lemmas.Again
/-! # Lemmas: reading from a frame that was cut short -/
namespace Saratoga

theorem slice_cut {f s : List Byte} {lo hi k : Nat} (h : slice f lo hi = .ret s) (hk : k ≤ f.length) :
    slice (f.take k) lo hi = if hi ≤ k then .ret s else .panic := by
  obtain ⟨a, b, rfl⟩ := slice_ret h
  unfold slice
  have hl : (f.take k).length = k := by rw [List.length_take]; omega
  rw [hl]
  by_cases c : hi ≤ k
  · rw [if_pos ⟨a, c⟩, if_pos c, List.drop_take, List.take_take]
    congr 2; omega
  · rw [if_neg (by omega), if_neg c]

theorem sliceFrom_cut {f s : List Byte} {lo k : Nat} (h : sliceFrom f lo = .ret s) (hk : k ≤ f.length) :
    sliceFrom (f.take k) lo = if lo ≤ k then .ret (s.take (k - lo)) else .panic := by
  obtain ⟨_, rfl⟩ := sliceFrom_ret h
  unfold sliceFrom slice
  have hl : (f.take k).length = k := by rw [List.length_take]; omega
  rw [hl]
  by_cases c : lo ≤ k
  · rw [if_pos ⟨c, Nat.le_refl _⟩, if_pos c, List.drop_take, List.take_take, Nat.min_self]
  · rw [if_neg (by omega), if_neg c]

theorem readWord_cut {f : List Byte} {pos k : Nat} {v : BitVec 32} (h : readWord f pos = .ret v) (hk : k ≤ f.length) :
    readWord (f.take k) pos = if pos + 4 ≤ k then .ret v else .panic := by
  obtain ⟨s, h1, h2⟩ := Out.bind_eq_ret h
  unfold readWord
  rw [slice_cut h1 hk]
  split
  · exact h2
  · rfl

theorem readNum_cut {f : List Byte} {pos n k : Nat} {v : BitVec 64} (h : readNum f pos n = .ret v) (hk : k ≤ f.length) :
    readNum (f.take k) pos n = if pos + n ≤ k then .ret v else .panic := by
  obtain ⟨s, h1, h2⟩ := Out.bind_eq_ret h
  unfold readNum
  rw [slice_cut h1 hk]
  split
  · exact h2
  · rfl

theorem getHoles_cut {f : List Byte} {n : Nat} {j i pos k : Nat} {acc hs : List Hole}
    (h : Status.getHoles f n j pos acc = .ret hs) (hk : k ≤ f.length) (hi : i ≤ j) (room : pos + i * (n + n) ≤ k) :
    Status.getHoles (f.take k) n i pos acc = .ret (hs.take (acc.length + i)) := by
  induction i generalizing j pos acc with
  | zero =>
    simp only [Status.getHoles, Out.ret.injEq]
    have : acc <+: hs := by
      clear hi room
      induction j generalizing pos acc with
      | zero => simp only [Status.getHoles, Out.ret.injEq] at h; exact h ▸ List.prefix_refl _
      | succ j ih =>
        obtain ⟨a, _, h⟩ := Out.bind_eq_ret h
        obtain ⟨b, _, h⟩ := Out.bind_eq_ret h
        exact (List.prefix_append _ _).trans (ih h)
    obtain ⟨t, rfl⟩ := this
    simp
  | succ i ih =>
    obtain ⟨j, rfl⟩ : ∃ j', j = j' + 1 := ⟨j - 1, by omega⟩
    obtain ⟨a, h1, h⟩ := Out.bind_eq_ret h
    obtain ⟨b, h2, h⟩ := Out.bind_eq_ret h
    rw [Nat.add_mul] at room
    simp only [Status.getHoles]
    rw [readNum_cut h1 hk, if_pos (by omega), Out.ret_bind, readNum_cut h2 hk, if_pos (by omega), Out.ret_bind,
      ih h (by omega) (by omega)]
    congr 2
    simp only [List.length_append, List.length_singleton]; omega

end Saratoga
