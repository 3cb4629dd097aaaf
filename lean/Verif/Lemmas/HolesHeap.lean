import Verif.Model.HolesHeap
import Verif.Lemmas.Holes
/-! # Helper lemmas: the slice version of `holes.go` does what the list version does -/
namespace Saratoga

theorem arrRemove_spec (a : List Hole) (len i : Nat) (hl : len ≤ a.length) (hi : i < len) :
    (arrRemove a len i).length = a.length ∧
    (arrRemove a len i).take (len - 1) = Holes.remove (a.take len) i ∧
    (arrRemove a len i).drop len = a.drop len := by
  have l1 : (a.take i ++ (a.take len).drop (i + 1)).length = len - 1 := by simp; omega
  unfold arrRemove
  refine ⟨?_, ?_, ?_⟩
  · simp; omega
  · rw [List.take_append_of_le_length (by omega), List.take_of_length_le (by omega)]
    unfold Holes.remove
    rw [List.take_take, Nat.min_eq_left (by omega)]
  · rw [List.drop_append, List.drop_eq_nil_of_le (by omega), List.nil_append, List.drop_drop, l1]
    congr 1; omega

theorem arrMerge_spec (a : List Hole) (len i : Nat) (hl : len ≤ a.length) (hi : i + 1 < (a.take len).length) :
    (arrMerge a len i).length = a.length ∧
    (arrMerge a len i).take (len - 1) = Holes.merge (a.take len) i hi ∧
    (arrMerge a len i).drop len = a.drop len := by
  have hi' : i + 1 < len := by simp at hi; omega
  have g1 : a.getD (i + 1) ⟨0, 0⟩ = (a.take len)[i + 1] := by
    simp [List.getD, List.getElem?_eq_getElem (show i + 1 < a.length by omega)]
  have g0 : a.getD i ⟨0, 0⟩ = (a.take len)[i]'(by omega) := by
    simp [List.getD, List.getElem?_eq_getElem (show i < a.length by omega)]
  unfold arrMerge Holes.merge
  rw [g1, g0]
  split
  · exact arrRemove_spec a len (i + 1) hl hi'
  · have := arrRemove_spec (a.set i { (a.take len)[i]'(by omega) with stop := (a.take len)[i + 1].stop })
      len (i + 1) (by simpa using hl) hi'
    refine ⟨by rw [this.1]; simp, ?_, ?_⟩
    · rw [this.2.1, List.take_set]
    · rw [this.2.2, List.drop_set_of_lt (by omega)]

theorem arrLoop_eq (a : List Hole) (len i : Nat) :
    (arrLoop a len i).1 =
      if i + 1 < len then
        if (a.getD (i + 1) ⟨0, 0⟩).start ≤ (a.getD i ⟨0, 0⟩).stop then
          (arrLoop (arrOptimise (arrMerge a len i) (len - 1)).1 (arrOptimise (arrMerge a len i) (len - 1)).2
            (i + 1)).1
        else (arrLoop a len (i + 1)).1
      else (a, len) := by
  rw [arrLoop]
  by_cases h : i + 1 < len
  · rw [dif_pos h, if_pos h]
    split
    · refine congrArg (fun z : List Hole × Nat => (arrLoop z.1 z.2 (i + 1)).1) ?_
      unfold arrOptimise
      split <;> rfl
    · rfl
  · rw [dif_neg h, if_neg h]

theorem arrLoop_spec (a : List Hole) (len i : Nat) (hl : len ≤ a.length) :
    (arrLoop a len i).1.1.length = a.length ∧
    (arrLoop a len i).1.1.take (arrLoop a len i).1.2 = (Holes.optLoop (a.take len) i).1 ∧
    (arrLoop a len i).1.1.drop len = a.drop len := by
  have tl : (a.take len).length = len := by simp; omega
  rw [arrLoop_eq, optLoop_eq]
  by_cases hi : i + 1 < len
  · have hi' : i + 1 < (a.take len).length := by omega
    have g1 : a.getD (i + 1) ⟨0, 0⟩ = (a.take len)[i + 1] := by
      simp [List.getD, List.getElem?_eq_getElem (show i + 1 < a.length by omega)]
    have g0 : a.getD i ⟨0, 0⟩ = (a.take len)[i]'(by omega) := by
      simp [List.getD, List.getElem?_eq_getElem (show i < a.length by omega)]
    rw [if_pos hi, dif_pos hi', g1, g0]
    split
    · have hm := arrMerge_spec a len i hl hi'
      have hopt : (arrOptimise (arrMerge a len i) (len - 1)).2 ≤ len - 1 ∧
          (arrOptimise (arrMerge a len i) (len - 1)).1.length = a.length ∧
          (arrOptimise (arrMerge a len i) (len - 1)).1.take (arrOptimise (arrMerge a len i) (len - 1)).2
            = Holes.optimise (Holes.merge (a.take len) i hi') ∧
          (arrOptimise (arrMerge a len i) (len - 1)).1.drop len = a.drop len := by
        have hlm := Holes.length_merge (a.take len) i hi'
        unfold arrOptimise Holes.optimise
        by_cases h1 : len - 1 ≤ 1
        · rw [if_pos h1, if_pos (by omega)]
          exact ⟨Nat.le_refl _, hm.1, hm.2.1, hm.2.2⟩
        · rw [if_neg h1, if_neg (by omega)]
          have := arrLoop_spec (arrMerge a len i) (len - 1) 0 (by rw [hm.1]; omega)
          refine ⟨(arrLoop (arrMerge a len i) (len - 1) 0).2, by rw [this.1, hm.1], ?_, ?_⟩
          · rw [this.2.1, hm.2.1]
          · rw [← hm.2.2]
            have h2 := congrArg (List.drop 1) this.2.2
            rw [List.drop_drop, List.drop_drop] at h2
            rwa [show len - 1 + 1 = len by omega] at h2
      obtain ⟨o1, o2, o3, o4⟩ := hopt
      have := arrLoop_spec (arrOptimise (arrMerge a len i) (len - 1)).1
        (arrOptimise (arrMerge a len i) (len - 1)).2 (i + 1) (by rw [o2]; omega)
      refine ⟨by rw [this.1, o2], by rw [this.2.1, o3], ?_⟩
      rw [← o4]
      have h2 := congrArg (List.drop (len - (arrOptimise (arrMerge a len i) (len - 1)).2)) this.2.2
      rw [List.drop_drop, List.drop_drop] at h2
      rwa [show (arrOptimise (arrMerge a len i) (len - 1)).2 +
        (len - (arrOptimise (arrMerge a len i) (len - 1)).2) = len by omega] at h2
    · exact arrLoop_spec a len (i + 1) hl
  · rw [if_neg hi, dif_neg (by omega)]
    exact ⟨rfl, rfl, rfl⟩
termination_by (len, len - i)

theorem arrOptimise_spec (a : List Hole) (len : Nat) (hl : len ≤ a.length) :
    (arrOptimise a len).1.length = a.length ∧ (arrOptimise a len).2 ≤ len ∧
    (arrOptimise a len).1.take (arrOptimise a len).2 = Holes.optimise (a.take len) ∧
    (arrOptimise a len).1.drop len = a.drop len := by
  have tl : (a.take len).length = len := by simp; omega
  unfold arrOptimise Holes.optimise
  by_cases h : len ≤ 1
  · rw [if_pos h, if_pos (by omega)]
    exact ⟨rfl, Nat.le_refl _, rfl, rfl⟩
  · rw [if_neg h, if_neg (by omega)]
    have := arrLoop_spec a len 0 hl
    exact ⟨this.1, (arrLoop a len 0).2, this.2.1, this.2.2⟩

theorem arrTidy_spec (srt : GoSort) (a : List Hole) (len : Nat) (hl : len ≤ a.length) :
    (arrTidy srt a len).1.length = a.length ∧ (arrTidy srt a len).2 ≤ len ∧
    (arrTidy srt a len).1.take (arrTidy srt a len).2 = Holes.optimise (srt.sort (a.take len)) ∧
    (arrTidy srt a len).1.drop len = a.drop len := by
  have sl : (srt.sort (a.take len)).length = len := by
    rw [(srt.perm _).length_eq]; simp; omega
  have := arrOptimise_spec (srt.sort (a.take len) ++ a.drop len) len (by simp; omega)
  unfold arrTidy
  refine ⟨by rw [this.1]; simp; omega, this.2.1, ?_, ?_⟩
  · rw [this.2.2.1, List.take_append_of_le_length (by omega), List.take_of_length_le (by omega)]
  · rw [this.2.2.2, List.drop_append, List.drop_eq_nil_of_le (by omega), sl]
    simp

/-! ## Slices -/

/-- A slice that lies in the heap and does not reach beyond its array. -/
def HoleSlice.Wf (h : HoleHeap) (s : HoleSlice) : Prop :=
  s.len ≤ s.cap h ∧ ∀ p, s.arr = some p → p < h.length

theorem HoleSlice.wf_nil (h : HoleHeap) : HoleSlice.nil.Wf h :=
  ⟨Nat.zero_le _, fun p hp => by cases hp⟩

theorem array_store (h : HoleHeap) (p : Nat) (a : List Hole) (s : HoleSlice) :
    s.array (h.store p a) = if s.arr = some p ∧ p < h.length then a else s.array h := by
  unfold HoleSlice.array HoleHeap.store
  cases hs : s.arr with
  | none => simp
  | some q =>
    simp only [List.getElem?_set]
    by_cases e : p = q
    · subst e
      by_cases l : p < h.length
      · simp [l]
      · simp [l]
    · have : ¬ (q = p) := fun x => e x.symm
      simp [e, this]

theorem array_new (h : HoleHeap) (a : List Hole) (s : HoleSlice) (wf : ∀ p, s.arr = some p → p < h.length) :
    s.array (h ++ [a]) = s.array h := by
  unfold HoleSlice.array
  cases hs : s.arr with
  | none => rfl
  | some q => simp only [List.getElem?_append_left (wf q hs)]

/-- What `append` does, seen through the new slice and through every other one. -/
theorem append_spec {grow : Nat → Nat} {h : HoleHeap} {s : HoleSlice} {x : Hole} (wf : s.Wf h) :
    (s.append grow h x).2.Wf (s.append grow h x).1 ∧
    (s.append grow h x).2.seen (s.append grow h x).1 = s.seen h ++ [x] ∧
    (s.append grow h x).2.len = s.len + 1 ∧
    (s.append grow h x).2.arr ≠ none ∧
    h.length ≤ (s.append grow h x).1.length ∧
    (s.len < s.cap h → (s.append grow h x).2.arr = s.arr) ∧
    (¬ s.len < s.cap h → (s.append grow h x).2.arr = some h.length) ∧
    (∀ k : HoleSlice, k.Wf h → (k.arr = s.arr → k.len ≤ s.len) →
      k.seen (s.append grow h x).1 = k.seen h ∧ k.Wf (s.append grow h x).1) := by
  obtain ⟨w1, w2⟩ := wf
  unfold HoleSlice.append
  cases hs : s.arr with
  | none =>
    have c0 : s.cap h = 0 := by simp [HoleSlice.cap, HoleSlice.array, hs]
    have l0 : s.len = 0 := by omega
    have s0 : s.seen h = [] := by simp [HoleSlice.seen, l0]
    simp only
    refine ⟨⟨?_, ?_⟩, ?_, by omega, by simp, by simp, by omega, by intro _; trivial, ?_⟩
    · simp [HoleSlice.cap, HoleSlice.array]
    · intro p hp; cases hp; simp
    · rw [s0]; simp [HoleSlice.seen, HoleSlice.array]
    · intro k wk _
      have := array_new h ([x] ++ List.replicate (grow 0 - 1) ⟨0, 0⟩) k wk.2
      refine ⟨by simp only [HoleSlice.seen, this], ?_, ?_⟩
      · simp only [HoleSlice.cap, this]; exact wk.1
      · intro p hp; have := wk.2 p hp; simp; omega
  | some p =>
    have hp := w2 p hs
    by_cases hc : s.len < s.cap h
    · simp only [if_pos hc]
      have ar : ∀ n, (⟨some p, n⟩ : HoleSlice).array (h.store p ((s.array h).set s.len x))
          = (s.array h).set s.len x := by
        intro n; rw [array_store]; simp [hp]
      have hc' : s.len < (s.array h).length := hc
      refine ⟨⟨?_, ?_⟩, ?_, trivial, by simp, ?_, by intro _; trivial, fun n => absurd hc n, ?_⟩
      · simp only [HoleSlice.cap, ar, List.length_set]; omega
      · intro q hq; cases hq; simpa [HoleHeap.store] using hp
      · simp only [HoleSlice.seen, ar]
        rw [List.take_succ_eq_append_getElem (by simpa using hc')]
        rw [List.getElem_set_self, List.take_set_of_le (by omega)]
      · simp [HoleHeap.store]
      · intro k wk hk
        have ka : k.array (h.store p ((s.array h).set s.len x))
            = if k.arr = some p ∧ p < h.length then (s.array h).set s.len x else k.array h := array_store _ _ _ _
        by_cases e : k.arr = some p
        · have e2 : k.array h = s.array h := by simp [HoleSlice.array, e, hs]
          rw [if_pos ⟨e, hp⟩] at ka
          refine ⟨?_, ?_, ?_⟩
          · simp only [HoleSlice.seen, ka, e2]
            rw [List.take_set_of_le (hk e)]
          · simp only [HoleSlice.cap, ka, List.length_set]
            have := wk.1; simp only [HoleSlice.cap, e2] at this; exact this
          · intro q hq; have := wk.2 q hq; simpa [HoleHeap.store] using this
        · rw [if_neg (fun x => e x.1)] at ka
          refine ⟨by simp only [HoleSlice.seen, ka], by simp only [HoleSlice.cap, ka]; exact wk.1, ?_⟩
          intro q hq; have := wk.2 q hq; simpa [HoleHeap.store] using this
    · simp only [if_neg hc]
      have sl : (s.seen h).length = s.len := by
        have : (s.array h).length = s.cap h := rfl
        simp [HoleSlice.seen]; omega
      obtain ⟨A, hA⟩ : ∃ A, A = s.seen h ++ [x] ++
        List.replicate (grow (s.cap h) - (s.len + 1)) (⟨0, 0⟩ : Hole) := ⟨_, rfl⟩
      rw [← hA]
      have lA : s.len + 1 ≤ A.length := by rw [hA]; simp only [List.length_append, sl]; simp
      have tA : A.take (s.len + 1) = s.seen h ++ [x] := by
        rw [hA, List.take_append_of_le_length (by simp only [List.length_append, sl]; simp),
          List.take_of_length_le (by simp only [List.length_append, sl]; simp)]
      have ar : ∀ n, (⟨some h.length, n⟩ : HoleSlice).array (h ++ [A]) = A := by
        intro n; simp [HoleSlice.array]
      refine ⟨⟨?_, ?_⟩, ?_, trivial, by simp, by simp, by intro c; exact absurd c hc, by intro _; trivial, ?_⟩
      · simp only [HoleSlice.cap, ar]; exact lA
      · intro q hq; cases hq; simp
      · simp only [HoleSlice.seen, ar] at tA ⊢; exact tA
      · intro k wk _
        have := array_new h A k wk.2
        refine ⟨by simp only [HoleSlice.seen, this], ?_, ?_⟩
        · simp only [HoleSlice.cap, this]; exact wk.1
        · intro p hp; have := wk.2 p hp; simp; omega

theorem append_cap {grow : Nat → Nat} {h : HoleHeap} {s : HoleSlice} {x : Hole} (wf : s.Wf h) :
    (s.append grow h x).2.cap (s.append grow h x).1
      = if s.len < s.cap h then s.cap h else max (s.len + 1) (grow (s.cap h)) := by
  obtain ⟨w1, w2⟩ := wf
  unfold HoleSlice.append
  cases hs : s.arr with
  | none =>
    have c0 : s.cap h = 0 := by simp [HoleSlice.cap, HoleSlice.array, hs]
    have l0 : s.len = 0 := by omega
    rw [if_neg (by omega), l0, c0]
    simp [HoleSlice.cap, HoleSlice.array]; omega
  | some p =>
    have hp := w2 p hs
    by_cases hc : s.len < s.cap h
    · simp only [if_pos hc]
      have : (⟨some p, s.len + 1⟩ : HoleSlice).array (h.store p ((s.array h).set s.len x))
          = (s.array h).set s.len x := by
        rw [array_store]; simp [hp]
      simp only [HoleSlice.cap, this, List.length_set]
    · simp only [if_neg hc]
      have sl : (s.seen h).length = s.len := by
        have : (s.array h).length = s.cap h := rfl
        simp [HoleSlice.seen]; omega
      generalize grow (s.cap h) = g
      simp only [HoleSlice.cap, HoleSlice.array, List.getElem?_concat_length, Option.getD_some,
        List.length_append, sl, List.length_replicate, List.length_singleton]
      omega

end Saratoga
