import Verif.Model.HolesWork
import Verif.Lemmas.Holes
namespace Saratoga

/-- The length of what the loop leaves, by the length it works on: no pair is left to merge. -/
theorem optLoop_adj (l : List Hole) (i : Nat) (h : Adj l) : (Holes.optLoop l i).1 = l := by
  rw [optLoop_eq]
  split
  · rename_i hi
    have := h i hi
    rw [if_neg (by omega)]
    exact optLoop_adj l (i + 1) h
  · rfl
termination_by l.length - i

theorem loopWork_adj (l : List Hole) (i : Nat) (h : Adj l) : Holes.loopWork l i = ⟨l.length - i, 0, 1⟩ := by
  rw [Holes.loopWork]
  split
  · rename_i hi
    have := h i hi
    rw [if_neg (by omega)]
    have ih := loopWork_adj l (i + 1) h
    simp only [ih, Work.mk.injEq, and_true]
    omega
  · simp only [Work.mk.injEq, and_true]
    split <;> omega
termination_by l.length - i

/-- The loop passes what is separated. -/
theorem optLoop_pass (l : List Hole) (i : Nat) (hi : i < l.length) (hsep : SepUpto l i) :
    (Holes.optLoop l 0).1 = (Holes.optLoop l i).1 := by
  induction i with
  | zero => rfl
  | succ i ih =>
    rw [ih (by omega) fun j hj hji => hsep j hj (by omega), optLoop_eq, dif_pos (by omega)]
    have := hsep i (by omega) (by omega)
    rw [if_neg (by omega)]

theorem loopWork_pass (l : List Hole) (i : Nat) (hi : i < l.length) (hsep : SepUpto l i) :
    Holes.loopWork l 0 = ⟨i + (Holes.loopWork l i).rounds, (Holes.loopWork l i).moved, (Holes.loopWork l i).depth⟩ := by
  induction i with
  | zero => simp
  | succ i ih =>
    rw [ih (by omega) fun j hj hji => hsep j hj (by omega)]
    have := hsep i (by omega) (by omega)
    rw [Holes.loopWork, dif_pos (by omega), if_neg (by omega)]
    simp only [Work.mk.injEq, and_true]
    omega

theorem merge_sepUpto (l : List Hole) (i : Nat) (h : i + 1 < l.length) (hsep : SepUpto l i) :
    SepUpto (Holes.merge l i h) i := by
  intro j hj hji
  have e := merge_eq l i h
  have hlen := Holes.length_merge l i h
  have h1 : (Holes.merge l i h)[j] = l[j] := by
    simp only [e]
    rw [List.getElem_append_left (by simp; omega)]
    simp
  have h2 : (Holes.merge l i h)[j+1].start = l[j+1].start := by
    simp only [e]
    by_cases hj' : j + 1 < i
    · rw [List.getElem_append_left (by simp; omega)]
      simp
    · have : j + 1 = i := by omega
      rw [List.getElem_append_right (by simp; omega)]
      have z : j + 1 - (l.take i).length = 0 := by simp; omega
      simp only [z, List.getElem_cons_zero]
      simp only [← this]
  rw [h1, h2]
  exact hsep j (by omega) hji

/-- The rounds the loop makes, from what it is given and what it leaves. -/
def roundsOf (n c : Nat) : Nat := if c = 1 then n - 2 else c * (n - c)

theorem loopWork_spec (l : List Hole) (i : Nat) (hi : i < l.length) (hs : SortedS l) (hn : NonE l) (hsep : SepUpto l i) :
    i + 1 ≤ (Holes.optLoop l i).1.length ∧
    (Holes.loopWork l i).rounds =
      ((Holes.optLoop l i).1.length - i) + roundsOf l.length (Holes.optLoop l i).1.length ∧
    (Holes.loopWork l i).depth = l.length - (Holes.optLoop l i).1.length + 1 ∧
    (Holes.loopWork l i).moved ≤ (l.length - (Holes.optLoop l i).1.length) * (l.length - 2) := by
  have shrink := (Holes.optLoop l i).2
  rw [optLoop_eq] at shrink ⊢
  rw [Holes.loopWork]
  split
  · rename_i h
    split
    · rename_i ht
      rw [dif_pos h, if_pos ht] at shrink
      have hm := merge_spec l i h hs hn ht
      have hlen := Holes.length_merge l i h
      have msep := merge_sepUpto l i h hsep
      simp only []
      generalize Holes.merge l i h = m at *
      have ih := loopWork_spec m i (by omega) hm.1 hm.2.1 msep
      have adj := (optLoop_spec m i hm.1 hm.2.1 msep).2.2.1
      have pass := optLoop_pass m i (by omega) msep
      have wpass := loopWork_pass m i (by omega) msep
      have le := (Holes.optLoop m i).2
      have opt : Holes.optimise m = (Holes.optLoop m i).1 := by
        unfold Holes.optimise
        split
        · rename_i h1
          refine (optLoop_adj m i ?_).symm
          intro j hj; omega
        · exact pass
      rw [opt] at shrink ⊢
      rw [optLoop_adj _ _ adj] at shrink ⊢
      simp only [loopWork_adj _ _ adj]
      obtain ⟨i1, i2, i3, i4⟩ := ih
      generalize hc : (Holes.optLoop m i).1.length = c at *
      split
      · rename_i h1
        have c1 : c = 1 := by omega
        subst c1
        have n2 : l.length = 2 := by omega
        simp only [roundsOf, n2]
        refine ⟨i1, by simp; omega, by simp, by simp⟩
      · rename_i h1
        rw [wpass]
        simp only [i2, i3]
        refine ⟨i1, ?_, by omega, ?_⟩
        · unfold roundsOf
          by_cases c1 : c = 1
          · subst c1; simp; omega
          · rw [if_neg c1, if_neg c1]
            have : l.length - c = (m.length - c) + 1 := by omega
            rw [this, Nat.mul_add]
            omega
        · have e : l.length - c = (m.length - c) + 1 := by omega
          have : (m.length - c) * (m.length - 2) ≤ (m.length - c) * (l.length - 2) := Nat.mul_le_mul_left _ (by omega)
          rw [e, Nat.add_mul]
          omega
    · rename_i ht
      rw [dif_pos h, if_neg ht] at shrink
      have ih := loopWork_spec l (i + 1) (by omega) hs hn (by
        intro j hj hji
        by_cases hji' : j < i
        · exact hsep j hj hji'
        · have : j = i := by omega
          subst this; omega)
      obtain ⟨i1, i2, i3, i4⟩ := ih
      refine ⟨by omega, ?_, i3, i4⟩
      simp only [i2]
      omega
  · rename_i h
    have e : l.length = i + 1 := by omega
    refine ⟨by omega, ?_, by simp, by simp⟩
    simp only [roundsOf]
    split
    · omega
    · simp; omega
termination_by (l.length, l.length - i)

/-- What one merge adds. -/
theorem loopWork_merge (l : List Hole) (i : Nat) (h : i + 1 < l.length) (hs : SortedS l) (hn : NonE l) (hsep : SepUpto l i)
    (ht : l[i+1].start ≤ l[i].stop) :
    (Holes.loopWork l i).moved = l.length - (i + 2) + (Holes.loopWork (Holes.merge l i h) i).moved ∧
    (Holes.optLoop l i).1 = (Holes.optLoop (Holes.merge l i h) i).1 := by
  have hm := merge_spec l i h hs hn ht
  have hlen := Holes.length_merge l i h
  have msep := merge_sepUpto l i h hsep
  rw [optLoop_eq, dif_pos h, if_pos ht, Holes.loopWork, dif_pos h, if_pos ht]
  simp only []
  generalize Holes.merge l i h = m at *
  have adj := (optLoop_spec m i hm.1 hm.2.1 msep).2.2.1
  have pass := optLoop_pass m i (by omega) msep
  have wpass := loopWork_pass m i (by omega) msep
  have opt : Holes.optimise m = (Holes.optLoop m i).1 := by
    unfold Holes.optimise
    split
    · rename_i h1
      refine (optLoop_adj m i ?_).symm
      intro j hj; omega
    · exact pass
  rw [opt, optLoop_adj _ _ adj, loopWork_adj _ _ adj]
  refine ⟨?_, rfl⟩
  split
  · rename_i h1
    rw [Holes.loopWork, dif_neg (by omega)]
    rfl
  · rw [wpass]
    rfl

/-- What is joined to `z` from what follows it, and what that moves. -/
theorem loopWork_joins (q : List Hole) : ∀ (p : List Hole) (z : Hole), SortedS (p ++ z :: q) → NonE (p ++ z :: q) →
    SepUpto (p ++ z :: q) p.length → q.Pairwise (fun a b => a.stop < b.start) →
    (Holes.optLoop (p ++ z :: q) p.length).1.length = p.length + 1 + q.countP (fun h => decide (z.stop < h.start)) ∧
    2 * (Holes.loopWork (p ++ z :: q) p.length).moved =
      (q.length - q.countP (fun h => decide (z.stop < h.start))) *
        (2 * q.countP (fun h => decide (z.stop < h.start)) +
          (q.length - q.countP (fun h => decide (z.stop < h.start))) - 1) := by
  induction q with
  | nil =>
    intro p z _ _ _ _
    rw [optLoop_eq, dif_neg (by simp), Holes.loopWork, dif_neg (by simp)]
    simp
  | cons b q ih =>
    intro p z hs hn hsep hq
    have h : p.length + 1 < (p ++ z :: b :: q).length := by simp
    have e1 : (p ++ z :: b :: q)[p.length]'(by omega) = z := by simp
    have e2 : (p ++ z :: b :: q)[p.length + 1] = b := by rw [List.getElem_append_right (by omega)]; simp
    obtain ⟨hb, hq⟩ := List.pairwise_cons.1 hq
    have bne : b.start < b.stop := hn b (by simp)
    by_cases ht : b.start ≤ z.stop
    · have ht' : (p ++ z :: b :: q)[p.length + 1].start ≤ (p ++ z :: b :: q)[p.length].stop := by rw [e1, e2]; exact ht
      obtain ⟨m1, m2⟩ := loopWork_merge _ _ h hs hn hsep ht'
      have ms := merge_spec _ _ h hs hn ht'
      have msep := merge_sepUpto _ _ h hsep
      rw [merge_append] at m1 m2 ms msep
      obtain ⟨i1, i2⟩ := ih p ⟨z.start, max z.stop b.stop⟩ ms.1 ms.2.1 msep hq
      have same : q.countP (fun h => decide ((⟨z.start, max z.stop b.stop⟩ : Hole).stop < h.start)) =
          q.countP (fun h => decide (z.stop < h.start)) :=
        List.countP_congr fun h hh => by
          have := hb h hh
          simp only [decide_eq_true_eq]
          omega
      have none_ : (b :: q).countP (fun h => decide (z.stop < h.start)) = q.countP (fun h => decide (z.stop < h.start)) := by
        rw [List.countP_cons, if_neg (by simp; omega)]; omega
      rw [same] at i1 i2
      rw [m2, none_, m1]
      refine ⟨i1, ?_⟩
      have le : q.countP (fun h => decide (z.stop < h.start)) ≤ q.length := List.countP_le_length
      generalize q.countP (fun h => decide (z.stop < h.start)) = a at *
      rw [Nat.mul_add, i2]
      have l1 : (p ++ z :: b :: q).length - (p.length + 2) = q.length := by simp; omega
      rw [l1, List.length_cons]
      obtain ⟨k, hk⟩ : ∃ k, q.length = a + k := ⟨q.length - a, by omega⟩
      rw [hk, show a + k + 1 - a = k + 1 by omega, show a + k - a = k by omega]
      cases k with
      | zero => simp
      | succ k =>
        rw [show 2 * a + (k + 1) - 1 = 2 * a + k by omega, show 2 * a + (k + 1 + 1) - 1 = 2 * a + k + 1 by omega]
        simp only [Nat.add_mul, Nat.mul_add]
        omega
    · have e3 : p ++ z :: b :: q = (p ++ [z]) ++ b :: q := by simp
      have l3 : (p ++ [z]).length = p.length + 1 := by simp
      have step1 : (Holes.optLoop (p ++ z :: b :: q) p.length).1 = (Holes.optLoop (p ++ z :: b :: q) (p.length + 1)).1 := by
        rw [optLoop_eq, dif_pos h, if_neg (by rw [e1, e2]; exact ht)]
      have step2 : (Holes.loopWork (p ++ z :: b :: q) p.length).moved =
          (Holes.loopWork (p ++ z :: b :: q) (p.length + 1)).moved := by
        rw [Holes.loopWork, dif_pos h, if_neg (by rw [e1, e2]; exact ht)]
      have sep' : SepUpto (p ++ z :: b :: q) (p.length + 1) := by
        intro j hj hji
        by_cases hji' : j < p.length
        · exact hsep j hj hji'
        · have : j = p.length := by omega
          subst this
          rw [e1, e2]; omega
      rw [step1, step2]
      obtain ⟨i1, i2⟩ := ih (p ++ [z]) b (e3 ▸ hs) (e3 ▸ hn) (by rw [l3, ← e3]; exact sep') hq
      rw [l3, ← e3] at i1 i2
      have all1 : q.countP (fun h => decide (b.stop < h.start)) = q.length :=
        List.countP_eq_length.2 fun h hh => by simpa using hb h hh
      have all2 : (b :: q).countP (fun h => decide (z.stop < h.start)) = q.length + 1 := by
        rw [← List.length_cons (a := b)]
        refine List.countP_eq_length.2 fun h hh => ?_
        rcases List.mem_cons.1 hh with rfl | hh
        · simp; omega
        · have := hb h hh
          simp; omega
      rw [all1] at i1 i2
      rw [all2]
      refine ⟨by omega, ?_⟩
      rw [i2]
      simp

theorem sepUpto_of_pairwise (p q : List Hole) (z : Hole) (h : (p ++ [z]).Pairwise (fun a b => a.stop < b.start)) :
    SepUpto (p ++ z :: q) p.length := by
  intro j hj hji
  have l1 : j + 1 < (p ++ [z]).length := by simp; omega
  have e : p ++ z :: q = (p ++ [z]) ++ q := by simp
  have g := List.pairwise_iff_getElem.1 h j (j + 1) (by omega) l1 (by omega)
  have e1 : (p ++ z :: q)[j] = (p ++ [z])[j] := by
    simp only [e]; rw [List.getElem_append_left]
  have e2 : (p ++ z :: q)[j + 1] = (p ++ [z])[j + 1] := by
    simp only [e]; rw [List.getElem_append_left]
  rw [e1, e2]
  exact g

/-- A range put among ranges that are apart from one another: what remains and what is moved. -/
theorem loopWork_insert (p q : List Hole) (x : Hole) (hs : SortedS (p ++ x :: q)) (hn : NonE (p ++ x :: q))
    (apart : (p ++ q).Pairwise (fun a b => a.stop < b.start)) :
    2 * (Holes.loopWork (p ++ x :: q) 0).moved =
      ((p ++ x :: q).length - (Holes.optLoop (p ++ x :: q) 0).1.length) *
        (2 * q.countP (fun h => decide (x.stop < h.start)) +
          ((p ++ x :: q).length - (Holes.optLoop (p ++ x :: q) 0).1.length) - 1) := by
  obtain ⟨pp, pq, cross⟩ := List.pairwise_append.1 apart
  have le : q.countP (fun h => decide (x.stop < h.start)) ≤ q.length := List.countP_le_length
  have direct : (p ++ [x]).Pairwise (fun a b => a.stop < b.start) → 2 * (Holes.loopWork (p ++ x :: q) 0).moved =
      ((p ++ x :: q).length - (Holes.optLoop (p ++ x :: q) 0).1.length) *
        (2 * q.countP (fun h => decide (x.stop < h.start)) +
          ((p ++ x :: q).length - (Holes.optLoop (p ++ x :: q) 0).1.length) - 1) := by
    intro hp
    have sep := sepUpto_of_pairwise p q x hp
    obtain ⟨j1, j2⟩ := loopWork_joins q p x hs hn sep pq
    rw [optLoop_pass _ p.length (by simp) sep, loopWork_pass _ p.length (by simp) sep, j1]
    have e : (p ++ x :: q).length - (p.length + 1 + q.countP (fun h => decide (x.stop < h.start))) =
        q.length - q.countP (fun h => decide (x.stop < h.start)) := by simp; omega
    rw [e]
    exact j2
  rcases List.eq_nil_or_concat p with rfl | ⟨p, y, rfl⟩
  · exact direct (by simp)
  by_cases ht : x.start ≤ y.stop
  · have sep : SepUpto (p ++ y :: x :: q) p.length := sepUpto_of_pairwise p (x :: q) y (by simpa using pp)
    have e0 : p.concat y ++ x :: q = p ++ y :: x :: q := by simp
    rw [e0] at hs hn ⊢
    have h : p.length + 1 < (p ++ y :: x :: q).length := by simp
    have e1 : (p ++ y :: x :: q)[p.length]'(by omega) = y := by simp
    have e2 : (p ++ y :: x :: q)[p.length + 1] = x := by rw [List.getElem_append_right (by omega)]; simp
    have ht' : (p ++ y :: x :: q)[p.length + 1].start ≤ (p ++ y :: x :: q)[p.length].stop := by rw [e1, e2]; exact ht
    obtain ⟨m1, m2⟩ := loopWork_merge _ _ h hs hn sep ht'
    have ms := merge_spec _ _ h hs hn ht'
    have msep := merge_sepUpto _ _ h sep
    rw [merge_append] at m1 m2 ms msep
    obtain ⟨j1, j2⟩ := loopWork_joins q p ⟨y.start, max y.stop x.stop⟩ ms.1 ms.2.1 msep pq
    have same : q.countP (fun h => decide ((⟨y.start, max y.stop x.stop⟩ : Hole).stop < h.start)) =
        q.countP (fun h => decide (x.stop < h.start)) :=
      List.countP_congr fun h hh => by
        have := cross y (by simp) h hh
        simp only [decide_eq_true_eq]
        omega
    rw [same] at j1 j2
    rw [optLoop_pass _ p.length (by simp) sep, loopWork_pass _ p.length (by simp) sep, m2, j1]
    simp only []
    rw [m1, Nat.mul_add, j2]
    generalize q.countP (fun h => decide (x.stop < h.start)) = a at *
    have l1 : (p ++ y :: x :: q).length - (p.length + 2) = q.length := by simp; omega
    have l2 : (p ++ y :: x :: q).length - (p.length + 1 + a) = q.length - a + 1 := by simp; omega
    rw [l1, l2]
    obtain ⟨k, hk⟩ : ∃ k, q.length = a + k := ⟨q.length - a, by omega⟩
    rw [hk, show a + k - a = k by omega]
    cases k with
    | zero => simp
    | succ k =>
      rw [show 2 * a + (k + 1) - 1 = 2 * a + k by omega, show 2 * a + (k + 1 + 1) - 1 = 2 * a + k + 1 by omega]
      simp only [Nat.add_mul, Nat.mul_add]
      omega
  · refine direct (List.pairwise_append.2 ⟨pp, by simp, fun a ha b hb => ?_⟩)
    rw [List.mem_singleton] at hb
    subst hb
    rw [List.concat_eq_append] at pp ha
    rcases List.mem_append.1 ha with ha' | ha'
    · have := (List.pairwise_append.1 pp).2.2 a ha' y (by simp)
      have := hn y (by simp)
      omega
    · rw [List.mem_singleton] at ha'
      subst ha'; omega

end Saratoga
