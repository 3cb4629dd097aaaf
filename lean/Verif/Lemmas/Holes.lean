import Verif.Spec.Ranges
/-! # Helper lemmas about the range list code -/
namespace Saratoga

theorem Covers_nil (x : Int) : ¬ Covers [] x := by simp [Covers]

theorem Covers_cons (a : Hole) (l : List Hole) (x : Int) :
    Covers (a :: l) x ↔ (a.start ≤ x ∧ x < a.stop) ∨ Covers l x := by
  simp [Covers]

theorem Covers_append (a b : List Hole) (x : Int) :
    Covers (a ++ b) x ↔ Covers a x ∨ Covers b x := by
  simp only [Covers, List.mem_append, or_and_right, exists_or]

theorem Covers_perm {a b : List Hole} (h : a.Perm b) (x : Int) : Covers a x ↔ Covers b x := by
  simp only [Covers, h.mem_iff]

/-- Sorted by start. -/
def SortedS (l : List Hole) : Prop := l.Pairwise (fun a b => a.start ≤ b.start)
/-- All ranges non-empty. -/
def NonE (l : List Hole) : Prop := ∀ h ∈ l, h.start < h.stop

/-- split a list around the pair (i, i+1) -/
theorem split_pair (l : List Hole) (i : Nat) (h : i + 1 < l.length) :
    l = l.take i ++ l[i] :: l[i+1] :: l.drop (i + 2) := by
  rw [List.getElem_cons_drop (by omega), List.getElem_cons_drop (by omega), List.take_append_drop]

theorem merge_append (p q : List Hole) (a b : Hole) (h : p.length + 1 < (p ++ a :: b :: q).length) :
    Holes.merge (p ++ a :: b :: q) p.length h = p ++ ⟨a.start, max a.stop b.stop⟩ :: q := by
  unfold Holes.merge Holes.remove
  have h1 : (p ++ a :: b :: q)[p.length]'(by omega) = a := by simp
  have h2 : (p ++ a :: b :: q)[p.length + 1] = b := by
    rw [List.getElem_append_right (by omega)]; simp
  have hd : ∀ c : Hole, (p ++ c :: b :: q).take (p.length + 1) ++
      (p ++ c :: b :: q).drop (p.length + 1 + 1) = p ++ c :: q := by
    intro c
    rw [List.take_append, List.drop_append]
    have e1 : p.length + 1 - p.length = 1 := by omega
    have e2 : p.length + 1 + 1 - p.length = 2 := by omega
    rw [e1, e2, List.take_of_length_le (by omega), List.drop_of_length_le (by omega)]
    simp
  rw [h1, h2]
  split
  · rename_i hle
    rw [hd, Int.max_eq_left hle]
  · rename_i hlt
    rw [List.set_append_right _ _ (by omega)]
    simp only [Nat.sub_self, List.set_cons_zero]
    rw [hd, Int.max_eq_right (by omega)]

theorem merge_eq (l : List Hole) (i : Nat) (h : i + 1 < l.length) :
    Holes.merge l i h = l.take i ++ ⟨l[i].start, max l[i].stop l[i+1].stop⟩ :: l.drop (i + 2) := by
  have hsp := split_pair l i h
  have hlen : (l.take i).length = i := by simp; omega
  generalize l[i] = a at *
  generalize l[i+1] = b at *
  generalize l.take i = p at *
  generalize l.drop (i+2) = q at *
  subst hsp
  subst hlen
  exact merge_append p q a b h

theorem merge_spec (l : List Hole) (i : Nat) (h : i + 1 < l.length)
    (hs : SortedS l) (hn : NonE l) (ht : l[i+1].start ≤ l[i].stop) :
    SortedS (Holes.merge l i h) ∧ NonE (Holes.merge l i h) ∧
      ∀ x, Covers (Holes.merge l i h) x ↔ Covers l x := by
  rw [merge_eq]
  have hsp := split_pair l i h
  generalize l[i] = a at *
  generalize l[i+1] = b at *
  generalize l.take i = p at *
  generalize l.drop (i+2) = q at *
  subst hsp
  refine ⟨?_, ?_, ?_⟩
  · simp only [SortedS, List.pairwise_append, List.pairwise_cons, List.mem_cons] at hs ⊢
    grind
  · simp only [NonE, List.mem_append, List.mem_cons] at hn ⊢
    intro x hx
    rcases hx with hx | rfl | hx
    · exact hn x (by simp [hx])
    · have := hn a (by simp)
      show a.start < max a.stop b.stop
      omega
    · exact hn x (by simp [hx])
  · intro x
    simp only [Covers_append, Covers_cons]
    have ha := hn a (by simp)
    have hb := hn b (by simp)
    have hab : a.start ≤ b.start := by
      simp only [SortedS, List.pairwise_append, List.pairwise_cons, List.mem_cons] at hs
      exact hs.2.1.1 b (by simp)
    constructor
    · rintro (h | h | h)
      · exact Or.inl h
      · have h2 : x < max a.stop b.stop := h.2
        by_cases hx : x < a.stop
        · exact Or.inr (Or.inl ⟨h.1, hx⟩)
        · exact Or.inr (Or.inr (Or.inl ⟨by omega, by omega⟩))
      · exact Or.inr (Or.inr (Or.inr h))
    · rintro (h | h | h | h)
      · exact Or.inl h
      · refine Or.inr (Or.inl ⟨h.1, ?_⟩)
        show x < max a.stop b.stop
        omega
      · refine Or.inr (Or.inl ⟨?_, ?_⟩)
        · show a.start ≤ x
          omega
        · show x < max a.stop b.stop
          omega
      · exact Or.inr (Or.inr h)

/-- neighbours are separated from index `i` on backwards: all pairs `(j, j+1)` with `j < i`. -/
def SepUpto (l : List Hole) (i : Nat) : Prop :=
  ∀ j, (h : j + 1 < l.length) → j < i → l[j].stop < l[j+1].start

/-- All neighbours are separated. -/
def Adj (l : List Hole) : Prop := ∀ j, (h : j + 1 < l.length) → l[j].stop < l[j+1].start

/-- One turn of the loop, without the length bookkeeping. -/
theorem optLoop_eq (l : List Hole) (i : Nat) :
    (Holes.optLoop l i).1 =
      if h : i + 1 < l.length then
        if l[i+1].start ≤ l[i].stop then
          (Holes.optLoop (Holes.optimise (Holes.merge l i h)) (i + 1)).1
        else (Holes.optLoop l (i + 1)).1
      else l := by
  rw [Holes.optLoop]
  split
  · split
    · refine congrArg (fun z => (Holes.optLoop z (i + 1)).1) ?_
      unfold Holes.optimise
      split <;> rfl
    · rfl
  · rfl

theorem optLoop_spec (l : List Hole) (i : Nat) (hs : SortedS l) (hn : NonE l) (hsep : SepUpto l i) :
    SortedS (Holes.optLoop l i).1 ∧ NonE (Holes.optLoop l i).1 ∧ Adj (Holes.optLoop l i).1 ∧
      ∀ x, Covers (Holes.optLoop l i).1 x ↔ Covers l x := by
  rw [optLoop_eq]
  split
  · rename_i h
    split
    · rename_i ht
      have hm := merge_spec l i h hs hn ht
      have hlen := Holes.length_merge l i h
      have hopt : SortedS (Holes.optimise (Holes.merge l i h)) ∧
          NonE (Holes.optimise (Holes.merge l i h)) ∧ Adj (Holes.optimise (Holes.merge l i h)) ∧
          (∀ x, Covers (Holes.optimise (Holes.merge l i h)) x ↔ Covers (Holes.merge l i h) x) ∧
          (Holes.optimise (Holes.merge l i h)).length ≤ (Holes.merge l i h).length := by
        unfold Holes.optimise
        split
        · exact ⟨hm.1, hm.2.1, by intro j hj; omega, fun _ => Iff.rfl, Nat.le_refl _⟩
        · have h0 := optLoop_spec _ 0 hm.1 hm.2.1 (by intro j _ hj; omega)
          exact ⟨h0.1, h0.2.1, h0.2.2.1, h0.2.2.2, (Holes.optLoop (Holes.merge l i h) 0).2⟩
      have := optLoop_spec _ (i+1) hopt.1 hopt.2.1 (by intro j hj _; exact hopt.2.2.1 j hj)
      refine ⟨this.1, this.2.1, this.2.2.1, fun x => ?_⟩
      rw [this.2.2.2 x, hopt.2.2.2.1 x, hm.2.2 x]
    · rename_i ht
      apply optLoop_spec l (i+1) hs hn
      intro j hj hji
      by_cases hji' : j < i
      · exact hsep j hj hji'
      · have : j = i := by omega
        subst this; omega
  · rename_i h
    refine ⟨hs, hn, ?_, fun x => Iff.rfl⟩
    intro j hj
    exact hsep j hj (by omega)
termination_by (l.length, l.length - i)

theorem pairwise_of_adjacent (l : List Hole) (hn : NonE l)
    (h : ∀ j, (h : j + 1 < l.length) → l[j].stop < l[j+1].start) :
    l.Pairwise (fun a b => a.stop < b.start) := by
  induction l with
  | nil => simp
  | cons a t ih =>
    have ht : NonE t := fun x hx => hn x (by simp [hx])
    have hadj : ∀ j, (h : j + 1 < t.length) → t[j].stop < t[j+1].start := by
      intro j hj
      have := h (j+1) (by simp; omega)
      simpa using this
    have hp := ih ht hadj
    refine List.pairwise_cons.2 ⟨?_, hp⟩
    cases t with
    | nil => simp
    | cons b t =>
      have hab : a.stop < b.start := by simpa using h 0 (by simp)
      have hb := ht b (by simp)
      intro c hc
      rcases List.mem_cons.1 hc with rfl | hc
      · exact hab
      · have := (List.pairwise_cons.1 hp).1 c hc
        omega

theorem optimise_spec (l : List Hole) (hs : SortedS l) (hn : NonE l) :
    Canonical (Holes.optimise l) ∧ ∀ x, Covers (Holes.optimise l) x ↔ Covers l x := by
  unfold Holes.optimise
  split
  · rename_i h
    refine ⟨⟨hn, ?_⟩, fun _ => Iff.rfl⟩
    match l, h with
    | [], _ => simp
    | [a], _ => simp
  · have := optLoop_spec l 0 hs hn (by intro j _ hj; omega)
    exact ⟨⟨this.2.1, pairwise_of_adjacent _ this.2.1 this.2.2.1⟩, this.2.2.2⟩

theorem add_spec (srt : GoSort) (l : List Hole) (s e : Int) (hl : Canonical l) :
    Canonical (Holes.add srt l s e) ∧
      ∀ x, Covers (Holes.add srt l s e) x ↔ Covers l x ∨ (s ≤ x ∧ x < e) := by
  unfold Holes.add
  split
  · exact ⟨hl, fun x => ⟨Or.inl, fun h => h.elim id (fun h => by omega)⟩⟩
  · rename_i hse
    have hne : NonE (l ++ [⟨s, e⟩]) := by
      intro h hh
      rcases List.mem_append.1 hh with hh | hh
      · exact hl.1 h hh
      · simp at hh; subst hh; simp; omega
    have hcov : ∀ x, Covers (l ++ [⟨s, e⟩]) x ↔ Covers l x ∨ (s ≤ x ∧ x < e) := by
      intro x; rw [Covers_append, Covers_cons]; simp [Covers_nil]
    simp only
    split
    · have := optimise_spec (srt.sort (l ++ [⟨s, e⟩])) (srt.sorted _)
        (fun h hh => hne h ((srt.perm _).mem_iff.1 hh))
      refine ⟨this.1, fun x => ?_⟩
      rw [this.2 x, Covers_perm (srt.perm _) x, hcov]
    · rename_i hlen
      have : l = [] := by
        cases l with
        | nil => rfl
        | cons a t => simp at hlen
      subst this
      refine ⟨⟨hne, by simp⟩, hcov⟩

theorem foldl_spec (hist : List AddCall) (l : List Hole) (hl : Canonical l) :
    Canonical (hist.foldl (fun f c => Holes.add c.srt f c.start c.stop) l) ∧
      ∀ x, Covers (hist.foldl (fun f c => Holes.add c.srt f c.start c.stop) l) x ↔
        Covers l x ∨ Received hist x := by
  induction hist generalizing l with
  | nil => simp [hl, Received]
  | cons c t ih =>
    have ha := add_spec c.srt l c.start c.stop hl
    have := ih _ ha.1
    refine ⟨this.1, fun x => ?_⟩
    simp only [List.foldl_cons]
    rw [this.2 x, ha.2 x]
    simp [Received, or_assoc]

/-- Canonical lists are determined by the offsets they cover. -/
theorem canonical_ext (a b : List Hole) (ha : Canonical a) (hb : Canonical b)
    (h : ∀ x, Covers a x ↔ Covers b x) : a = b := by
  induction a generalizing b with
  | nil =>
    cases b with
    | nil => rfl
    | cons y t =>
      have := (h y.start).2 ⟨y, by simp, by omega, hb.1 y (by simp)⟩
      exact absurd this (Covers_nil _)
  | cons x s ih =>
    cases b with
    | nil =>
      have := (h x.start).1 ⟨x, by simp, by omega, ha.1 x (by simp)⟩
      exact absurd this (Covers_nil _)
    | cons y t =>
      obtain ⟨ha1, ha2⟩ := ha
      obtain ⟨hb1, hb2⟩ := hb
      have hx := ha1 x (by simp)
      have hy := hb1 y (by simp)
      rw [List.pairwise_cons] at ha2 hb2
      -- everything covered by the tail is above the head's stop
      have tailS : ∀ z, Covers s z → x.stop < z := by
        rintro z ⟨w, hw, hz, _⟩; have := ha2.1 w hw; omega
      have tailT : ∀ z, Covers t z → y.stop < z := by
        rintro z ⟨w, hw, hz, _⟩; have := hb2.1 w hw; omega
      have e1 : x.start = y.start := by
        have h1 := (h x.start).1 (by rw [Covers_cons]; left; omega)
        have h2 := (h y.start).2 (by rw [Covers_cons]; left; omega)
        rw [Covers_cons] at h1 h2
        rcases h1 with h1 | h1 <;> rcases h2 with h2 | h2
        · omega
        · have := tailS _ h2; omega
        · have := tailT _ h1; omega
        · have := tailS _ h2; have := tailT _ h1; omega
      have e2 : x.stop = y.stop := by
        rcases Int.lt_trichotomy x.stop y.stop with hlt | heq | hgt
        · have := (h x.stop).2 (by rw [Covers_cons]; left; omega)
          rw [Covers_cons] at this
          rcases this with this | this
          · omega
          · have := tailS _ this; omega
        · exact heq
        · have := (h y.stop).1 (by rw [Covers_cons]; left; omega)
          rw [Covers_cons] at this
          rcases this with this | this
          · omega
          · have := tailT _ this; omega
      have exy : x = y := by cases x; cases y; simp_all
      subst exy
      congr 1
      apply ih
      · exact ⟨fun z hz => ha1 z (by simp [hz]), ha2.2⟩
      · exact ⟨fun z hz => hb1 z (by simp [hz]), hb2.2⟩
      · intro z
        have := h z
        rw [Covers_cons, Covers_cons] at this
        constructor
        · intro hz
          rcases this.1 (Or.inr hz) with h' | h'
          · have := tailS z hz; omega
          · exact h'
        · intro hz
          rcases this.2 (Or.inr hz) with h' | h'
          · have := tailT z hz; omega
          · exact h'

theorem gaps_spec (l : List Hole) (hl : Canonical l) :
    Canonical (Holes.gaps l) ∧ (∀ h ∈ Holes.gaps l, ∀ a ∈ l.head?, a.stop ≤ h.start) ∧
      ∀ x, Covers (Holes.gaps l) x ↔
        ¬ Covers l x ∧ (∃ a ∈ l.head?, a.stop ≤ x) ∧ ∃ y, x < y ∧ Covers l y := by
  match l with
  | [] => simp [Holes.gaps, Canonical, Covers]
  | [a] =>
    refine ⟨by simp [Holes.gaps, Canonical], by simp [Holes.gaps], fun x => ?_⟩
    simp only [Holes.gaps, Covers_nil, false_iff]
    rintro ⟨_, ⟨b, hb, hx⟩, y, hxy, hy⟩
    simp at hb; subst hb
    rw [Covers_cons] at hy
    rcases hy with hy | hy
    · omega
    · exact Covers_nil _ hy
  | a :: b :: t =>
    have hl' : Canonical (b :: t) :=
      ⟨fun z hz => hl.1 z (by simp [hz]), (List.pairwise_cons.1 hl.2).2⟩
    have ih := gaps_spec (b :: t) hl'
    have ha := hl.1 a (by simp)
    have hb := hl.1 b (by simp)
    have hab := (List.pairwise_cons.1 hl.2).1 b (by simp)
    have tail : ∀ z, Covers (b :: t) z → b.start ≤ z := by
      rintro z ⟨w, hw, hz, _⟩
      rcases List.mem_cons.1 hw with rfl | hw
      · omega
      · have := (List.pairwise_cons.1 hl'.2).1 w hw; omega
    rw [Holes.gaps]
    refine ⟨⟨?_, ?_⟩, ?_, ?_⟩
    · intro h hh
      rcases List.mem_cons.1 hh with rfl | hh
      · exact hab
      · exact ih.1.1 h hh
    · refine List.pairwise_cons.2 ⟨?_, ih.1.2⟩
      intro h hh
      have := ih.2.1 h hh b (by simp)
      simp; omega
    · intro h hh c hc
      simp at hc; subst hc
      rcases List.mem_cons.1 hh with rfl | hh
      · simp
      · have := ih.2.1 h hh b (by simp); omega
    · intro x
      rw [Covers_cons, ih.2.2 x]
      constructor
      · rintro (h | ⟨hn, ⟨c, hc, hcx⟩, y, hxy, hy⟩)
        · simp only at h
          refine ⟨?_, ⟨a, by simp, h.1⟩, b.start, h.2, ⟨b, by simp, by omega, hb⟩⟩
          rw [Covers_cons]
          rintro (h' | h')
          · omega
          · have := tail _ h'; omega
        · simp at hc; subst hc
          refine ⟨?_, ⟨a, by simp, by omega⟩, y, hxy, ?_⟩
          · rw [Covers_cons]
            rintro (h' | h')
            · omega
            · exact hn h'
          · rw [Covers_cons]; exact Or.inr hy
      · rintro ⟨hn, ⟨c, hc, hcx⟩, y, hxy, hy⟩
        simp at hc; subst hc
        have hnb : ¬ Covers (b :: t) x := fun h' => hn (by rw [Covers_cons]; exact Or.inr h')
        by_cases hxb : x < b.start
        · left; exact ⟨hcx, hxb⟩
        · right
          refine ⟨hnb, ⟨b, by simp, ?_⟩, y, hxy, ?_⟩
          · by_cases h' : b.stop ≤ x
            · exact h'
            · exact absurd ⟨b, by simp, by omega, by omega⟩ hnb
          · rw [Covers_cons] at hy
            rcases hy with hy | hy
            · omega
            · exact hy

theorem getholes_spec (l : List Hole) (hl : Canonical l) (h0 : ∀ h ∈ l, 0 ≤ h.start) :
    Canonical (Holes.getholes l) ∧
      ∀ x, Covers (Holes.getholes l) x ↔ 0 ≤ x ∧ ¬ Covers l x ∧ ∃ y, x < y ∧ Covers l y := by
  match l with
  | [] => simp [Holes.getholes, Canonical, Covers]
  | a :: t =>
    have g := gaps_spec (a :: t) hl
    have ha := hl.1 a (by simp)
    have ha0 := h0 a (by simp)
    have tail : ∀ z, Covers (a :: t) z → a.start ≤ z := by
      rintro z ⟨w, hw, hz, _⟩
      rcases List.mem_cons.1 hw with rfl | hw
      · omega
      · have := (List.pairwise_cons.1 hl.2).1 w hw; omega
    have hcov : ∀ x, Covers (Holes.getholes (a :: t)) x ↔
        (0 ≤ x ∧ x < a.start) ∨ Covers (Holes.gaps (a :: t)) x := by
      intro x
      unfold Holes.getholes
      rw [Covers_append]
      by_cases hz : a.start = 0
      · simp [hz, Covers_nil]; intro h1 h2; omega
      · simp [hz, Covers_cons, Covers_nil]
    refine ⟨?_, fun x => ?_⟩
    · unfold Holes.getholes
      by_cases hz : a.start = 0
      · simpa [hz] using g.1
      · simp only [ne_eq, hz, not_false_eq_true, if_true, List.singleton_append]
        refine ⟨?_, ?_⟩
        · intro h hh
          rcases List.mem_cons.1 hh with rfl | hh
          · simp; omega
          · exact g.1.1 h hh
        · refine List.pairwise_cons.2 ⟨?_, g.1.2⟩
          intro h hh
          have := g.2.1 h hh a (by simp)
          simp; omega
    · rw [hcov, g.2.2 x]
      constructor
      · rintro (h | ⟨hn, ⟨c, hc, hcx⟩, hy⟩)
        · exact ⟨h.1, fun h' => by have := tail _ h'; omega,
            a.start, h.2, ⟨a, by simp, by omega, ha⟩⟩
        · simp at hc; subst hc
          exact ⟨by omega, hn, hy⟩
      · rintro ⟨hx, hn, y, hxy, hy⟩
        by_cases hxa : x < a.start
        · exact Or.inl ⟨hx, hxa⟩
        · right
          refine ⟨hn, ⟨a, by simp, ?_⟩, y, hxy, hy⟩
          by_cases h' : a.stop ≤ x
          · exact h'
          · exact absurd ⟨a, by simp, by omega, by omega⟩ hn

end Saratoga
