import Verif.Props.Holes
/-! # The record of what was received stays small: C149 -/
namespace Saratoga

/-! ## Proof -/

/-- Points that lie in ranges of `l`, with an offset outside `l` between any two of them, are no more than the ranges. -/
theorem points_le (ps : List Int) : ∀ l : List Hole, (∀ p ∈ ps, Covers l p) →
    ps.Pairwise (fun a b => ∃ g, a ≤ g ∧ g < b ∧ ¬ Covers l g) → ps.length ≤ l.length := by
  induction ps with
  | nil => intro l _ _; exact Nat.zero_le _
  | cons p ps ih =>
    intro l cov sep
    obtain ⟨r, hr, hp1, hp2⟩ := cov p (List.mem_cons_self ..)
    obtain ⟨sep1, sep2⟩ := List.pairwise_cons.1 sep
    have less : ∀ x, Covers (l.erase r) x → Covers l x := fun x ⟨h, hh, hx⟩ => ⟨h, List.mem_of_mem_erase hh, hx⟩
    have rest := ih (l.erase r)
      (fun q hq => by
        obtain ⟨h, hh, hx1, hx2⟩ := cov q (List.mem_cons_of_mem _ hq)
        refine ⟨h, ?_, hx1, hx2⟩
        refine (List.mem_erase_of_ne ?_).2 hh
        rintro rfl
        obtain ⟨g, hg1, hg2, hg⟩ := sep1 q hq
        exact hg ⟨h, hh, by omega, by omega⟩)
      (sep2.imp fun ⟨g, a, b, c⟩ => ⟨g, a, b, fun hc => c (less g hc)⟩)
    rw [List.length_erase_of_mem hr] at rest
    have := List.length_pos_of_mem hr
    rw [List.length_cons]
    omega

/-- The offset behind a range of a canonical list is in none. -/
theorem canonical_after {l : List Hole} (hl : Canonical l) {a : Hole} (ha : a ∈ l) : ¬ Covers l a.stop := by
  rintro ⟨b, hb, h1, h2⟩
  obtain ⟨i, hi, rfl⟩ := List.getElem_of_mem ha
  obtain ⟨j, hj, rfl⟩ := List.getElem_of_mem hb
  have n1 := hl.1 _ ha
  have n2 := hl.1 _ hb
  have p := List.pairwise_iff_getElem.1 hl.2
  rcases Nat.lt_trichotomy i j with h | h | h
  · have := p i j hi hj h; omega
  · subst h; omega
  · have := p j i hj hi h; omega

/-- The offset before a range of a canonical list is in none. -/
theorem canonical_before {l : List Hole} (hl : Canonical l) {a : Hole} (ha : a ∈ l) : ¬ Covers l (a.start - 1) := by
  rintro ⟨b, hb, h1, h2⟩
  obtain ⟨i, hi, rfl⟩ := List.getElem_of_mem ha
  obtain ⟨j, hj, rfl⟩ := List.getElem_of_mem hb
  have n1 := hl.1 _ ha
  have n2 := hl.1 _ hb
  have p := List.pairwise_iff_getElem.1 hl.2
  rcases Nat.lt_trichotomy i j with h | h | h
  · have := p i j hi hj h; omega
  · subst h; omega
  · have := p j i hj hi h; omega

theorem canonical_least {l : List Hole} (hl : Canonical l) (other : List Hole) (same : ∀ x, Covers other x ↔ Covers l x) :
    l.length ≤ other.length := by
  have key := points_le (l.map (·.start)) other
    (fun p hp => by
      obtain ⟨h, hh, rfl⟩ := List.mem_map.1 hp
      exact (same _).2 ⟨h, hh, Int.le_refl _, hl.1 h hh⟩)
    (by
      rw [List.pairwise_map]
      have := hl.2
      have mem : l.Pairwise (fun a b => a ∈ l ∧ b ∈ l) := List.pairwise_of_forall_mem_list fun a ha b hb => ⟨ha, hb⟩
      refine (hl.2.and mem).imp ?_
      rintro a b ⟨hab, ha, -⟩
      exact ⟨a.stop, Int.le_of_lt (hl.1 a ha), hab, fun hc => canonical_after hl ha ((same _).1 hc)⟩)
  simpa using key

theorem canonical_width (l : List Hole) : ∀ lo n : Int, Canonical l → (∀ h ∈ l, lo ≤ h.start ∧ h.stop ≤ n) → l ≠ [] →
    lo + 2 * (l.length : Int) - 1 ≤ n := by
  induction l with
  | nil => intro _ _ _ _ h; exact absurd rfl h
  | cons a l ih =>
    intro lo n hl hb _
    have ha := hb a (List.mem_cons_self ..)
    have hn := hl.1 a (List.mem_cons_self ..)
    obtain ⟨s1, s2⟩ := List.pairwise_cons.1 hl.2
    cases l with
    | nil => simp; omega
    | cons b l =>
      have := ih (a.stop + 1) n ⟨fun h hh => hl.1 h (List.mem_cons_of_mem _ hh), s2⟩
        (fun h hh => ⟨by have := s1 h hh; omega, (hb h (List.mem_cons_of_mem _ hh)).2⟩) (by simp)
      simp only [List.length_cons] at this ⊢
      omega

/-! ## Theorems -/

/-- **C149** No list of ranges that tells the same is shorter than the one recorded. -/
theorem C149_least (hist : List AddCall) (other : List Hole) (same : ∀ x, Covers other x ↔ Received hist x) :
    (Holes.run hist).length ≤ other.length :=
  canonical_least (C02_canonical hist) other fun x => (same x).trans (C01_received_exactly hist x).symm

example (s : GoSort) := C149_least [⟨s, 0, 10⟩] [⟨0, 4⟩, ⟨4, 10⟩] (fun x => by
  simp [Covers, Received]; omega)

/-- **C149** There are never more ranges than calls that brought something. -/
theorem C149_calls (hist : List AddCall) :
    (Holes.run hist).length ≤ (hist.filter fun c => decide (c.start < c.stop)).length := by
  have := C149_least hist ((hist.filter fun c => decide (c.start < c.stop)).map fun c => ⟨c.start, c.stop⟩) (fun x => by
    constructor
    · rintro ⟨h, hh, h1, h2⟩
      obtain ⟨c, hc, rfl⟩ := List.mem_map.1 hh
      exact ⟨c, (List.mem_filter.1 hc).1, h1, h2⟩
    · rintro ⟨c, hc, h1, h2⟩
      exact ⟨_, List.mem_map.2 ⟨c, List.mem_filter.2 ⟨hc, by simp; omega⟩, rfl⟩, h1, h2⟩)
  simpa using this

/-- **C149** Of a file of `n` offsets at most half are ranges, rounded up: with one range or more, twice their number less
one is no more than `n`. -/
theorem C149_file (hist : List AddCall) (n : Int) (inside : ∀ x, Received hist x → 0 ≤ x ∧ x < n) (some : Holes.run hist ≠ []) :
    2 * ((Holes.run hist).length : Int) - 1 ≤ n := by
  have hc := C02_canonical hist
  have := canonical_width _ 0 n hc (fun h hh => by
    have ne := hc.1 h hh
    have a := inside h.start ((C01_received_exactly hist _).1 ⟨h, hh, Int.le_refl _, ne⟩)
    have b := inside (h.stop - 1) ((C01_received_exactly hist _).1 ⟨h, hh, by omega, by omega⟩)
    omega) some
  omega

/-- **C149** One more call makes the list at most one longer. -/
theorem C149_one_more (hist : List AddCall) (c : AddCall) :
    (Holes.run (hist ++ [c])).length ≤ (Holes.run hist).length + 1 := by
  have := C149_least (hist ++ [c]) (⟨c.start, c.stop⟩ :: Holes.run hist) (fun x => by
    rw [Covers_cons, C01_received_exactly]
    simp only [Received, List.mem_append, List.mem_singleton]
    constructor
    · rintro (h | ⟨d, hd, h⟩)
      · exact ⟨c, .inr rfl, h⟩
      · exact ⟨d, .inl hd, h⟩
    · rintro ⟨d, hd | rfl, h⟩
      · exact .inr ⟨d, hd, h⟩
      · exact .inl h)
  simpa using this

/-- **C149** No offset is made up: every range begins where a call began and ends where one ended. -/
theorem C149_ends (hist : List AddCall) (h : Hole) (recorded : h ∈ Holes.run hist) :
    (∃ c ∈ hist, c.start = h.start ∧ c.start < c.stop) ∧ (∃ c ∈ hist, c.stop = h.stop ∧ c.start < c.stop) := by
  have hc := C02_canonical hist
  have ne := hc.1 h recorded
  have got := C01_received_exactly hist
  constructor
  · obtain ⟨c, hm, h1, h2⟩ := (got h.start).1 ⟨h, recorded, Int.le_refl _, ne⟩
    refine ⟨c, hm, ?_, by omega⟩
    by_cases e : c.start = h.start
    · exact e
    · exact absurd ((got _).2 ⟨c, hm, by omega, by omega⟩) (canonical_before hc recorded)
  · obtain ⟨c, hm, h1, h2⟩ := (got (h.stop - 1)).1 ⟨h, recorded, by omega, by omega⟩
    refine ⟨c, hm, ?_, by omega⟩
    by_cases e : c.stop = h.stop
    · exact e
    · exact absurd ((got _).2 ⟨c, hm, by omega, by omega⟩) (canonical_after hc recorded)

theorem gaps_length (l : List Hole) : (Holes.gaps l).length = l.length - 1 := by
  induction l with
  | nil => rfl
  | cons a l ih =>
    cases l with
    | nil => rfl
    | cons b l => simp only [Holes.gaps, List.length_cons, ih]; omega

/-- **C149** There are as many holes as ranges, less one if the first range begins at offset 0. -/
theorem C149_holes (hist : List AddCall) (from0 : ∀ c ∈ hist, c.start < c.stop → 0 ≤ c.start) :
    (Received hist 0 → Holes.lenholes (Holes.run hist) + 1 = (Holes.run hist).length) ∧
    (¬ Received hist 0 → Holes.lenholes (Holes.run hist) = (Holes.run hist).length) := by
  have hc := C02_canonical hist
  have got := C01_received_exactly hist 0
  have ends := C149_ends hist
  generalize Holes.run hist = l at *
  unfold Holes.lenholes Holes.getholes
  cases l with
  | nil => exact ⟨fun h => absurd (got.2 h) (Covers_nil _), fun _ => rfl⟩
  | cons a l =>
    have z : a.start = 0 ↔ Received hist 0 := by
      rw [← got]
      obtain ⟨⟨c, hm, e, lt⟩, -⟩ := ends a (List.mem_cons_self ..)
      have := from0 c hm lt
      constructor
      · intro h
        exact ⟨a, List.mem_cons_self .., by omega, by have := hc.1 a (List.mem_cons_self ..); omega⟩
      · rintro ⟨b, hb, h1, h2⟩
        rcases List.mem_cons.1 hb with rfl | hb
        · omega
        · have := (List.pairwise_cons.1 hc.2).1 b hb
          have := hc.1 a (List.mem_cons_self ..)
          omega
    by_cases h : a.start = 0
    · simp [h, z.1 h, gaps_length]
    · have h' : ¬ Received hist 0 := fun x => h (z.2 x)
      simp [h, h', gaps_length]

/-- Five calls, of which one brings nothing, one joins two ranges, and one stays apart. -/
example (s : GoSort) :
    let hist : List AddCall := [⟨s, 0, 10⟩, ⟨s, 20, 30⟩, ⟨s, 10, 20⟩, ⟨s, 40, 50⟩, ⟨s, 7, 3⟩]
    (∀ c ∈ hist, c.start < c.stop → 0 ≤ c.start) ∧ Holes.run hist ≠ [] ∧ ∀ x, Received hist x → 0 ≤ x ∧ x < 50 := by
  intro hist
  have inside : ∀ x, Received hist x → 0 ≤ x ∧ x < 50 := by
    rintro x ⟨c, hc, h1, h2⟩
    simp only [hist, List.mem_cons, List.not_mem_nil, or_false] at hc
    rcases hc with rfl | rfl | rfl | rfl | rfl <;> simp only at h1 h2 <;> omega
  refine ⟨?_, fun h => ?_, inside⟩
  · intro c hc
    simp only [hist, List.mem_cons, List.not_mem_nil, or_false] at hc
    rcases hc with rfl | rfl | rfl | rfl | rfl <;> simp
  · have := (C01_received_exactly hist 5).2 ⟨⟨s, 0, 10⟩, by simp [hist], by simp, by simp⟩
    rw [h] at this
    exact Covers_nil _ this

end Saratoga
