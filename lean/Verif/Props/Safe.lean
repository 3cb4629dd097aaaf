import Verif.Props.Files
/-!
# Exact conditions: names that stay below the shared directory
-/
namespace Saratoga

/-- Where one name leads. -/
private def go (cur : Loc) (c : Name) : Loc :=
  if c = [] ∨ c = [dot] then cur else if c = [dot, dot] then cur.dropLast else cur ++ [c]

/-- The places a walk passes through, the end included. -/
private def places : Loc → List Name → List Loc
  | cur, [] => [cur]
  | cur, c :: cs => cur :: places (go cur c) cs

/-- A file system of directories only. -/
private def folders (ls : List Loc) : FS := ⟨ls.map fun l => (l, .dir), [], fun _ _ => false⟩

private theorem folders_node {ls : List Loc} {l : Loc} (h : l ∈ ls) : (folders ls).node l = some .dir := by
  unfold FS.node folders
  simp only
  induction ls with
  | nil => exact absurd h (by simp)
  | cons a as ih =>
    simp only [List.map_cons, List.find?_cons]
    by_cases e : a = l
    · simp [e]
    · simp only [e, decide_false]
      exact ih ((List.mem_cons.1 h).resolve_left (fun x => e x.symm))

private theorem walk_folders (fs : FS) (cur : Loc) (names : List Name)
    (all : ∀ l ∈ places cur names, fs.node l = some .dir) : fs.walk cur names = some (names.foldl go cur) := by
  induction names generalizing cur with
  | nil => rfl
  | cons c cs ih =>
    simp only [FS.walk]
    rw [if_pos (all cur (by simp [places]))]
    exact ih (go cur c) (fun l hl => all l (by simp [places, hl]))

private theorem end_mem (cur : Loc) (names : List Name) : names.foldl go cur ∈ places cur names := by
  induction names generalizing cur with
  | nil => simp [places]
  | cons c cs ih => simp only [List.foldl_cons, places]; exact List.mem_cons_of_mem _ (ih _)

private theorem places_append (cur : Loc) (xs ys : List Name) :
    ∀ l ∈ places (xs.foldl go cur) ys, l ∈ places cur (xs ++ ys) := by
  induction xs generalizing cur with
  | nil => intro l h; exact h
  | cons x xs ih => intro l h; exact List.mem_cons_of_mem _ (ih (go cur x) l h)

private theorem ups_snoc (xs : List Name) (x : Name) :
    ((xs ++ [x]).filter fun c => c = [dot, dot]).length =
      (xs.filter fun c => c = [dot, dot]).length + if x = [dot, dot] then 1 else 0 := by
  rw [List.filter_append, List.length_append]
  by_cases h : x = [dot, dot] <;> simp [h]

private theorem reals_snoc (xs : List Name) (x : Name) :
    ((xs ++ [x]).filter fun c => c ≠ [] ∧ c ≠ [dot] ∧ c ≠ [dot, dot]).length =
      (xs.filter fun c => c ≠ [] ∧ c ≠ [dot] ∧ c ≠ [dot, dot]).length +
        if x ≠ [] ∧ x ≠ [dot] ∧ x ≠ [dot, dot] then 1 else 0 := by
  rw [List.filter_append, List.length_append]
  by_cases h : x ≠ [] ∧ x ≠ [dot] ∧ x ≠ [dot, dot]
  · rw [if_pos h]; simp [h]
  · rw [if_neg h, List.filter_cons, if_neg (by simpa using h)]; rfl

private theorem snoc_stays {xs : List Name} {x : Name} (hs : StaysBelow xs)
    (h : ((xs ++ [x]).filter fun c => c = [dot, dot]).length ≤
      ((xs ++ [x]).filter fun c => c ≠ [] ∧ c ≠ [dot] ∧ c ≠ [dot, dot]).length) : StaysBelow (xs ++ [x]) := by
  intro p hp
  rcases List.prefix_concat_iff.1 hp with e | e
  · rw [e]; exact h
  · exact hs p e

/-- Names that stay below keep the start, others lose it for good when it is not among them. -/
private theorem climbs (z : Name) (names : List Name) (fresh : z ∉ names) :
    (StaysBelow names → ∃ rest, names.foldl go [z] = z :: rest ∧
      rest.length + (names.filter fun c => c = [dot, dot]).length =
        (names.filter fun c => c ≠ [] ∧ c ≠ [dot] ∧ c ≠ [dot, dot]).length) ∧
    (¬ StaysBelow names → (names.foldl go [z]).head? ≠ some z) := by
  induction names using snoc_induction' with
  | nil =>
    refine ⟨fun _ => ⟨[], rfl, rfl⟩, fun h => ?_⟩
    exact absurd (fun p hp => by rw [List.prefix_nil.1 hp]; simp) h
  | snoc xs x ih =>
    obtain ⟨ih1, ih2⟩ := ih (fun h => fresh (List.mem_append_left _ h))
    have xz : x ≠ z := fun e => fresh (by simp [e])
    have fold : (xs ++ [x]).foldl go [z] = go (xs.foldl go [z]) x := by simp
    rw [fold]
    by_cases hxs : StaysBelow xs
    · obtain ⟨rest, e, len⟩ := ih1 hxs
      rw [e]
      by_cases h1 : x = [] ∨ x = [dot]
      · have c1 : x ≠ [dot, dot] := by rcases h1 with h | h <;> subst h <;> decide
        have c2 : ¬ (x ≠ [] ∧ x ≠ [dot] ∧ x ≠ [dot, dot]) := by rcases h1 with h | h <;> subst h <;> decide
        have l1 := ups_snoc xs x
        have l2 := reals_snoc xs x
        rw [if_neg c1] at l1
        rw [if_neg c2] at l2
        simp only [Nat.add_zero] at l1 l2
        have stays : StaysBelow (xs ++ [x]) := snoc_stays hxs (by rw [l1, l2]; omega)
        refine ⟨fun _ => ⟨rest, by simp only [go, if_pos h1], by rw [l1, l2]; exact len⟩, fun h => absurd stays h⟩
      · by_cases h2 : x = [dot, dot]
        · have l1 := ups_snoc xs x
          have l2 := reals_snoc xs x
          rw [if_pos h2] at l1
          rw [if_neg (fun h => h.2.2 h2)] at l2
          simp only [Nat.add_zero] at l1 l2
          cases rest with
          | nil =>
            simp only [List.length_nil, Nat.zero_add] at len
            refine ⟨fun h => ?_, fun _ => ?_⟩
            · have := h _ (List.prefix_refl _)
              rw [l1, l2] at this
              omega
            · subst h2; simp [go, dot]
          | cons r rs =>
            simp only [List.length_cons] at len
            have stays : StaysBelow (xs ++ [x]) := snoc_stays hxs (by rw [l1, l2]; omega)
            refine ⟨fun _ => ⟨(r :: rs).dropLast, ?_, ?_⟩, fun h => absurd stays h⟩
            · rw [go, if_neg h1, if_pos h2]; rfl
            · rw [l1, l2, List.length_dropLast, List.length_cons]; omega
        · have l1 := ups_snoc xs x
          have l2 := reals_snoc xs x
          rw [if_neg h2] at l1
          rw [if_pos (⟨fun h => h1 (.inl h), fun h => h1 (.inr h), h2⟩ :
            x ≠ [] ∧ x ≠ [dot] ∧ x ≠ [dot, dot])] at l2
          simp only [Nat.add_zero] at l1 l2
          have stays : StaysBelow (xs ++ [x]) := snoc_stays hxs (by rw [l1, l2]; omega)
          refine ⟨fun _ => ⟨rest ++ [x], ?_, ?_⟩, fun h => absurd stays h⟩
          · rw [go, if_neg h1, if_neg h2]; rfl
          · rw [l1, l2, List.length_append, List.length_singleton]; omega
    · have lost := ih2 hxs
      refine ⟨fun h => absurd (staysBelow_snoc h) hxs, fun _ => ?_⟩
      generalize xs.foldl go [z] = m at lost
      unfold go
      split
      · exact lost
      · split
        · cases m with
          | nil => simp
          | cons a as =>
            cases as with
            | nil => simp
            | cons b bs => simpa using lost
        · cases m with
          | nil => simpa using xz
          | cons a as => simpa using lost

private theorem splitSlash_short (s : List Byte) : ∀ c ∈ splitSlash s, c.length ≤ s.length := by
  induction s with
  | nil => simp [splitSlash]
  | cons b bs ih =>
    intro c hc
    simp only [splitSlash] at hc
    split at hc
    · rcases List.mem_cons.1 hc with e | e
      · rw [e]; simp
      · have := ih c e; simp only [List.length_cons]; omega
    · cases h : splitSlash bs with
      | nil =>
        rw [h] at hc
        simp only [List.mem_singleton] at hc
        rw [hc]; simp
      | cons p ps =>
        rw [h] at hc ih
        rcases List.mem_cons.1 hc with e | e
        · rw [e]; have := ih p (by simp); simp only [List.length_cons]; omega
        · have := ih c (by simp [e]); simp only [List.length_cons]; omega

private theorem splitSlash_plain (n : Nat) : splitSlash (List.replicate n 0x7A#8) = [List.replicate n 0x7A#8] := by
  induction n with
  | zero => rfl
  | succ n ih =>
    rw [List.replicate_succ, splitSlash, if_neg (by decide), ih]

/-- **C58** exactly: the file names that lead below the shared directory on every computer are those that never climb
above their start. For any other name there are directories such that a peer is told of something elsewhere. -/
theorem C58_safe_iff (fname : List Byte) :
    (StaysBelow (splitSlash fname) ↔
      ∀ (fs : FS) (sardir : List Byte) (d l : Loc), sardir ≠ [] → fs.locate sardir = some d →
        fs.locate (fullName sardir fname) = some l → d <+: l) ∧
    (¬ StaysBelow (splitSlash fname) → ∃ (fs : FS) (sardir : List Byte) (d l : Loc), fs.locate sardir = some d ∧
      fs.node d = some .dir ∧ fs.locate (fullName sardir fname) = some l ∧ ¬ d <+: l ∧
      fileExists sardir fs fname = true) := by
  have out : ¬ StaysBelow (splitSlash fname) → ∃ (fs : FS) (sardir : List Byte) (d l : Loc), sardir ≠ [] ∧
      fs.locate sardir = some d ∧ fs.node d = some .dir ∧ fs.locate (fullName sardir fname) = some l ∧ ¬ d <+: l ∧
      fileExists sardir fs fname = true := by
    intro bad
    let z : Name := List.replicate (fname.length + 1) 0x7A#8
    have zlen : z.length = fname.length + 1 := List.length_replicate
    have fresh : z ∉ splitSlash fname := fun h => by
      have := splitSlash_short fname z h
      omega
    have lost := (climbs z _ fresh).2 bad
    have zgo : go [] z = [z] := by
      unfold go
      have h1 : ¬ (z = [] ∨ z = [dot]) := by
        rintro (h | h)
        · exact absurd (congrArg List.length h) (by rw [zlen]; simp)
        · have : z.head? = some dot := by rw [h]; rfl
          simp [z, List.replicate_succ, dot] at this
      have h2 : z ≠ [dot, dot] := by
        intro h
        have : z.head? = some dot := by rw [h]; rfl
        simp [z, List.replicate_succ, dot] at this
      rw [if_neg h1, if_neg h2]; rfl
    let fs := folders (places [] (z :: splitSlash fname))
    have all : ∀ l ∈ places [] (z :: splitSlash fname), fs.node l = some .dir := fun l h => folders_node h
    have zmem : ∀ l ∈ places [z] (splitSlash fname), l ∈ places [] (z :: splitSlash fname) := by
      intro l h
      refine List.mem_cons_of_mem _ ?_
      rw [zgo]; exact h
    have first : [z] ∈ places [z] (splitSlash fname) := by
      cases splitSlash fname <;> simp [places]
    have loc1 : fs.locate (slash :: z) = some [z] := by
      have : fs.locate (slash :: z) = fs.walk [] (splitSlash z) := by
        simp only [FS.locate, if_true]
      rw [this, splitSlash_plain, walk_folders fs [] [z]]
      · simp only [List.foldl_cons, List.foldl_nil, zgo]
      · intro l h
        simp only [places, zgo, List.mem_cons, List.not_mem_nil, or_false] at h
        rcases h with h | h
        · exact all l (by rw [h]; simp [places])
        · exact all l (by rw [h]; exact zmem _ first)
    have loc2 : fs.locate (fullName (slash :: z) fname) = some ((splitSlash fname).foldl go [z]) := by
      rw [locate_fullName fs _ _ (by simp), loc1]
      exact walk_folders fs [z] _ (fun l h => all l (zmem l h))
    have atEnd : fs.node ((splitSlash fname).foldl go [z]) = some .dir := all _ (zmem _ (end_mem _ _))
    refine ⟨fs, slash :: z, [z], _, by simp, loc1, all _ (zmem _ first), loc2, ?_, ?_⟩
    · rintro ⟨t, ht⟩
      exact lost (by rw [← ht]; rfl)
    · unfold fileExists FS.stat
      rw [loc2]
      have : fs.refuses .stat ((splitSlash fname).foldl go [z]) = false := rfl
      simp only [this, atEnd]
      rfl
  refine ⟨⟨fun hs fs sardir d l hne hd hl => ?_, fun h => Classical.byContradiction fun bad => ?_⟩, fun bad => ?_⟩
  · rw [locate_fullName fs sardir fname hne, hd] at hl
    exact (walk_below fs d _ hs l hl).1
  · obtain ⟨fs, sardir, d, l, hne, hd, _, hl, no, _⟩ := out bad
    exact no (h fs sardir d l hne hd hl)
  · obtain ⟨fs, sardir, d, l, _, hd, dd, hl, no, ex⟩ := out bad
    exact ⟨fs, sardir, d, l, hd, dd, hl, no, ex⟩

/-- `../x` is a name that does not stay below. -/
example : ¬ StaysBelow (splitSlash [dot, dot, slash, 0x78#8]) := by
  intro h
  have e : splitSlash [dot, dot, slash, 0x78#8] = [[dot, dot], [0x78#8]] := by decide +kernel
  have := h [[dot, dot]] (by rw [e]; exact ⟨[[0x78#8]], rfl⟩)
  exact absurd this (by decide)

end Saratoga
