import Verif.Spec.Prompt
/-! # Helper lemmas about command lines -/
namespace Saratoga

theorem isSpace_iff (c : Char) : isSpace c = true ↔ c.toNat ∈ blankCodes := by
  simp only [isSpace, blankCodes, Bool.or_eq_true, Bool.and_eq_true, decide_eq_true_eq, beq_iff_eq, List.mem_cons,
    List.not_mem_nil, or_false]
  omega

theorem isSpace_false_iff (c : Char) : isSpace c = false ↔ c.toNat ∉ blankCodes := by
  rw [← isSpace_iff, Bool.not_eq_true]

theorem fields_blank {b : List Char} (hb : Blank b) (rest : List Char) :
    fieldsLoop [] (b ++ rest) = fieldsLoop [] rest := by
  induction b with
  | nil => rfl
  | cons c cs ih =>
    have hc := (isSpace_iff c).2 (hb c (by simp))
    simp only [List.cons_append, fieldsLoop, hc, if_true]
    exact ih (fun x hx => hb x (by simp [hx]))

theorem fields_word {w : List Char} (hw : ∀ c ∈ w, c.toNat ∉ blankCodes) (cur rest : List Char) :
    fieldsLoop cur (w ++ rest) = fieldsLoop (cur ++ w) rest := by
  induction w generalizing cur with
  | nil => simp
  | cons c cs ih =>
    have hc := (isSpace_false_iff c).2 (hw c (by simp))
    simp only [List.cons_append, fieldsLoop, hc, Bool.false_eq_true, if_false]
    rw [ih (fun x hx => hw x (by simp [hx]))]
    simp

theorem fields_sep {s : List Char} (hs : Blank s) (ne : s ≠ []) {cur : List Char} (hc : cur ≠ [])
    (rest : List Char) : fieldsLoop cur (s ++ rest) = cur :: fieldsLoop [] rest := by
  match s, ne with
  | c :: cs, _ =>
    have h := (isSpace_iff c).2 (hs c (by simp))
    simp only [List.cons_append, fieldsLoop, h, if_true, if_neg hc]
    rw [fields_blank (fun x hx => hs x (by simp [hx]))]

theorem fields_end {e : List Char} (he : Blank e) {cur : List Char} (hc : cur ≠ []) :
    fieldsLoop cur e = [cur] := by
  by_cases h : e = []
  · subst h; simp [fieldsLoop, hc]
  · have := fields_sep he h hc []
    rw [List.append_nil] at this
    rw [this]; rfl

theorem fields_reads {l : List Char} {ws : List (List Char)} (h : Reads l ws) : fields l = ws := by
  unfold fields
  induction h with
  | empty hb => have := fields_blank hb []; rw [List.append_nil] at this; rw [this]; rfl
  | last hb hw he =>
    rw [List.append_assoc, fields_blank hb, fields_word hw.2, List.nil_append, fields_end he hw.1]
  | cons hb hw hs ne _ ih =>
    rw [List.append_assoc, List.append_assoc, fields_blank hb, fields_word hw.2, List.nil_append,
      fields_sep hs ne hw.1, ih]

/-- Every line reads as some words. -/
theorem reads_exists (l : List Char) : ∃ ws, Reads l ws := by
  have nil : Blank [] := fun c hc => by simp at hc
  induction l with
  | nil => exact ⟨[], .empty nil⟩
  | cons c cs ih =>
    obtain ⟨ws, h⟩ := ih
    cases hc : isSpace c with
    | true =>
      rw [isSpace_iff] at hc
      have add : ∀ {b : List Char}, Blank b → Blank (c :: b) := by
        intro b hb x hx
        rcases List.mem_cons.1 hx with rfl | hx
        · exact hc
        · exact hb x hx
      cases h with
      | empty hb => exact ⟨[], .empty (add hb)⟩
      | last hb hw he => exact ⟨_, .last (add hb) hw he⟩
      | cons hb hw hs ne hr => exact ⟨_, .cons (add hb) hw hs ne hr⟩
    | false =>
      rw [isSpace_false_iff] at hc
      have one : Word [c] := ⟨by simp, by simp [hc]⟩
      have add : ∀ {w : List Char}, Word w → Word (c :: w) := by
        intro w hw
        refine ⟨by simp, fun x hx => ?_⟩
        rcases List.mem_cons.1 hx with rfl | hx
        · exact hc
        · exact hw.2 x hx
      cases h with
      | empty hb => exact ⟨_, .last nil one hb⟩
      | @last b w e hb hw he =>
        by_cases hb0 : b = []
        · subst hb0; exact ⟨_, .last nil (add hw) he⟩
        · have := Reads.cons nil one hb hb0 (Reads.last nil hw he)
          simp only [List.nil_append, List.singleton_append] at this
          simp only [List.append_assoc, List.cons_append] at this ⊢
          exact ⟨_, this⟩
      | @cons b w s rest v ws hb hw hs ne hr =>
        by_cases hb0 : b = []
        · subst hb0; exact ⟨_, .cons nil (add hw) hs ne hr⟩
        · have := Reads.cons nil one hb hb0 (Reads.cons nil hw hs ne hr)
          simp only [List.nil_append, List.singleton_append] at this
          simp only [List.append_assoc, List.cons_append] at this ⊢
          exact ⟨_, this⟩

theorem fields_trail {e : List Char} (he : Blank e) (cur l : List Char) :
    fieldsLoop cur (l ++ e) = fieldsLoop cur l := by
  induction l generalizing cur with
  | nil =>
    by_cases hc : cur = []
    · subst hc
      have := fields_blank he []
      rw [List.append_nil] at this
      rw [List.nil_append, this]
    · rw [List.nil_append, fields_end he hc]; simp [fieldsLoop, hc]
  | cons c cs ih =>
    simp only [List.cons_append, fieldsLoop, ih]

theorem blank_takeWhile (l : List Char) : Blank (l.takeWhile isSpace) := fun c hc =>
  (isSpace_iff c).1 (List.all_eq_true.1 (List.all_takeWhile (p := isSpace) (l := l)) c hc)

theorem fields_trim (l : List Char) : fields (trimSpace l) = fields l := by
  have h1 : fieldsLoop [] l = fieldsLoop [] (l.dropWhile isSpace) := by
    conv => lhs; rw [← List.takeWhile_append_dropWhile (p := isSpace) (l := l)]
    exact fields_blank (blank_takeWhile l) _
  unfold fields trimSpace
  rw [h1]
  generalize l.dropWhile isSpace = m
  have h2 : m = (m.reverse.dropWhile isSpace).reverse ++ (m.reverse.takeWhile isSpace).reverse := by
    rw [← List.reverse_append, List.takeWhile_append_dropWhile, List.reverse_reverse]
  conv => rhs; rw [h2]
  rw [fields_trail]
  intro c hc
  exact blank_takeWhile m.reverse c (List.mem_reverse.1 hc)

theorem reads_nil_iff {l : List Char} : Reads l [] ↔ Blank l :=
  ⟨fun h => by cases h; assumption, .empty⟩

theorem reads_fields (l : List Char) : Reads l (fields l) := by
  obtain ⟨ws, h⟩ := reads_exists l
  rw [fields_reads h]; exact h

theorem fields_nil_iff {l : List Char} : fields l = [] ↔ Blank l := by
  constructor
  · intro h; have := reads_fields l; rw [h] at this; exact reads_nil_iff.1 this
  · intro h; exact fields_reads (.empty h)

theorem afterColon_some {p t : List Char} (h : ':' ∉ p) : afterColon (p ++ ':' :: t) = some t := by
  induction p with
  | nil => simp [afterColon]
  | cons c cs ih =>
    simp only [List.mem_cons, not_or] at h
    simp only [List.cons_append, afterColon, if_neg (Ne.symm h.1)]
    exact ih h.2

theorem afterColon_none {l : List Char} : afterColon l = none ↔ ':' ∉ l := by
  induction l with
  | nil => simp [afterColon]
  | cons c cs ih =>
    simp only [afterColon]
    split
    · rename_i h; subst h; simp
    · rename_i h
      rw [ih]
      simp [Ne.symm h]

end Saratoga
