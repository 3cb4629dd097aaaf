import Verif.Spec.Global
import Verif.Lemmas.FlagText
import Verif.Lemmas.New
/-! # Helper lemmas about `Setglobal` -/
namespace Saratoga

theorem setglobalInner_eq (f fs : String) (gl rest : List (String × String))
    (hn : rest.Pairwise (fun a b => a.1 ≠ b.1)) :
    setglobalInner f fs gl rest =
      match assoc f rest with
      | none => fs
      | some _ => fs ++ f ++ "=" ++ (assoc f gl).getD "" ++ "," := by
  induction rest generalizing fs with
  | nil => rfl
  | cons p t ih =>
    obtain ⟨g, w⟩ := p
    rw [List.pairwise_cons] at hn
    have ha : assoc f ((g, w) :: t) = if g = f then some w else assoc f t := rfl
    rw [ha]
    unfold setglobalInner
    by_cases e : g = f
    · subst e
      simp only [if_true]
      rw [ih _ hn.2]
      cases hb : assoc g t with
      | none => rfl
      | some v => exact absurd rfl (hn.1 (g, v) (assoc_mem hb))
    · simp only [e, if_false]
      rw [ih _ hn.2]

/-- The text before the last comma is trimmed. -/
def joined : List (String × String) → String
  | [] => ""
  | (n, v) :: ps => n ++ "=" ++ v ++ "," ++ joined ps

theorem setglobal_fold (gl : List (String × String)) (hn : gl.Pairwise (fun a b => a.1 ≠ b.1))
    (fields : List String) (fs : String) :
    fields.foldl (fun fs f => setglobalInner f fs gl gl) fs =
      fs ++ joined (fields.filterMap fun f => (assoc f gl).map fun v => (f, v)) := by
  induction fields generalizing fs with
  | nil => simp [joined]
  | cons f t ih =>
    rw [List.foldl_cons, ih, setglobalInner_eq _ _ _ _ hn]
    cases h : assoc f gl with
    | none => simp [h]
    | some v => simp [h, joined, String.append_assoc]

theorem joined_eq {ps : List (String × String)} (hne : ps ≠ []) : joined ps = render ps ++ "," := by
  induction ps with
  | nil => exact absurd rfl hne
  | cons p ps ih =>
    obtain ⟨n, v⟩ := p
    cases ps with
    | nil => simp [joined, render]
    | cons q qs =>
      have ih := ih (by simp)
      simp only [joined] at ih ⊢
      rw [ih]
      simp [render, String.append_assoc]

theorem render_last {ps : List (String × String)} (h : PlainPairs ps) (hne : ps ≠ []) :
    ∃ pre c, (render ps).toList = pre ++ [c] ∧ c ≠ ',' := by
  induction ps with
  | nil => exact absurd rfl hne
  | cons p ps ih =>
    obtain ⟨n, v⟩ := p
    have hp := h (n, v) (by simp)
    cases ps with
    | nil =>
      rcases List.eq_nil_or_concat v.toList with hv | ⟨pre, c, hv⟩
      · refine ⟨n.toList, '=', ?_, by decide⟩
        simp [render, hv]
      · refine ⟨n.toList ++ ['='] ++ pre, c, by simp [render, hv], ?_⟩
        exact (hp.2 c (by rw [hv]; simp)).1
    | cons q qs =>
      obtain ⟨pre, c, h1, h2⟩ := ih (fun p hp => h p (by simp [hp])) (by simp)
      refine ⟨n.toList ++ ['='] ++ v.toList ++ [','] ++ pre, c, ?_, h2⟩
      simp [render, h1]

theorem trimCommas_joined {ps : List (String × String)} (h : PlainPairs ps) :
    trimCommas (joined ps) = render ps := by
  cases ps with
  | nil => rfl
  | cons p ps =>
    rw [joined_eq (by simp)]
    obtain ⟨pre, c, h1, h2⟩ := render_last h (by simp)
    unfold trimCommas
    have : (render (p :: ps)).toList = pre ++ [c] := h1
    simp only [String.toList_append, this]
    rw [show (",":String).toList = [','] from rfl]
    simp only [List.reverse_append, List.reverse_cons, List.reverse_nil, List.nil_append,
      List.cons_append, List.dropWhile_cons, decide_true, if_true, h2, decide_false,
      Bool.false_eq_true, if_false, List.reverse_reverse]
    rw [← this, String.ofList_toList]

theorem setglobal_render {T : Tables} {ft : String} {gl : List (String × String)}
    (hn : gl.Pairwise (fun a b => a.1 ≠ b.1)) (hp : PlainPairs (settingsFor T ft gl)) :
    setglobal T ft gl = render (settingsFor T ft gl) := by
  unfold setglobal
  rw [setglobal_fold gl hn, show ∀ s : String, "" ++ s = s by simp]
  exact trimCommas_joined hp

theorem textParts_render {ps : List (String × String)} (h : PlainPairs ps) (hne : ps ≠ []) :
    textParts (render ps) = ps.map fun p => (p.1, some p.2) := by
  rw [textParts_eq, strSplit_render h hne, List.map_map]
  apply List.map_congr_left
  intro p hp
  have := h p hp
  simp only [Function.comp, strSplit_pair this.1 this.2, partOf]

theorem flagParts_render {ps : List (String × String)} (h : PlainPairs ps) (hne : ps ≠ []) :
    flagParts (render ps) = ps.map fun p => (p.1, some p.2) := by
  unfold flagParts
  rw [stripSpaces_render h, textParts_render h hne]

theorem trimCommas_render {ps : List (String × String)} (h : PlainPairs ps) :
    trimCommas (render ps) = render ps := by
  cases ps with
  | nil => rfl
  | cons p ps =>
    obtain ⟨pre, c, h1, h2⟩ := render_last h (by simp)
    unfold trimCommas
    rw [h1]
    simp only [List.reverse_append, List.reverse_cons, List.reverse_nil, List.nil_append,
      List.cons_append, List.dropWhile_cons, h2, decide_false,
      Bool.false_eq_true, if_false, List.reverse_reverse]
    rw [← h1, String.ofList_toList]

theorem flagPartsTrimmed_render {ps : List (String × String)} (h : PlainPairs ps) (hne : ps ≠ []) :
    flagPartsTrimmed (render ps) = ps.map fun p => (p.1, some p.2) := by
  unfold flagPartsTrimmed
  rw [stripSpaces_render h, trimCommas_render h, textParts_render h hne]

theorem settingsFor_mem {T : Tables} {ft f v : String} {gl : List (String × String)}
    (hn : gl.Pairwise (fun a b => a.1 ≠ b.1)) :
    (f, v) ∈ settingsFor T ft gl ↔ f ∈ values T ft ∧ (f, v) ∈ gl := by
  unfold settingsFor
  simp only [List.mem_filterMap, Option.map_eq_some_iff, Prod.mk.injEq]
  constructor
  · rintro ⟨g, hg, w, hw, rfl, rfl⟩
    exact ⟨hg, assoc_mem hw⟩
  · rintro ⟨h1, h2⟩
    exact ⟨f, h1, v, assoc_of_mem hn h2, rfl, rfl⟩

theorem lastValue_eq_some {f v : String} {ps : List (String × String)}
    (hm : (f, v) ∈ ps) (hu : ∀ w, (f, w) ∈ ps → w = v) : lastValue f ps = some v := by
  induction ps with
  | nil => cases hm
  | cons p t ih =>
    obtain ⟨g, w⟩ := p
    simp only [lastValue]
    by_cases ht : (f, v) ∈ t
    · rw [ih ht (fun w hw => hu w (by simp [hw]))]
    · have : (g, w) = (f, v) := by
        rcases List.mem_cons.1 hm with h | h
        · exact h.symm
        · exact absurd h ht
      cases this
      have hnone : lastValue f t = none := by
        cases hl : lastValue f t with
        | none => rfl
        | some x =>
          exfalso
          have : ∀ (t : List (String × String)) x, lastValue f t = some x → (f, x) ∈ t := by
            intro t
            induction t with
            | nil => intro x h; simp [lastValue] at h
            | cons q r ihr =>
              intro x h
              obtain ⟨a, b⟩ := q
              simp only [lastValue] at h
              cases hr : lastValue f r with
              | some y => rw [hr] at h; cases h; exact List.mem_cons_of_mem _ (ihr _ hr)
              | none =>
                rw [hr] at h
                simp only at h
                split at h
                · rename_i e; subst e; cases h; simp
                · cases h
          have hx := this t x hl
          have := hu x (by simp [hx])
          subst this
          exact ht hx
      simp [hnone]

theorem firstBad_ok {l : List Verdict} : firstBad l = .ok ↔ ∀ v ∈ l, v = .ok := by
  induction l with
  | nil => simp [firstBad]
  | cons v t ih =>
    unfold firstBad
    by_cases h : v = .ok
    · simp [h, ih]
    · simp [h]

end Saratoga
