import Verif.Model.Flags
import Verif.Spec.FlagText
/-! # Helper lemmas about splitting and joining flag text -/
namespace Saratoga

theorem splitChars_none {c : Char} {l : List Char} (h : c ∉ l) : splitChars c l = [l] := by
  induction l with
  | nil => rfl
  | cons x xs ih =>
    simp only [List.mem_cons, not_or] at h
    simp [splitChars, ih h.2, Ne.symm h.1]

theorem splitChars_sep {c : Char} {l r : List Char} (h : c ∉ l) :
    splitChars c (l ++ c :: r) = l :: splitChars c r := by
  induction l with
  | nil => simp [splitChars]
  | cons x xs ih =>
    simp only [List.mem_cons, not_or] at h
    simp [splitChars, ih h.2, Ne.symm h.1]

theorem strSplit_sep {c : Char} {a b : String} (h : c ∉ a.toList) :
    strSplit (a ++ String.ofList [c] ++ b) c = a :: strSplit b c := by
  simp [strSplit, splitChars_sep h]

theorem strSplit_none {c : Char} {a : String} (h : c ∉ a.toList) : strSplit a c = [a] := by
  simp [strSplit, splitChars_none h]

theorem Plain.comma {s : String} (h : Plain s) : ',' ∉ s.toList := fun hm => (h _ hm).1 rfl
theorem Plain.eq {s : String} (h : Plain s) : '=' ∉ s.toList := fun hm => (h _ hm).2.1 rfl
theorem Plain.blank {s : String} (h : Plain s) : ' ' ∉ s.toList := fun hm => (h _ hm).2.2 rfl

theorem strSplit_pair {n v : String} (hn : Plain n) (hv : Plain v) :
    strSplit (n ++ "=" ++ v) '=' = [n, v] := by
  have : ("=" : String) = String.ofList ['='] := rfl
  rw [this, strSplit_sep hn.eq, strSplit_none hv.eq]

theorem pair_comma {n v : String} (hn : Plain n) (hv : Plain v) : ',' ∉ (n ++ "=" ++ v).toList := by
  simp [hn.comma, hv.comma]

theorem strSplit_render {ps : List (String × String)} (h : PlainPairs ps) (hne : ps ≠ []) :
    strSplit (render ps) ',' = ps.map (fun p => p.1 ++ "=" ++ p.2) := by
  induction ps with
  | nil => exact absurd rfl hne
  | cons p ps ih =>
    obtain ⟨n, v⟩ := p
    have hp := h (n, v) (by simp)
    cases ps with
    | nil => simp [render, strSplit_none (pair_comma hp.1 hp.2)]
    | cons q qs =>
      have : ("," : String) = String.ofList [','] := rfl
      have ih := ih (fun p hp => h p (by simp [hp])) (by simp)
      show strSplit (n ++ "=" ++ v ++ "," ++ render (q :: qs)) ',' = _
      rw [this, strSplit_sep (pair_comma hp.1 hp.2), ih]
      rfl

theorem render_noblank {ps : List (String × String)} (h : PlainPairs ps) :
    ' ' ∉ (render ps).toList := by
  induction ps with
  | nil => simp [render]
  | cons p ps ih =>
    obtain ⟨n, v⟩ := p
    have hp := h (n, v) (by simp)
    cases ps with
    | nil => simp [render, hp.1.blank, hp.2.blank]
    | cons q qs =>
      have ih := ih (fun p hp => h p (by simp [hp]))
      simp [render, hp.1.blank, hp.2.blank, ih]

theorem stripSpaces_eq {s : String} (h : ' ' ∉ s.toList) : stripSpaces s = s := by
  unfold stripSpaces
  rw [List.filter_eq_self.2]
  · simp
  · intro c hc; simp; rintro rfl; exact h hc

theorem stripSpaces_render {ps : List (String × String)} (h : PlainPairs ps) :
    stripSpaces (render ps) = render ps := stripSpaces_eq (render_noblank h)

theorem render_ne_empty {ps : List (String × String)} (hne : ps ≠ []) : render ps ≠ "" := by
  intro h
  have h' : (render ps).toList = [] := by rw [h]; rfl
  match ps, hne with
  | [(n, v)], _ => simp [render] at h'
  | (n, v) :: p :: ps, _ => simp [render] at h'

theorem render_append {ps : List (String × String)} (hne : ps ≠ []) (n v : String) :
    render (ps ++ [(n, v)]) = render ps ++ "," ++ n ++ "=" ++ v := by
  induction ps with
  | nil => exact absurd rfl hne
  | cons p ps ih =>
    obtain ⟨m, w⟩ := p
    cases ps with
    | nil => simp [render, String.append_assoc]
    | cons q qs =>
      have ih := ih (by simp)
      simp only [List.cons_append] at ih ⊢
      simp only [render]
      rw [ih]
      simp [String.append_assoc]

theorem flagValueLoop_render {ps : List (String × String)} (h : PlainPairs ps) (n : String) :
    flagValueLoop n (ps.map (fun p => p.1 ++ "=" ++ p.2)) = .ret (lookupFirst n ps) := by
  induction ps with
  | nil => rfl
  | cons p ps ih =>
    obtain ⟨m, v⟩ := p
    have hp := h (m, v) (by simp)
    simp only [List.map_cons, flagValueLoop, strSplit_pair hp.1 hp.2, first, second, lookupFirst]
    split
    · rfl
    · exact ih (fun p hp => h p (by simp [hp]))

theorem addFlag_render {T : Tables} {n v : String} (hv : valid T n v = true)
    (ps : List (String × String)) :
    addFlag T (render ps) n v = .ret (render (ps ++ [(n, v)])) := by
  unfold addFlag
  rw [if_pos hv]
  cases ps with
  | nil => simp [render]
  | cons p ps =>
    rw [if_pos (render_ne_empty (by simp)), render_append (by simp)]

theorem addFlagD_render {T : Tables} {n v : String} (hv : validD T n v = true)
    (ps : List (String × String)) :
    addFlagD T (render ps) n v = .ret (render (ps ++ [(n, v)])) := by
  unfold addFlagD
  rw [if_pos hv]
  cases ps with
  | nil => simp [render]
  | cons p ps =>
    rw [if_pos (render_ne_empty (by simp)), render_append (by simp)]

theorem replaceLoop_render {add : String → String → String → Out String} {n v : String}
    {ok : String → String → Bool}
    (hadd : ∀ a b, ok a b = true → ∀ ps, add (render ps) a b = .ret (render (ps ++ [(a, b)])))
    (hnv : ok n v = true) (ps : List (String × String)) (h : PlainPairs ps)
    (hok : ∀ p ∈ ps, ok p.1 p.2 = true)
    (acc : List (String × String)) (b : Bool) :
    replaceLoop add n v (ps.map (fun p => p.1 ++ "=" ++ p.2)) (render acc) b =
      .ret (render (acc ++ ps.map (fun p => if p.1 = n then (n, v) else p)),
        b || decide (n ∈ ps.map (·.1))) := by
  induction ps generalizing acc b with
  | nil => simp [replaceLoop]
  | cons p ps ih =>
    obtain ⟨m, w⟩ := p
    have hp := h (m, w) (by simp)
    have hpo := hok (m, w) (by simp)
    have ih := ih (fun p hp => h p (by simp [hp])) (fun p hp => hok p (by simp [hp]))
    simp only [List.map_cons, replaceLoop, strSplit_pair hp.1 hp.2, first, second]
    by_cases e : m = n
    · subst e
      simp only [if_true, hadd _ _ hnv, Out.ret_bind, ih]
      simp
    · simp only [e, if_false, Out.ret_bind, hadd _ _ hpo, ih]
      have hnm : n ≠ m := Ne.symm e
      have : (n ∈ m :: ps.map (·.1)) = (n ∈ ps.map (·.1)) := by
        rw [List.mem_cons]; simp only [hnm, false_or]
      simp only [this, List.append_assoc, List.cons_append, List.nil_append]

theorem replacePairs_map_not_mem {n v : String} {ps : List (String × String)}
    (h : n ∉ ps.map (·.1)) : ps.map (fun p => if p.1 = n then (n, v) else p) = ps := by
  induction ps with
  | nil => rfl
  | cons p ps ih =>
    simp only [List.map_cons, List.mem_cons, not_or] at h
    simp [Ne.symm h.1, ih h.2]

theorem replaceFlag_render {T : Tables} {n v : String} (hnv : valid T n v = true)
    {ps : List (String × String)} (h : PlainPairs ps) (hne : ps ≠ [])
    (hok : ∀ p ∈ ps, valid T p.1 p.2 = true) :
    replaceFlag T (render ps) n v = .ret (render (replacePairs n v ps)) := by
  have := replaceLoop_render (add := addFlag T) (ok := valid T)
    (fun a b hab ps => addFlag_render hab ps) hnv ps h hok [] false
  unfold replaceFlag
  rw [strSplit_render h hne]
  simp only [render, List.nil_append, Bool.false_or] at this
  rw [this]
  unfold replacePairs
  by_cases hm : n ∈ ps.map (·.1)
  · simp only [Out.ret_bind, hm]; simp
  · simp only [Out.ret_bind, hm, decide_false, Bool.not_false, if_true, if_false]
    rw [replacePairs_map_not_mem hm]
    exact addFlag_render hnv ps

theorem replaceFlagD_render {T : Tables} {n v : String} (hnv : validD T n v = true)
    {ps : List (String × String)} (h : PlainPairs ps) (hne : ps ≠ [])
    (hok : ∀ p ∈ ps, validD T p.1 p.2 = true) :
    replaceFlagD T (render ps) n v = .ret (render (replacePairs n v ps)) := by
  have := replaceLoop_render (add := addFlagD T) (ok := validD T)
    (fun a b hab ps => addFlagD_render hab ps) hnv ps h hok [] false
  unfold replaceFlagD
  rw [strSplit_render h hne]
  simp only [render, List.nil_append, Bool.false_or] at this
  rw [this]
  unfold replacePairs
  by_cases hm : n ∈ ps.map (·.1)
  · simp only [Out.ret_bind, hm]; simp
  · simp only [Out.ret_bind, hm, decide_false, Bool.not_false, if_true, if_false]
    rw [replacePairs_map_not_mem hm]
    exact addFlagD_render hnv ps

theorem flagValue_render {ps : List (String × String)} (h : PlainPairs ps) (hne : ps ≠ [])
    (s : String) (hs : stripSpaces s = render ps) (n : String) :
    flagValue s n = .ret (lookupFirst n ps) := by
  unfold flagValue
  rw [hs, strSplit_render h hne, flagValueLoop_render h]

theorem PlainPairs.replace {n v : String} (hn : Plain n) (hv : Plain v)
    {ps : List (String × String)} (h : PlainPairs ps) : PlainPairs (replacePairs n v ps) := by
  unfold replacePairs
  split
  · intro p hp
    simp only [List.mem_map] at hp
    obtain ⟨q, hq, rfl⟩ := hp
    split
    · exact ⟨hn, hv⟩
    · exact h q hq
  · intro p hp
    simp only [List.mem_append, List.mem_singleton] at hp
    rcases hp with hp | rfl
    · exact h p hp
    · exact ⟨hn, hv⟩

theorem replacePairs_ne {n v : String} {ps : List (String × String)} (hne : ps ≠ []) :
    replacePairs n v ps ≠ [] := by
  unfold replacePairs; split <;> simp [hne]

theorem lookupFirst_replace_same (n v : String) (ps : List (String × String)) :
    lookupFirst n (replacePairs n v ps) = v := by
  unfold replacePairs
  split
  · rename_i hm
    induction ps with
    | nil => simp at hm
    | cons p ps ih =>
      by_cases e : p.1 = n
      · simp [lookupFirst, e]
      · simp only [List.map_cons, List.mem_cons, Ne.symm e, false_or] at hm
        simp [lookupFirst, e, ih hm]
  · rename_i hm
    induction ps with
    | nil => simp [lookupFirst]
    | cons p ps ih =>
      simp only [List.map_cons, List.mem_cons, not_or] at hm
      simp [lookupFirst, Ne.symm hm.1, ih hm.2]

theorem lookupFirst_replace_other {n m : String} (v : String) (hnm : m ≠ n)
    (ps : List (String × String)) :
    lookupFirst m (replacePairs n v ps) = lookupFirst m ps := by
  unfold replacePairs
  split
  · rename_i hm
    clear hm
    induction ps with
    | nil => rfl
    | cons p ps ih =>
      by_cases e : p.1 = n
      · have : p.1 ≠ m := by rw [e]; exact Ne.symm hnm
        simp [lookupFirst, e, ih, Ne.symm hnm]
      · simp [lookupFirst, e, ih]
  · rename_i hm
    clear hm
    induction ps with
    | nil => simp [lookupFirst, Ne.symm hnm]
    | cons p ps ih => simp [lookupFirst, ih]

theorem replacePairs_twice (n v w : String) (ps : List (String × String)) :
    replacePairs n w (replacePairs n v ps) = replacePairs n w ps := by
  by_cases hm : n ∈ ps.map (·.1)
  · have h1 : replacePairs n v ps = ps.map (fun p => if p.1 = n then (n, v) else p) := by
      simp only [replacePairs, hm, if_true]
    have h2 : replacePairs n w ps = ps.map (fun p => if p.1 = n then (n, w) else p) := by
      simp only [replacePairs, hm, if_true]
    rw [h1, h2]
    have hm' : n ∈ (ps.map (fun p => if p.1 = n then (n, v) else p)).map (·.1) := by
      simp only [List.mem_map] at hm ⊢
      obtain ⟨q, hq, rfl⟩ := hm
      exact ⟨(q.1, v), ⟨q, hq, by simp⟩, rfl⟩
    unfold replacePairs
    rw [if_pos hm', List.map_map]
    apply List.map_congr_left
    intro p _
    by_cases e : p.1 = n <;> simp [e]
  · have h1 : replacePairs n v ps = ps ++ [(n, v)] := by
      simp only [replacePairs, hm, if_false]
    have h2 : replacePairs n w ps = ps ++ [(n, w)] := by
      simp only [replacePairs, hm, if_false]
    rw [h1, h2]
    unfold replacePairs
    rw [if_pos (by simp), List.map_append, replacePairs_map_not_mem hm]
    simp

end Saratoga
