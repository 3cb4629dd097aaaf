import Verif.Spec.PutRun
import Verif.Props.Resend
/-! # Lemmas on the goroutines of a put -/
namespace Saratoga

theorem putLoop_append {numbers : String → Bool} {a b : List PutEvent} (h : putLoop numbers a = none) :
    putLoop numbers (a ++ b) = putLoop numbers b := by
  induction a with
  | nil => rfl
  | cons e a ih =>
    cases e with
    | status w =>
      simp only [List.cons_append, putLoop] at h ⊢
      split
      · rename_i hn; rw [if_pos hn] at h; exact ih h
      · rename_i hn
        rw [if_neg hn] at h
        split
        · rename_i hs; rw [if_pos hs] at h; cases h
        · rename_i hs; rw [if_neg hs] at h; exact ih h
    | data w =>
      simp only [List.cons_append, putLoop] at h ⊢
      split
      · rename_i hs; rw [if_pos hs] at h; cases h
      · rename_i hs; rw [if_neg hs] at h; exact ih h
    | statusPos => exact ih h
    | dataPos => exact ih h

/-- What is always so of a put, started with `R` to do for `readstatus` and `S` for `senddata`. -/
structure PutInv (numbers : String → Bool) (R : List Act) (S : List String) (s : PutRun) : Prop where
  status : wordsOf R = s.took.filterMap PutEvent.status? ++ s.statuserr.toList ++ wordsOf s.reader
  data : S = s.took.filterMap PutEvent.data? ++ s.dataerr.toList ++ s.sender
  report : putLoop numbers s.took = match s.at_ with
    | .ended w => some w
    | _ => none
  errors : s.took.filterMap (PutEvent.errorWord numbers) = match s.at_ with
    | .ended w => [w]
    | _ => []
  handed : (if s.at_ = .hands then 1 else 0) + (if s.datapos then 1 else 0) ≤
    ((s.took.filterMap PutEvent.status?).filter numbers).length

theorem PutInv.init (numbers : String → Bool) (R : List Act) (S : List String) :
    PutInv numbers R S (PutRun.start R S) :=
  ⟨by simp [PutRun.start], by simp [PutRun.start], rfl, rfl, by simp [PutRun.start]⟩

/-- How much there is left to do at most. -/
def PutRun.left (s : PutRun) : Nat :=
  4 * s.reader.length + 2 * s.sender.length + (if s.statuserr.isSome then 3 else 0) + (if s.statuspos then 1 else 0) +
    (if s.datapos then 1 else 0) + (if s.dataerr.isSome then 1 else 0) + (if s.at_ = .hands then 2 else 0)

theorem putStep_left {numbers : String → Bool} {s t : PutRun} {m : PutMove} (h : s.step numbers m = some t) :
    t.left < s.left := by
  obtain ⟨pc, reader, sender, se, sp, dp, de, took⟩ := s
  cases m with
  | reads =>
    simp only [PutRun.step, PutRun.reads] at h
    cases reader with
    | nil => cases h
    | cons a rest =>
      cases a <;> simp only at h
      · cases se <;> simp at h
        subst h; simp [PutRun.left]; omega
      · cases sp <;> simp at h
        subst h; simp [PutRun.left]; omega
      · cases h; simp [PutRun.left]
      · cases h; simp [PutRun.left]
  | sends =>
    simp only [PutRun.step, PutRun.sends] at h
    cases sender with
    | nil => cases h
    | cons a rest =>
      cases de <;> simp at h
      subst h; simp [PutRun.left]; omega
  | takeStatus =>
    cases pc <;> cases se <;> simp only [PutRun.step] at h <;> try cases h
    split at h
    · cases h; simp [PutRun.left]; omega
    · split at h <;> cases h <;> simp [PutRun.left]
  | takeData =>
    cases pc <;> cases de <;> simp only [PutRun.step] at h <;> try cases h
    split at h <;> cases h <;> simp [PutRun.left]
  | takeStatusPos =>
    cases pc <;> cases sp <;> simp only [PutRun.step] at h <;> cases h
    simp [PutRun.left]
  | takeDataPos =>
    cases pc <;> cases dp <;> simp only [PutRun.step] at h <;> cases h
    simp [PutRun.left]
  | hand =>
    cases pc <;> cases dp <;> simp only [PutRun.step] at h <;> cases h
    simp [PutRun.left]
    omega

theorem putRun_left {numbers : String → Bool} {s t : PutRun} {ms : List PutMove} (h : s.run numbers ms = some t) :
    t.left + ms.length ≤ s.left := by
  induction ms generalizing s with
  | nil => cases h; simp
  | cons m ms ih =>
    simp only [PutRun.run] at h
    obtain ⟨u, hu, h⟩ := Option.bind_eq_some_iff.1 h
    have l := putStep_left hu
    have l' := ih h
    simp only [List.length_cons]; omega

theorem PutInv.step {numbers : String → Bool} {R : List Act} {S : List String} {s t : PutRun} {m : PutMove}
    (inv : PutInv numbers R S s) (h : s.step numbers m = some t) : PutInv numbers R S t := by
  obtain ⟨pc, reader, sender, se, sp, dp, de, took⟩ := s
  obtain ⟨h1, h2, h3, h5, h4⟩ := inv
  simp only at h1 h2 h3 h4 h5
  cases m with
  | reads =>
    simp only [PutRun.step, PutRun.reads] at h
    cases reader with
    | nil => cases h
    | cons a rest =>
      cases a with
      | word w =>
        simp only at h
        cases se with
        | some x => simp at h
        | none =>
          simp only [Option.isSome_none, Bool.false_eq_true, if_false, Option.some.injEq] at h
          subst h
          refine ⟨?_, h2, h3, h5, h4⟩
          · simpa [wordsOf, Act.word?, List.filterMap_cons] using h1
      | position p i =>
        simp only at h
        cases sp with
        | true => simp at h
        | false =>
          simp only [Bool.false_eq_true, if_false, Option.some.injEq] at h
          subst h
          refine ⟨?_, h2, h3, h5, h4⟩
          · simpa [wordsOf, Act.word?, List.filterMap_cons] using h1
      | metadata =>
        simp only [Option.some.injEq] at h
        subst h
        refine ⟨?_, h2, h3, h5, h4⟩
        · simpa [wordsOf, Act.word?, List.filterMap_cons] using h1
      | data d =>
        simp only [Option.some.injEq] at h
        subst h
        refine ⟨?_, h2, h3, h5, h4⟩
        · simpa [wordsOf, Act.word?, List.filterMap_cons] using h1
  | sends =>
    simp only [PutRun.step, PutRun.sends] at h
    cases sender with
    | nil => cases h
    | cons w rest =>
      simp only at h
      cases de with
      | some x => simp at h
      | none =>
        simp only [Option.isSome_none, Bool.false_eq_true, if_false, Option.some.injEq] at h
        subst h
        refine ⟨h1, ?_, h3, h5, h4⟩
        · simpa using h2
  | takeStatus =>
    simp only [PutRun.step] at h
    cases pc with
    | ended w => cases h
    | hands => cases h
    | waits =>
      cases se with
      | none => cases h
      | some w =>
        simp only at h h3 h5
        have e1 : wordsOf R = (took ++ [PutEvent.status w]).filterMap PutEvent.status? ++ (none : Option String).toList ++ wordsOf reader := by
          simpa [PutEvent.status?, List.filterMap_append, List.filterMap_cons] using h1
        have e2 : S = (took ++ [PutEvent.status w]).filterMap PutEvent.data? ++ de.toList ++ sender := by
          simpa [PutEvent.data?, List.filterMap_append, List.filterMap_cons] using h2
        split at h
        · rename_i hn
          cases h
          refine ⟨e1, e2, ?_, ?_, ?_⟩
          · simp only; rw [putLoop_append h3]; simp only [putLoop, if_pos hn]
          · simp [List.filterMap_append, h5, PutEvent.errorWord, hn]
          · simp [List.filterMap_append, PutEvent.status?, hn] at h4 ⊢; omega
        · rename_i hn
          split at h
          · rename_i hs
            cases h
            refine ⟨e1, e2, ?_, ?_, ?_⟩
            · simp only; rw [putLoop_append h3]; simp [putLoop, hn, hs]
            · simp [List.filterMap_append, h5, PutEvent.errorWord, hn, hs]
            · simp [List.filterMap_append, PutEvent.status?, hn] at h4 ⊢; omega
          · rename_i hs
            cases h
            refine ⟨e1, e2, ?_, ?_, ?_⟩
            · simp only; rw [putLoop_append h3]; simp only [putLoop, if_neg hn, if_neg hs]
            · simp only [ne_eq, Classical.not_not] at hs
              simp [List.filterMap_append, h5, PutEvent.errorWord, hs]
            · simp [List.filterMap_append, PutEvent.status?, hn] at h4 ⊢; omega
  | takeData =>
    simp only [PutRun.step] at h
    cases pc with
    | ended w => cases h
    | hands => cases h
    | waits =>
      cases de with
      | none => cases h
      | some w =>
        simp only at h h3 h5
        have e1 : wordsOf R = (took ++ [PutEvent.data w]).filterMap PutEvent.status? ++ se.toList ++ wordsOf reader := by
          simpa [PutEvent.status?, List.filterMap_append, List.filterMap_cons] using h1
        have e2 : S = (took ++ [PutEvent.data w]).filterMap PutEvent.data? ++ (none : Option String).toList ++ sender := by
          simpa [PutEvent.data?, List.filterMap_append, List.filterMap_cons] using h2
        split at h
        · rename_i hs
          cases h
          refine ⟨e1, e2, ?_, ?_, ?_⟩
          · simp only; rw [putLoop_append h3]; simp [putLoop, hs]
          · simp [List.filterMap_append, h5, PutEvent.errorWord, hs]
          · simp [List.filterMap_append, List.filterMap_cons, PutEvent.status?] at h4 ⊢; omega
        · rename_i hs
          cases h
          refine ⟨e1, e2, ?_, ?_, ?_⟩
          · simp only; rw [putLoop_append h3]; simp only [putLoop, if_neg hs]
          · simp only [ne_eq, Classical.not_not] at hs
            simp [List.filterMap_append, h5, PutEvent.errorWord, hs]
          · simp [List.filterMap_append, List.filterMap_cons, PutEvent.status?] at h4 ⊢; omega
  | takeStatusPos =>
    simp only [PutRun.step] at h
    cases pc with
    | ended w => cases h
    | hands => cases h
    | waits =>
      cases sp with
      | false => cases h
      | true =>
        simp only [Option.some.injEq] at h h3 h5
        subst h
        refine ⟨?_, ?_, ?_, ?_, ?_⟩
        · simpa [PutEvent.status?, List.filterMap_append, List.filterMap_cons] using h1
        · simpa [PutEvent.data?, List.filterMap_append, List.filterMap_cons] using h2
        · simp only; rw [putLoop_append h3]; rfl
        · simp [List.filterMap_append, h5, List.filterMap_cons, PutEvent.errorWord]
        · simp [List.filterMap_append, List.filterMap_cons, PutEvent.status?] at h4 ⊢; try omega
  | takeDataPos =>
    simp only [PutRun.step] at h
    cases pc with
    | ended w => cases h
    | hands => cases h
    | waits =>
      cases dp with
      | false => cases h
      | true =>
        simp only [Option.some.injEq] at h h3 h5
        subst h
        refine ⟨?_, ?_, ?_, ?_, ?_⟩
        · simpa [PutEvent.status?, List.filterMap_append, List.filterMap_cons] using h1
        · simpa [PutEvent.data?, List.filterMap_append, List.filterMap_cons] using h2
        · simp only; rw [putLoop_append h3]; rfl
        · simp [List.filterMap_append, h5, List.filterMap_cons, PutEvent.errorWord]
        · simp [List.filterMap_append, List.filterMap_cons, PutEvent.status?] at h4 ⊢; try omega
  | hand =>
    simp only [PutRun.step] at h
    cases pc with
    | ended w => cases h
    | waits => cases h
    | hands =>
      cases dp with
      | true => cases h
      | false =>
        simp only [Option.some.injEq] at h h3 h5
        subst h
        exact ⟨h1, h2, h3, h5, by simpa using h4⟩

theorem PutInv.run {numbers : String → Bool} {R : List Act} {S : List String} {s t : PutRun} {ms : List PutMove}
    (inv : PutInv numbers R S s) (h : s.run numbers ms = some t) :
    PutInv numbers R S t := by
  induction ms generalizing s with
  | nil => cases h; exact inv
  | cons m ms ih =>
    simp only [PutRun.run] at h
    obtain ⟨u, hu, h⟩ := Option.bind_eq_some_iff.1 h
    exact ih (inv.step hu) h

theorem PutInv.reached {numbers : String → Bool} {R : List Act} {S : List String} {t : PutRun}
    (h : (PutRun.start R S).LeadsTo numbers t) : PutInv numbers R S t := by
  obtain ⟨ms, h⟩ := h
  exact (PutInv.init numbers R S).run h

theorem putRun_append {numbers : String → Bool} {s : PutRun} {a b : List PutMove} :
    s.run numbers (a ++ b) = (s.run numbers a).bind fun t => t.run numbers b := by
  induction a generalizing s with
  | nil => rfl
  | cons m a ih =>
    simp only [List.cons_append, PutRun.run]
    cases s.step numbers m with
    | none => rfl
    | some u => exact ih

/-- Whatever is going on, there is an execution from here to where nobody can get on. -/
theorem leads_still (numbers : String → Bool) (s : PutRun) : ∃ t, s.LeadsTo numbers t ∧ t.Still numbers := by
  have key : ∀ n (s : PutRun), s.left < n → ∃ t, s.LeadsTo numbers t ∧ t.Still numbers := by
    intro n
    induction n with
    | zero => intro s hs; omega
    | succ n ih =>
      intro s hs
      by_cases hst : s.Still numbers
      · exact ⟨s, ⟨[], rfl⟩, hst⟩
      · obtain ⟨m, hm⟩ := Classical.not_forall.1 hst
        cases hu : s.step numbers m with
        | none => exact absurd hu hm
        | some u =>
          obtain ⟨t, ⟨ms, h1⟩, h2⟩ := ih u (by have := putStep_left hu; omega)
          exact ⟨t, ⟨m :: ms, by simp only [PutRun.run, hu]; exact h1⟩, h2⟩
  exact key _ s (Nat.lt_succ_self _)

/-- Once `cput` has ended nobody takes anything from the channels. -/
theorem ended_step {numbers : String → Bool} {s t : PutRun} {m : PutMove} {w : String} (e : s.at_ = .ended w)
    (h : s.step numbers m = some t) : t.at_ = .ended w ∧ t.took = s.took ∧
      s.statuserr.toList ++ wordsOf s.reader = t.statuserr.toList ++ wordsOf t.reader ∧
      s.dataerr.toList ++ s.sender = t.dataerr.toList ++ t.sender := by
  obtain ⟨pc, reader, sender, se, sp, dp, de, took⟩ := s
  simp only at e
  subst e
  cases m with
  | reads =>
    simp only [PutRun.step, PutRun.reads] at h
    cases reader with
    | nil => cases h
    | cons a rest =>
      cases a <;> simp only at h
      · cases se <;> simp at h
        subst h
        exact ⟨rfl, rfl, by simp [wordsOf, Act.word?], rfl⟩
      · cases sp <;> simp at h
        subst h
        exact ⟨rfl, rfl, by simp [wordsOf, Act.word?, List.filterMap_cons], rfl⟩
      · cases h
        exact ⟨rfl, rfl, by simp [wordsOf, Act.word?, List.filterMap_cons], rfl⟩
      · cases h
        exact ⟨rfl, rfl, by simp [wordsOf, Act.word?, List.filterMap_cons], rfl⟩
  | sends =>
    simp only [PutRun.step, PutRun.sends] at h
    cases sender with
    | nil => cases h
    | cons a rest =>
      cases de <;> simp at h
      subst h
      exact ⟨rfl, rfl, rfl, by simp⟩
  | takeStatus => cases h
  | takeData => cases h
  | takeStatusPos => cases h
  | takeDataPos => cases h
  | hand => cases h

theorem ended_run {numbers : String → Bool} {s t : PutRun} {w : String} (e : s.at_ = .ended w)
    (h : s.LeadsTo numbers t) : t.at_ = .ended w ∧ t.took = s.took ∧
      s.statuserr.toList ++ wordsOf s.reader = t.statuserr.toList ++ wordsOf t.reader ∧
      s.dataerr.toList ++ s.sender = t.dataerr.toList ++ t.sender := by
  obtain ⟨ms, h⟩ := h
  induction ms generalizing s with
  | nil => cases h; exact ⟨e, rfl, rfl, rfl⟩
  | cons m ms ih =>
    simp only [PutRun.run] at h
    obtain ⟨u, hu, h⟩ := Option.bind_eq_some_iff.1 h
    obtain ⟨a, b, c, d⟩ := ended_step e hu
    obtain ⟨a', b', c', d'⟩ := ih a h
    exact ⟨a', b'.trans b, c.trans c', d.trans d'⟩

/-- Of the words of `senddata` at most one that is no success is received. -/
theorem data_errors (numbers : String → Bool) (es : List PutEvent) :
    ((es.filterMap PutEvent.data?).filter (· ≠ "success")).length ≤ (es.filterMap (PutEvent.errorWord numbers)).length := by
  induction es with
  | nil => simp
  | cons e es ih =>
    cases e with
    | status w =>
      simp only [List.filterMap_cons, PutEvent.data?, PutEvent.errorWord]
      split
      · exact ih
      · simp only [List.length_cons]; omega
    | data w =>
      simp only [List.filterMap_cons, PutEvent.data?, PutEvent.errorWord]
      by_cases hw : w = "success"
      · simpa [hw] using ih
      · simpa [hw] using ih
    | statusPos => simpa [List.filterMap_cons, PutEvent.data?, PutEvent.errorWord] using ih
    | dataPos => simpa [List.filterMap_cons, PutEvent.data?, PutEvent.errorWord] using ih

/-- Nobody can get on and `cput` waits in its `select`: all is heard. -/
theorem still_waits {numbers : String → Bool} {s : PutRun} (h : s.Still numbers) (w : s.at_ = .waits) : s.AllHeard := by
  obtain ⟨pc, reader, sender, se, sp, dp, de, took⟩ := s
  simp only at w
  subst w
  have hse : se = none := by
    cases se with
    | none => rfl
    | some x =>
      have := h .takeStatus
      simp only [PutRun.step] at this
      split at this
      · cases this
      · split at this <;> cases this
  have hde : de = none := by
    cases de with
    | none => rfl
    | some x =>
      have := h .takeData
      simp only [PutRun.step] at this
      split at this <;> cases this
  have hsp : sp = false := by
    cases sp with
    | false => rfl
    | true => have := h .takeStatusPos; simp [PutRun.step] at this
  have hdp : dp = false := by
    cases dp with
    | false => rfl
    | true => have := h .takeDataPos; simp [PutRun.step] at this
  subst hse hde hsp hdp
  refine ⟨?_, ?_, rfl, rfl, rfl, rfl⟩
  · cases reader with
    | nil => rfl
    | cons a r => have := h .reads; cases a <;> simp [PutRun.step, PutRun.reads] at this
  · cases sender with
    | nil => rfl
    | cons a r => have := h .sends; simp [PutRun.step, PutRun.sends] at this

theorem still_hands {numbers : String → Bool} {s : PutRun} (h : s.Still numbers) (w : s.at_ = .hands) :
    s.datapos = true := by
  cases hd : s.datapos with
  | true => rfl
  | false => have := h .hand; simp [PutRun.step, w, hd] at this

theorem ended_positions {numbers : String → Bool} {s t : PutRun} {w : String} (e : s.at_ = .ended w)
    (h : s.LeadsTo numbers t) :
    (if s.statuspos then 1 else 0) + (s.reader.filterMap Act.position?).length =
      (if t.statuspos then 1 else 0) + (t.reader.filterMap Act.position?).length := by
  obtain ⟨ms, h⟩ := h
  induction ms generalizing s with
  | nil => cases h; rfl
  | cons m ms ih =>
    simp only [PutRun.run] at h
    obtain ⟨u, hu, h⟩ := Option.bind_eq_some_iff.1 h
    refine Eq.trans ?_ (ih (ended_step e hu).1 h)
    clear ih h
    obtain ⟨pc, reader, sender, se, sp, dp, de, took⟩ := s
    simp only at e
    subst e
    cases m with
    | reads =>
      simp only [PutRun.step, PutRun.reads] at hu
      cases reader with
      | nil => cases hu
      | cons a rest =>
        cases a <;> simp only at hu
        · cases se <;> simp at hu
          subst hu
          simp [Act.position?, List.filterMap_cons]
        · cases sp <;> simp at hu
          subst hu
          simp [Act.position?]; omega
        · cases hu
          simp [Act.position?, List.filterMap_cons]
        · cases hu
          simp [Act.position?, List.filterMap_cons]
    | sends =>
      simp only [PutRun.step, PutRun.sends] at hu
      cases sender with
      | nil => cases hu
      | cons a rest =>
        cases de <;> simp at hu
        subst hu
        rfl
    | takeStatus => cases hu
    | takeData => cases hu
    | takeStatusPos => cases hu
    | takeDataPos => cases hu
    | hand => cases hu

end Saratoga
