import Verif.Spec.New
import Verif.Lemmas.Flags
import Verif.Lemmas.Bytes
import Verif.Model.Frame
import Verif.Props.Flags
import Verif.Props.Timestamp
/-! # Helper lemmas about building frames from flag text -/
namespace Saratoga

theorem lastValue_append (f : String) (a b : List (String × String)) :
    lastValue f (a ++ b) = match lastValue f b with | some v => some v | none => lastValue f a := by
  induction a with
  | nil => cases h : lastValue f b <;> simp [lastValue, h]
  | cons p t ih =>
    obtain ⟨g, w⟩ := p
    simp only [List.cons_append, lastValue, ih]
    cases lastValue f b <;> rfl

theorem setFlags_append {T : Tables} {h h' h'' : BitVec 32} {a b : List (String × String)}
    (h1 : setFlags T h a = .ret h') (h2 : setFlags T h' b = .ret h'') :
    setFlags T h (a ++ b) = .ret h'' := by
  induction a generalizing h with
  | nil => simp [setFlags] at h1; subst h1; exact h2
  | cons p t ih =>
    obtain ⟨f, v⟩ := p
    simp only [setFlags] at h1
    obtain ⟨c, hc, h1⟩ := Out.bind_eq_ret h1
    simp only [List.cons_append, setFlags, hc, Out.ret_bind]
    exact ih h1

theorem setFlags_one {T : Tables} {h h' : BitVec 32} {f v : String} (h1 : set T h f v = .ret h') :
    setFlags T h [(f, v)] = .ret h' := by simp [setFlags, h1]

/-- What a successful `set` does. -/
theorem set_carries {T : Tables} {fields : List String} (sep : Separated T fields) {f v : String}
    (hf : f ∈ fields) {h h' : BitVec 32} (ok : set T h f v = .ret h') :
    getStr T h' f = .ret v ∧ (∀ g ∈ fields, g ≠ f → get T h' g = get T h g ∧ getStr T h' g = getStr T h g) ∧
    (∀ j, j < (T.flag f).msb.toNat ∨ (T.flag f).msb.toNat + (T.flag f).len.toNat ≤ j →
      h'.getMsbD j = h.getMsbD j) := by
  rcases set_cases T h f v with ⟨_, fl, x, hl, ho, hs⟩ | ⟨_, hs⟩
  · have e := flag_of_assoc hl
    have wf := sep.1 f hf
    rw [e] at wf
    obtain ⟨h2, k1, _, k2, _⟩ := C07_get_after_set T f v fl x hl wf ho h
    rw [ok] at k1; cases k1
    refine ⟨k2, fun g hg hne => ?_, fun j hj => ?_⟩
    · have := sep.2 f hf g hg (Ne.symm hne)
      rw [e] at this
      exact C08_set_other_field T f v g fl hl wf (sep.1 g hg) this h h' ok
    · rw [e] at hj
      exact C08_set_outside T f v fl hl wf h h' ok j hj
  · rw [ok] at hs; cases hs

theorem Carries.cons {T : Tables} {fields : List String} (sep : Separated T fields) {f v : String}
    (hf : f ∈ fields) {h h' h'' : BitVec 32} {rest : List (String × String)}
    (ok : set T h f v = .ret h') (hr : Carries T fields rest h' h'') :
    Carries T fields ((f, v) :: rest) h h'' := by
  obtain ⟨s1, s2, s3⟩ := set_carries sep hf ok
  obtain ⟨r1, r2, r3⟩ := hr
  refine ⟨fun g hg w hw => ?_, fun g hg hw => ?_, fun j hj => ?_⟩
  · simp only [lastValue] at hw
    cases hl : lastValue g rest with
    | some x => rw [hl] at hw; cases hw; exact r1 g hg _ hl
    | none =>
      rw [hl] at hw
      simp only at hw
      split at hw
      · rename_i e; subst e; cases hw
        have := r2 f hg hl
        unfold getStr at s1 ⊢
        rw [this]; exact s1
      · cases hw
  · simp only [lastValue] at hw
    cases hl : lastValue g rest with
    | some x => rw [hl] at hw; cases hw
    | none =>
      rw [hl] at hw
      simp only at hw
      split at hw
      · cases hw
      · rename_i e
        rw [r2 g hg hl, (s2 g hg (Ne.symm e)).1]
  · have hlast : ∀ g, lastValue g rest ≠ none → lastValue g ((f, v) :: rest) ≠ none := by
      intro g hg
      simp only [lastValue]
      cases hl : lastValue g rest with
      | some x => simp
      | none => exact absurd hl hg
    have hself : lastValue f ((f, v) :: rest) ≠ none := by
      simp only [lastValue]
      cases lastValue f rest <;> simp
    rw [r3 j (fun g hg hne => hj g hg (hlast g hne)), s3 j (hj f hf hself)]

theorem Carries.nil (T : Tables) (fields : List String) (h : BitVec 32) : Carries T fields [] h h :=
  ⟨fun _ _ _ hv => by simp [lastValue] at hv, fun _ _ _ => rfl, fun _ _ => rfl⟩

theorem setFlags_carries {T : Tables} {fields : List String} (sep : Separated T fields)
    {assigns : List (String × String)} (hin : ∀ p ∈ assigns, p.1 ∈ fields) {h h' : BitVec 32}
    (ok : setFlags T h assigns = .ret h') : Carries T fields assigns h h' := by
  induction assigns generalizing h with
  | nil => simp [setFlags] at ok; subst ok; exact Carries.nil T fields h
  | cons p t ih =>
    obtain ⟨f, v⟩ := p
    simp only [setFlags] at ok
    obtain ⟨c, hc, ok⟩ := Out.bind_eq_ret ok
    exact Carries.cons sep (hin (f, v) (by simp)) hc (ih (fun p hp => hin p (by simp [hp])) ok)

/-! ## The flag loop -/

/-- The part a `New` sees: name and value. -/
def partOf (f : List String) : String × Option String :=
  match f with
  | n :: v :: _ => (n, some v)
  | [n] => (n, none)
  | [] => ("", none)

theorem textParts_eq (s : String) :
    textParts s = (strSplit s ',').map (fun p => partOf (strSplit p '=')) := by
  unfold textParts
  apply List.map_congr_left
  intro p _
  unfold partOf
  split <;> rename_i h <;> simp [h]

theorem first_partOf (f : List String) : first f = (partOf f).1 := by
  match f with
  | [] => rfl
  | [_] => rfl
  | _ :: _ :: _ => rfl

theorem second_partOf (f : List String) :
    second f = match (partOf f).2 with | some v => .ret v | none => .panic := by
  match f with
  | [] => rfl
  | [_] => rfl
  | _ :: _ :: _ => rfl

theorem second_ret {f : List String} {v : String} (h : second f = .ret v) : (partOf f).2 = some v := by
  rw [second_partOf] at h
  cases hp : (partOf f).2 with
  | none => rw [hp] at h; cases h
  | some w => rw [hp] at h; simp only at h; cases h; rfl

/-- A flag loop whose body sets what `assign` says, sets what all parts say. -/
theorem flagLoop_setFlags {σ : Type} {T : Tables} {step : σ → List String → Out (σ × Option Err)}
    {hdr : σ → BitVec 32} {assign : String × Option String → List (String × String)}
    (hstep : ∀ s f s', step s f = .ret (s', none) →
      setFlags T (hdr s) (assign (partOf f)) = .ret (hdr s'))
    {s s' : σ} {parts : List String} (ok : flagLoop step s parts = .ret (s', none)) :
    setFlags T (hdr s) ((parts.map (fun p => partOf (strSplit p '='))).flatMap assign) =
      .ret (hdr s') := by
  induction parts generalizing s with
  | nil => simp [flagLoop] at ok; subst ok; rfl
  | cons x xs ih =>
    simp only [flagLoop] at ok
    obtain ⟨⟨s1, e⟩, h1, ok⟩ := Out.bind_eq_ret ok
    cases e with
    | some e => simp at ok
    | none =>
      simp only [List.map_cons, List.flatMap_cons]
      exact setFlags_append (hstep _ _ _ h1) (ih ok)

/-- The verdict of a flag loop is the first bad verdict of its parts. -/
theorem flagLoop_verdict {σ : Type} {step : σ → List String → Out (σ × Option Err)}
    {verdict : String × Option String → Verdict}
    (hstep : ∀ s f, (step s f).verdict = verdict (partOf f)) (s : σ) (parts : List String) :
    (flagLoop step s parts).verdict =
      firstBad ((parts.map (fun p => partOf (strSplit p '='))).map verdict) := by
  induction parts generalizing s with
  | nil => rfl
  | cons x xs ih =>
    have h := hstep s (strSplit x '=')
    simp only [flagLoop, List.map_cons, firstBad]
    rw [← h]
    cases hs : step s (strSplit x '=') with
    | ret r =>
      obtain ⟨s1, e⟩ := r
      cases e with
      | none =>
        have : (Out.ret (s1, (none : Option Err))).verdict = .ok := rfl
        simp only [Out.ret_bind, this, if_true]
        exact ih s1
      | some e => rfl
    | fatal => rfl
    | panic => rfl

theorem verdict_ok {α : Type} {x : Out (α × Option Err)} (h : x.verdict = .ok) :
    ∃ a, x = .ret (a, none) := by
  match x with
  | .ret (a, none) => exact ⟨a, rfl⟩
  | .ret (a, some e) => cases h
  | .fatal => cases h
  | .panic => cases h

theorem bind_verdict {α β : Type} (x : Out (α × Option Err)) (f : α × Option Err → Out (β × Option Err))
    (hf : ∀ a e, (f (a, some e)).verdict = .error) :
    (x >>= f).verdict = if x.verdict = .ok then (x >>= f).verdict else x.verdict := by
  match x with
  | .ret (a, none) => simp [Out.verdict]
  | .ret (a, some e) => exact hf a e
  | .fatal => rfl
  | .panic => rfl

/-- `set` as a verdict. -/
theorem set_verdict {T : Tables} (h : BitVec 32) (n v : String) :
    (valid T n v = true ∧ ∃ h', set T h n v = .ret h') ∨ (valid T n v = false ∧ set T h n v = .fatal) := by
  rcases set_cases T h n v with ⟨hv, fl, x, _, _, hs⟩ | ⟨hv, hs⟩
  · exact Or.inl ⟨hv, _, hs⟩
  · exact Or.inr ⟨hv, hs⟩

/-- The clock can be read as any type the tables know. -/
theorem now_ok {T : Tables} {v : String} {clock : GoTime} (hv : v ∈ tsTypeNames)
    (known : goodT T v = true) (hc : clock.InRange) (t : Timestamp) :
    ∃ t', t.now T v clock = .ret (t', none) := by
  obtain ⟨c1, c2, c3⟩ := hc
  have ok : clock.Ok := ⟨by omega, by omega, c3⟩
  have nok : clock.NanoOk := ⟨ok, by omega, by omega⟩
  have strip : stripSpaces v = v := by
    simp only [tsTypeNames, List.mem_cons, List.not_mem_nil, or_false] at hv
    rcases hv with rfl | rfl | rfl | rfl | rfl | rfl <;> decide +kernel
  suffices h : ∃ t', t.new T v clock = .ret (t', none) by
    obtain ⟨t', h⟩ := h
    exact ⟨t', by simp [Timestamp.now, h]⟩
  simp only [tsTypeNames, List.mem_cons, List.not_mem_nil, or_false] at hv
  obtain ⟨x, hx⟩ := Option.isSome_iff_exists.1 known
  rcases hv with rfl | rfl | rfl | rfl | rfl | rfl
  · unfold Timestamp.new
    simp only [strip, setT_eq hx, Out.ret_bind, Out.pure_eq]
    exact ⟨_, rfl⟩
  · obtain ⟨t', e, h1, h2⟩ := C18_posix32 T t "posix32" clock ok strip known
    rw [h2.2 ⟨by omega, c2⟩] at h1
    exact ⟨t', h1⟩
  · unfold Timestamp.new
    simp only [strip, setT_eq hx, Out.ret_bind, Out.pure_eq]
    exact ⟨_, rfl⟩
  · obtain ⟨t', e, h1, h2⟩ := C18_posix32_32_partial T t "posix32_32" clock nok strip known
    rw [h2.2 ⟨Or.inl (by omega), c2⟩] at h1
    exact ⟨t', h1⟩
  · unfold Timestamp.new
    simp only [strip, setT_eq hx, Out.ret_bind, Out.pure_eq]
    rw [if_neg (by decide), if_neg (by decide), if_neg (by decide), if_pos trivial, if_neg]
    · exact ⟨_, rfl⟩
    · rw [le_max_iff, tmod_abs, unixNano_toInt nok]
      rcases tdiv_cases (clock.sec * 1000000000 + clock.nsec) with ⟨_, _, h⟩ | ⟨h, _⟩
      · rw [h]; omega
      · omega
  · obtain ⟨t', e, h1, h2⟩ := C18_epoch2000 T t "epoch2000_32" clock ok strip known
    rw [h2.2 ⟨by omega, by omega⟩] at h1
    exact ⟨t', h1⟩

end Saratoga
