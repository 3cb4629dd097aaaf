import Verif.Spec.Flags
import Verif.Lemmas.Bits
/-! # Helper lemmas about the flag functions -/
namespace Saratoga

theorem assoc_mem {β : Type} {k : String} {l : List (String × β)} {v : β}
    (h : assoc k l = some v) : (k, v) ∈ l := by
  induction l with
  | nil => simp [assoc] at h
  | cons p t ih =>
    obtain ⟨a, b⟩ := p
    unfold assoc at h
    split at h
    · rename_i e; subst e; simp at h; subst h; simp
    · exact List.mem_cons_of_mem _ (ih h)

theorem assoc_of_mem {β : Type} {k : String} {l : List (String × β)} {v : β}
    (hn : l.Pairwise (fun a b => a.1 ≠ b.1)) (h : (k, v) ∈ l) : assoc k l = some v := by
  induction l with
  | nil => simp at h
  | cons p t ih =>
    obtain ⟨a, b⟩ := p
    rw [List.pairwise_cons] at hn
    unfold assoc
    rcases List.mem_cons.1 h with h | h
    · cases h; simp
    · have : a ≠ k := hn.1 _ h
      simp [this, ih hn.2 h]

theorem optName_mem {w : Nat} {v : BitVec w} {l : List (String × BitVec w)} {k : String}
    (h : optName v l = some k) : (k, v) ∈ l := by
  induction l with
  | nil => simp [optName] at h
  | cons p t ih =>
    obtain ⟨a, b⟩ := p
    unfold optName at h
    split at h
    · rename_i e; subst e; simp at h; subst h; simp
    · exact List.mem_cons_of_mem _ (ih h)

theorem optName_of_mem {w : Nat} {v : BitVec w} {l : List (String × BitVec w)} {k : String}
    (hn : l.Pairwise (fun a b => a.2 ≠ b.2)) (h : (k, v) ∈ l) : optName v l = some k := by
  induction l with
  | nil => simp at h
  | cons p t ih =>
    obtain ⟨a, b⟩ := p
    rw [List.pairwise_cons] at hn
    unfold optName
    rcases List.mem_cons.1 h with h | h
    · cases h; simp
    · have : b ≠ v := hn.1 _ h
      simp [this, ih hn.2 h]

theorem optName_none {w : Nat} {v : BitVec w} {l : List (String × BitVec w)} :
    optName v l = none ↔ ∀ k, (k, v) ∉ l := by
  induction l with
  | nil => simp [optName]
  | cons p t ih =>
    obtain ⟨a, b⟩ := p
    unfold optName
    by_cases e : b = v
    · subst e
      simp only [if_true, reduceCtorEq, List.mem_cons, false_iff]
      intro h; exact h a (Or.inl rfl)
    · simp only [e, if_false, ih, List.mem_cons, not_or]
      constructor
      · intro h k; refine ⟨?_, h k⟩; intro h'; cases h'; exact e rfl
      · intro h k; exact (h k).2

theorem optName_perm {w : Nat} (v : BitVec w) {l l' : List (String × BitVec w)} (hp : l.Perm l')
    (hn : l.Pairwise (fun a b => a.2 ≠ b.2)) : optName v l = optName v l' := by
  have hn' : l'.Pairwise (fun a b => a.2 ≠ b.2) :=
    (hp.pairwise_iff (fun h => Ne.symm h)).1 hn
  cases h : optName v l with
  | some k => exact (optName_of_mem hn' (hp.mem_iff.1 (optName_mem h))).symm
  | none =>
    symm
    rw [optName_none] at h ⊢
    intro k hk; exact h k (hp.mem_iff.2 hk)

theorem assoc_perm {β : Type} (k : String) {l l' : List (String × β)} (hp : l.Perm l')
    (hn : l.Pairwise (fun a b => a.1 ≠ b.1)) : assoc k l = assoc k l' := by
  have hn' : l'.Pairwise (fun a b => a.1 ≠ b.1) :=
    (hp.pairwise_iff (fun h => Ne.symm h)).1 hn
  cases h : assoc k l with
  | some v => exact (assoc_of_mem hn' (hp.mem_iff.1 (assoc_mem h))).symm
  | none =>
    cases h' : assoc k l' with
    | none => rfl
    | some v =>
      have := assoc_of_mem hn (hp.mem_iff.2 (assoc_mem h'))
      rw [h] at this; cases this

theorem flag_of_assoc {T : Tables} {f : String} {fl : FlagType 32} (h : assoc f T.flags = some fl) :
    T.flag f = fl := by simp [Tables.flag, h]

theorem dflag_of_assoc {T : Tables} {f : String} {fl : FlagType 16} (h : assoc f T.dirent = some fl) :
    T.dflag f = fl := by simp [Tables.dflag, h]

theorem get_eq (T : Tables) (cur : BitVec 32) (f : String) :
    get T cur f = bitsGet (T.flag f).len (T.flag f).msb cur := rfl

theorem getD_eq (T : Tables) (cur : BitVec 16) (f : String) :
    getD T cur f = bitsGet (T.dflag f).len (T.dflag f).msb cur := rfl

theorem getT_eq (T : Tables) (cur : BitVec 8) :
    getT T cur = bitsGet T.ts.len T.ts.msb cur := rfl

theorem set_eq {T : Tables} {f o : String} {fl : FlagType 32} {v : BitVec 32}
    (hf : assoc f T.flags = some fl) (ho : assoc o fl.options = some v) (cur : BitVec 32) :
    set T cur f o = .ret (bitsSet fl.len fl.msb cur v) := by
  unfold set
  have hg : good T f = true := by simp [good, hf]
  simp only [hf, hg, if_true, flag_of_assoc hf, ho]
  rfl

theorem set_none_field {T : Tables} {f o : String} (hf : assoc f T.flags = none) (cur : BitVec 32) :
    set T cur f o = .fatal := by
  unfold set; rw [hf]

theorem set_none_option {T : Tables} {f o : String} {fl : FlagType 32}
    (hf : assoc f T.flags = some fl) (ho : assoc o fl.options = none) (cur : BitVec 32) :
    set T cur f o = .fatal := by
  unfold set
  have hg : good T f = true := by simp [good, hf]
  simp only [hf, hg, if_true, flag_of_assoc hf, ho]

theorem setD_eq {T : Tables} {f o : String} {fl : FlagType 16} {v : BitVec 16}
    (hf : assoc f T.dirent = some fl) (ho : assoc o fl.options = some v) (cur : BitVec 16) :
    setD T cur f o = .ret (bitsSet fl.len fl.msb cur v) := by
  unfold setD
  have hg : goodD T f = true := by simp [goodD, hf]
  simp only [hg, if_true, dflag_of_assoc hf, ho]
  rfl

theorem setT_eq {T : Tables} {o : String} {v : BitVec 8}
    (ho : assoc o T.ts.options = some v) (cur : BitVec 8) :
    setT T cur o = .ret (bitsSet T.ts.len T.ts.msb cur v) := by
  unfold setT
  simp only [ho]
  rfl

/-- `Set` succeeds exactly on valid pairs, otherwise the process ends. -/
theorem set_cases (T : Tables) (cur : BitVec 32) (f o : String) :
    (valid T f o = true ∧ ∃ fl v, assoc f T.flags = some fl ∧ assoc o fl.options = some v ∧
      set T cur f o = .ret (bitsSet fl.len fl.msb cur v)) ∨
    (valid T f o = false ∧ set T cur f o = .fatal) := by
  cases hf : assoc f T.flags with
  | none =>
    right
    exact ⟨by simp [valid, good, hf], set_none_field hf cur⟩
  | some fl =>
    cases ho : assoc o fl.options with
    | none =>
      right
      refine ⟨by simp [valid, flag_of_assoc hf, ho], set_none_option hf ho cur⟩
    | some v =>
      left
      refine ⟨by simp [valid, good, hf, flag_of_assoc hf, ho], fl, v, rfl, ho, set_eq hf ho cur⟩

end Saratoga
