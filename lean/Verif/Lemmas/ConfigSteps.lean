import Verif.Lemmas.Config
/-! # Helper lemmas about the single loops of `ReadConfig` -/
namespace Saratoga

variable {F : Type}

/-! ## When each step returns -/

theorem retIff_of_eq {α : Type} {x : Out α} {P Q : Prop} (h : x.RetIff P) (e : P ↔ Q) : x.RetIff Q := h.congr e

theorem timerStep_retIff (cv : Conv F) (t : Timeouts) (k : String) (v : Json F) :
    (timerStep cv t k v).RetIff (k ∈ timerNames → IsNumber v) := by
  unfold timerStep
  repeat' split
  all_goals first
    | (subst_vars; exact (Out.RetIff.pure_bind (asNum_retIff v)).congr (by simp [timerNames]))
    | exact Out.RetIff.of_ret (by simp_all [timerNames])

theorem cmdStep_retIff (c : CmdText) (k : String) (v : Json F) :
    (cmdStep c k v).RetIff (k = "help" ∨ k = "usage" → IsText v) := by
  unfold cmdStep
  repeat' split
  all_goals first
    | (subst_vars; exact (Out.RetIff.pure_bind (asStr_retIff v)).congr (by simp))
    | exact Out.RetIff.of_ret (by simp_all)

theorem commandsStep_retIff (cs : CmdTable) (k : String) (v : Json F) :
    (commandsStep cs k v).RetIff (IsObject (fun n x => n = "help" ∨ n = "usage" → IsText x) v) := by
  have := Out.RetIff.pure_bind (f := fun c => mapSet k c cs) (objMember_retIff (F := F) cmdStep_retIff ⟨"", ""⟩ v)
  rw [Out.bind_assoc] at this
  exact this

theorem optionStep_retIff {w : Nat} (u : F → BitVec w) (os : List (String × BitVec w)) (k : String) (v : Json F) :
    (optionStep u os k v).RetIff (IsNumber v) := Out.RetIff.pure_bind (asNum_retIff v)

theorem fieldStep_retIff {w : Nat} (u : F → BitVec w) (t : FlagType w) (k : String) (v : Json F) :
    (fieldStep u t k v).RetIff (FieldTyped k v) := by
  unfold fieldStep FieldTyped
  split
  · subst_vars; exact (Out.RetIff.pure_bind (asNum_retIff v)).congr (by simp)
  · split
    · subst_vars; exact (Out.RetIff.pure_bind (asNum_retIff v)).congr (by simp)
    · split
      · subst_vars
        have := Out.RetIff.pure_bind (f := fun os => { t with options := os })
          (objMember_retIff (F := F) (optionStep_retIff u) [] v)
        rw [Out.bind_assoc] at this
        exact this.congr (by simp)
      · exact Out.RetIff.of_ret (by simp_all)

theorem isTexts_retIff (v : Json F) (x : List String) :
    (do let info ← v.asArr; appendStrs x info).RetIff (IsTexts v) := by
  cases v with
  | arr l =>
    exact (appendStrs_retIff x l).congr ⟨fun h => ⟨l, rfl, h⟩, fun ⟨l', e, h⟩ => by cases e; exact h⟩
  | null | bool | num | str | obj => exact ⟨fun ⟨m, e, _⟩ => (by cases e), fun _ => rfl⟩

theorem flagStep_retIff (cv : Conv F) (t : FlagType 32) (k : String) (v : Json F) :
    (flagStep cv t k v).RetIff (FieldTyped k v ∧ (k = "frametypes" → IsTexts v)) := by
  unfold flagStep
  split
  · subst_vars
    have := Out.RetIff.pure_bind (f := fun _ => t) (isTexts_retIff v [])
    rw [Out.bind_assoc] at this
    exact this.congr (by simp [FieldTyped])
  · exact (fieldStep_retIff cv.u32 t k v).congr (by simp_all)

theorem flagsStep_retIff (cv : Conv F) (fs : List (String × FlagType 32)) (k : String) (v : Json F) :
    (flagsStep cv fs k v).RetIff
      (IsObject (fun n x => FieldTyped n x ∧ (n = "frametypes" → IsTexts x)) v) := by
  have := Out.RetIff.pure_bind (f := fun t => mapSet k t fs)
    (objMember_retIff (F := F) (flagStep_retIff cv) (FlagType.zero 32) v)
  rw [Out.bind_assoc] at this
  exact this

theorem direntStep_retIff (cv : Conv F) (ds : List (String × FlagType 16)) (k : String) (v : Json F) :
    (direntStep cv ds k v).RetIff (IsObject FieldTyped v) := by
  have := Out.RetIff.pure_bind (f := fun t => mapSet k t ds)
    (objMember_retIff (F := F) (fieldStep_retIff cv.u16) (FlagType.zero 16) v)
  rw [Out.bind_assoc] at this
  exact this

theorem frameflagsStep_retIff (ff : List (String × List String)) (k : String) (v : Json F) :
    (frameflagsStep ff k v).RetIff (IsTexts v) := by
  unfold frameflagsStep
  cases v with
  | arr l =>
    exact (Out.RetIff.pure_bind (appendStrs_retIff _ l)).congr
      ⟨fun h => ⟨l, rfl, h⟩, fun ⟨l', e, h⟩ => by cases e; exact h⟩
  | null | bool | num | str | obj => exact ⟨fun ⟨m, e, _⟩ => (by cases e), fun _ => rfl⟩

theorem Out.RetIff.ite {α : Type} {c : Prop} [Decidable c] {x y : Out α} {P : Prop} (hx : c → x.RetIff P)
    (hy : ¬ c → y.RetIff P) : (if c then x else y).RetIff P := by
  by_cases h : c
  · rw [if_pos h]; exact hx h
  · rw [if_neg h]; exact hy h

theorem confStep_retIff (cv : Conv F) (c : Conf) (k : String) (v : Json F) :
    (confStep cv c k v).RetIff ((k ∈ textNames → IsText v) ∧ (k ∈ numberNames → IsNumber v)) := by
  unfold confStep
  repeat' (refine Out.RetIff.ite (fun h => ?_) (fun h => ?_))
  all_goals first
    | (subst_vars
       exact (Out.RetIff.pure_bind (asStr_retIff v)).congr (by simp [textNames, numberNames]))
    | (subst_vars
       exact (Out.RetIff.pure_bind (asNum_retIff v)).congr (by simp [textNames, numberNames]))
    | (refine Out.RetIff.of_ret ?_
       simp only [textNames, numberNames, List.mem_cons, List.not_mem_nil, or_false]
       exact ⟨fun h => by rcases h with h | h | h | h | h | h | h | h | h | h | h | h | h | h | h <;> contradiction,
         fun h => by rcases h with h | h | h | h <;> contradiction⟩)

theorem loadStep_retIff (cv : Conv F) (st : Loading) (k : String) (v : Json F) :
    (loadStep cv st k v).RetIff (MemberTyped k v) := by
  unfold loadStep MemberTyped
  split
  · subst_vars
    have := Out.RetIff.pure_bind (f := fun t => { st with conf := { st.conf with timeout := t } })
      (objMember_retIff (F := F) (timerStep_retIff cv) st.conf.timeout v)
    rw [Out.bind_assoc] at this
    exact this.congr (by simp [textNames, numberNames])
  split
  · subst_vars
    have := Out.RetIff.pure_bind (f := fun cs => { st with commands := cs })
      (objMember_retIff (F := F) commandsStep_retIff st.commands v)
    rw [Out.bind_assoc] at this
    exact this.congr (by simp [textNames, numberNames])
  split
  · subst_vars
    have := Out.RetIff.pure_bind (f := fun ff => { st with tables := { st.tables with frameflags := ff } })
      (objMember_retIff (F := F) frameflagsStep_retIff st.tables.frameflags v)
    rw [Out.bind_assoc] at this
    exact this.congr (by simp [textNames, numberNames])
  split
  · subst_vars
    have := Out.RetIff.pure_bind (f := fun fs => { st with tables := { st.tables with flags := fs } })
      (objMember_retIff (F := F) (flagsStep_retIff cv) st.tables.flags v)
    rw [Out.bind_assoc] at this
    exact this.congr (by simp [textNames, numberNames])
  split
  · subst_vars
    have := Out.RetIff.pure_bind (f := fun ds => { st with tables := { st.tables with dirent := ds } })
      (objMember_retIff (F := F) (direntStep_retIff cv) st.tables.dirent v)
    rw [Out.bind_assoc] at this
    exact this.congr (by simp [textNames, numberNames])
  split
  · subst_vars
    have := Out.RetIff.pure_bind (f := fun t => { st with tables := { st.tables with ts := t } })
      (objMember_retIff (F := F) (fieldStep_retIff cv.u8) st.tables.ts v)
    rw [Out.bind_assoc] at this
    exact this.congr (by simp [textNames, numberNames])
  · exact (Out.RetIff.pure_bind (confStep_retIff cv st.conf k v)).congr (by simp_all)

/-! ## The types do not depend on the order -/

theorem Json.Same.fieldTyped {k : String} {a b : Json F} (h : Json.Same a b) :
    FieldTyped k a ↔ FieldTyped k b := by
  unfold FieldTyped
  rw [h.isNumber, h.isObject (fun _ _ _ h => h.isNumber)]

theorem Json.Same.memberTyped {k : String} {a b : Json F} (h : Json.Same a b) :
    MemberTyped k a ↔ MemberTyped k b := by
  unfold MemberTyped
  rw [h.isText, h.isNumber,
    h.isObject (P := fun n x => n ∈ timerNames → IsNumber x) (fun _ _ _ h => by rw [h.isNumber]),
    h.isObject (P := fun _ c => IsObject (fun n x => n = "help" ∨ n = "usage" → IsText x) c)
      (fun _ _ _ h => h.isObject (fun _ _ _ h => by rw [h.isText])),
    h.isObject (P := fun _ x => IsTexts x) (fun _ _ _ h => h.isTexts),
    h.isObject (P := fun _ f => IsObject (fun n x => FieldTyped n x ∧ (n = "frametypes" → IsTexts x)) f)
      (fun _ _ _ h => h.isObject (fun _ _ _ h => by rw [h.fieldTyped, h.isTexts])),
    h.isObject (P := fun _ f => IsObject FieldTyped f)
      (fun _ _ _ h => h.isObject (P := FieldTyped) (fun _ _ _ h => h.fieldTyped)),
    h.isObject (P := FieldTyped) (fun _ _ _ h => h.fieldTyped)]

end Saratoga
