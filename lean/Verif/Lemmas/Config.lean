import Verif.Spec.Config
import Verif.Lemmas.Settings
import Verif.Lemmas.Flags
import Verif.Lemmas.Bytes
/-! # Helper lemmas about reading the configuration -/
namespace Saratoga

variable {F : Type}

/-! ## Loops over the members of an object -/

/-- A call that returns exactly when `P`, and panics otherwise. -/
def Out.RetIff {α : Type} (x : Out α) (P : Prop) : Prop := (P → x.returns) ∧ (¬ P → x = .panic)

theorem Out.RetIff.iff {α : Type} {x : Out α} {P : Prop} (h : x.RetIff P) : x.returns ↔ P := by
  constructor
  · intro r
    by_cases p : P
    · exact p
    · rw [h.2 p] at r; exact r.elim
  · exact h.1

theorem Out.RetIff.ret {α : Type} {x : Out α} {P : Prop} (h : x.RetIff P) {a : α} (e : x = .ret a) : P :=
  h.iff.1 (by rw [e]; trivial)

theorem Out.RetIff.congr {α : Type} {x : Out α} {P Q : Prop} (h : x.RetIff P) (e : P ↔ Q) : x.RetIff Q :=
  ⟨fun q => h.1 (e.2 q), fun q => h.2 (fun p => q (e.1 p))⟩

theorem Out.RetIff.of_ret {α : Type} {a : α} {P : Prop} (p : P) : (Out.ret a).RetIff P :=
  ⟨fun _ => trivial, fun n => absurd p n⟩

theorem Out.RetIff.bind {α β : Type} {x : Out α} {f : α → Out β} {P Q : Prop} (hx : x.RetIff P)
    (hf : ∀ a, x = .ret a → (f a).RetIff Q) : (x >>= f).RetIff (P ∧ Q) := by
  constructor
  · intro ⟨p, q⟩
    have := hx.1 p
    cases h : x with
    | ret a => exact (hf a h).1 q
    | fatal => rw [h] at this; exact this.elim
    | panic => rw [h] at this; exact this.elim
  · intro n
    by_cases p : P
    · have := hx.1 p
      cases h : x with
      | ret a => exact (hf a h).2 (fun q => n ⟨p, q⟩)
      | fatal => rw [h] at this; exact this.elim
      | panic => rfl
    · rw [hx.2 p]; rfl

theorem Out.RetIff.pure_bind {α β : Type} {x : Out α} {f : α → β} {P : Prop} (hx : x.RetIff P) :
    (do let a ← x; pure (f a)).RetIff P :=
  (Out.RetIff.bind hx (fun _ _ => Out.RetIff.of_ret trivial)).congr ⟨fun h => h.1, fun h => ⟨h, trivial⟩⟩

theorem asStr_retIff (v : Json F) : v.asStr.RetIff (IsText v) := by
  cases v <;>
    first
      | exact ⟨fun _ => trivial, fun n => absurd ⟨_, rfl⟩ n⟩
      | exact ⟨fun ⟨s, h⟩ => (by cases h), fun _ => rfl⟩

theorem asNum_retIff (v : Json F) : v.asNum.RetIff (IsNumber v) := by
  cases v <;>
    first
      | exact ⟨fun _ => trivial, fun n => absurd ⟨_, rfl⟩ n⟩
      | exact ⟨fun ⟨s, h⟩ => (by cases h), fun _ => rfl⟩

theorem asObj_retIff (v : Json F) : v.asObj.RetIff (∃ m, v = .obj m) := by
  cases v <;>
    first
      | exact ⟨fun _ => trivial, fun n => absurd ⟨_, rfl⟩ n⟩
      | exact ⟨fun ⟨s, h⟩ => (by cases h), fun _ => rfl⟩

theorem asArr_retIff (v : Json F) : v.asArr.RetIff (∃ l, v = .arr l) := by
  cases v <;>
    first
      | exact ⟨fun _ => trivial, fun n => absurd ⟨_, rfl⟩ n⟩
      | exact ⟨fun ⟨s, h⟩ => (by cases h), fun _ => rfl⟩

theorem asObj_ret {v : Json F} {m : List (String × Json F)} (h : v.asObj = .ret m) : v = .obj m := by
  cases v <;> simp only [Json.asObj] at h <;> cases h; rfl

theorem asArr_ret {v : Json F} {m : List (Json F)} (h : v.asArr = .ret m) : v = .arr m := by
  cases v <;> simp only [Json.asArr] at h <;> cases h; rfl

theorem asStr_ret {v : Json F} {m : String} (h : v.asStr = .ret m) : v = .str m := by
  cases v <;> simp only [Json.asStr] at h <;> cases h; rfl

theorem asNum_ret {v : Json F} {m : F} (h : v.asNum = .ret m) : v = .num m := by
  cases v <;> simp only [Json.asNum] at h <;> cases h; rfl

theorem appendStrs_retIff (l : List String) (info : List (Json F)) :
    (appendStrs l info).RetIff (∀ x ∈ info, IsText x) := by
  induction info generalizing l with
  | nil => exact Out.RetIff.of_ret (by simp)
  | cons v rest ih =>
    simp only [appendStrs]
    exact (Out.RetIff.bind (asStr_retIff v) (fun s _ => ih (l ++ [s]))).congr (by simp)

theorem appendStrs_append (l : List String) (info : List (Json F)) {r : List String}
    (h : appendStrs l info = .ret r) : ∃ r', appendStrs [] info = .ret r' ∧ r = l ++ r' := by
  have gen : ∀ (info : List (Json F)) (l l2 r : List String), appendStrs (l ++ l2) info = .ret r →
      ∃ r', appendStrs l2 info = .ret r' ∧ r = l ++ r' := by
    intro info
    induction info with
    | nil => intro l l2 r h; simp only [appendStrs] at h ⊢; cases h; exact ⟨_, rfl, rfl⟩
    | cons v rest ih =>
      intro l l2 r h
      simp only [appendStrs] at h ⊢
      obtain ⟨s, hs, h⟩ := Out.bind_eq_ret h
      rw [hs, Out.ret_bind]
      rw [List.append_assoc] at h
      exact ih l (l2 ++ [s]) r h
  have := gen info l [] r (by rw [List.append_nil]; exact h)
  exact this

theorem eachMember_retIff {σ : Type} {f : σ → String → Json F → Out σ} {P : String → Json F → Prop}
    (hf : ∀ s k v, (f s k v).RetIff (P k v)) (s : σ) (m : List (String × Json F)) :
    (eachMember f s m).RetIff (∀ p ∈ m, P p.1 p.2) := by
  induction m generalizing s with
  | nil => exact Out.RetIff.of_ret (by simp)
  | cons p rest ih =>
    obtain ⟨k, v⟩ := p
    simp only [eachMember]
    exact (Out.RetIff.bind (hf s k v) (fun s' _ => ih s')).congr (by simp)

theorem objMember_retIff {σ : Type} {f : σ → String → Json F → Out σ} {P : String → Json F → Prop}
    (hf : ∀ s k v, (f s k v).RetIff (P k v)) (s : σ) (v : Json F) :
    (do let m ← v.asObj; eachMember f s m).RetIff (IsObject P v) := by
  cases v with
  | obj m =>
    exact (eachMember_retIff hf s m).congr
      ⟨fun h => ⟨m, rfl, h⟩, fun ⟨m', e, h⟩ => by cases e; exact h⟩
  | null | bool | num | str | arr =>
    exact ⟨fun ⟨m, e, _⟩ => (by cases e), fun _ => rfl⟩

/-- The part `π` of the state, which only the member named `κ` writes, holds at the end what that member
says. -/
theorem eachMember_read {σ α : Type} {f : σ → String → Json F → Out σ} (π : σ → α) (κ : String)
    (rd : α → Json F → Out α)
    (hit : ∀ s v s', f s κ v = .ret s' → rd (π s) v = .ret (π s'))
    (miss : ∀ s k v s', k ≠ κ → f s k v = .ret s' → π s' = π s)
    {m : List (String × Json F)} (dist : DistinctNames m) {s s' : σ} (h : eachMember f s m = .ret s') :
    match assoc κ m with
    | some v => rd (π s) v = .ret (π s')
    | none => π s' = π s := by
  induction m generalizing s with
  | nil => cases h; rfl
  | cons p rest ih =>
    obtain ⟨k, v⟩ := p
    simp only [eachMember] at h
    obtain ⟨s1, h1, h⟩ := Out.bind_eq_ret h
    unfold DistinctNames at dist
    rw [List.pairwise_cons] at dist
    have := ih dist.2 h
    simp only [assoc]
    by_cases e : k = κ
    · subst e
      rw [if_pos rfl]
      have none : assoc k rest = none := by
        cases ha : assoc k rest with
        | none => rfl
        | some w => exact absurd rfl (dist.1 (k, w) (mem_of_assoc' ha))
      rw [none] at this
      simp only at this ⊢
      rw [this]
      exact hit s v s1 h1
    · rw [if_neg e]
      rw [miss s k v s1 e h1] at this
      exact this

/-! ## The same document in another order -/

theorem SameEach.assoc {m m' : List (String × Json F)} (h : SameEach m m') (k : String) :
    match assoc k m, assoc k m' with
    | none, none => True
    | some a, some b => Json.Same a b
    | _, _ => False := by
  induction m generalizing m' with
  | nil => cases h; trivial
  | cons p rest ih =>
    cases h with
    | cons ha hr =>
      rename_i j a b m'
      simp only [Saratoga.assoc]
      by_cases e : j = k
      · rw [if_pos e, if_pos e]; exact ha
      · rw [if_neg e, if_neg e]; exact ih hr

theorem SameEach.names {m m' : List (String × Json F)} (h : SameEach m m') :
    m.map (·.1) = m'.map (·.1) := by
  induction m generalizing m' with
  | nil => cases h; rfl
  | cons p rest ih =>
    cases h with
    | cons ha hr => simp only [List.map_cons, ih hr]

theorem SameEach.mem {m m' : List (String × Json F)} (h : SameEach m m') {k : String} {b : Json F}
    (hb : (k, b) ∈ m') : ∃ a, (k, a) ∈ m ∧ Json.Same a b := by
  induction m generalizing m' with
  | nil => cases h; cases hb
  | cons p rest ih =>
    cases h with
    | cons ha hr =>
      rcases List.mem_cons.1 hb with e | hb
      · cases e; exact ⟨_, List.mem_cons_self, ha⟩
      · obtain ⟨a, h1, h2⟩ := ih hr hb
        exact ⟨a, List.mem_cons_of_mem _ h1, h2⟩

theorem SameEach.mem' {m m' : List (String × Json F)} (h : SameEach m m') {k : String} {a : Json F}
    (ha : (k, a) ∈ m) : ∃ b, (k, b) ∈ m' ∧ Json.Same a b := by
  induction m generalizing m' with
  | nil => cases ha
  | cons p rest ih =>
    cases h with
    | cons hs hr =>
      rcases List.mem_cons.1 ha with e | ha
      · cases e; exact ⟨_, List.mem_cons_self, hs⟩
      · obtain ⟨a, h1, h2⟩ := ih hr ha
        exact ⟨a, List.mem_cons_of_mem _ h1, h2⟩

theorem Json.Same.members {m m' : List (String × Json F)} (h : Json.Same (.obj m) (.obj m')) :
    DistinctNames m ∧ DistinctNames m' ∧
    (∀ k, match assoc k m, assoc k m' with
      | none, none => True
      | some a, some b => Json.Same a b
      | _, _ => False) ∧
    (∀ k b, (k, b) ∈ m' → ∃ a, (k, a) ∈ m ∧ Json.Same a b) ∧
    (∀ k a, (k, a) ∈ m → ∃ b, (k, b) ∈ m' ∧ Json.Same a b) := by
  cases h with
  | obj d p e =>
    rename_i m₂
    refine ⟨d, ?_, ?_, ?_, ?_⟩
    · unfold DistinctNames
      rw [distinct_keys, ← e.names, ← distinct_keys]
      exact (p.pairwise_iff (fun h => Ne.symm h)).1 d
    · intro k
      rw [assoc_perm k p d]
      exact e.assoc k
    · intro k b hb
      obtain ⟨a, h1, h2⟩ := e.mem hb
      exact ⟨a, p.mem_iff.2 h1, h2⟩
    · intro k a ha
      exact e.mem' (p.mem_iff.1 ha)

theorem Json.Same.isText {a b : Json F} (h : Json.Same a b) : IsText a ↔ IsText b := by
  cases h <;> simp [IsText]

theorem Json.Same.isNumber {a b : Json F} (h : Json.Same a b) : IsNumber a ↔ IsNumber b := by
  cases h <;> simp [IsNumber]

theorem Json.Same.asStr {a b : Json F} (h : Json.Same a b) : a.asStr = b.asStr := by
  cases h <;> rfl

theorem Json.Same.asNum {a b : Json F} (h : Json.Same a b) : a.asNum = b.asNum := by
  cases h <;> rfl

theorem SameAll.appendStrs {l l' : List (Json F)} (h : SameAll l l') (x : List String) :
    appendStrs x l = appendStrs x l' := by
  induction l generalizing l' x with
  | nil => cases h; rfl
  | cons a l ih =>
    cases h with
    | cons ha hl =>
      simp only [Saratoga.appendStrs, ha.asStr]
      congr 1
      funext s
      exact ih hl _

theorem Json.Same.isTexts {a b : Json F} (h : Json.Same a b) : IsTexts a ↔ IsTexts b := by
  cases h with
  | arr hl =>
    rename_i l l'
    have h1 := (appendStrs_retIff (F := F) [] l).iff
    have h2 := (appendStrs_retIff (F := F) [] l').iff
    rw [hl.appendStrs] at h1
    unfold IsTexts
    constructor
    · rintro ⟨x, e, hx⟩; cases e; exact ⟨_, rfl, h2.1 (h1.2 hx)⟩
    · rintro ⟨x, e, hx⟩; cases e; exact ⟨_, rfl, h1.1 (h2.2 hx)⟩
  | null | bool | num | str | obj => simp [IsTexts]

theorem Json.Same.isObject {P : String → Json F → Prop} (hP : ∀ k a b, Json.Same a b → (P k a ↔ P k b))
    {a b : Json F} (h : Json.Same a b) : IsObject P a ↔ IsObject P b := by
  cases h with
  | obj d p e =>
    rename_i m m₂ m'
    have h := (Json.Same.obj d p e).members
    unfold IsObject
    constructor
    · rintro ⟨x, ex, hx⟩
      cases ex
      refine ⟨_, rfl, ?_⟩
      rintro ⟨k, b⟩ hb
      obtain ⟨a, ha, hs⟩ := h.2.2.2.1 k b hb
      exact (hP k a b hs).1 (hx (k, a) ha)
    · rintro ⟨x, ex, hx⟩
      cases ex
      refine ⟨_, rfl, ?_⟩
      rintro ⟨k, a⟩ ha
      obtain ⟨b, hb, hs⟩ := h.2.2.2.2 k a ha
      exact (hP k a b hs).2 (hx (k, b) hb)
  | null | bool | num | str | arr => simp [IsObject]

mutual

theorem Json.Same.proper : {a b : Json F} → Json.Same a b → a.Proper ∧ b.Proper
  | _, _, .null => ⟨.null, .null⟩
  | _, _, .bool b => ⟨.bool b, .bool b⟩
  | _, _, .num b => ⟨.num b, .num b⟩
  | _, _, .str b => ⟨.str b, .str b⟩
  | _, _, .arr h => ⟨.arr h.proper.1, .arr h.proper.2⟩
  | _, _, .obj d p e => ⟨.obj d (fun x hx => e.proper.1 x (p.mem_iff.1 hx)),
      .obj (by
        unfold DistinctNames
        rw [distinct_keys, ← e.names, ← distinct_keys]
        exact (p.pairwise_iff (fun h => Ne.symm h)).1 d) e.proper.2⟩

theorem SameAll.proper : {l l' : List (Json F)} → SameAll l l' →
    (∀ x ∈ l, Json.Proper x) ∧ (∀ x ∈ l', Json.Proper x)
  | _, _, .nil => ⟨by simp, by simp⟩
  | _, _, .cons h hl => by
    have h1 := h.proper
    have h2 := hl.proper
    constructor
    · intro x hx
      rcases List.mem_cons.1 hx with e | hx
      · rw [e]; exact h1.1
      · exact h2.1 x hx
    · intro x hx
      rcases List.mem_cons.1 hx with e | hx
      · rw [e]; exact h1.2
      · exact h2.2 x hx

theorem SameEach.proper : {m m' : List (String × Json F)} → SameEach m m' →
    (∀ p ∈ m, Json.Proper p.2) ∧ (∀ p ∈ m', Json.Proper p.2)
  | _, _, .nil => ⟨by simp, by simp⟩
  | _, _, .cons h hl => by
    have h1 := h.proper
    have h2 := hl.proper
    constructor
    · intro x hx
      rcases List.mem_cons.1 hx with e | hx
      · rw [e]; exact h1.1
      · exact h2.1 x hx
    · intro x hx
      rcases List.mem_cons.1 hx with e | hx
      · rw [e]; exact h1.2
      · exact h2.2 x hx

end

end Saratoga
