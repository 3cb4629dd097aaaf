import Verif.Model.FlagNames
import Verif.Model.Shipped
/-! # C189: the lists of flag names are complete -/
namespace Saratoga

theorem collectKeys_eq {β : Type} (l : List (String × β)) : collectKeys l = l.map (·.1) := by
  have : ∀ (l : List (String × β)) (s : List String), l.foldl (fun s e => s ++ [e.1]) s = s ++ l.map (·.1) := by
    intro l
    induction l with
    | nil => intro s; simp
    | cons a l ih => intro s; rw [List.foldl_cons, ih]; simp
  unfold collectKeys
  rw [this]
  rfl

theorem assoc_key_iff {β : Type} (k : String) (m : List (String × β)) : (assoc k m).isSome = true ↔ k ∈ m.map (·.1) := by
  induction m with
  | nil => simp [assoc]
  | cons a m ih =>
    obtain ⟨a, b⟩ := a
    unfold assoc
    rw [List.map_cons, List.mem_cons]
    by_cases h : a = k
    · rw [if_pos h]; simp [h]
    · rw [if_neg h, ih]
      exact ⟨.inr, fun o => o.resolve_left (Ne.symm h)⟩

/-- The keys collected are those of the map, each as often as it is there. -/
theorem collectKeys_perm {β : Type} {l m : List (String × β)} (p : l.Perm m) : (collectKeys l).Perm (m.map (·.1)) := by
  rw [collectKeys_eq]
  exact p.map _

/-- **C189, time stamps.** In whatever order the map is gone through, the names listed are exactly those `GoodT` accepts, each
once. -/
theorem C189_times (T : Tables) (range : List (String × BitVec 8) → List (String × BitVec 8)) (all : ∀ m, (range m).Perm m)
    (map : (T.ts.options.map (·.1)).Nodup) :
    (∀ name, name ∈ frameT range T ↔ goodT T name = true) ∧ (frameT range T).Nodup := by
  have p := collectKeys_perm (all T.ts.options)
  exact ⟨fun name => by unfold frameT goodT; rw [p.mem_iff, assoc_key_iff], p.nodup_iff.2 map⟩

/-- **C189, fields.** So are the fields of a directory entry: exactly those `GoodD` accepts, each once. -/
theorem C189_fields (T : Tables) (range : List (String × FlagType 16) → List (String × FlagType 16))
    (all : ∀ m, (range m).Perm m) (map : (T.dirent.map (·.1)).Nodup) :
    (∀ name, name ∈ flagD range T ↔ goodD T name = true) ∧ (flagD range T).Nodup := by
  have p := collectKeys_perm (all T.dirent)
  exact ⟨fun name => by unfold flagD goodD; rw [p.mem_iff, assoc_key_iff], p.nodup_iff.2 map⟩

/-- **C189, values.** And so are the values of each field: exactly those `ValidD` accepts for it, each once, and none for a field
that is not there. -/
theorem C189_values (T : Tables) (range : List (String × BitVec 16) → List (String × BitVec 16)) (all : ∀ m, (range m).Perm m)
    (field : String) (map : ((T.dflag field).options.map (·.1)).Nodup) :
    (∀ name, name ∈ frameD range T field ↔ validD T field name = true) ∧ (frameD range T field).Nodup ∧
    (goodD T field = false → frameD range T field = []) := by
  have p := collectKeys_perm (all (T.dflag field).options)
  have none_ : goodD T field = false → (T.dflag field).options = [] := by
    intro h
    unfold goodD at h
    unfold Tables.dflag
    cases e : assoc field T.dirent with
    | none => rfl
    | some v => rw [e] at h; cases h
  refine ⟨fun name => ?_, p.nodup_iff.2 map, fun h => ?_⟩
  · unfold frameD validD
    rw [p.mem_iff, ← assoc_key_iff]
    by_cases g : goodD T field = true
    · rw [if_pos g]
    · rw [if_neg g, none_ (by simpa using g)]
      simp [assoc]
  · unfold frameD at p ⊢
    rw [none_ h] at p ⊢
    exact List.eq_nil_of_length_eq_zero (by rw [p.length_eq]; rfl)

/-- **C189** With the tables of the program, and whatever is told as the name of a header is in the list. -/
theorem C189_shipped (r8 : List (String × BitVec 8) → List (String × BitVec 8)) (all8 : ∀ m, (r8 m).Perm m) :
    (frameT r8 shipped).Perm (shipped.ts.options.map (·.1)) ∧
    ∀ cur name, nameT shipped cur = .ret name → name ∈ frameT r8 shipped := by
  have p : (frameT r8 shipped).Perm _ := collectKeys_perm (all8 shipped.ts.options)
  refine ⟨p, fun cur name h => ?_⟩
  rw [p.mem_iff]
  have key : ∀ (v : BitVec 8) (l : List (String × BitVec 8)) (k : String), optName v l = some k → k ∈ l.map (·.1) := by
    intro v l
    induction l with
    | nil => intro k h; cases h
    | cons a l ih =>
      obtain ⟨a, b⟩ := a
      intro k h
      unfold optName at h
      split at h
      · cases h; simp
      · rw [List.map_cons]; exact List.mem_cons_of_mem _ (ih k h)
  unfold nameT at h
  simp only at h
  split at h
  · rename_i k e
    cases h
    exact key _ _ _ e
  · cases h

example := C189_times shipped List.reverse (fun m => List.reverse_perm m) (by decide)
example := C189_fields shipped List.reverse (fun m => List.reverse_perm m) (by decide)
example := C189_values shipped List.reverse (fun m => List.reverse_perm m) "property" (by decide)
example : frameD List.reverse shipped "property" ≠ [] := by decide

end Saratoga
