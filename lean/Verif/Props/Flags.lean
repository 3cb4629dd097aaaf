import Verif.Lemmas.Flags
/-!
# C07 - C10: header fields (`sarflags/sarflags.go`)

The tables are arbitrary; the only hypotheses are that the field concerned is a usable table entry
(`FlagType.WF`) and, where two fields occur, that they share no bit.  C09 shows the shipped tables
meet them.
-/
namespace Saratoga

/-! ## C07 -/

/-- **C07** What `Get` reads is the number in the field's bits of the header. -/
theorem C07_get_number (T : Tables) (field : String) (wf : (T.flag field).WF) (h : BitVec 32) :
    (get T h field).toNat =
      fieldNumber 32 (T.flag field).len.toNat (T.flag field).msb.toNat h.toNat := by
  rw [get_eq, bitsGet_toNat (by decide) _ _ _ wf.1, fieldNumber]

example := C07_get_number shipped "descriptor" (by decide +kernel) 0x23480000#32

/-- **C07** `Set` of a listed option succeeds; `Get`, `GetStr`, `Name` and `Test` then report it. -/
theorem C07_get_after_set (T : Tables) (field option : String) (fl : FlagType 32) (v : BitVec 32)
    (listed : assoc field T.flags = some fl) (wf : fl.WF)
    (isOption : assoc option fl.options = some v) (h : BitVec 32) :
    ∃ h', set T h field option = .ret h' ∧ get T h' field = v ∧
      getStr T h' field = .ret option ∧ name T h' field = .ret option ∧
      test T h' field option = .ret true := by
  have hfl := flag_of_assoc listed
  have hv : v.toNat < 2 ^ fl.len.toNat := wf.2.1 _ (assoc_mem isOption)
  have hget : ∀ cur, get T (bitsSet fl.len fl.msb cur v) field = v := by
    intro cur
    rw [get_eq, hfl, bitsGet_bitsSet (by decide) _ _ _ _ wf.1 hv]
  have hopt : optName v fl.options = some option :=
    optName_of_mem wf.2.2.1 (assoc_mem isOption)
  refine ⟨_, set_eq listed isOption h, hget h, ?_, ?_, ?_⟩
  · simp [getStr, hget, hfl, hopt]
  · simp [name, hget, hfl, hopt]
  · simp [test, set_eq listed isOption, hget]

/-- **C07** `GetStr` returns a name exactly when it is the option with the field's number. -/
theorem C07_getStr_iff (T : Tables) (field : String) (wf : (T.flag field).WF) (h : BitVec 32)
    (option : String) :
    getStr T h field = .ret option ↔ (option, get T h field) ∈ (T.flag field).options := by
  unfold getStr
  constructor
  · intro hh
    split at hh
    · rename_i k hk
      cases hh
      exact optName_mem hk
    · cases hh
  · intro hm
    rw [optName_of_mem wf.2.2.1 hm]

example := C07_getStr_iff shipped "descriptor" (by decide +kernel) 0x23480000#32 "d32"

/-- **C07** `GetStr` ends the process exactly when no option has the field's number. -/
theorem C07_getStr_fatal_iff (T : Tables) (field : String) (h : BitVec 32) :
    getStr T h field = .fatal ↔ ∀ k, (k, get T h field) ∉ (T.flag field).options := by
  unfold getStr
  rw [← optName_none]
  split <;> simp_all

/-- **C07** `Set` with anything but a listed field and option ends the process. -/
theorem C07_set_fatal_iff (T : Tables) (field option : String) (h : BitVec 32) :
    set T h field option = .fatal ↔ valid T field option = false := by
  rcases set_cases T h field option with ⟨hv, fl, v, _, _, hs⟩ | ⟨hv, hs⟩ <;> simp [hs, hv]

/-- **C07** `Value` is the number of a listed option, the one `Get` reads after `Set`, and -1 for anything else. -/
theorem C07_value (T : Tables) (field option : String) :
    (value T field option = -1 ↔ valid T field option = false) ∧
    ∀ h h', (T.flag field).WF → set T h field option = .ret h' → value T field option = (get T h' field).toNat := by
  have hval : value T field option = -1 ↔ assoc option (T.flag field).options = none := by
    unfold value
    cases assoc option (T.flag field).options with
    | none => simp
    | some v => simp only [reduceCtorEq]
  refine ⟨?_, fun h h' wf hs => ?_⟩
  · rw [hval]
    unfold valid good
    cases hf : assoc field T.flags with
    | none => simp [Tables.flag, hf, FlagType.zero, assoc]
    | some fl => simp
  · rcases set_cases T h field option with ⟨hv, fl, v, hf, ho, hs'⟩ | ⟨hv, hs'⟩
    · have hfl := flag_of_assoc hf
      rw [hfl] at wf
      obtain ⟨h2, g1, g2, _⟩ := C07_get_after_set T field option fl v hf wf ho h
      rw [g1] at hs
      cases hs
      unfold value
      rw [hfl, ho, g2]
    · rw [hs'] at hs; cases hs

/-- **C07** A pair passes `Valid` just when the table lists the field and, for it, the option; `ValidD` and `GoodT`
are the same for their tables. -/
theorem C07_valid_iff (T : Tables) (field option : String) :
    (valid T field option = true ↔ ∃ fl v, assoc field T.flags = some fl ∧ assoc option fl.options = some v) ∧
    (validD T field option = true ↔ ∃ fl v, assoc field T.dirent = some fl ∧ assoc option fl.options = some v) ∧
    (goodT T option = true ↔ ∃ v, assoc option T.ts.options = some v) := by
  refine ⟨?_, ?_, ?_⟩
  · unfold valid good
    cases hf : assoc field T.flags with
    | none => simp
    | some fl => simp [flag_of_assoc hf, Option.isSome_iff_exists]
  · unfold validD goodD
    cases hf : assoc field T.dirent with
    | none => simp
    | some fl => simp [dflag_of_assoc hf, Option.isSome_iff_exists]
  · simp [goodT, Option.isSome_iff_exists]

/-- **C07** `SetD` and `AddFlagD` end the process on anything but a listed field and option, `SetT` on anything but a
listed name. -/
theorem C07_setD_fatal_iff (T : Tables) (field option cur : String) (h : BitVec 16) (ht : BitVec 8) :
    (setD T h field option = .fatal ↔ validD T field option = false) ∧
    (addFlagD T cur field option = .fatal ↔ validD T field option = false) ∧
    (addFlag T cur field option = .fatal ↔ valid T field option = false) ∧
    (setT T ht option = .fatal ↔ goodT T option = false) := by
  refine ⟨?_, ?_, ?_, ?_⟩
  · unfold setD validD
    by_cases hg : goodD T field = true
    · simp only [hg, if_true]
      cases assoc option (T.dflag field).options <;> simp
    · simp [hg]
  · unfold addFlagD
    by_cases hv : validD T field option = true
    · simp only [hv, if_true]; split <;> simp
    · simp [hv]
  · unfold addFlag
    by_cases hv : valid T field option = true
    · simp only [hv, if_true]; split <;> simp
    · simp [hv]
  · unfold setT goodT
    cases assoc option T.ts.options <;> simp

/-- **C07** A field that is not in its table reads as number 0 from every header, has no name, and cannot be set. -/
theorem C07_unlisted (T : Tables) (field : String) :
    (assoc field T.flags = none → ∀ h option, get T h field = 0 ∧ getStr T h field = .fatal ∧
      set T h field option = .fatal) ∧
    (assoc field T.dirent = none → ∀ h option, getD T h field = 0 ∧ getDStr T h field = .fatal ∧
      setD T h field option = .fatal) := by
  refine ⟨fun e h option => ⟨?_, ?_, ?_⟩, fun e h option => ⟨?_, ?_, ?_⟩⟩
  · simp [get, Tables.flag, e, FlagType.zero]
  · simp [getStr, Tables.flag, e, FlagType.zero, optName]
  · simp [set, good, e]
  · simp [getD, Tables.dflag, e, FlagType.zero]
  · simp [getDStr, Tables.dflag, e, FlagType.zero, optName]
  · simp [setD, goodD, e]

example : assoc "fileordir" shipped.flags = none ∧ assoc "fileordir" shipped.dirent = none := by decide +kernel

/-- **C07** The same for directory entry flags. -/
theorem C07_getD_after_setD (T : Tables) (field option : String) (fl : FlagType 16) (v : BitVec 16)
    (listed : assoc field T.dirent = some fl) (wf : fl.WF)
    (isOption : assoc option fl.options = some v) (h : BitVec 16) :
    ∃ h', setD T h field option = .ret h' ∧ getD T h' field = v ∧
      getDStr T h' field = .ret option ∧ nameD T h' field = .ret option ∧
      testD T h' field option = .ret true := by
  have hfl := dflag_of_assoc listed
  have hv : v.toNat < 2 ^ fl.len.toNat := wf.2.1 _ (assoc_mem isOption)
  have hget : ∀ cur, getD T (bitsSet fl.len fl.msb cur v) field = v := by
    intro cur
    rw [getD_eq, hfl, bitsGet_bitsSet (by decide) _ _ _ _ wf.1 hv]
  have hopt : optName v fl.options = some option :=
    optName_of_mem wf.2.2.1 (assoc_mem isOption)
  refine ⟨_, setD_eq listed isOption h, hget h, ?_, ?_, ?_⟩
  · have : getDStr T (bitsSet fl.len fl.msb h v) field =
        (match optName (getD T (bitsSet fl.len fl.msb h v) field) (T.dflag field).options with
          | some k => .ret k | none => .fatal) := rfl
    rw [this, hget, hfl, hopt]
  · simp [nameD, hget, hfl, hopt]
  · simp [testD, setD_eq listed isOption, hget]

example := C07_getD_after_setD shipped "descriptor" "d16" _ 0 rfl (by decide +kernel) (by decide +kernel) 0xFFFF#16

/-- **C07** What `GetD` reads. -/
theorem C07_getD_number (T : Tables) (field : String) (wf : (T.dflag field).WF) (h : BitVec 16) :
    (getD T h field).toNat =
      fieldNumber 16 (T.dflag field).len.toNat (T.dflag field).msb.toNat h.toNat := by
  rw [getD_eq, bitsGet_toNat (by decide) _ _ _ wf.1, fieldNumber]

example := C07_getD_number shipped "descriptor" (by decide +kernel) 0x8080#16

/-- **C07** The same for the timestamp type. -/
theorem C07_getT_after_setT (T : Tables) (option : String) (v : BitVec 8) (wf : T.ts.WF)
    (isOption : assoc option T.ts.options = some v) (h : BitVec 8) :
    ∃ h', setT T h option = .ret h' ∧ getT T h' = v ∧
      getTStr T h' = .ret option ∧ nameT T h' = .ret option := by
  have hv : v.toNat < 2 ^ T.ts.len.toNat := wf.2.1 _ (assoc_mem isOption)
  have hget : ∀ cur, getT T (bitsSet T.ts.len T.ts.msb cur v) = v := by
    intro cur
    rw [getT_eq, bitsGet_bitsSet (by decide) _ _ _ _ wf.1 hv]
  have hopt : optName v T.ts.options = some option :=
    optName_of_mem wf.2.2.1 (assoc_mem isOption)
  refine ⟨_, setT_eq isOption h, hget h, ?_, ?_⟩
  · have : getTStr T (bitsSet T.ts.len T.ts.msb h v) =
        (match optName (getT T (bitsSet T.ts.len T.ts.msb h v)) T.ts.options with
          | some k => .ret k | none => .fatal) := rfl
    rw [this, hget, hopt]
  · simp [nameT, hget, hopt]

example := C07_getT_after_setT shipped "posix64" 2 (by decide +kernel) (by decide +kernel) 0xFF#8

/-- **C07** What `GetT` reads. -/
theorem C07_getT_number (T : Tables) (wf : T.ts.WF) (h : BitVec 8) :
    (getT T h).toNat = fieldNumber 8 T.ts.len.toNat T.ts.msb.toNat h.toNat := by
  rw [getT_eq, bitsGet_toNat (by decide) _ _ _ wf.1, fieldNumber]

example := C07_getT_number shipped (by decide +kernel) 0xFF#8

/-! ## C08 -/

/-- **C08** `Set` changes no bit outside its field. Bit `j` counts from the left, as in the tables. -/
theorem C08_set_outside (T : Tables) (field option : String) (fl : FlagType 32)
    (listed : assoc field T.flags = some fl) (wf : fl.WF) (h h' : BitVec 32)
    (ok : set T h field option = .ret h') (j : Nat)
    (outside : j < fl.msb.toNat ∨ fl.msb.toNat + fl.len.toNat ≤ j) :
    h'.getMsbD j = h.getMsbD j := by
  rcases set_cases T h field option with ⟨_, fl', v, hf, ho, hs⟩ | ⟨_, hs⟩
  · rw [listed] at hf; cases hf
    rw [hs] at ok; cases ok
    rw [BitVec.getMsbD_eq_getLsbD, BitVec.getMsbD_eq_getLsbD]
    by_cases hj : j < 32
    · have hv : v.toNat < 2 ^ fl.len.toNat := wf.2.1 _ (assoc_mem ho)
      have h1 := wf.1
      rw [bitsSet_outside (by decide) _ _ _ _ wf.1 hv _ (by omega)]
    · simp [hj]
  · rw [hs] at ok; cases ok

example := C08_set_outside shipped "errcode" "fileinuse" _ rfl (by decide +kernel) 0 _ rfl 3 (by decide +kernel)

/-- **C08** `Set` on one field leaves `Get` of any disjoint field unchanged. -/
theorem C08_set_other_field (T : Tables) (field option other : String) (fl : FlagType 32)
    (listed : assoc field T.flags = some fl) (wf : fl.WF)
    (wf' : (T.flag other).WF) (disj : fl.Disjoint (T.flag other)) (h h' : BitVec 32)
    (ok : set T h field option = .ret h') :
    get T h' other = get T h other ∧ getStr T h' other = getStr T h other := by
  rcases set_cases T h field option with ⟨_, fl', v, hf, ho, hs⟩ | ⟨_, hs⟩
  · rw [listed] at hf; cases hf
    rw [hs] at ok; cases ok
    have hv : v.toNat < 2 ^ fl.len.toNat := wf.2.1 _ (assoc_mem ho)
    have : get T (bitsSet fl.len fl.msb h v) other = get T h other := by
      rw [get_eq, get_eq]
      exact bitsGet_bitsSet_disjoint (by decide) _ _ _ _ _ _ wf'.1 wf.1 hv disj.symm
    exact ⟨this, by simp [getStr, this]⟩
  · rw [hs] at ok; cases ok

example := C08_set_other_field shipped "txwilling" "yes" "rxwilling" _ rfl (by decide +kernel) (by decide +kernel)
  (by decide +kernel) 0 _ rfl

/-- **C08** for directory entry flags. -/
theorem C08_setD_other_field (T : Tables) (field option other : String) (fl : FlagType 16)
    (listed : assoc field T.dirent = some fl) (wf : fl.WF)
    (wf' : (T.dflag other).WF) (disj : fl.Disjoint (T.dflag other)) (h h' : BitVec 16)
    (ok : setD T h field option = .ret h') :
    getD T h' other = getD T h other := by
  unfold setD at ok
  have hg : goodD T field = true := by simp [goodD, listed]
  simp only [hg, if_true, dflag_of_assoc listed] at ok
  split at ok
  · cases ok
  · rename_i v ho
    have hv : v.toNat < 2 ^ fl.len.toNat := wf.2.1 _ (assoc_mem ho)
    cases ok
    rw [getD_eq, getD_eq]
    exact bitsGet_bitsSet_disjoint (by decide) _ _ _ _ _ _ wf'.1 wf.1 hv disj.symm

example := C08_setD_other_field shipped "descriptor" "d32" "dirtype" _ rfl (by decide +kernel) (by decide +kernel)
  (by decide +kernel) 0 _ rfl

/-- **C08** for directory entry flags: no bit outside the field changes. -/
theorem C08_setD_outside (T : Tables) (field option : String) (fl : FlagType 16)
    (listed : assoc field T.dirent = some fl) (wf : fl.WF) (h h' : BitVec 16)
    (ok : setD T h field option = .ret h') (j : Nat)
    (outside : j < fl.msb.toNat ∨ fl.msb.toNat + fl.len.toNat ≤ j) :
    h'.getMsbD j = h.getMsbD j := by
  unfold setD at ok
  have hg : goodD T field = true := by simp [goodD, listed]
  simp only [hg, if_true, dflag_of_assoc listed] at ok
  split at ok
  · cases ok
  · rename_i v ho
    have hv : v.toNat < 2 ^ fl.len.toNat := wf.2.1 _ (assoc_mem ho)
    have h1 := wf.1
    have e : bitsSet fl.len fl.msb h v = h' := by cases ok; rfl
    subst e
    rw [BitVec.getMsbD_eq_getLsbD, BitVec.getMsbD_eq_getLsbD]
    by_cases hj : j < 16
    · rw [bitsSet_outside (by decide) _ _ _ _ wf.1 hv _ (by omega)]
    · simp [hj]

example := C08_setD_outside shipped "descriptor" "d32" _ rfl (by decide +kernel) 0 _ rfl 3 (by decide +kernel)

/-- **C08** for the timestamp byte. -/
theorem C08_setT_outside (T : Tables) (option : String) (wf : T.ts.WF) (h h' : BitVec 8)
    (ok : setT T h option = .ret h') (j : Nat)
    (outside : j < T.ts.msb.toNat ∨ T.ts.msb.toNat + T.ts.len.toNat ≤ j) :
    h'.getMsbD j = h.getMsbD j := by
  unfold setT at ok
  split at ok
  · cases ok
  · rename_i v ho
    have hv : v.toNat < 2 ^ T.ts.len.toNat := wf.2.1 _ (assoc_mem ho)
    have h1 := wf.1
    have e : bitsSet T.ts.len T.ts.msb h v = h' := by cases ok; rfl
    subst e
    rw [BitVec.getMsbD_eq_getLsbD, BitVec.getMsbD_eq_getLsbD]
    by_cases hj : j < 8
    · rw [bitsSet_outside (by decide) _ _ _ _ wf.1 hv _ (by omega)]
    · simp [hj]

/-- A directory entry word of ones keeps its ones outside `descriptor`. -/
example : setD shipped 0xFFFF#16 "descriptor" "d16" = .ret 0xFF3F#16 := by decide +kernel

/-! ## C09 -/

/-- **C09** Every entry of the shipped header table is usable. -/
theorem C09_flags_wf : ∀ p ∈ shipped.flags, p.2.WF := by decide +kernel

/-- **C09** Every entry of the shipped directory entry table is usable. -/
theorem C09_dirent_wf : ∀ p ∈ shipped.dirent, p.2.WF := by decide +kernel

/-- **C09** The shipped timestamp table is usable. -/
theorem C09_ts_wf : shipped.ts.WF := by decide +kernel

/-- **C09** Table keys are distinct. -/
theorem C09_keys_distinct :
    shipped.flags.Pairwise (fun a b => a.1 ≠ b.1) ∧
    shipped.dirent.Pairwise (fun a b => a.1 ≠ b.1) ∧
    shipped.frameflags.Pairwise (fun a b => a.1 ≠ b.1) := by decide +kernel

/-- **C09** The fields of one frame type share no bit. -/
theorem C09_frame_fields_disjoint :
    ∀ p ∈ shipped.frameflags, p.2.Pairwise (fun a b => (shipped.flag a).Disjoint (shipped.flag b)) := by
  decide +kernel

/-- **C09** The directory entry fields share no bit. -/
theorem C09_dirent_fields_disjoint :
    shipped.dirent.Pairwise (fun a b => a.2.Disjoint b.2) := by decide +kernel

/-- **C09** All fields of all frame types are listed, except `fileordir` of the request frame, which
the shipped flag table lacks (so looking it up ends the process). -/
theorem C09_fields_listed :
    ∀ p ∈ shipped.frameflags, ∀ f ∈ p.2, good shipped f = true ∨ (p.1 = "request" ∧ f = "fileordir") := by
  decide +kernel

/-- **C09** `fileordir` is indeed missing. -/
theorem C09_fileordir_missing : good shipped "fileordir" = false := by decide +kernel

/-- **C09** Consequence: on the shipped tables any listed field can be set to any of its options and
is read back, whatever the header was. -/
theorem C09_shipped_set_get (field option : String) (ok : valid shipped field option = true)
    (h : BitVec 32) :
    ∃ h', set shipped h field option = .ret h' ∧ getStr shipped h' field = .ret option := by
  rcases set_cases shipped h field option with ⟨_, fl, v, hf, ho, hs⟩ | ⟨hv, _⟩
  · obtain ⟨h', h1, _, h2, _⟩ :=
      C07_get_after_set shipped field option fl v hf (C09_flags_wf _ (assoc_mem hf)) ho h
    exact ⟨h', h1, h2⟩
  · rw [ok] at hv; cases hv

/-! ## C10 -/

theorem getStr_order_aux (T T' : Tables) (same : SameMaps T T') (field : String)
    (wf : (T.flag field).WF) (h : BitVec 32) :
    get T h field = get T' h field ∧ getStr T h field = getStr T' h field := by
  obtain ⟨h1, h2, h3⟩ := same.1 field
  have hg : get T h field = get T' h field := by rw [get_eq, get_eq, h1, h2]
  refine ⟨hg, ?_⟩
  unfold getStr
  rw [hg, optName_perm _ h3 wf.2.2.1]

/-- **C10** `GetStr` and `Name` do not depend on the order the option map is iterated in. -/
theorem C10_getStr_order (T T' : Tables) (same : SameMaps T T') (field : String)
    (wf : (T.flag field).WF) (h : BitVec 32) :
    getStr T h field = getStr T' h field ∧ name T h field = name T' h field :=
  ⟨(getStr_order_aux T T' same field wf h).2, (getStr_order_aux T T' same field wf h).2⟩

/-- **C10** The same for directory entry flags. -/
theorem C10_getDStr_order (T T' : Tables) (same : SameMaps T T') (field : String)
    (wf : (T.dflag field).WF) (h : BitVec 16) :
    getDStr T h field = getDStr T' h field ∧ nameD T h field = nameD T' h field := by
  obtain ⟨h1, h2, h3⟩ := same.2.1 field
  have hg : getD T h field = getD T' h field := by rw [getD_eq, getD_eq, h1, h2]
  have key : nameD T h field = nameD T' h field := by
    unfold nameD
    simp only [hg]
    rw [optName_perm _ h3 wf.2.2.1]
  exact ⟨key, key⟩

/-- **C10** The same for timestamp types. -/
theorem C10_getTStr_order (T T' : Tables) (same : SameMaps T T') (wf : T.ts.WF) (h : BitVec 8) :
    getTStr T h = getTStr T' h ∧ nameT T h = nameT T' h := by
  obtain ⟨h1, h2, h3⟩ := same.2.2
  have hg : getT T h = getT T' h := by rw [getT_eq, getT_eq, h1, h2]
  have key : nameT T h = nameT T' h := by
    unfold nameT
    simp only [hg]
    rw [optName_perm _ h3 wf.2.2.1]
  exact ⟨key, key⟩

/-- **C10** `SetFlags` gives the same header (or ends the process) in every iteration order of its
map, as long as the fields named in it are usable and pairwise disjoint. -/
theorem C10_setFlags_order (T : Tables) (m m' : List (String × String)) (perm : m.Perm m')
    (wf : ∀ p ∈ m, (T.flag p.1).WF)
    (disj : m.Pairwise (fun a b => (T.flag a.1).Disjoint (T.flag b.1))) (h : BitVec 32) :
    setFlags T h m = setFlags T h m' := by
  induction perm generalizing h with
  | nil => rfl
  | @cons p l₁ l₂ _ ih =>
    obtain ⟨f, v⟩ := p
    rw [List.pairwise_cons] at disj
    unfold setFlags
    cases set T h f v with
    | ret a => exact ih (fun p hp => wf p (by simp [hp])) disj.2 a
    | fatal => rfl
    | panic => rfl
  | swap p q l =>
    obtain ⟨f, v⟩ := p
    obtain ⟨f', v'⟩ := q
    simp only [List.pairwise_cons, List.mem_cons] at disj
    have hd := disj.1 (f, v) (Or.inl rfl)
    have w1 := wf (f, v) (by simp)
    have w2 := wf (f', v') (by simp)
    simp only [setFlags]
    rcases set_cases T h f v with ⟨_, fl, x, hf, ho, hs⟩ | ⟨hv, hs⟩
    · rcases set_cases T h f' v' with ⟨_, fl', x', hf', ho', hs'⟩ | ⟨hv', hs'⟩
      · rw [flag_of_assoc hf] at w1 hd
        rw [flag_of_assoc hf'] at w2 hd
        rw [hs, hs']
        simp only [Out.ret_bind]
        rw [set_eq hf ho, set_eq hf' ho']
        simp only [Out.ret_bind]
        rw [bitsSet_comm (by decide) _ _ _ _ _ _ _ w1.1 w2.1 (w1.2.1 _ (assoc_mem ho))
          (w2.2.1 _ (assoc_mem ho')) hd.symm]
      · have := (C07_set_fatal_iff T f' v' (bitsSet fl.len fl.msb h x)).2 hv'
        simp [hs, hs', this]
    · rcases set_cases T h f' v' with ⟨_, fl', x', hf', ho', hs'⟩ | ⟨hv', hs'⟩
      · have := (C07_set_fatal_iff T f v (bitsSet fl'.len fl'.msb h x')).2 hv
        simp [hs, hs', this]
      · simp [hs, hs']
  | trans p1 p2 ih1 ih2 =>
    rw [ih1 wf disj h]
    apply ih2
    · intro p hp; exact wf p (p1.mem_iff.2 hp)
    · exact (p1.pairwise_iff (fun h => Or.symm h)).1 disj

/-! ## The hypotheses are met -/

example : assoc "errcode" shipped.flags = some (shipped.flag "errcode") ∧ (shipped.flag "errcode").WF ∧
    assoc "fileinuse" (shipped.flag "errcode").options = some 15 := by decide +kernel

example : (shipped.flag "txwilling").Disjoint (shipped.flag "rxwilling") := by decide +kernel

/-- Overlapping fields do occur across frame types (`eod` of data and `udplite` of beacons), which is
why disjointness is a hypothesis: here the order matters. -/
example : setFlags shipped 0 [("eod", "yes"), ("udplite", "no")] ≠
    setFlags shipped 0 [("udplite", "no"), ("eod", "yes")] := by decide +kernel

example : SameMaps shipped { shipped with ts := { shipped.ts with options := shipped.ts.options.reverse } } :=
  ⟨fun _ => ⟨rfl, rfl, List.Perm.refl _⟩, fun _ => ⟨rfl, rfl, List.Perm.refl _⟩, rfl, rfl,
    (List.reverse_perm _).symm⟩

example : setFlags shipped 0 [("txwilling", "yes"), ("rxwilling", "capable"), ("descriptor", "d64")] =
    .ret 0x008E0000#32 := by decide +kernel

end Saratoga
