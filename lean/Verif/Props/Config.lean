import Verif.Lemmas.ConfigRead
import Verif.Model.ShippedDoc
/-!
# C15, C78 - C81: reading the configuration file

`cv` are the conversions of the machine, `iter` the order in which the last loop meets the flags, `env` the
environment variable `SARDIR` and `ts` what the global `TimeStamps` held before the call.
-/
namespace Saratoga

variable {F : Type}

/-- An order of iteration: any permutation of the entries of a map. -/
def IsOrder (iter : List (String × String) → List (String × String)) : Prop := ∀ l, (iter l).Perm l

/-! ## Helper lemmas -/

theorem conf_global (c : Conf) : c.global =
    [("csumtype", c.csumtype), ("freespace", c.freespace), ("txwilling", c.txwilling),
     ("rxwilling", c.rxwilling), ("stream", c.stream), ("reqtstamp", c.reqtstamp),
     ("reqstatus", c.reqstatus), ("udplite", c.udplite), ("descriptor", c.descriptor)] := by
  simp [Conf.global, mapSet]

theorem firstInvalid_none {T : Tables} {l : List (String × String)} :
    firstInvalid T l = none ↔ ∀ p ∈ l, valid T p.1 p.2 = true := by
  induction l with
  | nil => simp [firstInvalid]
  | cons p rest ih =>
    obtain ⟨f, v⟩ := p
    simp only [firstInvalid]
    by_cases h : valid T f v = false
    · rw [if_pos h]; simp [h]
    · rw [if_neg h, ih]
      have : valid T f v = true := by simpa using h
      simp [this]

/-- A call that comes back has run the big loop to its end. -/
theorem readConfig_ret {cv : Conv F} {iter} {env : List Byte} {ts : FlagType 8} {doc : List (String × Json F)}
    {l : Loaded} {e : Option Err} (h : readConfig cv iter env ts doc = .ret (l, e)) :
    ∃ st, eachMember (loadStep cv) ⟨Conf.zero, ⟨[], [], ts, []⟩, []⟩ doc = .ret st ∧
      l = ⟨st.conf.settings env, st.tables, st.commands⟩ ∧
      e = firstInvalid st.tables (iter st.conf.global) := by
  unfold readConfig at h
  obtain ⟨st, hs, h⟩ := Out.bind_eq_ret h
  cases h
  exact ⟨st, hs, rfl, rfl⟩

theorem SameMap.of_entries {β : Type} {R : List (String × Json F) → β → Prop} {Q : β → β → Prop}
    {m m' : List (String × Json F)} (same : Json.Same (.obj m) (.obj m'))
    (hR : ∀ d d' b b', Json.Same (.obj d) (.obj d') → R d b → R d' b' → Q b b')
    {t t' : List (String × β)} (h : EntriesFrom R m t) (h' : EntriesFrom R m' t') : SameMap Q t t' := by
  intro k
  have a := h k
  have a' := h' k
  have s := same.members.2.2.1 k
  cases e : assoc k m with
  | none =>
    cases e' : assoc k m' with
    | none => rw [e] at a; rw [e'] at a'; simp only at a a'; rw [a, a']; trivial
    | some v' => rw [e, e'] at s; exact s.elim
  | some v =>
    cases e' : assoc k m' with
    | none => rw [e, e'] at s; exact s.elim
    | some v' =>
      rw [e, e'] at s
      rw [e] at a; rw [e'] at a'
      simp only at s a a'
      cases s with
      | obj d p i =>
        obtain ⟨b, hb, hr⟩ := a
        obtain ⟨b', hb', hr'⟩ := a'
        rw [hb, hb']
        exact hR _ _ _ _ (.obj d p i) hr hr'
      | null | bool | num | str | arr => simp only at a a'; rw [a, a']; trivial

theorem Json.Same.numberAt {m m' : List (String × Json F)} (same : Json.Same (.obj m) (.obj m')) {β : Type}
    (f : F → β) (z : β) (k : String) :
    (match assoc k m with | some (.num x) => f x | _ => z) =
      (match assoc k m' with | some (.num x) => f x | _ => z) := by
  have s := same.members.2.2.1 k
  cases e : assoc k m with
  | none =>
    cases e' : assoc k m' with
    | none => rfl
    | some v' => rw [e, e'] at s; exact s.elim
  | some v =>
    cases e' : assoc k m' with
    | none => rw [e, e'] at s; exact s.elim
    | some v' =>
      rw [e, e'] at s
      simp only at s
      cases s <;> rfl

theorem Json.Same.textOf {m m' : List (String × Json F)} (same : Json.Same (.obj m) (.obj m')) (k : String) :
    textOf m k = textOf m' k := by
  have s := same.members.2.2.1 k
  unfold Saratoga.textOf
  cases e : assoc k m with
  | none =>
    cases e' : assoc k m' with
    | none => rfl
    | some v' => rw [e, e'] at s; exact s.elim
  | some v =>
    cases e' : assoc k m' with
    | none => rw [e, e'] at s; exact s.elim
    | some v' =>
      rw [e, e'] at s
      simp only at s
      cases s <;> rfl

theorem Json.Same.membersOf {m m' : List (String × Json F)} (same : Json.Same (.obj m) (.obj m')) (k : String) :
    Json.Same (.obj (membersOf m k)) (.obj (membersOf m' k)) := by
  have s := same.members.2.2.1 k
  have z : Json.Same (F := F) (.obj []) (.obj []) := .obj (by simp [DistinctNames]) (List.Perm.refl _) .nil
  unfold Saratoga.membersOf
  cases e : assoc k m with
  | none =>
    cases e' : assoc k m' with
    | none => exact z
    | some v' => rw [e, e'] at s; exact s.elim
  | some v =>
    cases e' : assoc k m' with
    | none => rw [e, e'] at s; exact s.elim
    | some v' =>
      rw [e, e'] at s
      simp only at s
      cases s with
      | obj d p i => exact .obj d p i
      | null | bool | num | str | arr => exact z

theorem SameAll.texts {l l' : List (Json F)} (h : SameAll l l') :
    l.filterMap Json.text? = l'.filterMap Json.text? := by
  induction l generalizing l' with
  | nil => cases h; rfl
  | cons a l ih =>
    cases h with
    | cons ha hl =>
      rename_i b l'
      have : a.text? = b.text? := by cases ha <;> rfl
      simp only [List.filterMap_cons, this, ih hl]

theorem Json.Same.textsOf {m m' : List (String × Json F)} (same : Json.Same (.obj m) (.obj m')) (k : String) :
    textsOf m k = textsOf m' k := by
  have s := same.members.2.2.1 k
  unfold Saratoga.textsOf
  cases e : assoc k m with
  | none =>
    cases e' : assoc k m' with
    | none => rfl
    | some v' => rw [e, e'] at s; exact s.elim
  | some v =>
    cases e' : assoc k m' with
    | none => rw [e, e'] at s; exact s.elim
    | some v' =>
      rw [e, e'] at s
      simp only at s
      cases s with
      | arr h => exact h.texts
      | null | bool | num | str | obj => rfl

theorem FieldFrom.same {w : Nat} {u : F → BitVec w} {z a b : FlagType w} {m m' : List (String × Json F)}
    (same : Json.Same (.obj m) (.obj m')) (h : FieldFrom u z m a) (h' : FieldFrom u z m' b) :
    FlagType.Same a b := by
  refine ⟨?_, ?_, ?_⟩
  · rw [h.1, h'.1]; exact same.numberAt u z.len "len"
  · rw [h.2.1, h'.2.1]; exact same.numberAt u z.msb "msb"
  · intro o
    rw [h.2.2 o, h'.2.2 o]
    have s := same.members.2.2.1 "options"
    cases e : assoc "options" m with
    | none =>
      cases e' : assoc "options" m' with
      | none => rfl
      | some v' => rw [e, e'] at s; exact s.elim
    | some v =>
      cases e' : assoc "options" m' with
      | none => rw [e, e'] at s; exact s.elim
      | some v' =>
        rw [e, e'] at s
        simp only at s
        cases s with
        | obj d p i => exact (Json.Same.obj d p i).numberAt (fun x => some (u x)) none o
        | null | bool | num | str | arr => rfl

theorem valid_same {T T' : Tables} (h : SameMap FlagType.Same T.flags T'.flags) (f v : String) :
    valid T f v = valid T' f v := by
  have s := h f
  unfold valid good Tables.flag
  cases e : assoc f T.flags with
  | none =>
    cases e' : assoc f T'.flags with
    | none => rfl
    | some b => rw [e, e'] at s; exact s.elim
  | some a =>
    cases e' : assoc f T'.flags with
    | none => rw [e, e'] at s; exact s.elim
    | some b =>
      rw [e, e'] at s
      simp only [Option.isSome_some, if_true, Option.getD_some, s.2.2 v]

/-! ## C78: where the settings and tables come from -/

/-- Every setting that is a text is the text of its member, empty without one. -/
theorem C78_texts {cv : Conv F} {iter} {env : List Byte} {ts : FlagType 8} {doc : List (String × Json F)}
    (d : DistinctNames doc) {l : Loaded} {e : Option Err} (h : readConfig cv iter env ts doc = .ret (l, e)) :
    ∀ p ∈ textSettings, p.2 l.settings = textOf doc p.1 := by
  obtain ⟨st, hs, hl, -⟩ := readConfig_ret h
  subst hl
  intro p hp
  simp only [textSettings, List.mem_cons, List.not_mem_nil, or_false] at hp
  rcases hp with rfl | rfl | rfl | rfl | rfl | rfl | rfl | rfl | rfl | rfl | rfl | rfl | rfl | rfl
  all_goals simp only [Conf.settings, conf_global, assoc, String.reduceEq, if_true, if_false, Option.getD_some]
  · exact load_v4multicast cv d hs rfl
  · exact load_v6multicast cv d hs rfl
  · exact load_timestamp cv d hs rfl
  · exact load_timezone cv d hs rfl
  · exact load_prompt cv d hs rfl
  · exact load_descriptor cv d hs rfl
  · exact load_csumtype cv d hs rfl
  · exact load_freespace cv d hs rfl
  · exact load_txwilling cv d hs rfl
  · exact load_rxwilling cv d hs rfl
  · exact load_stream cv d hs rfl
  · exact load_reqtstamp cv d hs rfl
  · exact load_reqstatus cv d hs rfl
  · exact load_udplite cv d hs rfl

example : DistinctNames shippedDoc ∧ ∃ l e, readConfig intConv id [] (FlagType.zero 8) shippedDoc = .ret (l, e) := by
  refine ⟨by unfold DistinctNames; decide +kernel, _, _, rfl⟩

/-- The flag map has exactly the nine known flags. -/
theorem C78_flags {cv : Conv F} {iter} {env : List Byte} {ts : FlagType 8} {doc : List (String × Json F)}
    {l : Loaded} {e : Option Err} (h : readConfig cv iter env ts doc = .ret (l, e)) (k : String) :
    (∃ v, (k, v) ∈ l.settings.global) ↔ k ∈ globalKeys := by
  obtain ⟨st, hs, hl, -⟩ := readConfig_ret h
  subst hl
  show (∃ v, (k, v) ∈ st.conf.global) ↔ _
  rw [conf_global]
  constructor
  · rintro ⟨v, hv⟩
    simp only [List.mem_cons, List.not_mem_nil, or_false, Prod.mk.injEq] at hv
    rcases hv with h | h | h | h | h | h | h | h | h <;> rw [h.1] <;> decide
  · intro hk
    simp only [globalKeys, List.mem_cons, List.not_mem_nil, or_false] at hk
    rcases hk with rfl | rfl | rfl | rfl | rfl | rfl | rfl | rfl | rfl <;> simp

example := C78_flags (cv := intConv) (iter := id) (env := []) (ts := FlagType.zero 8) (doc := shippedDoc) rfl

/-- Every setting that is a number is the number of its member, zero without one. -/
theorem C78_numbers {cv : Conv F} {iter} {env : List Byte} {ts : FlagType 8} {doc : List (String × Json F)}
    (d : DistinctNames doc) {l : Loaded} {e : Option Err} (h : readConfig cv iter env ts doc = .ret (l, e)) :
    ∀ p ∈ numberSettings (F := F), p.2.2 l.settings = numberOf (p.2.1 cv) doc p.1 := by
  obtain ⟨st, hs, hl, -⟩ := readConfig_ret h
  subst hl
  intro p hp
  simp only [numberSettings, List.mem_cons, List.not_mem_nil, or_false] at hp
  rcases hp with rfl | rfl | rfl | rfl
  · exact load_port cv d hs rfl
  · exact load_ppad cv d hs rfl
  · exact load_buffersize cv d hs rfl
  · exact load_bcount cv d hs rfl

example := C78_numbers (cv := intConv) (iter := id) (env := []) (ts := FlagType.zero 8) (doc := shippedDoc)
  (by unfold DistinctNames; decide +kernel) rfl

/-- Every timer is the number of its member of `"timeout"`, zero without one. -/
theorem C78_timers {cv : Conv F} {iter} {env : List Byte} {ts : FlagType 8} {doc : List (String × Json F)}
    (pr : (Json.obj doc).Proper) {l : Loaded} {e : Option Err}
    (h : readConfig cv iter env ts doc = .ret (l, e)) :
    ∀ p ∈ timerSettings (F := F),
      p.2.2 l.settings.timeout = numberOf (p.2.1 cv) (membersOf doc "timeout") p.1 := by
  obtain ⟨st, hs, hl, -⟩ := readConfig_ret h
  subst hl
  exact timers_read (proper_members pr "timeout").distinct (load_timeout pr.distinct hs)

example : Json.Proper (.obj [("timeout", .obj [("status", .num (5 : Int))]), ("prompt", .str "x")]) := by
  refine .obj (by simp [DistinctNames]) fun p hp => ?_
  rcases List.mem_cons.1 hp with rfl | hp
  · exact .obj (by simp [DistinctNames]) fun q hq => by rw [List.mem_singleton.1 hq]; exact .num 5
  · rw [List.mem_singleton.1 hp]; exact .str "x"

/-- The working directory is the environment variable when that is set and not empty, otherwise the one of the
file. -/
theorem C78_sardir {cv : Conv F} {iter} {env : List Byte} {ts : FlagType 8} {doc : List (String × Json F)}
    (d : DistinctNames doc) {l : Loaded} {e : Option Err} (h : readConfig cv iter env ts doc = .ret (l, e)) :
    l.settings.sardir = if env = [] then utf8 (textOf doc "sardir") else env := by
  obtain ⟨st, hs, hl, -⟩ := readConfig_ret h
  subst hl
  show (if env = [] then utf8 st.conf.sardir else env) = _
  rw [load_sardir cv d hs rfl]

example := C78_sardir (cv := intConv) (iter := id) (env := []) (ts := FlagType.zero 8) (doc := shippedDoc)
  (by unfold DistinctNames; decide +kernel) rfl

/-- The tables hold exactly the fields of the file, each with the place, length and options written there; the
timestamp table keeps what it held and the file does not mention. -/
theorem C78_tables {cv : Conv F} {iter} {env : List Byte} {ts : FlagType 8} {doc : List (String × Json F)}
    (pr : (Json.obj doc).Proper) {l : Loaded} {e : Option Err}
    (h : readConfig cv iter env ts doc = .ret (l, e)) :
    EntriesFrom (FieldFrom cv.u32 (FlagType.zero 32)) (membersOf doc "flags") l.tables.flags ∧
    EntriesFrom (FieldFrom cv.u16 (FlagType.zero 16)) (membersOf doc "direntflags") l.tables.dirent ∧
    FieldFrom cv.u8 ts (membersOf doc "timestamps") l.tables.ts ∧
    ∀ k, values l.tables k = textsOf (membersOf doc "frameflags") k := by
  obtain ⟨st, hs, hl, -⟩ := readConfig_ret h
  subst hl
  refine ⟨?_, ?_, ?_, ?_⟩
  · exact entries_read (step := flagStep cv) (z := FlagType.zero 32) (fin := id)
      (fun s k v s' h => obj_ret h)
      (fun m x p hx => field_read (fun _ _ _ _ => flagStep_field) p hx)
      (proper_members pr _) (load_flags pr.distinct hs)
  · exact entries_read (step := fieldStep cv.u16) (z := FlagType.zero 16) (fin := id)
      (fun s k v s' h => obj_ret h)
      (fun m x p hx => field_read (fun _ _ _ _ h => h) p hx)
      (proper_members pr _) (load_dirent pr.distinct hs)
  · exact field_read (fun _ _ _ _ h => h) (proper_members pr _) (load_ts pr.distinct hs)
  · intro k
    have := frameflags_read (proper_members pr "frameflags").distinct (load_frameflags pr.distinct hs) k
    show (assoc k st.tables.frameflags).getD [] = _
    rw [this]
    by_cases e : textsOf (membersOf doc "frameflags") k = []
    · rw [if_pos e, e]; rfl
    · rw [if_neg e]; rfl

/-- The commands are those of the file, with their help and usage texts. -/
theorem C78_commands {cv : Conv F} {iter} {env : List Byte} {ts : FlagType 8} {doc : List (String × Json F)}
    (pr : (Json.obj doc).Proper) {l : Loaded} {e : Option Err}
    (h : readConfig cv iter env ts doc = .ret (l, e)) :
    EntriesFrom (fun m c => c.help = textOf m "help" ∧ c.usage = textOf m "usage") (membersOf doc "commands")
      l.commands := by
  obtain ⟨st, hs, hl, -⟩ := readConfig_ret h
  subst hl
  exact entries_read (step := cmdStep) (z := ⟨"", ""⟩) (fin := id)
    (fun s k v s' h => obj_ret h)
    (fun m x p hx => cmd_read p.distinct hx)
    (proper_members pr _) (load_commands pr.distinct hs)

/-! ## C79: files of the wrong shape -/

/-- Reading panics exactly if some member has a type other than the one expected, otherwise it comes back. -/
theorem C79_panics_iff_partial (cv : Conv F) (iter) (env : List Byte) (ts : FlagType 8)
    (doc : List (String × Json F)) :
    (readConfig cv iter env ts doc = .panic ↔ ¬ ∀ p ∈ doc, MemberTyped p.1 p.2) ∧
    ((readConfig cv iter env ts doc).returns ↔ ∀ p ∈ doc, MemberTyped p.1 p.2) := by
  have r : (readConfig cv iter env ts doc).RetIff (∀ p ∈ doc, MemberTyped p.1 p.2) :=
    Out.RetIff.pure_bind (eachMember_retIff (loadStep_retIff cv) _ doc)
  refine ⟨⟨fun h p => ?_, r.2⟩, r.iff⟩
  have := r.1 p
  rw [h] at this
  exact this

/-- C79 as stated fails: a port written as a text ends the program with a panic, not with an error. -/
theorem C79_counterexample (cv : Conv F) (iter) (env : List Byte) (ts : FlagType 8) :
    readConfig cv iter env ts [("udpport", .str "7542")] = .panic := rfl

/-! ## C15: validity and order -/

/-- When reading succeeds every global flag holds an option of its field. -/
theorem C15_valid {cv : Conv F} {iter} (ord : IsOrder iter) {env : List Byte} {ts : FlagType 8}
    {doc : List (String × Json F)} {l : Loaded} (h : readConfig cv iter env ts doc = .ret (l, none)) :
    ValidGlobal l.tables l.settings.global := by
  have fl := C78_flags h
  obtain ⟨st, hs, hl, he⟩ := readConfig_ret h
  subst hl
  have g : (st.conf.settings env).global = st.conf.global := rfl
  refine ⟨?_, ?_, ?_, ?_⟩
  · show st.conf.global.Pairwise _
    rw [conf_global]; simp
  · intro p hp
    exact (fl p.1).1 ⟨p.2, hp⟩
  · intro k hk
    exact (fl k).2 hk
  · intro p hp
    exact firstInvalid_none.1 he.symm p ((ord _).mem_iff.2 hp)

example := C15_valid (cv := intConv) (iter := id) (fun _ => List.Perm.refl _) (env := []) (ts := FlagType.zero 8)
  (doc := shippedDoc) rfl

/-- It fails otherwise: an error is reported exactly if some flag holds something else. -/
theorem C15_error_iff {cv : Conv F} {iter} (ord : IsOrder iter) {env : List Byte} {ts : FlagType 8}
    {doc : List (String × Json F)} {l : Loaded} {e : Option Err}
    (h : readConfig cv iter env ts doc = .ret (l, e)) :
    e ≠ none ↔ ∃ p ∈ l.settings.global, valid l.tables p.1 p.2 = false := by
  obtain ⟨st, hs, hl, he⟩ := readConfig_ret h
  subst hl
  rw [he]
  constructor
  · intro n
    apply Classical.byContradiction
    intro no
    apply n
    rw [firstInvalid_none]
    intro p hp
    cases hv : valid st.tables p.1 p.2 with
    | true => rfl
    | false => exact absurd ⟨p, (ord _).mem_iff.1 hp, hv⟩ no
  · rintro ⟨p, hp, hv⟩ n
    have := firstInvalid_none.1 n p ((ord _).mem_iff.2 hp)
    rw [hv] at this
    cases this

example := C15_error_iff (cv := intConv) (iter := List.reverse) List.reverse_perm (env := []) (ts := FlagType.zero 8)
  (doc := shippedDoc) rfl

/-- The body of `C15_order_partial`, with timestamp tables `ts` and `ts'` that may differ as long as the document
overrides the difference. -/
theorem readConfig_order (cv : Conv F) {iter iter'} (ord : IsOrder iter) (ord' : IsOrder iter') (env : List Byte)
    (ts ts' : FlagType 8) {doc doc' : List (String × Json F)} (same : Json.Same (.obj doc) (.obj doc'))
    (sts : ∀ a b, FieldFrom cv.u8 ts (membersOf doc "timestamps") a →
      FieldFrom cv.u8 ts' (membersOf doc' "timestamps") b → FlagType.Same a b) :
    (readConfig cv iter env ts doc = .panic ∧ readConfig cv iter' env ts' doc' = .panic) ∨
    ∃ l e l' e', readConfig cv iter env ts doc = .ret (l, e) ∧ readConfig cv iter' env ts' doc' = .ret (l', e') ∧
      l.settings = l'.settings ∧ Tables.Same l.tables l'.tables ∧ SameMap Eq l.commands l'.commands ∧
      (e = none ↔ e' = none) := by
  have typed : (∀ p ∈ doc, MemberTyped p.1 p.2) ↔ (∀ p ∈ doc', MemberTyped p.1 p.2) := by
    have := same.members
    constructor
    · rintro h ⟨k, b⟩ hb
      obtain ⟨a, ha, hs⟩ := this.2.2.2.1 k b hb
      exact hs.memberTyped.1 (h _ ha)
    · rintro h ⟨k, a⟩ ha
      obtain ⟨b, hb, hs⟩ := this.2.2.2.2 k a ha
      exact hs.memberTyped.2 (h _ hb)
  have c := C79_panics_iff_partial cv iter env ts doc
  have c' := C79_panics_iff_partial cv iter' env ts' doc'
  by_cases t : ∀ p ∈ doc, MemberTyped p.1 p.2
  · right
    have r := c.2.2 t
    have r' := c'.2.2 (typed.1 t)
    cases h : readConfig cv iter env ts doc with
    | fatal => rw [h] at r; exact r.elim
    | panic => rw [h] at r; exact r.elim
    | ret x =>
      obtain ⟨l, e⟩ := x
      cases h' : readConfig cv iter' env ts' doc' with
      | fatal => rw [h'] at r'; exact r'.elim
      | panic => rw [h'] at r'; exact r'.elim
      | ret x' =>
        obtain ⟨l', e'⟩ := x'
        have pr := same.proper.1
        have pr' := same.proper.2
        obtain ⟨t1, t2, t3, t4⟩ := C78_tables pr h
        obtain ⟨u1, u2, u3, u4⟩ := C78_tables pr' h'
        have sm1 := SameMap.of_entries (same.membersOf "flags") (fun _ _ _ _ s => FieldFrom.same s) t1 u1
        have sm2 := SameMap.of_entries (same.membersOf "direntflags") (fun _ _ _ _ s => FieldFrom.same s) t2 u2
        have sm3 := sts _ _ t3 u3
        have texts := C78_texts pr.distinct h
        have texts' := C78_texts pr'.distinct h'
        have nums := C78_numbers pr.distinct h
        have nums' := C78_numbers pr'.distinct h'
        have tim := C78_timers pr h
        have tim' := C78_timers pr' h'
        have dir := C78_sardir pr.distinct h
        have dir' := C78_sardir pr'.distinct h'
        have cm := SameMap.of_entries (Q := Eq) (same.membersOf "commands") (by
          intro d d' b b' s hb hb'
          cases b; cases b'
          simp only at hb hb'
          simp only [hb.1, hb.2, hb'.1, hb'.2, s.textOf]) (C78_commands pr h) (C78_commands pr' h')
        have st : ∀ p ∈ textSettings, p.2 l.settings = p.2 l'.settings := by
          intro p hp; rw [texts p hp, texts' p hp, same.textOf]
        have sn : ∀ p ∈ numberSettings (F := F), p.2.2 l.settings = p.2.2 l'.settings := by
          intro p hp; rw [nums p hp, nums' p hp]; exact same.numberAt _ _ _
        have stt : ∀ p ∈ timerSettings (F := F), p.2.2 l.settings.timeout = p.2.2 l'.settings.timeout := by
          intro p hp; rw [tim p hp, tim' p hp]; exact (same.membersOf "timeout").numberAt _ _ _
        obtain ⟨s0, hs0, hl0, he0⟩ := readConfig_ret h
        obtain ⟨s1, hs1, hl1, he1⟩ := readConfig_ret h'
        have settings : l.settings = l'.settings := by
          have hd : l'.settings.sardir = l.settings.sardir := by rw [dir', dir, same.textOf]
          simp only [textSettings, List.forall_mem_cons, List.not_mem_nil, false_implies, implies_true,
            and_true] at st
          simp only [numberSettings, List.forall_mem_cons, List.not_mem_nil, false_implies, implies_true,
            and_true] at sn
          simp only [timerSettings, List.forall_mem_cons, List.not_mem_nil, false_implies, implies_true,
            and_true] at stt
          subst hl0; subst hl1
          simp only [Conf.settings, conf_global, assoc, String.reduceEq, if_true, if_false,
            Option.getD_some] at st sn stt hd ⊢
          obtain ⟨a1, a2, a3, a4, a5, a6, a7, a8, a9, a10, a11, a12, a13, a14⟩ := st
          obtain ⟨b1, b2, b3, b4⟩ := sn
          obtain ⟨c1, c2, c3, c4, c5, c6⟩ := stt
          have ht : s0.conf.timeout = s1.conf.timeout := by
            cases h0 : s0.conf.timeout; cases h1 : s1.conf.timeout
            rw [h0, h1] at c1 c2 c3 c4 c5 c6
            simp only at c1 c2 c3 c4 c5 c6
            simp only [c1, c2, c3, c4, c6, Timeouts.mk.injEq, true_and, and_true]
            omega
          have hb : s0.conf.bcount = s1.conf.bcount := by omega
          simp only [a1, a2, a3, a4, a5, a6, a7, a8, a9, a10, a11, a12, a13, a14, b1, b2, b3, ht, hb, hd]
        refine ⟨l, e, l', e', rfl, rfl, settings, ⟨sm1, sm2, sm3, ?_⟩, cm, ?_⟩
        · intro k
          have f := frameflags_read (proper_members pr "frameflags").distinct (load_frameflags pr.distinct hs0) k
          have f' := frameflags_read (proper_members pr' "frameflags").distinct (load_frameflags pr'.distinct hs1) k
          have same' : textsOf (membersOf doc "frameflags") k = textsOf (membersOf doc' "frameflags") k :=
            (same.membersOf "frameflags").textsOf k
          rw [hl0, hl1]
          simp only
          rw [f, f', same']
          by_cases e : textsOf (membersOf doc' "frameflags") k = []
          · rw [if_pos e]; trivial
          · rw [if_neg e]
        · have i := C15_error_iff ord h
          have i' := C15_error_iff ord' h'
          rw [settings] at i
          have : (∃ p ∈ l'.settings.global, valid l.tables p.1 p.2 = false) ↔
              (∃ p ∈ l'.settings.global, valid l'.tables p.1 p.2 = false) := by
            constructor
            · rintro ⟨p, hp, hv⟩; exact ⟨p, hp, by rw [← valid_same sm1]; exact hv⟩
            · rintro ⟨p, hp, hv⟩; exact ⟨p, hp, by rw [valid_same sm1]; exact hv⟩
          have k : e ≠ none ↔ e' ≠ none := i.trans (this.trans i'.symm)
          constructor
          · intro n; apply Classical.byContradiction; intro c; exact k.2 c n
          · intro n; apply Classical.byContradiction; intro c; exact k.1 c n
  · left
    exact ⟨c.1.2 t, c'.1.2 (fun x => t (typed.2 x))⟩

/-- Reading the same document in another order of its objects, and checking the flags in another order, ends the
same way: both runs panic, or both come back with the same settings, tables that answer every question alike,
the same commands, and both with an error or both without. Missing for the full C15: the text of the error, see
`C15_counterexample`. -/
theorem C15_order_partial (cv : Conv F) {iter iter'} (ord : IsOrder iter) (ord' : IsOrder iter') (env : List Byte)
    (ts : FlagType 8) {doc doc' : List (String × Json F)} (same : Json.Same (.obj doc) (.obj doc')) :
    (readConfig cv iter env ts doc = .panic ∧ readConfig cv iter' env ts doc' = .panic) ∨
    ∃ l e l' e', readConfig cv iter env ts doc = .ret (l, e) ∧ readConfig cv iter' env ts doc' = .ret (l', e') ∧
      l.settings = l'.settings ∧ Tables.Same l.tables l'.tables ∧ SameMap Eq l.commands l'.commands ∧
      (e = none ↔ e' = none) :=
  readConfig_order cv ord ord' env ts ts same fun _ _ h h' => h.same (same.membersOf "timestamps") h'

example := C15_order_partial intConv (iter := id) (iter' := List.reverse) (fun _ => List.Perm.refl _) List.reverse_perm []
  (FlagType.zero 8) (doc := [("prompt", .str "x"), ("udpport", .num 1)]) (doc' := [("udpport", .num 1), ("prompt", .str "x")])
  (.obj (by simp [DistinctNames]) (List.Perm.swap _ _ _) (.cons (.num 1) (.cons (.str "x") .nil)))

/-- C15 as stated fails in one point: with two illegal flags it depends on the order of iteration which one the
error names. -/
theorem C15_counterexample (cv : Conv F) : ∃ iter iter', IsOrder iter ∧ IsOrder iter' ∧ ∃ l e l' e',
    readConfig cv iter [] (FlagType.zero 8) [] = .ret (l, some e) ∧
    readConfig cv iter' [] (FlagType.zero 8) [] = .ret (l', some e') ∧ e ≠ e' := by
  refine ⟨id, List.reverse, fun _ => List.Perm.refl _, fun l => List.reverse_perm l, _, _, _, _, rfl, rfl, ?_⟩
  decide

/-! ## C80: the shipped file -/

/-- The settings of the shipped file. -/
def fileSettings (env : List Byte) : Cliflags where
  global := [("csumtype", "none"), ("freespace", "yes"), ("txwilling", "yes"), ("rxwilling", "yes"),
    ("stream", "no"), ("reqtstamp", "yes"), ("reqstatus", "no"), ("udplite", "no"), ("descriptor", "d64")]
  v4multicast := "224.0.0.108"
  v6multicast := "ff02::6c"
  port := 7542
  timestamp := "posix64"
  timeout := ⟨55, 56, 57, 58, 3, 100⟩
  timezone := "utc"
  prompt := "saratoga"
  ppad := 3
  sardir := if env = [] then utf8 "/Users/chas/sardir" else env
  buffersize := 1024
  bcount := 3

/-- The big loop on the shipped file, from an empty timestamp table. -/
theorem shippedDoc_load :
    ∃ st, eachMember (loadStep intConv) ⟨Conf.zero, ⟨[], [], FlagType.zero 8, []⟩, []⟩ shippedDoc = .ret st ∧
      st.tables = shipped ∧ st.conf.settings [] = fileSettings [] ∧
      firstInvalid st.tables st.conf.global = none := by
  refine ⟨_, rfl, ?_, ?_, ?_⟩ <;> decide +kernel

theorem shippedDoc_read (env : List Byte) :
    ∃ l, readConfig intConv id env (FlagType.zero 8) shippedDoc = .ret (l, none) ∧ l.tables = shipped ∧
      l.settings = fileSettings env := by
  obtain ⟨st, h, ht, hc, hf⟩ := shippedDoc_load
  refine ⟨⟨st.conf.settings env, st.tables, st.commands⟩, ?_, ht, ?_⟩
  · unfold readConfig
    rw [h]
    show Out.ret (_, firstInvalid st.tables st.conf.global) = _
    rw [hf]
  · have d : DistinctNames shippedDoc := by unfold DistinctNames; decide +kernel
    have hd : st.conf.sardir = "/Users/chas/sardir" := (load_sardir intConv d h rfl).trans rfl
    have e : st.conf.settings env = { st.conf.settings [] with
      sardir := if env = [] then utf8 st.conf.sardir else env } := rfl
    rw [e, hc, hd]
    rfl

/-- In whatever order the program meets the members of the shipped file, the flags at the end, and whatever the
timestamp table held before: reading succeeds, the settings are the shipped ones, and the tables answer every
question as `shipped` does, the tables of all other theorems. -/
theorem C80_shipped {iter} (ord : IsOrder iter) (env : List Byte) (ts : FlagType 8)
    {doc : List (String × Json Int)} (same : Json.Same (.obj shippedDoc) (.obj doc)) :
    ∃ l, readConfig intConv iter env ts doc = .ret (l, none) ∧ Tables.Same shipped l.tables ∧
      l.settings = fileSettings env := by
  obtain ⟨l, h, ht, hs⟩ := shippedDoc_read env
  have sts : ∀ a b, FieldFrom intConv.u8 (FlagType.zero 8) (membersOf shippedDoc "timestamps") a →
      FieldFrom intConv.u8 ts (membersOf doc "timestamps") b → FlagType.Same a b := by
    intro a b ha hb
    refine FieldFrom.same (z := ts) (same.membersOf "timestamps") ?_ hb
    exact ha
  rcases readConfig_order intConv (iter := id) (fun _ => List.Perm.refl _) ord env _ ts same sts with
    ⟨p, _⟩ | ⟨l1, e1, l2, e2, h1, h2, s, t, _, e⟩
  · rw [h] at p; cases p
  · rw [h] at h1
    cases h1
    have : e2 = none := e.1 rfl
    subst this
    exact ⟨l2, h2, by rw [← ht]; exact t, by rw [← s]; exact hs⟩

/-! ## C81: fields that do not fit -/

/-- A file whose field `stream` begins beyond the last bit of the word. -/
def wideDoc : List (String × Json Int) :=
  let opt (o : String) : Json Int := .obj [("len", .num 1), ("msb", .num 40), ("options", .obj [(o, .num 1)])]
  [("stream", .str "no"), ("descriptor", .str "d16"), ("csumtype", .str "none"), ("freespace", .str "no"),
   ("txwilling", .str "no"), ("rxwilling", .str "no"), ("reqtstamp", .str "no"), ("reqstatus", .str "no"),
   ("udplite", .str "no"),
   ("flags", .obj [("stream", opt "no"), ("descriptor", opt "d16"), ("csumtype", opt "none"),
     ("freespace", opt "no"), ("txwilling", opt "no"), ("rxwilling", opt "no"), ("reqtstamp", opt "no"),
     ("reqstatus", opt "no"), ("udplite", opt "no")])]

/-- C81 as stated fails: this file is accepted, and a frame built with its tables loses the option, setting the
field of the header changes nothing. -/
theorem C81_counterexample : ∃ l, readConfig intConv id [] (FlagType.zero 8) wideDoc = .ret (l, none) ∧
    ¬ (l.tables.flag "stream").msb.toNat + (l.tables.flag "stream").len.toNat ≤ 32 ∧
    set l.tables 0 "stream" "no" = .ret 0 ∧ get l.tables 0 "stream" ≠ 1 := by
  refine ⟨_, rfl, ?_, ?_, ?_⟩ <;> decide +kernel

/-- What a successful read does guarantee of the fields: each flag in use is in the table and has its option
there. -/
theorem C81_known_partial {cv : Conv F} {iter} (ord : IsOrder iter) {env : List Byte} {ts : FlagType 8}
    {doc : List (String × Json F)} {l : Loaded} (h : readConfig cv iter env ts doc = .ret (l, none)) :
    ∀ k ∈ globalKeys, ∃ v fl n, (k, v) ∈ l.settings.global ∧ assoc k l.tables.flags = some fl ∧
      assoc v fl.options = some n := by
  intro k hk
  obtain ⟨_, _, a, b⟩ := C15_valid ord h
  obtain ⟨v, hv⟩ := a k hk
  have := b _ hv
  unfold valid good Tables.flag at this
  cases hf : assoc k l.tables.flags with
  | none => rw [hf] at this; simp at this
  | some fl =>
    rw [hf] at this
    simp only [Option.isSome_some, if_true, Option.getD_some] at this
    cases ho : assoc v fl.options with
    | none => rw [ho] at this; cases this
    | some n => exact ⟨v, fl, n, hv, rfl, ho⟩

/-! ## Concrete cases -/

/-- A document with its two members in both orders. -/
example : Json.Same (.obj [("prompt", .str "x"), ("udpport", .num (1 : Int))])
    (.obj [("udpport", .num 1), ("prompt", .str "x")]) :=
  .obj (by simp [DistinctNames]) (List.Perm.swap _ _ _) (.cons (.num 1) (.cons (.str "x") .nil))

/-- The shipped document has objects with distinct names at its top level and in the flags. -/
example : DistinctNames shippedDoc ∧ DistinctNames (membersOf shippedDoc "flags") := by
  constructor <;> (unfold DistinctNames; decide +kernel)

end Saratoga
