import Verif.Model.CliHeap
import Verif.Lemmas.Settings
/-! # Copying the settings (C16) -/
namespace Saratoga

/-! ## Helper lemmas -/

theorem assoc_isSome_mem {β : Type} {k : String} {l : List (String × β)} :
    (assoc k l).isSome = true ↔ k ∈ l.map (·.1) := by
  induction l with
  | nil => simp [assoc]
  | cons p rest ih =>
    obtain ⟨a, b⟩ := p
    simp only [assoc, List.map_cons, List.mem_cons]
    by_cases e : a = k
    · rw [if_pos e]; simp [e]
    · rw [if_neg e, ih]
      exact ⟨fun h => Or.inr h, fun h => h.resolve_left (fun h => e h.symm)⟩

theorem assoc_copyGlobal (src : List (String × String)) (k : String) :
    ∀ (l dst : List (String × String)), assoc k (copyGlobal src dst l)
      = if k ∈ l.map (·.1) then some ((assoc k src).getD "") else assoc k dst := by
  intro l
  induction l with
  | nil => intro dst; simp [copyGlobal]
  | cons p rest ih =>
    intro dst
    obtain ⟨a, b⟩ := p
    simp only [copyGlobal, ih, List.map_cons, List.mem_cons]
    by_cases h : k ∈ rest.map (·.1)
    · rw [if_pos h, if_pos (Or.inr h)]
    · rw [if_neg h, assoc_mapSet]
      by_cases e : k = a
      · rw [if_pos e, if_pos (Or.inl e), e]
      · rw [if_neg e, if_neg (fun x => x.elim e h)]

theorem assoc_copyGlobal_self (l : List (String × String)) (k : String) :
    assoc k (copyGlobal l [] l) = assoc k l := by
  rw [assoc_copyGlobal]
  by_cases h : k ∈ l.map (·.1)
  · rw [if_pos h]
    have := assoc_isSome_mem.2 h
    cases hk : assoc k l with
    | none => rw [hk] at this; cases this
    | some v => rfl
  · rw [if_neg h]
    cases hk : assoc k l with
    | none => rfl
    | some v => exact absurd (assoc_isSome_mem.1 (by rw [hk]; rfl)) h

theorem MapHeap.at_write (h : MapHeap) (p q : Nat) (k v : String) :
    (h.write p k v).at q = if p = q ∧ p < h.length then mapSet k v (h.at p) else h.at q := by
  simp only [MapHeap.write, MapHeap.at, List.getElem?_set]
  by_cases e : p = q
  · subst e
    by_cases l : p < h.length
    · simp [l]
    · simp [l]
  · simp [e]

theorem MapHeap.length_write (h : MapHeap) (p : Nat) (k v : String) :
    (h.write p k v).length = h.length := by simp [MapHeap.write]

theorem MapHeap.at_new (h : MapHeap) (q : Nat) : MapHeap.at (h ++ [[]]) q = h.at q := by
  simp only [MapHeap.at, List.getElem?_append]
  by_cases l : q < h.length
  · rw [if_pos l]
  · rw [if_neg l, List.getElem?_eq_none (l := h) (by omega)]
    cases q - h.length <;> rfl

theorem at_copyLoop_other {src dst : Nat} {q : Nat} (ne : dst ≠ q) :
    ∀ (ks : List String) (h : MapHeap), (copyLoop src dst ks h).at q = h.at q := by
  intro ks
  induction ks with
  | nil => intro h; rfl
  | cons k ks ih =>
    intro h
    simp only [copyLoop, ih, MapHeap.at_write, if_neg (fun x : dst = q ∧ _ => ne x.1)]

theorem at_copyLoop_dst {src dst : Nat} (ne : dst ≠ src) :
    ∀ (l : List (String × String)) (h : MapHeap), dst < h.length →
      (copyLoop src dst (l.map (·.1)) h).at dst = copyGlobal (h.at src) (h.at dst) l := by
  intro l
  induction l with
  | nil => intro h _; rfl
  | cons p rest ih =>
    intro h lt
    obtain ⟨a, b⟩ := p
    simp only [List.map_cons, copyLoop, copyGlobal]
    rw [ih _ (by rw [MapHeap.length_write]; exact lt), MapHeap.at_write, MapHeap.at_write,
      if_neg (fun x => ne x.1), if_pos ⟨rfl, lt⟩]
    rfl

/-- The settings of a reference seen as a value. -/
def CliRef.seen (h : MapHeap) (s : CliRef) : Cliflags := { s.rest with global := h.at s.map }

theorem copyLoop_length (src dst : Nat) :
    ∀ (ks : List String) (h : MapHeap), (copyLoop src dst ks h).length = h.length := by
  intro ks
  induction ks with
  | nil => intro h; rfl
  | cons k ks ih => intro h; simp only [copyLoop, ih, MapHeap.length_write]

/-- The copy with references is the copy of values. -/
theorem CliRef.copy_refines {h : MapHeap} {s : CliRef} (wf : s.map < h.length) :
    (∀ e, s.copy h = .error e ↔ (s.seen h).copy = .error e) ∧
    (∀ h' d, s.copy h = .ok (h', d) →
      (s.seen h).copy = .ok (d.seen h') ∧ s.seen h' = s.seen h ∧ d.map ≠ s.map ∧
        d.map < h'.length ∧ s.map < h'.length) := by
  unfold CliRef.copy Cliflags.copy CliRef.seen
  by_cases e : (h.at s.map).length = 0
  · simp only [e, if_true]
    exact ⟨fun x => ⟨fun y => (by cases y; rfl), fun y => (by cases y; rfl)⟩, fun h' d x => by cases x⟩
  · simp only [e, if_false]
    refine ⟨fun x => ⟨fun x => (by cases x), fun x => (by cases x)⟩, ?_⟩
    intro h' d x
    cases x
    have ne : h.length ≠ s.map := by omega
    refine ⟨?_, ?_, ne, ?_, ?_⟩
    · rw [at_copyLoop_dst ne _ _ (by simp), MapHeap.at_new, MapHeap.at_new]
      have : h.at h.length = [] := by simp [MapHeap.at]
      rw [this]
    · rw [at_copyLoop_other ne, MapHeap.at_new]
    · rw [copyLoop_length]; simp
    · rw [copyLoop_length]; simp; omega

/-! ## The properties -/

/-- Every field is copied except the IPv6 multicast address and the number of beacons, and the flag map
answers every question as the one of the source. Missing for the full C16: those two fields, see
`C16_counterexample`. -/
theorem C16_copied_partial {s d : Cliflags} (h : s.copy = .ok d) :
    (∀ k, assoc k d.global = assoc k s.global) ∧ d.v4multicast = s.v4multicast ∧ d.port = s.port ∧
    d.timestamp = s.timestamp ∧ d.timeout = s.timeout ∧ d.timezone = s.timezone ∧
    d.prompt = s.prompt ∧ d.ppad = s.ppad ∧ d.sardir = s.sardir ∧ d.buffersize = s.buffersize := by
  unfold Cliflags.copy at h
  by_cases e : s.global.length = 0
  · rw [if_pos e] at h; cases h
  · rw [if_neg e] at h
    cases h
    exact ⟨fun k => assoc_copyGlobal_self _ k, rfl, rfl, rfl, rfl, rfl, rfl, rfl, rfl, rfl⟩

/-- What the two other fields hold: the IPv4 address and no beacons. -/
theorem C16_wrong_fields {s d : Cliflags} (h : s.copy = .ok d) :
    d.v6multicast = s.v4multicast ∧ d.bcount = 0 := by
  unfold Cliflags.copy at h
  by_cases e : s.global.length = 0
  · rw [if_pos e] at h; cases h
  · rw [if_neg e] at h
    cases h
    exact ⟨rfl, rfl⟩

/-- The only failure is an empty flag map. -/
theorem C16_fails_iff (s : Cliflags) : (∃ e, s.copy = .error e) ↔ s.global = [] := by
  unfold Cliflags.copy
  by_cases e : s.global.length = 0
  · rw [if_pos e]; exact ⟨fun _ => List.length_eq_zero_iff.1 e, fun _ => ⟨_, rfl⟩⟩
  · rw [if_neg e]
    exact ⟨fun ⟨x, h⟩ => (by cases h), fun h => absurd (by rw [h]; rfl) e⟩

/-- Later changes to the flag map on either side do not show on the other: after a copy of settings `s`,
any assignments `m[k] = v` to the copy's map leave what `s` shows as it was before the copy, and any
assignments to the map of `s` leave what the copy shows as it was made. -/
theorem C16_separate {h h' : MapHeap} {s d : CliRef} (wf : s.map < h.length)
    (c : s.copy h = .ok (h', d)) (ws : List (String × String)) :
    s.seen (ws.foldl (fun m w => m.write d.map w.1 w.2) h') = s.seen h ∧
    d.seen (ws.foldl (fun m w => m.write s.map w.1 w.2) h') = d.seen h' ∧
    (s.seen h).copy = .ok (d.seen h') := by
  obtain ⟨r, keep, ne, _, _⟩ := (CliRef.copy_refines wf).2 h' d c
  have other : ∀ (p q : Nat), p ≠ q → ∀ (ws : List (String × String)) (m : MapHeap),
      MapHeap.at (ws.foldl (fun m w => m.write p w.1 w.2) m) q = m.at q := by
    intro p q hpq ws
    induction ws with
    | nil => intro m; rfl
    | cons w ws ih =>
      intro m
      rw [List.foldl_cons, ih, MapHeap.at_write, if_neg (fun x => hpq x.1)]
  refine ⟨?_, ?_, r⟩
  · rw [← keep]
    simp only [CliRef.seen, other _ _ ne]
  · simp only [CliRef.seen, other _ _ (Ne.symm ne)]

/-- Settings like the shipped ones. -/
def someSettings : Cliflags where
  global := [("descriptor", "d64"), ("stream", "no")]
  v4multicast := "224.0.0.108"
  v6multicast := "ff02::6c"
  port := 7542
  timestamp := "posix64"
  timeout := ⟨55, 56, 57, 58, 3, 100⟩
  timezone := "utc"
  prompt := "saratoga"
  ppad := 3
  sardir := []
  buffersize := 1024
  bcount := 3

example := C16_separate (h := [[("stream", "no")]]) (s := ⟨0, someSettings⟩) (by decide) rfl [("stream", "yes")]

example := C16_wrong_fields (s := someSettings) rfl

example := C16_copied_partial (s := someSettings) rfl

/-- C16 as stated fails: a copy that succeeds and differs from its source in both fields. -/
theorem C16_counterexample : ∃ s d : Cliflags, s.copy = .ok d ∧ d.v6multicast ≠ s.v6multicast ∧
    d.bcount ≠ s.bcount := by
  refine ⟨someSettings, _, rfl, ?_, ?_⟩ <;> decide

/-- The copy agrees with its source in every field exactly when the source's two addresses are the same and
it sends no beacons. -/
theorem C16_equal_iff {s d : Cliflags} (h : s.copy = .ok d) :
    ((∀ k, assoc k d.global = assoc k s.global) ∧ { d with global := [] } = { s with global := [] }) ↔
      s.v6multicast = s.v4multicast ∧ s.bcount = 0 := by
  have p := C16_copied_partial h
  have w := C16_wrong_fields h
  obtain ⟨p0, p1, p2, p3, p4, p5, p6, p7, p8, p9⟩ := p
  constructor
  · intro ⟨_, e⟩
    have e1 := congrArg Cliflags.v6multicast e
    have e2 := congrArg Cliflags.bcount e
    exact ⟨e1.symm.trans w.1, e2.symm.trans w.2⟩
  · intro ⟨e1, e2⟩
    refine ⟨p0, ?_⟩
    cases d; cases s
    simp only at *
    simp only [p1, p2, p3, p4, p5, p6, p7, p8, p9, w.1, w.2, e1, e2]

/-! ## Concrete cases -/

example : ∃ d, someSettings.copy = .ok d ∧ assoc "stream" d.global = some "no" := ⟨_, rfl, by decide⟩

/-- One map at address 0; the copy's map is at address 1 and changing it leaves the first one alone. -/
example : ∃ h' d, CliRef.copy [[("stream", "no")]] ⟨0, someSettings⟩ = .ok (h', d) ∧ d.map = 1 ∧
    (h'.write d.map "stream" "yes").read 0 "stream" = "no" := ⟨_, _, rfl, rfl, by decide⟩

end Saratoga
