import Verif.Spec.Settings
/-! # Helper lemmas about the settings commands -/
namespace Saratoga

/-! ## Maps -/

theorem assoc_mapSet {β : Type} (k : String) (v : β) (l : List (String × β)) (j : String) :
    assoc j (mapSet k v l) = if j = k then some v else assoc j l := by
  induction l with
  | nil =>
    simp only [mapSet, assoc]
    by_cases h : k = j
    · rw [if_pos h, if_pos h.symm]
    · rw [if_neg h, if_neg (Ne.symm h)]
  | cons p rest ih =>
    obtain ⟨a, b⟩ := p
    simp only [mapSet]
    by_cases h : a = k
    · rw [if_pos h]
      simp only [assoc]
      subst h
      by_cases h2 : a = j
      · rw [if_pos h2, if_pos h2.symm]
      · rw [if_neg h2, if_neg (Ne.symm h2), if_neg h2]
    · rw [if_neg h]
      simp only [assoc, ih]
      by_cases h2 : a = j
      · rw [if_pos h2, if_pos h2, if_neg (by rw [← h2]; exact h)]
      · rw [if_neg h2, if_neg h2]

theorem mem_mapSet {β : Type} {k : String} {v : β} {l : List (String × β)} {p : String × β}
    (h : p ∈ mapSet k v l) : p = (k, v) ∨ p ∈ l := by
  induction l with
  | nil => left; simpa [mapSet] using h
  | cons q rest ih =>
    obtain ⟨a, b⟩ := q
    simp only [mapSet] at h
    by_cases e : a = k
    · rw [if_pos e] at h
      rcases List.mem_cons.1 h with h | h
      · left; rw [h, e]
      · right; exact List.mem_cons_of_mem _ h
    · rw [if_neg e] at h
      rcases List.mem_cons.1 h with h | h
      · right; rw [h]; exact List.mem_cons_self
      · rcases ih h with h | h
        · left; exact h
        · right; exact List.mem_cons_of_mem _ h

theorem mapSet_keys {β : Type} {k : String} {v w : β} {l : List (String × β)} (h : (k, w) ∈ l) :
    (mapSet k v l).map (·.1) = l.map (·.1) := by
  induction l with
  | nil => simp at h
  | cons q rest ih =>
    obtain ⟨a, b⟩ := q
    simp only [mapSet]
    by_cases e : a = k
    · rw [if_pos e]; rfl
    · rw [if_neg e]
      rcases List.mem_cons.1 h with h | h
      · exact absurd (congrArg Prod.fst h).symm e
      · simp only [List.map_cons, ih h]

theorem distinct_keys {β : Type} (l : List (String × β)) :
    l.Pairwise (fun a b => a.1 ≠ b.1) ↔ (l.map (·.1)).Nodup := by
  rw [List.nodup_iff_pairwise_ne, List.pairwise_map]

theorem mem_of_assoc' {β : Type} {k : String} {v : β} {l : List (String × β)} (h : assoc k l = some v) :
    (k, v) ∈ l := by
  induction l with
  | nil => simp [assoc] at h
  | cons q rest ih =>
    obtain ⟨a, b⟩ := q
    simp only [assoc] at h
    by_cases e : a = k
    · rw [if_pos e] at h; cases h; rw [e]; exact List.mem_cons_self
    · rw [if_neg e] at h; exact List.mem_cons_of_mem _ (ih h)

theorem assoc_of_mem' {β : Type} {k : String} {v : β} {l : List (String × β)}
    (d : l.Pairwise (fun a b => a.1 ≠ b.1)) (h : (k, v) ∈ l) : assoc k l = some v := by
  induction l with
  | nil => simp at h
  | cons q rest ih =>
    obtain ⟨a, b⟩ := q
    rw [List.pairwise_cons] at d
    simp only [assoc]
    rcases List.mem_cons.1 h with h | h
    · cases h; rw [if_pos rfl]
    · rw [if_neg (d.1 _ h)]; exact ih d.2 h

/-- The map keeps its shape when a known flag gets a legal option. -/
theorem ValidGlobal.set {T : Tables} {gl : List (String × String)} (ok : ValidGlobal T gl) {k v : String}
    (hk : k ∈ globalKeys) (hv : valid T k v = true) : ValidGlobal T (mapSet k v gl) := by
  obtain ⟨h1, h2, h3, h4⟩ := ok
  obtain ⟨w, hw⟩ := h3 k hk
  have e := mapSet_keys (v := v) hw
  refine ⟨?_, ?_, ?_, ?_⟩
  · rw [distinct_keys, e, ← distinct_keys]; exact h1
  · intro p hp
    rcases mem_mapSet hp with rfl | hp
    · exact hk
    · exact h2 p hp
  · intro j hj
    obtain ⟨u, hu⟩ := h3 j hj
    have : j ∈ (mapSet k v gl).map (·.1) := by rw [e]; exact List.mem_map_of_mem (f := (·.1)) hu
    obtain ⟨p, hp, rfl⟩ := List.mem_map.1 this
    exact ⟨p.2, hp⟩
  · intro p hp
    rcases mem_mapSet hp with rfl | hp
    · exact hv
    · exact h4 p hp

/-! ## Numbers -/

theorem digit_iff (c : Char) : ('0' ≤ c ∧ c ≤ '9') ↔ c.isDigit = true := by
  unfold Char.isDigit
  rw [Bool.and_eq_true, decide_eq_true_eq, decide_eq_true_eq]
  exact Iff.rfl

theorem digitsFrom_iff (cs : List Char) : ∀ acc n, digitsFrom acc cs = some n ↔
    (∀ c ∈ cs, c.isDigit = true) ∧ n = Nat.ofDigitChars 10 cs acc := by
  induction cs with
  | nil =>
    intro acc n
    rw [Nat.ofDigitChars_nil]
    simp only [digitsFrom, Option.some.injEq]
    exact ⟨fun h => ⟨by simp, h.symm⟩, fun h => h.2.symm⟩
  | cons c cs ih =>
    intro acc n
    simp only [digitsFrom, List.forall_mem_cons]
    by_cases h : '0' ≤ c ∧ c ≤ '9'
    · rw [if_pos h, ih, Nat.ofDigitChars_cons, Nat.mul_comm 10 acc]
      have := (digit_iff c).1 h
      constructor
      · intro ⟨a, b⟩; exact ⟨⟨this, a⟩, b⟩
      · intro ⟨a, b⟩; exact ⟨a.2, b⟩
    · rw [if_neg h]
      constructor
      · intro e; cases e
      · intro e; exact absurd ((digit_iff c).2 e.1.1) h

theorem digits_iff (cs : List Char) (n : Nat) : digits cs = some n ↔
    cs ≠ [] ∧ (∀ c ∈ cs, c.isDigit = true) ∧ n = Nat.ofDigitChars 10 cs 0 := by
  cases cs with
  | nil => simp [digits]
  | cons c cs => simp only [digits]; rw [digitsFrom_iff]; simp

theorem head_digit {ds : List Char} {c : Char} {cs : List Char} (e : ds = c :: cs)
    (h : ∀ c ∈ ds, c.isDigit = true) : c ≠ '-' ∧ c ≠ '+' := by
  have := h c (by rw [e]; exact List.mem_cons_self)
  constructor <;> (intro hc; subst hc; revert this; decide)

/-- `Atoi` accepts exactly the texts of 64 bit integers and gives their value. -/
theorem atoi_iff (s : String) (n : Int) : atoi s = some n ↔ NumberText s n := by
  unfold atoi NumberText
  generalize s.toList = cs
  have pos : ∀ body : List Char, signed false body = some n ↔
      body ≠ [] ∧ (∀ c ∈ body, c.isDigit = true) ∧ n = (Nat.ofDigitChars 10 body 0 : Int) ∧ n < 2 ^ 63 := by
    intro body
    unfold signed
    cases e : digits body with
    | none =>
      constructor
      · intro h; cases h
      · intro ⟨h1, h2, _⟩
        rw [(digits_iff body _).2 ⟨h1, h2, rfl⟩] at e; cases e
    | some m =>
      have := (digits_iff body m).1 e
      simp only [Bool.false_eq_true, if_false]
      constructor
      · intro h
        split at h
        · cases h; refine ⟨this.1, this.2.1, by rw [← this.2.2], by omega⟩
        · cases h
      · intro ⟨_, _, h3, h4⟩
        rw [← this.2.2] at h3
        rw [if_pos (by omega), h3]
  have neg : ∀ body : List Char, signed true body = some n ↔
      body ≠ [] ∧ (∀ c ∈ body, c.isDigit = true) ∧ n = -(Nat.ofDigitChars 10 body 0 : Int) ∧
        -(2 ^ 63) ≤ n := by
    intro body
    unfold signed
    cases e : digits body with
    | none =>
      constructor
      · intro h; cases h
      · intro ⟨h1, h2, _⟩
        rw [(digits_iff body _).2 ⟨h1, h2, rfl⟩] at e; cases e
    | some m =>
      have := (digits_iff body m).1 e
      simp only [if_true]
      constructor
      · intro h
        split at h
        · cases h; refine ⟨this.1, this.2.1, by rw [← this.2.2], by omega⟩
        · cases h
      · intro ⟨_, _, h3, h4⟩
        rw [← this.2.2] at h3
        rw [if_pos (by omega), h3]
  have plain : (∀ r, cs ≠ '-' :: r) → (∀ r, cs ≠ '+' :: r) →
      ((cs ≠ [] ∧ (∀ c ∈ cs, c.isDigit = true) ∧ n = (Nat.ofDigitChars 10 cs 0 : Int) ∧ n < 2 ^ 63) ↔
      ∃ ds : List Char, ds ≠ [] ∧ (∀ c ∈ ds, c.isDigit = true) ∧
        ((cs = ds ∨ cs = '+' :: ds) ∧ n = Nat.ofDigitChars 10 ds 0 ∨
          cs = '-' :: ds ∧ n = -(Nat.ofDigitChars 10 ds 0 : Int)) ∧ -(2 ^ 63) ≤ n ∧ n < 2 ^ 63) := by
    intro h1 h2
    constructor
    · intro ⟨a, b, c, d⟩
      exact ⟨cs, a, b, .inl ⟨.inl rfl, c⟩, by omega, d⟩
    · intro ⟨ds, a, b, c, d, e⟩
      rcases c with ⟨rfl | c, f⟩ | ⟨c, _⟩
      · exact ⟨a, b, f, e⟩
      · exact absurd c (h2 ds)
      · exact absurd c (h1 ds)
  split
  · rename_i r
    rw [neg r]
    constructor
    · intro ⟨a, b, c, d⟩
      exact ⟨r, a, b, .inr ⟨rfl, c⟩, d, by omega⟩
    · intro ⟨ds, a, b, c, d, e⟩
      rcases c with ⟨c | c, f⟩ | ⟨c, f⟩
      · exact absurd rfl (head_digit c.symm b).1
      · cases c
      · cases c; exact ⟨a, b, f, d⟩
  · rename_i r
    rw [pos r]
    constructor
    · intro ⟨a, b, c, d⟩
      exact ⟨r, a, b, .inl ⟨.inr rfl, c⟩, by omega, d⟩
    · intro ⟨ds, a, b, c, d, e⟩
      rcases c with ⟨c | c, f⟩ | ⟨c, f⟩
      · exact absurd rfl (head_digit c.symm b).2
      · cases c; exact ⟨a, b, f, e⟩
      · cases c
  · rename_i h1 h2
    rw [pos]
    exact plain (fun r h => h1 r h) (fun r h => h2 r h)

/-- Typing the decimal digits of a number gives that number. -/
theorem numberText_toString (n : Nat) (h : n < 2 ^ 63) : NumberText (toString n) (n : Int) := by
  refine ⟨Nat.toDigits 10 n, Nat.toDigits_ne_nil, ?_, .inl ⟨.inl ?_, ?_⟩, by omega, by omega⟩
  · intro c hc; exact Nat.isDigit_of_mem_toDigits (by omega) (by omega) hc
  · rw [Nat.toString_eq_ofList_toDigits]; simp
  · rw [Nat.ofDigitChars_ten_toDigits]

theorem numberText_unique {s : String} {n m : Int} (h : NumberText s n) (h' : NumberText s m) : n = m := by
  have := (atoi_iff s n).2 h
  rw [(atoi_iff s m).2 h'] at this
  exact (Option.some.inj this).symm

theorem not_number_of {s : String} (h : atoi s = none) (n : Int) : ¬ NumberText s n := by
  intro hn; rw [(atoi_iff s n).2 hn] at h; cases h

/-! ## Single assignments -/

theorem assigned_flag (c : Cliflags) (k v : String) :
    Assigned c (c.setFlag k v) [(.flag k, .opt (some v))] := by
  refine ⟨?_, ?_, rfl⟩
  · intro w hw
    rw [List.mem_singleton] at hw; subst hw
    simp [Cliflags.read, Cliflags.setFlag, assoc_mapSet]
  · intro s hs
    have := hs _ List.mem_cons_self
    cases s with
    | flag j =>
      simp only [ne_eq, Setting.flag.injEq] at this
      simp [Cliflags.read, Cliflags.setFlag, assoc_mapSet, Ne.symm this]
    | _ => rfl

theorem assigned_stamp (c : Cliflags) (ts : String) :
    Assigned c { c.setFlag "reqtstamp" "yes" with timestamp := ts }
      [(.flag "reqtstamp", .opt (some "yes")), (.timestamp, .name ts)] := by
  refine ⟨?_, ?_, rfl⟩
  · intro w hw
    simp only [List.mem_cons, List.not_mem_nil, or_false] at hw
    rcases hw with rfl | rfl
    · simp [Cliflags.read, Cliflags.setFlag, assoc_mapSet]
    · rfl
  · intro s hs
    have h1 := hs _ List.mem_cons_self
    have h2 := hs (.timestamp, .name ts) (by simp)
    cases s with
    | flag j =>
      simp only [ne_eq, Setting.flag.injEq] at h1
      simp [Cliflags.read, Cliflags.setFlag, assoc_mapSet, Ne.symm h1]
    | timestamp => exact absurd rfl h2
    | _ => rfl

/-- The other settings, written directly. -/
def Cliflags.put (c : Cliflags) : Setting → SettingVal → Cliflags
  | .timezone, .name s => { c with timezone := s }
  | .bcount, .num n => { c with bcount := n.toNat }
  | .interval, .num n => { c with timeout := { c.timeout with binterval := n.toNat } }
  | .metadata, .num n => { c with timeout := { c.timeout with metadata := n } }
  | .request, .num n => { c with timeout := { c.timeout with request := n } }
  | .status, .num n => { c with timeout := { c.timeout with status := n } }
  | .transfer, .num n => { c with timeout := { c.timeout with transfer := n } }
  | .datacounter, .num n => { c with timeout := { c.timeout with datacounter := n } }
  | _, _ => c

theorem assigned_zone (c : Cliflags) (v : String) :
    Assigned c { c with timezone := v } [(.timezone, .name v)] := by
  refine ⟨by intro w hw; rw [List.mem_singleton] at hw; subst hw; rfl, ?_, rfl⟩
  intro s hs
  have := hs _ List.mem_cons_self
  cases s <;> first | rfl | exact absurd rfl this

theorem assigned_num (c : Cliflags) (s : Setting) (n : Int) (hn : 0 ≤ n)
    (hs : s ∈ [Setting.bcount, .interval, .metadata, .request, .status, .transfer, .datacounter]) :
    Assigned c (c.put s (.num n)) [(s, .num n)] := by
  simp only [List.mem_cons, List.not_mem_nil, or_false] at hs
  refine ⟨?_, ?_, ?_⟩
  · intro w hw
    rw [List.mem_singleton] at hw; subst hw
    rcases hs with rfl | rfl | rfl | rfl | rfl | rfl | rfl <;>
      first | rfl | (simp only [Cliflags.put, Cliflags.read]; rw [Int.toNat_of_nonneg hn])
  · intro r hr
    have h := hr _ List.mem_cons_self
    rcases hs with rfl | rfl | rfl | rfl | rfl | rfl | rfl <;>
      (cases r <;> first | rfl | exact absurd rfl h)
  · rcases hs with rfl | rfl | rfl | rfl | rfl | rfl | rfl <;> rfl

end Saratoga
