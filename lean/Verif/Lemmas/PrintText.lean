import Verif.Model.PrintText
/-! # Taking printed text apart -/
namespace Saratoga

/-- A digit, decimal or hexadecimal. -/
def HexByte (b : Byte) : Prop := (48 ≤ b.toNat ∧ b.toNat ≤ 57) ∨ (97 ≤ b.toNat ∧ b.toNat ≤ 102)

instance (b : Byte) : Decidable (HexByte b) := by unfold HexByte; infer_instance

/-- The text does not go on with a digit. -/
def Stops (l : List Byte) : Prop := ∀ b ∈ l.head?, ¬ HexByte b

instance (l : List Byte) : Decidable (Stops l) := by unfold Stops; infer_instance

theorem stops_append {l : List Byte} (r : List Byte) (h : l ≠ [] ∧ Stops l) : Stops (l ++ r) := by
  cases l with
  | nil => exact absurd rfl h.1
  | cons a l => exact h.2

theorem stops_nil : Stops [] := fun _ h => by cases h

theorem span_inj {α : Type} {P : α → Prop} : ∀ {a a' r r' : List α}, (∀ x ∈ a, P x) → (∀ x ∈ a', P x) →
    (∀ x ∈ r.head?, ¬ P x) → (∀ x ∈ r'.head?, ¬ P x) → a ++ r = a' ++ r' → a = a' ∧ r = r' := by
  intro a
  induction a with
  | nil =>
    intro a' r r' _ h' hr hr' e
    cases a' with
    | nil => exact ⟨rfl, e⟩
    | cons x a' =>
      have : r = x :: (a' ++ r') := e
      rw [this] at hr
      exact absurd (h' x List.mem_cons_self) (hr x rfl)
  | cons x a ih =>
    intro a' r r' h h' hr hr' e
    cases a' with
    | nil =>
      have : x :: (a ++ r) = r' := e
      rw [← this] at hr'
      exact absurd (h x List.mem_cons_self) (hr' x rfl)
    | cons y a' =>
      simp only [List.cons_append, List.cons.injEq] at e
      obtain ⟨rfl, e⟩ := e
      obtain ⟨rfl, rfl⟩ := ih (fun z hz => h z (List.mem_cons_of_mem _ hz))
        (fun z hz => h' z (List.mem_cons_of_mem _ hz)) hr hr' e
      exact ⟨rfl, rfl⟩

/-- The value of a digit. -/
def byteDigit (b : Byte) : Nat := if b.toNat ≤ 57 then b.toNat - 48 else b.toNat - 87

/-- The number written in the digits. -/
def byteNumber (base : Nat) (l : List Byte) : Nat := l.foldl (fun n b => n * base + byteDigit b) 0

theorem digit_byte : ∀ k < 16, HexByte (asciiByte (Nat.digitChar k)) ∧ byteDigit (asciiByte (Nat.digitChar k)) = k := by
  decide

theorem digits_spec {base : Nat} (h1 : 1 < base) (h16 : base ≤ 16) (n : Nat) :
    (∀ b ∈ (Nat.toDigits base n).map asciiByte, HexByte b) ∧ byteNumber base ((Nat.toDigits base n).map asciiByte) = n := by
  induction n using Nat.strongRecOn with
  | ind n ih =>
    rw [Nat.toDigits_eq_if h1]
    split
    · rename_i h
      obtain ⟨d1, d2⟩ := digit_byte n (by omega)
      constructor
      · intro b hb
        simp only [List.map_cons, List.map_nil, List.mem_singleton] at hb
        rw [hb]; exact d1
      · simp [byteNumber, d2]
    · rename_i h
      have hm : n % base < base := Nat.mod_lt _ (by omega)
      obtain ⟨d1, d2⟩ := digit_byte (n % base) (by omega)
      obtain ⟨i1, i2⟩ := ih (n / base) (Nat.div_lt_self (by omega) h1)
      constructor
      · intro b hb
        rw [List.map_append, List.mem_append] at hb
        rcases hb with hb | hb
        · exact i1 b hb
        · simp only [List.map_cons, List.map_nil, List.mem_singleton] at hb
          rw [hb]; exact d1
      · unfold byteNumber at i2 ⊢
        rw [List.map_append, List.foldl_append, i2]
        simp only [List.map_cons, List.map_nil, List.foldl_cons, List.foldl_nil, d2]
        rw [Nat.mul_comm]
        exact Nat.div_add_mod n base

theorem digits_inj {base : Nat} (h1 : 1 < base) (h16 : base ≤ 16) {n m : Nat} {r r' : List Byte} (s : Stops r)
    (s' : Stops r') (h : (Nat.toDigits base n).map asciiByte ++ r = (Nat.toDigits base m).map asciiByte ++ r') :
    n = m ∧ r = r' := by
  obtain ⟨a1, a2⟩ := digits_spec h1 h16 n
  obtain ⟨b1, b2⟩ := digits_spec h1 h16 m
  obtain ⟨e, er⟩ := span_inj (P := HexByte) a1 b1 s s' h
  exact ⟨by rw [← a2, e, b2], er⟩

theorem decimal_inj {n m : Nat} {r r' : List Byte} (h : decimal n ++ r = decimal m ++ r') (s : Stops r) (s' : Stops r') :
    n = m ∧ r = r' := digits_inj (base := 10) (by decide) (by decide) s s' h

theorem hexadecimal_inj {n m : Nat} {r r' : List Byte} (h : hexadecimal n ++ r = hexadecimal m ++ r') (s : Stops r)
    (s' : Stops r') : n = m ∧ r = r' := digits_inj (base := 16) (by decide) (by decide) s s' h

theorem decimal_last {n m : Nat} (h : decimal n = decimal m) : n = m :=
  (decimal_inj (r := []) (r' := []) (by rw [h]) stops_nil stops_nil).1

theorem decimal_bytes (n : Nat) : ∀ b ∈ decimal n, HexByte b := (digits_spec (base := 10) (by decide) (by decide) n).1

theorem decimal_cons (n : Nat) : ∃ b rest, decimal n = b :: rest ∧ HexByte b := by
  have nz : decimal n ≠ [] := by
    unfold decimal
    intro h
    exact Nat.toDigits_ne_nil (List.map_eq_nil_iff.1 h)
  cases h : decimal n with
  | nil => exact absurd h nz
  | cons b rest => exact ⟨b, rest, rfl, decimal_bytes n b (by rw [h]; exact List.mem_cons_self)⟩

theorem signed_inj {n m : Int} {r r' : List Byte} (h : signedDec n ++ r = signedDec m ++ r') (s : Stops r) (s' : Stops r') :
    n = m ∧ r = r' := by
  have minus : ¬ HexByte (asciiByte '-') := by decide
  cases n with
  | ofNat n =>
    cases m with
    | ofNat m =>
      obtain ⟨rfl, e⟩ := decimal_inj h s s'
      exact ⟨rfl, e⟩
    | negSucc m =>
      exfalso
      obtain ⟨b, rest, e, hb⟩ := decimal_cons n
      simp only [signedDec, e, List.cons_append, List.cons.injEq] at h
      rw [h.1] at hb
      exact minus hb
  | negSucc n =>
    cases m with
    | ofNat m =>
      exfalso
      obtain ⟨b, rest, e, hb⟩ := decimal_cons m
      simp only [signedDec, e, List.cons_append, List.cons.injEq] at h
      rw [← h.1] at hb
      exact minus hb
    | negSucc m =>
      simp only [signedDec, List.cons_append, List.cons.injEq, true_and] at h
      obtain ⟨e, er⟩ := decimal_inj h s s'
      have : n = m := by omega
      subst this
      exact ⟨rfl, er⟩

/-- No line ends in the text. -/
def OneLine (l : List Byte) : Prop := 10#8 ∉ l

instance (l : List Byte) : Decidable (OneLine l) := by unfold OneLine; infer_instance

theorem oneLine_append {a b : List Byte} (ha : OneLine a) (hb : OneLine b) : OneLine (a ++ b) := by
  unfold OneLine at *
  rw [List.mem_append]
  rintro (h | h)
  · exact ha h
  · exact hb h

theorem oneLine_hex {l : List Byte} (h : ∀ b ∈ l, HexByte b) : OneLine l := by
  intro m
  have := h _ m
  exact absurd this (by decide)

theorem oneLine_decimal (n : Nat) : OneLine (decimal n) := oneLine_hex (decimal_bytes n)

/-- A text that is one line, up to the end of the line. -/
theorem line_inj {a a' r r' : List Byte} (h : a ++ 10#8 :: r = a' ++ 10#8 :: r') (o : OneLine a) (o' : OneLine a') :
    a = a' ∧ r = r' := by
  obtain ⟨e, er⟩ := span_inj (P := fun b => b ≠ 10#8) (fun x hx hh => o (hh ▸ hx)) (fun x hx hh => o' (hh ▸ hx))
    (fun x hx => by cases hx; simp) (fun x hx => by cases hx; simp) h
  exact ⟨e, (List.cons.inj er).2⟩

/-- The last line, and what is before it. -/
theorem lastLine_inj {a a' r r' : List Byte} (h : a ++ 10#8 :: r = a' ++ 10#8 :: r') (o : OneLine r) (o' : OneLine r') :
    a = a' ∧ r = r' := by
  have h : r.reverse ++ 10#8 :: a.reverse = r'.reverse ++ 10#8 :: a'.reverse := by
    have := congrArg List.reverse h
    simpa using this
  obtain ⟨e, er⟩ := line_inj h (fun m => o (List.mem_reverse.1 m)) (fun m => o' (List.mem_reverse.1 m))
  exact ⟨List.reverse_inj.1 er, List.reverse_inj.1 e⟩

theorem hexBytes_length (l : List Byte) : (hexBytes l).length = 2 * l.length := by
  induction l with
  | nil => rfl
  | cons b l ih => simp only [hexBytes, List.length_cons, ih]; omega

theorem hexBytes_bytes (l : List Byte) : ∀ b ∈ hexBytes l, HexByte b := by
  induction l with
  | nil => intro b h; cases h
  | cons c l ih =>
    intro b h
    simp only [hexBytes, List.mem_cons] at h
    rcases h with rfl | rfl | h
    · exact (digit_byte _ (by omega)).1
    · exact (digit_byte _ (by omega)).1
    · exact ih b h

theorem hexBytes_inj : ∀ {l l' : List Byte}, hexBytes l = hexBytes l' → l = l' := by
  intro l
  induction l with
  | nil =>
    intro l' h
    cases l' with
    | nil => rfl
    | cons c l' => cases h
  | cons b l ih =>
    intro l' h
    cases l' with
    | nil => cases h
    | cons c l' =>
      simp only [hexBytes, List.cons.injEq] at h
      obtain ⟨h1, h2, h3⟩ := h
      have e1 : b.toNat / 16 = c.toNat / 16 := by
        rw [← (digit_byte (b.toNat / 16) (by omega)).2, h1, (digit_byte (c.toNat / 16) (by omega)).2]
      have e2 : b.toNat % 16 = c.toNat % 16 := by
        rw [← (digit_byte (b.toNat % 16) (by omega)).2, h2, (digit_byte (c.toNat % 16) (by omega)).2]
      have : b = c := BitVec.eq_of_toNat_eq (by omega)
      rw [this, ih h3]

theorem hole_head (i : Nat) (h : Hole) (l : List Hole) : ∃ r, holeLines i (h :: l) = 32#8 :: r := by
  have : utf8 "  Hole[" = 32#8 :: [32#8, 72#8, 111#8, 108#8, 101#8, 91#8] := by decide +kernel
  unfold holeLines
  rw [this]
  exact ⟨_, rfl⟩

theorem holeLines_inj : ∀ (l l' : List Hole) (i : Nat), holeLines i l = holeLines i l' → l = l' := by
  intro l
  induction l with
  | nil =>
    intro l' i h
    cases l' with
    | nil => rfl
    | cons x l' =>
      obtain ⟨r, e⟩ := hole_head i x l'
      rw [e] at h
      cases h
  | cons x l ih =>
    intro l' i h
    cases l' with
    | nil =>
      obtain ⟨r, e⟩ := hole_head i x l
      rw [e] at h
      cases h
    | cons y l' =>
      simp only [holeLines, List.append_assoc] at h
      replace h := List.append_cancel_left (List.append_cancel_left (List.append_cancel_left h))
      obtain ⟨e1, h⟩ := signed_inj h (stops_append _ (by decide +kernel)) (stops_append _ (by decide +kernel))
      replace h := List.append_cancel_left h
      obtain ⟨e2, h⟩ := signed_inj h (stops_append _ (by decide +kernel)) (stops_append _ (by decide +kernel))
      replace h := List.append_cancel_left h
      rw [ih l' (i + 1) h]
      cases x; cases y
      simp only at e1 e2
      rw [e1, e2]

end Saratoga
