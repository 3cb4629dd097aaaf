import Verif.Model.Sarnet
/-! # Addresses (`sarnet/sarnet.go`): C59, C60 -/
namespace Saratoga

/-! ## C59 -/

theorem filter_removeIndex {α : Type} (p : α → Bool) :
    ∀ (a : List α) (i : Nat) (h : i < a.length), p a[i] = false →
      (removeUDPAddrIndex a i).filter p = a.filter p
  | [], _, h, _ => by simp at h
  | x :: xs, 0, _, hp => by simp only [List.getElem_cons_zero] at hp; simp [removeUDPAddrIndex, hp]
  | x :: xs, i + 1, h, hp => by
    have := filter_removeIndex p xs i (by simpa using h) (by simpa using hp)
    simp only [removeUDPAddrIndex, List.take_succ_cons, List.drop_succ_cons, List.cons_append,
      List.filter_cons] at this ⊢
    rw [this]

theorem removeLoop_filter {α : Type} (same : α → Bool) (a : List α) (i : Nat)
    (clean : ∀ x ∈ a.take i, same x = false) :
    (removeLoop same a i).1 = a.filter (fun x => !same x) := by
  rw [removeLoop]
  split
  · rename_i h
    split
    · rename_i hs
      have h1 := removeUDPAddrIndex_length h
      have e1 := removeLoop_filter same (removeUDPAddrIndex a i) 0 (by simp)
      have e2 : (removeUDPAddrIndex a i).filter (fun x => !same x) = a.filter (fun x => !same x) :=
        filter_removeIndex _ a i h (by simp [hs])
      simp only
      have hlen := (removeLoop same (removeUDPAddrIndex a i) 0).2
      rw [removeLoop_filter same (removeLoop same (removeUDPAddrIndex a i) 0).1 (i + 1) ?_, e1, e2,
        List.filter_filter]
      · simp
      · intro x hx
        rw [e1] at hx
        have := List.mem_of_mem_take hx
        simpa using (List.mem_filter.1 this).2
    · rename_i hs
      apply removeLoop_filter same a (i + 1)
      intro x hx
      rw [List.take_succ_eq_append_getElem h] at hx
      simp only [List.mem_append, List.mem_singleton] at hx
      rcases hx with hx | rfl
      · exact clean x hx
      · simpa using hs
  · rename_i h
    rw [List.take_of_length_le (by omega)] at clean
    simp only
    rw [List.filter_eq_self.2]
    intro x hx
    simp [clean x hx]
termination_by (a.length, a.length - i)
decreasing_by
  all_goals simp_wf
  all_goals omega

/-- **C59** The result holds exactly the entries that print differently from the given address, in the
same order and number. -/
theorem C59_removes_all_copies (str : UDPAddr → String) (a : List UDPAddr) (val : UDPAddr) :
    removeUDPAddrValue str a val = a.filter (fun x => str x ≠ str val) := by
  unfold removeUDPAddrValue
  rw [removeLoop_filter _ _ _ (by simp)]
  congr 1
  funext x
  by_cases h : str x = str val <;> simp [h]

/-- **C59** No copy is left. -/
theorem C59_none_left (str : UDPAddr → String) (a : List UDPAddr) (val : UDPAddr) :
    ∀ x ∈ removeUDPAddrValue str a val, str x ≠ str val := by
  intro x hx
  rw [C59_removes_all_copies] at hx
  simpa using (List.mem_filter.1 hx).2

/-- **C59** Every other address keeps all its copies. -/
theorem C59_others_kept (str : UDPAddr → String) (a : List UDPAddr) (val x : UDPAddr)
    (other : str x ≠ str val) : (removeUDPAddrValue str a val).count x = a.count x := by
  rw [C59_removes_all_copies, List.count_filter]
  simpa using other

example := C59_others_kept (fun a => a.zone) [⟨[1], 1, "a"⟩, ⟨[3], 1, "b"⟩, ⟨[4], 1, "a"⟩] ⟨[], 0, "a"⟩ ⟨[3], 1, "b"⟩ (by decide)

/-- **C59** Removing twice is removing once, and removing an address that is not there changes nothing. -/
theorem C59_idempotent (str : UDPAddr → String) (a : List UDPAddr) (val : UDPAddr) :
    removeUDPAddrValue str (removeUDPAddrValue str a val) val = removeUDPAddrValue str a val ∧
    ((∀ x ∈ a, str x ≠ str val) → removeUDPAddrValue str a val = a) := by
  constructor
  · simp only [C59_removes_all_copies, List.filter_filter, Bool.and_self]
  · intro h
    rw [C59_removes_all_copies, List.filter_eq_self.2]
    intro x hx
    simpa using h x hx

/-- Neighbouring copies, the case the loop's own index would skip. -/
example : removeUDPAddrValue (fun a => a.zone) [⟨[1], 1, "a"⟩, ⟨[2], 1, "a"⟩, ⟨[3], 1, "b"⟩, ⟨[4], 1, "a"⟩]
    ⟨[], 0, "a"⟩ = [⟨[3], 1, "b"⟩] := by rw [C59_removes_all_copies]; decide
example : (⟨[3], 1, "b"⟩ : UDPAddr).zone ≠ (⟨[], 0, "a"⟩ : UDPAddr).zone := by decide

/-! ## C60 -/

/-- The two kinds of address text. -/
inductive Family where
  | ip4 | ip6
deriving DecidableEq, Repr

/-- What the resolver is asked for an address text of the given kind. -/
def dialText (s : String) : Family → String
  | .ip4 => s ++ ":7542"
  | .ip6 => "[" ++ s ++ "]:7542"

/-- The kind of an address text by its separators: two or more colons, else exactly three dots. -/
def Kind (s : String) (k : Family) : Prop :=
  match k with
  | .ip6 => 2 ≤ s.toList.count ':'
  | .ip4 => s.toList.count ':' < 2 ∧ s.toList.count '.' = 3

theorem countChar_eq (s : String) (c : Char) : countChar s c = s.toList.count c := by
  unfold countChar
  rw [List.count_eq_countP, List.countP_eq_length_filter]
  congr 1

theorem dialText6 (s : String) : "[" ++ s ++ "]" ++ ":" ++ portText = dialText s .ip6 := by
  simp only [dialText, portText, String.append_assoc]
  rfl

theorem dialText4 (s : String) : s ++ ":" ++ portText = dialText s .ip4 := by
  simp only [dialText, portText, String.append_assoc]
  rfl

/-- **C60** An address is handed out if and only if the text has one of the two kinds and the resolver,
asked for that kind with the Saratoga port, gives that address. -/
theorem C60_accepted_iff (resolve : String → Except Err UDPAddr) (s : String) (a : UDPAddr) :
    udpAddress resolve s = .ok a ↔ ∃ k, Kind s k ∧ resolve (dialText s k) = .ok a := by
  unfold udpAddress
  rw [dialText6, dialText4]
  by_cases h6 : 2 ≤ s.toList.count ':'
  · simp only [isIPv6, countChar_eq, ge_iff_le, h6, decide_true, if_true]
    constructor
    · intro h
      refine ⟨.ip6, h6, ?_⟩
      split at h <;> simp_all
    · rintro ⟨k, hk, hr⟩
      cases k with
      | ip6 => rw [hr]
      | ip4 => simp only [Kind] at hk; omega
  · have h6' : isIPv6 s = false := by simp [isIPv6, countChar_eq, h6]
    simp only [h6', Bool.false_eq_true, if_false]
    by_cases h4 : s.toList.count '.' = 3
    · simp only [isIPv4, countChar_eq, h4, BEq.rfl, if_true]
      constructor
      · intro h
        refine ⟨.ip4, ⟨by omega, h4⟩, ?_⟩
        split at h <;> simp_all
      · rintro ⟨k, hk, hr⟩
        cases k with
        | ip6 => exact absurd hk h6
        | ip4 => rw [hr]
    · have h4' : isIPv4 s = false := by simp [isIPv4, countChar_eq, h4]
      simp only [h4', Bool.false_eq_true, if_false]
      constructor
      · intro h; cases h
      · rintro ⟨k, hk, hr⟩
        cases k with
        | ip6 => exact absurd hk h6
        | ip4 => exact absurd hk.2 h4

/-- **C60** No text is of both kinds. -/
theorem C60_one_kind (s : String) (k k' : Family) (h : Kind s k) (h' : Kind s k') : k = k' := by
  cases k <;> cases k' <;> simp only [Kind] at h h' <;> first | rfl | omega

/-- **C60** Text of neither kind is refused whatever the resolver would say. -/
theorem C60_refused (resolve : String → Except Err UDPAddr) (s : String) (neither : ∀ k, ¬ Kind s k) :
    ∃ e, udpAddress resolve s = .error e := by
  cases h : udpAddress resolve s with
  | error e => exact ⟨e, rfl⟩
  | ok a =>
    obtain ⟨k, hk, _⟩ := (C60_accepted_iff resolve s a).1 h
    exact absurd hk (neither k)

/-- Text without dots and colons. -/
def Part (s : String) : Prop := '.' ∉ s.toList ∧ ':' ∉ s.toList

instance (s : String) : Decidable (Part s) := by unfold Part; infer_instance

/-- **C60** Four parts with dots between them are IPv4 text. -/
theorem C60_dotted_quad (a b c d : String) (ha : Part a) (hb : Part b) (hc : Part c) (hd : Part d) :
    Kind (a ++ "." ++ b ++ "." ++ c ++ "." ++ d) .ip4 := by
  have z : ∀ {s : String}, Part s → s.toList.count '.' = 0 ∧ s.toList.count ':' = 0 := fun h =>
    ⟨List.count_eq_zero.2 h.1, List.count_eq_zero.2 h.2⟩
  simp only [Kind, String.toList_append, List.count_append, (z ha).1, (z hb).1, (z hc).1, (z hd).1,
    (z ha).2, (z hb).2, (z hc).2, (z hd).2]
  decide

/-- **C60** Text with a double colon, or with three groups, is IPv6 text, whatever else it holds (also
the mixed form with an IPv4 tail). -/
theorem C60_colon_text (a b c : String) :
    Kind (a ++ "::" ++ b) .ip6 ∧ Kind (a ++ ":" ++ b ++ ":" ++ c) .ip6 := by
  have e1 : ("::" : String).toList.count ':' = 2 := by decide
  have e2 : (":" : String).toList.count ':' = 1 := by decide
  simp only [Kind, String.toList_append, List.count_append, e1, e2]
  omega

/-- **C60** Choosing the multicast socket option asks the two questions in the other order: the two
choices agree on every text except IPv6 text with exactly three dots. -/
theorem C60_multicast_choice (s : String) :
    (mcastFamily s = .bad ↔ ∀ k, ¬ Kind s k) ∧
    (mcastFamily s = .ip4 ↔ Kind s .ip4 ∨ (Kind s .ip6 ∧ s.toList.count '.' = 3)) ∧
    (mcastFamily s = .ip6 ↔ Kind s .ip6 ∧ s.toList.count '.' ≠ 3) := by
  have all : (∀ k, ¬ Kind s k) ↔ ¬ Kind s .ip4 ∧ ¬ Kind s .ip6 :=
    ⟨fun h => ⟨h _, h _⟩, fun h k => match k with | .ip4 => h.1 | .ip6 => h.2⟩
  rw [all]
  simp only [Kind, mcastFamily, isIPv4, isIPv6, countChar_eq]
  by_cases h4 : s.toList.count '.' = 3 <;> by_cases h6 : 2 ≤ s.toList.count ':' <;> simp [h4, h6] <;> omega

example : Kind "192.168.1.7" .ip4 ∧ Kind "fe80::1" .ip6 ∧ Kind "::ffff:1.2.3.4" .ip6 := by
  refine ⟨by simp only [Kind]; decide, by simp only [Kind]; decide, by simp only [Kind]; decide⟩
example : ∀ k, ¬ Kind "localhost" k := by intro k; cases k <;> simp only [Kind] <;> decide
example : Part "192" ∧ Part "7" := ⟨by decide, by decide⟩

end Saratoga
