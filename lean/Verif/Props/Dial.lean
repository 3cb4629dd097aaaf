import Verif.Model.Dial
import Verif.Props.System
/-!
# Property C119: the old client and its peer

C119: a transfer should be sent to the peer it was made for.
-/
namespace Saratoga

theorem lastColon_eq (a b : List Char) (h : ':' ∉ b) : lastColon (a ++ ':' :: b) = some (a, b) := by
  unfold lastColon
  have nb : ∀ c ∈ b.reverse, decide (c ≠ ':') = true := by
    intro c hc
    have : c ∈ b := List.mem_reverse.1 hc
    exact decide_eq_true fun e => h (e ▸ this)
  have e : (a ++ ':' :: b).reverse = b.reverse ++ ':' :: a.reverse := by simp
  simp only [e]
  rw [List.dropWhile_append_of_pos nb, List.takeWhile_append_of_pos nb]
  simp

theorem digits_no_colon (n : Int) : ':' ∉ (toString n).toList ∧ ']' ∉ (toString n).toList ∧ '[' ∉ (toString n).toList := by
  have d : ∀ (m : Nat) (c : Char), c ∈ (toString m).toList → c.isDigit = true := by
    intro m c hc
    have : c ∈ (Nat.repr m).toList := hc
    rw [Nat.toList_repr] at this
    exact Nat.isDigit_of_mem_toDigits (by omega) (by omega) this
  have k : ∀ c : Char, c.isDigit = false → c ≠ '-' → c ∉ (toString n).toList := by
    intro c hc hm h
    cases n with
    | ofNat m =>
      have := d m c h
      rw [hc] at this; cases this
    | negSucc m =>
      have h : c ∈ ("-" ++ toString (m + 1)).toList := h
      rw [String.toList_append, List.mem_append] at h
      rcases h with h | h
      · have : c = '-' := by simpa using h
        exact hm this
      · have := d _ c h
        rw [hc] at this; cases this
  exact ⟨k ':' (by decide) (by decide), k ']' (by decide) (by decide), k '[' (by decide) (by decide)⟩

/-- The text of an address with its port is not an address, nor a name. -/
theorem joined_unknown (L : NetLib) (host port : String) (plain : ':' ∉ port.toList) :
    L.parseIP (joinHostPort host port) = none ∧ L.lookup (joinHostPort host port) = none := by
  have colon : ':' ∈ (joinHostPort host port).toList := by
    unfold joinHostPort
    split <;> simp [String.toList_append]
  constructor
  · cases h : L.parseIP (joinHostPort host port) with
    | none => rfl
    | some ip =>
      exfalso
      obtain ⟨h1, _, h3⟩ := L.ip_plain _ _ h
      unfold joinHostPort at h1 h3
      split at h1
      · exact h1 (by simp [String.toList_append])
      · rename_i hc
        rw [if_neg hc] at h3
        apply h3
        have z : ∀ l : List Char, ':' ∉ l → l.filter (fun c => decide (c = ':')) = [] := by
          intro l hl
          rw [List.filter_eq_nil_iff]
          intro c hcm e
          exact hl (of_decide_eq_true e ▸ hcm)
        unfold countChar
        rw [String.toList_append, String.toList_append, List.filter_append, List.filter_append, z _ hc, z _ plain]
        rfl
  · cases h : L.lookup (joinHostPort host port) with
    | none => rfl
    | some ip => exact absurd colon (L.name_plain _ _ h)

theorem splitHostPort_bracket {inner port : List Char} (plain : ':' ∉ port) {h p : List Char}
    (e : splitHostPort ('[' :: inner ++ ']' :: ':' :: port) = some (h, p)) : h = inner ∧ p = port := by
  have l : lastColon ('[' :: inner ++ ']' :: ':' :: port) = some ('[' :: inner ++ [']'], port) := by
    rw [← lastColon_eq ('[' :: inner ++ [']']) port plain]
    simp
  unfold splitHostPort at e
  rw [l] at e
  simp only [List.cons_append] at e
  split at e
  · rename_i c
    split at e
    · cases e
    · cases e
      have c := c.2
      simp only [List.cons.injEq, true_and] at c
      exact ⟨(List.append_cancel_right c).symm, rfl⟩
  · cases e

/-- Whatever the address of the peer, the text the client dials cannot be resolved. -/
theorem dial_unresolved (L : NetLib) (host port : String) (plain : ':' ∉ port.toList) (to : Int) :
    resolveUDP L (clientDial L (joinHostPort host port) to) = none := by
  obtain ⟨h1, h2⟩ := joined_unknown L host port plain
  have t : clientDial L (joinHostPort host port) to = "[" ++ joinHostPort host port ++ "]" ++ ":" ++ toString to := by
    unfold clientDial
    rw [h1]
    rfl
  rw [t]
  unfold resolveUDP
  have tl : ("[" ++ joinHostPort host port ++ "]" ++ ":" ++ toString to).toList =
      '[' :: (joinHostPort host port).toList ++ ']' :: ':' :: (toString to).toList := by
    simp [String.toList_append]
  rw [tl]
  cases e : splitHostPort ('[' :: (joinHostPort host port).toList ++ ']' :: ':' :: (toString to).toList) with
  | none => rfl
  | some r =>
    obtain ⟨h, p⟩ := r
    obtain ⟨rfl, rfl⟩ := splitHostPort_bracket (digits_no_colon to).1 e
    simp only [String.ofList_toList, h1, h2]
    cases L.port (toString to) <;> rfl

/-- **C119** fails for every peer: `RemoteAddr().String()` has the port in it, so it is not an IP address, is put into
brackets, and cannot be resolved. Whatever the address, the port, the file and the network: `put`, `putrm` and
`putblind` report that they cannot send, nothing is sent and no file removed, and no other type is known. -/
theorem C119_counterexample (L : NetLib) (host port : String) (plain : ':' ∉ port.toList) (to : Int) (p : PutStart)
    (numbers : String → Bool) (events : List PutEvent) (removes : Bool) (ttype : String) :
    (doclient L (joinHostPort host port) to p numbers events removes ttype = .ret (some (
      if ttype = "put" ∨ ttype = "putrm" ∨ ttype = "putblind" then
        if p.opened = false then "filenotfound" else if p.seeked = false then "badoffset" else "cantsend"
      else "undefined"))) ∧
    (∀ word removed, dialPutrm L (joinHostPort host port) to p numbers events removes = .ret (some (word, removed)) →
      removed = false) ∧
    (dialPutblind L (joinHostPort host port) to p).2 = false := by
  have r := dial_unresolved L host port plain to
  have put : dialPut L (joinHostPort host port) to p numbers events = .ret (some
      (if p.opened = false then "filenotfound" else if p.seeked = false then "badoffset" else "cantsend")) := by
    unfold dialPut cput PutStart.word
    rw [r]
    cases p.opened <;> cases p.seeked <;> rfl
  have rm : dialPutrm L (joinHostPort host port) to p numbers events removes = .ret (some
      (if p.opened = false then "filenotfound" else if p.seeked = false then "badoffset" else "cantsend", false)) := by
    unfold dialPutrm cputrm
    unfold dialPut at put
    rw [put]
    cases p.opened <;> cases p.seeked <;> rfl
  have blind : dialPutblind L (joinHostPort host port) to p =
      (if p.opened = false then "filenotfound" else if p.seeked = false then "badoffset" else "cantsend", false) := by
    unfold dialPutblind
    rw [r]
    cases p.opened <;> cases p.seeked <;> rfl
  refine ⟨?_, ?_, ?_⟩
  · unfold doclient
    rw [put, rm, blind]
    by_cases h1 : ttype = "put"
    · subst h1; rfl
    · by_cases h2 : ttype = "putrm"
      · subst h2; rfl
      · by_cases h3 : ttype = "putblind"
        · subst h3; rfl
        · simp [h1, h2, h3]
  · intro w b e
    rw [rm] at e
    cases e
    rfl
  · rw [blind]

theorem isTo4_iff (ip : List Byte) : isTo4 ip = true ↔ ∃ four, IsV4 ip four := by
  unfold isTo4
  rw [decide_eq_true_iff]
  constructor
  · rintro (h | ⟨h, e⟩)
    · exact ⟨ip, .plain ip h⟩
    · refine ⟨ip.drop 12, ?_⟩
      have d : ip = [0, 0, 0, 0, 0, 0, 0, 0, 0, 0, 0xff, 0xff] ++ ip.drop 12 := by
        conv => lhs; rw [← List.take_append_drop 12 ip, e]
        rfl
      have m := IsV4.mapped (ip.drop 12) (by rw [List.length_drop]; omega)
      rw [← d] at m
      exact m
  · rintro ⟨four, h⟩
    cases h with
    | plain _ h => exact .inl h
    | mapped _ h =>
      right
      refine ⟨by simp [h], ?_⟩
      rfl

/-- **C119** (partial: were the address resolved.) A blind put then reports success exactly if the file was opened and
wound back, the connection made, the metadata built and written whole; what went wrong is what it reports otherwise, and
metadata is written exactly if all before that succeeded. Missing: that the address is resolved, which it never is, see
`C119_counterexample`. -/
theorem C119_blind_partial (L : NetLib) (remote : String) (to : Int) (p : PutStart)
    (resolved : (resolveUDP L (clientDial L remote to)).isSome) :
    ((dialPutblind L remote to p).2 = true ↔ p.opened = true ∧ p.seeked = true ∧ p.dialled = true ∧ p.metadata = true) ∧
    ((dialPutblind L remote to p).2 = true → (dialPutblind L remote to p).1 = p.metadataSent) ∧
    ((dialPutblind L remote to p).2 = false → (dialPutblind L remote to p).1 =
      if p.opened = false then "filenotfound" else if p.seeked = false then "badoffset"
      else if p.dialled = false then "cantsend" else "badrequest") := by
  have r : (resolveUDP L (clientDial L remote to)).isNone = false := by
    cases h : resolveUDP L (clientDial L remote to) <;> simp_all
  unfold dialPutblind
  rw [r]
  cases p.opened <;> cases p.seeked <;> cases p.dialled <;> cases p.metadata <;>
    by_cases h : p.metadataSent = "success" <;> simp [h]

/-- **C119** (partial: were the text of the address without its port.) The client would then reach the peer's address at
its own port, for addresses of which the text is IPv6 with colons or IPv4 without. Missing: what the code is given,
the text with the port. -/
theorem C119_bare_partial (L : NetLib) (remote : String) (ip : List Byte) (address : L.parseIP remote = some ip)
    (usual : (∃ four, IsV4 ip four) ↔ ':' ∉ remote.toList) (to : Int) (n : Nat) (number : L.port (toString to) = some n) :
    resolveUDP L (clientDial L remote to) = some (ip, n) := by
  rw [← isTo4_iff] at usual
  obtain ⟨b1, b2, _⟩ := L.ip_plain _ _ address
  obtain ⟨d1, d2, d3⟩ := digits_no_colon to
  unfold resolveUDP clientDial
  rw [address]
  simp only
  rcases Bool.eq_false_or_eq_true (isTo4 ip) with h | h
  · have nc := usual.1 h
    rw [if_neg (by rw [h]; decide)]
    have tl : (remote ++ ":" ++ toString to).toList = remote.toList ++ ':' :: (toString to).toList := by
      simp [String.toList_append]
    have sp : splitHostPort (remote.toList ++ ':' :: (toString to).toList) = some (remote.toList, (toString to).toList) := by
      unfold splitHostPort
      rw [lastColon_eq _ _ d1]
      cases hr : remote.toList with
      | nil =>
        simp
        exact ⟨d3, d2⟩
      | cons c rest =>
        rw [hr] at b1 b2 nc
        have hc : c ≠ '[' := fun e => b1 (e ▸ List.mem_cons_self)
        simp only [List.cons_append]
        split
        · rename_i x y
          simp only [List.cons.injEq] at y
          exact absurd y.1 hc
        · rw [if_neg nc, if_neg]
          rintro (m | m)
          · rw [← List.cons_append] at m
            rcases List.mem_append.1 m with m | m
            · exact b1 m
            · rcases List.mem_cons.1 m with m | m
              · exact absurd m (by decide)
              · exact d3 m
          · rw [← List.cons_append] at m
            rcases List.mem_append.1 m with m | m
            · exact b2 m
            · rcases List.mem_cons.1 m with m | m
              · exact absurd m (by decide)
              · exact d2 m
    rw [tl, sp]
    simp only [String.ofList_toList, address, number]
  · rw [if_pos h]
    have tl : ("[" ++ remote ++ "]" ++ ":" ++ toString to).toList =
        '[' :: remote.toList ++ ']' :: ':' :: (toString to).toList := by simp [String.toList_append]
    have sp : splitHostPort ('[' :: remote.toList ++ ']' :: ':' :: (toString to).toList) =
        some (remote.toList, (toString to).toList) := by
      have l : lastColon ('[' :: remote.toList ++ ']' :: ':' :: (toString to).toList) =
          some ('[' :: remote.toList ++ [']'], (toString to).toList) := by
        rw [← lastColon_eq ('[' :: remote.toList ++ [']']) _ d1]
        simp
      have tw : (remote.toList ++ ']' :: ':' :: (toString to).toList).takeWhile (fun c => decide (c ≠ ']')) =
          remote.toList := by
        have nb : ∀ c ∈ remote.toList, decide (c ≠ ']') = true := by
          intro c hc
          exact decide_eq_true fun e => b2 (e ▸ hc)
        rw [List.takeWhile_append_of_pos nb]
        simp
      unfold splitHostPort
      rw [l]
      simp only [List.cons_append]
      rw [tw, if_pos ⟨by simp, rfl⟩, if_neg]
      rintro (m | m)
      · rcases List.mem_append.1 m with m | m
        · exact b1 m
        · rcases List.mem_cons.1 m with m | m
          · exact absurd m (by decide)
          · rcases List.mem_cons.1 m with m | m
            · exact absurd m (by decide)
            · exact d3 m
      · exact d2 m
    rw [tl, sp]
    simp only [String.ofList_toList, address, number]

/-! ## Cases -/

/-- A library that knows two addresses and one name. -/
def exampleNet : NetLib where
  parseIP s := if s = "10.0.0.1" then some ([0, 0, 0, 0, 0, 0, 0, 0, 0, 0, 0xff, 0xff, 10, 0, 0, 1])
    else if s = "::1" then some (List.replicate 15 0 ++ [1]) else none
  lookup s := if s = "localhost" then some [127, 0, 0, 1] else none
  port s := if s = "7542" then some 7542 else none
  ip_plain := by
    intro s ip h
    split at h
    · rename_i e; subst e; decide
    · split at h
      · rename_i e; subst e; decide
      · cases h
  name_plain := by
    intro s ip h
    split at h
    · rename_i e; subst e; decide
    · cases h

example := C119_blind_partial exampleNet "::1" 7542 ⟨true, true, true, true, true, "success", true, "success"⟩ (by decide +kernel)

example := C119_counterexample exampleNet "10.0.0.1" "5000" (by decide)

example : clientDial exampleNet (joinHostPort "10.0.0.1" "5000") 7542 = "[10.0.0.1:5000]:7542" := by decide +kernel
example : clientDial exampleNet (joinHostPort "::1" "5000") 7542 = "[[::1]:5000]:7542" := by decide +kernel
example : resolveUDP exampleNet "localhost:7542" = some ([127, 0, 0, 1], 7542) := by decide +kernel
example : exampleNet.parseIP "::1" = some (List.replicate 15 0 ++ [1]) ∧ isTo4 (List.replicate 15 0 ++ [1]) = false ∧
    ':' ∈ "::1".toList ∧ exampleNet.port (toString (7542 : Int)) = some 7542 := by decide +kernel
example : resolveUDP exampleNet (clientDial exampleNet "::1" 7542) = some (List.replicate 15 0 ++ [1], 7542) := by
  decide +kernel
example : ':' ∉ "5000".toList := by decide +kernel

end Saratoga
