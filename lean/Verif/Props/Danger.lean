import Verif.Props.TableRace
/-! # C108: exactly when a reader of the table will end the program -/
namespace Saratoga

/-- The reader has still to look at an entry that a table of this length does not have. -/
def TableReader.Beyond (length : Nat) : TableReader → Prop
  | .listing _ i len _ => i < len ∧ length < len
  | .matching _ _ n => length < n
  | _ => False

private theorem step_safe {ts : List Transfer} {r : TableReader} (conns : ∀ t ∈ ts, t.conn.isSome = true)
    (safe : ¬ r.Beyond ts.length) : ∃ r', r.step ts = .ret r' ∧ ¬ r'.Beyond ts.length := by
  cases r with
  | listing ttype i len got =>
    unfold TableReader.Beyond at safe
    by_cases hi : i < len
    · have hl : i < ts.length := by omega
      simp only [TableReader.step]
      rw [if_pos hi, List.getElem?_eq_getElem hl]
      exact ⟨_, rfl, by unfold TableReader.Beyond; omega⟩
    · simp only [TableReader.step]
      rw [if_neg hi]
      exact ⟨_, rfl, fun h => h⟩
  | listed got => exact ⟨_, rfl, fun h => h⟩
  | matched f => exact ⟨_, rfl, fun h => h⟩
  | matching a s n =>
    cases n with
    | zero => exact ⟨_, rfl, fun h => h⟩
    | succ n =>
      unfold TableReader.Beyond at safe
      have hn : n < ts.length := by omega
      have c := conns ts[n] (List.getElem_mem _)
      obtain ⟨x, hx⟩ := Option.isSome_iff_exists.1 c
      simp only [TableReader.step]
      rw [List.getElem?_eq_getElem hn]
      simp only [hx]
      split
      · exact ⟨_, rfl, fun h => h⟩
      · exact ⟨_, rfl, by unfold TableReader.Beyond; omega⟩

private theorem reads_safe (str : UDPAddr → String) (ks : List Nat) : ∀ w : TableWorld,
    (∀ t ∈ w.transfers, t.conn.isSome = true) → (∀ r ∈ w.readers, ¬ r.Beyond w.transfers.length) →
    ∃ w', w.run str (ks.map .read) = .ret w' := by
  induction ks with
  | nil => exact fun w _ _ => ⟨w, rfl⟩
  | cons k ks ih =>
    intro w conns safe
    show ∃ w', ((w.step str (.read k)).bind _) = _
    cases hk : w.readers[k]? with
    | none => simp only [TableWorld.step, hk]; exact ih w conns safe
    | some r =>
      obtain ⟨r', e, s⟩ := step_safe conns (safe r (List.mem_of_getElem? hk))
      simp only [TableWorld.step, hk, e]
      refine ih { w with readers := w.readers.set k r' } conns fun q hq => ?_
      rcases List.mem_or_eq_of_mem_set hq with hq | rfl
      · exact safe q hq
      · exact s

private theorem reads_panic (str : UDPAddr → String) (k m : Nat) : ∀ w : TableWorld, ∀ ttype i len got,
    w.readers[k]? = some (.listing ttype i len got) → i < len → w.transfers.length < len → w.transfers.length ≤ i + m →
    w.run str ((List.replicate (m + 1) k).map .read) = .panic := by
  induction m with
  | zero =>
    intro w ttype i len got hk hi hl hm
    show ((w.step str (.read k)).bind _) = _
    have : TableReader.step w.transfers (.listing ttype i len got) = .panic := by
      simp only [TableReader.step]; rw [if_pos hi, List.getElem?_eq_none (by omega)]
    simp only [TableWorld.step, hk, this]
    rfl
  | succ m ih =>
    intro w ttype i len got hk hi hl hm
    show ((w.step str (.read k)).bind _) = _
    by_cases h : i < w.transfers.length
    · have : TableReader.step w.transfers (.listing ttype i len got) = .ret (.listing ttype (i + 1) len
          (if ttype = "" ∨ w.transfers[i].ttype = ttype then got ++ [w.transfers[i]] else got)) := by
        simp only [TableReader.step]; rw [if_pos hi, List.getElem?_eq_getElem h]
      simp only [TableWorld.step, hk, this]
      exact ih _ ttype (i + 1) len _ (List.getElem?_set_self (List.getElem?_eq_some_iff.1 hk).1) (by omega) hl
        (by simp only; omega)
    · have : TableReader.step w.transfers (.listing ttype i len got) = .panic := by
        simp only [TableReader.step]; rw [if_pos hi, List.getElem?_eq_none (by omega)]
      simp only [TableWorld.step, hk, this]
      rfl

/-- **C108** exactly: in any state in which the transfers have connections, the readers that go on by themselves can end
the program if and only if one of them has still to look at an entry the table does not have any more. -/
theorem C108_danger_iff (str : UDPAddr → String) (w : TableWorld) (conns : ∀ t ∈ w.transfers, t.conn.isSome = true) :
    (∃ ks : List Nat, w.run str (ks.map .read) = .panic) ↔ ∃ r ∈ w.readers, r.Beyond w.transfers.length := by
  constructor
  · rintro ⟨ks, h⟩
    apply Classical.byContradiction
    intro no
    obtain ⟨w', h'⟩ := reads_safe str ks w conns (fun r hr b => no ⟨r, hr, b⟩)
    rw [h] at h'
    cases h'
  · rintro ⟨r, hr, b⟩
    obtain ⟨k, hk⟩ := List.getElem?_of_mem hr
    cases r with
    | listing ttype i len got =>
      exact ⟨_, reads_panic str k w.transfers.length w ttype i len got hk b.1 b.2 (by omega)⟩
    | listed got => exact absurd b (fun h => h)
    | matched f => exact absurd b (fun h => h)
    | matching a s n =>
      refine ⟨[k], ?_⟩
      show ((w.step str (.read k)).bind _) = _
      cases n with
      | zero => exact absurd b (by simp [TableReader.Beyond])
      | succ n =>
        have : TableReader.step w.transfers (.matching a s (n + 1)) = .panic := by
          simp only [TableReader.step]; rw [List.getElem?_eq_none (by unfold TableReader.Beyond at b; omega)]
        simp only [TableWorld.step, hk, this]
        rfl

example := C108_danger_iff (fun _ => "") (TableWorld.mk [{ Transfer.zero with conn := some "a" }] [.listing "" 1 2 [Transfer.zero]])
  (by decide)

/-- **C108** So a removal while nobody is reading does no harm: whatever was removed before, readers that start now can
not end the program by themselves. -/
theorem C108_quiet_partial (str : UDPAddr → String) (w : TableWorld) (conns : ∀ t ∈ w.transfers, t.conn.isSome = true)
    (quiet : ∀ r ∈ w.readers, r.finished = true) (starts : List TableAct)
    (only : ∀ a ∈ starts, (∃ ty, a = .startInfo ty) ∨ ∃ x s, a = .startMatch x s) (ks : List Nat) :
    w.run str (starts ++ ks.map .read) ≠ .panic := by
  have go : ∀ (starts : List TableAct) (w : TableWorld), (∀ t ∈ w.transfers, t.conn.isSome = true) →
      (∀ r ∈ w.readers, ¬ r.Beyond w.transfers.length) →
      (∀ a ∈ starts, (∃ ty, a = .startInfo ty) ∨ ∃ x s, a = .startMatch x s) →
      w.run str (starts ++ ks.map .read) ≠ .panic := by
    intro starts
    induction starts with
    | nil =>
      intro w conns safe _ h
      obtain ⟨r, hr, b⟩ := (C108_danger_iff str w conns).1 ⟨ks, h⟩
      exact safe r hr b
    | cons a starts ih =>
      intro w conns safe only
      rcases only a List.mem_cons_self with ⟨ty, rfl⟩ | ⟨x, s, rfl⟩
      · refine ih { w with readers := w.readers ++ [.listing ty 0 w.transfers.length []] } conns ?_
          (fun b hb => only b (List.mem_cons_of_mem _ hb))
        intro r hr
        rcases List.mem_append.1 hr with hr | hr
        · exact safe r hr
        · rw [List.mem_singleton] at hr; subst hr; unfold TableReader.Beyond; simp
      · refine ih { w with readers := w.readers ++ [.matching x s w.transfers.length] } conns ?_
          (fun b hb => only b (List.mem_cons_of_mem _ hb))
        intro r hr
        rcases List.mem_append.1 hr with hr | hr
        · exact safe r hr
        · rw [List.mem_singleton] at hr; subst hr; unfold TableReader.Beyond; simp
  refine go starts w conns (fun r hr b => ?_) only
  have := quiet r hr
  cases r <;> first | exact b | cases this

/-- A reader that started with two transfers, of which one was removed. -/
example : ∃ r ∈ (TableWorld.mk [{ Transfer.zero with conn := some "a" }] [.listing "" 1 2 [Transfer.zero]]).readers,
    r.Beyond 1 := ⟨_, List.mem_singleton.2 rfl, by decide, by decide⟩

end Saratoga
