import Verif.Props.Help
/-! # C98: where two `clear` commands can leave the user -/
namespace Saratoga

theorem windows_run_append (w : Windows) (a b : List Nat) : w.run (a ++ b) = (w.run a).run b := by
  unfold Windows.run; rw [List.foldl_append]

/-- Where the user can be while commands run: where they were, or in a window still to be cleared. -/
private def Within (P : String → Prop) (w : Windows) : Prop :=
  P w.current ∧ ∀ pc ∈ w.clears, (∀ x ∈ pc.todo, P x) ∧
    match pc with | .find _ => True | .set b _ _ => P b | .restore b _ => P b

private theorem within_run {P : String → Prop} (sched : List Nat) :
    ∀ w, Within P w → Within P (w.run sched) := by
  induction sched with
  | nil => exact fun w h => h
  | cons i rest ih =>
    intro w h
    refine ih (w.step i) ?_
    unfold Windows.step
    cases hi : w.clears[i]? with
    | none => exact h
    | some pc =>
      have hp := h.2 pc (List.mem_of_getElem? hi)
      have others : ∀ pc', ((∀ x ∈ pc'.todo, P x) ∧
          match pc' with | .find _ => True | .set b _ _ => P b | .restore b _ => P b) →
          ∀ q ∈ w.clears.set i pc', (∀ x ∈ q.todo, P x) ∧
          match q with | .find _ => True | .set b _ _ => P b | .restore b _ => P b := by
        intro pc' hpc q hq
        rcases List.mem_or_eq_of_mem_set hq with hq | rfl
        · exact h.2 q hq
        · exact hpc
      cases pc with
      | find ws =>
        cases ws with
        | nil => exact h
        | cons x ws => exact ⟨h.1, others _ ⟨hp.1, h.1⟩⟩
      | set b x ws => exact ⟨hp.1 x (by simp [ClearPc.todo]), others _ ⟨fun y hy => hp.1 y (by simp [ClearPc.todo] at hy ⊢; exact .inr hy), hp.2⟩⟩
      | restore b ws => exact ⟨hp.2, others _ ⟨hp.1, trivial⟩⟩

/-- A command that runs alone for a while. -/
private theorem solo (i : Nat) (a b : List String) : ∀ w : Windows, w.clears[i]? = some (.find (a ++ b)) →
    ∃ log, w.run (List.replicate (3 * a.length) i) = ⟨w.current, log, w.clears.set i (.find b)⟩ := by
  induction a with
  | nil =>
    intro w h
    refine ⟨w.cleared, ?_⟩
    have : w.clears.set i (.find b) = w.clears := by
      obtain ⟨hlt, he⟩ := List.getElem?_eq_some_iff.1 h
      rw [List.nil_append] at he
      rw [← he]; simp
    simp [Windows.run, this]
  | cons x a ih =>
    intro w h
    have hlt := (List.getElem?_eq_some_iff.1 h).1
    have three : w.run [i, i, i] = ⟨w.current, w.cleared ++ [x], w.clears.set i (.find (a ++ b))⟩ := by
      simp only [Windows.run, List.foldl_cons, List.foldl_nil, Windows.step, h, List.cons_append, ClearPc.step,
        List.getElem?_set_self hlt, List.set_set, List.append_nil]
    obtain ⟨log, hl⟩ := ih ⟨w.current, w.cleared ++ [x], w.clears.set i (.find (a ++ b))⟩
      (List.getElem?_set_self hlt)
    refine ⟨log, ?_⟩
    rw [List.length_cons, Nat.mul_add, Nat.add_comm, ← List.replicate_append_replicate,
      show List.replicate (3 * 1) i = [i, i, i] from rfl, windows_run_append, three, hl]
    simp

private theorem two_ends (cur : String) (log ws : List String) (other : List String) (v : String) (mem : v ∈ ws)
    (ne : other ≠ []) (i j : Nat) (cs : List ClearPc) (hij : i ≠ j) (hlen : cs.length = 2) (hi : i < 2) (hj : j < 2)
    (ci : cs[i]? = some (.find ws)) (cj : cs[j]? = some (.find other)) :
    ∃ sched, (Windows.run ⟨cur, log, cs⟩ sched).finished ∧ (Windows.run ⟨cur, log, cs⟩ sched).current = v := by
  obtain ⟨a, b, rfl⟩ := List.append_of_mem mem
  obtain ⟨o, os, rfl⟩ := List.exists_cons_of_ne_nil ne
  obtain ⟨l1, r1⟩ := solo i a (v :: b) ⟨cur, log, cs⟩ ci
  simp only at r1
  have pair : ∀ (w : Windows) (p q : ClearPc), w.clears.length = 2 → w.clears[i]? = some p → w.clears[j]? = some q →
      ∀ x ∈ w.clears, x = p ∨ x = q := by
    intro w p q hl h1 h2 x hx
    obtain ⟨k, hk, rfl⟩ := List.getElem_of_mem hx
    have : k = i ∨ k = j := by omega
    rcases this with rfl | rfl
    · left; rw [List.getElem?_eq_getElem hk] at h1; injection h1
    · right; rw [List.getElem?_eq_getElem hk] at h2; injection h2
  have mid : Windows.run ⟨cur, l1, cs.set i (.find (v :: b))⟩ [i, i, j, i] =
      ⟨cur, l1 ++ [v], (cs.set i (.find b)).set j (.set v o os)⟩ := by
    have li : i < cs.length := by omega
    have lj : j < cs.length := by omega
    simp only [Windows.run, List.foldl_cons, List.foldl_nil, Windows.step, List.getElem?_set_self li, ClearPc.step,
      List.set_set, List.append_nil, List.getElem?_set_ne hij, cj]
    rw [List.getElem?_set_ne (fun h => hij h.symm), List.getElem?_set_self li]
    simp only [List.append_nil]
    rw [List.set_comm _ _ (fun h => hij h.symm), List.set_set]
  have li : i < cs.length := by omega
  have lj : j < cs.length := by omega
  obtain ⟨l2, r2⟩ := solo i b [] ⟨cur, l1 ++ [v], (cs.set i (.find b)).set j (.set v o os)⟩ (by
    simp only [List.append_nil]
    rw [List.getElem?_set_ne (fun h => hij h.symm), List.getElem?_set_self li])
  simp only at r2
  rw [List.set_comm _ _ (fun h => hij h.symm), List.set_set] at r2
  have back : Windows.run ⟨cur, l2, (cs.set i (.find [])).set j (.set v o os)⟩ [j, j] =
      ⟨v, l2 ++ [o], (cs.set i (.find [])).set j (.find os)⟩ := by
    have lj' : j < (cs.set i (ClearPc.find [])).length := by simpa using lj
    simp only [Windows.run, List.foldl_cons, List.foldl_nil, Windows.step, List.getElem?_set_self lj', ClearPc.step,
      List.set_set, List.append_nil]
  obtain ⟨l3, r3⟩ := solo j os [] ⟨v, l2 ++ [o], (cs.set i (.find [])).set j (.find os)⟩ (by
    simp only [List.append_nil]
    rw [List.getElem?_set_self (by simpa using lj)])
  simp only [List.set_set] at r3
  refine ⟨List.replicate (3 * a.length) i ++ ([i, i, j, i] ++ (List.replicate (3 * b.length) i ++ ([j, j] ++
    List.replicate (3 * os.length) j))), ?_⟩
  rw [windows_run_append, r1, windows_run_append, mid, windows_run_append, r2, windows_run_append, back, r3]
  refine ⟨fun pc hpc => ?_, rfl⟩
  rcases pair ⟨v, l3, (cs.set i (.find [])).set j (.find [])⟩ (.find []) (.find []) (by simpa using hlen)
    (by simp only; rw [List.getElem?_set_ne (fun h => hij h.symm), List.getElem?_set_self li])
    (by simp only; rw [List.getElem?_set_self (by simpa using lj)]) pc hpc with h | h <;> exact h

/-- **C98** exactly: two `clear` commands at the same time, each with something to clear, can leave the user in the
window they were in and in every window either of them clears, and in no other. -/
theorem C98_ends_iff (cur : String) (log one two : List String) (some1 : one ≠ []) (some2 : two ≠ []) (v : String) :
    (∃ sched, (Windows.run ⟨cur, log, [.find one, .find two]⟩ sched).finished ∧
      (Windows.run ⟨cur, log, [.find one, .find two]⟩ sched).current = v) ↔
    v = cur ∨ v ∈ one ∨ v ∈ two := by
  constructor
  · rintro ⟨sched, _, rfl⟩
    refine (within_run (P := fun x => x = cur ∨ x ∈ one ∨ x ∈ two) sched _ ⟨.inl rfl, ?_⟩).1
    intro pc hpc
    simp only [List.mem_cons, List.not_mem_nil, or_false] at hpc
    rcases hpc with rfl | rfl
    · exact ⟨fun x hx => .inr (.inl hx), trivial⟩
    · exact ⟨fun x hx => .inr (.inr hx), trivial⟩
  · rintro (rfl | h | h)
    · obtain ⟨l1, r1⟩ := solo 0 one [] ⟨v, log, [.find one, .find two]⟩ (by simp)
      obtain ⟨l2, r2⟩ := solo 1 two [] ⟨v, l1, [.find [], .find two]⟩ (by simp)
      refine ⟨List.replicate (3 * one.length) 0 ++ List.replicate (3 * two.length) 1, ?_⟩
      rw [windows_run_append, r1]
      simp only [List.set_cons_zero]
      rw [r2]
      refine ⟨?_, rfl⟩
      intro pc hpc
      simp at hpc
      exact hpc
    · exact two_ends cur log one two v h some2 0 1 _ (by omega) rfl (by omega) (by omega) rfl rfl
    · exact two_ends cur log two one v h some1 1 0 _ (by omega) rfl (by omega) (by omega) rfl rfl

/-- Windows for which the user can end elsewhere: they type in `cmd`, two commands clear `msg` and `err`. -/
example : ["msg"] ≠ [] ∧ ["err"] ≠ [] ∧ "err" ≠ "cmd" ∧ "err" ∈ ["err"] := by decide

end Saratoga
