import Verif.Model.DirCopy
/-! # C188: a copied directory entry shares nothing with the entry it was copied from -/
namespace Saratoga

theorem dir_read {h : DirHeap} {p : Nat} {d : DirEnt} (e : h[p]? = some d) : h.read p = .ret d := by
  unfold DirHeap.read; rw [e]

theorem dir_write {h : DirHeap} {p : Nat} {d : DirEnt} (e : h[p]? = some d) (w : DirWrite) :
    h.write p w = .ret (h.set p (w.on d)) := by
  unfold DirHeap.write; rw [e]

/-- What a write leaves as it is. -/
theorem dir_write_other {h h' : DirHeap} {p q : Nat} {w : DirWrite} (e : h.write p w = .ret h') (ne : q ≠ p) : h'[q]? = h[q]? := by
  unfold DirHeap.write at e
  split at e
  · cases e
  · cases e
    rw [List.getElem?_set, if_neg (Ne.symm ne)]

theorem dir_writes_other {ws : List (Nat × DirWrite)} {q : Nat} : ∀ {h h' : DirHeap}, h.writes ws = .ret h' →
    (∀ x ∈ ws, x.1 ≠ q) → h'[q]? = h[q]? := by
  induction ws with
  | nil => intro h h' e _; cases e; rfl
  | cons x ws ih =>
    obtain ⟨p, w⟩ := x
    intro h h' e no
    unfold DirHeap.writes at e
    cases hw : h.write p w with
    | ret h1 =>
      rw [hw] at e
      rw [ih e fun x hx => no x (List.mem_cons_of_mem _ hx)]
      exact dir_write_other hw (Ne.symm (no (p, w) (List.mem_cons_self ..)))
    | fatal => rw [hw] at e; cases e
    | panic => rw [hw] at e; cases e

/-- The new entry is filled field by field. -/
theorem dir_copy_eq {h : DirHeap} {src : Nat} {d : DirEnt} (e : h[src]? = some d) : h.copyOf src = .ret (h ++ [d], h.length) := by
  have hs : src < h.length := by
    rw [List.getElem?_eq_some_iff] at e; exact e.1
  have step : ∀ (x : DirEnt) (w : DirWrite), DirHeap.write (h ++ [x]) h.length w = .ret (h ++ [w.on x]) := by
    intro x w
    rw [dir_write (d := x) (by simp)]
    simp
  have rd : ∀ x : DirEnt, DirHeap.read (h ++ [x]) src = .ret d := fun x => dir_read (by
    rw [List.getElem?_append_left hs, e])
  unfold DirHeap.copyOf
  simp only [rd, step, Out.ret_bind, DirWrite.on]
  rfl

/-- **C188, copy.** A copy is a new entry that says the same, and all other entries stay as they are. Of nil there is none. -/
theorem C188_copy (h : DirHeap) (src : Nat) (d : DirEnt) (is : h[src]? = some d) :
    (∃ h' dst, h.copy (some src) = .ret (h', dst) ∧ h[dst]? = none ∧ h'[dst]? = some d ∧ ∀ p, p ≠ dst → h'[p]? = h[p]?) ∧
    h.value (some src) = .ret d ∧ h.copy none = .panic ∧ h.value none = .panic := by
  refine ⟨⟨h ++ [d], h.length, dir_copy_eq is, by simp, by simp, fun p hp => ?_⟩, ?_, rfl, rfl⟩
  · by_cases lt : p < h.length
    · exact List.getElem?_append_left lt
    · have : (h ++ [d]).length = h.length + 1 := by simp
      have l1 : h.length ≤ p := by omega
      have l2 : (h ++ [d]).length ≤ p := by omega
      rw [List.getElem?_eq_none l2, List.getElem?_eq_none l1]
  · unfold DirHeap.value
    simp only [dir_read is, Out.ret_bind]
    rfl

/-- **C188, independent.** Whatever is assigned later through other pointers, the copy says what the entry said when it was
copied; and whatever is assigned through the pointer to the copy, the entry it was copied from and all others stay. -/
theorem C188_independent (h h' h'' : DirHeap) (src dst : Nat) (d : DirEnt) (is : h[src]? = some d) (copied : h.copy (some src) = .ret (h', dst))
    (ws : List (Nat × DirWrite)) (then_ : h'.writes ws = .ret h'') :
    ((∀ w ∈ ws, w.1 ≠ dst) → h''[dst]? = some d) ∧
    ((∀ w ∈ ws, w.1 = dst) → ∀ p, p < h.length → h''[p]? = h[p]?) := by
  constructor
  · intro no
    rw [dir_writes_other then_ no]
    obtain ⟨h1, d1, k1, k2, k3, k4⟩ := (C188_copy h src d is).1
    rw [copied] at k1
    cases k1
    exact k3
  · intro only p hp
    obtain ⟨h1, d1, k1, k2, k3, k4⟩ := (C188_copy h src d is).1
    rw [copied] at k1
    cases k1
    have ne : p ≠ dst := fun e => by
      subst e
      rw [List.getElem?_eq_none_iff] at k2
      omega
    rw [dir_writes_other then_ fun w hw e => ne (by rw [← e, only w hw])]
    exact k4 p ne

/-- An entry is copied, and then both are given another size. -/
example : (match DirHeap.copy [{ DirEnt.zero with size := 7 }] (some 0) with
    | .ret (h, p) => (match h.writes [(0, .size 8), (p, .size 9)] with
      | .ret h' => decide (h'.map DirEnt.size = [8, 9])
      | _ => false)
    | _ => false) = true := by decide

example := C188_independent [{ DirEnt.zero with size := 7 }] _ _ 0 1 _ rfl rfl [(0, .size 8)] rfl

end Saratoga
