import Verif.Model.Mutexes
import Verif.Lemmas.Bytes
/-! # The mutexes of the program: C148 -/
namespace Saratoga

/-! ## Specification -/

/-- The world after a schedule in which every goroutine named can get on. -/
inductive MutexRun (w : MutexWorld) : List Nat → MutexWorld → Prop where
  | none : MutexRun w [] w
  | more {ks : List Nat} {k : Nat} {u v : MutexWorld} (before : MutexRun w ks u) (step : u.step k = some (.ret v)) :
      MutexRun w (ks ++ [k]) v

/-- Goroutines that call any functions of the program, one after another. -/
def CallsOnly (gs : List (List LockOp)) : Prop :=
  ∀ g ∈ gs, ∃ paths : List (List LockOp), (∀ p ∈ paths, p ∈ lockPaths) ∧ g = paths.flatten

/-- What happened to one mutex: it was locked and unlocked by the same goroutine, again and again. The second number is
the goroutine that has it at the end. -/
inductive Alternates (m : Mutex) : List (Nat × LockOp) → Option Nat → Prop where
  | start : Alternates m [] none
  | lock {l : List (Nat × LockOp)} (k : Nat) (h : Alternates m l none) : Alternates m (l ++ [(k, .lock m)]) (some k)
  | unlock {l : List (Nat × LockOp)} {k : Nat} (h : Alternates m l (some k)) : Alternates m (l ++ [(k, .unlock m)]) none

/-- The mutex a call is of. -/
def LockOp.mutex : LockOp → Mutex
  | .lock m => m
  | .unlock m => m

/-! ## Proof -/

/-- The order in which mutexes are taken. -/
def Mutex.rank : Mutex → Nat
  | .view => 0
  | .transfers => 1
  | .session => 2
  | .settings => 3
  | .peers => 4
  | .received => 5

/-- With the mutexes `s` held, last taken first, the calls to come take only later ones and give back all. -/
def Orderly : List Mutex → List LockOp → Prop
  | s, [] => s = []
  | s, .lock m :: t => (∀ x ∈ s, x.rank < m.rank) ∧ Orderly (m :: s) t
  | s, .unlock m :: t => ∃ s', s = m :: s' ∧ Orderly s' t

instance orderlyDecidable : (s : List Mutex) → (t : List LockOp) → Decidable (Orderly s t)
  | s, [] => inferInstanceAs (Decidable (s = []))
  | s, .lock m :: t =>
    have := orderlyDecidable (m :: s) t
    inferInstanceAs (Decidable ((∀ x ∈ s, x.rank < m.rank) ∧ Orderly (m :: s) t))
  | [], .unlock m :: t => isFalse (by rintro ⟨s', h, -⟩; cases h)
  | x :: s, .unlock m :: t =>
    have := orderlyDecidable s t
    if h : x = m ∧ Orderly s t then isTrue ⟨s, by rw [h.1], h.2⟩
    else isFalse (by rintro ⟨s', e, h'⟩; cases e; exact h ⟨rfl, h'⟩)

theorem Orderly.append {a b : List LockOp} (hb : Orderly [] b) : ∀ {s : List Mutex}, Orderly s a → Orderly s (a ++ b) := by
  induction a with
  | nil => intro s h; cases h; exact hb
  | cons o a ih =>
    intro s h
    cases o with
    | lock m => exact ⟨h.1, ih h.2⟩
    | unlock m => obtain ⟨s', e, h'⟩ := h; exact ⟨s', e, ih h'⟩

theorem paths_orderly : ∀ p ∈ lockPaths, Orderly [] p := by decide +kernel

theorem calls_orderly {gs : List (List LockOp)} (h : CallsOnly gs) : ∀ g ∈ gs, Orderly [] g := by
  intro g hg
  obtain ⟨paths, hp, rfl⟩ := h g hg
  clear hg
  induction paths with
  | nil => rfl
  | cons p ps ih =>
    exact (ih fun q hq => hp q (List.mem_cons_of_mem _ hq)).append (paths_orderly p (hp p (List.mem_cons_self ..)))

theorem todo_set {l : List (List LockOp)} {k : Nat} {o : LockOp} {rest : List LockOp} (h : l[k]? = some (o :: rest)) (j : Nat) :
    (l.set k rest)[j]?.getD [] = if j = k then rest else l[j]?.getD [] := by
  have hk : k < l.length := by
    rcases Nat.lt_or_ge k l.length with a | a
    · exact a
    · rw [List.getElem?_eq_none a] at h; cases h
  by_cases hj : j = k
  · subst hj
    rw [if_pos rfl, List.getElem?_set_self hk]; rfl
  · rw [if_neg hj, List.getElem?_set_ne (Ne.symm hj)]

theorem orderly_fresh {s : List Mutex} {m : Mutex} {t : List LockOp} (h : Orderly s (.lock m :: t)) : m ∉ s :=
  fun hm => Nat.lt_irrefl _ (h.1 m hm)

/-- Held mutexes differ: later ones come first. -/
def Distinct (s : List Mutex) : Prop := s.Pairwise fun a b => b.rank < a.rank

/-- What stays true: every goroutine holds some mutexes in order, and a mutex is held by whom its holder says. -/
def MutexWorld.Fine (w : MutexWorld) : Prop :=
  ∃ held : Nat → List Mutex, (∀ k, Orderly (held k) (w.todo[k]?.getD []) ∧ Distinct (held k)) ∧
    ∀ m k, w.holder m = some k ↔ m ∈ held k

theorem fine_init {gs : List (List LockOp)} (h : CallsOnly gs) : (MutexWorld.init gs).Fine := by
  refine ⟨fun _ => [], fun k => ⟨?_, .nil⟩, fun m k => by simp [MutexWorld.init]⟩
  show Orderly [] (gs[k]?.getD [])
  cases hk : gs[k]? with
  | none => rfl
  | some g => exact calls_orderly h g (List.mem_of_getElem? hk)

theorem fine_step {w : MutexWorld} (fine : w.Fine) {k : Nat} {r : Out MutexWorld} (h : w.step k = some r) :
    ∃ v, r = .ret v ∧ v.Fine := by
  obtain ⟨held, ord, own⟩ := fine
  unfold MutexWorld.step at h
  split at h
  · cases h
  · cases h
  · rename_i m rest ht
    split at h
    · cases h
    rename_i hm
    cases h
    refine ⟨_, rfl, fun j => if j = k then m :: held k else held j, fun j => ?_, fun x j => ?_⟩
    · rw [todo_set ht]
      by_cases hj : j = k
      · simp only [hj, if_true]
        obtain ⟨o, d⟩ := ord k
        rw [ht] at o
        exact ⟨o.2, List.Pairwise.cons o.1 d⟩
      · simp only [hj, if_false]
        exact ord j
    · show (if x = m then some k else w.holder x) = some j ↔ _
      by_cases hx : x = m
      · subst hx
        rw [if_pos rfl]
        constructor
        · intro e; cases e; simp
        · intro e
          by_cases hj : j = k
          · rw [hj]
          · simp only [if_neg hj] at e
            rw [← own, hm] at e; cases e
      · rw [if_neg hx, own]
        by_cases hj : j = k
        · subst hj; simp [hx]
        · simp [hj]
  · rename_i m rest ht
    obtain ⟨o, d⟩ := ord k
    rw [ht] at o
    obtain ⟨s', hs, o'⟩ := o
    have hm : w.holder m = some k := (own m k).2 (by rw [hs]; exact List.mem_cons_self ..)
    rw [hm] at h
    cases h
    rw [hs] at d
    obtain ⟨d1, d2⟩ := List.pairwise_cons.1 d
    have ms : m ∉ s' := fun hx => Nat.lt_irrefl _ (d1 m hx)
    refine ⟨_, rfl, fun j => if j = k then s' else held j, fun j => ?_, fun x j => ?_⟩
    · rw [todo_set ht]
      by_cases hj : j = k
      · simp only [hj, if_true]
        exact ⟨o', d2⟩
      · simp only [hj, if_false]
        exact ord j
    · show (if x = m then none else w.holder x) = some j ↔ _
      by_cases hx : x = m
      · subst hx
        rw [if_pos rfl]
        refine ⟨fun e => (by cases e), fun e => ?_⟩
        by_cases hj : j = k
        · simp only [if_pos hj] at e; exact absurd e ms
        · simp only [if_neg hj] at e
          rw [← own, hm] at e
          injection e with e
          exact absurd e.symm hj
      · rw [if_neg hx, own]
        by_cases hj : j = k
        · subst hj; rw [hs]; simp [hx]
        · simp [hj]

theorem fine_run {gs : List (List LockOp)} (h : CallsOnly gs) {ks : List Nat} {w : MutexWorld}
    (run : MutexRun (.init gs) ks w) : w.Fine := by
  induction run with
  | none => exact fine_init h
  | more _ hs ih =>
    obtain ⟨v, hv, hf⟩ := fine_step ih hs
    cases hv
    exact hf

/-- **C148** No `Unlock` of a mutex that is free, and so no end of the process by one. -/
theorem C148_never_fatal {gs : List (List LockOp)} (h : CallsOnly gs) {ks : List Nat} {w : MutexWorld}
    (run : MutexRun (.init gs) ks w) (k : Nat) : w.step k ≠ some .fatal ∧ w.step k ≠ some .panic := by
  constructor <;>
  · intro hs
    obtain ⟨v, hv, -⟩ := fine_step (fine_run h run) hs
    cases hv

/-- **C148** Nobody waits for a mutex they hold. -/
theorem C148_not_for_itself {gs : List (List LockOp)} (h : CallsOnly gs) {ks : List Nat} {w : MutexWorld}
    (run : MutexRun (.init gs) ks w) (k : Nat) (m : Mutex) (rest : List LockOp) (next : w.todo[k]? = some (.lock m :: rest)) :
    w.holder m ≠ some k := by
  obtain ⟨held, ord, own⟩ := fine_run h run
  intro hm
  have o := (ord k).1
  rw [next] at o
  exact orderly_fresh o ((own m k).1 hm)

/-- **C148** Whoever unlocks holds what they unlock, and gets on at once. -/
theorem C148_unlock {gs : List (List LockOp)} (h : CallsOnly gs) {ks : List Nat} {w : MutexWorld}
    (run : MutexRun (.init gs) ks w) (k : Nat) (m : Mutex) (rest : List LockOp)
    (next : w.todo[k]? = some (.unlock m :: rest)) :
    w.holder m = some k ∧ ∃ v, w.step k = some (.ret v) ∧ v.holder m = none ∧ v.todo[k]? = some rest := by
  obtain ⟨held, ord, own⟩ := fine_run h run
  have o := (ord k).1
  rw [next] at o
  obtain ⟨s', hs, -⟩ := o
  have hm : w.holder m = some k := (own m k).2 (by rw [hs]; exact List.mem_cons_self)
  refine ⟨hm, ⟨fun x => if x = m then none else w.holder x, w.todo.set k rest, w.log ++ [(k, .unlock m)]⟩, ?_, if_pos rfl, ?_⟩
  · simp only [MutexWorld.step, next, hm]
  · simp [(List.getElem?_eq_some_iff.1 next).1]

/-- **C148** As long as anybody has something to do, somebody can get on: no goroutines wait for each other in a ring. -/
theorem C148_no_deadlock {gs : List (List LockOp)} (h : CallsOnly gs) {ks : List Nat} {w : MutexWorld}
    (run : MutexRun (.init gs) ks w) (left : ∃ g ∈ w.todo, g ≠ []) : ∃ k v, w.step k = some (.ret v) := by
  have fine := fine_run h run
  have moves : ∀ k, w.step k ≠ none → ∃ k v, w.step k = some (.ret v) := by
    intro k hk
    obtain ⟨r, hr⟩ := Option.ne_none_iff_exists'.1 hk
    obtain ⟨v, rfl, -⟩ := fine_step fine hr
    exact ⟨k, v, hr⟩
  obtain ⟨held, ord, own⟩ := fine
  -- whoever waits for a mutex, somebody gets on
  have wait : ∀ (n k : Nat) (m : Mutex) (rest : List LockOp), 6 - m.rank ≤ n → w.todo[k]? = some (.lock m :: rest) → ∃ k v, w.step k = some (.ret v) := by
    intro n
    induction n with
    | zero => intro k m rest hn _; cases m <;> simp [Mutex.rank] at hn
    | succ n ih =>
      intro k m rest hn ht
      cases hm : w.holder m with
      | none => exact moves k (by simp [MutexWorld.step, ht, hm])
      | some j =>
        have hj := (own m j).1 hm
        have o := (ord j).1
        cases htj : w.todo[j]? with
        | none =>
          rw [htj] at o
          simp only [Option.getD_none, Orderly] at o
          rw [o] at hj; cases hj
        | some t =>
          rw [htj] at o
          cases t with
          | nil =>
            simp only [Option.getD_some, Orderly] at o
            rw [o] at hj; cases hj
          | cons op t =>
            cases op with
            | lock m' =>
              have hlt := o.1 m hj
              have : m'.rank < 6 := by cases m' <;> decide
              exact ih j m' t (by omega) htj
            | unlock m' =>
              obtain ⟨s', hs, -⟩ := o
              have hm' : w.holder m' = some j := (own m' j).2 (by rw [hs]; exact List.mem_cons_self ..)
              exact moves j (by simp [MutexWorld.step, htj, hm'])
  obtain ⟨g, hg, hne⟩ := left
  obtain ⟨k, hk⟩ := List.getElem?_of_mem hg
  cases g with
  | nil => exact absurd rfl hne
  | cons op t =>
    cases op with
    | lock m => exact wait _ k m t (Nat.le_refl _) hk
    | unlock m =>
      have o := (ord k).1
      rw [hk] at o
      obtain ⟨s', hs, -⟩ := o
      have hm : w.holder m = some k := (own m k).2 (by rw [hs]; exact List.mem_cons_self ..)
      exact moves k (by simp [MutexWorld.step, hk, hm])

theorem step_todo {w v : MutexWorld} {k : Nat} (h : w.step k = some (.ret v)) :
    (v.todo.map List.length).sum + 1 = (w.todo.map List.length).sum := by
  have key : ∀ (l : List (List LockOp)) (k : Nat) (o : LockOp) (rest : List LockOp), l[k]? = some (o :: rest) →
      ((l.set k rest).map List.length).sum + 1 = (l.map List.length).sum := by
    intro l
    induction l with
    | nil => intro k o rest h; cases h
    | cons x l ih =>
      intro k o rest h
      cases k with
      | zero =>
        simp only [List.getElem?_cons_zero, Option.some.injEq] at h
        subst h
        simp; omega
      | succ k =>
        simp only [List.getElem?_cons_succ] at h
        have := ih k o rest h
        simp only [List.set_cons_succ, List.map_cons, List.sum_cons]
        omega
  unfold MutexWorld.step at h
  split at h
  · cases h
  · cases h
  · rename_i m rest ht
    split at h
    · cases h
    · cases h; exact key _ _ _ _ ht
  · rename_i m rest ht
    split at h
    · cases h
    · cases h; exact key _ _ _ _ ht

/-- **C148** However the goroutines take turns, after as many steps as there are calls all are done: every run is that
long at most, and one that cannot go on has done everything. -/
theorem C148_all_finish {gs : List (List LockOp)} (h : CallsOnly gs) {ks : List Nat} {w : MutexWorld}
    (run : MutexRun (.init gs) ks w) :
    ks.length ≤ (gs.map List.length).sum ∧
    ((∀ k v, w.step k ≠ some (.ret v)) → ks.length = (gs.map List.length).sum ∧ ∀ g ∈ w.todo, g = []) := by
  have count : ks.length + (w.todo.map List.length).sum = (gs.map List.length).sum := by
    clear h
    induction run with
    | none => simp [MutexWorld.init]
    | more _ hs ih =>
      have := step_todo hs
      rw [List.length_append, List.length_singleton]
      omega
  refine ⟨by omega, fun stop => ?_⟩
  have done : ∀ g ∈ w.todo, g = [] := by
    intro g hg
    refine Classical.byContradiction fun hne => ?_
    obtain ⟨k, v, hs⟩ := C148_no_deadlock h run ⟨g, hg, hne⟩
    exact stop k v hs
  refine ⟨?_, done⟩
  have zero : (w.todo.map List.length).sum = 0 := by
    revert done
    generalize w.todo = l
    intro done
    induction l with
    | nil => rfl
    | cons x l ih =>
      rw [List.map_cons, List.sum_cons, ih fun g hg => done g (List.mem_cons_of_mem _ hg), done x (List.mem_cons_self ..)]
      rfl
  omega

/-- **C148** Each mutex is held by one goroutine at a time: what happened to it is a lock and an unlock by the same
goroutine, again and again. -/
theorem C148_one_at_a_time {gs : List (List LockOp)} (h : CallsOnly gs) {ks : List Nat} {w : MutexWorld}
    (run : MutexRun (.init gs) ks w) (m : Mutex) :
    Alternates m (w.log.filter fun e => e.2.mutex = m) (w.holder m) ∧ w.log.map Prod.fst = ks := by
  induction run with
  | none => exact ⟨.start, rfl⟩
  | more before hs ih =>
    rename_i ks k u v
    obtain ⟨held, ord, own⟩ := fine_run h before
    obtain ⟨a, b⟩ := ih
    unfold MutexWorld.step at hs
    split at hs
    · cases hs
    · cases hs
    · rename_i m' rest ht
      split at hs
      · cases hs
      rename_i hm
      cases hs
      refine ⟨?_, by simp [b]⟩
      show Alternates m ((u.log ++ [(k, LockOp.lock m')]).filter _) (if m = m' then some k else u.holder m)
      rw [List.filter_append]
      by_cases e : m' = m
      · subst e
        rw [if_pos rfl]
        rw [hm] at a
        simpa [LockOp.mutex] using a.lock k
      · rw [if_neg (Ne.symm e)]
        simpa [LockOp.mutex, e] using a
    · rename_i m' rest ht
      have o := (ord k).1
      rw [ht] at o
      obtain ⟨s', hs', -⟩ := o
      have hm : u.holder m' = some k := (own m' k).2 (by rw [hs']; exact List.mem_cons_self ..)
      rw [hm] at hs
      cases hs
      refine ⟨?_, by simp [b]⟩
      show Alternates m ((u.log ++ [(k, LockOp.unlock m')]).filter _) (if m = m' then none else u.holder m)
      rw [List.filter_append]
      by_cases e : m' = m
      · subst e
        rw [if_pos rfl]
        rw [hm] at a
        simpa [LockOp.mutex] using a.unlock
      · rw [if_neg (Ne.symm e)]
        simpa [LockOp.mutex, e] using a

/-- Two transfers begun at the same time, and a setting: the second waits for the first, which takes two mutexes. -/
example : let gs := [holding .transfers (holding .session []), holding .transfers (holding .session []) ++ holding .settings []]
    CallsOnly gs ∧ ∃ w, MutexRun (.init gs) [0, 0] w ∧ w.step 1 = none ∧ w.step 0 ≠ none := by
  refine ⟨?_, _, .more (.more .none rfl) rfl, rfl, by simp [MutexWorld.step, MutexWorld.init, holding]⟩
  intro g hg
  simp only [List.mem_cons, List.not_mem_nil, or_false] at hg
  rcases hg with rfl | rfl
  · exact ⟨[holding .transfers (holding .session [])], by decide +kernel, rfl⟩
  · exact ⟨[holding .transfers (holding .session []), holding .settings []], by decide +kernel, rfl⟩

end Saratoga
