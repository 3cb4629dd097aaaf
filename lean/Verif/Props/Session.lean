import Verif.Lemmas.Session
/-!
# Properties of the session generator

C45: identifiers are not reused until the 32 bit counter has gone round.
-/
namespace Saratoga

/-- **C45.** Whatever the schedule of the callers, the identifiers handed out are, in order,
`pid + 1, pid + 2, …, 2^32 - 1, 0` and then the same again: the `i`-th one is
`pid + 1 + i mod (2^32 - pid)`, modulo `2^32`. -/
theorem C45_values (pid : BitVec 32) (sched : List Nat) (w : SessWorld)
    (h : SessWorld.init.run pid sched = some w) (i : Nat) (hi : i < w.given.length) :
    w.given[i].2.toNat = (pid.toNat + 1 + i % (2 ^ 32 - pid.toNat)) % 2 ^ 32 := by
  have := (run_inv pid sched w h).log i hi
  rw [this, sessSeq_toNat]

/-- **C45.** The identifiers are pairwise different as long as no more than `2^32 - pid` have been
handed out, for any interleaving of any number of callers. -/
theorem C45_distinct (pid : BitVec 32) (sched : List Nat) (w : SessWorld)
    (h : SessWorld.init.run pid sched = some w) (hfew : w.given.length ≤ 2 ^ 32 - pid.toNat) :
    (w.given.map (·.2)).Nodup := by
  rw [List.nodup_iff_pairwise_ne, List.pairwise_iff_getElem]
  intro i j hi hj hij heq
  simp only [List.length_map] at hi hj
  simp only [List.getElem_map] at heq
  have h1 := C45_values pid sched w h i hi
  have h2 := C45_values pid sched w h j hj
  rw [heq] at h1
  rw [h1] at h2
  have hp := pid.isLt
  rw [Nat.mod_eq_of_lt (by omega : i < 2 ^ 32 - pid.toNat),
    Nat.mod_eq_of_lt (by omega : j < 2 ^ 32 - pid.toNat)] at h2
  omega

/-- **C45.** The bound is exact: two results are equal if and only if their numbers differ by a multiple
of `2^32 - pid`. -/
theorem C45_reused_iff (pid : BitVec 32) (sched : List Nat) (w : SessWorld)
    (h : SessWorld.init.run pid sched = some w) (i j : Nat) (hi : i < w.given.length)
    (hj : j < w.given.length) :
    w.given[i].2 = w.given[j].2 ↔ i % (2 ^ 32 - pid.toNat) = j % (2 ^ 32 - pid.toNat) := by
  have h1 := C45_values pid sched w h i hi
  have h2 := C45_values pid sched w h j hj
  have hp := pid.isLt
  have m1 := Nat.mod_lt i (by omega : 2 ^ 32 - pid.toNat > 0)
  have m2 := Nat.mod_lt j (by omega : 2 ^ 32 - pid.toNat > 0)
  rw [← BitVec.toNat_inj, h1, h2]
  constructor
  · intro e; omega
  · intro e; rw [e]

/-- **C45.** The generator never gets stuck: from every state, a caller that is inside a call
can act, and after at most five of its own actions it has its identifier and the mutex is free
again. -/
theorem C45_no_deadlock (pid : BitVec 32) (w : SessWorld) (k : Nat) (hk : w.pc k ≠ .out) :
    ∃ n ≤ 5, ∃ w' r, w.run pid (List.replicate n k) = some w' ∧ w'.owner = none ∧
      w'.given = w.given ++ [(k, r)] := holder_finishes pid w k hk

/-- Two callers that overlap, in process 41: both wait for each other as they must and get 42 and 43. -/
def overlap : List Nat := [0, 0, 0, 0, 0, 1, 1, 1, 1, 1, 1]

example : ∃ w, SessWorld.init.run 41 overlap = some w ∧ w.given = [(0, 42), (1, 43)] := ⟨_, rfl, rfl⟩
/-- While caller 0 is inside, caller 1 has to wait. -/
example : SessWorld.init.run 41 [0, 0, 1] = none := rfl
example : ∃ w, SessWorld.init.run 41 [0, 0] = some w ∧ w.pc 0 ≠ .out :=
  ⟨_, rfl, by decide⟩
/-- In process 2^32 - 2 only two identifiers exist and the third is the first again. -/
example : ∃ w, SessWorld.init.run (-2) [0, 0, 0, 0, 0, 0, 0, 0, 0, 0, 0, 0, 0, 0, 0, 0] = some w ∧
    w.given = [(0, -1), (0, 0), (0, -1)] := ⟨_, rfl, rfl⟩

end Saratoga
