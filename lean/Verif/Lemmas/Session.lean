import Verif.Model.Session
/-! # Helper lemmas about `newsession` -/
namespace Saratoga

/-- One uninterrupted call. -/
def sessNext (pid cur : BitVec 32) : BitVec 32 := if cur = 0 then pid + 1 else cur + 1

/-- The counter after `n` calls in a row. -/
def sessAfter (pid : BitVec 32) : Nat → BitVec 32
  | 0 => 0
  | n + 1 => sessNext pid (sessAfter pid n)

theorem sessSeq_toNat (pid : BitVec 32) (n : Nat) :
    (sessAfter pid (n + 1)).toNat = (pid.toNat + 1 + n % (2 ^ 32 - pid.toNat)) % 2 ^ 32 := by
  have hp := pid.isLt
  induction n with
  | zero => simp [sessAfter, sessNext, BitVec.toNat_add]
  | succ n ih =>
    have e : sessAfter pid (n + 1 + 1) = sessNext pid (sessAfter pid (n + 1)) := rfl
    rw [e, sessNext]
    have m := Nat.mod_lt n (by omega : 2 ^ 32 - pid.toNat > 0)
    generalize hL : 2 ^ 32 - pid.toNat = L at *
    have hs : (n + 1) % L = if n % L + 1 = L then 0 else n % L + 1 := by
      rw [Nat.add_mod]
      by_cases h1 : L = 1
      · subst h1; simp [Nat.mod_one]
      · rw [Nat.mod_eq_of_lt (by omega : 1 < L)]
        split
        · rename_i h2; rw [h2, Nat.mod_self]
        · rw [Nat.mod_eq_of_lt (by omega)]
    split
    · rename_i h0
      rw [h0] at ih
      have ih0 : (0 : Nat) = _ := ih
      rw [BitVec.toNat_add, hs, if_pos (by omega)]
      simp
    · rename_i h0
      have h0' : (sessAfter pid (n + 1)).toNat ≠ 0 := by
        intro h; exact h0 (BitVec.eq_of_toNat_eq (by simpa using h))
      rw [BitVec.toNat_add, ih, hs, if_neg (by omega)]
      simp; omega

/-- What the memory looks like while caller `k` is at `p`, when `n` identifiers have been given out. -/
def SessAt (pid : BitVec 32) (n : Nat) (w : SessWorld) : SessPc → Prop
  | .out => True
  | .locked => w.sessionid = sessAfter pid n
  | .tested b => w.sessionid = sessAfter pid n ∧ b = (sessAfter pid n == 0)
  | .incrementing old => w.sessionid = sessAfter pid n ∧ old = sessAfter pid n ∧ old ≠ 0
  | .stored => w.sessionid = sessAfter pid (n + 1)
  | .leaving r => w.sessionid = sessAfter pid (n + 1) ∧ r = sessAfter pid (n + 1)

structure SessInv (pid : BitVec 32) (w : SessWorld) : Prop where
  log : ∀ (i : Nat) (h : i < w.given.length), w.given[i].2 = sessAfter pid (i + 1)
  free : w.owner = none → w.sessionid = sessAfter pid w.given.length
  holder : ∀ k, w.pc k ≠ .out → w.owner = some k
  at_ : ∀ k, w.owner = some k → w.pc k ≠ .out ∧ SessAt pid w.given.length w (w.pc k)

theorem init_inv (pid : BitVec 32) : SessInv pid SessWorld.init where
  log := by intro i h; simp [SessWorld.init] at h
  free := fun _ => rfl
  holder := by intro k h; simp [SessWorld.init] at h
  at_ := by intro k h; simp [SessWorld.init] at h

/-- A step of the holder that keeps the log. -/
theorem SessInv.keep {pid : BitVec 32} {w : SessWorld} (inv : SessInv pid w) (k : Nat)
    (ho : w.owner = some k) (s : BitVec 32) (p : SessPc) (hp : p ≠ .out)
    (hat : SessAt pid w.given.length { w with sessionid := s } p) :
    SessInv pid ({ w with sessionid := s }.goto k p) where
  log := inv.log
  free := by intro h; simp [SessWorld.goto, ho] at h
  holder := by
    intro j hj
    simp only [SessWorld.goto] at hj ⊢
    by_cases e : j = k
    · subst e; exact ho
    · rw [if_neg e] at hj; exact inv.holder j hj
  at_ := by
    intro j hj
    simp only [SessWorld.goto] at hj ⊢
    have : j = k := by rw [ho] at hj; exact (Option.some.inj hj).symm
    subst this
    rw [if_pos rfl]
    refine ⟨hp, ?_⟩
    cases p <;> exact hat

theorem step_inv {pid : BitVec 32} {w w' : SessWorld} (inv : SessInv pid w) (k : Nat)
    (h : w.step pid k = some w') : SessInv pid w' := by
  unfold SessWorld.step at h
  cases hp : w.pc k with
  | out =>
    rw [hp] at h
    cases ho : w.owner with
    | some o => rw [ho] at h; cases h
    | none =>
      rw [ho] at h
      simp only [Option.some.injEq] at h
      subst h
      constructor
      · exact inv.log
      · intro h; simp [SessWorld.goto] at h
      · intro j hj
        simp only [SessWorld.goto] at hj ⊢
        by_cases e : j = k
        · rw [e]
        · rw [if_neg e] at hj
          have := inv.holder j hj
          rw [ho] at this; cases this
      · intro j hj
        simp only [SessWorld.goto, Option.some.injEq] at hj ⊢
        subst hj
        rw [if_pos rfl]
        exact ⟨by simp, inv.free ho⟩
  | locked =>
    rw [hp] at h
    have ho := inv.holder k (by rw [hp]; simp)
    have ha := (inv.at_ k ho).2
    rw [hp] at ha
    simp only [Option.some.injEq] at h
    subst h
    exact inv.keep k ho w.sessionid _ (by simp) ⟨ha, by rw [show w.sessionid = _ from ha]⟩
  | tested b =>
    rw [hp] at h
    have ho := inv.holder k (by rw [hp]; simp)
    have ha := (inv.at_ k ho).2
    rw [hp] at ha
    obtain ⟨h1, h2⟩ := ha
    cases b with
    | true =>
      simp only [Option.some.injEq] at h
      subst h
      refine inv.keep k ho (pid + 1) _ (by simp) ?_
      have : sessAfter pid w.given.length = 0 := by simpa using h2.symm
      simp [SessAt, sessAfter, sessNext, this]
    | false =>
      simp only [Option.some.injEq] at h
      subst h
      refine inv.keep k ho w.sessionid _ (by simp) ⟨h1, h1, ?_⟩
      have : ¬ sessAfter pid w.given.length = 0 := by
        intro e; rw [e] at h2; simp at h2
      rw [h1]; exact this
  | incrementing old =>
    rw [hp] at h
    have ho := inv.holder k (by rw [hp]; simp)
    have ha := (inv.at_ k ho).2
    rw [hp] at ha
    obtain ⟨h1, h2, h3⟩ := ha
    simp only [Option.some.injEq] at h
    subst h
    refine inv.keep k ho (old + 1) _ (by simp) ?_
    show old + 1 = sessNext pid (sessAfter pid w.given.length)
    rw [sessNext, ← h2, if_neg h3]
  | stored =>
    rw [hp] at h
    have ho := inv.holder k (by rw [hp]; simp)
    have ha := (inv.at_ k ho).2
    rw [hp] at ha
    simp only [Option.some.injEq] at h
    subst h
    exact inv.keep k ho w.sessionid _ (by simp) ⟨ha, ha⟩
  | leaving r =>
    rw [hp] at h
    have ho := inv.holder k (by rw [hp]; simp)
    have ha := (inv.at_ k ho).2
    rw [hp] at ha
    obtain ⟨h1, h2⟩ := ha
    simp only [Option.some.injEq] at h
    subst h
    constructor
    · intro i hi
      simp only [SessWorld.goto, List.length_append, List.length_singleton] at hi ⊢
      by_cases e : i < w.given.length
      · rw [List.getElem_append_left e]; exact inv.log i e
      · have : i = w.given.length := by omega
        subst this
        simp [h2]
    · intro _
      simp only [SessWorld.goto, List.length_append, List.length_singleton]
      exact h1
    · intro j hj
      simp only [SessWorld.goto] at hj ⊢
      by_cases e : j = k
      · subst e; simp at hj
      · rw [if_neg e] at hj
        have := inv.holder j hj
        rw [ho] at this
        exact absurd (Option.some.inj this).symm e
    · intro j hj; simp [SessWorld.goto] at hj

theorem run_inv_from (pid : BitVec 32) (sched : List Nat) : ∀ (w w' : SessWorld), SessInv pid w →
    w.run pid sched = some w' → SessInv pid w' := by
  induction sched with
  | nil => intro w w' hi h; simp only [SessWorld.run, Option.some.injEq] at h; exact h ▸ hi
  | cons k ks ih =>
    intro w w' hi h
    simp only [SessWorld.run] at h
    cases e : w.step pid k with
    | none => rw [e] at h; cases h
    | some w1 => rw [e] at h; exact ih w1 w' (step_inv hi k e) h

theorem run_inv (pid : BitVec 32) (sched : List Nat) (w : SessWorld)
    (h : SessWorld.init.run pid sched = some w) : SessInv pid w :=
  run_inv_from pid sched _ _ (init_inv pid) h

/-- The caller inside can always finish by itself. -/
theorem holder_finishes (pid : BitVec 32) (w : SessWorld) (k : Nat) (hk : w.pc k ≠ .out) :
    ∃ n ≤ 5, ∃ w' r, w.run pid (List.replicate n k) = some w' ∧ w'.owner = none ∧
      w'.given = w.given ++ [(k, r)] := by
  have s0 : ∀ (w : SessWorld) r, w.pc k = .leaving r →
      ∃ w', w.run pid (List.replicate 1 k) = some w' ∧ w'.owner = none ∧ w'.given = w.given ++ [(k, r)] := by
    intro w r h; simp [SessWorld.run, SessWorld.step, h, SessWorld.goto]
  have s1 : ∀ (w : SessWorld), w.pc k = .stored →
      ∃ w', w.run pid (List.replicate 2 k) = some w' ∧ w'.owner = none ∧
        w'.given = w.given ++ [(k, w.sessionid)] := by
    intro w h; simp [SessWorld.run, SessWorld.step, h, SessWorld.goto, List.replicate]
  have s2 : ∀ (w : SessWorld) o, w.pc k = .incrementing o →
      ∃ w', w.run pid (List.replicate 3 k) = some w' ∧ w'.owner = none ∧
        w'.given = w.given ++ [(k, o + 1)] := by
    intro w o h; simp [SessWorld.run, SessWorld.step, h, SessWorld.goto, List.replicate]
  cases hp : w.pc k with
  | out => exact absurd hp hk
  | leaving r =>
    obtain ⟨w', h⟩ := s0 w r hp
    exact ⟨1, by omega, w', r, h⟩
  | stored =>
    obtain ⟨w', h⟩ := s1 w hp
    exact ⟨2, by omega, w', _, h⟩
  | incrementing o =>
    obtain ⟨w', h⟩ := s2 w o hp
    exact ⟨3, by omega, w', _, h⟩
  | tested b =>
    cases b with
    | true =>
      obtain ⟨w', h1, h2, h3⟩ := s1 ({ w with sessionid := pid + 1 }.goto k .stored) (by simp [SessWorld.goto])
      refine ⟨3, by omega, w', _, ?_, h2, h3⟩
      simpa [List.replicate, SessWorld.run, SessWorld.step, hp] using h1
    | false =>
      obtain ⟨w', h1, h2, h3⟩ := s2 (w.goto k (.incrementing w.sessionid)) w.sessionid (by simp [SessWorld.goto])
      refine ⟨4, by omega, w', _, ?_, h2, h3⟩
      simpa [List.replicate, SessWorld.run, SessWorld.step, hp] using h1
  | locked =>
    by_cases z : w.sessionid = 0
    · refine ⟨4, by omega, ?_⟩
      simp [SessWorld.run, SessWorld.step, hp, SessWorld.goto, List.replicate, z]
    · refine ⟨5, by omega, ?_⟩
      have zb : (w.sessionid == 0#32) = false := by simpa using z
      simp [SessWorld.run, SessWorld.step, hp, SessWorld.goto, List.replicate, zb]

end Saratoga
