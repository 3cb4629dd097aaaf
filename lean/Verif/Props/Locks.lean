import Verif.Model.Locks
import Verif.Props.Settings
/-!
# Properties of settings commands and copies at the same time

C106: commands act as if one came after the other; copies made meanwhile need not.
-/
namespace Saratoga

/-- What the commands show when given one after the other. -/
def settingReplies (H : CmdTable) (c : Cliflags) : List (List String) → List (List Shown)
  | [] => []
  | args :: rest => (settingCmd H c args).2 :: settingReplies H (settingCmd H c args).1 rest

theorem settingReplies_append (H : CmdTable) (c : Cliflags) (as : List (List String)) (b : List String) :
    settingReplies H c (as ++ [b]) = settingReplies H c as ++ [(settingCmd H (settingRun H c as) b).2] := by
  induction as generalizing c with
  | nil => rfl
  | cons a as ih => simp only [List.cons_append, settingReplies, ih]; rfl

theorem settingRun_append (H : CmdTable) (c : Cliflags) (as : List (List String)) (b : List String) :
    settingRun H c (as ++ [b]) = (settingCmd H (settingRun H c as) b).1 := by
  simp [settingRun]

/-- The words of the commands done, in order. -/
def LockWorld.done (w : LockWorld) : List (List String) := w.log.map fun e => e.2.1

/-- Whose command is under way, with its words, if it has not taken effect yet. -/
def LockWorld.pending (w : LockWorld) : List (Nat × List String) :=
  match w.owner with
  | none => []
  | some k =>
    match w.call k with
    | .locked args => [(k, args)]
    | .changing args _ => [(k, args)]
    | _ => []

/-- What holds in every state that can be reached from one where nobody is in a command. -/
structure LockInv (H : CmdTable) (c : Cliflags) (w : LockWorld) : Prop where
  alone : ∀ k, w.owner ≠ some k → w.call k = .out
  inside : ∀ k, w.owner = some k → w.call k ≠ .out
  seen : ∀ k args s, w.call k = .changing args s → s = w.settings
  marks : w.writers ≠ [] → ∃ k args, w.writers = [k] ∧ w.call k = .changing args w.settings ∧
    writesMap H w.settings args = true
  settings : w.settings = settingRun H c w.done
  replies : (w.log.map fun e => e.2.2) = settingReplies H c w.done
  order : w.entered = (w.log.map fun e => (e.1, e.2.1)) ++ w.pending
  flags : (∀ k todo got, w.copying k = .reading todo got → ∀ e ∈ got, ∃ n ≤ w.done.length,
      (settingRun H c (w.done.take n)).flag e.1 = e.2) ∧
    ∀ got ∈ w.copies, ∀ e ∈ got, ∃ n ≤ w.done.length, (settingRun H c (w.done.take n)).flag e.1 = e.2

theorem lock_idle (H : CmdTable) (c : Cliflags) : LockInv H c (.idle c) where
  alone _ _ := rfl
  inside _ h := by cases h
  seen _ _ _ h := by cases h
  marks h := absurd rfl h
  settings := rfl
  replies := rfl
  order := rfl
  flags := ⟨fun _ _ _ h => (by cases h), fun _ h => (by cases h)⟩

theorem call_goto (w : LockWorld) (k j : Nat) (p : SetPc) :
    (w.goto k p).call j = if j = k then p else w.call j := rfl

theorem lock_step {H : CmdTable} {c : Cliflags} {w w' : LockWorld} {a : LockAct} (I : LockInv H c w)
    (h : w.step H a = .ret w') : LockInv H c w' := by
  cases a with
  | command k args =>
    simp only [LockWorld.step] at h
    cases hc : w.call k with
    | out =>
      rw [hc] at h
      cases ho : w.owner with
      | some o => rw [ho] at h; cases h; exact I
      | none =>
        rw [ho] at h
        cases h
        have all : ∀ j, w.call j = .out := fun j => I.alone j (by rw [ho]; exact fun h => by cases h)
        refine ⟨?_, ?_, ?_, ?_, I.settings, I.replies, ?_, I.flags⟩
        · intro j hj
          rw [call_goto]
          split
          · rename_i e; subst e; exact absurd rfl hj
          · exact all j
        · intro j hj
          have hj : k = j := Option.some.inj hj
          rw [call_goto, if_pos hj.symm]
          exact fun h => by cases h
        · intro j as s hj
          rw [call_goto] at hj
          split at hj
          · cases hj
          · rw [all j] at hj; cases hj
        · intro hm
          obtain ⟨j, as, _, h2, _⟩ := I.marks hm
          rw [all j] at h2; cases h2
        · have h1 := I.order
          simp only [LockWorld.pending, ho, List.append_nil] at h1
          show w.entered ++ [(k, args)] = _
          rw [h1]
          simp [LockWorld.pending, LockWorld.goto]
    | locked as =>
      have own : w.owner = some k := by
        refine Classical.byContradiction fun n => ?_
        have := I.alone k n
        rw [hc] at this; cases this
      have clear : w.writers = [] := by
        refine Classical.byContradiction fun n => ?_
        obtain ⟨j, as, _, h2, _⟩ := I.marks n
        by_cases e : j = k
        · rw [e, hc] at h2; cases h2
        · rw [I.alone j (by rw [own]; exact fun h => e (Option.some.inj h).symm)] at h2; cases h2
      rw [hc] at h
      have pend : w.pending = [(k, as)] := by simp [LockWorld.pending, own, hc]
      have key : ∀ ws, (ws ≠ [] → ws = [k] ∧ writesMap H w.settings as = true) →
          LockInv H c ({ w with writers := ws }.goto k (.changing as w.settings)) := by
        intro ws hws
        refine ⟨?_, ?_, ?_, ?_, I.settings, I.replies, ?_, I.flags⟩
        · intro j hj
          rw [call_goto]
          split
          · rename_i e; subst e; exact absurd own hj
          · exact I.alone j hj
        · intro j hj
          rw [call_goto]
          split
          · exact fun h => by cases h
          · exact I.inside j hj
        · intro j as' s hj
          rw [call_goto] at hj
          split at hj
          · cases hj; rfl
          · exact I.seen j as' s hj
        · intro hm
          obtain ⟨h1, h2⟩ := hws hm
          exact ⟨k, as, h1, by rw [call_goto, if_pos rfl]; rfl, h2⟩
        · show w.entered = _
          rw [I.order, pend]
          simp [LockWorld.pending, LockWorld.goto, own]
      by_cases hw : writesMap H w.settings as = true
      · simp only [hw, if_true, clear, ne_eq, not_true_eq_false, if_false] at h
        cases h
        exact key _ fun _ => ⟨rfl, hw⟩
      · simp only [hw] at h
        cases h
        exact key w.writers fun n => absurd clear n
    | changing as s =>
      have own : w.owner = some k := by
        refine Classical.byContradiction fun n => ?_
        have := I.alone k n
        rw [hc] at this; cases this
      rw [hc] at h
      have hs := I.seen k as s hc
      subst hs
      cases h
      have pend : w.pending = [(k, as)] := by simp [LockWorld.pending, own, hc]
      have dn : LockWorld.done (LockWorld.goto { w with
          settings := (settingCmd H w.settings as).1
          writers := w.writers.erase k
          log := w.log ++ [(k, as, (settingCmd H w.settings as).2)] } k .changed) = w.done ++ [as] := by
        simp [LockWorld.done, LockWorld.goto]
      refine ⟨?_, ?_, ?_, ?_, ?_, ?_, ?_, ?_⟩
      · intro j hj
        rw [call_goto]
        split
        · rename_i e; subst e; exact absurd own hj
        · exact I.alone j hj
      · intro j hj
        rw [call_goto]
        split
        · exact fun h => by cases h
        · exact I.inside j hj
      · intro j as' s hj
        rw [call_goto] at hj
        split at hj
        · cases hj
        · rename_i e
          rw [I.alone j (by rw [own]; exact fun h => e (Option.some.inj h).symm)] at hj; cases hj
      · intro hm
        exfalso
        apply hm
        show w.writers.erase k = []
        by_cases n : w.writers = []
        · rw [n]; rfl
        · obtain ⟨j, as', h1, h2, _⟩ := I.marks n
          have : j = k := by
            refine Classical.byContradiction fun e => ?_
            rw [I.alone j (by rw [own]; exact fun h => e (Option.some.inj h).symm)] at h2; cases h2
          rw [h1, this]; simp
      · rw [dn, settingRun_append, ← I.settings]; rfl
      · rw [dn, settingReplies_append, ← I.replies, ← I.settings]
        simp [LockWorld.goto]
      · show w.entered = _
        rw [I.order, pend]
        simp [LockWorld.pending, LockWorld.goto, own]
      · rw [dn]
        have grow : ∀ e : String × String,
            (∃ n ≤ w.done.length, (settingRun H c (w.done.take n)).flag e.1 = e.2) →
            ∃ n ≤ (w.done ++ [as]).length, (settingRun H c ((w.done ++ [as]).take n)).flag e.1 = e.2 := by
          rintro e ⟨n, hn, h⟩
          refine ⟨n, by simp; omega, ?_⟩
          rw [List.take_append_of_le_length hn]; exact h
        exact ⟨fun j todo got hj e he => grow e (I.flags.1 j todo got hj e he),
          fun got hg e he => grow e (I.flags.2 got hg e he)⟩
    | changed =>
      have own : w.owner = some k := by
        refine Classical.byContradiction fun n => ?_
        have := I.alone k n
        rw [hc] at this; cases this
      rw [hc] at h
      cases h
      have all : ∀ j, ({ w with owner := none }.goto k .out).call j = .out := by
        intro j
        rw [call_goto]
        split
        · rfl
        · rename_i e; exact I.alone j (by rw [own]; exact fun h => e (Option.some.inj h).symm)
      refine ⟨fun j _ => all j, ?_, ?_, ?_, I.settings, I.replies, ?_, I.flags⟩
      · intro j hj; cases hj
      · intro j as s hj; rw [all j] at hj; cases hj
      · intro hm
        obtain ⟨j, as', h1, h2, _⟩ := I.marks hm
        by_cases e : j = k
        · rw [e, hc] at h2; cases h2
        · rw [I.alone j (by rw [own]; exact fun h => e (Option.some.inj h).symm)] at h2; cases h2
      · show w.entered = _
        rw [I.order]
        simp [LockWorld.pending, LockWorld.goto, own, hc]
  | copy k order =>
    simp only [LockWorld.step] at h
    have key : ∀ (p : CopyPc) (cs : List (List (String × String))),
        (∀ todo got, p = .reading todo got → ∀ e ∈ got, ∃ n ≤ w.done.length,
          (settingRun H c (w.done.take n)).flag e.1 = e.2) →
        (∀ got ∈ cs, ∀ e ∈ got, ∃ n ≤ w.done.length, (settingRun H c (w.done.take n)).flag e.1 = e.2) →
        LockInv H c ({ w with copies := cs }.gotoCopy k p) := by
      intro p cs hp hcs
      refine ⟨I.alone, I.inside, I.seen, I.marks, I.settings, I.replies, I.order, ?_, hcs⟩
      intro j todo got hj
      have hj : (if j = k then p else w.copying j) = .reading todo got := hj
      split at hj
      · exact hp todo got hj
      · exact I.flags.1 j todo got hj
    split at h
    · cases h
      exact key _ w.copies (fun todo got e => by cases e; exact fun _ h => by cases h) I.flags.2
    · rename_i got hc
      cases h
      refine key _ _ (fun _ _ e => by cases e) ?_
      intro g hg
      rcases List.mem_append.1 hg with hg | hg
      · exact I.flags.2 g hg
      · rw [List.mem_singleton] at hg
        subst hg
        exact I.flags.1 k _ _ hc
    · rename_i g todo got hc
      split at h
      · cases h
      · cases h
        refine key _ w.copies ?_ I.flags.2
        intro todo' got' e
        cases e
        intro x hx
        rcases List.mem_append.1 hx with hx | hx
        · exact I.flags.1 k _ _ hc x hx
        · rw [List.mem_singleton] at hx
          subst hx
          exact ⟨w.done.length, Nat.le_refl _, by rw [List.take_length, ← I.settings]⟩

theorem lock_run {H : CmdTable} {c : Cliflags} {w w' : LockWorld} (as : List LockAct) (I : LockInv H c w)
    (h : w.run H as = .ret w') : LockInv H c w' := by
  induction as generalizing w with
  | nil => cases h; exact I
  | cons a as ih =>
    obtain ⟨w1, h1, h⟩ := Out.bind_eq_ret h
    exact ih (lock_step I h1) h

/-- **C106** Whatever commands are given, by any number of goroutines and in any interleaving, also with copies made
meanwhile: they act as if one came after the other, in the order they got the lock. The settings are what that order
makes them, every command shows what it would show then, and none is lost: all that got the lock are done but the one
that has it. -/
theorem C106_serial (H : CmdTable) (c : Cliflags) (acts : List LockAct) (w : LockWorld)
    (h : (LockWorld.idle c).run H acts = .ret w) :
    w.settings = settingRun H c (w.log.map fun e => e.2.1) ∧
    (w.log.map fun e => e.2.2) = settingReplies H c (w.log.map fun e => e.2.1) ∧
    ∃ rest, w.entered = (w.log.map fun e => (e.1, e.2.1)) ++ rest ∧ rest.length ≤ 1 ∧
      ∀ e ∈ rest, w.owner = some e.1 := by
  have I := lock_run acts (lock_idle H c) h
  refine ⟨I.settings, I.replies, w.pending, I.order, ?_⟩
  unfold LockWorld.pending
  split
  · exact ⟨Nat.zero_le _, fun _ h => by cases h⟩
  · rename_i k ho
    split
    · exact ⟨Nat.le_refl _, fun e he => by rw [List.mem_singleton] at he; subst he; exact ho⟩
    · exact ⟨Nat.le_refl _, fun e he => by rw [List.mem_singleton] at he; subst he; exact ho⟩
    · exact ⟨Nat.zero_le _, fun _ h => by cases h⟩

example : ∃ w, (LockWorld.idle shippedSettings).run [] (List.replicate 4 (.command 1 ["checksum", "md5"])) = .ret w ∧
    w.log.length = 1 := ⟨_, rfl, rfl⟩

/-- The turns of goroutines for commands. -/
def LockAct.isCommand : LockAct → Bool
  | .command .. => true
  | .copy .. => false

theorem lock_command_returns {H : CmdTable} {c : Cliflags} {w : LockWorld} (I : LockInv H c w) (k : Nat)
    (args : List String) : ∃ w', w.step H (.command k args) = .ret w' := by
  simp only [LockWorld.step]
  split
  · split <;> exact ⟨_, rfl⟩
  · rename_i as hc
    split
    · rw [if_neg]
      · exact ⟨_, rfl⟩
      · intro n
        obtain ⟨j, as', _, h2, _⟩ := I.marks n
        have own : ∀ i, w.call i ≠ .out → w.owner = some i := fun i hi =>
          Classical.byContradiction fun n => hi (I.alone i n)
        have h3 := own j (by rw [h2]; exact fun h => by cases h)
        rw [own k (by rw [hc]; exact fun h => by cases h)] at h3
        cases h3
        rw [hc] at h2; cases h2
    · exact ⟨_, rfl⟩
  · exact ⟨_, rfl⟩
  · exact ⟨_, rfl⟩

/-- **C106** Commands alone never end the program, however they mix. -/
theorem C106_commands_safe (H : CmdTable) (c : Cliflags) (acts : List LockAct)
    (only : ∀ a ∈ acts, a.isCommand = true) : ((LockWorld.idle c).run H acts).returns := by
  have go : ∀ (acts : List LockAct) (w : LockWorld), (∀ a ∈ acts, a.isCommand = true) → LockInv H c w →
      (w.run H acts).returns := by
    intro acts
    induction acts with
    | nil => intro w _ _; trivial
    | cons a acts ih =>
      intro w only I
      cases a with
      | copy k o => exact absurd (only _ List.mem_cons_self) (fun h => by cases h)
      | command k args =>
        obtain ⟨w', h'⟩ := lock_command_returns I k args
        show ((w.step H _).bind _).returns
        rw [h']
        exact ih w' (fun a ha => only a (List.mem_cons_of_mem _ ha)) (lock_step I h')
  exact go acts _ only (lock_idle H c)

example := C106_commands_safe [] shippedSettings [.command 0 ["checksum", "md5"], .command 1 ["checksum"]] (by decide)

/-- **C106** Nobody waits for ever: from every state that can be reached, the goroutine that has the lock is done after
at most three of its own turns, and the lock is free. -/
theorem C106_no_deadlock (H : CmdTable) (c : Cliflags) (acts : List LockAct) (w : LockWorld)
    (h : (LockWorld.idle c).run H acts = .ret w) (k : Nat) (holds : w.owner = some k) (args : List String) :
    ∃ n ≤ 3, ∃ w', w.run H (List.replicate n (.command k args)) = .ret w' ∧ w'.owner = none ∧ w'.call k = .out := by
  have I := lock_run acts (lock_idle H c) h
  clear h
  have last : ∀ w : LockWorld, w.call k = .changed → ∃ w', w.step H (.command k args) = .ret w' ∧ w'.owner = none ∧
      w'.call k = .out := by
    intro w hc
    refine ⟨{ w with owner := none }.goto k .out, by simp only [LockWorld.step, hc], rfl, ?_⟩
    rw [call_goto, if_pos rfl]
  have second : ∀ (w : LockWorld) (as : List String) (s : Cliflags), w.call k = .changing as s →
      ∃ w', w.step H (.command k args) = .ret w' ∧ w'.call k = .changed := by
    intro w as s hc
    refine ⟨_, by simp only [LockWorld.step, hc]; rfl, ?_⟩
    rw [call_goto, if_pos rfl]
  have two : ∀ (w : LockWorld) (as : List String) (s : Cliflags), w.call k = .changing as s →
      ∃ w', w.run H (List.replicate 2 (.command k args)) = .ret w' ∧ w'.owner = none ∧ w'.call k = .out := by
    intro w as s hc
    obtain ⟨w1, h1, c1⟩ := second w as s hc
    obtain ⟨w2, h2, o2, c2⟩ := last w1 c1
    refine ⟨w2, ?_, o2, c2⟩
    show ((w.step H _).bind fun w => (w.step H _).bind _) = _
    rw [h1]
    show ((w1.step H _).bind _) = _
    rw [h2]; rfl
  cases hc : w.call k with
  | out => exact absurd hc (I.inside k holds)
  | changed =>
    obtain ⟨w', h', o, c'⟩ := last w hc
    refine ⟨1, by omega, w', ?_, o, c'⟩
    show ((w.step H _).bind _) = _
    rw [h']; rfl
  | changing as s =>
    obtain ⟨w', h', r⟩ := two w as s hc
    exact ⟨2, by omega, w', h', r⟩
  | locked as =>
    obtain ⟨w1, h1⟩ := lock_command_returns I k args
    have c1 : w1.call k = .changing as w.settings := by
      simp only [LockWorld.step, hc] at h1
      split at h1
      · split at h1
        · cases h1
        · cases h1; rw [call_goto, if_pos rfl]
      · cases h1; rw [call_goto, if_pos rfl]
    obtain ⟨w', h', r⟩ := two w1 as _ c1
    refine ⟨3, by omega, w', ?_, r⟩
    show ((w.step H _).bind fun w => w.run H (List.replicate 2 (.command k args))) = _
    rw [h1]; exact h'

example : ∃ w, (LockWorld.idle shippedSettings).run [] [.command 1 ["checksum", "md5"], .command 1 []] = .ret w ∧
    w.owner = some 1 := ⟨_, rfl, rfl⟩

/-- **C106** (partial.) Every single value in a copy is one the setting had while commands ran: after some number of
the commands done. Missing: that it is the same number for all values, see `C106_counterexample`. -/
theorem C106_copy_each_partial (H : CmdTable) (c : Cliflags) (acts : List LockAct) (w : LockWorld)
    (h : (LockWorld.idle c).run H acts = .ret w) (copy : List (String × String)) (made : copy ∈ w.copies)
    (key value : String) (entry : (key, value) ∈ copy) :
    ∃ n ≤ w.log.length, (settingRun H c ((w.log.map fun e => e.2.1).take n)).flag key = value := by
  obtain ⟨n, hn, e⟩ := (lock_run acts (lock_idle H c) h).flags.2 copy made _ entry
  exact ⟨n, by simpa [LockWorld.done] using hn, e⟩

example : ∃ w, (LockWorld.idle shippedSettings).run [] [.copy 0 ["csumtype"], .copy 0 [], .copy 0 []] = .ret w ∧
    w.copies = [[("csumtype", "none")]] := ⟨_, rfl, by decide +kernel⟩

/-- **C106** (partial.) A copy made while nobody changes anything, start to end, is a copy. Missing: changes while the
copy is made. -/
theorem C106_copy_alone_partial (H : CmdTable) (w : LockWorld) (k : Nat) (order : List String)
    (idle : w.copying k = .out) (quiet : w.writers = []) :
    ∃ w', w.run H (List.replicate (order.length + 2) (.copy k order)) = .ret w' ∧ w'.settings = w.settings ∧
      w'.copies = w.copies ++ [order.map fun g => (g, w.settings.flag g)] := by
  have loop : ∀ (todo : List String) (got : List (String × String)) (v : LockWorld),
      v.copying k = .reading todo got → v.writers = [] → v.settings = w.settings → v.copies = w.copies →
      ∃ w', v.run H (List.replicate (todo.length + 1) (.copy k order)) = .ret w' ∧ w'.settings = w.settings ∧
        w'.copies = w.copies ++ [got ++ todo.map fun g => (g, w.settings.flag g)] := by
    intro todo
    induction todo with
    | nil =>
      intro got v hc _ hs hcs
      refine ⟨{ v with copies := v.copies ++ [got] }.gotoCopy k .out, ?_, hs, ?_⟩
      · show ((v.step H _).bind _) = _
        simp only [LockWorld.step, hc]; rfl
      · show v.copies ++ [got] = _
        rw [hcs]; simp
    | cons g todo ih =>
      intro got v hc hw hs hcs
      obtain ⟨w', h1, h2, h3⟩ := ih (got ++ [(g, v.settings.flag g)])
        (v.gotoCopy k (.reading todo (got ++ [(g, v.settings.flag g)]))) (by simp [LockWorld.gotoCopy]) hw hs hcs
      refine ⟨w', ?_, h2, ?_⟩
      · show ((v.step H _).bind fun v => v.run H (List.replicate (todo.length + 1) (.copy k order))) = _
        have : v.step H (.copy k order) = .ret (v.gotoCopy k (.reading todo (got ++ [(g, v.settings.flag g)]))) := by
          simp only [LockWorld.step, hc]
          rw [if_neg (by rw [hw]; exact fun h => h rfl)]
        rw [this]; exact h1
      · rw [h3, hs]; simp
  obtain ⟨w', h1, h2, h3⟩ := loop order [] (w.gotoCopy k (.reading order [])) (by simp [LockWorld.gotoCopy]) quiet rfl rfl
  refine ⟨w', ?_, h2, by simpa using h3⟩
  show ((w.step H _).bind fun v => v.run H (List.replicate (order.length + 1) (.copy k order))) = _
  have : w.step H (.copy k order) = .ret (w.gotoCopy k (.reading order [])) := by
    simp only [LockWorld.step, idle]
  rw [this]; exact h1

example := C106_copy_alone_partial [] (LockWorld.idle shippedSettings) 0 ["csumtype", "descriptor"] rfl rfl

/-- The keys of the shipped settings, in some order. -/
def exampleOrder : List String :=
  ["csumtype", "descriptor", "freespace", "txwilling", "rxwilling", "stream", "reqtstamp", "reqstatus", "udplite"]

/-- A transfer starts while the user types `checksum md5` and `descriptor d16`: the first key is read before, the others
after. -/
def tornSchedule : List LockAct :=
  [.copy 0 exampleOrder, .copy 0 []] ++ List.replicate 4 (.command 1 ["checksum", "md5"]) ++
    List.replicate 4 (.command 1 ["descriptor", "d16"]) ++ List.replicate 9 (.copy 0 [])

/-- What can be seen of a run: the copies made and the commands done. -/
structure LockOutcome where
  copies : List (List (String × String))
  log : List (Nat × List String × List Shown)
deriving DecidableEq

/-- Nothing can be seen if the program ended. -/
def LockWorld.outcome : Out LockWorld → Option LockOutcome
  | .ret w => some ⟨w.copies, w.log⟩
  | _ => none

theorem outcome_some {o : Out LockWorld} {cs : List (List (String × String))}
    {l : List (Nat × List String × List Shown)} (h : LockWorld.outcome o = some ⟨cs, l⟩) :
    ∃ w, o = .ret w ∧ w.copies = cs ∧ w.log = l := by
  cases o with
  | ret w => cases h; exact ⟨w, rfl, rfl, rfl⟩
  | fatal => cases h
  | panic => cases h

def tornCopy : List (String × String) :=
  [("csumtype", "none"), ("descriptor", "d16"), ("freespace", "yes"), ("txwilling", "yes"), ("rxwilling", "yes"),
   ("stream", "no"), ("reqtstamp", "yes"), ("reqstatus", "no"), ("udplite", "no")]

theorem torn_run : LockWorld.outcome ((LockWorld.idle shippedSettings).run [] tornSchedule) =
    some ⟨[tornCopy], [(1, ["checksum", "md5"], [.msg "Checksum md5"]),
      (1, ["descriptor", "d16"], [.msg "Descriptor size is d16"])]⟩ := by
  decide +kernel

/-- Whether a run ends with a panic. -/
def LockWorld.panics : Out LockWorld → Bool
  | .panic => true
  | _ => false

theorem ends_run : LockWorld.panics ((LockWorld.idle shippedSettings).run []
    [.copy 0 exampleOrder, .command 1 ["checksum", "md5"], .command 1 [], .copy 0 []]) = true := by
  decide +kernel

/-- **C106** A transfer's copy of the settings need not be what the settings ever were: with two commands given while it
is made, it has the old checksum and the new descriptor. And a copy made while a command changes a flag ends the
program. -/
theorem C106_counterexample :
    (∃ w copy, (LockWorld.idle shippedSettings).run [] tornSchedule = .ret w ∧ w.copies = [copy] ∧
      ∀ n, copy ≠ exampleOrder.map fun g =>
        (g, (settingRun [] shippedSettings ((w.log.map fun e => e.2.1).take n)).flag g)) ∧
    (LockWorld.idle shippedSettings).run []
      [.copy 0 exampleOrder, .command 1 ["checksum", "md5"], .command 1 [], .copy 0 []] = .panic := by
  constructor
  · obtain ⟨w, h1, h2, h3⟩ := outcome_some torn_run
    refine ⟨w, tornCopy, h1, h2, ?_⟩
    rw [h3]
    intro n
    match n with
    | 0 => decide +kernel
    | 1 => decide +kernel
    | n + 2 =>
      rw [List.take_of_length_le (by show 2 ≤ n + 2; omega)]
      decide +kernel
  · have h := ends_run
    generalize (LockWorld.idle shippedSettings).run _ _ = o at h
    cases o with
    | ret w => cases h
    | fatal => cases h
    | panic => rfl

/-- Two commands that overlap: the second waits. -/
example : LockWorld.outcome ((LockWorld.idle shippedSettings).run [] [.command 0 ["checksum", "md5"],
    .command 1 ["checksum"], .command 0 [], .command 0 [], .command 0 [], .command 1 ["checksum"], .command 1 [],
    .command 1 []]) =
    some ⟨[], [(0, ["checksum", "md5"], [.msg "Checksum md5"]), (1, ["checksum"], [.msg "Checksum md5"])]⟩ := by
  decide +kernel

end Saratoga
