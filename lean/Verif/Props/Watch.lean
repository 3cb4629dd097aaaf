import Verif.Model.Watch
import Verif.Props.Screen
import Verif.Props.Receive
/-!
# C140: what the windows show of what happened
-/
namespace Saratoga

theorem watch_induction {S : Setup} {P : Watch → Prop} (step : ∀ v e v', P v → v.step S e = some v' → P v') :
    ∀ (es : List WatchEvent) {v v' : Watch}, P v → v.run S es = some v' → P v'
  | [], v, v', h, hr => by cases hr; exact h
  | e :: es, v, v', h, hr => by
    unfold Watch.run at hr
    cases h1 : v.step S e with
    | none => rw [h1] at hr; cases hr
    | some x => rw [h1] at hr; exact watch_induction step es (step _ _ _ h h1) hr

/-- The steps there are. -/
theorem watch_step_cases {S : Setup} {v v' : Watch} {e : WatchEvent} (h : v.step S e = some v') :
    (∃ a k, e = .act a ∧ (a = .userQuit → v.left = true) ∧ v.spoken.step S a = some k ∧
      v' = { v with spoken := k, pending := v.pending ++ v.spoken.world.says S a }) ∨
    (∃ i l, e = .show i ∧ v.spoken.world.main ≠ .ended ∧ v.left = false ∧ v.pending[i]? = some l ∧
      v' = { v with pending := v.pending.eraseIdx i, shown := v.shown ++ [l] }) ∨
    (e = .leave ∧ v.spoken.world.main ≠ .ended ∧ v.left = false ∧ v' = { v with left := true }) := by
  have go : ∀ {c : Prop} [Decidable c] {x : Option Watch}, (if c then none else x) = some v' → ¬ c ∧ x = some v' := by
    intro c _ x h
    by_cases hc : c
    · rw [if_pos hc] at h; cases h
    · rw [if_neg hc] at h; exact ⟨hc, h⟩
  have open_ : ¬ (v.spoken.world.main = .ended ∨ v.left = true) → v.spoken.world.main ≠ .ended ∧ v.left = false := by
    intro hc
    refine ⟨fun e => hc (.inl e), ?_⟩
    cases hl : v.left with
    | false => rfl
    | true => exact absurd (.inr hl) hc
  cases e with
  | act a =>
    refine .inl ?_
    by_cases ha : a = .userQuit
    · subst ha
      simp only [Watch.step] at h
      by_cases hl : v.left = true
      · rw [if_pos hl] at h
        cases hk : v.spoken.step S .userQuit with
        | none => rw [hk] at h; cases h
        | some k =>
          rw [hk] at h
          cases h
          exact ⟨_, k, rfl, fun _ => hl, hk, by simp [World.says]⟩
      · rw [if_neg hl] at h; cases h
    · have h : (v.spoken.step S a).map (fun k => { v with spoken := k, pending := v.pending ++ v.spoken.world.says S a }) =
          some v' := by
        cases a <;> first | exact h | exact absurd rfl ha
      cases hk : v.spoken.step S a with
      | none => rw [hk] at h; cases h
      | some k =>
        rw [hk] at h
        cases h
        exact ⟨_, k, rfl, fun e => absurd e ha, hk, rfl⟩
  | «show» i =>
    refine .inr (.inl ?_)
    simp only [Watch.step] at h
    obtain ⟨hc, h⟩ := go h
    obtain ⟨h1, h2⟩ := open_ hc
    cases hi : v.pending[i]? with
    | none => rw [hi] at h; cases h
    | some l => rw [hi] at h; cases h; exact ⟨i, l, rfl, h1, h2, hi, rfl⟩
  | leave =>
    refine .inr (.inr ?_)
    simp only [Watch.step] at h
    obtain ⟨hc, h⟩ := go h
    obtain ⟨h1, h2⟩ := open_ hc
    cases h
    exact ⟨rfl, h1, h2, rfl⟩

/-- **C140** In every state of every execution: every line printed is in the windows or on its way, once, and nothing else
is. -/
theorem C140_once (S : Setup) (fs : FS) (es : List WatchEvent) (v : Watch) (h : (Watch.init fs).run S es = some v) :
    (v.shown ++ v.pending).Perm v.spoken.lines ∧ v.spoken.Reached S fs := by
  refine watch_induction (P := fun v => (v.shown ++ v.pending).Perm v.spoken.lines ∧ v.spoken.Reached S fs) ?_ es
    ⟨.refl _, [], rfl⟩ h
  rintro v e v' ⟨ih, acts, hr⟩ hs
  rcases watch_step_cases hs with ⟨a, k, rfl, _, hk, rfl⟩ | ⟨i, l, rfl, _, _, hi, rfl⟩ | ⟨rfl, _, _, rfl⟩
  · refine ⟨?_, acts ++ [a], ?_⟩
    · unfold Spoken.step at hk
      cases hw : v.spoken.world.step S a with
      | none => rw [hw] at hk; cases hk
      | some w =>
        rw [hw] at hk
        cases hk
        simp only
        rw [← List.append_assoc]
        exact ih.append_right _
    · have app : ∀ (as : List Action) (x : Spoken), x.run S (as ++ [a]) = (x.run S as).bind fun y => y.run S [a] := by
        intro as
        induction as with
        | nil => intro x; rfl
        | cons b bs ihb =>
          intro x
          show (x.step S b).bind (fun y => y.run S (bs ++ [a])) = ((x.step S b).bind fun y => y.run S bs).bind _
          cases x.step S b with
          | none => rfl
          | some y => exact ihb y
      rw [app, hr]
      show (v.spoken.step S a).bind _ = _
      rw [hk]; rfl
  · refine ⟨List.Perm.trans ?_ ih, acts, hr⟩
    simp only
    rw [List.append_assoc]
    exact List.Perm.append_left _ (eraseIdx_perm hi).symm
  · exact ⟨ih, acts, hr⟩

theorem errorLines_perm {a b : List Said} (h : a.Perm b) : (errorLines a).Perm (errorLines b) :=
  (h.filter _).map _

/-- **C140, datagrams that were dropped.** While the process runs, with the shipped tables: the lines in the error window
and on their way to it that name a sender name, each once but in any order, the senders of the datagrams that carried no
frame. -/
theorem C140_dropped_partial (S : Setup) (hT : S.T = shipped) (fs : FS) (es : List WatchEvent) (v : Watch)
    (h : (Watch.init fs).run S es = some v) (running : v.spoken.world.main ≠ .ended) :
    ∃ senders, DropAll S v.spoken.world.read senders ∧
      ((errorLines (v.shown ++ v.pending)).filterMap Told.about).Perm senders := by
  obtain ⟨h1, h2⟩ := C140_once S fs es v h
  exact ⟨_, C133_account S hT fs v.spoken h2 running, (errorLines_perm h1).filterMap _⟩

/-- **C140, packets.** While the process runs: the lines "Rx" in the packet window and on their way to it show, each once
but in any order, the packets handled. Any tables. -/
theorem C140_packets_partial (S : Setup) (fs : FS) (es : List WatchEvent) (v : Watch)
    (h : (Watch.init fs).run S es = some v) (running : v.spoken.world.main ≠ .ended) :
    ((v.shown ++ v.pending).filterMap Said.shown).Perm (v.spoken.world.handled.map Handled.frame) := by
  obtain ⟨h1, h2⟩ := C140_once S fs es v h
  rw [← C133_packets S fs v.spoken h2 running]
  exact h1.filterMap _

/-- **C140, the windows can catch up.** While the process runs and the windows are there, everything on its way can be
shown, in the order printed, without the program doing anything else. -/
theorem C140_catches_up (S : Setup) (v : Watch) (running : v.spoken.world.main ≠ .ended) (there : v.left = false) :
    v.run S (v.pending.map fun _ => .show 0) = some { v with pending := [], shown := v.shown ++ v.pending } := by
  obtain ⟨k, p, s, l⟩ := v
  induction p generalizing s with
  | nil => show some _ = some _; rw [List.append_nil]
  | cons x xs ih =>
    have hs : Watch.step S ⟨k, x :: xs, s, l⟩ (.show 0) = some ⟨k, xs, s ++ [x], l⟩ := by
      simp only [Watch.step]
      rw [if_neg (fun e => e.elim running (fun e => nomatch e.symm.trans there))]
      rfl
    show (Watch.step S ⟨k, x :: xs, s, l⟩ (.show 0)).bind _ = _
    rw [hs]
    show Watch.run S ⟨k, xs, s ++ [x], l⟩ _ = _
    rw [ih _ running there]
    simp

example := C140_catches_up shippedSetup { Watch.init tranFS with pending := [⟨.err, .tooShort someone⟩] } (by decide) rfl

/-- **C140** fails after Ctrl-C, and once the process has ended: in every continuation the windows stay as they are,
whatever is on its way. -/
theorem C140_after_quit (S : Setup) (v : Watch) (over : v.left = true ∨ v.spoken.world.main = .ended)
    (es : List WatchEvent) (v' : Watch) (h : v.run S es = some v') : v'.shown = v.shown := by
  refine (watch_induction (P := fun x => (x.left = true ∨ x.spoken.world.main = .ended) ∧ x.shown = v.shown) ?_ es
    ⟨over, rfl⟩ h).2
  rintro x e y ⟨ho, hx⟩ hs
  rcases watch_step_cases hs with ⟨a, k, rfl, _, hk, rfl⟩ | ⟨i, l, rfl, h1, h2, hi, rfl⟩ | ⟨rfl, _, _, rfl⟩
  · refine ⟨?_, hx⟩
    rcases ho with ho | ho
    · exact .inl ho
    · unfold Spoken.step at hk
      cases hw : x.spoken.world.step S a with
      | none => rw [hw] at hk; cases hk
      | some w => exact absurd ho (running_before hw)
  · rcases ho with ho | ho
    · rw [h2] at ho; cases ho
    · exact absurd ho h1
  · exact ⟨.inl rfl, hx⟩

example := C140_after_quit shippedSetup { Watch.init tranFS with pending := [⟨.err, .tooShort someone⟩], left := true } (.inl rfl)
  [.act (.recv ⟨.v6, ⟨0, 0⟩, [1], someone⟩)]

/-- A second host. -/
def someoneElse : UDPAddr := ⟨[10, 0, 0, 2], 7542, ""⟩

/-- **C140** fails while the windows are there: two datagrams come in and are dropped; the error window, with nothing on
its way, names the second sender first. -/
theorem C140_counterexample : ∃ es v, (Watch.init tranFS).run shippedSetup es = some v ∧
    v.spoken.world.main = .select ∧ v.left = false ∧ v.pending = [] ∧
    v.spoken.world.read.map Datagram.source = [someone, someoneElse] ∧
    errorLines v.spoken.lines = [.tooShort someone, .tooShort someoneElse] ∧
    errorLines v.shown = [.tooShort someoneElse, .tooShort someone] := by
  refine ⟨[.act (.recv ⟨.v4, ⟨0, 0⟩, [1, 2], someone⟩), .act (.recv ⟨.v4, ⟨0, 0⟩, [1, 2], someoneElse⟩), .show 1, .show 0],
    _, rfl, ?_⟩
  decide +kernel

/-- One line of each kind, and one that Ctrl-C leaves behind. -/
example : ∃ v, (Watch.init tranFS).run shippedSetup
    [.act (.recv ⟨.v4, ⟨0, 0⟩, [0x20, 0, 0, 0, 104, 105, 33, 33], someone⟩), .act (.takeRx .v4 ⟨5, 0⟩), .show 1, .show 0,
     .act (.recv ⟨.v6, ⟨0, 0⟩, [1], someoneElse⟩), .leave, .act .userQuit] = some v ∧
    v.shown.map Said.board = [.msg, .packet] ∧ v.pending = [⟨.err, .tooShort someoneElse⟩] ∧
    v.spoken.world.main = .ended :=
  ⟨_, rfl, by decide +kernel, by decide +kernel, by decide +kernel⟩

end Saratoga
