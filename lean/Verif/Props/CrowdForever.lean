import Verif.Spec.CrowdForever
import Verif.Props.Crowd
import Verif.Props.BusyForever
import Verif.Props.Discovery
import Verif.Props.BeaconSize
/-! # C175: in networks that run for ever, beacons entered leave, arrive and are listed -/
namespace Saratoga

variable {N : Type} [DecidableEq N]

theorem CrowdForever.leads {P : Plant N} {fs : N → FS} {c : N → Cliflags} {at_ : Nat → Crowd N} {does : Nat → CrowdEvent N}
    (run : CrowdForever P fs c at_ does) (i : Nat) : CrowdLeads P fs c ((List.range i).map does) (at_ i) := by
  induction i with
  | zero => rw [run.start]; rfl
  | succ i ih =>
    rw [List.range_succ, List.map_append]
    exact crowdLeads_snoc ih (run.goes i)

/-- What one machine sees of a step, and how it is called there. -/
theorem crowd_sees {P : Plant N} {w w' : Crowd N} {e : CrowdEvent N} (h : w.step P e = some w') (n : N) :
    (w'.node n = w.node n ∧ e ≠ .act n ∧ (∀ k o s, e ≠ .begin n k o s) ∧ w'.conns n = w.conns n) ∨
    ∃ e', (w.node n).step (P.machine n) e' = some (w'.node n) ∧ (e' = .act ↔ e = .act n) ∧
      (∀ k o, e' = .begin k o → ∃ s, e = .begin n k o s) ∧ (∀ k o s, e = .begin n k o s → e' = .begin k o) ∧
      (∀ a fam, e' = .net a → a.Takes fam → e = .inside n a) ∧
      ((∀ k o q, e' = .begin k o → (w.node n).queue[k]? = some q → q.cmd ≠ "beacon") → w'.conns n = w.conns n) ∧
      ∀ line, e' = .typed line → e = .typed n line := by
  rcases crowd_step_cases h with ⟨m, line, b, rfl, h1, rfl⟩ | ⟨m, i, o, source, b, rfl, h1, rfl⟩ | ⟨m, b, rfl, h1, rfl⟩ |
    ⟨m, k, fam, clock, d, b, rfl, hd, hh, h1, rfl⟩ | ⟨m, a, b, rfl, ha, h1, rfl⟩
  · by_cases e : n = m
    · subst e
      exact .inr ⟨.typed line, by rw [crowd_set_self]; exact h1, by simp, by simp, by simp, by simp, fun _ => rfl, fun l e => by cases e; rfl⟩
    · exact .inl ⟨crowd_set_other w b e, by simp, by simp, rfl⟩
  · by_cases e : n = m
    · subst e
      refine .inr ⟨.begin i o, by rw [show (_ : Crowd N).node n = b from crowd_set_self w n b]; exact h1, by simp,
        fun k o' e => by cases e; exact ⟨source, rfl⟩, fun k o' s e => by cases e; rfl, by simp, fun no => ?_, by simp⟩
      show w.connect P n i o source n = w.conns n
      unfold Crowd.connect
      cases hq : (w.node n).queue[i]? with
      | none => rfl
      | some q => simp only [if_neg (no i o q rfl hq)]
    · refine .inl ⟨crowd_set_other w b e, by simp, fun k o' s he => e ?_, ?_⟩
      · cases he; rfl
      · show w.connect P m i o source n = w.conns n
        unfold Crowd.connect
        cases hq : (w.node m).queue[i]? with
        | none => rfl
        | some q =>
          by_cases hb : q.cmd = "beacon"
          · simp only [if_pos hb, if_neg e]
          · simp only [if_neg hb]
  · by_cases e : n = m
    · subst e
      exact .inr ⟨.act, by rw [show (_ : Crowd N).node n = b from crowd_set_self w n b]; exact h1, by simp, by simp, by simp,
        by simp, fun _ => rfl, by simp⟩
    · refine .inl ⟨crowd_set_other w b e, fun he => e ?_, by simp, rfl⟩
      cases he; rfl
  · by_cases e : n = m
    · subst e
      exact .inr ⟨_, by rw [crowd_set_self]; exact h1, by simp, by simp, by simp,
        fun a fam' e t => (by cases e; rcases t with ⟨_, t⟩ | t | t <;> cases t), fun _ => rfl, by simp⟩
    · exact .inl ⟨crowd_set_other w b e, by simp, by simp, rfl⟩
  · by_cases e : n = m
    · subst e
      exact .inr ⟨_, by rw [crowd_set_self]; exact h1, by simp, by simp, by simp,
        fun a' fam' e t => (by cases e; rfl), fun _ => rfl, by simp⟩
    · exact .inl ⟨crowd_set_other w b e, by simp, by simp, rfl⟩

/-! ## Turns -/

theorem crowd_queue_place {P : Plant N} {w w' : Crowd N} {e : CrowdEvent N} (h : w.step P e = some w') {n : N} {p p' : Nat}
    {q : Queued} (hq : (w.node n).queue[p]? = some q) (hp : e.place n p = some p') : (w'.node n).queue[p']? = some q := by
  rcases crowd_sees h n with ⟨e1, _, nb, _⟩ | ⟨e', s1, _, b1, b2, _⟩
  · have : e.place n p = some p := by
      cases e with
      | begin m k o s =>
        unfold CrowdEvent.place
        by_cases hm : m = n
        · subst hm; exact absurd rfl (nb k o s)
        · simp only [if_neg hm]
      | _ => rfl
    rw [this] at hp
    cases hp
    rw [e1]; exact hq
  · refine queue_place s1 hq ?_
    cases e' with
    | begin k o =>
      obtain ⟨s, rfl⟩ := b1 k o rfl
      simpa [CrowdEvent.place, BusyEvent.place] using hp
    | _ =>
      have : e.place n p = some p := by
        cases e with
        | begin m k o s =>
          unfold CrowdEvent.place
          by_cases hm : m = n
          · subst hm; cases b2 k o s rfl
          · simp only [if_neg hm]
        | _ => rfl
      rw [this] at hp
      exact hp

theorem crowd_queue_waits {P : Plant N} {fs : N → FS} {c : N → Cliflags} {at_ : Nat → Crowd N} {does : Nat → CrowdEvent N}
    (run : CrowdForever P fs c at_ does) {n : N} {i p : Nat} {q : Queued} (hq : ((at_ i).node n).queue[p]? = some q) (t : Nat)
    {k : Nat} (hk : crowdWaits does n i p t = some k) : ((at_ (i + t)).node n).queue[k]? = some q := by
  induction t generalizing k with
  | zero => cases hk; exact hq
  | succ t ih =>
    obtain ⟨k', h1, h2⟩ := Option.bind_eq_some_iff.1 hk
    exact crowd_queue_place (run.goes (i + t)) (ih h1) h2

/-- While somebody holds the lock of a machine, what the machine has still to send and its connections stay, up to the next
act. -/
theorem crowd_holder_step {P : Plant N} {w w' : Crowd N} {e : CrowdEvent N} (h : w.step P e = some w') {n : N}
    {acts : List BeaconAct} (hh : (w.node n).holder = some acts) :
    (e ≠ .act n → (w'.node n).holder = some acts) ∧
    (e = .act n → (acts = [] → (w'.node n).holder = none) ∧ ∀ a rest, acts = a :: rest → (w'.node n).holder = some rest) ∧
    w'.conns n = w.conns n ∧ (w'.node n).prog.settings = (w.node n).prog.settings := by
  rcases crowd_sees h n with ⟨e1, na, _, cn⟩ | ⟨e', s1, ea, _, _, _, cn, _⟩
  · rw [e1]; exact ⟨fun _ => hh, fun h => absurd h na, cn, rfl⟩
  · have hs := holder_step hh s1
    refine ⟨fun he => (hs.1 fun h => he (ea.1 h)).1, fun he => ?_, cn ?_, ?_⟩
    · have := hs.2 (ea.2 he)
      exact ⟨fun h => (this.1 h).1, fun a rest h => (this.2 a rest h).1⟩
    · rintro k o q rfl hq hb
      unfold Busy.step at s1
      split at s1
      · cases s1
      simp only [hq] at s1
      rw [if_pos ⟨by rw [hb]; rfl, by rw [hh]; simp⟩] at s1
      cases s1
    · by_cases h0 : e' = .act ∧ acts = []
      · obtain ⟨rfl, rfl⟩ := h0
        unfold Busy.step at s1
        split at s1
        · cases s1
        simp only [hh, Option.some.injEq] at s1
        rw [← s1]
      · exact (held_step hh s1 fun h1 h2 => h0 ⟨h1, h2⟩).1

/-- Who holds the lock does the next act in the end. -/
theorem crowd_holder_acts {P : Plant N} {fs : N → FS} {c : N → Cliflags} {at_ : Nat → Crowd N} {does : Nat → CrowdEvent N}
    (run : CrowdForever P fs c at_ does) {n : N} (fair : HolderFairAt at_ does n) {i : Nat} {acts : List BeaconAct}
    (hh : ((at_ i).node n).holder = some acts) :
    ∃ j, i ≤ j ∧ does j = .act n ∧ ((at_ j).node n).holder = some acts ∧ (at_ j).conns n = (at_ i).conns n ∧
      ((at_ j).node n).prog.settings = ((at_ i).node n).prog.settings := by
  apply Classical.byContradiction
  intro none
  have stays : ∀ t, ((at_ (i + t)).node n).holder = some acts ∧ (at_ (i + t)).conns n = (at_ i).conns n ∧
      ((at_ (i + t)).node n).prog.settings = ((at_ i).node n).prog.settings := by
    intro t
    induction t with
    | zero => exact ⟨hh, rfl, rfl⟩
    | succ t ih =>
      obtain ⟨a, _, b, c⟩ := crowd_holder_step (run.goes (i + t)) ih.1
      exact ⟨a fun he => none ⟨i + t, by omega, he, ih.1, ih.2.1, ih.2.2⟩, b.trans ih.2.1, c.trans ih.2.2⟩
  obtain ⟨j, hj, he⟩ := fair i fun j hj => by
    have := (stays (j - i)).1
    rw [show i + (j - i) = j by omega] at this
    rw [this]; simp
  have := stays (j - i)
  rw [show i + (j - i) = j by omega] at this
  exact none ⟨j, hj, he, this.1, this.2.1, this.2.2⟩

theorem crowd_act {P : Plant N} {w w' : Crowd N} {n : N} (h : w.step P (.act n) = some w') : w'.air = w.air ++ w.departs n := by
  rcases crowd_step_cases h with ⟨m, line, b, e, h1, rfl⟩ | ⟨m, i, o, source, b, e, h1, rfl⟩ | ⟨m, b, e, h1, rfl⟩ |
    ⟨m, k, fam, clock, d, b, e, hd, hh, h1, rfl⟩ | ⟨m, a, b, e, ha, h1, rfl⟩ <;> cases e
  rfl

/-- **C175, the lock.** At every machine the beacon command that has the lock sends all it has to send, one after another,
and gives the lock back, whatever happens at other machines. -/
theorem C175_lock (P : Plant N) (fs : N → FS) (c : N → Cliflags) (at_ : Nat → Crowd N) (does : Nat → CrowdEvent N)
    (run : CrowdForever P fs c at_ does) (n : N) (fair : HolderFairAt at_ does n) (i : Nat) (acts : List BeaconAct)
    (held : ((at_ i).node n).holder = some acts) :
    (∃ j, i < j ∧ ((at_ j).node n).holder = none) ∧
      ∀ d ∈ (at_ i).due n, ∃ j, i ≤ j ∧ does j = .act n ∧ (at_ (j + 1)).air = (at_ j).air ++ [d] := by
  induction acts generalizing i with
  | nil =>
    obtain ⟨j, hj, he, h1, _, _⟩ := crowd_holder_acts run fair held
    refine ⟨⟨j + 1, by omega, ((crowd_holder_step (run.goes j) h1).2.1 he).1 rfl⟩, fun d hd => ?_⟩
    unfold Crowd.due at hd
    rw [held] at hd
    split at hd <;> cases hd
  | cons a rest ih =>
    obtain ⟨j, hj, he, h1, h2, h3⟩ := crowd_holder_acts run fair held
    obtain ⟨_, st, g2, g3⟩ := crowd_holder_step (run.goes j) h1
    have hr := (st he).2 a rest rfl
    obtain ⟨⟨l, hl, h4⟩, ih2⟩ := ih (j + 1) hr
    refine ⟨⟨l, by omega, h4⟩, fun d hd => ?_⟩
    have air := crowd_act (he ▸ run.goes j)
    have split_ : d ∈ (at_ j).departs n ∨ d ∈ (at_ (j + 1)).due n := by
      have hd : d ∈ dueOf n ((at_ i).conns n) ((at_ i).node n) := hd
      have e1 : dueOf n ((at_ i).conns n) ((at_ i).node n) = dueOf n ((at_ j).conns n) ((at_ j).node n) := by
        unfold dueOf; rw [h2, held, h1, h3]
      rcases crowd_sees (run.goes j) n with ⟨_, na, _⟩ | ⟨e', s1, ea, _⟩
      · exact absurd he na
      · rw [ea.2 he] at s1
        rw [e1, due_act (at_ j) n s1] at hd
        rcases List.mem_append.1 hd with hd | hd
        · exact .inl hd
        · refine .inr ?_
          rw [due_eq, g2]; exact hd
    rcases split_ with hd | hd
    · refine ⟨j, hj, he, ?_⟩
      rw [air]
      congr 1
      unfold Crowd.departs at hd ⊢
      split at hd
      · rw [List.mem_singleton.1 hd]
      · cases hd
    · obtain ⟨l, hl, r⟩ := ih2 d hd
      exact ⟨l, by omega, r⟩

/-- **C175, a turn.** At every program that goes on, every goroutine that waits begins in the end, whatever happens at other
machines. -/
theorem C175_turn (P : Plant N) (fs : N → FS) (c : N → Cliflags) (at_ : Nat → Crowd N) (does : Nat → CrowdEvent N)
    (run : CrowdForever P fs c at_ does) (n : N) (running : ∀ i, ¬ ((at_ i).node n).prog.Ended)
    (holders : HolderFairAt at_ does n) (locks : LockFairAt at_ does n) (i p : Nat) (q : Queued)
    (waits : ((at_ i).node n).queue[p]? = some q) :
    ∃ j k o source, i ≤ j ∧ does j = .begin n k o source ∧ ((at_ j).node n).queue[k]? = some q ∧
      ((at_ j).node n).prog.command (P.machine n) o q.cmd q.args = .ret ((at_ (j + 1)).node n).prog := by
  obtain ⟨t, ht⟩ := locks i p q waits fun j _ => by
    cases hh : ((at_ j).node n).holder with
    | none => exact ⟨j, Nat.le_refl _, fun _ => hh⟩
    | some acts =>
      obtain ⟨⟨k, hk, h1⟩, _⟩ := C175_lock P fs c at_ does run n holders j acts hh
      exact ⟨k, by omega, fun _ => h1⟩
  have : ∃ m k, crowdWaits does n i p m = some k ∧ (does (i + m)).place n k = none := by
    induction t with
    | zero => cases ht
    | succ t ih =>
      cases h : crowdWaits does n i p t with
      | none => exact ih h
      | some k =>
        rw [crowdWaits, h] at ht
        exact ⟨t, k, h, ht⟩
  obtain ⟨m, k, h1, h2⟩ := this
  have hq := crowd_queue_waits run waits m h1
  have : ∃ o s, does (i + m) = .begin n k o s := by
    cases hd : does (i + m) with
    | begin n' k' o s =>
      rw [hd] at h2
      simp only [CrowdEvent.place] at h2
      split at h2
      · rename_i hn
        split at h2
        · cases h2
        split at h2
        · rename_i e; exact ⟨o, s, by rw [e, hn]⟩
        · cases h2
      · cases h2
    | _ => rw [hd] at h2; cases h2
  obtain ⟨o, s, ho⟩ := this
  refine ⟨i + m, k, o, s, by omega, ho, hq, ?_⟩
  rcases crowd_sees (run.goes (i + m)) n with ⟨_, _, nb, _⟩ | ⟨e', s1, _, _, b2, _⟩
  · exact absurd ho (nb k o s)
  · rw [b2 k o s ho] at s1
    have hm' := running (i + m + 1)
    generalize (at_ (i + m + 1)).node n = b' at s1 hm' ⊢
    unfold Busy.step at s1
    split at s1
    · cases s1
    simp only [hq] at s1
    split at s1
    · cases s1
    simp only [Option.some.injEq] at s1
    unfold Busy.begin at s1
    cases hc : ((at_ (i + m)).node n).prog.command (P.machine n) o q.cmd q.args with
    | ret p => rw [hc] at s1; subst s1; rfl
    | fatal => rw [hc] at s1; subst s1; exact absurd rfl hm'
    | panic => rw [hc] at s1; subst s1; exact absurd rfl hm'

/-- **C175, sent.** A beacon command entered at a program that goes on begins in the end, and then all its beacons leave. -/
theorem C175_sent (P : Plant N) (fs : N → FS) (c : N → Cliflags) (at_ : Nat → Crowd N) (does : Nat → CrowdEvent N)
    (run : CrowdForever P fs c at_ does) (n : N) (running : ∀ i, ¬ ((at_ i).node n).prog.Ended)
    (holders : HolderFairAt at_ does n) (locks : LockFairAt at_ does n) (i : Nat) (line : String)
    (typed : does i = .typed n line) (args : List String)
    (names : getLine ((P.machine n).H.map Prod.fst) cmdHandlers line = .ret (.started "beacon" args)) :
    ∃ j k o source q bs acts, i < j ∧ does j = .begin n k o source ∧ ((at_ j).node n).queue[k]? = some q ∧ q.args = args ∧
      cmdBeacon ((P.machine n).beaconEnv o) ((at_ j).node n).prog.settings ((at_ j).node n).prog.beacon args = .ret (bs, acts) ∧
      ∀ dest frame, (dest, frame) ∈ framesOf acts → ∃ l d, j < l ∧ does l = .act n ∧ (at_ (l + 1)).air = (at_ l).air ++ [d] ∧
        d.source = source dest ∧ d.dest = dest ∧ d.bytes = frame ∧ d.sender = n := by
  have hq : ((at_ (i + 1)).node n).queue[((at_ i).node n).queue.length]? = some ⟨line, "beacon", args⟩ := by
    have hs := run.goes i
    rw [typed] at hs
    obtain ⟨b, h1, h2⟩ := Option.map_eq_some_iff.1 hs
    rw [← h2, crowd_set_self]
    rw [Busy.step, if_neg (show ¬ ((at_ i).node n).prog.net.main = .ended from running i)] at h1
    simp only [Busy.enter, names, Option.some.injEq] at h1
    rw [← h1]; simp
  obtain ⟨j, k, o, source, hj, hd, hk, h⟩ := C175_turn P fs c at_ does run n running holders locks (i + 1) _ _ hq
  rw [command_of_beacon] at h
  obtain ⟨⟨bs, acts⟩, h4, h5⟩ := Out.bind_eq_ret h
  have key : ((at_ (j + 1)).node n).holder = some acts ∧
      (at_ (j + 1)).conns n = some (source, (P.machine n).beaconEnv o) := by
    have hs := run.goes j
    rw [hd] at hs
    obtain ⟨b, h1, h2⟩ := Option.map_eq_some_iff.1 hs
    rw [← h2]
    refine ⟨?_, ?_⟩
    · show ((Crowd.set _ n b).node n).holder = _
      rw [crowd_set_self]
      unfold Busy.step at h1
      split at h1
      · cases h1
      simp only [hk] at h1
      split at h1
      · cases h1
      simp only [Option.some.injEq] at h1
      unfold Busy.begin at h1
      rw [command_of_beacon, h4] at h1
      rw [← h1]
      simp only [Out.ret_bind, if_true, beaconPlan, h4]
    · show Crowd.connect P _ n k o source n = _
      unfold Crowd.connect
      rw [hk]
      simp
  refine ⟨j, k, o, source, _, bs, acts, by omega, hd, hk, rfl, h4, fun dest frame hf => ?_⟩
  obtain ⟨l, hl, he, air⟩ := (C175_lock P fs c at_ does run n holders (j + 1) acts key.1).2
    ⟨source dest, dest, frame, n, ((at_ (j + 1)).node n).prog.settings, (P.machine n).beaconEnv o⟩ (by
      unfold Crowd.due
      rw [key.2, key.1]
      exact List.mem_map.2 ⟨(dest, frame), hf, rfl⟩)
  exact ⟨l, _, by omega, he, air, rfl, rfl, rfl, rfl⟩

/-! ## Arrivals -/

theorem crowd_honest {P : Plant N} {fs : N → FS} {c : N → Cliflags} {es : List (CrowdEvent N)} {w : Crowd N}
    (h : CrowdLeads P fs c es w) (n : N) : (w.node n).Honest (P.machine n) := by
  obtain ⟨_, _, a⟩ := accounted h
  exact a.honest n

/-- What a step is for the network side of one program that goes on. -/
theorem crowd_moves {P : Plant N} {w w' : Crowd N} {e : CrowdEvent N} (h : w.step P e = some w') (n : N)
    (honest : (w.node n).Honest (P.machine n)) (running : ¬ (w'.node n).prog.Ended) :
    (w'.node n).prog.net = (w.node n).prog.net ∨
    ∃ a, (w.node n).prog.net.step (P.machine n).S a = some (w'.node n).prog.net ∧ ∀ fam, a.Takes fam → e = .inside n a := by
  rcases crowd_sees h n with ⟨e1, _⟩ | ⟨e', s1, _, _, _, tk, _⟩
  · rw [e1]; exact .inl rfl
  generalize w'.node n = b' at s1 running ⊢
  unfold Busy.step at s1
  split at s1
  · cases s1
  rename_i hm
  cases e' with
  | net a =>
    obtain ⟨p, h1, rfl⟩ := Option.map_eq_some_iff.1 s1
    rcases program_step_cases h1 with ⟨a', v, e, _, h2, rfl⟩ | ⟨_, _, e, _⟩
    · cases e
      exact .inr ⟨a, h2, fun fam t => tk a fam rfl t⟩
    · cases e
  | typed line =>
    simp only [Option.some.injEq] at s1
    subst s1
    unfold Busy.enter at running ⊢
    split at running
    · exact .inl rfl
    · exact .inl rfl
    · exact absurd rfl running
    · exact absurd rfl running
  | act =>
    simp only at s1
    split at s1
    · cases s1
    · cases s1; exact .inl rfl
    · cases s1; exact .inl rfl
  | begin k o =>
    simp only at s1
    split at s1
    · cases s1
    rename_i q hq
    split at s1
    · cases s1
    simp only [Option.some.injEq] at s1
    subst s1
    unfold Busy.begin at running ⊢
    cases hc : (w.node n).prog.command (P.machine n) o q.cmd q.args with
    | fatal => rw [hc] at running; exact absurd rfl running
    | panic => rw [hc] at running; exact absurd rfl running
    | ret p =>
      obtain ⟨args, ha⟩ := started_words (honest q (List.mem_of_getElem? hq))
      rw [ha] at hc
      have := (command_done hc).net
      refine .inr ⟨.files p.net.fs, ?_, fun fam t => ?_⟩
      · simp only [World.step, if_pos hm]
        rw [← this]
      · rcases t with ⟨_, t⟩ | t | t <;> cases t

/-- What is held out at a program that goes on is taken in the end. -/
theorem crowd_offer_taken {P : Plant N} {fs : N → FS} {c : N → Cliflags} {at_ : Nat → Crowd N} {does : Nat → CrowdEvent N}
    (run : CrowdForever P fs c at_ does) {n : N} (running : ∀ i, ¬ ((at_ i).node n).prog.Ended)
    (fair : SelectFairAt at_ does n) (selects : ∀ i, ((at_ i).node n).prog.net.main = .select) {fam : Fam} {i : Nat}
    (offers : ((at_ i).node n).prog.net.Offers fam) :
    ∃ j a, i ≤ j ∧ does j = .inside n a ∧ a.Takes fam ∧
      ((at_ j).node n).prog.net.listener fam = ((at_ i).node n).prog.net.listener fam := by
  apply Classical.byContradiction
  intro none
  have stays : ∀ m, ((at_ (i + m)).node n).prog.net.listener fam = ((at_ i).node n).prog.net.listener fam := by
    intro m
    induction m with
    | zero => rfl
    | succ m ih =>
      rw [← ih]
      rcases crowd_moves (run.goes (i + m)) n (crowd_honest (run.leads _) n) (running _) with e | ⟨a, h, only⟩
      · exact congrArg (fun v => v.listener fam) e
      · exact offer_stays h (by rw [ih]; exact offers.1)
          fun t => none ⟨i + m, a, by omega, only fam t, t, ih⟩
  have stays' : ∀ j, i ≤ j → ((at_ j).node n).prog.net.listener fam = ((at_ i).node n).prog.net.listener fam := fun j hj => by
    have := stays (j - i)
    rwa [show i + (j - i) = j by omega] at this
  obtain ⟨j, hj, a, he, t⟩ := fair fam i fun j hj =>
    ⟨selects j, by unfold World.Offers; rw [stays' j hj]; exact offers⟩
  exact none ⟨j, a, hj, he, t, stays' j hj⟩

theorem crowd_handled_grows {P : Plant N} {fs : N → FS} {c : N → Cliflags} {at_ : Nat → Crowd N} {does : Nat → CrowdEvent N}
    (run : CrowdForever P fs c at_ does) {n : N} (running : ∀ i, ¬ ((at_ i).node n).prog.Ended) {i j : Nat} (hij : i ≤ j)
    {x : Handled} (hx : x ∈ ((at_ i).node n).prog.net.handled) : x ∈ ((at_ j).node n).prog.net.handled := by
  obtain ⟨m, rfl⟩ := Nat.le.dest hij
  induction m with
  | zero => exact hx
  | succ m ih =>
    have ih := ih (by omega)
    rcases crowd_moves (run.goes (i + m)) n (crowd_honest (run.leads _) n) (running _) with e | ⟨a, h, _⟩
    · rw [show i + (m + 1) = i + m + 1 by omega, e]; exact ih
    · exact handled_stays h ih

/-- A datagram of a size that listeners look at that arrives at a program that goes on is handled in the end, as the beacon
it is. -/
theorem crowd_heard {P : Plant N} (hT : ∀ n, (P.machine n).S.T = shipped) {fs : N → FS} {c : N → Cliflags}
    {at_ : Nat → Crowd N} {does : Nat → CrowdEvent N} (run : CrowdForever P fs c at_ does) {n : N}
    (running : ∀ i, ¬ ((at_ i).node n).prog.Ended) (fair : SelectFairAt at_ does n) {i k : Nat} {fam : Fam} {clock : GoTime}
    {d : Packet N} (arrives : does i = .arrives n k fam clock) (is : (at_ i).air[k]? = some d)
    (size : Sized (P.machine n).S.mtu d.bytes) :
    ∃ j y x, i < j ∧ ((at_ (j + 1)).node n).prog.net.handled = ((at_ j).node n).prog.net.handled ++ [y] ∧
      y.frame = .beacon x ∧ y.source = d.source := by
  have selects : ∀ i, ((at_ i).node n).prog.net.main = .select := fun i =>
    (C174_only_peers hT (run.leads i) n).2.2.2.resolve_right (running i)
  have hd : d ∈ (at_ i).air := List.mem_of_getElem? is
  obtain ⟨es', w', ac⟩ := accounted (run.leads i)
  obtain ⟨-, x, b1, b2⟩ := air_built hT ac.leads (ac.air d hd)
  obtain ⟨s1, s2, s3⟩ := built_says b1 b2
  have hl : listenFrame (P.machine n).S.T clock (P.machine n).S.mtu d.bytes = .ret (.rx (.beacon x)) := by
    rw [hT]
    rcases listenFrame_eq shipped clock (P.machine n).S.mtu d.bytes with ⟨hn, _⟩ | ⟨_, h⟩
    · exact absurd size hn
    · rw [h, s2]
      simp only [Out.ret_bind, ne_eq, not_true_eq_false, if_false]
      unfold listenTyped
      rw [s3]
      simp only [Out.ret_bind, if_true, s1]
      rfl
  have netOf : ∀ {w w' : Crowd N} {a : Action} {b : Busy}, (w.node n).step (P.machine n) (.net a) = some b →
      w' = w.set n b → (w.node n).prog.net.step (P.machine n).S a = some (w'.node n).prog.net := by
    intro w w' a b hp he
    subst he
    rw [crowd_set_self]
    unfold Busy.step at hp
    split at hp
    · cases hp
    obtain ⟨p, h1, rfl⟩ := Option.map_eq_some_iff.1 hp
    rcases program_step_cases h1 with ⟨a', v, e, _, h2, rfl⟩ | ⟨_, _, e, _⟩
    · cases e; exact h2
    · cases e
  have offered : ((at_ (i + 1)).node n).prog.net.listener fam = .sendRx (.beacon x) d.source := by
    have hs := run.goes i
    generalize at_ (i + 1) = w' at hs ⊢
    rw [arrives] at hs
    rcases crowd_step_cases hs with ⟨_, _, _, e, _⟩ | ⟨_, _, _, _, _, e, _⟩ | ⟨_, _, e, _⟩ |
      ⟨m, k', fam', clock', d', b, e, hk, _, hp, hw⟩ | ⟨_, _, _, e, _⟩ <;> cases e
    rw [is] at hk
    cases hk
    have h1 := netOf hp hw
    generalize (w'.node n).prog.net = v at h1 ⊢
    rcases step_cases h1 with ⟨d', e, _, _, rfl⟩ | ⟨g, e, _⟩ | ⟨g, clock, f, addr, e, _⟩ |
      ⟨g, s, addr, e, _⟩ | ⟨g, e, _⟩ | ⟨e, _⟩ | ⟨e, _⟩ | ⟨f, e, _⟩ <;> cases e
    rcases onRecv_cases (P.machine n).S ((at_ i).node n).prog.net ⟨fam, clock, d.bytes, d.source⟩ with
      ⟨hn, _⟩ | ⟨hf, _⟩ | ⟨f, hf, e⟩ | ⟨s, hf, _⟩
    · rw [hl] at hn; exact absurd trivial hn
    · rw [hl] at hf; cases hf
    · rw [hl] at hf
      cases hf
      rw [e]
      exact setListener_self _ _ _
    · rw [hl] at hf; cases hf
  obtain ⟨j, a, hj, hd', ht, hk⟩ := crowd_offer_taken run running fair selects (fam := fam) (i := i + 1)
    (by unfold World.Offers; rw [offered]; exact ⟨by simp, by simp⟩)
  rw [offered] at hk
  have handled : ∃ y, ((at_ (j + 1)).node n).prog.net.handled = ((at_ j).node n).prog.net.handled ++ [y] ∧ y.frame = .beacon x ∧
      y.source = d.source := by
    have hs := run.goes j
    generalize at_ (j + 1) = w' at hs ⊢
    rw [hd'] at hs
    rcases crowd_step_cases hs with ⟨_, _, _, e, _⟩ | ⟨_, _, _, _, _, e, _⟩ | ⟨_, _, e, _⟩ |
      ⟨_, _, _, _, _, _, e, _⟩ | ⟨m, a', b, e, _, hp, hw⟩ <;> cases e
    have h1 := netOf hp hw
    generalize (w'.node n).prog.net = v at h1 ⊢
    rcases ht with ⟨clock', rfl⟩ | rfl | rfl
    · rw [World.step, selects j, hk] at h1
      simp only [Option.some.injEq] at h1
      have := (onRx_logs (P.machine n).S ((at_ j).node n).prog.net fam clock' (.beacon x) d.source).2.2.1
      rw [h1] at this
      exact ⟨⟨fam, .beacon x, d.source, clock'⟩, this, rfl, rfl⟩
    · rw [World.step, selects j, hk] at h1; cases h1
    · rw [World.step, selects j, hk] at h1; cases h1
  obtain ⟨y, hy, y1, y2⟩ := handled
  exact ⟨j, y, x, by omega, hy, y1, y2⟩

/-- **C175, heard is found.** When a datagram of a size that listeners look at arrives at a program that goes on, the program
comes to list its sender, and lists it from then on. -/
theorem C175_heard (P : Plant N) (hT : ∀ n, (P.machine n).S.T = shipped) (fs : N → FS) (c : N → Cliflags)
    (at_ : Nat → Crowd N) (does : Nat → CrowdEvent N) (run : CrowdForever P fs c at_ does) (n : N)
    (running : ∀ i, ¬ ((at_ i).node n).prog.Ended) (fair : SelectFairAt at_ does n) (i k : Nat) (fam : Fam) (clock : GoTime)
    (d : Packet N) (arrives : does i = .arrives n k fam clock) (is : (at_ i).air[k]? = some d)
    (size : Sized (P.machine n).S.mtu d.bytes) :
    ∃ j, i ≤ j ∧ ∀ l, j ≤ l → (P.machine n).S.ipText d.source.ip ∈ ((at_ l).node n).prog.net.peers.map Peer.addr := by
  obtain ⟨j, y, x, hj, hy, y1, y2⟩ := crowd_heard hT run running fair arrives is size
  have hy : y ∈ ((at_ (j + 1)).node n).prog.net.handled := by rw [hy]; simp
  refine ⟨j + 1, by omega, fun l hl => ?_⟩
  obtain ⟨own, h1, -, -⟩ := C174_node (run.leads l) n
  obtain ⟨ps, q1, -, -, -⟩ := C145_serial h1
  rw [(C66_entries (P.machine n).S (by rw [hT]; exact shipped_peerTables) (by rw [hT]; exact shipped_shows) _ _
    (C127_network q1)).1, firstSeen_mem]
  refine List.mem_map.2 ⟨_, sighted (crowd_handled_grows run running hl hy) y1, ?_⟩
  unfold Sighting.addr
  rw [y2]

/-- **C175, sizes.** Every beacon is of a size that listeners look at, on every interface that takes 146 bytes at once. -/
theorem C175_sized (P : Plant N) (hT : ∀ n, (P.machine n).S.T = shipped) (fs : N → FS) (c : N → Cliflags)
    (es : List (CrowdEvent N)) (w : Crowd N) (h : CrowdLeads P fs c es w) (fit : NearbyFits (· ∈ es)) (d : Packet N)
    (hd : d ∈ w.air) (mtu : Nat) (hm : 146 ≤ mtu) : Sized mtu d.bytes := by
  obtain ⟨es', w', a⟩ := accounted h
  refine C173_sized P hT fs c es' w' a.leads (fun n line o source hl => ?_) d (a.air d hd) mtu hm
  have : (line, o) ∈ linesAt n es' := by
    clear a
    induction es' with
    | nil => cases hl
    | cons e es' ih =>
      rcases List.mem_cons.1 hl with rfl | hl
      · simp [linesAt]
      · have := ih hl
        cases e with
        | typed m l o s =>
          simp only [linesAt]
          split
          · exact List.mem_cons_of_mem _ this
          · exact this
        | _ => exact this
  rcases a.answers n _ this with e | ⟨k, s, hb⟩
  · intro a l hl
    have e : o = calmReplies := e
    rw [e] at hl
    cases hl
    decide +kernel
  · exact fit n k o s hb

/-- Whoever keeps entering beacon commands keeps sending beacons. -/
theorem crowd_sends {P : Plant N} {fs : N → FS} {c : N → Cliflags} {at_ : Nat → Crowd N} {does : Nat → CrowdEvent N}
    (run : CrowdForever P fs c at_ does) {m n : N} (runs : ∀ i, ¬ ((at_ i).node m).prog.Ended)
    (holders : HolderFairAt at_ does m) (locks : LockFairAt at_ does m) {word : String} (proper : word ≠ "?" ∧ word ≠ "off")
    {to s : UDPAddr} (heard : P.hears n to = true) (enters : KeepsEntering P does m word)
    (works : BeaconsWork P at_ does m word to s) : ∀ i, ∃ j, i ≤ j ∧ LeavesFor P at_ does n s j := by
  intro i
  obtain ⟨i', line, hi, typed, names⟩ := enters i
  obtain ⟨j, k, o, source, q, bs, acts, hj, hb, hq, ha, hc, leaves⟩ := C175_sent P fs c at_ does run m runs holders locks i'
    line typed _ names
  obtain ⟨v1, v2, v3, v4, v5⟩ := works j k o source q hb hq ha
  obtain ⟨ds, da, st⟩ := v3.disk
  obtain ⟨b', acts', frame, c1, c2, -, -⟩ := C82_sends v3 v1 ((at_ j).node m).prog.beacon "beacon" word proper v4 st
  rw [hc] at c1
  cases c1
  obtain ⟨l, d, hl, hd, air, d1, d2, -, -⟩ := leaves to frame (by
    rw [framesOf_sends, c2, List.mem_replicate]; exact ⟨v2, rfl⟩)
  exact ⟨l, by omega, m, d, hd, air, by rw [d2]; exact heard, by rw [d1, v5]⟩

/-- **C175** If at a machine `beacon word` is entered again and again, with a word that means an address heard at another
machine, then that machine lists the sender in the end and for good: provided that both programs go on, that scheduler,
lock and `select` are fair, that the system does its part and that the network does not lose all the beacons; whatever else
is lost, delayed, doubled or reordered, and whatever other commands run at the same time there and elsewhere. -/
theorem C175_found (P : Plant N) (hT : ∀ n, (P.machine n).S.T = shipped) (fs : N → FS) (c : N → Cliflags)
    (at_ : Nat → Crowd N) (does : Nat → CrowdEvent N) (run : CrowdForever P fs c at_ does)
    (fit : NearbyFits fun e => ∃ i, does i = e) (m n : N) (hm : 146 ≤ (P.machine n).S.mtu)
    (runs : ∀ i, ¬ ((at_ i).node m).prog.Ended) (running : ∀ i, ¬ ((at_ i).node n).prog.Ended)
    (holders : HolderFairAt at_ does m) (locks : LockFairAt at_ does m) (select : SelectFairAt at_ does n)
    (word : String) (proper : word ≠ "?" ∧ word ≠ "off") (to s : UDPAddr) (heard : P.hears n to = true)
    (enters : KeepsEntering P does m word) (works : BeaconsWork P at_ does m word to s)
    (network : LosesSomeAt P at_ does n s) :
    ∃ j, ∀ l, j ≤ l → (P.machine n).S.ipText s.ip ∈ ((at_ l).node n).prog.net.peers.map Peer.addr := by
  have sends := crowd_sends run runs holders locks proper heard enters works
  obtain ⟨i, _, k, fam, clock, d, h1, h2, h3⟩ := network sends 0
  obtain ⟨j, _, h⟩ := C175_heard P hT fs c at_ does run n running select i k fam clock d h1 h2
    (C175_sized P hT fs c _ _ (run.leads i) (fun n k o source h => fit n k o source (by
      obtain ⟨t, _, e⟩ := List.mem_map.1 h
      exact ⟨t, e⟩)) d (List.mem_of_getElem? h2) _ hm)
  exact ⟨j, by rw [← h3]; exact h⟩

/-! ## Such executions exist -/

/-- At one of these steps this holds. -/
def Along (P : Plant N) (Q : Crowd N → CrowdEvent N → Prop) : Crowd N → List (CrowdEvent N) → Prop
  | _, [] => False
  | w, e :: es => Q w e ∨ ∃ w1, w.step P e = some w1 ∧ Along P Q w1 es

/-- At all of these steps this holds. -/
def AllAlong (P : Plant N) (B : Crowd N → CrowdEvent N → Prop) : Crowd N → List (CrowdEvent N) → Prop
  | _, [] => True
  | w, e :: es => B w e ∧ ∀ w1, w.step P e = some w1 → AllAlong P B w1 es

/-- Rounds without end. -/
theorem crowd_rounds {P : Plant N} {fs : N → FS} {c : N → Cliflags} {R : Crowd N → Prop} {A : CrowdEvent N → Prop}
    {B : Crowd N → CrowdEvent N → Prop} {K : Type} {Q : K → Crowd N → CrowdEvent N → Prop} (zero : R (Crowd.init fs c))
    (round : ∀ w, R w → ∃ e es w', w.run P (e :: es) = some w' ∧ R w' ∧ (∀ x ∈ e :: es, A x) ∧
      AllAlong P B w (e :: es) ∧ ∀ k, Along P (Q k) w (e :: es)) :
    ∃ at_ does, CrowdForever P fs c at_ does ∧ (∀ i, A (does i)) ∧ (∀ i, B (at_ i) (does i)) ∧ ∀ k i, ∃ j, i ≤ j ∧ Q k (at_ j) (does j) := by
  let Good : Crowd N × List (CrowdEvent N) → Prop := fun x =>
    (∃ w', x.1.run P x.2 = some w' ∧ R w') ∧ (∀ e ∈ x.2, A e) ∧ AllAlong P B x.1 x.2
  have plan : ∀ x : { x // Good x }, ∃ y : CrowdEvent N × { x // Good x }, x.1.1.step P y.1 = some y.2.1.1 ∧ (A y.1 ∧ B x.1.1 y.1) ∧
      (x.1.2 = y.1 :: y.2.1.2 ∨ (x.1.2 = [] ∧ ∀ k, Along P (Q k) x.1.1 (y.1 :: y.2.1.2))) := by
    rintro ⟨⟨w, es⟩, ⟨w', hr, hR⟩, hA, hB⟩
    have go : ∀ e es w', w.run P (e :: es) = some w' → R w' → (∀ x ∈ e :: es, A x) → AllAlong P B w (e :: es) →
        ∃ w1, w.step P e = some w1 ∧ Good (w1, es) := by
      intro e es w' h1 h2 h3 h6
      unfold Crowd.run at h1
      obtain ⟨w1, h4, h5⟩ := Option.bind_eq_some_iff.1 h1
      exact ⟨w1, h4, ⟨w', h5, h2⟩, fun x hx => h3 x (List.mem_cons_of_mem _ hx), h6.2 w1 h4⟩
    cases es with
    | cons e es =>
      obtain ⟨w1, h1, h2⟩ := go e es w' hr hR hA hB
      exact ⟨(e, ⟨_, h2⟩), h1, ⟨hA e List.mem_cons_self, hB.1⟩, .inl rfl⟩
    | nil =>
      cases hr
      obtain ⟨e, es, w', h1, h2, h3, h5, h4⟩ := round w hR
      obtain ⟨w1, g1, g2⟩ := go e es w' h1 h2 h3 h5
      exact ⟨(e, ⟨_, g2⟩), g1, ⟨h3 e List.mem_cons_self, h5.1⟩, .inr ⟨rfl, h4⟩⟩
  let pick := fun x => Classical.choose (plan x)
  have hp := fun x => Classical.choose_spec (plan x)
  let seq : Nat → { x // Good x } := fun i =>
    Nat.rec ⟨(Crowd.init fs c, []), ⟨_, rfl, zero⟩, (fun e he => by cases he), trivial⟩ (fun _ x => (pick x).2) i
  have empties : ∀ len i, (seq i).1.2.length = len → ∃ j, i ≤ j ∧ (seq j).1.2 = [] := by
    intro len
    induction len with
    | zero => exact fun i h => ⟨i, Nat.le_refl _, List.eq_nil_of_length_eq_zero h⟩
    | succ len ih =>
      intro i h
      rcases (hp (seq i)).2.2 with e | ⟨e, _⟩
      · obtain ⟨j, hj, r⟩ := ih (i + 1) (by
          have := congrArg List.length e
          rw [h] at this
          exact (Nat.succ.inj this).symm)
        exact ⟨j, by omega, r⟩
      · rw [e] at h; cases h
  have comes : ∀ k len i, (seq (i + 1)).1.2.length = len →
      Along P (Q k) (seq i).1.1 ((pick (seq i)).1 :: (seq (i + 1)).1.2) →
      ∃ j, i ≤ j ∧ Q k (seq j).1.1 (pick (seq j)).1 := by
    intro k len
    induction len with
    | zero =>
      intro i h al
      rcases al with al | ⟨w1, _, al⟩
      · exact ⟨i, Nat.le_refl _, al⟩
      · rw [List.eq_nil_of_length_eq_zero h] at al; exact absurd al id
    | succ len ih =>
      intro i h al
      rcases al with al | ⟨w1, h1, al⟩
      · exact ⟨i, Nat.le_refl _, al⟩
      · have e1 : w1 = (seq (i + 1)).1.1 := Option.some.inj (h1.symm.trans (hp (seq i)).1)
        rcases (hp (seq (i + 1))).2.2 with e | ⟨e, _⟩
        · have e2 : (seq (i + 1)).1.2 = (pick (seq (i + 1))).1 :: (seq (i + 1 + 1)).1.2 := e
          obtain ⟨j, hj, r⟩ := ih (i + 1) (by
            have := congrArg List.length e2
            rw [h] at this
            exact (Nat.succ.inj this).symm) (by rw [← e2, ← e1]; exact al)
          exact ⟨j, by omega, r⟩
        · rw [e] at h; cases h
  refine ⟨fun i => (seq i).1.1, fun i => (pick (seq i)).1, ⟨rfl, fun i => (hp (seq i)).1⟩, fun i => (hp (seq i)).2.1.1,
    fun i => (hp (seq i)).2.1.2, fun k i => ?_⟩
  obtain ⟨j, hj, e⟩ := empties _ i rfl
  rcases (hp (seq j)).2.2 with e' | ⟨_, al⟩
  · exact absurd (e.symm.trans e') (by simp)
  · obtain ⟨l, hl, r⟩ := comes k _ j rfl (al k)
    exact ⟨l, by omega, r⟩

theorem crowd_run_one {P : Plant N} {w w' : Crowd N} {e : CrowdEvent N} (h : w.step P e = some w') : w.run P [e] = some w' := by
  show (w.step P e).bind _ = _
  rw [h]; rfl

/-- The beacon command that has the lock does all it has to do. -/
theorem crowd_acts {P : Plant N} {m : N} : ∀ (acts : List BeaconAct) (w : Crowd N), (w.node m).holder = some acts →
    ¬ (w.node m).prog.Ended → ∃ w', w.run P (List.replicate (acts.length + 1) (.act m)) = some w' ∧
      (w'.node m).prog = (w.node m).prog ∧ (w'.node m).queue = (w.node m).queue ∧ (w'.node m).holder = none ∧
      (∀ n, n ≠ m → w'.node n = w.node n) ∧ w'.air = w.air ++ w.due m := by
  intro acts
  induction acts with
  | nil =>
    intro w hh hr
    have st : (w.node m).step (P.machine m) .act = some { w.node m with holder := none } := by
      rw [Busy.step, if_neg (show ¬ (w.node m).prog.net.main = .ended from hr)]
      simp only [hh]
    have hs : w.step P (.act m) = some { w.set m { w.node m with holder := none } with air := w.air ++ w.departs m } := by
      show ((w.node m).step _ _).map _ = _
      rw [st]; rfl
    generalize hw : ({ w.set m { w.node m with holder := none } with air := w.air ++ w.departs m } : Crowd N) = w1 at hs
    have own : w1.node m = { w.node m with holder := none } := by rw [← hw]; exact crowd_set_self _ _ _
    refine ⟨w1, crowd_run_one hs, by rw [own], by rw [own], by rw [own], fun n hn => ?_, ?_⟩
    · rw [← hw]; exact crowd_set_other _ _ hn
    · rw [← hw]
      have : w.due m = w.departs m := by
        unfold Crowd.due Crowd.departs
        rw [hh]
        cases w.conns m <;> rfl
      rw [this]
  | cons a rest ih =>
    intro w hh hr
    have st : (w.node m).step (P.machine m) .act =
        some { w.node m with holder := some rest, trace := (w.node m).trace ++ [a] } := by
      rw [Busy.step, if_neg (show ¬ (w.node m).prog.net.main = .ended from hr)]
      simp only [hh]
    have hs : w.step P (.act m) = some { w.set m { w.node m with holder := some rest, trace := (w.node m).trace ++ [a] } with
        air := w.air ++ w.departs m } := by
      show ((w.node m).step _ _).map _ = _
      rw [st]; rfl
    generalize hw : ({ w.set m { w.node m with holder := some rest, trace := (w.node m).trace ++ [a] } with
        air := w.air ++ w.departs m } : Crowd N) = w1 at hs
    have own : w1.node m = { w.node m with holder := some rest, trace := (w.node m).trace ++ [a] } := by
      rw [← hw]; exact crowd_set_self _ _ _
    obtain ⟨w', g1, g2, g3, g4, g5, g6⟩ := ih w1 (by rw [own]) (by rw [own]; exact hr)
    refine ⟨w', ?_, ?_, ?_, g4, fun n hn => ?_, ?_⟩
    · show (w.step P _).bind _ = _
      rw [hs]; exact g1
    · rw [g2, own]
    · rw [g3, own]
    · rw [g5 n hn, ← hw]; exact crowd_set_other _ _ hn
    · have e1 : w1.air = w.air ++ w.departs m := by rw [← hw]
      have e2 : w1.conns m = w.conns m := by rw [← hw]; rfl
      have := due_act w m st
      rw [due_eq, this, g6, e1, due_eq, e2, own, List.append_assoc]

/-- The state between two rounds. -/
structure CrowdRound (P : Plant N) (fs : N → FS) (c : N → Cliflags) (es : CrowdEvent N → Prop) (a b : N) (w : Crowd N) : Prop where
  from_ : ∃ l, CrowdLeads P fs c l w ∧ ∀ e ∈ l, es e
  settings : (w.node a).prog.settings = c a
  sender : ¬ (w.node a).prog.Ended
  queue : (w.node a).queue = []
  holder : (w.node a).holder = none
  main : (w.node b).prog.net.main = .select
  reads : ∀ fam, (w.node b).prog.net.listener fam = .reading

/-- The events of a round. -/
def RoundEvent (a b : N) (line : String) (o : Replies) (source : UDPAddr → UDPAddr) (e : CrowdEvent N) : Prop :=
  e = .typed a line ∨ e = .begin a 0 o source ∨ e = .act a ∨ (∃ k, e = .arrives b k .v4 ⟨0, 0⟩) ∨
    e = .inside b (.takeRx .v4 ⟨0, 0⟩)

theorem along_append {P : Plant N} {Q : Crowd N → CrowdEvent N → Prop} {more : List (CrowdEvent N)} :
    ∀ (es : List (CrowdEvent N)) {w w' : Crowd N}, w.run P es = some w' → Along P Q w' more → Along P Q w (es ++ more)
  | [], w, w', h, al => by cases h; exact al
  | e :: es, w, w', h, al => by
    unfold Crowd.run at h
    obtain ⟨w1, h1, h2⟩ := Option.bind_eq_some_iff.1 h
    exact .inr ⟨w1, h1, along_append es h2 al⟩

theorem crowd_run_append {P : Plant N} {more : List (CrowdEvent N)} :
    ∀ (es : List (CrowdEvent N)) {w w' w2 : Crowd N}, w.run P es = some w' → w'.run P more = some w2 →
      w.run P (es ++ more) = some w2
  | [], w, w', w2, h, g => by cases h; exact g
  | e :: es, w, w', w2, h, g => by
    unfold Crowd.run at h
    obtain ⟨w1, h1, h2⟩ := Option.bind_eq_some_iff.1 h
    show (w.step P e).bind _ = _
    rw [h1]
    exact crowd_run_append es h2 g

theorem allAlong_append {P : Plant N} {B : Crowd N → CrowdEvent N → Prop} {more : List (CrowdEvent N)} :
    ∀ (es : List (CrowdEvent N)) {w w' : Crowd N}, w.run P es = some w' → AllAlong P B w es → AllAlong P B w' more →
      AllAlong P B w (es ++ more)
  | [], w, w', h, _, al => by cases h; exact al
  | e :: es, w, w', h, h0, al => by
    unfold Crowd.run at h
    obtain ⟨w1, h1, h2⟩ := Option.bind_eq_some_iff.1 h
    refine ⟨h0.1, fun w2 g => ?_⟩
    rw [h1] at g
    cases g
    exact allAlong_append es h2 (h0.2 w1 h1) al

theorem allAlong_of {P : Plant N} {B : Crowd N → CrowdEvent N → Prop} :
    ∀ (es : List (CrowdEvent N)) (w : Crowd N), (∀ e ∈ es, ∀ w, B w e) → AllAlong P B w es
  | [], _, _ => trivial
  | _ :: es, _, h => ⟨h _ List.mem_cons_self _, fun w1 _ => allAlong_of es w1 fun e he => h e (List.mem_cons_of_mem _ he)⟩

/-- One round: a beacon command is entered and runs at `a`, the first of its beacons arrives at `b` and is handled. -/
theorem crowd_round {P : Plant N} (hT : ∀ n, (P.machine n).S.T = shipped) {fs : N → FS} {c : N → Cliflags} {a b : N}
    (other : a ≠ b) (ok : ValidGlobal shipped (c a).global) (some_ : (c a).bcount ≠ 0) {line word : String} {o : Replies}
    {source : UDPAddr → UDPAddr}
    (entered : getLine ((P.machine a).H.map Prod.fst) cmdHandlers line = .ret (.started "beacon" ["beacon", word]))
    (proper : word ≠ "?" ∧ word ≠ "off") (works : ((P.machine a).beaconEnv o).Works) {addr : UDPAddr}
    (target : meant ((P.machine a).beaconEnv o) (c a) word = some addr) (heard : P.hears b addr = true)
    (fit : ∀ a l, o.nearby a = .ok l → 2 ≤ (utf8 l).length ∧ (utf8 l).length ≤ 63) (mtu : 146 ≤ (P.machine b).S.mtu)
    (w : Crowd N) (h : CrowdRound P fs c (RoundEvent a b line o source) a b w) :
    ∃ e es w', w.run P (e :: es) = some w' ∧ CrowdRound P fs c (RoundEvent a b line o source) a b w' ∧
      (∀ x ∈ e :: es, RoundEvent a b line o source x) ∧
      AllAlong P (fun w x => ∀ n k fam clock, x = .arrives n k fam clock → w.air.length = k + (c a).bcount) w (e :: es) ∧
      e = .typed a line ∧
      Along P (fun w e => ∃ k fam clock d, e = .arrives b k fam clock ∧ w.air[k]? = some d ∧ d.source = source addr)
        w (e :: es) := by
  obtain ⟨l, hl, hle⟩ := h.from_
  obtain ⟨bs, ba, st⟩ := works.disk
  obtain ⟨b', acts, frame, c1, c2, -, -⟩ := C82_sends works (c := (w.node a).prog.settings) (by rw [h.settings]; exact ok)
    (w.node a).prog.beacon "beacon" word proper (by rw [h.settings]; exact target) st
  have running : ¬ (w.node a).prog.net.main = .ended := h.sender
  -- the line
  have s1 : w.step P (.typed a line) = some (w.set a { w.node a with queue := [⟨line, "beacon", ["beacon", word]⟩] }) := by
    have : (w.node a).step (P.machine a) (.typed line) =
        some { w.node a with queue := [⟨line, "beacon", ["beacon", word]⟩] } := by
      rw [Busy.step, if_neg running]
      simp only [Busy.enter, entered, h.queue, List.nil_append]
    show ((w.node a).step _ _).map _ = _
    rw [this]; rfl
  generalize hw1 : w.set a { w.node a with queue := [⟨line, "beacon", ["beacon", word]⟩] } = w1 at s1
  have a1 : w1.node a = { w.node a with queue := [⟨line, "beacon", ["beacon", word]⟩] } := by
    rw [← hw1]; exact crowd_set_self _ _ _
  have b1 : w1.node b = w.node b := by rw [← hw1]; exact crowd_set_other _ _ (Ne.symm other)
  -- the command begins
  have s2 : ∃ w2, w1.step P (.begin a 0 o source) = some w2 ∧ (w2.node a).prog = { (w.node a).prog with beacon := b' } ∧
      (w2.node a).queue = [] ∧ (w2.node a).holder = some acts ∧ w2.node b = w.node b ∧ w2.air = w.air ∧
      w2.conns a = some (source, (P.machine a).beaconEnv o) := by
    have : (w1.node a).step (P.machine a) (.begin 0 o) =
        some { w1.node a with prog := { (w.node a).prog with beacon := b' }, queue := [], holder := some acts } := by
      rw [Busy.step, a1, if_neg running]
      simp only [List.getElem?_cons_zero, h.holder, ne_eq, not_true_eq_false, and_false, if_false, Busy.begin,
        command_of_beacon, c1, Out.ret_bind, if_true, beaconPlan, List.eraseIdx_cons_zero]
    refine ⟨_, by show ((w1.node a).step _ _).map _ = _; rw [this]; rfl, ?_, ?_, ?_, ?_, ?_, ?_⟩
    · show ((w1.set a _).node a).prog = _; rw [crowd_set_self]
    · show ((w1.set a _).node a).queue = _; rw [crowd_set_self]
    · show ((w1.set a _).node a).holder = _; rw [crowd_set_self]
    · show (w1.set a _).node b = _; rw [crowd_set_other _ _ (Ne.symm other), b1]
    · show w1.air = _; rw [← hw1]; rfl
    · show Crowd.connect P w1 a 0 o source a = _
      unfold Crowd.connect
      rw [a1]
      simp
  obtain ⟨w2, s2, p2, q2, h2, n2, air2, con2⟩ := s2
  -- its beacons leave
  obtain ⟨w3, s3, p3, q3, h3, n3, air3⟩ := crowd_acts (P := P) acts w2 h2 (by rw [p2]; exact h.sender)
  have due2 : w2.due a = List.replicate (c a).bcount
      ⟨source addr, addr, frame, a, c a, (P.machine a).beaconEnv o⟩ := by
    unfold Crowd.due
    rw [con2]
    simp only [h2, Option.getD_some, framesOf_sends, c2, List.map_replicate, p2, h.settings]
  have first : w3.air[w.air.length]? = some ⟨source addr, addr, frame, a, c a, (P.machine a).beaconEnv o⟩ := by
    rw [air3, air2, due2, List.getElem?_append_right (Nat.le_refl _), Nat.sub_self, List.getElem?_replicate,
      if_pos (Nat.pos_of_ne_zero some_)]
  have run3 : w.run P ([.typed a line, .begin a 0 o source] ++ List.replicate (acts.length + 1) (.act a)) = some w3 := by
    refine crowd_run_append _ ?_ s3
    show (w.step P _).bind _ = _
    rw [s1]
    exact crowd_run_one s2
  have ev3 : ∀ x ∈ [.typed a line, .begin a 0 o source] ++ List.replicate (acts.length + 1) (.act a),
      RoundEvent a b line o source x := by
    intro x hx
    rcases List.mem_append.1 hx with hx | hx
    · simp only [List.mem_cons, List.not_mem_nil, or_false] at hx
      rcases hx with rfl | rfl
      · exact .inl rfl
      · exact .inr (.inl rfl)
    · rw [(List.mem_replicate.1 hx).2]; exact .inr (.inr (.inl rfl))
  have lead3 : CrowdLeads P fs c (l ++ _) w3 := crowd_run_append l hl run3
  have sized : Sized (P.machine b).S.mtu frame := by
    refine C175_sized P hT fs c _ w3 lead3 (fun n k o' source' he => ?_) _ (List.mem_of_getElem? first) _ mtu
    have : RoundEvent a b line o source (.begin n k o' source') := by
      rcases List.mem_append.1 he with he | he
      · exact hle _ he
      · exact ev3 _ he
    rcases this with e | e | e | ⟨_, e⟩ | e <;> cases e
    exact fit
  obtain ⟨es', w', ac⟩ := accounted lead3
  obtain ⟨-, x, y1, y2⟩ := air_built hT ac.leads (ac.air _ (List.mem_of_getElem? first))
  obtain ⟨z1, z2, z3⟩ := built_says y1 y2
  have hb : w3.node b = w.node b := (n3 b (Ne.symm other)).trans n2
  obtain ⟨v1, v2, e1, e2, e3, -⟩ := beacon_arrives (P.machine b).S (hT b) (w3.node b).prog.net (by rw [hb]; exact h.main) .v4
    (by rw [hb]; exact h.reads .v4) x _ sized z2 z3 z1 (source addr) ⟨0, 0⟩ ⟨0, 0⟩
  have main3 : ¬ (w3.node b).prog.net.main = .ended := by rw [hb, h.main]; simp
  have reads1 : v1.listener .v6 = .reading := by
    rcases step_cases e1 with ⟨d', e, _, _, rfl⟩ | ⟨g, e, _⟩ | ⟨g, clock, f, addr, e, _⟩ |
      ⟨g, s, addr, e, _⟩ | ⟨g, e, _⟩ | ⟨e, _⟩ | ⟨e, _⟩ | ⟨f, e, _⟩ <;> cases e
    have r6 : (w3.node b).prog.net.listener .v6 = .reading := by rw [hb]; exact h.reads .v6
    rcases onRecv_cases (P.machine b).S (w3.node b).prog.net ⟨.v4, ⟨0, 0⟩, frame, source addr⟩ with
      ⟨_, e⟩ | ⟨_, e⟩ | ⟨f, _, e⟩ | ⟨s, _, e⟩ <;> rw [e]
    · exact r6
    · exact r6
    · exact (setListener_other (w3.node b).prog.net (fam := .v4) (g := .v6) (.sendRx f (source addr)) (fun e => by cases e)).trans r6
    · exact (setListener_other (w3.node b).prog.net (fam := .v4) (g := .v6) (.sendTx s (source addr)) (fun e => by cases e)).trans r6
  have main1 : v1.main = .select := by
    rcases step_cases e2 with ⟨d', e, _⟩ | ⟨g, e, _⟩ | ⟨g, clock, f, addr, e, hm, _⟩ |
      ⟨g, s, addr, e, _⟩ | ⟨g, e, _⟩ | ⟨e, _⟩ | ⟨e, _⟩ | ⟨f, e, _⟩ <;> cases e
    exact hm
  have reads2 : ∀ fam, v2.listener fam = .reading := by
    rcases step_cases e2 with ⟨d', e, _⟩ | ⟨g, e, _⟩ | ⟨g, clock, f, addr, e, _, _, rfl⟩ |
      ⟨g, s, addr, e, _⟩ | ⟨g, e, _⟩ | ⟨e, _⟩ | ⟨e, _⟩ | ⟨f, e, _⟩ <;> cases e
    intro fam
    rw [(onRx_logs (P.machine b).S v1 .v4 ⟨0, 0⟩ f addr).1]
    cases fam with
    | v4 => exact setListener_self _ _ _
    | v6 => exact (setListener_other v1 (fam := .v4) (g := .v6) _ (fun e => by cases e)).trans reads1
  -- the first one arrives
  let node4 : Busy := { w3.node b with prog := { (w3.node b).prog with net := v1 } }
  have s4 : w3.step P (.arrives b w.air.length .v4 ⟨0, 0⟩) = some (w3.set b node4) := by
    simp only [Crowd.step, first, heard, if_true, Busy.step, if_neg main3, Program.step, e1, Option.map_some]
    rfl
  have s5 : (w3.set b node4).step P (.inside b (.takeRx .v4 ⟨0, 0⟩)) =
      some ((w3.set b node4).set b { node4 with prog := { node4.prog with net := v2 } }) := by
    have m4 : ¬ node4.prog.net.main = .ended := by show ¬ v1.main = .ended; rw [main1]; simp
    have e2' : node4.prog.net.step (P.machine b).S (.takeRx .v4 ⟨0, 0⟩) = some v2 := e2
    simp only [Crowd.step, crowd_set_self, Busy.step, if_neg m4, Program.step, e2', Option.map_some]
  have s45 : w3.run P [.arrives b w.air.length .v4 ⟨0, 0⟩, .inside b (.takeRx .v4 ⟨0, 0⟩)] =
      some ((w3.set b node4).set b { node4 with prog := { node4.prog with net := v2 } }) := by
    show (w3.step P _).bind _ = _
    rw [s4]
    exact crowd_run_one s5
  have all := crowd_run_append _ run3 s45
  have evs : ∀ x ∈ ([.typed a line, .begin a 0 o source] ++ List.replicate (acts.length + 1) (.act a)) ++
      [.arrives b w.air.length .v4 ⟨0, 0⟩, .inside b (.takeRx .v4 ⟨0, 0⟩)], RoundEvent a b line o source x := by
    intro x hx
    rcases List.mem_append.1 hx with hx | hx
    · exact ev3 x hx
    · simp only [List.mem_cons, List.not_mem_nil, or_false] at hx
      rcases hx with rfl | rfl
      · exact .inr (.inr (.inr (.inl ⟨_, rfl⟩)))
      · exact .inr (.inr (.inr (.inr rfl)))
  have new := allAlong_append (B := fun w x => ∀ n k fam clock, x = .arrives n k fam clock → w.air.length = k + (c a).bcount)
    (more := [.arrives b w.air.length .v4 ⟨0, 0⟩, .inside b (.takeRx .v4 ⟨0, 0⟩)]) _ run3
    (allAlong_of _ _ fun e he w n k fam clock h => by
      subst h
      rcases List.mem_append.1 he with he | he
      · simp at he
      · rw [List.mem_replicate] at he; cases he.2)
    ⟨fun n k fam clock h => by cases h; rw [air3, air2, due2]; simp, fun w1 _ => ⟨(fun n k fam clock h => by cases h), fun _ _ => trivial⟩⟩
  have ha : (((w3.set b node4).set b { node4 with prog := { node4.prog with net := v2 } }).node a) = w3.node a := by
    rw [crowd_set_other _ _ other, crowd_set_other _ _ other]
  refine ⟨_, _, _, all, ⟨⟨l ++ _, crowd_run_append l hl all, fun e he => ?_⟩, ?_, ?_, ?_, ?_, ?_, ?_⟩, evs, new, rfl, ?_⟩
  · rcases List.mem_append.1 he with he | he
    · exact hle e he
    · exact evs e he
  · rw [ha, p3, p2]; exact h.settings
  · rw [ha, p3, p2]; exact h.sender
  · rw [ha, q3, q2]
  · rw [ha, h3]
  · rw [crowd_set_self]; exact e3
  · rw [crowd_set_self]; exact reads2
  · exact along_append _ run3 (.inl ⟨_, _, _, _, rfl, first, rfl⟩)

/-- A program that ended takes no more steps. -/
theorem crowd_ended {P : Plant N} {fs : N → FS} {c : N → Cliflags} {at_ : Nat → Crowd N} {does : Nat → CrowdEvent N}
    (run : CrowdForever P fs c at_ does) {n : N} {i : Nat} (h : ((at_ i).node n).prog.Ended) (t : Nat) :
    ((at_ (i + t)).node n).prog.Ended ∧ (∀ line, does (i + t) ≠ .typed n line) ∧
      ∀ k fam clock, does (i + t) ≠ .arrives n k fam clock := by
  have dead : ∀ {w w' : Crowd N} {e : CrowdEvent N}, w.step P e = some w' → (w.node n).prog.Ended → w'.node n = w.node n := by
    intro w w' e hs hd
    rcases crowd_sees hs n with ⟨e1, _⟩ | ⟨e', s1, _⟩
    · exact e1
    · unfold Busy.step at s1
      rw [if_pos (show (w.node n).prog.net.main = .ended from hd)] at s1; cases s1
  have ended : ((at_ (i + t)).node n).prog.Ended := by
    induction t with
    | zero => exact h
    | succ t ih =>
      show ((at_ (i + t + 1)).node n).prog.Ended
      rw [dead (run.goes _) ih]; exact ih
  refine ⟨ended, fun line e => ?_, fun k fam clock e => ?_⟩
  · have := run.goes (i + t)
    rw [e] at this
    obtain ⟨b, h1, _⟩ := Option.map_eq_some_iff.1 this
    rw [Busy.step, if_pos (show ((at_ (i + t)).node n).prog.net.main = .ended from ended)] at h1; cases h1
  · have := run.goes (i + t)
    rw [e] at this
    rcases crowd_step_cases this with ⟨_, _, _, e, _⟩ | ⟨_, _, _, _, _, e, _⟩ | ⟨_, _, e, _⟩ |
      ⟨m, k', fam', clock', d', b, e, hk, _, h1, hw⟩ | ⟨_, _, _, e, _⟩ <;> cases e
    rw [Busy.step, if_pos (show ((at_ (i + t)).node n).prog.net.main = .ended from ended)] at h1; cases h1

/-- Machine 1 sends beacons to machine 2 again and again, for ever, and all that is asked of an execution holds; its settings
stay as they are, nobody else sends, and each datagram arrives soon or never. -/
theorem beacons_for_ever : ∃ at_ does, (CrowdForever examplePlant (fun _ => exampleFS) (fun _ => shippedSettings) at_ does ∧
    (∀ n, (examplePlant.machine n).S.T = shipped) ∧ NearbyFits (fun e => ∃ i, does i = e) ∧
    146 ≤ (examplePlant.machine 2).S.mtu ∧ (∀ i, ¬ ((at_ i).node 1).prog.Ended) ∧ (∀ i, ¬ ((at_ i).node 2).prog.Ended) ∧
    HolderFairAt at_ does 1 ∧ LockFairAt at_ does 1 ∧ SelectFairAt at_ does 2 ∧ ("1.1.1.2" ≠ "?" ∧ "1.1.1.2" ≠ "off") ∧
    examplePlant.hears 2 ⟨[1#8, 1#8, 1#8, 2#8], 7542, ""⟩ = true ∧ KeepsEntering examplePlant does 1 "1.1.1.2" ∧
    BeaconsWork examplePlant at_ does 1 "1.1.1.2" ⟨[1#8, 1#8, 1#8, 2#8], 7542, ""⟩ ⟨[1#8, 1#8, 1#8, 1#8], 5000, ""⟩ ∧
    LosesSomeAt examplePlant at_ does 2 ⟨[1#8, 1#8, 1#8, 1#8], 5000, ""⟩) ∧
    (∀ i, ((at_ i).node 1).prog.settings = shippedSettings) ∧ (∀ i m, does i = .act m → m = 1) ∧
    ∀ i n k fam clock, does i = .arrives n k fam clock → (at_ i).air.length = k + 3 := by
  have entered : getLine ((examplePlant.machine 1).H.map Prod.fst) cmdHandlers "saratoga[0]:beacon 1.1.1.2" =
    .ret (.started "beacon" ["beacon", "1.1.1.2"]) := by decide +kernel
  have works : ((examplePlant.machine 1).beaconEnv towardsTwo).Works :=
    ⟨rfl, rfl, ⟨_, _, rfl⟩, fun _ => ⟨_, rfl⟩, fun _ _ => rfl⟩
  have target : meant ((examplePlant.machine 1).beaconEnv towardsTwo) shippedSettings "1.1.1.2" =
    some ⟨[1#8, 1#8, 1#8, 2#8], 7542, ""⟩ := by decide +kernel
  have fit : ∀ a l, towardsTwo.nearby a = .ok l → 2 ≤ (utf8 l).length ∧ (utf8 l).length ≤ 63 := by
    intro a l hl
    cases hl
    decide +kernel
  have round := fun w h => crowd_round (P := examplePlant) (fs := fun _ => exampleFS) (c := fun _ => shippedSettings) (a := 1)
    (b := 2) (fun _ => rfl) (by decide) C14_shipped_defaults (by decide) (source := fun _ => ⟨[1#8, 1#8, 1#8, 1#8], 5000, ""⟩)
    entered (by decide) works target (by decide +kernel) fit (by decide) w h
  let R := CrowdRound examplePlant (fun _ => exampleFS) (fun _ => shippedSettings)
    (RoundEvent 1 2 "saratoga[0]:beacon 1.1.1.2" towardsTwo fun _ => ⟨[1#8, 1#8, 1#8, 1#8], 5000, ""⟩) 1 2
  let Q : Fin 3 → Crowd Nat → CrowdEvent Nat → Prop := fun k w e =>
    if k = 0 then R w else if k = 1 then e = .typed 1 "saratoga[0]:beacon 1.1.1.2" else
      ∃ k fam clock d, e = .arrives 2 k fam clock ∧ w.air[k]? = some d ∧ d.source = ⟨[1#8, 1#8, 1#8, 1#8], 5000, ""⟩
  obtain ⟨at_, does, run, events, soon, often⟩ := crowd_rounds (P := examplePlant) (fs := fun _ => exampleFS)
    (c := fun _ => shippedSettings) (R := R) (A := RoundEvent 1 2 "saratoga[0]:beacon 1.1.1.2" towardsTwo fun _ => ⟨[1#8, 1#8, 1#8, 1#8], 5000, ""⟩) (Q := Q)
    (B := fun w x => ∀ n k fam clock, x = .arrives n k fam clock → w.air.length = k + 3)
    ⟨⟨[], rfl, fun e he => by cases he⟩, rfl, (fun h => by cases h), rfl, rfl, rfl, fun fam => by cases fam <;> rfl⟩
    (fun w h => by
      obtain ⟨e, es, w', h1, h2, h3, h6, h4, h5⟩ := round w h
      refine ⟨e, es, w', h1, h2, h3, h6, fun k => ?_⟩
      match k with
      | 0 => exact .inl h
      | 1 => exact .inl h4
      | 2 => exact h5)
  have rounds : ∀ i, ∃ j, i ≤ j ∧ R (at_ j) := often 0
  have lines : ∀ i, ∃ j, i ≤ j ∧ does j = .typed 1 "saratoga[0]:beacon 1.1.1.2" := often 1
  have arrivals : ∀ i, ∃ j, i ≤ j ∧ ∃ k fam clock d, does j = .arrives 2 k fam clock ∧ (at_ j).air[k]? = some d ∧
    d.source = ⟨[1#8, 1#8, 1#8, 1#8], 5000, ""⟩ := often 2
  have settings : ∀ i, ((at_ i).node 1).prog.settings = shippedSettings ∧
      ∀ q ∈ ((at_ i).node 1).queue, q.cmd = "beacon" := by
    intro i
    induction i with
    | zero => rw [run.start]; exact ⟨rfl, fun q hq => by cases hq⟩
    | succ i ih =>
      have hs := run.goes i
      have ev := events i
      generalize at_ (i + 1) = w' at hs ⊢
      rcases crowd_step_cases hs with ⟨m, line, b, e, h1, rfl⟩ | ⟨m, k, o, source, b, e, h1, rfl⟩ | ⟨m, b, e, h1, rfl⟩ |
        ⟨m, k, fam, clock, d, b, e, hd, hh, h1, rfl⟩ | ⟨m, act, b, e, hact, h1, rfl⟩ <;> rw [e] at ev
      · rcases ev with ev | ev | ev | ⟨_, ev⟩ | ev <;> cases ev
        rw [crowd_set_self]
        unfold Busy.step at h1
        split at h1
        · cases h1
        simp only [Option.some.injEq, Busy.enter, entered] at h1
        subst h1
        refine ⟨ih.1, fun q hq => ?_⟩
        rcases List.mem_append.1 hq with hq | hq
        · exact ih.2 q hq
        · rw [List.mem_singleton.1 hq]
      · rcases ev with ev | ev | ev | ⟨_, ev⟩ | ev <;> cases ev
        show ((Crowd.set _ 1 b).node 1).prog.settings = _ ∧ ∀ q ∈ ((Crowd.set _ 1 b).node 1).queue, _
        rw [crowd_set_self]
        cases hq : ((at_ i).node 1).queue[0]? with
        | none =>
          unfold Busy.step at h1
          simp only [hq] at h1
          split at h1 <;> cases h1
        | some q =>
          have hb := ih.2 q (List.mem_of_getElem? hq)
          have := (begin_settings hq hb h1).2
          refine ⟨by rw [this]; exact ih.1, ?_⟩
          unfold Busy.step at h1
          simp only [hq] at h1
          split at h1
          · cases h1
          split at h1
          · cases h1
          simp only [Option.some.injEq] at h1
          have e : b.queue = ((at_ i).node 1).queue.eraseIdx 0 := by
            rw [← h1]; unfold Busy.begin; split <;> rfl
          rw [e]
          exact fun q hq => ih.2 q (List.mem_of_mem_eraseIdx hq)
      · rcases ev with ev | ev | ev | ⟨_, ev⟩ | ev <;> cases ev
        show ((Crowd.set _ 1 b).node 1).prog.settings = _ ∧ ∀ q ∈ ((Crowd.set _ 1 b).node 1).queue, _
        rw [crowd_set_self]
        unfold Busy.step at h1
        split at h1
        · cases h1
        simp only at h1
        split at h1
        · cases h1
        · cases h1; exact ih
        · cases h1; exact ih
      · rcases ev with ev | ev | ev | ⟨_, ev⟩ | ev <;> cases ev
        rw [crowd_set_other _ _ (by decide)]; exact ih
      · rcases ev with ev | ev | ev | ⟨_, ev⟩ | ev <;> cases ev
        rw [crowd_set_other _ _ (by decide)]; exact ih
  refine ⟨at_, does, ⟨run, fun _ => rfl, fun n k o source ⟨i, e⟩ => ?_, by decide, fun i he => ?_, fun i he => ?_,
    fun i always => ?_, fun i p q hq _ => ?_, fun fam i always => ?_, by decide, by decide +kernel, fun i => ?_,
    fun j k o source q e _ _ => ?_, fun _ => arrivals⟩, fun i => (settings i).1, fun i m e => ?_, soon⟩
  · have ev := events i
    rw [e] at ev
    rcases ev with ev | ev | ev | ⟨_, ev⟩ | ev <;> cases ev
    exact fit
  · obtain ⟨j, hj, e⟩ := lines i
    have := (crowd_ended run he (j - i)).2.1
    rw [show i + (j - i) = j by omega] at this
    exact this _ e
  · obtain ⟨j, hj, k, fam, clock, d, e, _⟩ := arrivals i
    have := (crowd_ended run he (j - i)).2.2
    rw [show i + (j - i) = j by omega] at this
    exact this _ _ _ e
  · obtain ⟨j, hj, r⟩ := rounds i
    exact absurd r.holder (always j hj)
  · obtain ⟨j, hj, r⟩ := rounds i
    refine ⟨j - i, ?_⟩
    cases hk : crowdWaits does 1 i p (j - i) with
    | none => rfl
    | some k =>
      have := crowd_queue_waits run hq (j - i) hk
      rw [show i + (j - i) = j by omega, r.queue] at this
      cases this
  · obtain ⟨j, hj, r⟩ := rounds i
    exact absurd (r.reads fam) (always j hj).2.1
  · obtain ⟨j, hj, e⟩ := lines i
    exact ⟨j, _, hj, e, entered⟩
  · have ev := events j
    rw [e] at ev
    rcases ev with ev | ev | ev | ⟨_, ev⟩ | ev <;> cases ev
    rw [(settings j).1]
    exact ⟨C14_shipped_defaults, by decide, works, target, rfl⟩
  · have ev := events i
    rw [e] at ev
    rcases ev with ev | ev | ev | ⟨_, ev⟩ | ev <;> cases ev
    rfl

example : ∃ at_ does, CrowdForever examplePlant (fun _ => exampleFS) (fun _ => shippedSettings) at_ does ∧
    (∀ n, (examplePlant.machine n).S.T = shipped) ∧ NearbyFits (fun e => ∃ i, does i = e) ∧
    146 ≤ (examplePlant.machine 2).S.mtu ∧ (∀ i, ¬ ((at_ i).node 1).prog.Ended) ∧ (∀ i, ¬ ((at_ i).node 2).prog.Ended) ∧
    HolderFairAt at_ does 1 ∧ LockFairAt at_ does 1 ∧ SelectFairAt at_ does 2 ∧ ("1.1.1.2" ≠ "?" ∧ "1.1.1.2" ≠ "off") ∧
    examplePlant.hears 2 ⟨[1#8, 1#8, 1#8, 2#8], 7542, ""⟩ = true ∧ KeepsEntering examplePlant does 1 "1.1.1.2" ∧
    BeaconsWork examplePlant at_ does 1 "1.1.1.2" ⟨[1#8, 1#8, 1#8, 2#8], 7542, ""⟩ ⟨[1#8, 1#8, 1#8, 1#8], 5000, ""⟩ ∧
    LosesSomeAt examplePlant at_ does 2 ⟨[1#8, 1#8, 1#8, 1#8], 5000, ""⟩ := by
  obtain ⟨at_, does, h, _⟩ := beacons_for_ever
  exact ⟨at_, does, h⟩

end Saratoga
