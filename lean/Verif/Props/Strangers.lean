import Verif.Spec.Strangers
import Verif.Props.Crowd
import Verif.Props.OneFile
import Verif.Props.Discovery
/-! # C180: networks with strangers -/
namespace Saratoga

variable {N : Type} [DecidableEq N]

theorem open_induction {P : Plant N} {Q : List (OpenEvent N) → Crowd N → Prop}
    (step : ∀ es w e w', Q es w → w.openStep P e = some w' → Q (es ++ [e]) w') :
    ∀ (es : List (OpenEvent N)) {pre : List (OpenEvent N)} {w w' : Crowd N}, Q pre w → w.openRun P es = some w' → Q (pre ++ es) w'
  | [], pre, w, w', h, hr => by cases hr; rw [List.append_nil]; exact h
  | e :: es, pre, w, w', h, hr => by
    unfold Crowd.openRun at hr
    cases h1 : w.openStep P e with
    | none => rw [h1] at hr; cases hr
    | some w1 =>
      rw [h1] at hr
      have := open_induction step es (step _ _ _ _ h h1) hr
      rwa [List.append_assoc] at this

theorem openLeads_induction {P : Plant N} {fs : N → FS} {c : N → Cliflags} {Q : List (OpenEvent N) → Crowd N → Prop}
    (init : Q [] (Crowd.init fs c)) (step : ∀ es w e w', Q es w → w.openStep P e = some w' → Q (es ++ [e]) w')
    {es : List (OpenEvent N)} {w : Crowd N} (h : OpenLeads P fs c es w) : Q es w :=
  open_induction step es (pre := []) init h

theorem open_run_snoc {P : Plant N} {e : OpenEvent N} : ∀ (es : List (OpenEvent N)) (w0 : Crowd N),
    w0.openRun P (es ++ [e]) = (w0.openRun P es).bind fun w => w.openStep P e
  | [], w0 => by
    show (w0.openStep P e).bind (fun w => some w) = w0.openStep P e
    cases w0.openStep P e <;> rfl
  | x :: es, w0 => by
    show (w0.openStep P x).bind _ = ((w0.openStep P x).bind _).bind _
    cases w0.openStep P x with
    | none => rfl
    | some w1 => exact open_run_snoc es w1

theorem openLeads_snoc {P : Plant N} {fs : N → FS} {c : N → Cliflags} {es : List (OpenEvent N)} {w w' : Crowd N}
    (h : OpenLeads P fs c es w) {e : OpenEvent N} (hs : w.openStep P e = some w') : OpenLeads P fs c (es ++ [e]) w' := by
  unfold OpenLeads at h ⊢
  rw [open_run_snoc, h]
  exact hs

omit [DecidableEq N] in
theorem ownEvents_append (es fs : List (OpenEvent N)) : ownEvents (es ++ fs) = ownEvents es ++ ownEvents fs :=
  List.filterMap_append

theorem strangersAt_append (n : N) (es fs : List (OpenEvent N)) :
    strangersAt n (es ++ fs) = strangersAt n es ++ strangersAt n fs := List.filterMap_append

/-- What one machine sees of a step. -/
theorem open_node_step {P : Plant N} {w w' : Crowd N} {e : OpenEvent N} (h : w.openStep P e = some w') (n : N) :
    (w'.node n = w.node n ∧ enteredAt n (ownEvents [e]) = [] ∧ insideAt n (ownEvents [e]) = [] ∧ strangersAt n [e] = []) ∨
    ∃ e', (w.node n).step (P.machine n) e' = some (w'.node n) ∧ typedLines [e'] = enteredAt n (ownEvents [e]) ∧
      ((∃ d, e' = .net (.recv d) ∧ insideAt n (ownEvents [e]) = [] ∧ (d ∈ strangersAt n [e] ∨
          ∃ x ∈ w.air, P.hears n x.dest = true ∧ d.bytes = x.bytes ∧ d.source = x.source)) ∨
        (netSteps [e'] = insideAt n (ownEvents [e]) ∧ ∀ d, e' ≠ .net (.recv d))) := by
  cases e with
  | goes e =>
    rcases crowd_node_step h n with ⟨e1, e2, e3⟩ | ⟨e', s1, s2, s3⟩
    · exact .inl ⟨e1, e2, e3, rfl⟩
    · refine .inr ⟨e', s1, s2, ?_⟩
      rcases s3 with ⟨fam, clock, d, hd, hh, he, hi⟩ | hs
      · exact .inl ⟨_, he, hi, .inr ⟨d, hd, hh, rfl, rfl⟩⟩
      · exact .inr hs
  | stranger m d =>
    obtain ⟨b, h1, rfl⟩ := Option.map_eq_some_iff.1 h
    by_cases hm : n = m
    · subst hm
      exact .inr ⟨_, by rw [crowd_set_self]; exact h1, rfl, .inl ⟨d, rfl, rfl, .inl (by simp [strangersAt])⟩⟩
    · exact .inl ⟨crowd_set_other _ _ hm, rfl, rfl, by simp [strangersAt, Ne.symm hm]⟩

theorem open_air {P : Plant N} {w w' : Crowd N} {e : OpenEvent N} (h : w.openStep P e = some w') : ∀ d ∈ w.air, d ∈ w'.air := by
  cases e with
  | goes e => exact crowd_air h
  | stranger m d =>
    obtain ⟨b, h1, rfl⟩ := Option.map_eq_some_iff.1 h
    exact fun d hd => hd

/-- **C180, each program by itself.** Every program goes through an execution of its own, as in C145, with the lines entered
at it in their order; the datagrams it reads are those of strangers and of the air. -/
theorem C180_node {P : Plant N} {fs : N → FS} {c : N → Cliflags} {es : List (OpenEvent N)} {w : Crowd N}
    (h : OpenLeads P fs c es w) (n : N) :
    ∃ own, BusyLeads (P.machine n) (fs n) (c n) own (w.node n) ∧ typedLines own = enteredAt n (ownEvents es) ∧
      (∀ a, a ∈ netSteps own → (∃ d, a = .recv d) ∨ a ∈ insideAt n (ownEvents es)) ∧
      ∀ d, .recv d ∈ netSteps own → d ∈ strangersAt n es ∨
        ∃ x ∈ w.air, P.hears n x.dest = true ∧ d.bytes = x.bytes ∧ d.source = x.source := by
  refine openLeads_induction (Q := fun es w => ∃ own, BusyLeads (P.machine n) (fs n) (c n) own (w.node n) ∧
    typedLines own = enteredAt n (ownEvents es) ∧ (∀ a, a ∈ netSteps own → (∃ d, a = .recv d) ∨ a ∈ insideAt n (ownEvents es)) ∧
    ∀ d, .recv d ∈ netSteps own → d ∈ strangersAt n es ∨
      ∃ x ∈ w.air, P.hears n x.dest = true ∧ d.bytes = x.bytes ∧ d.source = x.source)
    ⟨[], rfl, rfl, (fun a ha => by cases ha), (fun d hd => by cases hd)⟩ ?_ h
  rintro es w e w' ⟨own, i1, i2, i3, i4⟩ hs
  have air := open_air hs
  have old : ∀ d, .recv d ∈ netSteps own → d ∈ strangersAt n (es ++ [e]) ∨
      ∃ x ∈ w'.air, P.hears n x.dest = true ∧ d.bytes = x.bytes ∧ d.source = x.source := by
    intro d hd
    rcases i4 d hd with h | ⟨x, hx, r⟩
    · exact .inl (by rw [strangersAt_append]; exact List.mem_append_left _ h)
    · exact .inr ⟨x, air x hx, r⟩
  rcases open_node_step hs n with ⟨e1, e2, e3, _⟩ | ⟨e', s1, s2, s3⟩
  · refine ⟨own, by rw [e1]; exact i1, by rw [ownEvents_append, enteredAt_append, e2, List.append_nil]; exact i2,
      fun a ha => ?_, old⟩
    rw [ownEvents_append, insideAt_append, e3, List.append_nil]; exact i3 a ha
  · refine ⟨own ++ [e'], ?_, by rw [typedLines_append, ownEvents_append, enteredAt_append, i2, s2], fun a ha => ?_,
      fun d hd => ?_⟩
    · unfold BusyLeads at i1 ⊢
      rw [busy_run_append, i1]
      show ((w.node n).step _ e').bind _ = _
      rw [s1]; rfl
    · rw [netSteps_append] at ha
      rw [ownEvents_append, insideAt_append, List.mem_append]
      rcases List.mem_append.1 ha with ha | ha
      · rcases i3 a ha with h | h
        · exact .inl h
        · exact .inr (.inl h)
      · rcases s3 with ⟨d, rfl, _⟩ | ⟨h, _⟩
        · exact .inl ⟨_, List.mem_singleton.1 ha⟩
        · rw [h] at ha; exact .inr (.inr ha)
    · rw [netSteps_append] at hd
      rcases List.mem_append.1 hd with hd | hd
      · exact old d hd
      · rcases s3 with ⟨d', rfl, _, h⟩ | ⟨_, h⟩
        · have := List.mem_singleton.1 hd
          injection this with this
          subst this
          rcases h with h | ⟨x, hx, r⟩
          · exact .inl (by rw [strangersAt_append]; exact List.mem_append_right _ h)
          · exact .inr ⟨x, air x hx, r⟩
        · cases e' with
          | net a => have := List.mem_singleton.1 hd; subst this; exact absurd rfl (h d)
          | _ => cases hd

/-! ## What users do is not affected -/

/-- The same program with another network side. -/
def Busy.withNet (b : Busy) (v : World) : Busy := { b with prog := { b.prog with net := v } }

/-- A command does the same whatever the network side is, as long as the files are the same. -/
theorem command_net (M : Machine) (o : Replies) (p : Program) (cmd : String) (args : List String) (v : World)
    (files : v.fs = p.net.fs) :
    ({ p with net := v } : Program).command M o cmd args =
      (p.command M o cmd args >>= fun q => .ret { q with net := { v with fs := q.net.fs } }) := by
  have hv : ({ v with fs := p.net.fs } : World) = v := by rw [← files]
  unfold Program.command
  cases hs : assoc cmd settingHandlers with
  | some h => simp only [Out.ret_bind, hv]
  | none =>
    cases ht : assoc cmd tranCommands with
    | some h =>
      have e : ({ p with net := v } : Program).tranWorld = p.tranWorld := by simp only [Program.tranWorld, files]
      simp only [e]
      cases h ⟨M.H, M.tranEnv o, p.settings⟩ p.tranWorld args <;> rfl
    | none =>
      simp only
      split
      · cases hr : cmdRmtran M.str p.table args with
        | ret r => simp only [Out.ret_bind, hv]
        | fatal => rfl
        | panic => rfl
      · split
        · cases hr : cmdBeacon (M.beaconEnv o) p.settings p.beacon args with
          | ret r => simp only [Out.ret_bind, hv]
          | fatal => rfl
          | panic => rfl
        · split <;> simp only [Out.ret_bind, hv]

theorem command_keeps_main {M : Machine} {o : Replies} {p q : Program} {cmd : String} {args : List String}
    (h : p.command M o cmd args = .ret q) : q.net.main = p.net.main := by
  have := command_net M o p cmd args p.net rfl
  rw [show ({ p with net := p.net } : Program) = p from rfl, h] at this
  simp only [Out.ret_bind, Out.ret.injEq] at this
  exact congrArg (fun x => x.net.main) this

/-- The network side of a machine by itself has no part in what the users of `b` do. -/
structure Shadow (b b' : Busy) : Prop where
  user : SameUser b b'
  files : b.prog.net.main ≠ .ended → b'.prog.net.main ≠ .ended ∧ b'.prog.net.fs = b.prog.net.fs

theorem shadow_eq {b b' : Busy} (h : Shadow b b') : b' = b.withNet b'.prog.net := by
  obtain ⟨⟨⟨s1, s2, s3, s4, s5⟩, q1, q2, q3⟩, _⟩ := h
  obtain ⟨⟨n, s, t, i, be, ce⟩, q, ho, tr⟩ := b
  obtain ⟨⟨n', s', t', i', be', ce'⟩, q', ho', tr'⟩ := b'
  simp only at s1 s2 s3 s4 s5 q1 q2 q3
  subst s1 s2 s3 s4 s5 q1 q2 q3
  rfl

theorem shadow_with {b : Busy} {v : World} (h : b.prog.net.main ≠ .ended → v.main ≠ .ended ∧ v.fs = b.prog.net.fs) :
    Shadow b (b.withNet v) := ⟨⟨⟨rfl, rfl, rfl, rfl, rfl⟩, rfl, rfl, rfl⟩, h⟩

/-- What a user does has the same effect. -/
theorem shadow_user {M : Machine} {b b1 b' : Busy} (h : Shadow b b') {e : BusyEvent} (user : ∀ a, e ≠ .net a)
    (hs : b.step M e = some b1) : ∃ b1', b'.step M e = some b1' ∧ Shadow b1 b1' ∧
      (b1.prog.net.main = .ended → b1'.prog.net.main = .ended) := by
  have hm : b.prog.net.main ≠ .ended := by
    intro hm
    unfold Busy.step at hs
    rw [if_pos hm] at hs
    cases hs
  obtain ⟨hm', hf⟩ := h.files hm
  generalize hv : b'.prog.net = v at hm' hf
  have hb := shadow_eq h
  rw [hv] at hb
  subst hb
  clear hv h
  have hm2 : ¬ (b.withNet v).prog.net.main = .ended := hm'
  unfold Busy.step at hs ⊢
  rw [if_neg hm] at hs
  rw [if_neg hm2]
  have ended : ∀ qs ho tr, Shadow { b with prog := b.prog.end_, queue := qs, holder := ho, trace := tr }
      { (b.withNet v) with prog := (b.withNet v).prog.end_, queue := qs, holder := ho, trace := tr } :=
    fun qs ho tr => ⟨⟨⟨rfl, rfl, rfl, rfl, rfl⟩, rfl, rfl, rfl⟩, fun h => absurd rfl h⟩
  cases e with
  | net a => exact absurd rfl (user a)
  | typed line =>
    simp only [Option.some.injEq] at hs ⊢
    subst hs
    refine ⟨_, rfl, ?_⟩
    unfold Busy.enter
    cases getLine (M.H.map Prod.fst) cmdHandlers line with
    | ret r =>
      cases r with
      | started cmd args => exact ⟨⟨⟨⟨rfl, rfl, rfl, rfl, rfl⟩, rfl, rfl, rfl⟩, fun _ => ⟨hm', hf⟩⟩, fun h => absurd h hm⟩
      | _ => exact ⟨shadow_with fun _ => ⟨hm', hf⟩, fun h => absurd h hm⟩
    | fatal => exact ⟨ended _ _ _, fun _ => rfl⟩
    | panic => exact ⟨ended _ _ _, fun _ => rfl⟩
  | begin i o =>
    simp only at hs ⊢
    have eq : (b.withNet v).queue = b.queue := rfl
    rw [eq]
    cases hq : b.queue[i]? with
    | none => rw [hq] at hs; cases hs
    | some q =>
      rw [hq] at hs
      have eh : (b.withNet v).holder = b.holder := rfl
      simp only [eh] at hs ⊢
      by_cases hl : needsLock q.cmd = true ∧ b.holder ≠ none
      · rw [if_pos hl] at hs; cases hs
      · rw [if_neg hl] at hs ⊢
        simp only [Option.some.injEq] at hs ⊢
        subst hs
        refine ⟨_, rfl, ?_⟩
        have plan : beaconPlan M o (b.withNet v).prog q = beaconPlan M o b.prog q := rfl
        have cn := command_net M o b.prog q.cmd q.args v hf
        unfold Busy.begin
        rw [plan]
        have cn : (b.withNet v).prog.command M o q.cmd q.args = _ := cn
        rw [cn]
        cases hc : b.prog.command M o q.cmd q.args with
        | ret p =>
          refine ⟨⟨⟨⟨rfl, rfl, rfl, rfl, rfl⟩, rfl, rfl, rfl⟩, fun _ => ⟨hm', rfl⟩⟩, fun h => ?_⟩
          exact absurd ((command_keeps_main hc).symm.trans h) hm
        | fatal => exact ⟨ended _ _ _, fun _ => rfl⟩
        | panic => exact ⟨ended _ _ _, fun _ => rfl⟩
  | act =>
    simp only at hs ⊢
    have eh : (b.withNet v).holder = b.holder := rfl
    rw [eh]
    cases hh : b.holder with
    | none => rw [hh] at hs; cases hs
    | some acts =>
      rw [hh] at hs
      cases acts with
      | nil =>
        cases hs
        exact ⟨_, rfl, ⟨⟨⟨rfl, rfl, rfl, rfl, rfl⟩, rfl, rfl, rfl⟩, fun _ => ⟨hm', hf⟩⟩, fun h => absurd h hm⟩
      | cons a rest =>
        cases hs
        exact ⟨_, rfl, ⟨⟨⟨rfl, rfl, rfl, rfl, rfl⟩, rfl, rfl, rfl⟩, fun _ => ⟨hm', hf⟩⟩, fun h => absurd h hm⟩

theorem busy_net_step {M : Machine} {b b1 : Busy} {a : Action} (h : b.step M (.net a) = some b1) :
    b.prog.net.main ≠ .ended ∧ b1 = b.withNet b1.prog.net ∧ b.prog.net.step M.S a = some b1.prog.net := by
  unfold Busy.step at h
  split at h
  · cases h
  · rename_i hm
    obtain ⟨p, h1, rfl⟩ := Option.map_eq_some_iff.1 h
    rcases program_step_cases h1 with ⟨a', w, e, _, hw, rfl⟩ | ⟨line, o, e, _⟩
    · cases e; exact ⟨hm, rfl, hw⟩
    · cases e

/-- What happens on the network side shows, at most, in the files. -/
theorem shadow_net {M : Machine} {b b1 b' : Busy} (h : Shadow b b') {a : Action} (hs : b.step M (.net a) = some b1) :
    Shadow b1 b' ∨ ∃ f b1', b'.step M (.net (.files f)) = some b1' ∧ Shadow b1 b1' := by
  obtain ⟨hm, e, _⟩ := busy_net_step hs
  obtain ⟨hm', hf⟩ := h.files hm
  have hb := shadow_eq h
  by_cases he : b1.prog.net.main = .ended
  · refine .inl ⟨?_, fun h => absurd he h⟩
    rw [e]
    exact ⟨h.user.commands, h.user.queue, h.user.holder, h.user.trace⟩
  · refine .inr ⟨b1.prog.net.fs, b'.withNet { b'.prog.net with fs := b1.prog.net.fs }, ?_, ?_, fun _ => ⟨hm', rfl⟩⟩
    · unfold Busy.step
      rw [if_neg hm']
      simp only [Program.step, World.step]
      rw [if_pos hm']
      rfl
    · rw [e]
      exact ⟨h.user.commands, h.user.queue, h.user.holder, h.user.trace⟩

/-- The same network without anything received. -/
structure Quiet (w w' : Crowd N) : Prop where
  node : ∀ n, Shadow (w.node n) (w'.node n)
  air : w'.air = w.air
  conns : w'.conns = w.conns

theorem quiet_set {w w' : Crowd N} (h : Quiet w w') (n : N) {b b' : Busy} (hb : Shadow b b') :
    Quiet (w.set n b) (w'.set n b') := by
  refine ⟨fun m => ?_, h.air, h.conns⟩
  by_cases e : m = n
  · subst e; rw [crowd_set_self, crowd_set_self]; exact hb
  · rw [crowd_set_other _ _ e, crowd_set_other _ _ e]; exact h.node m

theorem quiet_keep {w w' : Crowd N} (h : Quiet w w') (n : N) {b : Busy} (hb : Shadow b (w'.node n)) : Quiet (w.set n b) w' := by
  refine ⟨fun m => ?_, h.air, h.conns⟩
  by_cases e : m = n
  · subst e; rw [crowd_set_self]; exact hb
  · rw [crowd_set_other _ _ e]; exact h.node m

/-- Events of a network in which nothing is received. -/
def NothingReceived (es : List (CrowdEvent N)) : Prop := ∀ e ∈ es, e.byUsers = true ∨ ∃ n f, e = .inside n (.files f)

/-- A step on the network side of a machine. -/
theorem quiet_net {P : Plant N} {w w' : Crowd N} (h : Quiet w w') {n : N} {a : Action} {b : Busy}
    (hs : (w.node n).step (P.machine n) (.net a) = some b) :
    ∃ more w1', w'.run P more = some w1' ∧ NothingReceived more ∧ more.filter (·.byUsers) = [] ∧ Quiet (w.set n b) w1' := by
  rcases shadow_net (h.node n) hs with hb | ⟨f, b', h1, hb⟩
  · exact ⟨[], w', rfl, (fun e he => by cases he), rfl, quiet_keep h n hb⟩
  · refine ⟨[.inside n (.files f)], w'.set n b', ?_, ?_, rfl, quiet_set h n hb⟩
    · show (((w'.node n).step (P.machine n) _).map _).bind _ = _
      rw [h1]; rfl
    · intro e he
      exact .inr ⟨n, f, List.mem_singleton.1 he⟩

/-- What happens in one step. -/
theorem quiet_step {P : Plant N} {w w1 w' : Crowd N} (h : Quiet w w') {e : OpenEvent N} (hs : w.openStep P e = some w1) :
    ∃ more w1', w'.run P more = some w1' ∧ NothingReceived more ∧
      more.filter (·.byUsers) = (ownEvents [e]).filter (·.byUsers) ∧ Quiet w1 w1' ∧
      ∀ x, e = .goes x → x.byUsers = true → ∀ n, (w1.node n).prog.Ended → (w.node n).prog.Ended ∨ (w1'.node n).prog.Ended := by
  have ends : ∀ {n : N} {b b' : Busy}, (b.prog.net.main = .ended → b'.prog.net.main = .ended) →
      ∀ m, ((w.set n b).node m).prog.Ended → (w.node m).prog.Ended ∨ ((w'.set n b').node m).prog.Ended := by
    intro n b b' hb m hm
    by_cases e : m = n
    · subst e
      rw [crowd_set_self] at hm ⊢
      exact .inr (hb hm)
    · rw [crowd_set_other _ _ e] at hm
      exact .inl hm
  cases e with
  | stranger n d =>
    obtain ⟨b, h1, rfl⟩ := Option.map_eq_some_iff.1 hs
    obtain ⟨more, w1', m1, m2, m3, m4⟩ := quiet_net h h1
    exact ⟨more, w1', m1, m2, m3, m4, fun x hx => by cases hx⟩
  | goes e =>
    have one : ∀ {e : CrowdEvent N} {w1' : Crowd N}, w'.step P e = some w1' → w'.run P [e] = some w1' := by
      intro e w1' h
      show (w'.step P e).bind _ = _
      rw [h]; rfl
    have said : ∀ {e : CrowdEvent N}, e.byUsers = true → NothingReceived [e] := by
      intro e he x hx
      rw [List.mem_singleton.1 hx]; exact .inl he
    rcases crowd_step_cases (show w.step P e = some w1 from hs) with ⟨n, line, b, rfl, h1, rfl⟩ | ⟨n, i, o, source, b, rfl, h1, rfl⟩ |
      ⟨n, b, rfl, h1, rfl⟩ | ⟨n, i, fam, clock, d, b, rfl, hd, hh, h1, rfl⟩ | ⟨n, a, b, rfl, ha, h1, rfl⟩
    · obtain ⟨b', h2, hb, he⟩ := shadow_user (h.node n) (fun a => by simp) h1
      refine ⟨[.typed n line], w'.set n b', one ?_, said rfl, rfl, quiet_set h n hb, fun _ _ _ => ends he⟩
      show ((w'.node n).step (P.machine n) _).map _ = _
      rw [h2]; rfl
    · obtain ⟨b', h2, hb, he⟩ := shadow_user (h.node n) (fun a => by simp) h1
      have q := quiet_set h n hb
      refine ⟨[.begin n i o source], { w'.set n b' with conns := w'.connect P n i o source }, one ?_, said rfl, rfl,
        ⟨q.node, q.air, ?_⟩, fun _ _ _ => ends he⟩
      · show ((w'.node n).step (P.machine n) _).map _ = _
        rw [h2]; rfl
      · show w'.connect P n i o source = w.connect P n i o source
        unfold Crowd.connect
        rw [(h.node n).user.queue, h.conns]
    · obtain ⟨b', h2, hb, he⟩ := shadow_user (h.node n) (fun a => by simp) h1
      have q := quiet_set h n hb
      refine ⟨[.act n], { w'.set n b' with air := w'.air ++ w'.departs n }, one ?_, said rfl, rfl, ⟨q.node, ?_, q.conns⟩,
        fun _ _ _ => ends he⟩
      · show ((w'.node n).step (P.machine n) _).map _ = _
        rw [h2]; rfl
      · show w'.air ++ w'.departs n = w.air ++ w.departs n
        unfold Crowd.departs
        rw [h.air, (h.node n).user.holder, h.conns, (h.node n).user.commands.1]
    all_goals
      obtain ⟨more, w1', m1, m2, m3, m4⟩ := quiet_net h h1
      exact ⟨more, w1', m1, m2, m3, m4, fun x hx hu => by cases hx; cases hu⟩

theorem crowd_run_both {P : Plant N} : ∀ (es fs : List (CrowdEvent N)) (w0 : Crowd N),
    w0.run P (es ++ fs) = (w0.run P es).bind fun w => w.run P fs
  | [], fs, w0 => rfl
  | x :: es, fs, w0 => by
    show (w0.step P x).bind _ = ((w0.step P x).bind _).bind _
    cases w0.step P x with
    | none => rfl
    | some w1 => exact crowd_run_both es fs w1

theorem quiet_run {P : Plant N} {fs : N → FS} {c : N → Cliflags} {es : List (OpenEvent N)} {w : Crowd N}
    (h : OpenLeads P fs c es w) : ∃ es' w', CrowdLeads P fs c es' w' ∧ NothingReceived es' ∧
      es'.filter (·.byUsers) = (ownEvents es).filter (·.byUsers) ∧ Quiet w w' := by
  refine openLeads_induction (Q := fun es w => ∃ es' w', CrowdLeads P fs c es' w' ∧ NothingReceived es' ∧
      es'.filter (·.byUsers) = (ownEvents es).filter (·.byUsers) ∧ Quiet w w')
    ⟨[], _, rfl, (fun e he => by cases he), rfl, (fun n => ⟨⟨⟨rfl, rfl, rfl, rfl, rfl⟩, rfl, rfl, rfl⟩, fun h => ⟨h, rfl⟩⟩), rfl, rfl⟩
    ?_ h
  rintro es w e w1 ⟨es', w', i1, i2, i3, i4⟩ hs
  obtain ⟨more, w1', m1, m2, m3, m4, _⟩ := quiet_step i4 hs
  refine ⟨es' ++ more, w1', ?_, ?_, ?_, m4⟩
  · unfold CrowdLeads at i1 ⊢
    rw [crowd_run_both, i1]; exact m1
  · intro x hx
    rcases List.mem_append.1 hx with hx | hx
    · exact i2 x hx
    · exact m2 x hx
  · rw [List.filter_append, ownEvents_append, List.filter_append, i3, m3]

/-- **C180, strangers do not speak for anybody.** Whatever is received, from strangers or from each other: what the users have
entered, what their commands have done and what the programs have put into the air is the same as in an execution in which
no datagram arrives anywhere and nobody else is there. -/
theorem C180_unmoved {P : Plant N} {fs : N → FS} {c : N → Cliflags} {es : List (OpenEvent N)} {w : Crowd N}
    (h : OpenLeads P fs c es w) : ∃ es' w', CrowdLeads P fs c es' w' ∧
      (∀ e ∈ es', e.byUsers = true ∨ ∃ n f, e = .inside n (.files f)) ∧
      es'.filter (·.byUsers) = (ownEvents es).filter (·.byUsers) ∧ w'.air = w.air ∧ ∀ n, SameUser (w.node n) (w'.node n) := by
  obtain ⟨es', w', h1, h2, h3, h4⟩ := quiet_run h
  exact ⟨es', w', h1, h2, h3, h4.air, fun n => (h4.node n).user⟩

/-- **C180, only beacons travel.** No program sends anything but beacons, whatever strangers send it. -/
theorem C180_only_beacons {P : Plant N} (hT : ∀ n, (P.machine n).S.T = shipped) {fs : N → FS} {c : N → Cliflags}
    {es : List (OpenEvent N)} {w : Crowd N} (h : OpenLeads P fs c es w) :
    ∀ d ∈ w.air, getStr shipped (headWord d.bytes) "version" = .ret "v1" ∧
      (∃ b, Says shipped d.bytes (.beacon b)) ∧ ∀ f, Says shipped d.bytes f → ∃ b, f = .beacon b := by
  obtain ⟨es', w', h1, _, _, h4⟩ := quiet_run h
  rw [← h4.air]
  exact C174_only_beacons hT h1

/-- **C180, strangers leave the files alone.** The files of a machine change only when a command begins there or another
program changes them. -/
theorem C180_no_file_moves {P : Plant N} (hT : ∀ n, (P.machine n).S.T = shipped) {w w' : Crowd N} {e : OpenEvent N}
    (hs : w.openStep P e = some w') (n : N) (here : ∀ i o source, e ≠ .goes (.begin n i o source))
    (others : ∀ f, e ≠ .goes (.inside n (.files f))) : (w'.node n).prog.net.fs = (w.node n).prog.net.fs := by
  have net : ∀ {m a b}, (m = n → ∀ f, a ≠ .files f) → (w.node m).step (P.machine m) (.net a) = some b →
      ((w.set m b).node n).prog.net.fs = (w.node n).prog.net.fs := by
    intro m a b ha h1
    by_cases hm : n = m
    · subst hm
      rw [crowd_set_self]
      exact step_keeps_files (hT n) (busy_net_step h1).2.2 (ha rfl)
    · rw [crowd_set_other _ _ hm]
  cases e with
  | stranger m d =>
    obtain ⟨b, h1, rfl⟩ := Option.map_eq_some_iff.1 hs
    exact net (fun _ f => by simp) h1
  | goes e =>
    rcases crowd_step_cases (show w.step P e = some w' from hs) with ⟨m, line, b, rfl, h1, rfl⟩ | ⟨m, i, o, source, b, rfl, h1, rfl⟩ |
      ⟨m, b, rfl, h1, rfl⟩ | ⟨m, i, fam, clock, d, b, rfl, hd, hh, h1, rfl⟩ | ⟨m, a, b, rfl, ha, h1, rfl⟩
    · by_cases hm : n = m
      · subst hm
        rw [crowd_set_self]
        unfold Busy.step at h1
        split at h1
        · cases h1
        simp only [Option.some.injEq] at h1
        subst h1
        unfold Busy.enter
        split <;> rfl
      · rw [crowd_set_other _ _ hm]
    · have hm : n ≠ m := by rintro rfl; exact here _ _ _ rfl
      show ((w.set m b).node n).prog.net.fs = _
      rw [crowd_set_other _ _ hm]
    · by_cases hm : n = m
      · subst hm
        show ((w.set n b).node n).prog.net.fs = _
        rw [crowd_set_self]
        unfold Busy.step at h1
        split at h1
        · cases h1
        simp only at h1
        split at h1
        · cases h1
        · cases h1; rfl
        · cases h1; rfl
      · show ((w.set m b).node n).prog.net.fs = _
        rw [crowd_set_other _ _ hm]
    · exact net (fun _ f => by simp) h1
    · exact net (fun hm f hf => others f (by rw [hf, hm])) h1

/-- **C180, what a program believes.** Every entry of a peer table stands under the source address of the datagram it is from.
Either a program of the network has sent it, to an address heard here; then the entry shows the name, the free space and
the settings this program had when it sent it. Or a stranger has; then it shows what the stranger's beacon says. -/
theorem C180_peers {P : Plant N} (hT : ∀ n, (P.machine n).S.T = shipped) {fs : N → FS} {c : N → Cliflags}
    {es : List (OpenEvent N)} {w : Crowd N} (h : OpenLeads P fs c es w) (n : N) :
    ∀ p ∈ (w.node n).prog.net.peers,
      (∃ d ∈ w.air, P.hears n d.dest = true ∧ p.addr = (P.machine n).S.ipText d.source.ip ∧
        (ValidGlobal shipped d.settings.global → d.Tells p)) ∨
      ∃ d ∈ strangersAt n es, p.addr = (P.machine n).S.ipText d.source.ip ∧
        ∃ b, Says shipped d.bytes (.beacon b) ∧ p.Shows shipped b := by
  intro p hp
  obtain ⟨es', w', l1, _, _, l4⟩ := quiet_run h
  obtain ⟨es2, w2, a⟩ := accounted l1
  obtain ⟨own, o1, _, _, o4⟩ := C180_node h n
  obtain ⟨ps, q1, q2, _, _⟩ := C145_serial o1
  have hr := C127_network q1
  obtain ⟨y, hy, b, y2, ha, sh⟩ := peer_handled (hT n) hr p hp
  obtain ⟨r, hrd, r1, r2⟩ := handled_read hr y hy
  have came : Action.recv r ∈ netSteps own := by
    rw [← q2]
    exact List.mem_filterMap.2 ⟨_, read_came q1 r hrd, rfl⟩
  have says' := (C42_delivers _ _ _ _ _ r2).2.2
  rw [hT] at says'
  rcases o4 r came with hst | ⟨d, hd, g1, g2, g3⟩
  · exact .inr ⟨r, hst, by rw [ha, ← r1], b, by rw [← y2]; exact says', sh⟩
  · rw [g2] at says'
    refine .inl ⟨d, hd, g1, by rw [ha, ← r1, g3], fun ok => ?_⟩
    obtain ⟨-, x, b1, b2⟩ := air_built hT a.leads (a.air d (by rw [l4.air]; exact hd))
    obtain ⟨s1, s2, s3⟩ := built_says b1 b2
    have says : Says shipped d.bytes (.beacon x) := ⟨s3, s1⟩
    have := says'.unique says
    rw [y2] at this
    have hx : b = x := by simpa using this
    exact shows_tells ok b1 (hx ▸ sh)

/-- **C180, strangers only speak under their own address.** What is listed under an address from which no stranger has sent
anything here is true. -/
theorem C180_true_elsewhere {P : Plant N} (hT : ∀ n, (P.machine n).S.T = shipped) {fs : N → FS} {c : N → Cliflags}
    {es : List (OpenEvent N)} {w : Crowd N} (h : OpenLeads P fs c es w) (n : N) {p : Peer}
    (hp : p ∈ (w.node n).prog.net.peers)
    (free : ∀ d ∈ strangersAt n es, (P.machine n).S.ipText d.source.ip ≠ p.addr) :
    ∃ d ∈ w.air, P.hears n d.dest = true ∧ p.addr = (P.machine n).S.ipText d.source.ip ∧
      (ValidGlobal shipped d.settings.global → d.Tells p) := by
  rcases C180_peers hT h n p hp with h | ⟨d, hd, e, _⟩
  · exact h
  · exact absurd e.symm (free d hd)

/-! ## Who can end a program -/

/-- A listener gives up only because of an error of its socket. -/
theorem quit_came {M : Machine} {fs : FS} {c : Cliflags} {es : List Event} {p : Program} (h : Leads M fs c es p) :
    ∀ fam, p.net.listener fam = .sendQuit → Event.net (.readError fam) ∈ es := by
  refine leads_induction (P := fun es p => ∀ fam, p.net.listener fam = .sendQuit → Event.net (.readError fam) ∈ es)
    (by intro fam hl; cases hl) ?_ h
  intro es p e p' ih hs fam hl
  have old : p.net.listener fam = .sendQuit → Event.net (.readError fam) ∈ es ++ [e] :=
    fun h => List.mem_append_left _ (ih fam h)
  have set_ne : ∀ g (st : LState), st ≠ .sendQuit → (p.net.setListener g st).listener fam = .sendQuit →
      Event.net (.readError fam) ∈ es ++ [e] := by
    intro g st hne hq
    by_cases hg : fam = g
    · subst hg; rw [setListener_self] at hq; exact absurd hq hne
    · rw [setListener_other _ _ hg] at hq; exact old hq
  rcases program_step_cases hs with ⟨a, w, rfl, hk, h1, rfl⟩ | ⟨line, o, rfl, hm, rfl⟩
  · rcases step_cases h1 with ⟨d, rfl, hm, _, rfl⟩ | ⟨g, rfl, hm, _, rfl⟩ | ⟨g, clock, f, addr, rfl, hm, hr, rfl⟩ |
      ⟨g, s, addr, rfl, hm, hr, rfl⟩ | ⟨g, rfl, hm, _, rfl⟩ | ⟨rfl, hm, rfl⟩ | ⟨rfl, hm, rfl⟩ | ⟨f, rfl, hm, rfl⟩
    · rcases onRecv_cases M.S p.net d with ⟨_, h⟩ | ⟨hf, h⟩ | ⟨f', hf, h⟩ | ⟨s, hf, h⟩ <;> simp only [h] at hl
      · exact old hl
      · exact old hl
      · exact set_ne _ _ (by simp) hl
      · exact set_ne _ _ (by simp) hl
    · by_cases hg : fam = g
      · subst hg; exact List.mem_append_right _ (List.mem_singleton.2 rfl)
      · simp only [setListener_other _ _ hg] at hl; exact old hl
    · simp only [(onRx_logs M.S p.net g clock f addr).1] at hl
      exact set_ne _ _ (by simp) hl
    · simp only [(onTx_logs M.S p.net g s addr).1] at hl
      exact set_ne _ _ (by simp) hl
    · exact set_ne _ _ (by simp) hl
    · exact old hl
    · exact old hl
    · exact old hl
  · have := ((C127_apart hs).2 line o rfl).1
    rw [← this] at hl
    exact old hl

theorem entered_users (n : N) : ∀ es : List (CrowdEvent N), enteredAt n (es.filter (·.byUsers)) = enteredAt n es
  | [] => rfl
  | e :: es => by
    have ih := entered_users n es
    rw [show e :: es = [e] ++ es from rfl, List.filter_append, enteredAt_append, enteredAt_append, ih]
    cases e <;> rfl

/-- The execution in which nothing is received goes on. -/
theorem quiet_goes_on {P : Plant N} (hT : ∀ n, (P.machine n).S.T = shipped) {fs : N → FS} {c : N → Cliflags}
    {es es' : List (CrowdEvent N)} {w' : Crowd N} (h : CrowdLeads P fs c es' w') (nothing : NothingReceived es')
    (same : es'.filter (·.byUsers) = es.filter (·.byUsers)) (n : N)
    (legal : ValidGlobal shipped (c n).global)
    (lines : ∀ line ∈ enteredAt n es, ¬ FatalLine line)
    (words : ∀ ws ∈ wordsEntered (P.machine n) (enteredAt n es), ws ≠ ["txwilling", "on"] ∧ ws ≠ ["txwilling", "off"])
    (system : ∀ i o source, .begin n i o source ∈ es → (∀ a, ∃ t, o.remote a = .ok t) ∧ ∀ f, (o.file.fileMeta f).returns) :
    ¬ (w'.node n).prog.Ended := by
  have he : enteredAt n es' = enteredAt n es := by rw [← entered_users, same, entered_users]
  have hi : ∀ a ∈ insideAt n es', ∃ f, a = .files f := by
    intro a ha
    obtain ⟨x, hx, hxa⟩ := List.mem_filterMap.1 ha
    rcases nothing x hx with h | ⟨m, f, rfl⟩
    · cases x <;> first | cases hxa | cases h
    · simp only at hxa
      split at hxa
      · exact ⟨f, by cases hxa; rfl⟩
      · cases hxa
  refine C174_goes_on hT h n legal (by rw [he]; exact lines) (by rw [he]; exact words) ?_ ?_ ?_
  · intro i o source hm
    have : CrowdEvent.begin n i o source ∈ es'.filter (·.byUsers) := List.mem_filter.2 ⟨hm, rfl⟩
    rw [same] at this
    exact system i o source (List.mem_filter.1 this).1
  · intro fam hm
    obtain ⟨f, hf⟩ := hi _ hm; cases hf
  · intro hm
    obtain ⟨f, hf⟩ := hi _ hm; cases hf

theorem open_air_safe {P : Plant N} (hT : ∀ n, (P.machine n).S.T = shipped) {fs : N → FS} {c : N → Cliflags}
    {es : List (OpenEvent N)} {w : Crowd N} (h : OpenLeads P fs c es w) {d : Packet N} (hd : d ∈ w.air) (mtu : Nat) :
    ListenSafe mtu d.bytes := by
  obtain ⟨es', w', l1, _, _, l4⟩ := quiet_run h
  obtain ⟨es2, w2, a⟩ := accounted l1
  exact air_safe hT a.leads (a.air d (by rw [l4.air]; exact hd)) mtu

/-- **C180, who can end a program.** A program goes on whatever happens elsewhere, and whatever strangers send it, unless one
of these datagrams is among those that end a listener or the main loop (C42, C65). -/
theorem C180_goes_on {P : Plant N} (hT : ∀ n, (P.machine n).S.T = shipped) {fs : N → FS} {c : N → Cliflags}
    {es : List (OpenEvent N)} {w : Crowd N} (h : OpenLeads P fs c es w) (n : N)
    (legal : ValidGlobal shipped (c n).global)
    (lines : ∀ line ∈ enteredAt n (ownEvents es), ¬ FatalLine line)
    (words : ∀ ws ∈ wordsEntered (P.machine n) (enteredAt n (ownEvents es)), ws ≠ ["txwilling", "on"] ∧ ws ≠ ["txwilling", "off"])
    (system : ∀ i o source, .begin n i o source ∈ ownEvents es →
      (∀ a, ∃ t, o.remote a = .ok t) ∧ ∀ f, (o.file.fileMeta f).returns)
    (sockets : ∀ fam, .readError fam ∉ insideAt n (ownEvents es)) (interface : .userQuit ∉ insideAt n (ownEvents es))
    (strangers : ∀ d ∈ strangersAt n es, ListenSafe (P.machine n).S.mtu d.bytes ∧ ∀ f, Says shipped d.bytes f → ¬ Deadly f) :
    ¬ (w.node n).prog.Ended := by
  have key := openLeads_induction (P := P) (fs := fs) (c := c) (Q := fun es w => OpenLeads P fs c es w ∧
    ((∀ line ∈ enteredAt n (ownEvents es), ¬ FatalLine line) →
    (∀ ws ∈ wordsEntered (P.machine n) (enteredAt n (ownEvents es)), ws ≠ ["txwilling", "on"] ∧ ws ≠ ["txwilling", "off"]) →
    (∀ i o source, .begin n i o source ∈ ownEvents es →
      (∀ a, ∃ t, o.remote a = .ok t) ∧ ∀ f, (o.file.fileMeta f).returns) →
    (∀ fam, .readError fam ∉ insideAt n (ownEvents es)) → .userQuit ∉ insideAt n (ownEvents es) →
    (∀ d ∈ strangersAt n es, ListenSafe (P.machine n).S.mtu d.bytes ∧ ∀ f, Says shipped d.bytes f → ¬ Deadly f) →
    ¬ (w.node n).prog.Ended)) ⟨rfl, fun _ _ _ _ _ _ => by simp [Program.Ended, Crowd.init, Busy.init, Program.init, World.init]⟩ ?_ h
  · exact key.2 lines words system sockets interface strangers
  clear lines words system sockets interface strangers
  rintro es w e w1 ⟨lead, ih⟩ hs
  refine ⟨openLeads_snoc lead hs, fun lines words system sockets interface strangers => ?_⟩
  have running : ¬ (w.node n).prog.Ended := by
    refine ih (fun l hl => lines l ?_) (fun ws hw => words ws ?_) (fun i o s hm => system i o s ?_)
      (fun fam hm => sockets fam ?_) (fun hm => interface ?_) (fun d hd => strangers d ?_)
    · rw [ownEvents_append, enteredAt_append]; exact List.mem_append_left _ hl
    · rw [ownEvents_append, enteredAt_append]
      unfold wordsEntered at hw ⊢
      rw [List.filterMap_append]
      exact List.mem_append_left _ hw
    · rw [ownEvents_append]; exact List.mem_append_left _ hm
    · rw [ownEvents_append, insideAt_append]; exact List.mem_append_left _ hm
    · rw [ownEvents_append, insideAt_append]; exact List.mem_append_left _ hm
    · rw [strangersAt_append]; exact List.mem_append_left _ hd
  -- a step on the network side of this machine
  have net : ∀ {a b}, (w.node n).step (P.machine n) (.net a) = some b →
      (∀ fam, a ≠ .readError fam) → a ≠ .userQuit →
      (∀ d, a = .recv d → ListenSafe (P.machine n).S.mtu d.bytes) → ¬ b.prog.Ended := by
    intro a b h1 h2 h3 h4
    obtain ⟨own, o1, _, o3, o4⟩ := C180_node lead n
    obtain ⟨ps, q1, q2, _, _⟩ := C145_serial o1
    have st : (w.node n).prog.step (P.machine n) (.net a) = some b.prog := by
      unfold Busy.step at h1
      rw [if_neg (show ¬ (w.node n).prog.net.main = .ended from running)] at h1
      obtain ⟨p, hp, rfl⟩ := Option.map_eq_some_iff.1 h1
      exact hp
    rw [C127_ends_iff (hT n) q1 st]
    cases a with
    | recv d => exact fun h => h (h4 d rfl)
    | readError fam => exact absurd rfl (h2 fam)
    | userQuit => exact absurd rfl h3
    | takeRx fam clock =>
      rintro ⟨f, addr, hl, hd⟩
      obtain ⟨d, hd1, _, _, hd2⟩ := pending_from (C127_network q1) hl
      have says := (C42_delivers _ _ _ _ _ hd2).2.2
      rw [hT] at says
      have came : Action.recv d ∈ netSteps own := by
        rw [← q2]
        exact List.mem_filterMap.2 ⟨_, read_came q1 d hd1, rfl⟩
      rcases o4 d came with hst | ⟨x, hx, _, g2, _⟩
      · exact (strangers d (by rw [strangersAt_append]; exact List.mem_append_left _ hst)).2 f says hd
      · rw [g2] at says
        obtain ⟨bb, rfl⟩ := (C180_only_beacons hT lead x hx).2.2 f says
        exact hd
    | takeQuit fam =>
      intro _
      have hw := (busy_net_step h1).2.2
      simp only [World.step] at hw
      split at hw
      · rename_i hl
        have := quit_came q1 fam hl
        have came : Action.readError fam ∈ netSteps own := by
          rw [← q2]
          exact List.mem_filterMap.2 ⟨_, this, rfl⟩
        rcases o3 _ came with ⟨d, hd⟩ | hi
        · cases hd
        · exact sockets fam (by rw [ownEvents_append, insideAt_append]; exact List.mem_append_left _ hi)
      · cases hw
    | takeTx fam => exact id
    | kill => exact id
    | files f => exact id
  obtain ⟨es', w', l1, l2, l3, l4⟩ := quiet_run lead
  obtain ⟨more, w1', m1, m2, m3, _, m5⟩ := quiet_step l4 hs
  have user : ∀ x, e = .goes x → x.byUsers = true → ¬ (w1.node n).prog.Ended := by
    intro x hx hu hn
    rcases m5 x hx hu n hn with h | h
    · exact running h
    · refine quiet_goes_on hT (fs := fs) (es := ownEvents (es ++ [e])) (es' := es' ++ more) (w' := w1') ?_ ?_ ?_ n legal lines words system h
      · unfold CrowdLeads at l1 ⊢
        rw [crowd_run_both, l1]; exact m1
      · intro y hy
        rcases List.mem_append.1 hy with hy | hy
        · exact l2 y hy
        · exact m2 y hy
      · rw [List.filter_append, ownEvents_append, List.filter_append, l3, m3]
  have at_n : ∀ {m a b}, (w.node m).step (P.machine m) (.net a) = some b → w1 = w.set m b →
      (m = n → (∀ fam, a ≠ .readError fam) ∧ a ≠ .userQuit ∧ ∀ d, a = .recv d → ListenSafe (P.machine n).S.mtu d.bytes) →
      ¬ (w1.node n).prog.Ended := by
    intro m a b h1 hw hh
    by_cases hm : n = m
    · subst hm
      obtain ⟨a1, a2, a3⟩ := hh rfl
      rw [hw, crowd_set_self]
      exact net h1 a1 a2 a3
    · rw [hw, crowd_set_other _ _ hm]; exact running
  cases e with
  | stranger m d =>
    obtain ⟨b, h1, h2⟩ := Option.map_eq_some_iff.1 hs
    refine at_n h1 h2.symm ?_
    rintro rfl
    refine ⟨fun _ => by simp, by simp, fun d' hd => ?_⟩
    cases hd
    exact (strangers d (by rw [strangersAt_append]; exact List.mem_append_right _ (by simp [strangersAt]))).1
  | goes e =>
    rcases crowd_step_cases (show w.step P e = some w1 from hs) with ⟨m, line, b, rfl, h1, _⟩ | ⟨m, i, o, source, b, rfl, h1, _⟩ |
      ⟨m, b, rfl, h1, _⟩ | ⟨m, i, fam, clock, d, b, rfl, hd, hh, h1, hw⟩ | ⟨m, a, b, rfl, ha, h1, hw⟩
    · exact user _ rfl rfl
    · exact user _ rfl rfl
    · exact user _ rfl rfl
    · refine at_n h1 hw ?_
      rintro rfl
      refine ⟨fun _ => by simp, by simp, fun d' hd' => ?_⟩
      cases hd'
      exact open_air_safe hT lead (List.mem_of_getElem? hd) _
    · refine at_n h1 hw ?_
      rintro rfl
      refine ⟨fun fam hf => sockets fam ?_, fun hf => interface ?_, fun d hd => absurd hd (ha d)⟩
      · rw [hf, ownEvents_append, insideAt_append]; exact List.mem_append_right _ (by simp [ownEvents, insideAt])
      · rw [hf, ownEvents_append, insideAt_append]; exact List.mem_append_right _ (by simp [ownEvents, insideAt])

/-- **C180, and these datagrams do end it.** Any datagram outside `ListenSafe` ends a program that runs and has a listener
reading, in any state; the others notice nothing. -/
theorem C180_ended_by {P : Plant N} (w : Crowd N) (n : N) (hT : (P.machine n).S.T = shipped) (d : Datagram)
    (running : ¬ (w.node n).prog.Ended) (reading : (w.node n).prog.net.listener d.fam = .reading)
    (unsafe_ : ¬ ListenSafe (P.machine n).S.mtu d.bytes) :
    ∃ w1, w.openStep P (.stranger n d) = some w1 ∧ (w1.node n).prog.Ended ∧ w1.air = w.air ∧ ∀ m, m ≠ n → w1.node m = w.node m := by
  have st : (w.node n).step (P.machine n) (.net (.recv d)) =
      some ((w.node n).withNet ((w.node n).prog.net.onRecv (P.machine n).S d)) := by
    unfold Busy.step
    rw [if_neg (show ¬ (w.node n).prog.net.main = .ended from running)]
    simp only [Program.step, World.step]
    rw [if_pos (show (w.node n).prog.net.main ≠ .ended ∧ (w.node n).prog.net.listener d.fam = .reading from ⟨running, reading⟩)]
    rfl
  refine ⟨w.set n ((w.node n).withNet ((w.node n).prog.net.onRecv (P.machine n).S d)), ?_, ?_, rfl,
    fun m hm => crowd_set_other _ _ hm⟩
  · show ((w.node n).step _ _).map _ = _
    rw [st]; rfl
  · rw [crowd_set_self]
    show ((w.node n).prog.net.onRecv (P.machine n).S d).main = .ended
    rw [← C42_returns_iff_partial d.clock] at unsafe_
    rcases onRecv_cases (P.machine n).S (w.node n).prog.net d with ⟨_, h⟩ | ⟨hf, _⟩ | ⟨f', hf, _⟩ | ⟨s, hf, _⟩
    · rw [h]
    all_goals
      rw [hT] at hf
      rw [hf] at unsafe_
      exact absurd trivial unsafe_

/-! ## A concrete case -/

/-- A stranger at 9.9.9.9. -/
def strangersBeacon : Datagram := ⟨.v4, ⟨0, 0⟩, [0x20, 0, 0, 0, 104, 105, 33, 33], ⟨[9#8, 9#8, 9#8, 9#8], 7542, ""⟩⟩

/-- The version of the protocol is given as 2. -/
def strangersVersion : Datagram := ⟨.v4, ⟨0, 0⟩, [0x40, 0, 0, 0, 104, 105, 33, 33], ⟨[9#8, 9#8, 9#8, 9#8], 7542, ""⟩⟩

/-- Machine 1 sends a beacon to machine 2; in between machine 2 hears a stranger. -/
def openEvents : List (OpenEvent Nat) :=
  [.goes (.typed 1 "saratoga[0]:beacon 1.1.1.2"), .stranger 2 strangersBeacon,
   .goes (.begin 1 0 towardsTwo (fun _ => ⟨[1#8, 1#8, 1#8, 1#8], 5000, ""⟩)), .goes (.inside 2 (.takeRx .v4 ⟨4, 0⟩)),
   .goes (.act 1), .goes (.act 1), .goes (.act 1), .goes (.arrives 2 0 .v4 ⟨0, 0⟩), .goes (.inside 2 (.takeRx .v4 ⟨5, 0⟩))]

/-- Both are listed, and the program of machine 2 goes on; had the stranger's datagram another version, it would not. -/
example : ((Crowd.init (fun _ => exampleFS) (fun _ => shippedSettings)).openRun examplePlant openEvents).map (fun w =>
      (w.air.length, (w.node 2).prog.net.peers.map (·.maxdesc), (w.node 2).prog.net.main == .ended)) =
      some (1, ["d16", "d64"], false) ∧
    ((Crowd.init (fun _ => exampleFS) (fun _ => shippedSettings)).openRun examplePlant [.stranger 2 strangersVersion]).map (fun w =>
      (w.node 2).prog.net.main == .ended) = some true := by decide +kernel

/-- Nothing in it is harmful to machine 2. -/
example : (∀ line ∈ enteredAt 2 (ownEvents openEvents), ¬ FatalLine line) ∧
    (∀ fam, .readError fam ∉ insideAt 2 (ownEvents openEvents)) ∧ .userQuit ∉ insideAt 2 (ownEvents openEvents) ∧
    strangersAt 2 openEvents = [strangersBeacon] ∧
    ListenSafe (examplePlant.machine 2).S.mtu strangersBeacon.bytes ∧
    ∀ f, Says shipped strangersBeacon.bytes f → ¬ Deadly f := by
  refine ⟨(fun line hl => by cases hl), fun fam h => ?_, fun h => ?_, rfl, ?_, fun f hf => ?_⟩
  · simp [insideAt, ownEvents, openEvents] at h
  · simp [insideAt, ownEvents, openEvents] at h
  · rw [← C42_returns_iff_partial ⟨0, 0⟩]
    have : (match listenFrame shipped ⟨0, 0⟩ (examplePlant.machine 2).S.mtu strangersBeacon.bytes with
      | .ret _ => true | _ => false) = true := by decide +kernel
    split at this
    · rename_i h; rw [h]; trivial
    · cases this
  · have key : (match getStr shipped (headWord strangersBeacon.bytes) "frametype" with
      | .ret s => s == "beacon" | _ => false) = true := by decide +kernel
    cases f with
    | request r => rw [hf.1] at key; exact absurd key (by decide)
    | metadata m => rw [hf.1] at key; exact absurd key (by decide)
    | _ => exact id

end Saratoga
