import Verif.Spec.Crowd
import Verif.Props.Busy
import Verif.Props.Network
/-! # C174: networks of programs whose commands run at the same time -/
namespace Saratoga

variable {N : Type} [DecidableEq N]

theorem crowd_set_self (w : Crowd N) (n : N) (b : Busy) : (w.set n b).node n = b := if_pos rfl

theorem crowd_set_other (w : Crowd N) {m n : N} (b : Busy) (h : m ≠ n) : (w.set n b).node m = w.node m := if_neg h

/-- The kinds of steps. -/
theorem crowd_step_cases {P : Plant N} {w w' : Crowd N} {e : CrowdEvent N} (h : w.step P e = some w') :
    (∃ n line b, e = .typed n line ∧ (w.node n).step (P.machine n) (.typed line) = some b ∧ w' = w.set n b) ∨
    (∃ n i o source b, e = .begin n i o source ∧ (w.node n).step (P.machine n) (.begin i o) = some b ∧
      w' = { w.set n b with conns := w.connect P n i o source }) ∨
    (∃ n b, e = .act n ∧ (w.node n).step (P.machine n) .act = some b ∧
      w' = { w.set n b with air := w.air ++ w.departs n }) ∨
    (∃ n k fam clock d b, e = .arrives n k fam clock ∧ w.air[k]? = some d ∧ P.hears n d.dest = true ∧
      (w.node n).step (P.machine n) (.net (.recv ⟨fam, clock, d.bytes, d.source⟩)) = some b ∧ w' = w.set n b) ∨
    (∃ n a b, e = .inside n a ∧ (∀ d, a ≠ .recv d) ∧ (w.node n).step (P.machine n) (.net a) = some b ∧ w' = w.set n b) := by
  cases e with
  | typed n line =>
    obtain ⟨b, h1, h2⟩ := Option.map_eq_some_iff.1 h
    exact .inl ⟨n, line, b, rfl, h1, h2.symm⟩
  | begin n i o source =>
    obtain ⟨b, h1, h2⟩ := Option.map_eq_some_iff.1 h
    exact .inr (.inl ⟨n, i, o, source, b, rfl, h1, h2.symm⟩)
  | act n =>
    obtain ⟨b, h1, h2⟩ := Option.map_eq_some_iff.1 h
    exact .inr (.inr (.inl ⟨n, b, rfl, h1, h2.symm⟩))
  | arrives n k fam clock =>
    simp only [Crowd.step] at h
    split at h
    · cases h
    · rename_i d hd
      split at h
      · rename_i hh
        obtain ⟨b, h1, h2⟩ := Option.map_eq_some_iff.1 h
        exact .inr (.inr (.inr (.inl ⟨n, k, fam, clock, d, b, rfl, hd, hh, h1, h2.symm⟩)))
      · cases h
  | inside n a =>
    cases a with
    | recv d => cases h
    | _ =>
      obtain ⟨b, h1, h2⟩ := Option.map_eq_some_iff.1 h
      exact .inr (.inr (.inr (.inr ⟨n, _, b, rfl, by simp, h1, h2.symm⟩)))

theorem crowd_induction {P : Plant N} {Q : List (CrowdEvent N) → Crowd N → Prop}
    (step : ∀ es w e w', Q es w → w.step P e = some w' → Q (es ++ [e]) w') :
    ∀ (es : List (CrowdEvent N)) {pre : List (CrowdEvent N)} {w w' : Crowd N}, Q pre w → w.run P es = some w' → Q (pre ++ es) w'
  | [], pre, w, w', h, hr => by cases hr; rw [List.append_nil]; exact h
  | e :: es, pre, w, w', h, hr => by
    unfold Crowd.run at hr
    cases h1 : w.step P e with
    | none => rw [h1] at hr; cases hr
    | some w1 =>
      rw [h1] at hr
      have := crowd_induction step es (step _ _ _ _ h h1) hr
      rwa [List.append_assoc] at this

theorem crowdLeads_induction {P : Plant N} {fs : N → FS} {c : N → Cliflags} {Q : List (CrowdEvent N) → Crowd N → Prop}
    (init : Q [] (Crowd.init fs c)) (step : ∀ es w e w', Q es w → w.step P e = some w' → Q (es ++ [e]) w')
    {es : List (CrowdEvent N)} {w : Crowd N} (h : CrowdLeads P fs c es w) : Q es w :=
  crowd_induction step es (pre := []) init h

theorem crowd_run_snoc {P : Plant N} {e : CrowdEvent N} : ∀ (es : List (CrowdEvent N)) (w0 : Crowd N),
    w0.run P (es ++ [e]) = (w0.run P es).bind fun w => w.step P e
  | [], w0 => by
    show (w0.step P e).bind (fun w => some w) = w0.step P e
    cases w0.step P e <;> rfl
  | x :: es, w0 => by
    show (w0.step P x).bind _ = ((w0.step P x).bind _).bind _
    cases w0.step P x with
    | none => rfl
    | some w1 => exact crowd_run_snoc es w1

theorem crowdLeads_snoc {P : Plant N} {fs : N → FS} {c : N → Cliflags} {es : List (CrowdEvent N)} {w w' : Crowd N}
    (h : CrowdLeads P fs c es w) {e : CrowdEvent N} (hs : w.step P e = some w') : CrowdLeads P fs c (es ++ [e]) w' := by
  unfold CrowdLeads at h ⊢
  rw [crowd_run_snoc, h]
  exact hs

/-- What one machine sees of a step. -/
theorem crowd_node_step {P : Plant N} {w w' : Crowd N} {e : CrowdEvent N} (h : w.step P e = some w') (n : N) :
    (w'.node n = w.node n ∧ enteredAt n [e] = [] ∧ insideAt n [e] = []) ∨
    ∃ e', (w.node n).step (P.machine n) e' = some (w'.node n) ∧ typedLines [e'] = enteredAt n [e] ∧
      ((∃ fam clock d, d ∈ w.air ∧ P.hears n d.dest = true ∧ e' = .net (.recv ⟨fam, clock, d.bytes, d.source⟩) ∧
          insideAt n [e] = []) ∨
        (netSteps [e'] = insideAt n [e] ∧ ∀ d, e' ≠ .net (.recv d))) := by
  rcases crowd_step_cases h with ⟨m, line, b, rfl, h1, rfl⟩ | ⟨m, i, o, source, b, rfl, h1, rfl⟩ | ⟨m, b, rfl, h1, rfl⟩ |
    ⟨m, k, fam, clock, d, b, rfl, hd, hh, h1, rfl⟩ | ⟨m, a, b, rfl, ha, h1, rfl⟩
  all_goals
    by_cases e : n = m
    · subst e
      refine .inr ?_
      first
        | exact ⟨.typed line, by rw [crowd_set_self]; exact h1, by simp [typedLines, enteredAt],
            .inr ⟨by simp [netSteps, insideAt], fun d => by simp⟩⟩
        | exact ⟨.begin i o, by rw [show (_ : Crowd N).node n = b from crowd_set_self w n b]; exact h1,
            by simp [typedLines, enteredAt], .inr ⟨by simp [netSteps, insideAt], fun d => by simp⟩⟩
        | exact ⟨.act, by rw [show (_ : Crowd N).node n = b from crowd_set_self w n b]; exact h1,
            by simp [typedLines, enteredAt], .inr ⟨by simp [netSteps, insideAt], fun d => by simp⟩⟩
        | exact ⟨_, by rw [crowd_set_self]; exact h1, by simp [typedLines, enteredAt],
            .inl ⟨fam, clock, d, List.mem_of_getElem? hd, hh, rfl, by simp [insideAt]⟩⟩
        | exact ⟨_, by rw [crowd_set_self]; exact h1, by simp [typedLines, enteredAt],
            .inr ⟨by simp [netSteps, insideAt], fun d => by simpa using ha d⟩⟩
    · refine .inl ⟨crowd_set_other w b e, ?_, ?_⟩ <;> simp [enteredAt, insideAt, Ne.symm e]

theorem crowd_air {P : Plant N} {w w' : Crowd N} {e : CrowdEvent N} (h : w.step P e = some w') : ∀ d ∈ w.air, d ∈ w'.air := by
  rcases crowd_step_cases h with ⟨m, line, b, rfl, h1, rfl⟩ | ⟨m, i, o, source, b, rfl, h1, rfl⟩ | ⟨m, b, rfl, h1, rfl⟩ |
    ⟨m, k, fam, clock, d, b, rfl, hd, hh, h1, rfl⟩ | ⟨m, a, b, rfl, ha, h1, rfl⟩
  all_goals first | exact fun d hd => hd | exact fun d hd => List.mem_append_left _ hd

theorem enteredAt_append (n : N) (es fs : List (CrowdEvent N)) : enteredAt n (es ++ fs) = enteredAt n es ++ enteredAt n fs :=
  List.filterMap_append

theorem insideAt_append (n : N) (es fs : List (CrowdEvent N)) : insideAt n (es ++ fs) = insideAt n es ++ insideAt n fs :=
  List.filterMap_append

theorem insideOf_append (n : N) (es fs : List (NetEvent N)) : insideOf n (es ++ fs) = insideOf n es ++ insideOf n fs :=
  List.filterMap_append

/-- **C174, each program by itself.** Every program goes through an execution of its own, as in C145, with the lines entered
at it in their order and with datagrams of the air only. -/
theorem C174_node {P : Plant N} {fs : N → FS} {c : N → Cliflags} {es : List (CrowdEvent N)} {w : Crowd N}
    (h : CrowdLeads P fs c es w) (n : N) :
    ∃ own, BusyLeads (P.machine n) (fs n) (c n) own (w.node n) ∧ typedLines own = enteredAt n es ∧
      (∀ a, a ∈ netSteps own → (∃ d, a = .recv d) ∨ a ∈ insideAt n es) ∧
      ∀ d, .recv d ∈ netSteps own → ∃ x ∈ w.air, P.hears n x.dest = true ∧ d.bytes = x.bytes ∧ d.source = x.source := by
  refine crowdLeads_induction (Q := fun es w => ∃ own, BusyLeads (P.machine n) (fs n) (c n) own (w.node n) ∧
    typedLines own = enteredAt n es ∧ (∀ a, a ∈ netSteps own → (∃ d, a = .recv d) ∨ a ∈ insideAt n es) ∧
    ∀ d, .recv d ∈ netSteps own → ∃ x ∈ w.air, P.hears n x.dest = true ∧ d.bytes = x.bytes ∧ d.source = x.source)
    ⟨[], rfl, rfl, (fun a ha => by cases ha), (fun d hd => by cases hd)⟩ ?_ h
  rintro es w e w' ⟨own, i1, i2, i3, i4⟩ hs
  have air := crowd_air hs
  rcases crowd_node_step hs n with ⟨e1, e2, e3⟩ | ⟨e', s1, s2, s3⟩
  · refine ⟨own, by rw [e1]; exact i1, by rw [enteredAt_append, e2, List.append_nil]; exact i2, fun a ha => ?_, fun d hd => ?_⟩
    · rw [insideAt_append, e3, List.append_nil]; exact i3 a ha
    · obtain ⟨x, hx, r⟩ := i4 d hd; exact ⟨x, air x hx, r⟩
  · refine ⟨own ++ [e'], ?_, by rw [typedLines_append, enteredAt_append, i2, s2], fun a ha => ?_, fun d hd => ?_⟩
    · unfold BusyLeads at i1 ⊢
      rw [busy_run_append, i1]
      show ((w.node n).step _ e').bind _ = _
      rw [s1]; rfl
    · rw [netSteps_append] at ha
      rw [insideAt_append, List.mem_append]
      rcases List.mem_append.1 ha with ha | ha
      · rcases i3 a ha with h | h
        · exact .inl h
        · exact .inr (.inl h)
      · rcases s3 with ⟨fam, clock, d, _, _, rfl, _⟩ | ⟨h, _⟩
        · exact .inl ⟨_, List.mem_singleton.1 ha⟩
        · rw [h] at ha; exact .inr (.inr ha)
    · rw [netSteps_append] at hd
      rcases List.mem_append.1 hd with hd | hd
      · obtain ⟨x, hx, r⟩ := i4 d hd; exact ⟨x, air x hx, r⟩
      · rcases s3 with ⟨fam, clock, x, hx, hh, rfl, _⟩ | ⟨_, h⟩
        · have := List.mem_singleton.1 hd
          injection this with this
          exact ⟨x, air x hx, hh, by rw [this], by rw [this]⟩
        · cases e' with
          | net a => have := List.mem_singleton.1 hd; subst this; exact absurd rfl (h d)
          | _ => cases hd

/-! ## One command after another -/

/-- What is still to be sent, by the connections and the program. -/
def dueOf (n : N) (conn : Option ((UDPAddr → UDPAddr) × BeaconEnv)) (b : Busy) : List (Packet N) :=
  match conn with
  | none => []
  | some (source, outside) => (framesOf (b.holder.getD [])).map fun f => ⟨source f.1, f.1, f.2, n, b.prog.settings, outside⟩

omit [DecidableEq N] in
theorem dueOf_none {n : N} {conn : Option ((UDPAddr → UDPAddr) × BeaconEnv)} {b : Busy} (h : b.holder = none) :
    dueOf n conn b = [] := by
  unfold dueOf
  cases conn with
  | none => rfl
  | some c => rw [h]; rfl

theorem due_keeps {M : Machine} {n : N} {conn : Option ((UDPAddr → UDPAddr) × BeaconEnv)} {b b' : Busy} {e : BusyEvent}
    (hs : b.step M e = some b') (no : e ≠ .act)
    (nob : ∀ i o q, e = .begin i o → b.queue[i]? = some q → q.cmd ≠ "beacon") : dueOf n conn b' = dueOf n conn b := by
  cases hh : b.holder with
  | some acts =>
    obtain ⟨h1, _, h3⟩ := held_step hh hs (fun h => absurd h no)
    have h3 : b'.holder = some acts := by
      cases e with
      | act => exact absurd rfl no
      | _ => exact h3
    unfold dueOf
    rw [h1, h3, hh]
  | none =>
    rw [dueOf_none hh]
    refine dueOf_none ?_
    unfold Busy.step at hs
    split at hs
    · cases hs
    cases e with
    | net a =>
      obtain ⟨p, _, rfl⟩ := Option.map_eq_some_iff.1 hs
      exact hh
    | typed line =>
      simp only [Option.some.injEq] at hs
      subst hs
      unfold Busy.enter
      split <;> exact hh
    | act => exact absurd rfl no
    | begin i o =>
      simp only at hs
      cases hq : b.queue[i]? with
      | none => rw [hq] at hs; cases hs
      | some q =>
        rw [hq] at hs
        simp only at hs
        split at hs
        · cases hs
        simp only [Option.some.injEq] at hs
        subst hs
        unfold Busy.begin
        split
        · simp only [if_neg (nob i o q rfl hq)]; exact hh
        · exact hh
        · exact hh

omit [DecidableEq N] in
theorem due_act {M : Machine} (w : Crowd N) (n : N) {b' : Busy} (hs : (w.node n).step M .act = some b') :
    dueOf n (w.conns n) (w.node n) = w.departs n ++ dueOf n (w.conns n) b' := by
  unfold Busy.step at hs
  split at hs
  · cases hs
  cases hh : (w.node n).holder with
  | none => simp only [hh] at hs; cases hs
  | some acts =>
    simp only [hh] at hs
    cases acts with
    | nil =>
      cases hs
      rw [dueOf_none (b := { w.node n with holder := none }) rfl]
      unfold dueOf Crowd.departs
      rw [hh]
      cases w.conns n <;> rfl
    | cons a rest =>
      cases hs
      unfold dueOf Crowd.departs
      rw [hh]
      cases w.conns n with
      | none => cases a <;> rfl
      | some c => cases a <;> rfl

theorem begin_settings {M : Machine} {b b' : Busy} {i : Nat} {o : Replies} {q : Queued} (hq : b.queue[i]? = some q)
    (hb : q.cmd = "beacon") (hs : b.step M (.begin i o) = some b') :
    b.holder = none ∧ b'.prog.settings = b.prog.settings := by
  unfold Busy.step at hs
  split at hs
  · cases hs
  simp only [hq] at hs
  split at hs
  · cases hs
  rename_i free
  simp only [Option.some.injEq] at hs
  subst hs
  refine ⟨?_, ?_⟩
  · cases hh : b.holder with
    | none => rfl
    | some acts => exact absurd ⟨by rw [hb]; rfl, by rw [hh]; exact fun e => by cases e⟩ free
  · unfold Busy.begin
    rw [hb, command_of_beacon]
    cases cmdBeacon (M.beaconEnv o) b.prog.settings b.prog.beacon q.args <;> rfl

theorem sentBy_append (n : N) (x y : List (Packet N)) : sentBy n (x ++ y) = sentBy n x ++ sentBy n y := List.filter_append ..

theorem sentBy_own {n : N} {x : List (Packet N)} (h : ∀ d ∈ x, d.sender = n) : sentBy n x = x :=
  List.filter_eq_self.2 fun d hd => decide_eq_true (h d hd)

theorem sentBy_other {m n : N} {x : List (Packet N)} (h : ∀ d ∈ x, d.sender = n) (ne : m ≠ n) : sentBy m x = [] :=
  List.filter_eq_nil_iff.2 fun d hd => by rw [h d hd]; simp [Ne.symm ne]

omit [DecidableEq N] in
theorem departs_sender (w : Crowd N) (n : N) : ∀ d ∈ w.departs n, d.sender = n := by
  intro d hd
  unfold Crowd.departs at hd
  split at hd
  · rw [List.mem_singleton.1 hd]
  · cases hd

omit [DecidableEq N] in
theorem sent_sender (P : Plant N) (w : Network N) (n : N) (line : String) (o : Replies) (source : UDPAddr → UDPAddr) :
    ∀ d ∈ w.sent P n line o source, d.sender = n := by
  intro d hd
  obtain ⟨f, _, rfl⟩ := List.mem_map.1 hd
  rfl

/-- The execution `es'` of a network with one command after another, leading to `w'`, accounts for the execution `es`,
leading to `w`, of one whose commands run at the same time. -/
structure Accounts (P : Plant N) (fs : N → FS) (c : N → Cliflags) (es : List (CrowdEvent N)) (w : Crowd N)
    (es' : List (NetEvent N)) (w' : Network N) : Prop where
  honest : ∀ n, (w.node n).Honest (P.machine n)
  leads : NetLeads P fs c es' w'
  nodes : ∀ n, w'.node n = (w.node n).prog
  sent : ∀ n, sentBy n w'.air = sentBy n w.air ++ w.due n
  lines : ∀ n, ((linesAt n es').map Prod.fst ++ (w.node n).queue.map Queued.line).Perm (enteredAt n es)
  inside : ∀ n, insideOf n es' = insideAt n es
  answers : ∀ n, ∀ l ∈ linesAt n es', l.2 = calmReplies ∨ ∃ i s, .begin n i l.2 s ∈ es

theorem Accounts.air {P : Plant N} {fs : N → FS} {c : N → Cliflags} {es : List (CrowdEvent N)} {w : Crowd N}
    {es' : List (NetEvent N)} {w' : Network N} (a : Accounts P fs c es w es' w') : ∀ d ∈ w.air, d ∈ w'.air := by
  intro d hd
  have : d ∈ sentBy d.sender w'.air := by
    rw [a.sent]
    exact List.mem_append_left _ (List.mem_filter.2 ⟨hd, by simp⟩)
  exact (List.mem_filter.1 this).1

theorem accounts_more {P : Plant N} {fs : N → FS} {c : N → Cliflags} {es : List (CrowdEvent N)} {w w2 : Crowd N}
    {es' : List (NetEvent N)} {w' w2' : Network N} (a : Accounts P fs c es w es' w') {n : N} {e : CrowdEvent N}
    {e' : BusyEvent} {evs : List Event} {more : List (NetEvent N)}
    (am : Amounts (P.machine n) (w.node n) (w2.node n) e' evs) (others : ∀ m, m ≠ n → w2.node m = w.node m)
    (runs : w'.run P more = some w2') (prog : w2'.node n = (w2.node n).prog) (others' : ∀ m, m ≠ n → w2'.node m = w'.node m)
    (sent : ∀ m, sentBy m w2'.air = sentBy m w2.air ++ w2.due m)
    (here : linesAt n more = linesOf evs) (there : ∀ m, m ≠ n → linesAt m more = [])
    (typed : enteredAt n [e] = typedLines [e']) (typed' : ∀ m, m ≠ n → enteredAt m [e] = [])
    (inside : ∀ m, insideOf m more = insideAt m [e])
    (answers : ∀ l ∈ linesAt n more, l.2 = calmReplies ∨ ∃ i s, e = .begin n i l.2 s) :
    Accounts P fs c (es ++ [e]) w2 (es' ++ more) w2' where
  honest m := by
    by_cases h : m = n
    · subst h; exact amounts_honest (a.honest m) am
    · rw [others m h]; exact a.honest m
  leads := netLeads_append a.leads runs
  nodes m := by
    by_cases h : m = n
    · subst h; exact prog
    · rw [others m h, others' m h]; exact a.nodes m
  sent := sent
  lines m := by
    rw [linesAt_append, enteredAt_append, List.map_append]
    by_cases h : m = n
    · subst h
      rw [here, typed, List.append_assoc]
      refine ((amounts_lines am).append_left _).trans ?_
      rw [← List.append_assoc]
      exact (a.lines m).append_right _
    · rw [there m h, typed' m h, others m h, List.map_nil, List.append_nil, List.append_nil]
      exact a.lines m
  inside m := by rw [insideOf_append, insideAt_append, inside, a.inside]
  answers m l hl := by
    rw [linesAt_append] at hl
    rcases List.mem_append.1 hl with hl | hl
    · rcases a.answers m l hl with h | ⟨i, s, h⟩
      · exact .inl h
      · exact .inr ⟨i, s, List.mem_append_left _ h⟩
    · by_cases h : m = n
      · subst h
        rcases answers l hl with h | ⟨i, s, h⟩
        · exact .inl h
        · exact .inr ⟨i, s, by rw [h]; simp⟩
      · rw [there m h] at hl; cases hl

theorem due_eq (w : Crowd N) (n : N) : w.due n = dueOf n (w.conns n) (w.node n) := rfl

theorem run_one {P : Plant N} {w w' : Network N} {e : NetEvent N} (h : w.step P e = some w') : w.run P [e] = some w' := by
  show (w.step P e).bind _ = _
  rw [h]; rfl

theorem accounts_step {P : Plant N} {fs : N → FS} {c : N → Cliflags} {es : List (CrowdEvent N)} {w w2 : Crowd N}
    {es' : List (NetEvent N)} {w' : Network N} (a : Accounts P fs c es w es' w') {e : CrowdEvent N}
    (hs : w.step P e = some w2) : ∃ more w2', Accounts P fs c (es ++ [e]) w2 (es' ++ more) w2' := by
  rcases crowd_step_cases hs with ⟨n, line, b, rfl, h1, rfl⟩ | ⟨n, i, o, source, b, rfl, h1, rfl⟩ | ⟨n, b, rfl, h1, rfl⟩ |
    ⟨n, k, fam, clock, d, b, rfl, hd, hh, h1, rfl⟩ | ⟨n, act, b, rfl, ha, h1, rfl⟩
  · -- a line
    obtain ⟨evs, am⟩ := busy_amounts (a.honest n) h1
    have due : ∀ m, (w.set n b).due m = w.due m := by
      intro m
      rw [due_eq, due_eq]
      by_cases h : m = n
      · subst h; rw [crowd_set_self]; exact due_keeps h1 (by simp) (by simp)
      · rw [crowd_set_other w b h]; rfl
    have own : (w.set n b).node n = b := crowd_set_self w n b
    cases am with
    | start _ q hg hl hq hp hh ht =>
      refine ⟨[], w', accounts_more a (n := n) (e' := .typed line) (evs := []) (by rw [own]; exact .start line q hg hl hq hp hh ht)
        (fun m h => crowd_set_other w b h) rfl (by rw [own, hp]; exact a.nodes n) (fun _ _ => rfl)
        (fun m => by rw [due]; exact a.sent m) rfl (fun _ _ => rfl) (by simp [enteredAt, typedLines])
        (fun m h => by simp [enteredAt, Ne.symm h]) (fun m => by simp [insideOf, insideAt]) (fun l hl => by cases hl)⟩
    | other _ o hp hq hh ht he ho =>
      have st : w'.step P (.typed n line o id) = some { w'.set n b.prog with air := w'.air ++ w'.sent P n line o id } := by
        show ((w'.node n).step _ _).map _ = _
        rw [a.nodes, hp]; rfl
      have none_ : w'.sent P n line o id = [] := by unfold Network.sent; rw [a.nodes, he]; rfl
      rw [none_, List.append_nil] at st
      refine ⟨[.typed n line o id], w'.set n b.prog, accounts_more a (n := n) (e' := .typed line) (evs := [.typed line o])
        (by rw [own]; exact .other line o hp hq hh ht he ho) (fun m h => crowd_set_other w b h) (run_one st)
        (by rw [own]; exact set_self ..) (fun m h => set_other _ _ h)
        (fun m => by rw [due]; exact a.sent m) (by simp [linesAt, linesOf]) (fun m h => by simp [linesAt, Ne.symm h])
        (by simp [enteredAt, typedLines])
        (fun m h => by simp [enteredAt, Ne.symm h]) (fun m => by simp [insideOf, insideAt]) (fun l hl => ?_)⟩
      simp only [linesAt, if_true, List.mem_singleton] at hl
      rw [hl]; exact .inl ho
  · -- a command begins
    obtain ⟨evs, am⟩ := busy_amounts (a.honest n) h1
    have own : (w.set n b).node n = b := crowd_set_self w n b
    cases am with
    | begin _ _ q before after hq hi hq' hp ht lock fr =>
    have at_ : (w.node n).queue[i]? = some q := by rw [hq, ← hi]; simp
    have st : w'.step P (.typed n q.line o source) =
        some { w'.set n b.prog with air := w'.air ++ w'.sent P n q.line o source } := by
      show ((w'.node n).step _ _).map _ = _
      rw [a.nodes, hp]; rfl
    refine ⟨[.typed n q.line o source], _, accounts_more a (n := n) (e' := .begin i o) (evs := [.typed q.line o])
      (by show Amounts _ _ ((w.set n b).node n) _ _; rw [own]; exact .begin i o q before after hq hi hq' hp ht lock fr)
      (fun m h => crowd_set_other w b h) (run_one st)
      (by show (w'.set n b.prog).node n = ((w.set n b).node n).prog; rw [own]; exact set_self ..) (fun m h => set_other _ _ h)
      (fun m => ?_) (by simp [linesAt, linesOf]) (fun m h => by simp [linesAt, Ne.symm h])
      (by simp [enteredAt, typedLines]) (fun m h => by simp [enteredAt]) (fun m => by simp [insideOf, insideAt])
      (fun l hl => ?_)⟩
    · show sentBy m (w'.air ++ w'.sent P n q.line o source) = sentBy m w.air ++
        dueOf m (w.connect P n i o source m) ((w.set n b).node m)
      have snd := sent_sender P w' n q.line o source
      rw [sentBy_append, a.sent, List.append_assoc, due_eq]
      congr 1
      by_cases h : m = n
      · subst h
        rw [sentBy_own snd, own]
        unfold Crowd.connect
        rw [at_]
        by_cases hb : q.cmd = "beacon"
        · obtain ⟨s1, s2⟩ := begin_settings at_ hb h1
          rw [dueOf_none s1, List.nil_append]
          simp only [if_pos hb, if_pos rfl]
          unfold Network.sent dueOf
          rw [s1] at fr
          simp only [Option.getD_none, framesOf, List.nil_append] at fr
          simp only [fr, s2, a.nodes, if_true]
        · have em : (w.node m).prog.emits (P.machine m) o q.line = [] := by
            have hg := a.honest m q (List.mem_of_getElem? at_)
            simp only [Program.emits, hg, if_neg hb]
          simp only [if_neg hb]
          rw [due_keeps h1 (by simp) (fun i' o' q' e1 e2 => by cases e1; rw [at_] at e2; cases e2; exact hb)]
          unfold Network.sent
          rw [a.nodes, em]
          simp
      · rw [sentBy_other snd h, List.append_nil, crowd_set_other w b h]
        unfold Crowd.connect
        rw [at_]
        by_cases hb : q.cmd = "beacon"
        · simp only [if_pos hb, if_neg h]
        · simp only [if_neg hb]
    · simp only [linesAt, if_true, List.mem_singleton] at hl
      rw [hl]; exact .inr ⟨i, source, rfl⟩
  · -- a beacon leaves
    obtain ⟨evs, am⟩ := busy_amounts (a.honest n) h1
    have own : (w.set n b).node n = b := crowd_set_self w n b
    cases am with
    | act hh hp hq ht =>
    refine ⟨[], w', accounts_more a (n := n) (e' := .act) (evs := [])
      (by show Amounts _ _ ((w.set n b).node n) _ _; rw [own]; exact .act hh hp hq ht)
      (fun m h => crowd_set_other w b h) rfl
      (by show _ = ((w.set n b).node n).prog; rw [own, hp]; exact a.nodes n) (fun m h => rfl)
      (fun m => ?_) rfl (fun m h => rfl)
      (by simp [enteredAt, typedLines]) (fun m h => by simp [enteredAt]) (fun m => by simp [insideOf, insideAt])
      (fun l hl => by cases hl)⟩
    show sentBy m w'.air = sentBy m (w.air ++ w.departs n) ++ dueOf m (w.conns m) ((w.set n b).node m)
    have snd := departs_sender w n
    rw [sentBy_append, a.sent, List.append_assoc, due_eq]
    congr 1
    by_cases h : m = n
    · subst h
      rw [sentBy_own snd, own]
      exact due_act w m h1
    · rw [sentBy_other snd h, List.nil_append, crowd_set_other w b h]
  · -- a datagram arrives
    obtain ⟨evs, am⟩ := busy_amounts (a.honest n) h1
    have own : (w.set n b).node n = b := crowd_set_self w n b
    cases am with
    | net _ hp hq ht hh2 =>
    obtain ⟨k', hk⟩ := List.getElem?_of_mem (a.air d (List.mem_of_getElem? hd))
    have st : w'.step P (.arrives n k' fam clock) = some (w'.set n b.prog) := by
      simp only [Network.step, hk, hh, if_true]
      rw [a.nodes, hp]; rfl
    refine ⟨[.arrives n k' fam clock], _, accounts_more a (n := n) (e' := .net _) (evs := [.net _])
      (by rw [own]; exact .net _ hp hq ht hh2)
      (fun m h => crowd_set_other w b h) (run_one st)
      (by rw [own]; exact set_self ..) (fun m h => set_other _ _ h)
      (fun m => ?_) rfl (fun m h => rfl)
      (by simp [enteredAt, typedLines]) (fun m h => by simp [enteredAt]) (fun m => by simp [insideOf, insideAt])
      (fun l hl => by cases hl)⟩
    show sentBy m w'.air = sentBy m w.air ++ dueOf m (w.conns m) ((w.set n b).node m)
    rw [a.sent, due_eq]
    congr 1
    by_cases h : m = n
    · subst h; rw [own, due_keeps h1 (by simp) (by simp)]
    · rw [crowd_set_other w b h]
  · -- something inside
    obtain ⟨evs, am⟩ := busy_amounts (a.honest n) h1
    have own : (w.set n b).node n = b := crowd_set_self w n b
    cases am with
    | net _ hp hq ht hh2 =>
    have st : w'.step P (.inside n act) = some (w'.set n b.prog) := by
      have : w'.step P (.inside n act) = ((w'.node n).step (P.machine n) (.net act)).map (w'.set n) := by
        cases act with
        | recv d => exact absurd rfl (ha d)
        | _ => rfl
      rw [this, a.nodes, hp]; rfl
    refine ⟨[.inside n act], _, accounts_more a (n := n) (e' := .net _) (evs := [.net _])
      (by rw [own]; exact .net _ hp hq ht hh2)
      (fun m h => crowd_set_other w b h) (run_one st)
      (by rw [own]; exact set_self ..) (fun m h => set_other _ _ h)
      (fun m => ?_) rfl (fun m h => rfl)
      (by simp [enteredAt, typedLines]) (fun m h => by simp [enteredAt]) (fun m => rfl)
      (fun l hl => by cases hl)⟩
    show sentBy m w'.air = sentBy m w.air ++ dueOf m (w.conns m) ((w.set n b).node m)
    rw [a.sent, due_eq]
    congr 1
    by_cases h : m = n
    · subst h; rw [own, due_keeps h1 (by simp) (by simp)]
    · rw [crowd_set_other w b h]

theorem accounted {P : Plant N} {fs : N → FS} {c : N → Cliflags} {es : List (CrowdEvent N)} {w : Crowd N}
    (h : CrowdLeads P fs c es w) : ∃ es' w', Accounts P fs c es w es' w' := by
  refine crowdLeads_induction (Q := fun es w => ∃ es' w', Accounts P fs c es w es' w') ?_ ?_ h
  · exact ⟨[], Network.init fs c, (fun n q hq => by cases hq), rfl, (fun _ => rfl), (fun _ => rfl), (fun _ => List.Perm.refl _),
      (fun _ => rfl), (fun n l hl => by cases hl)⟩
  · rintro es w e w2 ⟨es', w', a⟩ hs
    obtain ⟨more, w2', h⟩ := accounts_step a hs
    exact ⟨_, _, h⟩

/-- **C174** Whenever the goroutines of the commands get on, at whatever machine, and whatever leaves and arrives between
their steps: the programs are as after an execution of C131, in which a line is entered when its command begins. In it the
lines of each machine are those entered there, in some order, without those whose commands have done nothing yet; the same
happens inside the machines; and each machine has sent what it has sent here and what its beacon command under way has still
to send, in this order. -/
theorem C174_network {P : Plant N} {fs : N → FS} {c : N → Cliflags} {es : List (CrowdEvent N)} {w : Crowd N}
    (h : CrowdLeads P fs c es w) :
    ∃ es' w', NetLeads P fs c es' w' ∧ (∀ n, w'.node n = (w.node n).prog) ∧
      (∀ n, ((linesAt n es').map Prod.fst ++ (w.node n).queue.map Queued.line).Perm (enteredAt n es)) ∧
      (∀ n, insideOf n es' = insideAt n es) ∧ ∀ n, sentBy n w'.air = sentBy n w.air ++ w.due n := by
  obtain ⟨es', w', a⟩ := accounted h
  exact ⟨es', w', a.leads, a.nodes, a.lines, a.inside, a.sent⟩

/-- **C174, only beacons travel.** -/
theorem C174_only_beacons {P : Plant N} (hT : ∀ n, (P.machine n).S.T = shipped) {fs : N → FS} {c : N → Cliflags}
    {es : List (CrowdEvent N)} {w : Crowd N} (h : CrowdLeads P fs c es w) :
    ∀ d ∈ w.air, getStr shipped (headWord d.bytes) "version" = .ret "v1" ∧
      (∃ b, Says shipped d.bytes (.beacon b)) ∧ ∀ f, Says shipped d.bytes f → ∃ b, f = .beacon b := by
  obtain ⟨es', w', a⟩ := accounted h
  exact fun d hd => C131_only_beacons hT a.leads d (a.air d hd)

/-- **C174, nothing else happens.** No program ever handles anything but beacons; none has a transfer for a peer, none
answers anybody, and no main loop hangs. -/
theorem C174_only_peers {P : Plant N} (hT : ∀ n, (P.machine n).S.T = shipped) {fs : N → FS} {c : N → Cliflags}
    {es : List (CrowdEvent N)} {w : Crowd N} (h : CrowdLeads P fs c es w) (n : N) :
    (∀ y ∈ (w.node n).prog.net.handled, ∃ b, y.frame = .beacon b) ∧ (w.node n).prog.net.transfers = [] ∧
    (w.node n).prog.net.wire = [] ∧ ((w.node n).prog.net.main = .select ∨ (w.node n).prog.Ended) := by
  obtain ⟨es', w', a⟩ := accounted h
  have := C131_only_peers hT a.leads n
  rw [a.nodes] at this
  exact this

/-- **C174, no file moves.** The files of a machine change only when a line is entered or a command begins there or another
program changes them. -/
theorem C174_no_file_moves {P : Plant N} (hT : ∀ n, (P.machine n).S.T = shipped) {fs : N → FS} {c : N → Cliflags}
    {es : List (CrowdEvent N)} {w w' : Crowd N} (h : CrowdLeads P fs c es w) {e : CrowdEvent N} (hs : w.step P e = some w')
    (n : N) (here : ∀ i o source, e ≠ .begin n i o source) (others : ∀ f, e ≠ .inside n (.files f)) :
    (w'.node n).prog.net.fs = (w.node n).prog.net.fs := by
  have no : ¬ AskedFor (w'.node n).prog.net := by
    rintro ⟨y, hy, r, hr⟩
    obtain ⟨b, hb⟩ := (C174_only_peers hT (crowdLeads_snoc h hs) n).1 y hy
    rw [hb] at hr; cases hr
  have own : ∀ {a : Action} {b : Busy}, (∀ f, a ≠ .files f) → (w.node n).step (P.machine n) (.net a) = some b →
      w'.node n = b → (w'.node n).prog.net.fs = (w.node n).prog.net.fs := by
    intro a b ha h1 hb
    rw [hb] at no ⊢
    unfold Busy.step at h1
    split at h1
    · cases h1
    obtain ⟨p, h2, rfl⟩ := Option.map_eq_some_iff.1 h1
    exact (((C127_apart h2).1 a rfl).2 ha).resolve_right no
  rcases crowd_step_cases hs with ⟨m, line, b, rfl, h1, rfl⟩ | ⟨m, i, o, source, b, rfl, h1, rfl⟩ | ⟨m, b, rfl, h1, rfl⟩ |
    ⟨m, k, fam, clock, d, b, rfl, hd, hh, h1, rfl⟩ | ⟨m, a, b, rfl, ha, h1, rfl⟩
  · by_cases hm : n = m
    · subst hm
      rw [crowd_set_self]
      unfold Busy.step at h1
      split at h1
      · cases h1
      simp only [Option.some.injEq] at h1
      subst h1
      unfold Busy.enter
      split <;> rfl
    · rw [crowd_set_other _ _ hm]
  · have hm : n ≠ m := by rintro rfl; exact here _ _ _ rfl
    show ((w.set m b).node n).prog.net.fs = _
    rw [crowd_set_other _ _ hm]
  · by_cases hm : n = m
    · subst hm
      show ((w.set n b).node n).prog.net.fs = _
      rw [crowd_set_self]
      unfold Busy.step at h1
      split at h1
      · cases h1
      simp only at h1
      split at h1
      · cases h1
      · cases h1; rfl
      · cases h1; rfl
    · show ((w.set m b).node n).prog.net.fs = _
      rw [crowd_set_other _ _ hm]
  · by_cases hm : n = m
    · subst hm; exact own (by simp) h1 (crowd_set_self _ _ _)
    · rw [crowd_set_other _ _ hm]
  · by_cases hm : n = m
    · subst hm; exact own (fun f hf => others f (by rw [hf])) h1 (crowd_set_self _ _ _)
    · rw [crowd_set_other _ _ hm]

/-- **C174, what a program believes is true.** Every entry of every peer table stems from a datagram that a program of the
network has sent to an address heard here, stands under the source address of that datagram, and shows the name, the free
space and the settings the sender had when it sent it (if these were legal, see `C50_counterexample`), although other
commands of the sender may have run since its beacon command began. -/
theorem C174_peers_true {P : Plant N} (hT : ∀ n, (P.machine n).S.T = shipped) {fs : N → FS} {c : N → Cliflags}
    {es : List (CrowdEvent N)} {w : Crowd N} (h : CrowdLeads P fs c es w) (n : N) :
    ∀ p ∈ (w.node n).prog.net.peers, ∃ d ∈ w.air, P.hears n d.dest = true ∧
      p.addr = (P.machine n).S.ipText d.source.ip ∧ (ValidGlobal shipped d.settings.global → d.Tells p) := by
  intro p hp
  obtain ⟨es', w', a⟩ := accounted h
  obtain ⟨own, o1, _, _, o4⟩ := C174_node h n
  obtain ⟨ps, q1, q2, _, _⟩ := C145_serial o1
  have hr := C127_network q1
  obtain ⟨y, hy, b, y2, ha, sh⟩ := peer_handled (hT n) hr p hp
  obtain ⟨r, hrd, r1, r2⟩ := handled_read hr y hy
  have came : Action.recv r ∈ netSteps own := by
    rw [← q2]
    exact List.mem_filterMap.2 ⟨_, read_came q1 r hrd, rfl⟩
  obtain ⟨d, hd, g1, g2, g3⟩ := o4 r came
  have says' := (C42_delivers _ _ _ _ _ r2).2.2
  rw [hT, g2] at says'
  refine ⟨d, hd, g1, by rw [ha, ← r1, g3], fun ok => ?_⟩
  obtain ⟨-, x, b1, b2⟩ := air_built hT a.leads (a.air d hd)
  obtain ⟨s1, s2, s3⟩ := built_says b1 b2
  have says : Says shipped d.bytes (.beacon x) := ⟨s3, s1⟩
  have := says'.unique says
  rw [y2] at this
  have hx : b = x := by simpa using this
  exact shows_tells ok b1 (hx ▸ sh)

/-- **C174, no program harms another.** A program at which nobody enters a harmful line, for whose commands dials succeed and
the system answers questions about files, whose sockets do not fail and whose interface is not closed goes on, whatever is
entered at the others and however the commands run. -/
theorem C174_goes_on {P : Plant N} (hT : ∀ n, (P.machine n).S.T = shipped) {fs : N → FS} {c : N → Cliflags}
    {es : List (CrowdEvent N)} {w : Crowd N} (h : CrowdLeads P fs c es w) (n : N)
    (legal : ValidGlobal shipped (c n).global)
    (lines : ∀ line ∈ enteredAt n es, ¬ FatalLine line)
    (words : ∀ ws ∈ wordsEntered (P.machine n) (enteredAt n es), ws ≠ ["txwilling", "on"] ∧ ws ≠ ["txwilling", "off"])
    (system : ∀ i o source, .begin n i o source ∈ es → (∀ a, ∃ t, o.remote a = .ok t) ∧ ∀ f, (o.file.fileMeta f).returns)
    (sockets : ∀ fam, .readError fam ∉ insideAt n es) (interface : .userQuit ∉ insideAt n es) :
    ¬ (w.node n).prog.Ended := by
  obtain ⟨es', w', a⟩ := accounted h
  rw [← a.nodes]
  have inside : ∀ act, .inside n act ∈ es' → act ∈ insideAt n es := by
    intro act hm
    rw [← a.inside]
    exact List.mem_filterMap.2 ⟨_, hm, by simp⟩
  refine C131_goes_on hT a.leads n legal (fun l hl => ?_) (fun fam hm => sockets fam (inside _ hm))
    (fun hm => interface (inside _ hm))
  have mem : l.1 ∈ enteredAt n es :=
    (a.lines n).mem_iff.1 (List.mem_append_left _ (List.mem_map.2 ⟨l, hl, rfl⟩))
  have sys : (∀ a, ∃ t, l.2.remote a = .ok t) ∧ ∀ f, (l.2.file.fileMeta f).returns := by
    rcases a.answers n l hl with h | ⟨i, s, h⟩
    · rw [h]; exact ⟨fun a => ⟨_, rfl⟩, fun _ => trivial⟩
    · exact system i _ s h
  refine ⟨lines _ mem, sys.1, sys.2, fun ws hw => words ws ?_⟩
  rw [commandsTyped_wordsEntered] at hw
  obtain ⟨line, hl1, hl2⟩ := List.mem_filterMap.1 hw
  have e : line = l.1 := by simpa [linesOf] using hl1
  subst e
  exact List.mem_filterMap.2 ⟨l.1, mem, hl2⟩

/-! ## A concrete case -/

/-- At machine 1 three lines are entered at once. The beacon command gets the lock first and sends a beacon; `put` runs
before the next one leaves, while `descriptor` waits; machine 2 hears the beacon. -/
def crowdEvents : List (CrowdEvent Nat) :=
  [.typed 1 "saratoga[0]:beacon 1.1.1.2", .typed 1 "saratoga[1]:descriptor d32", .typed 1 "saratoga[2]:put 1.1.1.2 f",
   .begin 1 0 { calmReplies with resolve := fun _ => .ok ⟨[1#8, 1#8, 1#8, 2#8], 7542, ""⟩ }
     (fun _ => ⟨[1#8, 1#8, 1#8, 1#8], 5000, ""⟩),
   .act 1, .act 1, .act 1, .begin 1 1 calmReplies id, .arrives 2 0 .v4 ⟨0, 0⟩, .act 1, .inside 2 (.takeRx .v4 ⟨5, 0⟩)]

/-- One beacon has left and two have still to, one command waits, one transfer is under way, and machine 2 has listed
machine 1. -/
example : ((Crowd.init (fun _ => exampleFS) (fun _ => shippedSettings)).run examplePlant crowdEvents).map (fun w =>
    (w.air.length, (w.due 1).length, (w.node 1).queue.map (·.line), (w.node 1).prog.table.length,
      (w.node 2).prog.net.peers.map (·.maxdesc))) =
    some (1, 2, ["saratoga[1]:descriptor d32"], 1, ["d64"]) := by decide +kernel

/-- Nothing in it is harmful to machine 1. -/
example : (∀ line ∈ enteredAt 1 crowdEvents, ¬ FatalLine line) ∧
    (∀ ws ∈ wordsEntered (examplePlant.machine 1) (enteredAt 1 crowdEvents), ws ≠ ["txwilling", "on"] ∧ ws ≠ ["txwilling", "off"]) ∧
    (∀ i o source, .begin 1 i o source ∈ crowdEvents → (∀ a, ∃ t, o.remote a = .ok t) ∧ ∀ f, (o.file.fileMeta f).returns) ∧
    (∀ fam, .readError fam ∉ insideAt 1 crowdEvents) ∧ .userQuit ∉ insideAt 1 crowdEvents := by
  refine ⟨fun line hl => ?_, by decide +kernel, fun i o source h => ?_, fun fam h => ?_, fun h => ?_⟩
  · obtain ⟨e1, e2⟩ := C54_getLine_exact [] [] line
    unfold FatalLine
    rw [← or_assoc, ← e1, ← e2]
    have all : ∀ line ∈ enteredAt 1 crowdEvents, (match getLine [] [] line with | .ret _ => true | _ => false) = true := by
      decide +kernel
    have := all line hl
    split at this
    · rename_i hg; rw [hg]; simp
    · cases this
  · simp only [crowdEvents, List.mem_cons, List.not_mem_nil, or_false, reduceCtorEq, false_or, CrowdEvent.begin.injEq] at h
    rcases h with ⟨_, _, rfl, _⟩ | ⟨_, _, rfl, _⟩ <;> exact ⟨fun a => ⟨_, rfl⟩, fun _ => trivial⟩
  · simp [insideAt, crowdEvents] at h
  · simp [insideAt, crowdEvents] at h

end Saratoga
