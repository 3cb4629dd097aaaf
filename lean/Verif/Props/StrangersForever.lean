import Verif.Spec.StrangersForever
import Verif.Props.Strangers
import Verif.Props.CrowdForever
import Verif.Props.Current
/-! # C181: programs find each other in spite of strangers -/
namespace Saratoga

variable {N : Type} [DecidableEq N]

theorem OpenForever.leads {P : Plant N} {fs : N → FS} {c : N → Cliflags} {at_ : Nat → Crowd N} {does : Nat → OpenEvent N}
    (run : OpenForever P fs c at_ does) (i : Nat) : OpenLeads P fs c ((List.range i).map does) (at_ i) := by
  induction i with
  | zero => rw [run.start]; rfl
  | succ i ih =>
    rw [List.range_succ, List.map_append]
    exact openLeads_snoc ih (run.goes i)

/-! ## The execution in which nothing is received -/

/-- The event in that execution, if `w1` is the state after it: what users do stays; of anything else only what has become of
the files. -/
def CrowdEvent.calm (w1 : Crowd N) (e : CrowdEvent N) : CrowdEvent N :=
  match e with
  | .arrives n _ _ _ => .inside n (.files (w1.node n).prog.net.fs)
  | .inside n _ => .inside n (.files (w1.node n).prog.net.fs)
  | e => e

theorem calm_step {P : Plant N} {w w1 w' : Crowd N} (h : Quiet w w') {e : OpenEvent N} (hs : w.openStep P e = some w1) :
    ∃ w1', w'.step P (e.seen.calm w1) = some w1' ∧ Quiet w1 w1' := by
  have net : ∀ {n a b}, (w.node n).step (P.machine n) (.net a) = some b → w1 = w.set n b →
      ∃ w1', w'.step P (.inside n (.files (w1.node n).prog.net.fs)) = some w1' ∧ Quiet w1 w1' := by
    intro n a b h1 hw
    obtain ⟨hm, e, _⟩ := busy_net_step h1
    obtain ⟨hm', hf⟩ := (h.node n).files hm
    refine ⟨w'.set n ((w'.node n).withNet { (w'.node n).prog.net with fs := (w1.node n).prog.net.fs }), ?_, ?_⟩
    · show ((w'.node n).step _ (.net (.files _))).map _ = _
      unfold Busy.step
      rw [if_neg hm']
      simp only [Program.step, World.step]
      rw [if_pos hm']
      rfl
    · rw [hw, crowd_set_self]
      refine quiet_set h n ⟨?_, fun _ => ⟨hm', rfl⟩⟩
      rw [e]
      exact ⟨(h.node n).user.commands, (h.node n).user.queue, (h.node n).user.holder, (h.node n).user.trace⟩
  have one : ∀ {x : CrowdEvent N} {w1' : Crowd N}, w'.run P [x] = some w1' → w'.step P x = some w1' := by
    intro x w1' hr
    have hr : (w'.step P x).bind (fun w => some w) = some w1' := hr
    cases hx : w'.step P x with
    | none => rw [hx] at hr; cases hr
    | some v => rw [hx] at hr; exact hr
  cases e with
  | stranger n d =>
    obtain ⟨b, h1, h2⟩ := Option.map_eq_some_iff.1 hs
    exact net h1 h2.symm
  | goes e =>
    rcases crowd_step_cases (show w.step P e = some w1 from hs) with ⟨n, line, b, rfl, h1, hw⟩ | ⟨n, i, o, source, b, rfl, h1, hw⟩ |
      ⟨n, b, rfl, h1, hw⟩ | ⟨n, i, fam, clock, d, b, rfl, hd, hh, h1, hw⟩ | ⟨n, a, b, rfl, ha, h1, hw⟩
    · obtain ⟨b', h2, hb, _⟩ := shadow_user (h.node n) (fun a => by simp) h1
      refine ⟨w'.set n b', ?_, by rw [hw]; exact quiet_set h n hb⟩
      show ((w'.node n).step (P.machine n) _).map _ = _
      rw [h2]; rfl
    · obtain ⟨b', h2, hb, _⟩ := shadow_user (h.node n) (fun a => by simp) h1
      have q := quiet_set h n hb
      refine ⟨{ w'.set n b' with conns := w'.connect P n i o source }, ?_, by
        rw [hw]
        refine ⟨q.node, q.air, ?_⟩
        show w'.connect P n i o source = w.connect P n i o source
        unfold Crowd.connect
        rw [(h.node n).user.queue, h.conns]⟩
      show ((w'.node n).step (P.machine n) _).map _ = _
      rw [h2]; rfl
    · obtain ⟨b', h2, hb, _⟩ := shadow_user (h.node n) (fun a => by simp) h1
      have q := quiet_set h n hb
      refine ⟨{ w'.set n b' with air := w'.air ++ w'.departs n }, ?_, by
        rw [hw]
        refine ⟨q.node, ?_, q.conns⟩
        show w'.air ++ w'.departs n = w.air ++ w.departs n
        unfold Crowd.departs
        rw [h.air, (h.node n).user.holder, h.conns, (h.node n).user.commands.1]⟩
      show ((w'.node n).step (P.machine n) _).map _ = _
      rw [h2]; rfl
    · exact net h1 hw
    · exact net h1 hw

/-- The execution without end in which nothing is received. -/
theorem calm_for_ever {P : Plant N} {fs : N → FS} {c : N → Cliflags} {at_ : Nat → Crowd N} {does : Nat → OpenEvent N}
    (run : OpenForever P fs c at_ does) : ∃ at', CrowdForever P fs c at' (fun i => (does i).seen.calm (at_ (i + 1))) ∧
      ∀ i, Quiet (at_ i) (at' i) := by
  let at' : Nat → Crowd N := Nat.rec (Crowd.init fs c)
    fun i w => (w.step P ((does i).seen.calm (at_ (i + 1)))).getD w
  have key : ∀ i, Quiet (at_ i) (at' i) := by
    intro i
    induction i with
    | zero =>
      rw [run.start]
      exact ⟨fun n => ⟨⟨⟨rfl, rfl, rfl, rfl, rfl⟩, rfl, rfl, rfl⟩, fun h => ⟨h, rfl⟩⟩, rfl, rfl⟩
    | succ i ih =>
      obtain ⟨w1', h1, h2⟩ := calm_step ih (run.goes i)
      show Quiet _ (((at' i).step P _).getD _)
      rw [h1]; exact h2
  refine ⟨at', ⟨rfl, fun i => ?_⟩, key⟩
  obtain ⟨w1', h1, _⟩ := calm_step (key i) (run.goes i)
  show _ = some (((at' i).step P _).getD _)
  rw [h1]; rfl

omit [DecidableEq N] in
theorem calm_users {w : Crowd N} {e x : CrowdEvent N} (h : e.calm w = x) (hx : ∀ n a, x ≠ .inside n a) : e = x := by
  cases e with
  | arrives n k f cl => exact absurd h.symm (hx _ _)
  | inside n a => exact absurd h.symm (hx _ _)
  | _ => exact h

theorem calm_place (w : Crowd N) (e : CrowdEvent N) (n : N) (p : Nat) : (e.calm w).place n p = e.place n p := by
  cases e <;> rfl

/-- **C181, step for step.** Beside an execution without end in which strangers send whatever they like there is one in which
nothing is received at all, with the same doings of the users at the same times, the same datagrams in the air and the same
state of all commands. -/
theorem C181_unmoved (P : Plant N) (fs : N → FS) (c : N → Cliflags) (at_ : Nat → Crowd N) (does : Nat → OpenEvent N)
    (run : OpenForever P fs c at_ does) : ∃ at' does', CrowdForever P fs c at' does' ∧
      (∀ i, (does' i).byUsers = true ∨ ∃ n f, does' i = .inside n (.files f)) ∧
      (∀ i e, e.byUsers = true → (does' i = e ↔ does i = .goes e)) ∧
      ∀ i, (at' i).air = (at_ i).air ∧ ∀ n, SameUser ((at_ i).node n) ((at' i).node n) := by
  obtain ⟨at', run', q⟩ := calm_for_ever run
  refine ⟨at', _, run', fun i => ?_, fun i e he => ?_, fun i => ⟨(q i).air, fun n => ((q i).node n).user⟩⟩
  · show (CrowdEvent.calm _ (does i).seen).byUsers = true ∨ ∃ n f, CrowdEvent.calm _ (does i).seen = .inside n (.files f)
    cases does i with
    | stranger n d => exact .inr ⟨_, _, rfl⟩
    | goes e =>
      cases e with
      | arrives n k f cl => exact .inr ⟨_, _, rfl⟩
      | inside n a => exact .inr ⟨_, _, rfl⟩
      | _ => exact .inl rfl
  · show CrowdEvent.calm _ (does i).seen = e ↔ _
    cases does i with
    | stranger n d =>
      refine ⟨fun h => ?_, fun h => by cases h⟩
      subst h; cases he
    | goes x =>
      refine ⟨fun h => ?_, fun h => ?_⟩
      · cases x <;> first | exact congrArg _ h | (subst h; cases he)
      · cases h
        cases e <;> first | rfl | cases he

/-- Whoever keeps entering beacon commands keeps sending beacons. -/
theorem open_sends {P : Plant N} {fs : N → FS} {c : N → Cliflags} {at_ : Nat → Crowd N} {does : Nat → OpenEvent N}
    (run : OpenForever P fs c at_ does) {m n : N} (runs : ∀ i, ¬ ((at_ i).node m).prog.Ended)
    (holders : HolderFairAt at_ (fun i => (does i).seen) m) (locks : LockFairAt at_ (fun i => (does i).seen) m)
    {word : String} (proper : word ≠ "?" ∧ word ≠ "off")
    {to s : UDPAddr} (heard : P.hears n to = true) (enters : KeepsEntering P (fun i => (does i).seen) m word)
    (works : BeaconsWork P at_ (fun i => (does i).seen) m word to s) :
    ∀ i, ∃ j, i ≤ j ∧ LeavesFor P at_ (fun i => (does i).seen) n s j := by
  obtain ⟨at', run', q⟩ := calm_for_ever run
  have waits : ∀ i p t, crowdWaits (fun i => (does i).seen.calm (at_ (i + 1))) m i p t =
      crowdWaits (fun i => (does i).seen) m i p t := by
    intro i p t
    induction t with
    | zero => rfl
    | succ t ih =>
      simp only [crowdWaits, ih, calm_place]
  have sends := crowd_sends run' (m := m) (n := n) (fun i => (((q i).node m).files (runs i)).1)
    (fun i hh => by
      obtain ⟨j, hj, e⟩ := holders i fun j hj => by rw [((q j).node m).user.holder]; exact hh j hj
      simp only at e
      exact ⟨j, hj, by simp only [e]; rfl⟩)
    (fun i p x hx hh => by
      obtain ⟨t, ht⟩ := locks i p x (by rw [((q i).node m).user.queue]; exact hx) fun j hj => by
        obtain ⟨k, hk, h⟩ := hh j hj
        exact ⟨k, hk, fun hn => by rw [((q k).node m).user.holder]; exact h hn⟩
      exact ⟨t, by rw [waits]; exact ht⟩)
    proper heard
    (fun i => by
      obtain ⟨j, line, hj, e, g⟩ := enters i
      simp only at e
      exact ⟨j, line, hj, by simp only [e]; rfl, g⟩)
    (to := to) (s := s)
    (fun j k o source x hd hx ha => by
      have hd := calm_users hd (by simp)
      obtain ⟨v1, v2, v3, v4, v5⟩ := works j k o source x hd (by rw [((q j).node m).user.queue]; exact hx) ha
      have := ((q j).node m).user.commands.1
      rw [this] at v1 v2 v4
      exact ⟨v1, v2, v3, v4, v5⟩)
  intro i
  obtain ⟨j, hj, m', d, e, air, r⟩ := sends i
  exact ⟨j, hj, m', d, calm_users e (by simp), by rw [← (q (j + 1)).air, ← (q j).air]; exact air, r⟩

/-! ## Arrivals -/

/-- What a step is for the network side of one program that goes on. -/
theorem open_moves {P : Plant N} {w w' : Crowd N} {e : OpenEvent N} (h : w.openStep P e = some w') (n : N)
    (honest : (w.node n).Honest (P.machine n)) (running : ¬ (w'.node n).prog.Ended) :
    (w'.node n).prog.net = (w.node n).prog.net ∨
    ∃ a, (w.node n).prog.net.step (P.machine n).S a = some (w'.node n).prog.net ∧ ∀ fam, a.Takes fam → e.seen = .inside n a := by
  cases e with
  | goes e => exact crowd_moves h n honest running
  | stranger m d =>
    obtain ⟨b, h1, rfl⟩ := Option.map_eq_some_iff.1 h
    by_cases hm : n = m
    · subst hm
      rw [crowd_set_self]
      exact .inr ⟨_, (busy_net_step h1).2.2, fun fam t => by rcases t with ⟨_, t⟩ | t | t <;> cases t⟩
    · rw [crowd_set_other _ _ hm]; exact .inl rfl

theorem open_honest {P : Plant N} {fs : N → FS} {c : N → Cliflags} {es : List (OpenEvent N)} {w : Crowd N}
    (h : OpenLeads P fs c es w) (n : N) : (w.node n).Honest (P.machine n) := by
  obtain ⟨own, o1, _⟩ := C180_node h n
  exact busy_honest o1

theorem open_reaches {P : Plant N} {fs : N → FS} {c : N → Cliflags} {es : List (OpenEvent N)} {w : Crowd N}
    (h : OpenLeads P fs c es w) (n : N) : Reachable (P.machine n).S (fs n) (w.node n).prog.net := by
  obtain ⟨own, o1, _⟩ := C180_node h n
  obtain ⟨ps, q1, -, -, -⟩ := C145_serial o1
  exact C127_network q1

/-- The main loop of a program that goes on is at its `select`, whatever strangers send. -/
theorem open_selects {P : Plant N} (hT : ∀ n, (P.machine n).S.T = shipped) {fs : N → FS} {c : N → Cliflags}
    {es : List (OpenEvent N)} {w : Crowd N} (h : OpenLeads P fs c es w) (n : N) (running : ¬ (w.node n).prog.Ended) :
    (w.node n).prog.net.main = .select :=
  (unasked (open_reaches h n) (running_unasked (hT n) (open_reaches h n) running)).2.resolve_right running

/-- What is held out at a program that goes on is taken in the end. -/
theorem open_offer_taken {P : Plant N} {fs : N → FS} {c : N → Cliflags} {at_ : Nat → Crowd N} {does : Nat → OpenEvent N}
    (run : OpenForever P fs c at_ does) {n : N} (running : ∀ i, ¬ ((at_ i).node n).prog.Ended)
    (fair : SelectFairAt at_ (fun i => (does i).seen) n) (selects : ∀ i, ((at_ i).node n).prog.net.main = .select) {fam : Fam}
    {i : Nat} (offers : ((at_ i).node n).prog.net.Offers fam) :
    ∃ j a, i ≤ j ∧ (does j).seen = .inside n a ∧ a.Takes fam ∧
      ((at_ j).node n).prog.net.listener fam = ((at_ i).node n).prog.net.listener fam := by
  apply Classical.byContradiction
  intro none
  have stays : ∀ m, ((at_ (i + m)).node n).prog.net.listener fam = ((at_ i).node n).prog.net.listener fam := by
    intro m
    induction m with
    | zero => rfl
    | succ m ih =>
      rw [← ih]
      rcases open_moves (run.goes (i + m)) n (open_honest (run.leads _) n) (running _) with e | ⟨a, h, only⟩
      · exact congrArg (fun v => v.listener fam) e
      · exact offer_stays h (by rw [ih]; exact offers.1)
          fun t => none ⟨i + m, a, by omega, only fam t, t, ih⟩
  have stays' : ∀ j, i ≤ j → ((at_ j).node n).prog.net.listener fam = ((at_ i).node n).prog.net.listener fam := fun j hj => by
    have := stays (j - i)
    rwa [show i + (j - i) = j by omega] at this
  obtain ⟨j, hj, a, he, t⟩ := fair fam i fun j hj =>
    ⟨selects j, by unfold World.Offers; rw [stays' j hj]; exact offers⟩
  exact none ⟨j, a, hj, he, t, stays' j hj⟩

theorem open_handled_grows {P : Plant N} {fs : N → FS} {c : N → Cliflags} {at_ : Nat → Crowd N} {does : Nat → OpenEvent N}
    (run : OpenForever P fs c at_ does) {n : N} (running : ∀ i, ¬ ((at_ i).node n).prog.Ended) {i j : Nat} (hij : i ≤ j)
    {x : Handled} (hx : x ∈ ((at_ i).node n).prog.net.handled) : x ∈ ((at_ j).node n).prog.net.handled := by
  obtain ⟨m, rfl⟩ := Nat.le.dest hij
  induction m with
  | zero => exact hx
  | succ m ih =>
    have ih := ih (by omega)
    rcases open_moves (run.goes (i + m)) n (open_honest (run.leads _) n) (running _) with e | ⟨a, h, _⟩
    · rw [show i + (m + 1) = i + m + 1 by omega, e]; exact ih
    · exact handled_stays h ih

/-- What is in the air was built by its sender. -/
theorem open_built {P : Plant N} (hT : ∀ n, (P.machine n).S.T = shipped) {fs : N → FS} {c : N → Cliflags}
    {es : List (OpenEvent N)} {w : Crowd N} (h : OpenLeads P fs c es w) {d : Packet N} (hd : d ∈ w.air) :
    ∃ x, Beacon.zero.new shipped d.outside.disk (setglobal shipped "beacon" d.settings.global)
      ⟨0, d.outside.eid d.dest⟩ = .ret (x, none) ∧ x.encode shipped = .ret (.ok d.bytes) := by
  obtain ⟨es', w', l1, _, _, l4⟩ := quiet_run h
  obtain ⟨es2, w2, a⟩ := accounted l1
  exact (air_built hT a.leads (a.air d (by rw [l4.air]; exact hd))).2

/-- The seen event of a stranger is not one of the closed network. -/
theorem open_own {P : Plant N} {w w' : Crowd N} {e : OpenEvent N} {x : CrowdEvent N} (h : w.openStep P e = some w')
    (hx : e.seen = x) (own : ∀ n d, x ≠ .inside n (.recv d)) : w.step P x = some w' := by
  cases e with
  | goes e => cases hx; exact h
  | stranger n d => exact absurd hx.symm (own n d)

/-- A datagram of a size that listeners look at that arrives at a program that goes on is handled in the end, as the beacon
it is. -/
theorem open_heard {P : Plant N} (hT : ∀ n, (P.machine n).S.T = shipped) {fs : N → FS} {c : N → Cliflags}
    {at_ : Nat → Crowd N} {does : Nat → OpenEvent N} (run : OpenForever P fs c at_ does) {n : N}
    (running : ∀ i, ¬ ((at_ i).node n).prog.Ended) (fair : SelectFairAt at_ (fun i => (does i).seen) n) {i k : Nat} {fam : Fam}
    {clock : GoTime} {d : Packet N} (arrives : (does i).seen = .arrives n k fam clock) (is : (at_ i).air[k]? = some d)
    (size : Sized (P.machine n).S.mtu d.bytes) :
    ∃ j y x, i < j ∧ ((at_ (j + 1)).node n).prog.net.handled = ((at_ j).node n).prog.net.handled ++ [y] ∧
      y.frame = .beacon x ∧ y.source = d.source ∧
      Beacon.zero.new shipped d.outside.disk (setglobal shipped "beacon" d.settings.global) ⟨0, d.outside.eid d.dest⟩ = .ret (x, none) := by
  have selects : ∀ i, ((at_ i).node n).prog.net.main = .select := fun i => open_selects hT (run.leads i) n (running i)
  obtain ⟨x, b1, b2⟩ := open_built hT (run.leads i) (List.mem_of_getElem? is)
  obtain ⟨s1, s2, s3⟩ := built_says b1 b2
  have hl : listenFrame (P.machine n).S.T clock (P.machine n).S.mtu d.bytes = .ret (.rx (.beacon x)) := by
    rw [hT]
    rcases listenFrame_eq shipped clock (P.machine n).S.mtu d.bytes with ⟨hn, _⟩ | ⟨_, h⟩
    · exact absurd size hn
    · rw [h, s2]
      simp only [Out.ret_bind, ne_eq, not_true_eq_false, if_false]
      unfold listenTyped
      rw [s3]
      simp only [Out.ret_bind, if_true, s1]
      rfl
  have netOf : ∀ {w w' : Crowd N} {a : Action} {b : Busy}, (w.node n).step (P.machine n) (.net a) = some b →
      w' = w.set n b → (w.node n).prog.net.step (P.machine n).S a = some (w'.node n).prog.net := by
    intro w w' a b hp he
    subst he
    rw [crowd_set_self]
    exact (busy_net_step hp).2.2
  have offered : ((at_ (i + 1)).node n).prog.net.listener fam = .sendRx (.beacon x) d.source := by
    have hs := open_own (run.goes i) arrives (by simp)
    generalize at_ (i + 1) = w' at hs ⊢
    rcases crowd_step_cases hs with ⟨_, _, _, e, _⟩ | ⟨_, _, _, _, _, e, _⟩ | ⟨_, _, e, _⟩ |
      ⟨m, k', fam', clock', d', b, e, hk, _, hp, hw⟩ | ⟨_, _, _, e, _⟩ <;> cases e
    rw [is] at hk
    cases hk
    have h1 := netOf hp hw
    generalize (w'.node n).prog.net = v at h1 ⊢
    rcases step_cases h1 with ⟨d', e, _, _, rfl⟩ | ⟨g, e, _⟩ | ⟨g, clock, f, addr, e, _⟩ |
      ⟨g, s, addr, e, _⟩ | ⟨g, e, _⟩ | ⟨e, _⟩ | ⟨e, _⟩ | ⟨f, e, _⟩ <;> cases e
    rcases onRecv_cases (P.machine n).S ((at_ i).node n).prog.net ⟨fam, clock, d.bytes, d.source⟩ with
      ⟨hn, _⟩ | ⟨hf, _⟩ | ⟨f, hf, e⟩ | ⟨s, hf, _⟩
    · rw [hl] at hn; exact absurd trivial hn
    · rw [hl] at hf; cases hf
    · rw [hl] at hf
      cases hf
      rw [e]
      exact setListener_self _ _ _
    · rw [hl] at hf; cases hf
  obtain ⟨j, a, hj, hd', ht, hk⟩ := open_offer_taken run running fair selects (fam := fam) (i := i + 1)
    (by unfold World.Offers; rw [offered]; exact ⟨by simp, by simp⟩)
  rw [offered] at hk
  have handled : ∃ y, ((at_ (j + 1)).node n).prog.net.handled = ((at_ j).node n).prog.net.handled ++ [y] ∧ y.frame = .beacon x ∧
      y.source = d.source := by
    have hs := open_own (run.goes j) hd' (fun m d e => by
      cases e; rcases ht with ⟨_, t⟩ | t | t <;> cases t)
    generalize at_ (j + 1) = w' at hs ⊢
    rcases crowd_step_cases hs with ⟨_, _, _, e, _⟩ | ⟨_, _, _, _, _, e, _⟩ | ⟨_, _, e, _⟩ |
      ⟨_, _, _, _, _, _, e, _⟩ | ⟨m, a', b, e, _, hp, hw⟩ <;> cases e
    have h1 := netOf hp hw
    generalize (w'.node n).prog.net = v at h1 ⊢
    rcases ht with ⟨clock', rfl⟩ | rfl | rfl
    · rw [World.step, selects j, hk] at h1
      simp only [Option.some.injEq] at h1
      have := (onRx_logs (P.machine n).S ((at_ j).node n).prog.net fam clock' (.beacon x) d.source).2.2.1
      rw [h1] at this
      exact ⟨⟨fam, .beacon x, d.source, clock'⟩, this, rfl, rfl⟩
    · rw [World.step, selects j, hk] at h1; cases h1
    · rw [World.step, selects j, hk] at h1; cases h1
  obtain ⟨y, hy, y1, y2⟩ := handled
  exact ⟨j, y, x, by omega, hy, y1, y2, b1⟩

/-- Sizes do not depend on strangers. -/
theorem open_sized {P : Plant N} (hT : ∀ n, (P.machine n).S.T = shipped) {fs : N → FS} {c : N → Cliflags}
    {at_ : Nat → Crowd N} {does : Nat → OpenEvent N} (run : OpenForever P fs c at_ does)
    (fit : NearbyFits fun e => ∃ i, (does i).seen = e) {i : Nat} {d : Packet N} (hd : d ∈ (at_ i).air) {mtu : Nat}
    (hm : 146 ≤ mtu) : Sized mtu d.bytes := by
  obtain ⟨at', run', q⟩ := calm_for_ever run
  refine C175_sized P hT fs c _ _ (run'.leads i) (fun n k o source h => fit n k o source ?_) d (by rw [(q i).air]; exact hd) mtu hm
  obtain ⟨t, _, e⟩ := List.mem_map.1 h
  exact ⟨t, calm_users e (by simp)⟩

theorem sightings_one {y : Handled} {x : Beacon} (h : y.frame = .beacon x) : sightings [y] = [⟨y.source, x, y.clock⟩] := by
  obtain ⟨yf, yfr, ys, yc⟩ := y
  cases h
  rfl

/-- **C181, listed for good.** If at a machine `beacon word` is entered again and again, with a word that means an address heard
at another machine, then that machine lists the sender in the end and for good, whatever strangers send to anybody:
provided that both programs go on, that scheduler, lock and `select` are fair, that the system does its part and that the
network does not lose all the beacons. -/
theorem C181_found (P : Plant N) (hT : ∀ n, (P.machine n).S.T = shipped) (fs : N → FS) (c : N → Cliflags)
    (at_ : Nat → Crowd N) (does : Nat → OpenEvent N) (run : OpenForever P fs c at_ does)
    (fit : NearbyFits fun e => ∃ i, (does i).seen = e) (m n : N) (hm : 146 ≤ (P.machine n).S.mtu)
    (runs : ∀ i, ¬ ((at_ i).node m).prog.Ended) (running : ∀ i, ¬ ((at_ i).node n).prog.Ended)
    (holders : HolderFairAt at_ (fun i => (does i).seen) m) (locks : LockFairAt at_ (fun i => (does i).seen) m)
    (select : SelectFairAt at_ (fun i => (does i).seen) n)
    (word : String) (proper : word ≠ "?" ∧ word ≠ "off") (to s : UDPAddr) (heard : P.hears n to = true)
    (enters : KeepsEntering P (fun i => (does i).seen) m word) (works : BeaconsWork P at_ (fun i => (does i).seen) m word to s)
    (network : LosesSomeAt P at_ (fun i => (does i).seen) n s) :
    ∃ j, ∀ l, j ≤ l → (P.machine n).S.ipText s.ip ∈ ((at_ l).node n).prog.net.peers.map Peer.addr := by
  obtain ⟨i, _, k, fam, clock, d, h1, h2, h3⟩ :=
    network (open_sends run runs holders locks proper heard enters works) 0
  obtain ⟨j, y, x, hj, hy, y1, y2, _⟩ := open_heard hT run running select h1 h2
    (open_sized hT run fit (List.mem_of_getElem? h2) hm)
  have hy : y ∈ ((at_ (j + 1)).node n).prog.net.handled := by rw [hy]; simp
  refine ⟨j + 1, fun l hl => ?_⟩
  rw [(C66_entries (P.machine n).S (by rw [hT]; exact shipped_peerTables) (by rw [hT]; exact shipped_shows) _ _
    (open_reaches (run.leads l) n)).1, firstSeen_mem]
  refine List.mem_map.2 ⟨_, sighted (open_handled_grows run running hl hy) y1, ?_⟩
  unfold Sighting.addr
  rw [y2, h3]

/-- **C181, true again and again.** Under the same conditions the entry of the sender shows, again and again, what a program of
the network that sends from that address had when it sent, even if strangers send beacons under the same address in
between. -/
theorem C181_true_again (P : Plant N) (hT : ∀ n, (P.machine n).S.T = shipped) (fs : N → FS) (c : N → Cliflags)
    (at_ : Nat → Crowd N) (does : Nat → OpenEvent N) (run : OpenForever P fs c at_ does)
    (fit : NearbyFits fun e => ∃ i, (does i).seen = e) (m n : N) (hm : 146 ≤ (P.machine n).S.mtu)
    (runs : ∀ i, ¬ ((at_ i).node m).prog.Ended) (running : ∀ i, ¬ ((at_ i).node n).prog.Ended)
    (holders : HolderFairAt at_ (fun i => (does i).seen) m) (locks : LockFairAt at_ (fun i => (does i).seen) m)
    (select : SelectFairAt at_ (fun i => (does i).seen) n)
    (word : String) (proper : word ≠ "?" ∧ word ≠ "off") (to s : UDPAddr) (heard : P.hears n to = true)
    (enters : KeepsEntering P (fun i => (does i).seen) m word) (works : BeaconsWork P at_ (fun i => (does i).seen) m word to s)
    (network : LosesSomeAt P at_ (fun i => (does i).seen) n s) :
    ∀ i, ∃ l, i ≤ l ∧ ∃ p ∈ ((at_ l).node n).prog.net.peers, p.addr = (P.machine n).S.ipText s.ip ∧
      ∃ d ∈ (at_ l).air, d.source = s ∧ (ValidGlobal shipped d.settings.global → d.Tells p) := by
  intro i0
  obtain ⟨i, hi, k, fam, clock, d, h1, h2, h3⟩ :=
    network (open_sends run runs holders locks proper heard enters works) i0
  obtain ⟨j, y, x, hj, hy, y1, y2, b1⟩ := open_heard hT run running select h1 h2
    (open_sized hT run fit (List.mem_of_getElem? h2) hm)
  refine ⟨j + 1, by omega, ?_⟩
  have air : ∀ t, d ∈ (at_ (i + t)).air := by
    intro t
    induction t with
    | zero => exact List.mem_of_getElem? h2
    | succ t ih => exact open_air (run.goes (i + t)) d ih
  have hd : d ∈ (at_ (j + 1)).air := by
    have := air (j + 1 - i)
    rwa [show i + (j + 1 - i) = j + 1 by omega] at this
  obtain ⟨e1, _, e3⟩ := C66_entries (P.machine n).S (by rw [hT]; exact shipped_peerTables) (by rw [hT]; exact shipped_shows) _ _
    (open_reaches (run.leads (j + 1)) n)
  have hs : sightings ((at_ (j + 1)).node n).prog.net.handled =
      sightings ((at_ j).node n).prog.net.handled ++ [⟨y.source, x, y.clock⟩] := by
    rw [hy, sightings_append, sightings_one y1]
  have addr : Sighting.addr (P.machine n).S.ipText ⟨y.source, x, y.clock⟩ = (P.machine n).S.ipText s.ip := by
    unfold Sighting.addr; rw [y2, h3]
  have listed : (P.machine n).S.ipText s.ip ∈ ((at_ (j + 1)).node n).prog.net.peers.map Peer.addr := by
    rw [e1, firstSeen_mem, hs]
    exact List.mem_map.2 ⟨_, List.mem_append_right _ (List.mem_singleton.2 rfl), addr⟩
  obtain ⟨p, hp, ha⟩ := List.mem_map.1 listed
  obtain ⟨first, rest, f1, f2, _⟩ := e3 p hp
  have last : (first :: rest).getLast (by simp) = ⟨y.source, x, y.clock⟩ := by
    apply Option.some.inj
    rw [← List.getLast?_eq_some_getLast, ← f1, hs, List.filter_append]
    have : ([⟨y.source, x, y.clock⟩] : List Sighting).filter (fun s => s.addr (P.machine n).S.ipText = p.addr) =
        [⟨y.source, x, y.clock⟩] := by
      rw [List.filter_cons_of_pos (by simp [addr, ha])]; rfl
    rw [this, List.getLast?_append]
    rfl
  rw [last, hT] at f2
  exact ⟨p, hp, ha, d, hd, h3, fun ok => shows_tells ok b1 f2⟩

/-! ## A concrete case -/

/-- Machine 1 sends beacons to machine 2 for ever, and once machine 2 gets one from a stranger who gives the address of
machine 1 as their own. -/
example : ∃ at_ does, OpenForever examplePlant (fun _ => exampleFS) (fun _ => shippedSettings) at_ does ∧
    (∃ i d, does i = .stranger 2 d ∧ d.source = ⟨[1#8, 1#8, 1#8, 1#8], 5000, ""⟩) ∧
    (∀ n, (examplePlant.machine n).S.T = shipped) ∧ NearbyFits (fun e => ∃ i, (does i).seen = e) ∧
    146 ≤ (examplePlant.machine 2).S.mtu ∧ (∀ i, ¬ ((at_ i).node 1).prog.Ended) ∧ (∀ i, ¬ ((at_ i).node 2).prog.Ended) ∧
    HolderFairAt at_ (fun i => (does i).seen) 1 ∧ LockFairAt at_ (fun i => (does i).seen) 1 ∧
    SelectFairAt at_ (fun i => (does i).seen) 2 ∧ ("1.1.1.2" ≠ "?" ∧ "1.1.1.2" ≠ "off") ∧
    examplePlant.hears 2 ⟨[1#8, 1#8, 1#8, 2#8], 7542, ""⟩ = true ∧
    KeepsEntering examplePlant (fun i => (does i).seen) 1 "1.1.1.2" ∧
    BeaconsWork examplePlant at_ (fun i => (does i).seen) 1 "1.1.1.2" ⟨[1#8, 1#8, 1#8, 2#8], 7542, ""⟩
      ⟨[1#8, 1#8, 1#8, 1#8], 5000, ""⟩ ∧
    LosesSomeAt examplePlant at_ (fun i => (does i).seen) 2 ⟨[1#8, 1#8, 1#8, 1#8], 5000, ""⟩ ∧
    ∀ i, ValidGlobal shipped ((at_ i).node 1).prog.settings.global := by
  obtain ⟨at_, does, ⟨run, h1, h2, h3, h4, h5, h6, h7, h8, h9, h10, h11, h12, h13⟩, settings, -, -⟩ := beacons_for_ever
  obtain ⟨z, _, k, fam, clock, d, z1, z2, z3⟩ := h13 (crowd_sends run h4 h6 h7 h9 h10 h11 h12) 0
  let does' : Nat → OpenEvent Nat := fun i =>
    if i = z then .stranger 2 ⟨fam, clock, d.bytes, d.source⟩ else .goes (does i)
  have at_z : does' z = .stranger 2 ⟨fam, clock, d.bytes, d.source⟩ := if_pos rfl
  have other : ∀ {i}, i ≠ z → does' i = .goes (does i) := fun h => if_neg h
  have same : ∀ {i e}, does i = e → (∀ n k fam clock, e ≠ .arrives n k fam clock) → (does' i).seen = e := by
    intro i e he ha
    by_cases hi : i = z
    · subst hi; rw [z1] at he; exact absurd he.symm (ha _ _ _ _)
    · rw [other hi]; exact he
  have back : ∀ {i e}, (does' i).seen = e → (∀ n d, e ≠ .inside n (.recv d)) → does i = e := by
    intro i e he ha
    by_cases hi : i = z
    · subst hi; rw [at_z] at he; exact absurd he.symm (ha _ _)
    · rw [other hi] at he; exact he
  have place : ∀ i n p, (does' i).seen.place n p = (does i).place n p := by
    intro i n p
    by_cases hi : i = z
    · subst hi; rw [at_z, z1]; rfl
    · rw [other hi]; rfl
  have waits : ∀ i p t, crowdWaits (fun i => (does' i).seen) 1 i p t = crowdWaits does 1 i p t := by
    intro i p t
    induction t with
    | zero => rfl
    | succ t ih => simp only [crowdWaits, ih, place]
  refine ⟨at_, does', ⟨run.start, fun i => ?_⟩, ⟨z, _, at_z, z3⟩, h1, fun n k o source ⟨i, hi⟩ => h2 n k o source
    ⟨i, back hi (by simp)⟩, h3, h4, h5, fun i hh => ?_, fun i p q hq hh => ?_, fun fam i hh => ?_, h9, h10, fun i => ?_, ?_, ?_,
    fun i => by rw [settings]; exact C14_shipped_defaults⟩
  · by_cases hi : i = z
    · subst hi
      rw [at_z]
      have hs := run.goes i
      rw [z1] at hs
      generalize at_ (i + 1) = w' at hs ⊢
      rcases crowd_step_cases hs with ⟨_, _, _, e, _⟩ | ⟨_, _, _, _, _, e, _⟩ | ⟨_, _, e, _⟩ |
        ⟨m, k', fam', clock', d', b, e, hk, _, hp, hw⟩ | ⟨_, _, _, e, _⟩ <;> cases e
      rw [z2] at hk
      cases hk
      show ((at_ i).node 2 |>.step _ _).map _ = _
      rw [hp, hw]
      rfl
    · rw [other hi]; exact run.goes i
  · obtain ⟨j, hj, e⟩ := h6 i hh
    exact ⟨j, hj, same e (by simp)⟩
  · obtain ⟨t, ht⟩ := h7 i p q hq hh
    exact ⟨t, by rw [waits]; exact ht⟩
  · obtain ⟨j, hj, a, e, t⟩ := h8 fam i hh
    exact ⟨j, hj, a, same e (by simp), t⟩
  · obtain ⟨j, line, hj, e, g⟩ := h11 i
    exact ⟨j, line, hj, same e (by simp), g⟩
  · intro j k o source q hd hq ha
    exact h12 j k o source q (back hd (by simp)) hq ha
  · intro sends i
    obtain ⟨j, hj, k, fam, clock, d, e, r⟩ := h13 (fun i => by
      obtain ⟨j, hj, m, d, e, r⟩ := sends i
      exact ⟨j, hj, m, d, back e (by simp), r⟩) (i + z + 1)
    exact ⟨j, by omega, k, fam, clock, d, by show (does' j).seen = _; rw [other (by omega)]; exact e, r⟩

end Saratoga
