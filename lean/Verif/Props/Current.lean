import Verif.Spec.Current
import Verif.Props.CrowdForever
import Verif.Props.CrowdRest
/-! # C177: in the end a peer table shows how things are now -/
namespace Saratoga

variable {N : Type} [DecidableEq N]

/-! ## What happens to the network side of one program -/

theorem crowd_net {P : Plant N} {w w' : Crowd N} {e : CrowdEvent N} (h : w.step P e = some w') (n : N)
    (honest : (w.node n).Honest (P.machine n)) (running : ¬ (w'.node n).prog.Ended) :
    ((w'.node n).prog.net.listener = (w.node n).prog.net.listener ∧
      (w'.node n).prog.net.handled = (w.node n).prog.net.handled) ∨
    (∃ k fam clock d, e = .arrives n k fam clock ∧ w.air[k]? = some d ∧ P.hears n d.dest = true ∧
      (w.node n).prog.net.step (P.machine n).S (.recv ⟨fam, clock, d.bytes, d.source⟩) = some (w'.node n).prog.net) ∨
    ∃ a, e = .inside n a ∧ (∀ d, a ≠ .recv d) ∧ (w.node n).prog.net.step (P.machine n).S a = some (w'.node n).prog.net := by
  have netOf : ∀ {a : Action} {b : Busy}, (w.node n).step (P.machine n) (.net a) = some b →
      (w.node n).prog.net.step (P.machine n).S a = some b.prog.net := by
    intro a b hp
    unfold Busy.step at hp
    split at hp
    · cases hp
    obtain ⟨p, h1, rfl⟩ := Option.map_eq_some_iff.1 hp
    rcases program_step_cases h1 with ⟨a', v, e, _, h2, rfl⟩ | ⟨_, _, e, _⟩
    · cases e; exact h2
    · cases e
  rcases crowd_step_cases h with ⟨m, line, b, rfl, h1, rfl⟩ | ⟨m, i, o, source, b, rfl, h1, rfl⟩ | ⟨m, b, rfl, h1, rfl⟩ |
    ⟨m, k, fam, clock, d, b, rfl, hd, hh, h1, rfl⟩ | ⟨m, a, b, rfl, ha, h1, rfl⟩
  · refine .inl ?_
    by_cases e : n = m
    · subst e
      rw [crowd_set_self] at running ⊢
      unfold Busy.step at h1
      split at h1
      · cases h1
      simp only [Option.some.injEq] at h1
      subst h1
      unfold Busy.enter at running ⊢
      split at running
      · exact ⟨rfl, rfl⟩
      · exact ⟨rfl, rfl⟩
      · exact absurd rfl running
      · exact absurd rfl running
    · rw [crowd_set_other _ _ e]; exact ⟨rfl, rfl⟩
  · refine .inl ?_
    by_cases e : n = m
    · subst e
      have running : ¬ ((w.set n b).node n).prog.Ended := running
      show ((w.set n b).node n).prog.net.listener = _ ∧ ((w.set n b).node n).prog.net.handled = _
      rw [crowd_set_self] at running ⊢
      unfold Busy.step at h1
      split at h1
      · cases h1
      simp only at h1
      split at h1
      · cases h1
      rename_i q hq
      split at h1
      · cases h1
      simp only [Option.some.injEq] at h1
      subst h1
      unfold Busy.begin at running ⊢
      cases hc : (w.node n).prog.command (P.machine n) o q.cmd q.args with
      | fatal => rw [hc] at running; exact absurd rfl running
      | panic => rw [hc] at running; exact absurd rfl running
      | ret p =>
        obtain ⟨args, ha⟩ := started_words (honest q (List.mem_of_getElem? hq))
        rw [ha] at hc
        have := (command_done hc).net
        show p.net.listener = _ ∧ p.net.handled = _
        have h1 := congrArg World.listener this
        have h2 := congrArg World.handled this
        exact ⟨h1, h2⟩
    · show ((w.set m b).node n).prog.net.listener = _ ∧ ((w.set m b).node n).prog.net.handled = _
      rw [crowd_set_other _ _ e]; exact ⟨rfl, rfl⟩
  · refine .inl ?_
    show ((w.set m b).node n).prog.net.listener = _ ∧ ((w.set m b).node n).prog.net.handled = _
    by_cases e : n = m
    · subst e
      rw [crowd_set_self]
      unfold Busy.step at h1
      split at h1
      · cases h1
      simp only at h1
      split at h1
      · cases h1
      · cases h1; exact ⟨rfl, rfl⟩
      · cases h1; exact ⟨rfl, rfl⟩
    · rw [crowd_set_other _ _ e]; exact ⟨rfl, rfl⟩
  · by_cases e : n = m
    · subst e
      rw [crowd_set_self]
      exact .inr (.inl ⟨k, fam, clock, d, rfl, hd, hh, netOf h1⟩)
    · rw [crowd_set_other _ _ e]; exact .inl ⟨rfl, rfl⟩
  · by_cases e : n = m
    · subst e
      rw [crowd_set_self]
      exact .inr (.inr ⟨a, rfl, ha, netOf h1⟩)
    · rw [crowd_set_other _ _ e]; exact .inl ⟨rfl, rfl⟩

/-! ## Datagrams that left late -/

/-- The datagram at this place of the air, if it was not there at time `i`, left later. -/
theorem crowd_left {P : Plant N} {fs : N → FS} {c : N → Cliflags} {at_ : Nat → Crowd N} {does : Nat → CrowdEvent N}
    (run : CrowdForever P fs c at_ does) {i : Nat} (t : Nat) {k : Nat} {d : Packet N} (hk : (at_ i).air.length ≤ k)
    (hd : (at_ (i + t)).air[k]? = some d) : ∃ j, i ≤ j ∧ j < i + t ∧ Leaves at_ does d j := by
  induction t with
  | zero =>
    rw [List.getElem?_eq_none (by simpa using hk)] at hd; cases hd
  | succ t ih =>
    have hs := run.goes (i + t)
    by_cases old : (at_ (i + t)).air[k]? = some d
    · obtain ⟨j, h1, h2, h3⟩ := ih old
      exact ⟨j, h1, by omega, h3⟩
    · rw [show i + (t + 1) = i + t + 1 by omega] at hd
      have same : (at_ (i + t + 1)).air = (at_ (i + t)).air → False := fun e => old (by rw [← e]; exact hd)
      rcases crowd_step_cases hs with ⟨m, line, b, _, h1, e⟩ | ⟨m, l, o, source, b, _, h1, e⟩ | ⟨m, b, he, h1, e⟩ |
        ⟨m, l, fam, clock, d', b, _, _, _, h1, e⟩ | ⟨m, a, b, _, _, h1, e⟩
      · exact (same (by rw [e]; rfl)).elim
      · exact (same (by rw [e]; rfl)).elim
      · have air : (at_ (i + t + 1)).air = (at_ (i + t)).air ++ (at_ (i + t)).departs m := by rw [e]
        refine ⟨i + t, by omega, by omega, ?_⟩
        have len : (at_ (i + t)).air.length ≤ k := by
          apply Nat.le_of_not_lt
          intro lt
          rw [air, List.getElem?_append_left lt] at hd
          exact old hd
        rw [air, List.getElem?_append_right len] at hd
        unfold Crowd.departs at hd air
        split at hd
        · rename_i dest frame rest source outside hh hc
          rw [List.getElem?_singleton] at hd
          split at hd
          · cases hd
            simp only [hh, hc] at air
            exact ⟨he, air, rfl⟩
          · cases hd
        · cases hd
      · exact (same (by rw [e]; rfl)).elim
      · exact (same (by rw [e]; rfl)).elim

/-- The frame from this address is in a datagram that left at time `i` or later and is meant for `n`. -/
def Late (P : Plant N) (at_ : Nat → Crowd N) (n : N) (i j : Nat) (f : Frame) (src : UDPAddr) : Prop :=
  ∃ k d, (at_ i).air.length ≤ k ∧ (at_ j).air[k]? = some d ∧ P.hears n d.dest = true ∧ d.source = src ∧
    Says (P.machine n).S.T d.bytes f

theorem crowd_air_keeps {P : Plant N} {w w' : Crowd N} {e : CrowdEvent N} (h : w.step P e = some w') {k : Nat} {d : Packet N}
    (hd : w.air[k]? = some d) : w'.air[k]? = some d := by
  have lt : k < w.air.length := (List.getElem?_eq_some_iff.1 hd).1
  rcases crowd_step_cases h with ⟨m, line, b, rfl, h1, rfl⟩ | ⟨m, i, o, source, b, rfl, h1, rfl⟩ | ⟨m, b, rfl, h1, rfl⟩ |
    ⟨m, k, fam, clock, d, b, rfl, _, hh, h1, rfl⟩ | ⟨m, a, b, rfl, ha, h1, rfl⟩
  · exact hd
  · exact hd
  · show (w.air ++ w.departs m)[k]? = _
    rw [List.getElem?_append_left lt]; exact hd
  · exact hd
  · exact hd

theorem Late.keeps {P : Plant N} {fs : N → FS} {c : N → Cliflags} {at_ : Nat → Crowd N} {does : Nat → CrowdEvent N}
    (run : CrowdForever P fs c at_ does) {n : N} {i j : Nat} {f : Frame} {src : UDPAddr} (h : Late P at_ n i j f src) :
    Late P at_ n i (j + 1) f src := by
  obtain ⟨k, d, h1, h2, h3⟩ := h
  exact ⟨k, d, h1, crowd_air_keeps (run.goes j) h2, h3⟩

omit [DecidableEq N] in
/-- The datagrams of the first `K` places arrive no more from some time on. -/
theorem passes_all {does : Nat → CrowdEvent N} {n : N} (passes : Passes does n) (K : Nat) :
    ∃ i, ∀ j, i ≤ j → ∀ k fam clock, does j = .arrives n k fam clock → K ≤ k := by
  induction K with
  | zero => exact ⟨0, fun _ _ _ _ _ _ => Nat.zero_le _⟩
  | succ K ih =>
    obtain ⟨i1, h1⟩ := ih
    obtain ⟨i2, h2⟩ := passes K
    refine ⟨i1 + i2, fun j hj k fam clock e => ?_⟩
    have := h1 j (by omega) k fam clock e
    rcases Nat.lt_or_ge K k with lt | ge
    · exact lt
    · exact absurd (show does j = .arrives n K fam clock by rw [e]; congr 1; omega) (h2 j (by omega) fam clock)

/-- Where what is held out comes from. -/
theorem sendRx_from {S : Setup} {w v : World} {a : Action} {fam : Fam} {f : Frame} {src : UDPAddr} (h : w.step S a = some v)
    (hf : v.listener fam = .sendRx f src) :
    (w.listener fam = .sendRx f src ∧ ¬ a.Takes fam) ∨
    ∃ d, a = .recv d ∧ d.source = src ∧ listenFrame S.T d.clock S.mtu d.bytes = .ret (.rx f) := by
  have not_taken : ∀ {g x}, (∀ fam, a.Takes fam → fam = g) → (w.setListener g x).listener fam = .sendRx f src →
      (∀ f s, x ≠ .sendRx f s) → w.listener fam = .sendRx f src ∧ ¬ a.Takes fam := by
    intro g x only hl hx
    by_cases e : fam = g
    · subst e; rw [setListener_self] at hl; exact absurd hl (hx _ _)
    · rw [setListener_other _ _ e] at hl
      exact ⟨hl, fun t => e (only fam t)⟩
  rcases step_cases h with ⟨d, rfl, _, hl, rfl⟩ | ⟨g, rfl, _, hl, rfl⟩ | ⟨g, clock, f', addr, rfl, _, hl, rfl⟩ |
    ⟨g, s, addr, rfl, _, hl, rfl⟩ | ⟨g, rfl, _, hl, rfl⟩ | ⟨rfl, _, rfl⟩ | ⟨rfl, _, rfl⟩ | ⟨f', rfl, _, rfl⟩
  · have no : ¬ (Action.recv d).Takes fam := by rintro (⟨_, t⟩ | t | t) <;> cases t
    rcases onRecv_cases S w d with ⟨_, e⟩ | ⟨_, e⟩ | ⟨f', hr, e⟩ | ⟨s, _, e⟩ <;> rw [e] at hf
    · exact .inl ⟨hf, no⟩
    · exact .inl ⟨hf, no⟩
    · have hf : (w.setListener d.fam (.sendRx f' d.source)).listener fam = _ := hf
      by_cases e' : fam = d.fam
      · rw [e', setListener_self] at hf
        cases hf
        exact .inr ⟨d, rfl, rfl, hr⟩
      · rw [setListener_other _ _ e'] at hf
        exact .inl ⟨hf, no⟩
    · have hf : (w.setListener d.fam (.sendTx s d.source)).listener fam = _ := hf
      exact .inl (not_taken (by rintro fam (⟨_, t⟩ | t | t) <;> cases t) hf (by simp))
  · exact .inl (not_taken (by rintro fam (⟨_, t⟩ | t | t) <;> cases t) hf (by simp))
  · rw [(onRx_logs S w g clock f' addr).1] at hf
    exact .inl (not_taken (by rintro fam (⟨_, t⟩ | t | t) <;> cases t; rfl) hf (by simp))
  · rw [(onTx_logs S w g s addr).1] at hf
    exact .inl (not_taken (by rintro fam (⟨_, t⟩ | t | t) <;> cases t; rfl) hf (by simp))
  · have hf : (w.setListener g .gone).listener fam = _ := hf
    exact .inl (not_taken (by rintro fam (⟨_, t⟩ | t | t) <;> cases t; rfl) hf (by simp))
  all_goals exact .inl ⟨hf, by rintro (⟨_, t⟩ | t | t) <;> cases t⟩

theorem crowd_inside {P : Plant N} {w w' : Crowd N} {n : N} {a : Action} (h : w.step P (.inside n a) = some w') :
    (∀ d, a ≠ .recv d) ∧ (w.node n).prog.net.step (P.machine n).S a = some (w'.node n).prog.net := by
  rcases crowd_step_cases h with ⟨_, _, _, e, _⟩ | ⟨_, _, _, _, _, e, _⟩ | ⟨_, _, e, _⟩ |
    ⟨_, _, _, _, _, _, e, _⟩ | ⟨m, a', b, e, ha, hp, rfl⟩ <;> cases e
  refine ⟨ha, ?_⟩
  rw [crowd_set_self]
  unfold Busy.step at hp
  split at hp
  · cases hp
  obtain ⟨p, h1, rfl⟩ := Option.map_eq_some_iff.1 hp
  rcases program_step_cases h1 with ⟨a', v, e, _, h2, rfl⟩ | ⟨_, _, e, _⟩
  · cases e; exact h2
  · cases e

/-- Once no early datagram arrives, what a listener held out early is gone when it is taken. -/
theorem crowd_late_step {P : Plant N} {fs : N → FS} {c : N → Cliflags} {at_ : Nat → Crowd N} {does : Nat → CrowdEvent N}
    (run : CrowdForever P fs c at_ does) {n : N} (running : ∀ i, ¬ ((at_ i).node n).prog.Ended) {i l : Nat}
    (late : ∀ k fam clock, does l = .arrives n k fam clock → (at_ i).air.length ≤ k) {fam : Fam}
    (before : (∃ a, does l = .inside n a ∧ a.Takes fam) ∨
      ∀ f src, ((at_ l).node n).prog.net.listener fam = .sendRx f src → Late P at_ n i l f src) :
    ∀ f src, ((at_ (l + 1)).node n).prog.net.listener fam = .sendRx f src → Late P at_ n i (l + 1) f src := by
  intro f src hf
  have hs := run.goes l
  by_cases ins : ∃ a, does l = .inside n a
  · obtain ⟨a, he⟩ := ins
    rw [he] at hs
    obtain ⟨ha, st⟩ := crowd_inside hs
    rcases sendRx_from st hf with ⟨h1, no⟩ | ⟨d, e, _⟩
    · rcases before with ⟨a', e, t⟩ | b
      · rw [he] at e; cases e; exact absurd t no
      · exact (b f src h1).keeps run
    · exact absurd e (ha d)
  · rcases before with ⟨a, e, _⟩ | b
    · exact absurd ⟨a, e⟩ ins
    rcases crowd_net hs n (crowd_honest (run.leads l) n) (running _) with ⟨e, _⟩ | ⟨k, g, clock, d, he, hk, hh, st⟩ | ⟨a, he, _⟩
    · exact (b f src (by rw [← e]; exact hf)).keeps run
    · rcases sendRx_from st hf with ⟨h1, _⟩ | ⟨r, e, h1, h2⟩
      · exact (b f src h1).keeps run
      · cases e
        exact ⟨k, d, late k g clock he, crowd_air_keeps hs hk, hh, h1, (C42_delivers _ _ _ _ _ h2).2.2⟩
    · exact absurd ⟨a, he⟩ ins

/-- From some time on the listeners hold out only frames of datagrams that left at time `i` or later. -/
theorem crowd_late {P : Plant N} (hT : ∀ n, (P.machine n).S.T = shipped) {fs : N → FS} {c : N → Cliflags}
    {at_ : Nat → Crowd N} {does : Nat → CrowdEvent N} (run : CrowdForever P fs c at_ does) {n : N}
    (running : ∀ i, ¬ ((at_ i).node n).prog.Ended) (fair : SelectFairAt at_ does n) (passes : Passes does n) (i : Nat) :
    ∃ j, ∀ l, j ≤ l → ∀ fam f src, ((at_ l).node n).prog.net.listener fam = .sendRx f src → Late P at_ n i l f src := by
  have selects : ∀ i, ((at_ i).node n).prog.net.main = .select := fun i =>
    (C174_only_peers hT (run.leads i) n).2.2.2.resolve_right (running i)
  obtain ⟨i1, late⟩ := passes_all passes (at_ i).air.length
  have each : ∀ fam, ∃ j, i1 ≤ j ∧ ∀ f src, ((at_ j).node n).prog.net.listener fam = .sendRx f src → Late P at_ n i j f src := by
    intro fam
    by_cases offers : ((at_ i1).node n).prog.net.Offers fam
    · obtain ⟨j, a, hj, he, t, _⟩ := crowd_offer_taken run running fair selects offers
      exact ⟨j + 1, by omega, crowd_late_step run running (late j hj) (.inl ⟨a, he, t⟩)⟩
    · exact ⟨i1, Nat.le_refl _, fun f src h => absurd ⟨by rw [h]; simp, by rw [h]; simp⟩ offers⟩
  have stays : ∀ fam j, i1 ≤ j → (∀ f src, ((at_ j).node n).prog.net.listener fam = .sendRx f src → Late P at_ n i j f src) →
      ∀ t f src, ((at_ (j + t)).node n).prog.net.listener fam = .sendRx f src → Late P at_ n i (j + t) f src := by
    intro fam j hj h t
    induction t with
    | zero => exact h
    | succ t ih => exact crowd_late_step run running (late (j + t) (by omega)) (.inr ih)
  obtain ⟨j4, h4, g4⟩ := each .v4
  obtain ⟨j6, h6, g6⟩ := each .v6
  refine ⟨j4 + j6, fun l hl fam => ?_⟩
  cases fam with
  | v4 =>
    have := stays .v4 j4 h4 g4 (l - j4)
    rwa [show j4 + (l - j4) = l by omega] at this
  | v6 =>
    have := stays .v6 j6 h6 g6 (l - j6)
    rwa [show j6 + (l - j6) = l by omega] at this

/-- From some time on only frames of datagrams that left at time `i` or later are handled. -/
theorem crowd_handled_late {P : Plant N} (hT : ∀ n, (P.machine n).S.T = shipped) {fs : N → FS} {c : N → Cliflags}
    {at_ : Nat → Crowd N} {does : Nat → CrowdEvent N} (run : CrowdForever P fs c at_ does) {n : N}
    (running : ∀ i, ¬ ((at_ i).node n).prog.Ended) (fair : SelectFairAt at_ does n) (passes : Passes does n) (i : Nat) :
    ∃ j0, ∀ j, j0 ≤ j → ∀ t, ∃ new, ((at_ (j + t)).node n).prog.net.handled = ((at_ j).node n).prog.net.handled ++ new ∧
      ∀ y ∈ new, Late P at_ n i (j + t) y.frame y.source := by
  obtain ⟨j0, late⟩ := crowd_late hT run running fair passes i
  refine ⟨j0, fun j hj t => ?_⟩
  induction t with
  | zero => exact ⟨[], by simp, fun y hy => by cases hy⟩
  | succ t ih =>
    obtain ⟨new, h1, h2⟩ := ih
    have keeps : ∀ y ∈ new, Late P at_ n i (j + (t + 1)) y.frame y.source := fun y hy => (h2 y hy).keeps run
    have same : ((at_ (j + (t + 1))).node n).prog.net.handled = ((at_ (j + t)).node n).prog.net.handled →
        ∃ new, ((at_ (j + (t + 1))).node n).prog.net.handled = ((at_ j).node n).prog.net.handled ++ new ∧
          ∀ y ∈ new, Late P at_ n i (j + (t + 1)) y.frame y.source := fun e => ⟨new, by rw [e, h1], keeps⟩
    have step : ∀ a, ((at_ (j + t)).node n).prog.net.step (P.machine n).S a = some ((at_ (j + t + 1)).node n).prog.net →
        ∃ new, ((at_ (j + (t + 1))).node n).prog.net.handled = ((at_ j).node n).prog.net.handled ++ new ∧
          ∀ y ∈ new, Late P at_ n i (j + (t + 1)) y.frame y.source := by
      intro a st
      have look := late (j + t) (by omega)
      rcases step_cases st with ⟨d, rfl, _, hl, e⟩ | ⟨g, rfl, _, hl, e⟩ | ⟨g, clock, f', addr, rfl, _, hl, e⟩ |
        ⟨g, s, addr, rfl, _, hl, e⟩ | ⟨g, rfl, _, hl, e⟩ | ⟨rfl, _, e⟩ | ⟨rfl, _, e⟩ | ⟨f', rfl, _, e⟩
      · refine same (by
          show ((at_ (j + t + 1)).node n).prog.net.handled = _
          rw [e]
          rcases onRecv_cases (P.machine n).S ((at_ (j + t)).node n).prog.net d with ⟨_, e⟩ | ⟨_, e⟩ | ⟨f', hr, e⟩ | ⟨s, _, e⟩ <;>
            rw [e] <;> rfl)
      · exact same (by show ((at_ (j + t + 1)).node n).prog.net.handled = _; rw [e]; rfl)
      · refine ⟨new ++ [⟨g, f', addr, clock⟩], ?_, fun y hy => ?_⟩
        · show ((at_ (j + t + 1)).node n).prog.net.handled = _
          rw [e, (onRx_logs _ _ _ _ _ _).2.2.1, h1, List.append_assoc]
        · rcases List.mem_append.1 hy with hy | hy
          · exact keeps y hy
          · rw [List.mem_singleton.1 hy]
            exact (look g f' addr hl).keeps run
      · exact same (by show ((at_ (j + t + 1)).node n).prog.net.handled = _; rw [e]; exact (onTx_logs _ _ _ _ _).2.2.1)
      · exact same (by show ((at_ (j + t + 1)).node n).prog.net.handled = _; rw [e]; rfl)
      all_goals exact same (by show ((at_ (j + t + 1)).node n).prog.net.handled = _; rw [e])
    rcases crowd_net (run.goes (j + t)) n (crowd_honest (run.leads _) n) (running _) with ⟨_, e⟩ | ⟨_, _, _, _, _, _, _, st⟩ | ⟨_, _, _, st⟩
    · exact same e
    · exact step _ st
    · exact step _ st

/-- Which of the sightings are of late handling. -/
theorem sightings_mem {hs : List Handled} {x : Sighting} (h : x ∈ sightings hs) :
    ∃ y ∈ hs, y.frame = .beacon x.beacon ∧ y.source = x.source := by
  induction hs with
  | nil => cases h
  | cons y hs ih =>
    obtain ⟨fam, f, a, t⟩ := y
    have rest : x ∈ sightings hs → ∃ y ∈ (⟨fam, f, a, t⟩ : Handled) :: hs, y.frame = .beacon x.beacon ∧ y.source = x.source := by
      intro h
      obtain ⟨y, hy, r⟩ := ih h
      exact ⟨y, List.mem_cons_of_mem _ hy, r⟩
    cases f with
    | beacon b =>
      rcases List.mem_cons.1 h with rfl | h
      · exact ⟨_, List.mem_cons_self, rfl, rfl⟩
      · exact rest h
    | _ => exact rest h

theorem crowd_fresh {P : Plant N} (hT : ∀ n, (P.machine n).S.T = shipped) {fs : N → FS} {c : N → Cliflags}
    {at_ : Nat → Crowd N} {does : Nat → CrowdEvent N} (run : CrowdForever P fs c at_ does)
    (fit : NearbyFits fun e => ∃ i, does i = e) {n : N} (hm : 146 ≤ (P.machine n).S.mtu)
    (running : ∀ i, ¬ ((at_ i).node n).prog.Ended) (select : SelectFairAt at_ does n) {s : UDPAddr}
    (sends : ∀ i, ∃ j, i ≤ j ∧ LeavesFor P at_ does n s j) (network : LosesSomeAt P at_ does n s) (passes : Passes does n)
    (since : Nat) :
    ∃ j, ∀ l, j ≤ l → (∃ p ∈ ((at_ l).node n).prog.net.peers, p.addr = (P.machine n).S.ipText s.ip) ∧
      ∀ p ∈ ((at_ l).node n).prog.net.peers, p.addr = (P.machine n).S.ipText s.ip →
        ∃ d t, since ≤ t ∧ t < l ∧ Leaves at_ does d t ∧ P.hears n d.dest = true ∧
          (P.machine n).S.ipText d.source.ip = (P.machine n).S.ipText s.ip ∧
          (ValidGlobal shipped d.settings.global → d.Tells p) := by
  obtain ⟨i1, news⟩ := crowd_handled_late hT run running select passes since
  obtain ⟨i, hi, k, fam, clock, d, h1, h2, h3⟩ := network sends (i1 + since)
  obtain ⟨j, y, x, hj, hy, y1, y2⟩ := crowd_heard hT run running select h1 h2
    (C175_sized P hT fs c _ _ (run.leads i) (fun n k o source h => fit n k o source (by
      obtain ⟨t, _, e⟩ := List.mem_map.1 h
      exact ⟨t, e⟩)) d (List.mem_of_getElem? h2) _ hm)
  refine ⟨j + 1, fun l hl => ?_⟩
  obtain ⟨own, o1, -, -⟩ := C174_node (run.leads l) n
  obtain ⟨ps, q1, -, -, -⟩ := C145_serial o1
  obtain ⟨e1, _, e3⟩ := C66_entries (P.machine n).S (by rw [hT]; exact shipped_peerTables) (by rw [hT]; exact shipped_shows) _ _
    (C127_network q1)
  obtain ⟨new, n1, n2⟩ := news (j + 1) (by omega) (l - (j + 1))
  obtain ⟨new', g1, g2⟩ := news j (by omega) (l - j)
  rw [show j + 1 + (l - (j + 1)) = l by omega] at n1
  rw [show j + (l - j) = l by omega] at g1 g2
  have hnew : new' = y :: new := by
    rw [n1, hy, List.append_assoc] at g1
    exact (List.append_cancel_left g1).symm
  have hs : sightings ((at_ l).node n).prog.net.handled =
      sightings ((at_ j).node n).prog.net.handled ++ sightings new' := by rw [g1, sightings_append]
  have seen : ⟨y.source, x, y.clock⟩ ∈ sightings new' := sighted (by rw [hnew]; exact List.mem_cons_self) y1
  have addr : Sighting.addr (P.machine n).S.ipText ⟨y.source, x, y.clock⟩ = (P.machine n).S.ipText s.ip := by
    unfold Sighting.addr; rw [y2, h3]
  refine ⟨?_, fun p hp ha => ?_⟩
  · have : (P.machine n).S.ipText s.ip ∈ ((at_ l).node n).prog.net.peers.map Peer.addr := by
      rw [e1, firstSeen_mem, hs]
      exact List.mem_map.2 ⟨_, List.mem_append_right _ seen, addr⟩
    exact List.mem_map.1 this
  · obtain ⟨first, rest, f1, f2, _⟩ := e3 p hp
    have last : (first :: rest).getLast (by simp) ∈ (sightings new').filter
        (fun s => s.addr (P.machine n).S.ipText = p.addr) := by
      have hne : (sightings new').filter (fun s => s.addr (P.machine n).S.ipText = p.addr) ≠ [] := by
        apply List.ne_nil_of_mem (a := ⟨y.source, x, y.clock⟩)
        rw [List.mem_filter]
        exact ⟨seen, by simp [addr, ha]⟩
      have : (first :: rest).getLast (by simp) = ((sightings new').filter
          (fun s => s.addr (P.machine n).S.ipText = p.addr)).getLast hne := by
        apply Option.some.inj
        rw [← List.getLast?_eq_some_getLast, ← List.getLast?_eq_some_getLast, ← f1, hs, List.filter_append,
          List.getLast?_append, List.getLast?_eq_some_getLast hne]
        rfl
      rw [this]
      exact List.getLast_mem hne
    rw [List.mem_filter] at last
    obtain ⟨z, hz, z1, z2⟩ := sightings_mem last.1
    obtain ⟨k', d', k1, k2, k3, k4, k5⟩ := g2 z hz
    obtain ⟨t, t1, t2, t3⟩ := crowd_left run (i := since) (l - since) k1 (by rw [show since + (l - since) = l by omega]; exact k2)
    refine ⟨d', t, t1, by omega, t3, k3, ?_, fun ok => ?_⟩
    · have : Sighting.addr (P.machine n).S.ipText ((first :: rest).getLast (by simp)) = p.addr := of_decide_eq_true last.2
      rw [k4, z2, ← ha, ← this]
      rfl
    · obtain ⟨es', w', ac⟩ := accounted (run.leads l)
      obtain ⟨-, b, b1, b2⟩ := air_built hT ac.leads (ac.air d' (List.mem_of_getElem? k2))
      obtain ⟨s1, s2, s3⟩ := built_says b1 b2
      have says : Says shipped d'.bytes (.beacon b) := ⟨s3, s1⟩
      rw [hT] at k5
      have := k5.unique says
      rw [z1] at this
      have hx : ((first :: rest).getLast (by simp)).beacon = b := by simpa using this
      rw [hT] at f2
      exact shows_tells ok b1 (hx ▸ f2)

/-- **C177, nothing old for ever.** Whoever keeps entering beacon commands to an address heard at another machine is listed
there in the end and for good, and, whatever the time `since`, from some time on the entry shows a beacon that left later than
that: the name, the free space and the settings of its sender when it left. Datagrams may be lost, doubled, reordered and
delayed, as long as some arrive and none is on its way for ever. -/
theorem C177_fresh (P : Plant N) (hT : ∀ n, (P.machine n).S.T = shipped) (fs : N → FS) (c : N → Cliflags)
    (at_ : Nat → Crowd N) (does : Nat → CrowdEvent N) (run : CrowdForever P fs c at_ does)
    (fit : NearbyFits fun e => ∃ i, does i = e) (m n : N) (hm : 146 ≤ (P.machine n).S.mtu)
    (runs : ∀ i, ¬ ((at_ i).node m).prog.Ended) (running : ∀ i, ¬ ((at_ i).node n).prog.Ended)
    (holders : HolderFairAt at_ does m) (locks : LockFairAt at_ does m) (select : SelectFairAt at_ does n)
    (word : String) (proper : word ≠ "?" ∧ word ≠ "off") (to s : UDPAddr) (heard : P.hears n to = true)
    (enters : KeepsEntering P does m word) (works : BeaconsWork P at_ does m word to s)
    (network : LosesSomeAt P at_ does n s) (passes : Passes does n) (since : Nat) :
    ∃ j, ∀ l, j ≤ l → (∃ p ∈ ((at_ l).node n).prog.net.peers, p.addr = (P.machine n).S.ipText s.ip) ∧
      ∀ p ∈ ((at_ l).node n).prog.net.peers, p.addr = (P.machine n).S.ipText s.ip →
        ∃ d t, since ≤ t ∧ t < l ∧ Leaves at_ does d t ∧ P.hears n d.dest = true ∧
          (P.machine n).S.ipText d.source.ip = (P.machine n).S.ipText s.ip ∧
          (ValidGlobal shipped d.settings.global → d.Tells p) :=
  crowd_fresh hT run fit hm running select (crowd_sends run runs holders locks proper heard enters works) network passes since

/-- **C177, current.** If moreover the settings of the sender stay as they are from some time on, are legal, and nobody else
sends from its address, then in the end and for good the entry shows these settings, and the free space if the beacons that
leave tell the same. -/
theorem C177_current (P : Plant N) (hT : ∀ n, (P.machine n).S.T = shipped) (fs : N → FS) (c : N → Cliflags)
    (at_ : Nat → Crowd N) (does : Nat → CrowdEvent N) (run : CrowdForever P fs c at_ does)
    (fit : NearbyFits fun e => ∃ i, does i = e) (m n : N) (hm : 146 ≤ (P.machine n).S.mtu)
    (runs : ∀ i, ¬ ((at_ i).node m).prog.Ended) (running : ∀ i, ¬ ((at_ i).node n).prog.Ended)
    (holders : HolderFairAt at_ does m) (locks : LockFairAt at_ does m) (select : SelectFairAt at_ does n)
    (word : String) (proper : word ≠ "?" ∧ word ≠ "off") (to s : UDPAddr) (heard : P.hears n to = true)
    (enters : KeepsEntering P does m word) (works : BeaconsWork P at_ does m word to s)
    (network : LosesSomeAt P at_ does n s) (passes : Passes does n) (since : Nat) (gl : List (String × String))
    (settled : ∀ i, since ≤ i → ((at_ i).node m).prog.settings.global = gl) (legal : ValidGlobal shipped gl)
    (own : ∀ d t, Leaves at_ does d t → P.hears n d.dest = true →
      (P.machine n).S.ipText d.source.ip = (P.machine n).S.ipText s.ip → d.sender = m) :
    ∃ j, ∀ l, j ≤ l → ∃ p ∈ ((at_ l).node n).prog.net.peers, p.addr = (P.machine n).S.ipText s.ip ∧
      assoc "descriptor" gl = some p.maxdesc ∧ assoc "rxwilling" gl = some p.canrx ∧ assoc "txwilling" gl = some p.cantx ∧
      ∀ free, (∀ d t, since ≤ t → Leaves at_ does d t → d.sender = m → toldFree gl d.outside.disk = free) →
        p.freespace = free := by
  obtain ⟨j, h⟩ := C177_fresh P hT fs c at_ does run fit m n hm runs running holders locks select word proper to s heard enters
    works network passes since
  refine ⟨j, fun l hl => ?_⟩
  obtain ⟨⟨p, hp, ha⟩, all⟩ := h l hl
  obtain ⟨d, t, t1, _, t3, t4, t5, t6⟩ := all p hp ha
  have hd := own d t t3 t4 t5
  have hg : d.settings.global = gl := by rw [t3.settings, hd]; exact settled t t1
  have tells := t6 (by rw [hg]; exact legal)
  exact ⟨p, hp, ha, hg ▸ tells.descriptor, hg ▸ tells.rxwilling, hg ▸ tells.txwilling, fun free same => by
    rw [tells.freespace, hg]; exact same d t t1 t3 hd⟩

/-! ## Such executions exist -/

theorem crowd_air_grows {P : Plant N} {fs : N → FS} {c : N → Cliflags} {at_ : Nat → Crowd N} {does : Nat → CrowdEvent N}
    (run : CrowdForever P fs c at_ does) (i t : Nat) : (at_ i).air.length ≤ (at_ (i + t)).air.length := by
  induction t with
  | zero => exact Nat.le_refl _
  | succ t ih =>
    refine Nat.le_trans ih ?_
    rcases crowd_step_cases (run.goes (i + t)) with ⟨m, line, b, _, h1, e⟩ | ⟨m, l, o, source, b, _, h1, e⟩ | ⟨m, b, he, h1, e⟩ |
      ⟨m, l, fam, clock, d', b, _, _, _, h1, e⟩ | ⟨m, a, b, _, _, h1, e⟩
    all_goals
      show _ ≤ (at_ (i + t + 1)).air.length
      rw [e]
      first
        | exact Nat.le_refl _
        | (rw [List.length_append]; omega)

theorem crowd_air_unbounded {P : Plant N} {fs : N → FS} {c : N → Cliflags} {at_ : Nat → Crowd N} {does : Nat → CrowdEvent N}
    (run : CrowdForever P fs c at_ does) {n : N} {s : UDPAddr} (sends : ∀ i, ∃ j, i ≤ j ∧ LeavesFor P at_ does n s j)
    (L : Nat) : ∃ i, ∀ j, i ≤ j → L ≤ (at_ j).air.length := by
  induction L with
  | zero => exact ⟨0, fun _ _ => Nat.zero_le _⟩
  | succ L ih =>
    obtain ⟨i, h⟩ := ih
    obtain ⟨j, hj, m, d, _, air, _⟩ := sends i
    refine ⟨j + 1, fun l hl => ?_⟩
    have h1 := h j hj
    have h2 := congrArg List.length air
    rw [List.length_append, List.length_singleton] at h2
    have h3 := crowd_air_grows run (j + 1) (l - (j + 1))
    rw [show j + 1 + (l - (j + 1)) = l by omega] at h3
    omega

/-- Machine 1 sends beacons to machine 2 for ever and its settings stay as they are. -/
example : ∃ at_ does, CrowdForever examplePlant (fun _ => exampleFS) (fun _ => shippedSettings) at_ does ∧
    (∀ n, (examplePlant.machine n).S.T = shipped) ∧ NearbyFits (fun e => ∃ i, does i = e) ∧
    146 ≤ (examplePlant.machine 2).S.mtu ∧ (∀ i, ¬ ((at_ i).node 1).prog.Ended) ∧ (∀ i, ¬ ((at_ i).node 2).prog.Ended) ∧
    HolderFairAt at_ does 1 ∧ LockFairAt at_ does 1 ∧ SelectFairAt at_ does 2 ∧ ("1.1.1.2" ≠ "?" ∧ "1.1.1.2" ≠ "off") ∧
    examplePlant.hears 2 ⟨[1#8, 1#8, 1#8, 2#8], 7542, ""⟩ = true ∧ KeepsEntering examplePlant does 1 "1.1.1.2" ∧
    BeaconsWork examplePlant at_ does 1 "1.1.1.2" ⟨[1#8, 1#8, 1#8, 2#8], 7542, ""⟩ ⟨[1#8, 1#8, 1#8, 1#8], 5000, ""⟩ ∧
    LosesSomeAt examplePlant at_ does 2 ⟨[1#8, 1#8, 1#8, 1#8], 5000, ""⟩ ∧ Passes does 2 ∧
    (∀ i, 0 ≤ i → ((at_ i).node 1).prog.settings.global = shippedSettings.global) ∧
    ValidGlobal shipped shippedSettings.global ∧ ∀ d t, Leaves at_ does d t → d.sender = 1 := by
  obtain ⟨at_, does, ⟨run, h1, h2, h3, h4, h5, h6, h7, h8, h9, h10, h11, h12, h13⟩, settings, alone, soon⟩ := beacons_for_ever
  refine ⟨at_, does, run, h1, h2, h3, h4, h5, h6, h7, h8, h9, h10, h11, h12, h13, fun k => ?_,
    fun i _ => by rw [settings], C14_shipped_defaults, fun d t l => alone t _ l.acts⟩
  obtain ⟨i, h⟩ := crowd_air_unbounded run (crowd_sends run h4 h6 h7 h9 h10 h11 h12) (k + 4)
  refine ⟨i, fun j hj fam clock e => ?_⟩
  have := soon j 2 k fam clock e
  have := h j hj
  omega

/-- At machine 1 a beacon command is entered, then the descriptor is set, then a beacon command is entered again. At machine
2 one of the later beacons arrives before one of the earlier. -/
def overtaken : List (CrowdEvent (Fin 3)) :=
  [.typed 1 "saratoga[0]:beacon 1.1.1.2", .begin 1 0 towardsTwo (fun _ => ⟨[1#8, 1#8, 1#8, 1#8], 5000, ""⟩)] ++
  List.replicate 9 (.act 1) ++ [.typed 1 "saratoga[1]:descriptor d32", .begin 1 0 calmReplies id,
    .typed 1 "saratoga[2]:beacon 1.1.1.2", .begin 1 0 towardsTwo (fun _ => ⟨[1#8, 1#8, 1#8, 1#8], 5000, ""⟩)] ++
  List.replicate 9 (.act 1) ++ [.arrives 2 3 .v4 ⟨0, 0⟩, .inside 2 (.takeRx .v4 ⟨0, 0⟩), .arrives 2 0 .v4 ⟨0, 0⟩,
    .inside 2 (.takeRx .v4 ⟨0, 0⟩)]

/-- **C177** An old beacon that arrives late is believed: until the next one the entry shows what is no longer true. So it
takes that no datagram is on its way for ever. -/
theorem C177_overtaken : ∃ w, CrowdLeads smallPlant (fun _ => exampleFS) (fun _ => shippedSettings) overtaken w ∧
    (w.node 2).prog.net.peers.map Peer.maxdesc = ["d64"] ∧
    assoc "descriptor" (w.node 1).prog.settings.global = some "d32" := by
  have key : ((Crowd.init (fun _ => exampleFS) (fun _ => shippedSettings)).run smallPlant overtaken).map (fun w =>
      ((w.node 2).prog.net.peers.map Peer.maxdesc, assoc "descriptor" (w.node 1).prog.settings.global)) =
      some (["d64"], some "d32") := by decide +kernel
  obtain ⟨w, h, e⟩ := Option.map_eq_some_iff.1 key
  simp only [Prod.mk.injEq] at e
  exact ⟨w, h, e.1, e.2⟩

end Saratoga
