import Verif.Props.Desk
/-! # C157: peers see nothing of what the user does -/
namespace Saratoga

/-- What happened on the network side, leaving out what other programs did to the files. -/
def seenByPeers (es : List Event) : List Action :=
  (netEvents es).filter fun
    | .files _ => false
    | _ => true

/-- The network side without its files. -/
def World.noFiles (w : World) : World := { w with fs := ⟨[], [], fun _ _ => false⟩ }

theorem orEnd_noFiles {α : Type} (w : World) (x : Out α) (f g : α → World)
    (h : ∀ a, (f a).noFiles = g a) : (w.orEnd x f).noFiles = w.noFiles.orEnd x g := by
  cases x with
  | ret a => exact h a
  | fatal => rfl
  | panic => rfl

/-- A step of the network side that handles no request is the same with other files. -/
theorem step_noFiles {S : Setup} {w w' : World} {a : Action} (notFiles : ∀ f, a ≠ .files f) (no : ¬ AskedFor w')
    (h : w.step S a = some w') : w.noFiles.step S a = some w'.noFiles := by
  cases a with
  | recv d =>
    simp only [World.step] at h ⊢
    split at h
    · rename_i hc
      cases h
      rw [if_pos (show w.noFiles.main ≠ .ended ∧ w.noFiles.listener d.fam = .reading from hc)]
      congr 1
      refine (orEnd_noFiles w _ _ _ fun act => ?_).symm
      cases act <;> rfl
    · cases h
  | readError fam =>
    simp only [World.step] at h ⊢
    split at h
    · rename_i hc
      cases h
      rw [if_pos (show w.noFiles.main ≠ .ended ∧ w.noFiles.listener fam = .reading from hc)]
      rfl
    · cases h
  | takeRx fam clock =>
    rcases step_cases h with ⟨d', e, _⟩ | ⟨g, e, _⟩ | ⟨g, clock', f, addr, e, hm, hl, rfl⟩ |
      ⟨g, s, addr, e, _⟩ | ⟨g, e, _⟩ | ⟨e, _⟩ | ⟨e, _⟩ | ⟨f, e, _⟩ <;> cases e
    have hm' : w.noFiles.main = .select := hm
    have hl' : w.noFiles.listener fam = .sendRx f addr := hl
    simp only [World.step, hm', hl']
    congr 1
    have hh := (onRx_logs S w fam clock f addr).2.2.1
    cases f with
    | request r =>
      refine absurd ⟨Handled.mk fam (.request r) addr clock, ?_, r, rfl⟩ no
      rw [hh]; exact List.mem_append_right _ (List.mem_singleton.2 rfl)
    | beacon b =>
      simp only [World.onRx]
      show World.orEnd _ (do b.shortPrint S.T; newPeer S.T S.ipText clock w.peers b (some addr)) _ =
        (World.orEnd _ (do b.shortPrint S.T; newPeer S.T S.ipText clock w.peers b (some addr)) _).noFiles
      cases (do b.shortPrint S.T; newPeer S.T S.ipText clock w.peers b (some addr)) <;> rfl
    | data d => simp only [World.onRx]; cases d.shortPrint S.T <;> rfl
    | metadata m => simp only [World.onRx]; cases m.shortPrint S.T <;> rfl
    | status s => simp only [World.onRx]; cases s.shortPrint S.T <;> rfl
  | takeTx fam =>
    rcases step_cases h with ⟨d', e, _⟩ | ⟨g, e, _⟩ | ⟨g, clock', f, addr, e, _⟩ |
      ⟨g, s, addr, e, hm, hl, rfl⟩ | ⟨g, e, _⟩ | ⟨e, _⟩ | ⟨e, _⟩ | ⟨f, e, _⟩ <;> cases e
    have hm' : w.noFiles.main = .select := hm
    have hl' : w.noFiles.listener fam = .sendTx s addr := hl
    simp only [World.step, hm', hl']
    simp only [World.onTx]
    cases s.shortPrint S.T <;> rfl
  | takeQuit fam =>
    rcases step_cases h with ⟨d', e, _⟩ | ⟨g, e, _⟩ | ⟨g, clock', f, addr, e, _⟩ |
      ⟨g, s, addr, e, _⟩ | ⟨g, e, hm, hl, rfl⟩ | ⟨e, _⟩ | ⟨e, _⟩ | ⟨f, e, _⟩ <;> cases e
    have hm' : w.noFiles.main = .select := hm
    have hl' : w.noFiles.listener fam = .sendQuit := hl
    simp only [World.step, hm', hl']
    rfl
  | userQuit =>
    rcases step_cases h with ⟨d', e, _⟩ | ⟨g, e, _⟩ | ⟨g, clock', f, addr, e, _⟩ |
      ⟨g, s, addr, e, _⟩ | ⟨g, e, _⟩ | ⟨e, hm, rfl⟩ | ⟨e, _⟩ | ⟨f, e, _⟩ <;> cases e
    have hm' : w.noFiles.main = .select := hm
    simp only [World.step, hm']
    rfl
  | kill =>
    rcases step_cases h with ⟨d', e, _⟩ | ⟨g, e, _⟩ | ⟨g, clock', f, addr, e, _⟩ |
      ⟨g, s, addr, e, _⟩ | ⟨g, e, _⟩ | ⟨e, _⟩ | ⟨e, hm, rfl⟩ | ⟨f, e, _⟩ <;> cases e
    simp only [World.step]
    rw [if_pos (show w.noFiles.main ≠ .ended from hm)]
    rfl
  | files f => exact absurd rfl (notFiles f)

theorem seenByPeers_append (es : List Event) (e : Event) :
    seenByPeers (es ++ [e]) = seenByPeers es ++ seenByPeers [e] := by
  simp [seenByPeers, netEvents]

theorem handled_stays {S : Setup} {w w' : World} {a : Action} (h : w.step S a = some w') {x : Handled}
    (hx : x ∈ w.handled) : x ∈ w'.handled := by
  rcases step_cases h with ⟨d', rfl, hm, _, rfl⟩ | ⟨g, rfl, hm, _, rfl⟩ | ⟨g, clock, f, addr, rfl, hm, hl, rfl⟩ |
    ⟨g, s, addr, rfl, hm, hl, rfl⟩ | ⟨g, rfl, hm, _, rfl⟩ | ⟨rfl, hm, rfl⟩ | ⟨rfl, hm, rfl⟩ | ⟨f, rfl, hm, rfl⟩
  · rcases onRecv_cases S w d' with ⟨_, h⟩ | ⟨hf, h⟩ | ⟨f', hf, h⟩ | ⟨s, hf, h⟩ <;> rw [h] <;> exact hx
  · exact hx
  · rw [(onRx_logs S w g clock f addr).2.2.1]; exact List.mem_append_left _ hx
  · rw [(onTx_logs S w g s addr).2.2.1]; exact hx
  all_goals exact hx

/-- The network side of an execution, without its files, is a run of its own of what peers see. -/
theorem leads_noFiles {M : Machine} {fs : FS} {c : Cliflags} {es : List Event} {p : Program}
    (h : Leads M fs c es p) : ¬ p.Ended → ¬ AskedFor p.net →
      (World.init fs).noFiles.run M.S (seenByPeers es) = some p.net.noFiles := by
  refine leads_induction (P := fun es p => ¬ p.Ended → ¬ AskedFor p.net →
      (World.init fs).noFiles.run M.S (seenByPeers es) = some p.net.noFiles) (fun _ _ => rfl) ?_ h
  intro es p e p' ih hs running no
  rw [seenByPeers_append, run_append]
  rcases program_step_cases hs with ⟨a, w, rfl, _, h1, rfl⟩ | ⟨line, o, rfl, hm, rfl⟩
  · have before : ¬ p.Ended := by
      intro hm
      have hm : p.net.main = .ended := hm
      rcases step_cases h1 with ⟨_, _, h, _⟩ | ⟨_, _, h, _⟩ | ⟨_, _, _, _, _, h, _⟩ | ⟨_, _, _, _, h, _⟩ |
        ⟨_, _, h, _⟩ | ⟨_, h, _⟩ | ⟨_, h, _⟩ | ⟨_, _, h, _⟩ <;> simp_all
    have no' : ¬ AskedFor p.net := by
      rintro ⟨x, hx, r, hr⟩
      exact no ⟨x, handled_stays h1 hx, r, hr⟩
    rw [ih before no']
    by_cases hf : ∃ f, a = .files f
    · obtain ⟨f, rfl⟩ := hf
      simp only [World.step] at h1
      split at h1
      · cases h1; rfl
      · cases h1
    · have hs : seenByPeers [.net a] = [a] := by
        cases a <;> first | rfl | exact absurd ⟨_, rfl⟩ hf
      rw [hs]
      simp only [Option.bind_some, World.run, step_noFiles (fun f hf' => hf ⟨f, hf'⟩) no h1]
  · have hs : seenByPeers [.typed line o] = [] := rfl
    rw [hs]
    have key : (p.enter M o line).net.noFiles = p.net.noFiles ∧ (p.enter M o line).net.handled = p.net.handled := by
      rcases enter_cases M o p line with ⟨e, _⟩ | ⟨cmd, args, _, p', hc, e⟩ | ⟨e, _⟩
      · rw [e]; exact ⟨rfl, rfl⟩
      · rw [e, (command_done hc).net]; exact ⟨rfl, rfl⟩
      · rw [e] at running; exact absurd rfl running
    rw [ih hm (by rintro ⟨x, hx, r, hr⟩; exact no ⟨x, by rw [key.2]; exact hx, r, hr⟩)]
    simp only [Option.bind_some, World.run, key.1]

theorem noFiles_same {v w : World} : v.noFiles = w.noFiles ↔ SameNet v w ∧ v.main = w.main := by
  simp only [World.noFiles, World.mk.injEq, SameNet]
  constructor
  · rintro ⟨a, b, c, d, _, e, f, g, h⟩; exact ⟨⟨a, c, d, e, f, g, h⟩, b⟩
  · rintro ⟨⟨a, c, d, e, f, g, h⟩, b⟩; exact ⟨a, b, c, d, trivial, e, f, g, h⟩

/-- A request comes to be handled in one way only. -/
theorem asked_new {S : Setup} {w w' : World} {a : Action} (h : w.step S a = some w') (asked : AskedFor w') :
    AskedFor w ∨ ∃ fam clock r addr, a = .takeRx fam clock ∧ w.listener fam = .sendRx (.request r) addr := by
  obtain ⟨y, hy, r, hr⟩ := asked
  rcases step_cases h with ⟨d', rfl, hm, _, rfl⟩ | ⟨g, rfl, hm, _, rfl⟩ | ⟨g, clock, f, addr, rfl, hm, hl, rfl⟩ |
    ⟨g, s, addr, rfl, hm, hl, rfl⟩ | ⟨g, rfl, hm, _, rfl⟩ | ⟨rfl, hm, rfl⟩ | ⟨rfl, hm, rfl⟩ | ⟨f, rfl, hm, rfl⟩
  · rcases onRecv_cases S w d' with ⟨_, h⟩ | ⟨hf, h⟩ | ⟨f', hf, h⟩ | ⟨s, hf, h⟩ <;> rw [h] at hy <;>
      exact .inl ⟨y, hy, r, hr⟩
  · exact .inl ⟨y, hy, r, hr⟩
  · rw [(onRx_logs S w g clock f addr).2.2.1] at hy
    rcases List.mem_append.1 hy with hy | hy
    · exact .inl ⟨y, hy, r, hr⟩
    · cases List.mem_singleton.1 hy
      simp only at hr
      subst hr
      exact .inr ⟨g, clock, r, addr, rfl, hl⟩
  · rw [(onTx_logs S w g s addr).2.2.1] at hy
    exact .inl ⟨y, hy, r, hr⟩
  all_goals exact .inl ⟨y, hy, r, hr⟩

/-- Whether something can happen does not depend on the files. -/
theorem can_noFiles {S : Setup} {v w v' : World} {a : Action} (same : v.noFiles = w.noFiles)
    (h : v.step S a = some v') : ∃ w', w.step S a = some w' := by
  obtain ⟨⟨e1, _⟩, e2⟩ := noFiles_same.1 same
  cases a <;> simp only [World.step, ← e1, ← e2] at h ⊢
  case takeRx fam clock => split at h <;> first | exact ⟨_, rfl⟩ | cases h
  case takeTx fam => split at h <;> first | exact ⟨_, rfl⟩ | cases h
  case takeQuit fam => split at h <;> first | exact ⟨_, rfl⟩ | cases h
  case userQuit => split at h <;> first | exact ⟨_, rfl⟩ | cases h
  all_goals
    split at h
    · rename_i hc; exact ⟨_, if_pos hc⟩
    · cases h

/-- **C157.** Two executions in which the same happens on the network, whatever lines are entered in either, in whatever
order between the datagrams, with whatever settings and files at the start and whatever other programs do to the files:
while both run and no request has been handled, the peers known, the datagrams read, the frames handled, the replies
made, the replies sent and what every goroutine waits for are the same. -/
theorem C157_same_view {M : Machine} {fs fs' : FS} {c c' : Cliflags} {es es' : List Event} {p p' : Program}
    (one : Leads M fs c es p) (other : Leads M fs' c' es' p') (running : ¬ p.Ended) (running' : ¬ p'.Ended)
    (no : ¬ AskedFor p.net) (no' : ¬ AskedFor p'.net) (same : seenByPeers es = seenByPeers es') :
    SameNet p.net p'.net ∧ p.net.main = p'.net.main := by
  have h1 := leads_noFiles one running no
  have h2 := leads_noFiles other running' no'
  rw [same] at h1
  have h2 : (World.init fs).noFiles.run M.S (seenByPeers es') = some p'.net.noFiles := h2
  rw [h1] at h2
  have h := Option.some.inj h2
  exact noFiles_same.1 h

/-- **C157, as shipped.** With the shipped tables this holds as long as both run: there a request that is handled ends
the process (C65). -/
theorem C157_shipped {M : Machine} (hT : M.S.T = shipped) {fs fs' : FS} {c c' : Cliflags} {es es' : List Event}
    {p p' : Program} (one : Leads M fs c es p) (other : Leads M fs' c' es' p') (running : ¬ p.Ended)
    (running' : ¬ p'.Ended) (same : seenByPeers es = seenByPeers es') :
    SameNet p.net p'.net ∧ p.net.main = p'.net.main :=
  C157_same_view one other running running' (running_unasked hT (C127_network one) running)
    (running_unasked hT (C127_network other) running') same

/-- **C157, what may come next.** In two such states the same can happen on the network next, and afterwards they
agree again: with what arrives a peer cannot even tell them apart by what is no longer taken. -/
theorem C157_next {M : Machine} (hT : M.S.T = shipped) {fs fs' : FS} {c c' : Cliflags} {es es' : List Event}
    {p p' q : Program} (one : Leads M fs c es p) (other : Leads M fs' c' es' p') (running : ¬ p.Ended)
    (running' : ¬ p'.Ended) (same : seenByPeers es = seenByPeers es') (a : Action)
    (next : p.step M (.net a) = some q) :
    ∃ q', p'.step M (.net a) = some q' ∧ (q.Ended ↔ q'.Ended) ∧ (¬ q.Ended → SameNet q.net q'.net) := by
  have eqv := noFiles_same.2 (C157_shipped hT one other running running' same)
  have no := running_unasked hT (C127_network one) running
  have no' := running_unasked hT (C127_network other) running'
  rcases program_step_cases next with ⟨b, w, hb, nk, h1, rfl⟩ | ⟨line, o, hb, _⟩
  rotate_left
  · cases hb
  cases hb
  obtain ⟨w', h2⟩ := can_noFiles eqv h1
  have hstep : p'.step M (.net a) = some { p' with net := w' } := by
    have : p'.step M (.net a) = (p'.net.step M.S a).map fun w => { p' with net := w } := by
      cases a <;> first | rfl | exact absurd rfl nk
    rw [this, h2]; rfl
  refine ⟨_, hstep, ?_⟩
  by_cases ask : ∃ fam clock r addr, a = .takeRx fam clock ∧ p.net.listener fam = .sendRx (.request r) addr
  · obtain ⟨fam, clock, r, addr, rfl, hl⟩ := ask
    have hl' : p'.net.listener fam = .sendRx (.request r) addr := by
      rw [← (noFiles_same.1 eqv).1.1]; exact hl
    have d1 : w.main = .ended :=
      (C65_ends_iff_partial M.S hT _ p.net _ (C127_network one) fam clock (.request r) addr hl h1).1 trivial
    have d2 : w'.main = .ended :=
      (C65_ends_iff_partial M.S hT _ p'.net _ (C127_network other) fam clock (.request r) addr hl' h2).1 trivial
    exact ⟨⟨fun _ => d2, fun _ => d1⟩, fun hq => absurd d1 hq⟩
  · have n1 : ¬ AskedFor w := fun hA => (asked_new h1 hA).elim no ask
    have n2 : ¬ AskedFor w' := fun hA => (asked_new h2 hA).elim no' (by
      rintro ⟨fam, clock, r, addr, e, hl⟩
      rw [← (noFiles_same.1 eqv).1.1] at hl
      exact ask ⟨fam, clock, r, addr, e, hl⟩)
    have key : w.noFiles = w'.noFiles := by
      by_cases hf : ∃ f, a = .files f
      · obtain ⟨f, rfl⟩ := hf
        simp only [World.step] at h1 h2
        split at h1
        · split at h2
          · cases h1; cases h2; exact eqv
          · cases h2
        · cases h1
      · have s1 := step_noFiles (fun f e => hf ⟨f, e⟩) n1 h1
        have s2 := step_noFiles (fun f e => hf ⟨f, e⟩) n2 h2
        rw [eqv, s2] at s1
        exact (Option.some.inj s1).symm
    obtain ⟨k1, k2⟩ := noFiles_same.1 key
    refine ⟨?_, fun _ => k1⟩
    show w.main = .ended ↔ w'.main = .ended
    rw [k2]

/-- In one execution the user works, in the other nobody does; the same beacon arrives. -/
example : ∃ p p', Leads exampleMachine exampleFS shippedSettings exampleEvents p ∧
    Leads exampleMachine exampleFS shippedSettings
      [.net (.recv ⟨.v4, ⟨0, 0⟩, [0x20, 0, 0, 0, 104, 105, 33, 33], someone⟩), .net (.takeRx .v4 ⟨5, 0⟩)] p' ∧
    ¬ p.Ended ∧ ¬ p'.Ended ∧ p.table.length = 2 ∧ p'.table.length = 0 ∧ p.net.peers.length = 1 ∧
    seenByPeers exampleEvents =
      [.recv ⟨.v4, ⟨0, 0⟩, [0x20, 0, 0, 0, 104, 105, 33, 33], someone⟩, .takeRx .v4 ⟨5, 0⟩] := by
  have h : ((Program.init exampleFS shippedSettings).run exampleMachine exampleEvents).map (fun p =>
      (decide (p.net.main = .ended), p.table.length, p.net.peers.length)) = some (false, 2, 1) := by decide +kernel
  have h' : ((Program.init exampleFS shippedSettings).run exampleMachine
      [.net (.recv ⟨.v4, ⟨0, 0⟩, [0x20, 0, 0, 0, 104, 105, 33, 33], someone⟩), .net (.takeRx .v4 ⟨5, 0⟩)]).map (fun p =>
      (decide (p.net.main = .ended), p.table.length)) = some (false, 0) := by decide +kernel
  obtain ⟨p, hp, e⟩ := Option.map_eq_some_iff.1 h
  obtain ⟨p', hp', e'⟩ := Option.map_eq_some_iff.1 h'
  simp only [Prod.mk.injEq, decide_eq_false_iff_not] at e e'
  exact ⟨p, p', hp, hp', e.1, e'.1, e.2.1, e'.2, e.2.2, rfl⟩

end Saratoga
