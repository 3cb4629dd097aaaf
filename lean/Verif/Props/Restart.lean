import Verif.Spec.Restart
import Verif.Props.Current
/-!
# C178: programs that are ended and started again

Any number of programs with commands running at the same time (C174), each of which may be ended at any moment and started
again, with another configuration.
-/
namespace Saratoga

variable {N : Type} [DecidableEq N]

/-- A state of the machines and one of the network of their runs, if machine `n` has been started again `k n` times. -/
structure Mirrors (fs : N → FS) (c : N × Nat → Cliflags) (k : N → Nat) (w : Crowd N) (v : Crowd (N × Nat)) : Prop where
  node : ∀ n, v.node (n, k n) = w.node n
  conns : ∀ n, v.conns (n, k n) = w.conns n
  air : v.air.map Packet.home = w.air
  next : ∀ n j, k n < j → v.node (n, j) = Busy.init (fs n) (c (n, j))
  nextConns : ∀ n j, k n < j → v.conns (n, j) = none

omit [DecidableEq N] in
theorem run_ne {k : N → Nat} {m n : N} (h : m ≠ n) (i j : Nat) : ((m, i) : N × Nat) ≠ (n, j) := fun e => h (congrArg Prod.fst e)

omit [DecidableEq N] in
theorem run_later {k : N → Nat} {m n : N} {j : Nat} (h : k m < j) : ((m, j) : N × Nat) ≠ (n, k n) := by
  intro e
  have e1 := congrArg Prod.fst e
  have e2 := congrArg Prod.snd e
  simp only at e1 e2
  subst e1
  omega

theorem mirrors_set {fs : N → FS} {c : N × Nat → Cliflags} {k : N → Nat} {w : Crowd N} {v : Crowd (N × Nat)}
    (h : Mirrors fs c k w v) (n : N) (b : Busy) : Mirrors fs c k (w.set n b) (v.set (n, k n) b) where
  node m := by
    by_cases e : m = n
    · subst e; rw [crowd_set_self, crowd_set_self]
    · rw [crowd_set_other _ _ e, crowd_set_other _ _ (run_ne (k := k) e _ _)]; exact h.node m
  conns := h.conns
  air := h.air
  next m j hj := by rw [crowd_set_other _ _ (run_later hj)]; exact h.next m j hj
  nextConns := h.nextConns

theorem mirrors_departs {fs : N → FS} {c : N × Nat → Cliflags} {k : N → Nat} {w : Crowd N} {v : Crowd (N × Nat)}
    (h : Mirrors fs c k w v) (n : N) : (v.departs (n, k n)).map Packet.home = w.departs n := by
  unfold Crowd.departs
  rw [h.node, h.conns]
  split <;> rfl

/-- What happens at the machines happens at their runs. -/
theorem mirrors_step {P : Plant N} {fs : N → FS} {c : N × Nat → Cliflags} {k : N → Nat} {w w1 : Crowd N} {v : Crowd (N × Nat)}
    (h : Mirrors fs c k w v) {e : RestartEvent N} (hs : w.again P e = some w1)
    (hc : ∀ n c' f, e = .restart n c' f → c (n, k n + 1) = c') :
    ∃ v1, v.step P.runs (e.ofRun k) = some v1 ∧ Mirrors fs c (e.counts k) w1 v1 := by
  cases e with
  | restart n c' f =>
    cases hs
    have hn := h.next n (k n + 1) (Nat.lt_succ_self _)
    rw [hc n c' f rfl] at hn
    have st : (v.node (n, k n + 1)).step (P.runs.machine (n, k n + 1)) (.net (.files f)) = some (Busy.init f c') := by
      rw [hn]; rfl
    refine ⟨v.set (n, k n + 1) (Busy.init f c'), ?_, ?_⟩
    · show ((v.node (n, k n + 1)).step _ _).map _ = _
      rw [st]; rfl
    · have hk : ∀ m, m ≠ n → (RestartEvent.restart n c' f).counts k m = k m := fun m e => if_neg e
      have hk' : (RestartEvent.restart n c' f).counts k n = k n + 1 := if_pos rfl
      refine ⟨fun m => ?_, fun m => ?_, h.air, fun m j hj => ?_, fun m j hj => ?_⟩
      · by_cases e : m = n
        · subst e
          rw [hk', crowd_set_self]
          exact (crowd_set_self w m (Busy.init f c')).symm
        · rw [hk m e, crowd_set_other _ _ (run_ne (k := k) e _ _), h.node m]
          exact (crowd_set_other w (Busy.init f c') e).symm
      · by_cases e : m = n
        · subst e
          rw [hk']
          show v.conns (m, k m + 1) = if m = m then none else w.conns m
          rw [if_pos rfl]
          exact h.nextConns m _ (Nat.lt_succ_self _)
        · rw [hk m e]
          show v.conns (m, k m) = if m = n then none else w.conns m
          rw [if_neg e]
          exact h.conns m
      · by_cases e : m = n
        · subst e
          rw [hk'] at hj
          rw [crowd_set_other _ _ (fun e => by have := congrArg Prod.snd e; simp only at this; omega)]
          exact h.next m j (by omega)
        · rw [hk m e] at hj
          rw [crowd_set_other _ _ (run_ne (k := k) e _ _)]
          exact h.next m j hj
      · by_cases e : m = n
        · subst e
          rw [hk'] at hj
          exact h.nextConns m j (by omega)
        · rw [hk m e] at hj
          exact h.nextConns m j hj
  | goes e =>
    have hs : w.step P e = some w1 := hs
    show ∃ v1, v.step P.runs (e.ofRun k) = some v1 ∧ Mirrors fs c k w1 v1
    rcases crowd_step_cases hs with ⟨n, line, b, rfl, h1, rfl⟩ | ⟨n, i, o, source, b, rfl, h1, rfl⟩ | ⟨n, b, rfl, h1, rfl⟩ |
      ⟨n, i, fam, clock, d, b, rfl, hd, hh, h1, rfl⟩ | ⟨n, a, b, rfl, ha, h1, rfl⟩ <;> rw [← h.node] at h1
    · refine ⟨v.set (n, k n) b, ?_, mirrors_set h n b⟩
      show ((v.node (n, k n)).step (P.machine n) _).map _ = _
      rw [h1]; rfl
    · refine ⟨{ v.set (n, k n) b with conns := v.connect P.runs (n, k n) i o source }, ?_, ?_⟩
      · show ((v.node (n, k n)).step (P.machine n) _).map _ = _
        rw [h1]; rfl
      · have := mirrors_set h n b
        refine ⟨this.node, fun m => ?_, this.air, this.next, fun m j hj => ?_⟩
        · show v.connect P.runs (n, k n) i o source (m, k m) = w.connect P n i o source m
          unfold Crowd.connect
          rw [h.node]
          cases (w.node n).queue[i]? with
          | none => exact h.conns m
          | some q =>
            by_cases hq : q.cmd = "beacon"
            · simp only [if_pos hq]
              by_cases e : m = n
              · subst e
                rw [if_pos rfl, if_pos rfl]; rfl
              · rw [if_neg e, if_neg (run_ne (k := k) e _ _)]; exact h.conns m
            · simp only [if_neg hq]; exact h.conns m
        · show v.connect P.runs (n, k n) i o source (m, j) = none
          unfold Crowd.connect
          cases (v.node (n, k n)).queue[i]? with
          | none => exact h.nextConns m j hj
          | some q =>
            by_cases hq : q.cmd = "beacon"
            · simp only [if_pos hq]
              rw [if_neg (run_later hj)]; exact h.nextConns m j hj
            · simp only [if_neg hq]; exact h.nextConns m j hj
    · refine ⟨{ v.set (n, k n) b with air := v.air ++ v.departs (n, k n) }, ?_, ?_⟩
      · show ((v.node (n, k n)).step (P.machine n) _).map _ = _
        rw [h1]; rfl
      · have := mirrors_set h n b
        refine ⟨this.node, this.conns, ?_, this.next, this.nextConns⟩
        show (v.air ++ v.departs (n, k n)).map Packet.home = w.air ++ w.departs n
        rw [List.map_append, h.air, mirrors_departs h]
    · rw [← h.air, List.getElem?_map] at hd
      obtain ⟨d', hd', rfl⟩ := Option.map_eq_some_iff.1 hd
      refine ⟨v.set (n, k n) b, ?_, mirrors_set h n b⟩
      have h1 : (v.node (n, k n)).step (P.runs.machine (n, k n)) (.net (.recv ⟨fam, clock, d'.bytes, d'.source⟩)) = some b := h1
      have hh : P.runs.hears (n, k n) d'.dest = true := hh
      show v.step P.runs (.arrives (n, k n) i fam clock) = _
      simp only [Crowd.step, hd', hh, if_true, h1]
      rfl
    · refine ⟨v.set (n, k n) b, ?_, mirrors_set h n b⟩
      cases a with
      | recv d => exact absurd rfl (ha d)
      | _ =>
        show ((v.node (n, k n)).step (P.machine n) _).map _ = _
        rw [h1]; rfl

omit [DecidableEq N] in
theorem mirrors_start (fs : N → FS) (c : N × Nat → Cliflags) :
    Mirrors fs c (fun _ => 0) (Crowd.init fs fun n => c (n, 0)) (Crowd.init (fun x => fs x.1) c) :=
  ⟨fun _ => rfl, fun _ => rfl, rfl, fun _ _ _ => rfl, fun _ _ _ => rfl⟩

theorem counts_ge (e : RestartEvent N) (k : N → Nat) (n : N) : k n ≤ e.counts k n := by
  cases e with
  | goes e => exact Nat.le_refl _
  | restart m c f => show k n ≤ if n = m then _ else _; split <;> omega

theorem counts_add (e : RestartEvent N) (k : N → Nat) (n : N) : e.counts k n = k n + e.counts (fun _ => 0) n := by
  cases e with
  | goes e => rfl
  | restart m c f =>
    show (if n = m then k n + 1 else k n) = k n + if n = m then 0 + 1 else 0
    split <;> omega

/-- For a finite execution the configurations of the runs can be told beforehand. -/
theorem mirrors_run {P : Plant N} {fs : N → FS} : ∀ (es : List (RestartEvent N)) (k : N → Nat) (w w1 : Crowd N) (c0 : N × Nat → Cliflags),
    w.runAgain P es = some w1 → ∃ c : N × Nat → Cliflags, (∀ n j, j ≤ k n → c (n, j) = c0 (n, j)) ∧
      ∀ v, Mirrors fs c k w v → ∃ v1, v.run P.runs (ofRuns k es) = some v1 ∧
        Mirrors fs c (fun n => k n + restarts es n) w1 v1
  | [], k, w, w1, c0, h => by
    cases h
    exact ⟨c0, fun _ _ _ => rfl, fun v hv => ⟨v, rfl, hv⟩⟩
  | e :: es, k, w, w1, c0, h => by
    obtain ⟨w2, h1, h2⟩ := Option.bind_eq_some_iff.1 h
    let c1 : N × Nat → Cliflags := fun x =>
      match e with
      | .restart n c' _ => if x = (n, k n + 1) then c' else c0 x
      | .goes _ => c0 x
    obtain ⟨c, g1, g2⟩ := mirrors_run es (e.counts k) w2 w1 c1 h2
    refine ⟨c, fun n j hj => ?_, fun v hv => ?_⟩
    · rw [g1 n j (Nat.le_trans hj (counts_ge e k n))]
      cases e with
      | goes e => rfl
      | restart m c' f =>
        show (if (n, j) = (m, k m + 1) then c' else c0 (n, j)) = _
        rw [if_neg]
        intro e
        have e1 := congrArg Prod.fst e
        have e2 := congrArg Prod.snd e
        simp only at e1 e2
        subst e1
        omega
    · obtain ⟨v2, s1, s2⟩ := mirrors_step hv h1 (fun n c' f he => by
        subst he
        rw [g1 n (k n + 1) (by show _ ≤ if n = n then _ else _; rw [if_pos rfl]; exact Nat.le_refl _)]
        show (if (n, k n + 1) = (n, k n + 1) then c' else c0 (n, k n + 1)) = c'
        exact if_pos rfl)
      obtain ⟨v1, r1, r2⟩ := g2 v2 s2
      refine ⟨v1, ?_, ?_⟩
      · show (v.step P.runs (e.ofRun k)).bind _ = _
        rw [s1]; exact r1
      · have : (fun n => k n + restarts (e :: es) n) = fun n => e.counts k n + restarts es n := by
          funext n
          show _ + (_ + _) = _
          rw [counts_add e k n]; omega
        rw [this]; exact r2

/-- **C178** To the others a program that is ended and started again is like another program: every execution with restarts
is one without, of a network in which every run of every program is a machine of its own. Each machine is in the state of
its last run, and in the air is the same. So all that holds of networks (C131, C174) holds of these. -/
theorem C178_runs (P : Plant N) (fs : N → FS) (c : N → Cliflags) (es : List (RestartEvent N)) (w : Crowd N)
    (h : RestartLeads P fs c es w) : ∃ c' v, CrowdLeads P.runs (fun x => fs x.1) c' (ofRuns (fun _ => 0) es) v ∧
      (∀ n, c' (n, 0) = c n) ∧ (∀ n, v.node (n, restarts es n) = w.node n) ∧ v.air.map Packet.home = w.air := by
  obtain ⟨c', g1, g2⟩ := mirrors_run (fs := fs) es (fun _ => 0) _ _ (fun x => c x.1) h
  have e : c = fun n => c' (n, 0) := funext fun n => (g1 n 0 (Nat.le_refl _)).symm
  obtain ⟨v, r1, r2⟩ := g2 (Crowd.init (fun x => fs x.1) c') (by rw [e]; exact mirrors_start fs c')
  refine ⟨c', v, r1, fun n => g1 n 0 (Nat.le_refl _), fun n => ?_, r2.air⟩
  have := r2.node n
  rwa [Nat.zero_add] at this

/-- **C178, only beacons travel.** Whatever is typed and however often programs are ended and started again. -/
theorem C178_only_beacons (P : Plant N) (hT : ∀ n, (P.machine n).S.T = shipped) (fs : N → FS) (c : N → Cliflags)
    (es : List (RestartEvent N)) (w : Crowd N) (h : RestartLeads P fs c es w) :
    ∀ d ∈ w.air, getStr shipped (headWord d.bytes) "version" = .ret "v1" ∧
      (∃ b, Says shipped d.bytes (.beacon b)) ∧ ∀ f, Says shipped d.bytes f → ∃ b, f = .beacon b := by
  obtain ⟨c', v, h1, -, -, h4⟩ := C178_runs P fs c es w h
  intro d hd
  rw [← h4] at hd
  obtain ⟨d', hd', rfl⟩ := List.mem_map.1 hd
  exact C174_only_beacons (fun x => hT x.1) h1 d' hd'

/-- **C178, nothing else happens.** No program handles anything but beacons, has a transfer for a peer or answers anybody, and
no main loop hangs. -/
theorem C178_only_peers (P : Plant N) (hT : ∀ n, (P.machine n).S.T = shipped) (fs : N → FS) (c : N → Cliflags)
    (es : List (RestartEvent N)) (w : Crowd N) (h : RestartLeads P fs c es w) (n : N) :
    (∀ y ∈ (w.node n).prog.net.handled, ∃ b, y.frame = .beacon b) ∧ (w.node n).prog.net.transfers = [] ∧
    (w.node n).prog.net.wire = [] ∧ ((w.node n).prog.net.main = .select ∨ (w.node n).prog.Ended) := by
  obtain ⟨c', v, h1, -, h3, -⟩ := C178_runs P fs c es w h
  have := C174_only_peers (fun x => hT x.1) h1 (n, restarts es n)
  rwa [h3] at this

/-- **C178, what a program believes is true.** Every entry of every peer table stems from a datagram that a program of the
network, perhaps one that has been ended since, has sent to an address heard here, stands under its source address, and
shows the name, the free space and the settings the sender had when it sent it. -/
theorem C178_peers_true (P : Plant N) (hT : ∀ n, (P.machine n).S.T = shipped) (fs : N → FS) (c : N → Cliflags)
    (es : List (RestartEvent N)) (w : Crowd N) (h : RestartLeads P fs c es w) (n : N) :
    ∀ p ∈ (w.node n).prog.net.peers, ∃ d ∈ w.air, P.hears n d.dest = true ∧
      p.addr = (P.machine n).S.ipText d.source.ip ∧ (ValidGlobal shipped d.settings.global → d.Tells p) := by
  obtain ⟨c', v, h1, -, h3, h4⟩ := C178_runs P fs c es w h
  intro p hp
  rw [← h3] at hp
  obtain ⟨d, hd, g1, g2, g3⟩ := C174_peers_true (fun x => hT x.1) h1 (n, restarts es n) p hp
  refine ⟨d.home, ?_, g1, g2, fun ok => ?_⟩
  · rw [← h4]; exact List.mem_map.2 ⟨d, hd, rfl⟩
  · obtain ⟨a, b, c, d, e⟩ := g3 ok
    exact ⟨a, b, c, d, e⟩

/-- **C178, no file moves.** The files of a machine change only when a command begins there, another program changes them, or
they have been changed when the program is started again. -/
theorem C178_no_file_moves (P : Plant N) (hT : ∀ n, (P.machine n).S.T = shipped) (fs : N → FS) (c : N → Cliflags)
    (es : List (RestartEvent N)) (w w' : Crowd N) (h : RestartLeads P fs c es w) (e : RestartEvent N)
    (hs : w.again P e = some w') (n : N) (here : ∀ i o source, e ≠ .goes (.begin n i o source))
    (others : ∀ f, e ≠ .goes (.inside n (.files f))) (found : ∀ c' f, e = .restart n c' f → f = (w.node n).prog.net.fs) :
    (w'.node n).prog.net.fs = (w.node n).prog.net.fs := by
  cases e with
  | restart m c' f =>
    cases hs
    by_cases e : n = m
    · subst e
      show ((w.set n (Busy.init f c')).node n).prog.net.fs = _
      rw [crowd_set_self]
      exact found c' f rfl
    · show ((w.set m (Busy.init f c')).node n).prog.net.fs = _
      rw [crowd_set_other _ _ e]
  | goes e =>
    obtain ⟨c1, g1, g2⟩ := mirrors_run (fs := fs) es (fun _ => 0) _ _ (fun x => c x.1) h
    have e0 : c = fun n => c1 (n, 0) := funext fun n => (g1 n 0 (Nat.le_refl _)).symm
    obtain ⟨v, r1, r2⟩ := g2 (Crowd.init (fun x => fs x.1) c1) (by rw [e0]; exact mirrors_start fs c1)
    obtain ⟨v1, s1, s2⟩ := mirrors_step (P := P) r2 hs (fun n c' f h => by cases h)
    have := C174_no_file_moves (fun x => hT x.1) r1 s1 (n, 0 + restarts es n) (fun i o source h => by
      cases e with
      | begin m i' o' source' =>
        have h : CrowdEvent.begin (m, _) i' o' source' = .begin (n, _) i o source := h
        injection h with h
        exact here i' o' source' (by rw [show m = n from congrArg Prod.fst h])
      | _ => cases h) (fun f h => by
      cases e with
      | inside m a =>
        have h : CrowdEvent.inside (m, _) a = .inside (n, _) (.files f) := h
        injection h with h h2
        exact others f (by rw [show m = n from congrArg Prod.fst h, h2])
      | _ => cases h)
    have e1 : v1.node (n, 0 + restarts es n) = w'.node n := s2.node n
    rwa [e1, r2.node] at this

/-! ## A concrete case -/

/-- Machine 1 sends beacons to machine 2, which lists it; machine 2 is started again, with another configuration; later one
of the beacons arrives once more. -/
def restartEvents : List (RestartEvent Nat) :=
  [.goes (.typed 1 "saratoga[0]:beacon 1.1.1.2"), .goes (.begin 1 0 towardsTwo (fun _ => ⟨[1#8, 1#8, 1#8, 1#8], 5000, ""⟩))] ++
  List.replicate 9 (.goes (.act 1)) ++ [.goes (.arrives 2 0 .v4 ⟨0, 0⟩), .goes (.inside 2 (.takeRx .v4 ⟨0, 0⟩)),
    .restart 2 { shippedSettings with bcount := 7 } exampleFS, .goes (.arrives 2 1 .v4 ⟨9, 0⟩),
    .goes (.inside 2 (.takeRx .v4 ⟨9, 0⟩))]

/-- Before the restart machine 2 lists machine 1, after it nobody, and then machine 1 again, from another beacon. -/
example : ((Crowd.init (fun _ => exampleFS) (fun _ => shippedSettings)).runAgain examplePlant (restartEvents.take 13)).map (fun w =>
      (w.node 2).prog.net.peers.map (·.maxdesc)) = some ["d64"] ∧
    ((Crowd.init (fun _ => exampleFS) (fun _ => shippedSettings)).runAgain examplePlant (restartEvents.take 14)).map (fun w =>
      ((w.node 2).prog.net.peers.map (·.maxdesc), (w.node 2).prog.settings.bcount)) = some ([], 7) ∧
    ((Crowd.init (fun _ => exampleFS) (fun _ => shippedSettings)).runAgain examplePlant restartEvents).map (fun w =>
      ((w.node 2).prog.net.peers.map (·.maxdesc), (w.node 2).prog.settings.bcount)) = some (["d64"], 7) ∧
    restarts restartEvents 2 = 1 ∧ restarts restartEvents 1 = 0 := by decide +kernel

/-- At machine 1 a file is put, the program is started again, and another file is put to the same machine. -/
def putTwice : List (RestartEvent Nat) :=
  [.goes (.typed 1 "saratoga[0]:put 1.1.1.2 f"), .goes (.begin 1 0 calmReplies id), .restart 1 shippedSettings exampleFS,
    .goes (.typed 1 "saratoga[0]:put 1.1.1.2 g"), .goes (.begin 1 0 calmReplies id)]

/-- **C178** The session numbers begin anew with every start: a transfer and a transfer of the next run have the same. Within
a run they do not (C45, C67). -/
theorem C178_sessions_again : ∃ w w', RestartLeads examplePlant (fun _ => exampleFS) (fun _ => shippedSettings) (putTwice.take 2) w ∧
    RestartLeads examplePlant (fun _ => exampleFS) (fun _ => shippedSettings) putTwice w' ∧
    ∃ t ∈ (w.node 1).prog.table, ∃ t' ∈ (w'.node 1).prog.table, t.session = t'.session ∧ t.filename ≠ t'.filename := by
  have key : ((Crowd.init (fun _ => exampleFS) (fun _ => shippedSettings)).runAgain examplePlant (putTwice.take 2)).bind (fun w =>
      ((Crowd.init (fun _ => exampleFS) (fun _ => shippedSettings)).runAgain examplePlant putTwice).map fun w' =>
        decide (∃ t ∈ (w.node 1).prog.table, ∃ t' ∈ (w'.node 1).prog.table, t.session = t'.session ∧ t.filename ≠ t'.filename)) =
      some true := by decide +kernel
  obtain ⟨w, h1, h2⟩ := Option.bind_eq_some_iff.1 key
  obtain ⟨w', h3, h4⟩ := Option.map_eq_some_iff.1 h2
  exact ⟨w, w', h1, h3, of_decide_eq_true h4⟩

end Saratoga
