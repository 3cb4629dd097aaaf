import Verif.Props.Restart
/-!
# C178, executions for ever: programs that are started again are found again
-/
namespace Saratoga

variable {N : Type} [DecidableEq N]

/-! ## C175 from some time on -/

theorem crowd_stays_ended {P : Plant N} {w w' : Crowd N} {e : CrowdEvent N} (h : w.step P e = some w') {n : N}
    (he : (w.node n).prog.Ended) : (w'.node n).prog.Ended := by
  rcases crowd_node_step h n with ⟨e, _⟩ | ⟨e', st, _⟩
  · rw [e]; exact he
  · unfold Busy.step at st
    rw [if_pos (show (w.node n).prog.net.main = .ended from he)] at st
    cases st

theorem crowd_running_before {P : Plant N} {fs : N → FS} {c : N → Cliflags} {at_ : Nat → Crowd N} {does : Nat → CrowdEvent N}
    (run : CrowdForever P fs c at_ does) {n : N} {T : Nat} (running : ∀ i, ¬ ((at_ (T + i)).node n).prog.Ended) :
    ∀ i, ¬ ((at_ i).node n).prog.Ended := by
  intro i h
  have stays : ∀ t, ((at_ (i + t)).node n).prog.Ended := by
    intro t
    induction t with
    | zero => exact h
    | succ t ih => exact crowd_stays_ended (run.goes (i + t)) ih
  refine running i ?_
  rw [Nat.add_comm]; exact stays T

omit [DecidableEq N] in
theorem holders_from {at_ : Nat → Crowd N} {does : Nat → CrowdEvent N} {n : N} {T : Nat}
    (fair : HolderFairAt (fun i => at_ (T + i)) (fun i => does (T + i)) n) : HolderFairAt at_ does n := by
  intro i h
  obtain ⟨j, hj, e⟩ := fair i fun j hj => h (T + j) (by omega)
  exact ⟨T + j, by omega, e⟩

omit [DecidableEq N] in
theorem selects_from {at_ : Nat → Crowd N} {does : Nat → CrowdEvent N} {n : N} {T : Nat}
    (fair : SelectFairAt (fun i => at_ (T + i)) (fun i => does (T + i)) n) : SelectFairAt at_ does n := by
  intro fam i h
  obtain ⟨j, hj, e⟩ := fair fam i fun j hj => h (T + j) (by omega)
  exact ⟨T + j, by omega, e⟩

theorem waits_shift (does : Nat → CrowdEvent N) (n : N) (T i p t : Nat) :
    crowdWaits (fun i => does (T + i)) n i p t = crowdWaits does n (T + i) p t := by
  induction t with
  | zero => rfl
  | succ t ih =>
    show (crowdWaits _ n i p t).bind _ = (crowdWaits _ n (T + i) p t).bind _
    rw [ih, Nat.add_assoc]

theorem waits_add (does : Nat → CrowdEvent N) (n : N) (i p a b : Nat) :
    crowdWaits does n i p (a + b) = (crowdWaits does n i p a).bind fun k => crowdWaits does n (i + a) k b := by
  induction b with
  | zero => cases crowdWaits does n i p a <;> rfl
  | succ b ih =>
    show (crowdWaits does n i p (a + b)).bind _ = _
    rw [ih, Option.bind_assoc]
    congr 1
    funext k
    show _ = (crowdWaits does n (i + a) k b).bind _
    rw [Nat.add_assoc]
    rfl

theorem locks_from {P : Plant N} {fs : N → FS} {c : N → Cliflags} {at_ : Nat → Crowd N} {does : Nat → CrowdEvent N}
    (run : CrowdForever P fs c at_ does) {n : N} {T : Nat}
    (fair : LockFairAt (fun i => at_ (T + i)) (fun i => does (T + i)) n) : LockFairAt at_ does n := by
  intro i p q hq again
  have later : ∀ i, ∀ j, i ≤ j → ∃ k, j ≤ k ∧ (needsLock q.cmd = true → ((at_ (T + k)).node n).holder = none) := by
    intro _ j _
    obtain ⟨k, hk, h⟩ := again (i + (T + j)) (by omega)
    exact ⟨k - T, by omega, by rw [show T + (k - T) = k by omega]; exact h⟩
  rcases Nat.lt_or_ge i T with lt | ge
  · cases hw : crowdWaits does n i p (T - i) with
    | none => exact ⟨T - i, hw⟩
    | some k =>
      have hk := crowd_queue_waits run hq (T - i) hw
      rw [show i + (T - i) = T + 0 by omega] at hk
      obtain ⟨t, ht⟩ := fair 0 k q hk (later 0)
      rw [waits_shift] at ht
      refine ⟨T - i + t, ?_⟩
      rw [waits_add, hw, show i + (T - i) = T + 0 by omega]
      exact ht
  · obtain ⟨t, ht⟩ := fair (i - T) p q (by simp only; rw [show T + (i - T) = i by omega]; exact hq) (later _)
    rw [waits_shift, show T + (i - T) = i by omega] at ht
    exact ⟨t, ht⟩

theorem crowd_sends_from {P : Plant N} {fs : N → FS} {c : N → Cliflags} {at_ : Nat → Crowd N} {does : Nat → CrowdEvent N}
    (run : CrowdForever P fs c at_ does) {m n : N} (T : Nat) (runs : ∀ i, ¬ ((at_ (T + i)).node m).prog.Ended)
    (holders : HolderFairAt (fun i => at_ (T + i)) (fun i => does (T + i)) m)
    (locks : LockFairAt (fun i => at_ (T + i)) (fun i => does (T + i)) m)
    {word : String} (proper : word ≠ "?" ∧ word ≠ "off") {to s : UDPAddr} (heard : P.hears n to = true)
    (enters : KeepsEntering P (fun i => does (T + i)) m word)
    (works : BeaconsWork P (fun i => at_ (T + i)) (fun i => does (T + i)) m word to s) :
    ∀ i, ∃ j, i ≤ j ∧ LeavesFor P (fun i => at_ (T + i)) (fun i => does (T + i)) n s j := by
  intro i
  obtain ⟨i', line, hi, typed, names⟩ := enters i
  obtain ⟨j, k, o, source, q, bs, acts, hj, hb, hq, ha, hc, leaves⟩ := C175_sent P fs c at_ does run m
    (crowd_running_before run runs) (holders_from holders) (locks_from run locks) (T + i') line typed _ names
  obtain ⟨j, rfl⟩ : ∃ j', j = T + j' := ⟨j - T, by omega⟩
  obtain ⟨v1, v2, v3, v4, v5⟩ := works j k o source q hb hq ha
  obtain ⟨ds, da, st⟩ := v3.disk
  obtain ⟨b', acts', frame, c1, c2, -, -⟩ := C82_sends v3 v1 ((at_ (T + j)).node m).prog.beacon "beacon" word proper v4 st
  simp only at c1
  rw [hc] at c1
  cases c1
  obtain ⟨l, d, hl, hd, air, d1, d2, -, -⟩ := leaves to frame (by
    rw [framesOf_sends, c2, List.mem_replicate]; exact ⟨v2, rfl⟩)
  obtain ⟨l, rfl⟩ : ∃ l', l = T + l' := ⟨l - T, by omega⟩
  exact ⟨l, by omega, m, d, hd, air, by rw [d2]; exact heard, by rw [d1, v5]⟩

/-- C175 with what is asked of scheduler, system, user and network asked from time `T` on only. -/
theorem crowd_found_from {P : Plant N} (hT : ∀ n, (P.machine n).S.T = shipped) {fs : N → FS} {c : N → Cliflags}
    {at_ : Nat → Crowd N} {does : Nat → CrowdEvent N} (run : CrowdForever P fs c at_ does)
    (fit : NearbyFits fun e => ∃ i, does i = e) {m n : N} (hm : 146 ≤ (P.machine n).S.mtu) (T : Nat)
    (runs : ∀ i, ¬ ((at_ (T + i)).node m).prog.Ended) (running : ∀ i, ¬ ((at_ (T + i)).node n).prog.Ended)
    (holders : HolderFairAt (fun i => at_ (T + i)) (fun i => does (T + i)) m)
    (locks : LockFairAt (fun i => at_ (T + i)) (fun i => does (T + i)) m)
    (select : SelectFairAt (fun i => at_ (T + i)) (fun i => does (T + i)) n)
    {word : String} (proper : word ≠ "?" ∧ word ≠ "off") {to s : UDPAddr} (heard : P.hears n to = true)
    (enters : KeepsEntering P (fun i => does (T + i)) m word)
    (works : BeaconsWork P (fun i => at_ (T + i)) (fun i => does (T + i)) m word to s)
    (network : LosesSomeAt P (fun i => at_ (T + i)) (fun i => does (T + i)) n s) :
    ∃ j, ∀ l, j ≤ l → (P.machine n).S.ipText s.ip ∈ ((at_ l).node n).prog.net.peers.map Peer.addr := by
  have sends := crowd_sends_from run T runs holders locks proper heard enters works
  obtain ⟨i, _, k, fam, clock, d, h1, h2, h3⟩ := network sends 0
  obtain ⟨j, _, h⟩ := C175_heard P hT fs c at_ does run n (crowd_running_before run running) (selects_from select) (T + i) k fam clock d
    h1 h2 (C175_sized P hT fs c _ _ (run.leads (T + i)) (fun n k o source h => fit n k o source (by
      obtain ⟨t, _, e⟩ := List.mem_map.1 h
      exact ⟨t, e⟩)) d (List.mem_of_getElem? h2) _ hm)
  exact ⟨j, by rw [← h3]; exact h⟩

/-! ## The runs of an execution for ever -/

theorem restartsBy_mono (does : Nat → RestartEvent N) (n : N) (i t : Nat) : restartsBy does i n ≤ restartsBy does (i + t) n := by
  induction t with
  | zero => exact Nat.le_refl _
  | succ t ih => exact Nat.le_trans ih (counts_ge (does (i + t)) (restartsBy does (i + t)) n)

theorem restartsBy_restart {does : Nat → RestartEvent N} {n : N} {i : Nat} {c : Cliflags} {f : FS} (h : does i = .restart n c f) :
    restartsBy does (i + 1) n = restartsBy does i n + 1 := by
  show (does i).counts _ n = _
  rw [h]
  exact if_pos rfl

theorem restartsBy_once {does : Nat → RestartEvent N} {n : N} {i j : Nat} {c c' : Cliflags} {f f' : FS}
    (h : does i = .restart n c f) (h' : does j = .restart n c' f') (e : restartsBy does i n = restartsBy does j n) : i = j := by
  rcases Nat.lt_trichotomy i j with lt | eq | gt
  · have h1 := restartsBy_restart h
    have h2 := restartsBy_mono does n (i + 1) (j - (i + 1))
    rw [show i + 1 + (j - (i + 1)) = j by omega] at h2
    omega
  · exact eq
  · have h1 := restartsBy_restart h'
    have h2 := restartsBy_mono does n (j + 1) (i - (j + 1))
    rw [show j + 1 + (i - (j + 1)) = i by omega] at h2
    omega

/-- The states of the network of the runs. -/
def mirrored (P : Plant N) (v : Crowd (N × Nat)) (does : Nat → CrowdEvent (N × Nat)) : Nat → Crowd (N × Nat)
  | 0 => v
  | i + 1 => ((mirrored P v does i).step P.runs (does i)).getD (mirrored P v does i)

/-- **C178, for ever.** The same for executions without end, with any number of restarts. -/
theorem C178_runs_for_ever (P : Plant N) (fs : N → FS) (c : N → Cliflags) (at_ : Nat → Crowd N) (does : Nat → RestartEvent N)
    (run : RestartForever P fs c at_ does) : ∃ c' v,
      CrowdForever P.runs (fun x => fs x.1) c' v (fun i => (does i).ofRun (restartsBy does i)) ∧ (∀ n, c' (n, 0) = c n) ∧
      ∀ i, (∀ n, (v i).node (n, restartsBy does i n) = (at_ i).node n) ∧ (v i).air.map Packet.home = (at_ i).air := by
  have choice : ∃ c' : N × Nat → Cliflags, (∀ n, c' (n, 0) = c n) ∧
      ∀ i n c0 f, does i = .restart n c0 f → c' (n, restartsBy does i n + 1) = c0 := by
    have : ∀ x : N × Nat, ∃ c0, (x.2 = 0 → c0 = c x.1) ∧
        ∀ i c1 f, does i = .restart x.1 c1 f → restartsBy does i x.1 + 1 = x.2 → c0 = c1 := by
      rintro ⟨n, j⟩
      by_cases h : ∃ i c1 f, does i = .restart n c1 f ∧ restartsBy does i n + 1 = j
      · obtain ⟨i, c1, f, h1, h2⟩ := h
        refine ⟨c1, fun e => by simp only at e; omega, fun i' c' f' h1' h2' => ?_⟩
        have := restartsBy_once h1 h1' (by simp only at h2'; omega)
        subst this
        rw [h1] at h1'
        injection h1'
      · exact ⟨c n, fun _ => rfl, fun i c1 f h1 h2 => absurd ⟨i, c1, f, h1, h2⟩ h⟩
    refine ⟨fun x => Classical.choose (this x), fun n => (Classical.choose_spec (this (n, 0))).1 rfl, fun i n c0 f h => ?_⟩
    exact (Classical.choose_spec (this (n, restartsBy does i n + 1))).2 i c0 f h rfl
  obtain ⟨c', z, hc⟩ := choice
  let v := mirrored P (Crowd.init (fun x => fs x.1) c') (fun i => (does i).ofRun (restartsBy does i))
  have key : ∀ i, Mirrors fs c' (restartsBy does i) (at_ i) (v i) ∧
      (v i).step P.runs ((does i).ofRun (restartsBy does i)) = some (v (i + 1)) := by
    have step : ∀ i, Mirrors fs c' (restartsBy does i) (at_ i) (v i) →
        (v i).step P.runs ((does i).ofRun (restartsBy does i)) = some (v (i + 1)) ∧
        Mirrors fs c' (restartsBy does (i + 1)) (at_ (i + 1)) (v (i + 1)) := by
      intro i h
      obtain ⟨v1, s1, s2⟩ := mirrors_step h (run.goes i) (fun n c0 f e => hc i n c0 f e)
      have : v (i + 1) = v1 := by
        show ((v i).step P.runs _).getD _ = v1
        rw [s1]; rfl
      rw [this]
      exact ⟨s1, s2⟩
    have all : ∀ i, Mirrors fs c' (restartsBy does i) (at_ i) (v i) := by
      intro i
      induction i with
      | zero =>
        rw [run.start, show c = fun n => c' (n, 0) from funext fun n => (z n).symm]
        exact mirrors_start fs c'
      | succ i ih => exact (step i ih).2
    exact fun i => ⟨all i, (step i (all i)).1⟩
  exact ⟨c', v, ⟨rfl, fun i => (key i).2⟩, z, fun i => ⟨(key i).1.node, (key i).1.air⟩⟩

theorem restartsBy_stays {does : Nat → RestartEvent N} {n : N} {T : Nat} (no : ∀ i c f, does (T + i) ≠ .restart n c f) (i : Nat) :
    restartsBy does (T + i) n = restartsBy does T n := by
  induction i with
  | zero => rfl
  | succ i ih =>
    rw [← ih]
    show (does (T + i)).counts _ n = _
    cases h : does (T + i) with
    | goes e => rfl
    | restart m c f =>
      refine if_neg fun e => ?_
      subst e
      exact no i c f h

/-- What a run that is not ended any more sees of an event. -/
theorem ofRun_place {e : RestartEvent N} {k : N → Nat} {m : N} (p : Nat) :
    (e.ofRun k).place (m, k m) p = e.seen.place m p := by
  cases e with
  | restart n c f => rfl
  | goes e =>
    cases e with
    | begin n i o source =>
      show (if (n, k n) = (m, k m) then _ else _) = if n = m then _ else _
      by_cases e : n = m
      · subst e; rw [if_pos rfl, if_pos rfl]
      · rw [if_neg e, if_neg (run_ne (k := k) e _ _)]
    | _ => rfl

/-- The events in the network of the runs. -/
def ofRunsAt (does : Nat → RestartEvent N) (i : Nat) : CrowdEvent (N × Nat) := (does i).ofRun (restartsBy does i)

/-- The states are those of the runs. -/
def SameRuns (does : Nat → RestartEvent N) (at_ : Nat → Crowd N) (v : Nat → Crowd (N × Nat)) : Prop :=
  ∀ i, (∀ n, (v i).node (n, restartsBy does i n) = (at_ i).node n) ∧ (v i).air.map Packet.home = (at_ i).air

section
variable {P : Plant N} {at_ : Nat → Crowd N} {does : Nat → RestartEvent N} {v : Nat → Crowd (N × Nat)} {m n : N} {T : Nat}

theorem same_node (same : SameRuns does at_ v) (stay : ∀ i c f, does (T + i) ≠ .restart m c f) (i : Nat) :
    (v (T + i)).node (m, restartsBy does T m) = (at_ (T + i)).node m := by
  rw [← restartsBy_stays stay i]; exact (same (T + i)).1 m

theorem runs_fit (fit : NearbyFits fun e => ∃ i, (does i).seen = e) : NearbyFits fun e => ∃ i, ofRunsAt does i = e := by
  intro x k o source h
  obtain ⟨i, hi⟩ := h
  refine fit x.1 k o source ⟨i, ?_⟩
  unfold ofRunsAt at hi
  cases he : does i with
  | restart n' c f => simp only [he] at hi; cases hi
  | goes e =>
    simp only [he] at hi
    cases e with
    | begin y k' o' source' =>
      have hi : CrowdEvent.begin (y, _) k' o' source' = .begin x k o source := hi
      injection hi with h1 h2 h3 h4
      subst h1 h2 h3 h4
      rfl
    | _ => cases hi

theorem runs_holders (same : SameRuns does at_ v) (stay : ∀ i c f, does (T + i) ≠ .restart m c f)
    (holders : HolderFairAt (fun i => at_ (T + i)) (fun i => (does (T + i)).seen) m) :
    HolderFairAt (fun i => v (T + i)) (fun i => ofRunsAt does (T + i)) (m, restartsBy does T m) := by
  intro i h
  obtain ⟨j, hj, e⟩ := holders i fun j hj => by have := h j hj; simp only [same_node same stay] at this; exact this
  refine ⟨j, hj, ?_⟩
  simp only [ofRunsAt] at e ⊢
  cases he : does (T + j) with
  | restart n' c f => rw [he] at e; cases e
  | goes e' =>
    rw [he] at e
    cases (show e' = .act m from e)
    show CrowdEvent.act (m, _) = _
    rw [restartsBy_stays stay]

theorem runs_waits (stay : ∀ i c f, does (T + i) ≠ .restart m c f) (i p t : Nat) :
    crowdWaits (fun i => ofRunsAt does (T + i)) (m, restartsBy does T m) i p t =
      crowdWaits (fun i => (does (T + i)).seen) m i p t := by
  induction t with
  | zero => rfl
  | succ t ih =>
    show (crowdWaits _ _ i p t).bind _ = (crowdWaits _ _ i p t).bind _
    rw [ih]
    congr 1
    funext k
    show (RestartEvent.ofRun _ _).place _ k = _
    rw [← restartsBy_stays stay (i + t)]
    exact ofRun_place k

theorem runs_locks (same : SameRuns does at_ v) (stay : ∀ i c f, does (T + i) ≠ .restart m c f)
    (locks : LockFairAt (fun i => at_ (T + i)) (fun i => (does (T + i)).seen) m) :
    LockFairAt (fun i => v (T + i)) (fun i => ofRunsAt does (T + i)) (m, restartsBy does T m) := by
  intro i p q hq again
  simp only [same_node same stay] at hq again
  obtain ⟨t, ht⟩ := locks i p q hq again
  exact ⟨t, by rw [runs_waits stay]; exact ht⟩

theorem runs_select (same : SameRuns does at_ v) (stay : ∀ i c f, does (T + i) ≠ .restart n c f)
    (select : SelectFairAt (fun i => at_ (T + i)) (fun i => (does (T + i)).seen) n) :
    SelectFairAt (fun i => v (T + i)) (fun i => ofRunsAt does (T + i)) (n, restartsBy does T n) := by
  intro fam i h
  simp only [same_node same stay] at h
  obtain ⟨j, hj, a, e, t⟩ := select fam i h
  refine ⟨j, hj, a, ?_, t⟩
  simp only [ofRunsAt] at e ⊢
  cases he : does (T + j) with
  | restart n' c f =>
    rw [he] at e
    have e : CrowdEvent.inside n' (.files f) = .inside n a := e
    injection e with e1 e2
    subst e1
    exact absurd he (stay j c f)
  | goes e' =>
    rw [he] at e
    cases (show e' = .inside n a from e)
    show CrowdEvent.inside (n, _) a = _
    rw [restartsBy_stays stay]

theorem runs_enters (stay : ∀ i c f, does (T + i) ≠ .restart m c f) {word : String}
    (enters : KeepsEntering P (fun i => (does (T + i)).seen) m word) :
    KeepsEntering P.runs (fun i => ofRunsAt does (T + i)) (m, restartsBy does T m) word := by
  intro i
  obtain ⟨j, line, hj, e, names⟩ := enters i
  refine ⟨j, line, hj, ?_, names⟩
  simp only [ofRunsAt] at e ⊢
  cases he : does (T + j) with
  | restart n' c f => rw [he] at e; cases e
  | goes e' =>
    rw [he] at e
    cases (show e' = .typed m line from e)
    show CrowdEvent.typed (m, _) line = _
    rw [restartsBy_stays stay]

theorem runs_works (same : SameRuns does at_ v) (stay : ∀ i c f, does (T + i) ≠ .restart m c f) {word : String} {to s : UDPAddr}
    (works : BeaconsWork P (fun i => at_ (T + i)) (fun i => (does (T + i)).seen) m word to s) :
    BeaconsWork P.runs (fun i => v (T + i)) (fun i => ofRunsAt does (T + i)) (m, restartsBy does T m) word to s := by
  intro j k o source q e hq ha
  simp only [same_node same stay] at hq ⊢
  refine works j k o source q ?_ hq ha
  simp only [ofRunsAt] at e ⊢
  cases he : does (T + j) with
  | restart n' c f => rw [he] at e; cases e
  | goes e' =>
    rw [he] at e
    cases e' with
    | begin y k' o' source' =>
      have e : CrowdEvent.begin (y, _) k' o' source' = .begin (m, _) k o source := e
      injection e with h1 h2 h3 h4
      cases (show y = m from congrArg Prod.fst h1)
      subst h2 h3 h4
      rfl
    | _ => cases e

theorem runs_acts {j : Nat} {x : N × Nat} (e : ofRunsAt does j = .act x) :
    (does j).seen = .act x.1 ∧ x = (x.1, restartsBy does j x.1) := by
  unfold ofRunsAt at e
  cases he : does j with
  | restart n' c f => rw [he] at e; cases e
  | goes e' =>
    rw [he] at e
    cases e' with
    | act y =>
      have e : CrowdEvent.act (y, _) = .act x := e
      injection e with e
      subst e
      exact ⟨rfl, rfl⟩
    | _ => cases e

theorem runs_network (same : SameRuns does at_ v) (stay : ∀ i c f, does (T + i) ≠ .restart n c f) {s : UDPAddr}
    (network : LosesSomeAt P (fun i => at_ (T + i)) (fun i => (does (T + i)).seen) n s) :
    LosesSomeAt P.runs (fun i => v (T + i)) (fun i => ofRunsAt does (T + i)) (n, restartsBy does T n) s := by
  intro sends i
  obtain ⟨j, hj, k, fam, clock, d, e, hd, hs⟩ := network (fun i => by
    obtain ⟨j, hj, x, d, e, air, hh, hs⟩ := sends i
    refine ⟨j, hj, x.1, d.home, (runs_acts e).1, ?_, hh, hs⟩
    show (at_ (T + j + 1)).air = (at_ (T + j)).air ++ [d.home]
    rw [← (same _).2, ← (same _).2]
    have air : (v (T + j + 1)).air = (v (T + j)).air ++ [d] := air
    rw [air, List.map_append]; rfl) i
  simp only at e hd
  rw [← (same _).2, List.getElem?_map] at hd
  obtain ⟨d', hd', rfl⟩ := Option.map_eq_some_iff.1 hd
  refine ⟨j, hj, k, fam, clock, d', ?_, hd', hs⟩
  simp only [ofRunsAt]
  cases he : does (T + j) with
  | restart n' c f => rw [he] at e; cases e
  | goes e' =>
    rw [he] at e
    cases (show e' = .arrives n k fam clock from e)
    show CrowdEvent.arrives (n, _) k fam clock = _
    rw [restartsBy_stays stay]

end

/-- **C178, found again.** As C175, in a network in which programs are ended and started again: if from some time on two of
them are not, and at the one `beacon word` is entered again and again, with a word that means an address heard at the other,
then the other lists the sender in the end and for good; although all it had learnt before its last restart is forgotten,
and however often the other programs are ended and started again. What is asked of scheduler, system, user and network is
asked from that time on only. -/
theorem C178_found (P : Plant N) (hT : ∀ n, (P.machine n).S.T = shipped) (fs : N → FS) (c : N → Cliflags)
    (at_ : Nat → Crowd N) (does : Nat → RestartEvent N) (run : RestartForever P fs c at_ does)
    (fit : NearbyFits fun e => ∃ i, (does i).seen = e) (m n : N) (hm : 146 ≤ (P.machine n).S.mtu) (T : Nat)
    (stay : ∀ i c f, does (T + i) ≠ .restart m c f ∧ does (T + i) ≠ .restart n c f)
    (runs : ∀ i, ¬ ((at_ (T + i)).node m).prog.Ended) (running : ∀ i, ¬ ((at_ (T + i)).node n).prog.Ended)
    (holders : HolderFairAt (fun i => at_ (T + i)) (fun i => (does (T + i)).seen) m)
    (locks : LockFairAt (fun i => at_ (T + i)) (fun i => (does (T + i)).seen) m)
    (select : SelectFairAt (fun i => at_ (T + i)) (fun i => (does (T + i)).seen) n)
    (word : String) (proper : word ≠ "?" ∧ word ≠ "off") (to s : UDPAddr) (heard : P.hears n to = true)
    (enters : KeepsEntering P (fun i => (does (T + i)).seen) m word)
    (works : BeaconsWork P (fun i => at_ (T + i)) (fun i => (does (T + i)).seen) m word to s)
    (network : LosesSomeAt P (fun i => at_ (T + i)) (fun i => (does (T + i)).seen) n s) :
    ∃ j, ∀ l, j ≤ l → (P.machine n).S.ipText s.ip ∈ ((at_ l).node n).prog.net.peers.map Peer.addr := by
  obtain ⟨c', v, go, -, same⟩ := C178_runs_for_ever P fs c at_ does run
  have same : SameRuns does at_ v := same
  have sm : ∀ i c f, does (T + i) ≠ .restart m c f := fun i c f => (stay i c f).1
  have sn : ∀ i c f, does (T + i) ≠ .restart n c f := fun i c f => (stay i c f).2
  obtain ⟨j, h⟩ := crowd_found_from (P := P.runs) (fun x => hT x.1) go (m := (m, restartsBy does T m))
    (n := (n, restartsBy does T n)) (runs_fit fit) hm T (fun i => by rw [same_node same sm]; exact runs i)
    (fun i => by rw [same_node same sn]; exact running i) (runs_holders same sm holders) (runs_locks same sm locks)
    (runs_select same sn select) proper (to := to) (s := s) heard (runs_enters sm enters) (runs_works same sm works)
    (runs_network same sn network)
  refine ⟨T + j, fun l hl => ?_⟩
  have := h l (by omega)
  obtain ⟨i, rfl⟩ : ∃ i, l = T + i := ⟨l - T, by omega⟩
  rw [same_node same sn] at this
  exact this

/-! ## Such executions exist -/

/-- The program of machine 2 is started again, and then machine 1 sends beacons to it for ever. -/
example : ∃ at_ does, RestartForever examplePlant (fun _ => exampleFS) (fun _ => shippedSettings) at_ does ∧
    (∀ n, (examplePlant.machine n).S.T = shipped) ∧ NearbyFits (fun e => ∃ i, (does i).seen = e) ∧
    146 ≤ (examplePlant.machine 2).S.mtu ∧ (∃ c f, does 0 = .restart 2 c f) ∧
    (∀ i c f, does (1 + i) ≠ .restart 1 c f ∧ does (1 + i) ≠ .restart 2 c f) ∧
    (∀ i, ¬ ((at_ (1 + i)).node 1).prog.Ended) ∧ (∀ i, ¬ ((at_ (1 + i)).node 2).prog.Ended) ∧
    HolderFairAt (fun i => at_ (1 + i)) (fun i => (does (1 + i)).seen) 1 ∧
    LockFairAt (fun i => at_ (1 + i)) (fun i => (does (1 + i)).seen) 1 ∧
    SelectFairAt (fun i => at_ (1 + i)) (fun i => (does (1 + i)).seen) 2 ∧ ("1.1.1.2" ≠ "?" ∧ "1.1.1.2" ≠ "off") ∧
    examplePlant.hears 2 ⟨[1#8, 1#8, 1#8, 2#8], 7542, ""⟩ = true ∧
    KeepsEntering examplePlant (fun i => (does (1 + i)).seen) 1 "1.1.1.2" ∧
    BeaconsWork examplePlant (fun i => at_ (1 + i)) (fun i => (does (1 + i)).seen) 1 "1.1.1.2" ⟨[1#8, 1#8, 1#8, 2#8], 7542, ""⟩
      ⟨[1#8, 1#8, 1#8, 1#8], 5000, ""⟩ ∧
    LosesSomeAt examplePlant (fun i => at_ (1 + i)) (fun i => (does (1 + i)).seen) 2 ⟨[1#8, 1#8, 1#8, 1#8], 5000, ""⟩ := by
  obtain ⟨at_, does, ⟨run, h1, h2, h3, h4, h5, h6, h7, h8, h9, h10, h11, h12, h13⟩, -⟩ := beacons_for_ever
  let at' : Nat → Crowd Nat := fun i => match i with
    | 0 => Crowd.init (fun _ => exampleFS) (fun _ => shippedSettings)
    | i + 1 => at_ i
  let does' : Nat → RestartEvent Nat := fun i => match i with
    | 0 => .restart 2 shippedSettings exampleFS
    | i + 1 => .goes (does i)
  have e1 : (fun i => at' (1 + i)) = at_ := by funext i; rw [Nat.add_comm]
  have e2 : (fun i => (does' (1 + i)).seen) = does := by funext i; rw [Nat.add_comm]; rfl
  have e3 : ∀ i, at' (1 + i) = at_ i := fun i => congrFun e1 i
  have e4 : ∀ i, does' (1 + i) = .goes (does i) := fun i => by rw [Nat.add_comm]
  refine ⟨at', does', ⟨rfl, fun i => ?_⟩, h1, ?_, h3, ⟨_, _, rfl⟩, fun i c f => ?_, fun i => by rw [e3]; exact h4 i,
    fun i => by rw [e3]; exact h5 i, ?_, ?_, ?_, h9, h10, ?_, ?_, ?_⟩
  · cases i with
    | zero =>
      show some (Crowd.restart _ 2 shippedSettings exampleFS) = some (at_ 0)
      rw [run.start]
      congr 1
      show Crowd.mk _ _ _ = Crowd.mk _ _ _
      congr 1
      · funext m; show (if m = 2 then _ else _) = _; split <;> rfl
      · funext m; show (if m = 2 then _ else _) = _; split <;> rfl
    | succ i => exact run.goes i
  · intro n k o source h
    obtain ⟨i, hi⟩ := h
    cases i with
    | zero => cases hi
    | succ i => exact h2 n k o source ⟨i, hi⟩
  · rw [e4]; exact ⟨fun h => (by cases h), fun h => (by cases h)⟩
  all_goals (rw [e2]; try rw [e1]); assumption

end Saratoga
