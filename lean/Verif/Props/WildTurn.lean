import Verif.Props.WildForever
/-! # C183, executions for ever: restarts and strangers keep no command from its turn -/
namespace Saratoga

variable {N : Type} [DecidableEq N]

theorem open_queue_waits {P : Plant N} {fs : N → FS} {c : N → Cliflags} {at_ : Nat → Crowd N} {does : Nat → OpenEvent N}
    (run : OpenForever P fs c at_ does) {n : N} {i p : Nat} {q : Queued} (hq : ((at_ i).node n).queue[p]? = some q) (t : Nat)
    {k : Nat} (hw : crowdWaits (fun i => (does i).seen) n i p t = some k) : ((at_ (i + t)).node n).queue[k]? = some q := by
  obtain ⟨at', run', quiet⟩ := calm_for_ever run
  have waits : ∀ t, crowdWaits (fun i => (does i).seen.calm (at_ (i + 1))) n i p t = crowdWaits (fun i => (does i).seen) n i p t := by
    intro t
    induction t with
    | zero => rfl
    | succ t ih => simp only [crowdWaits, ih, calm_place]
  rw [((quiet i).node n).user.queue] at hq
  rw [((quiet (i + t)).node n).user.queue]
  exact crowd_queue_waits run' hq t (by rw [waits]; exact hw)

theorem open_locks_from {P : Plant N} {fs : N → FS} {c : N → Cliflags} {at_ : Nat → Crowd N} {does : Nat → OpenEvent N}
    (run : OpenForever P fs c at_ does) {n : N} {T : Nat}
    (fair : LockFairAt (fun i => at_ (T + i)) (fun i => (does (T + i)).seen) n) : LockFairAt at_ (fun i => (does i).seen) n := by
  intro i p q hq again
  have later : ∀ i, ∀ j, i ≤ j → ∃ k, j ≤ k ∧ (needsLock q.cmd = true → ((at_ (T + k)).node n).holder = none) := by
    intro _ j _
    obtain ⟨k, hk, h⟩ := again (i + (T + j)) (by omega)
    exact ⟨k - T, by omega, by rw [show T + (k - T) = k by omega]; exact h⟩
  rcases Nat.lt_or_ge i T with lt | ge
  · cases hw : crowdWaits (fun i => (does i).seen) n i p (T - i) with
    | none => exact ⟨T - i, hw⟩
    | some k =>
      have hk := open_queue_waits run hq (T - i) hw
      rw [show i + (T - i) = T + 0 by omega] at hk
      obtain ⟨t, ht⟩ := fair 0 k q hk (later 0)
      rw [waits_shift (fun i => (does i).seen)] at ht
      refine ⟨T - i + t, ?_⟩
      rw [waits_add, hw, show i + (T - i) = T + 0 by omega]
      exact ht
  · obtain ⟨t, ht⟩ := fair (i - T) p q (by simp only; rw [show T + (i - T) = i by omega]; exact hq) (later _)
    rw [waits_shift (fun i => (does i).seen), show T + (i - T) = i by omega] at ht
    exact ⟨t, ht⟩

/-- A machine that from some time on is not started again, as a run of the network of the runs. -/
structure LastRun (P : Plant N) (at_ : Nat → Crowd N) (does : Nat → WildEvent N) (n : N) (T : Nat) (fs : N → FS) (c' : N × Nat → Cliflags)
    (v : Nat → Crowd (N × Nat)) (x : N × Nat) (does' : Nat → OpenEvent (N × Nat)) : Prop where
  run : OpenForever P.runs (fun x => fs x.1) c' v does'
  name : x.1 = n
  node : ∀ l, T ≤ l → (v l).node x = (at_ l).node n
  air : ∀ l, (v l).air.map Packet.home = (at_ l).air
  running : ∀ i, ¬ ((v i).node x).prog.Ended
  holders : HolderFairAt v (fun i => (does' i).seen) x
  locks : LockFairAt v (fun i => (does' i).seen) x
  typed : ∀ l line, T ≤ l → does l = .goes (.goes (.typed n line)) → does' l = .goes (.typed x line)
  begins : ∀ l k o source, T ≤ l → does' l = .goes (.begin x k o source) → does l = .goes (.goes (.begin n k o source))
  acts : ∀ l, T ≤ l → does' l = .goes (.act x) → does l = .goes (.goes (.act n))

theorem last_run {P : Plant N} {fs : N → FS} {c : N → Cliflags} {at_ : Nat → Crowd N} {does : Nat → WildEvent N}
    (run : WildForever P fs c at_ does) {n : N} {T : Nat} (stay : ∀ i c f, does (T + i) ≠ .goes (.restart n c f))
    (running : ∀ i, ¬ ((at_ (T + i)).node n).prog.Ended)
    (holders : HolderFairAt (fun i => at_ (T + i)) (fun i => (does (T + i)).seen) n)
    (locks : LockFairAt (fun i => at_ (T + i)) (fun i => (does (T + i)).seen) n) :
    ∃ c' v x does', LastRun P at_ does n T fs c' v x does' := by
  let pl : Nat → RestartEvent N := fun i => (does i).plain
  obtain ⟨c', v, go, -, same⟩ := C183_runs_for_ever P fs c at_ does run
  have same : SameRuns pl at_ v := same
  have sn : ∀ i c f, pl (T + i) ≠ .restart n c f := by
    intro i c f h
    have h : (does (T + i)).plain = _ := h
    cases hd : does (T + i) with
    | stranger y d => rw [hd] at h; cases h
    | goes e => rw [hd] at h; exact stay i c f (by rw [hd]; exact congrArg _ h)
  have seenT : (fun i => ((does (T + i)).ofRun (restartsBy pl (T + i))).seen) = fun i => ofRunsAt pl (T + i) := by
    funext i; exact wild_seen _ _
  have count : ∀ l, T ≤ l → restartsBy pl l n = restartsBy pl T n := by
    intro l hl
    obtain ⟨t, rfl⟩ : ∃ t, l = T + t := ⟨l - T, by omega⟩
    exact restartsBy_stays sn t
  refine ⟨c', v, (n, restartsBy pl T n), fun i => (does i).ofRun (restartsBy pl i), go, rfl, fun l hl => ?_, fun l => (same l).2,
    open_running_before go (T := T) (fun i => by rw [same_node same sn]; exact running i),
    holders_from (T := T) (by rw [seenT]; exact runs_holders same sn holders),
    open_locks_from go (T := T) (by rw [seenT]; exact runs_locks same sn locks), fun l line hl e => ?_,
    fun l k o source hl e => ?_, fun l hl e => ?_⟩
  · rw [← count l hl]; exact (same l).1 n
  · simp only [e]
    show OpenEvent.goes (.typed (n, restartsBy pl l n) line) = _
    rw [count l hl]
  · cases hd : does l with
    | stranger y d => rw [hd] at e; cases e
    | goes a =>
      rw [hd] at e
      cases a with
      | restart y c f => cases e
      | goes a =>
        cases a with
        | begin y k' o' source' =>
          have e : OpenEvent.goes (.begin (y, restartsBy pl l y) k' o' source') = .goes (.begin (n, _) k o source) := e
          injection e with e
          injection e with e1 e2 e3 e4
          have e1 : y = n := congrArg Prod.fst e1
          subst e1 e2 e3 e4
          rfl
        | _ => cases e
  · cases hd : does l with
    | stranger y d => rw [hd] at e; cases e
    | goes a =>
      rw [hd] at e
      cases a with
      | restart y c f => cases e
      | goes a =>
        cases a with
        | act y =>
          have e : OpenEvent.goes (.act (y, restartsBy pl l y)) = .goes (.act (n, _)) := e
          injection e with e
          injection e with e1
          have e1 : y = n := congrArg Prod.fst e1
          subst e1
          rfl
        | _ => cases e

/-- **C183, a turn.** At a program that from some time on goes on and is not started again, every goroutine that waits then
or later begins in the end and does what its command does, however often other programs are ended and started again and
whatever strangers send to anybody. -/
theorem C183_turn (P : Plant N) (fs : N → FS) (c : N → Cliflags) (at_ : Nat → Crowd N) (does : Nat → WildEvent N)
    (run : WildForever P fs c at_ does) (n : N) (T : Nat) (stay : ∀ i c f, does (T + i) ≠ .goes (.restart n c f))
    (running : ∀ i, ¬ ((at_ (T + i)).node n).prog.Ended)
    (holders : HolderFairAt (fun i => at_ (T + i)) (fun i => (does (T + i)).seen) n)
    (locks : LockFairAt (fun i => at_ (T + i)) (fun i => (does (T + i)).seen) n)
    (i p : Nat) (late : T ≤ i) (q : Queued) (waits : ((at_ i).node n).queue[p]? = some q) :
    ∃ j k o source, i ≤ j ∧ does j = .goes (.goes (.begin n k o source)) ∧ ((at_ j).node n).queue[k]? = some q ∧
      ((at_ j).node n).prog.command (P.machine n) o q.cmd q.args = .ret ((at_ (j + 1)).node n).prog := by
  obtain ⟨c', v, x, does', L⟩ := last_run run stay running holders locks
  obtain ⟨j, k, o, source, hj, e, hq, hc⟩ := C182_turn P.runs _ c' v does' L.run x L.running L.holders L.locks i p q
    (by rw [L.node i late]; exact waits)
  rw [L.node j (by omega)] at hq hc
  rw [L.node (j + 1) (by omega)] at hc
  have hc : Program.command (P.machine x.1) o _ _ _ = _ := hc
  rw [L.name] at hc
  exact ⟨j, k, o, source, hj, L.begins j k o source (by omega) e, hq, hc⟩

/-- **C183, sent.** A beacon command entered at such a program begins in the end, and then all its beacons leave. -/
theorem C183_sent (P : Plant N) (fs : N → FS) (c : N → Cliflags) (at_ : Nat → Crowd N) (does : Nat → WildEvent N)
    (run : WildForever P fs c at_ does) (n : N) (T : Nat) (stay : ∀ i c f, does (T + i) ≠ .goes (.restart n c f))
    (running : ∀ i, ¬ ((at_ (T + i)).node n).prog.Ended)
    (holders : HolderFairAt (fun i => at_ (T + i)) (fun i => (does (T + i)).seen) n)
    (locks : LockFairAt (fun i => at_ (T + i)) (fun i => (does (T + i)).seen) n)
    (i : Nat) (late : T ≤ i) (line : String) (typed : does i = .goes (.goes (.typed n line))) (args : List String)
    (names : getLine ((P.machine n).H.map Prod.fst) cmdHandlers line = .ret (.started "beacon" args)) :
    ∃ j k o source q bs acts, i < j ∧ does j = .goes (.goes (.begin n k o source)) ∧ ((at_ j).node n).queue[k]? = some q ∧
      q.args = args ∧
      cmdBeacon ((P.machine n).beaconEnv o) ((at_ j).node n).prog.settings ((at_ j).node n).prog.beacon args = .ret (bs, acts) ∧
      ∀ dest frame, (dest, frame) ∈ framesOf acts → ∃ l d, j < l ∧ does l = .goes (.goes (.act n)) ∧
        (at_ (l + 1)).air = (at_ l).air ++ [d] ∧ d.source = source dest ∧ d.dest = dest ∧ d.bytes = frame ∧ d.sender = n := by
  obtain ⟨c', v, x, does', L⟩ := last_run run stay running holders locks
  obtain ⟨j, k, o, source, q, bs, acts, hj, e, hq, ha, hc, h⟩ := C182_sent P.runs _ c' v does' L.run x L.running L.holders L.locks
    i line (L.typed i line late typed) args (by show getLine ((P.machine x.1).H.map Prod.fst) _ _ = _; rw [L.name]; exact names)
  rw [L.node j (by omega)] at hq hc
  refine ⟨j, k, o, source, q, bs, acts, hj, L.begins j k o source (by omega) e, hq, ha, ?_, fun dest frame hm => ?_⟩
  · have hc : cmdBeacon ((P.machine x.1).beaconEnv o) _ _ _ = _ := hc
    rwa [L.name] at hc
  · obtain ⟨l, d, hl, el, air, d1, d2, d3, d4⟩ := h dest frame hm
    refine ⟨l, d.home, hl, L.acts l (by omega) el, ?_, d1, d2, d3, ?_⟩
    · rw [← L.air, ← L.air, air, List.map_append]; rfl
    · show d.sender.1 = n
      rw [d4, L.name]

/-- The hypotheses are met in the execution in which the program of machine 2 is ended by a stranger and started again, at
machine 1, where a line is entered that starts the command. -/
example : ∃ at_ does, WildForever examplePlant (fun _ => exampleFS) (fun _ => shippedSettings) at_ does ∧
    ((at_ 1).node 2).prog.Ended ∧ (∃ c f, does 1 = .goes (.restart 2 c f)) ∧
    (∀ i c f, does (2 + i) ≠ .goes (.restart 1 c f)) ∧ (∀ i, ¬ ((at_ (2 + i)).node 1).prog.Ended) ∧
    HolderFairAt (fun i => at_ (2 + i)) (fun i => (does (2 + i)).seen) 1 ∧
    LockFairAt (fun i => at_ (2 + i)) (fun i => (does (2 + i)).seen) 1 ∧
    ∃ i line, 2 ≤ i ∧ does i = .goes (.goes (.typed 1 line)) ∧
      getLine ((examplePlant.machine 1).H.map Prod.fst) cmdHandlers line = .ret (.started "beacon" ["beacon", "1.1.1.2"]) := by
  obtain ⟨at_, does, h1, -, -, -, -, h6, h7, h8, h9, -, h11, h12, -, -, -, h16, -, -⟩ := ended_and_found
  obtain ⟨j, line, -, e, names⟩ := h16 0
  refine ⟨at_, does, h1, h6, h7, fun i c f => (h8 i c f).1, h9, h11, h12, 2 + j, line, by omega, ?_, names⟩
  have e : (does (2 + j)).plain.seen = .typed 1 line := e
  cases hd : does (2 + j) with
  | stranger y d => rw [hd] at e; cases e
  | goes a =>
    rw [hd] at e
    cases a with
    | restart y c f => cases e
    | goes a => exact congrArg (fun a => WildEvent.goes (.goes a)) e

end Saratoga
