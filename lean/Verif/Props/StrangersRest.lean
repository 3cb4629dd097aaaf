import Verif.Props.StrangersForever
import Verif.Props.CrowdRest
/-! # C182: strangers keep no command from its turn and no network from its rest -/
namespace Saratoga

variable {N : Type} [DecidableEq N]

/-- What is asked of scheduler and lock carries over to the execution in which nothing is received. -/
theorem calm_fair {P : Plant N} {fs : N → FS} {c : N → Cliflags} {at_ : Nat → Crowd N} {does : Nat → OpenEvent N}
    (run : OpenForever P fs c at_ does) : ∃ at' does', CrowdForever P fs c at' does' ∧ (∀ i, Quiet (at_ i) (at' i)) ∧
      (∀ i e, e.byUsers = true → (does' i = e ↔ does i = .goes e)) ∧
      (∀ m, HolderFairAt at_ (fun i => (does i).seen) m → HolderFairAt at' does' m) ∧
      ∀ m, LockFairAt at_ (fun i => (does i).seen) m → LockFairAt at' does' m := by
  obtain ⟨at', run', q⟩ := calm_for_ever run
  have waits : ∀ m i p t, crowdWaits (fun i => (does i).seen.calm (at_ (i + 1))) m i p t =
      crowdWaits (fun i => (does i).seen) m i p t := by
    intro m i p t
    induction t with
    | zero => rfl
    | succ t ih => simp only [crowdWaits, ih, calm_place]
  refine ⟨at', _, run', q, fun i e he => ?_, fun m holders i hh => ?_, fun m locks i p x hx hh => ?_⟩
  · show CrowdEvent.calm _ (does i).seen = e ↔ _
    cases does i with
    | stranger n d =>
      refine ⟨fun h => ?_, fun h => by cases h⟩
      subst h; cases he
    | goes x =>
      refine ⟨fun h => ?_, fun h => ?_⟩
      · cases x <;> first | exact congrArg _ h | (subst h; cases he)
      · cases h
        cases e <;> first | rfl | cases he
  · obtain ⟨j, hj, e⟩ := holders i fun j hj => by rw [((q j).node m).user.holder]; exact hh j hj
    simp only at e
    exact ⟨j, hj, by simp only [e]; rfl⟩
  · obtain ⟨t, ht⟩ := locks i p x (by rw [((q i).node m).user.queue]; exact hx) fun j hj => by
      obtain ⟨k, hk, h⟩ := hh j hj
      exact ⟨k, hk, fun hn => by rw [((q k).node m).user.holder]; exact h hn⟩
    exact ⟨t, by rw [waits]; exact ht⟩

theorem quiet_due {w w' : Crowd N} (h : Quiet w w') (n : N) : w'.due n = w.due n := by
  unfold Crowd.due
  rw [h.conns, (h.node n).user.holder, (h.node n).user.commands.1]

/-- **C182, the lock.** At every machine the beacon command that has the lock sends all it has to send, one after another,
and gives the lock back, whatever strangers send to anybody. -/
theorem C182_lock (P : Plant N) (fs : N → FS) (c : N → Cliflags) (at_ : Nat → Crowd N) (does : Nat → OpenEvent N)
    (run : OpenForever P fs c at_ does) (n : N) (fair : HolderFairAt at_ (fun i => (does i).seen) n) (i : Nat)
    (acts : List BeaconAct) (held : ((at_ i).node n).holder = some acts) :
    (∃ j, i < j ∧ ((at_ j).node n).holder = none) ∧
      ∀ d ∈ (at_ i).due n, ∃ j, i ≤ j ∧ does j = .goes (.act n) ∧ (at_ (j + 1)).air = (at_ j).air ++ [d] := by
  obtain ⟨at', does', run', q, same, hf, _⟩ := calm_fair run
  obtain ⟨⟨j, hj, h1⟩, h2⟩ := C175_lock P fs c at' does' run' n (hf n fair) i acts
    (by rw [← ((q i).node n).user.holder]; exact held)
  refine ⟨⟨j, hj, by rw [((q j).node n).user.holder]; exact h1⟩, fun d hd => ?_⟩
  obtain ⟨j, hj, e, air⟩ := h2 d (by rw [quiet_due (q i)]; exact hd)
  exact ⟨j, hj, (same j _ rfl).1 e, by rw [← (q (j + 1)).air, ← (q j).air]; exact air⟩

/-- What the beginning of a command does at a program that goes on. -/
theorem open_begin {P : Plant N} {w w' : Crowd N} {n : N} {k : Nat} {o : Replies} {source : UDPAddr → UDPAddr} {x : Queued}
    (h : w.openStep P (.goes (.begin n k o source)) = some w') (hx : (w.node n).queue[k]? = some x)
    (running : ¬ (w'.node n).prog.Ended) : (w.node n).prog.command (P.machine n) o x.cmd x.args = .ret (w'.node n).prog := by
  have h : w.step P (.begin n k o source) = some w' := h
  obtain ⟨b, s1, e⟩ := Option.map_eq_some_iff.1 h
  have eb : w'.node n = b := by
    rw [← e]
    show (Crowd.set _ n b).node n = b
    rw [crowd_set_self]
  rw [eb] at running ⊢
  unfold Busy.step at s1
  split at s1
  · cases s1
  simp only [hx] at s1
  split at s1
  · cases s1
  simp only [Option.some.injEq] at s1
  unfold Busy.begin at s1
  cases hc : (w.node n).prog.command (P.machine n) o x.cmd x.args with
  | ret p => rw [hc] at s1; subst s1; rfl
  | fatal => rw [hc] at s1; subst s1; exact absurd rfl running
  | panic => rw [hc] at s1; subst s1; exact absurd rfl running

/-- **C182, a turn.** At every program that goes on, every goroutine that waits begins in the end and does what its command
does, whatever strangers send to anybody. -/
theorem C182_turn (P : Plant N) (fs : N → FS) (c : N → Cliflags) (at_ : Nat → Crowd N) (does : Nat → OpenEvent N)
    (run : OpenForever P fs c at_ does) (n : N) (running : ∀ i, ¬ ((at_ i).node n).prog.Ended)
    (holders : HolderFairAt at_ (fun i => (does i).seen) n) (locks : LockFairAt at_ (fun i => (does i).seen) n)
    (i p : Nat) (q : Queued) (waits : ((at_ i).node n).queue[p]? = some q) :
    ∃ j k o source, i ≤ j ∧ does j = .goes (.begin n k o source) ∧ ((at_ j).node n).queue[k]? = some q ∧
      ((at_ j).node n).prog.command (P.machine n) o q.cmd q.args = .ret ((at_ (j + 1)).node n).prog := by
  obtain ⟨at', does', run', quiet, same, hf, lf⟩ := calm_fair run
  obtain ⟨j, k, o, source, hj, e, hq, _⟩ := C175_turn P fs c at' does' run' n (fun i => (((quiet i).node n).files (running i)).1)
    (hf n holders) (lf n locks) i p q (by rw [← ((quiet i).node n).user.queue]; exact waits)
  have e := (same j _ rfl).1 e
  have hq : ((at_ j).node n).queue[k]? = some q := by rw [((quiet j).node n).user.queue]; exact hq
  have hs := run.goes j
  rw [e] at hs
  exact ⟨j, k, o, source, hj, e, hq, open_begin hs hq (running (j + 1))⟩

/-- **C182, sent.** A beacon command entered at a program that goes on begins in the end, and then all its beacons leave,
whatever strangers send to anybody. -/
theorem C182_sent (P : Plant N) (fs : N → FS) (c : N → Cliflags) (at_ : Nat → Crowd N) (does : Nat → OpenEvent N)
    (run : OpenForever P fs c at_ does) (n : N) (running : ∀ i, ¬ ((at_ i).node n).prog.Ended)
    (holders : HolderFairAt at_ (fun i => (does i).seen) n) (locks : LockFairAt at_ (fun i => (does i).seen) n)
    (i : Nat) (line : String) (typed : does i = .goes (.typed n line)) (args : List String)
    (names : getLine ((P.machine n).H.map Prod.fst) cmdHandlers line = .ret (.started "beacon" args)) :
    ∃ j k o source q bs acts, i < j ∧ does j = .goes (.begin n k o source) ∧ ((at_ j).node n).queue[k]? = some q ∧
      q.args = args ∧
      cmdBeacon ((P.machine n).beaconEnv o) ((at_ j).node n).prog.settings ((at_ j).node n).prog.beacon args = .ret (bs, acts) ∧
      ∀ dest frame, (dest, frame) ∈ framesOf acts → ∃ l d, j < l ∧ does l = .goes (.act n) ∧
        (at_ (l + 1)).air = (at_ l).air ++ [d] ∧ d.source = source dest ∧ d.dest = dest ∧ d.bytes = frame ∧ d.sender = n := by
  obtain ⟨at', does', run', quiet, same, hf, lf⟩ := calm_fair run
  obtain ⟨j, k, o, source, q, bs, acts, hj, e, hq, ha, hc, h⟩ := C175_sent P fs c at' does' run' n
    (fun i => (((quiet i).node n).files (running i)).1) (hf n holders) (lf n locks) i line ((same i _ rfl).2 typed) args names
  have cm := ((quiet j).node n).user.commands
  refine ⟨j, k, o, source, q, bs, acts, hj, (same j _ rfl).1 e, by rw [((quiet j).node n).user.queue]; exact hq, ha, ?_,
    fun dest frame hm => ?_⟩
  · rw [cm.1, cm.2.2.2.1]; exact hc
  · obtain ⟨l, d, hl, el, air, r⟩ := h dest frame hm
    exact ⟨l, d, hl, (same l _ rfl).1 el, by rw [← (quiet (l + 1)).air, ← (quiet l).air]; exact air, r⟩

/-- A program that has ended stays so. -/
theorem open_ended_stays {P : Plant N} {fs : N → FS} {c : N → Cliflags} {at_ : Nat → Crowd N} {does : Nat → OpenEvent N}
    (run : OpenForever P fs c at_ does) {n : N} {i : Nat} (h : ((at_ i).node n).prog.Ended) (t : Nat) :
    ((at_ (i + t)).node n).prog.Ended := by
  induction t with
  | zero => exact h
  | succ t ih =>
    show ((at_ (i + t + 1)).node n).prog.Ended
    rcases open_node_step (run.goes (i + t)) n with ⟨e, _⟩ | ⟨e', s1, _⟩
    · rw [e]; exact ih
    · unfold Busy.step at s1
      rw [if_pos (show ((at_ (i + t)).node n).prog.net.main = .ended from ih)] at s1
      cases s1

/-- **C182, rest.** If from some time on nothing is entered at any of the machines, the network comes to rest, if at the
programs that go on scheduler and lock are fair: from some time on no command does anything anywhere and nothing more
leaves; at every program that goes on all commands are done. Strangers may go on sending for ever. -/
theorem C182_rest (P : Plant N) (fs : N → FS) (c : N → Cliflags) (at_ : Nat → Crowd N) (does : Nat → OpenEvent N)
    (run : OpenForever P fs c at_ does) (machines : List N) (all : ∀ n, n ∈ machines)
    (holders : ∀ n, (∀ i, ¬ ((at_ i).node n).prog.Ended) → HolderFairAt at_ (fun i => (does i).seen) n)
    (locks : ∀ n, (∀ i, ¬ ((at_ i).node n).prog.Ended) → LockFairAt at_ (fun i => (does i).seen) n) (i : Nat)
    (silent : ∀ j n line, i ≤ j → does j ≠ .goes (.typed n line)) :
    ∃ j, i ≤ j ∧ ∀ k, j ≤ k →
      ((∃ n d, does k = .stranger n d) ∨ (∃ n l fam clock, does k = .goes (.arrives n l fam clock)) ∨
        ∃ n a, does k = .goes (.inside n a)) ∧ (at_ k).air = (at_ j).air ∧
      ∀ n, ¬ ((at_ k).node n).prog.Ended → ((at_ k).node n).queue = [] ∧ ((at_ k).node n).holder = none := by
  obtain ⟨at', does', run', quiet, same, hf, lf⟩ := calm_fair run
  have one : ∀ n, ∃ j, i ≤ j ∧ ∀ k, j ≤ k → (∀ e, does k = .goes e → ¬ GetsOn n e) ∧
      (¬ ((at_ k).node n).prog.Ended → ((at_ k).node n).queue = [] ∧ ((at_ k).node n).holder = none) := by
    intro n
    by_cases ends : ∃ l, ((at_ l).node n).prog.Ended
    · obtain ⟨l, hl⟩ := ends
      refine ⟨i + l, by omega, fun k hk => ?_⟩
      have := open_ended_stays run hl (k - l)
      rw [show l + (k - l) = k by omega] at this
      refine ⟨fun e he wk => ?_, fun h => absurd this h⟩
      have hs := run.goes k
      rw [he] at hs
      exact crowd_works_running (show (at_ k).step P e = _ from hs) wk this
    have running : ∀ i, ¬ ((at_ i).node n).prog.Ended := fun i h => ends ⟨i, h⟩
    obtain ⟨j, hj, h⟩ := crowd_machine_rests run' n (fun _ => hf n (holders n running)) (fun _ => lf n (locks n running)) i
      fun j line hj e => silent j n line hj ((same j _ rfl).1 e)
    refine ⟨j, hj, fun k hk => ⟨fun e he wk => (h k hk).1 ?_, fun hr => ?_⟩⟩
    · have : e.byUsers = true := by rcases wk with ⟨_, _, _, rfl⟩ | rfl <;> rfl
      rw [(same k e this).2 he]; exact wk
    · have := (h k hk).2 (((quiet k).node n).files hr).1
      rw [((quiet k).node n).user.queue, ((quiet k).node n).user.holder]; exact this
  have each : ∀ ns : List N, ∃ j, i ≤ j ∧ ∀ k, j ≤ k → ∀ n ∈ ns, (∀ e, does k = .goes e → ¬ GetsOn n e) ∧
      (¬ ((at_ k).node n).prog.Ended → ((at_ k).node n).queue = [] ∧ ((at_ k).node n).holder = none) := by
    intro ns
    induction ns with
    | nil => exact ⟨i, Nat.le_refl _, fun _ _ n hn => by cases hn⟩
    | cons n ns ih =>
      obtain ⟨j1, h1, h2⟩ := ih
      obtain ⟨j2, h3, h4⟩ := one n
      refine ⟨j1 + j2, by omega, fun k hk m hm => ?_⟩
      rcases List.mem_cons.1 hm with rfl | hm
      · exact h4 k (by omega)
      · exact h2 k (by omega) m hm
  obtain ⟨j, hj, h⟩ := each machines
  have kinds : ∀ k, j ≤ k → (∃ n d, does k = .stranger n d) ∨ (∃ n l fam clock, does k = .goes (.arrives n l fam clock)) ∨
      ∃ n a, does k = .goes (.inside n a) := by
    intro k hk
    cases hd : does k with
    | stranger n d => exact .inl ⟨n, d, rfl⟩
    | goes e =>
      cases e with
      | typed n line => exact absurd hd (silent k n line (by omega))
      | begin n l o s => exact absurd (.inl ⟨l, o, s, rfl⟩) ((h k hk n (all n)).1 _ hd)
      | act n => exact absurd (.inr rfl) ((h k hk n (all n)).1 _ hd)
      | arrives n l fam clock => exact .inr (.inl ⟨n, l, fam, clock, rfl⟩)
      | inside n a => exact .inr (.inr ⟨n, a, rfl⟩)
  have air : ∀ t, (at_ (j + t)).air = (at_ j).air := by
    intro t
    induction t with
    | zero => rfl
    | succ t ih =>
      rw [← ih]
      have hs := run.goes (j + t)
      show (at_ (j + t + 1)).air = _
      rcases kinds (j + t) (by omega) with ⟨n, d, e⟩ | ⟨n, l, fam, clock, e⟩ | ⟨n, a, e⟩
      · rw [e] at hs
        obtain ⟨b, _, e1⟩ := Option.map_eq_some_iff.1 hs
        rw [← e1]; rfl
      · rw [e] at hs
        have hs : (at_ (j + t)).step P (.arrives n l fam clock) = some (at_ (j + t + 1)) := hs
        rcases crowd_step_cases hs with ⟨_, _, _, e', _⟩ | ⟨_, _, _, _, _, e', _⟩ |
          ⟨_, _, e', _⟩ | ⟨_, _, _, _, _, _, e', _, _, _, e1⟩ | ⟨_, _, _, e', _⟩ <;> cases e'
        rw [e1]; rfl
      · rw [e] at hs
        have hs : (at_ (j + t)).step P (.inside n a) = some (at_ (j + t + 1)) := hs
        rcases crowd_step_cases hs with ⟨_, _, _, e', _⟩ | ⟨_, _, _, _, _, e', _⟩ |
          ⟨_, _, e', _⟩ | ⟨_, _, _, _, _, _, e', _⟩ | ⟨_, _, _, e', _, _, e1⟩ <;> cases e'
        rw [e1]; rfl
  refine ⟨j, hj, fun k hk => ⟨kinds k hk, ?_, fun n => (h k hk n (all n)).2⟩⟩
  have := air (k - j)
  rwa [show j + (k - j) = k by omega] at this

/-! ## A concrete case -/

/-- A machine that has been sent a datagram that is too short `t` times. -/
def flooded (w : Crowd N) (n : N) (d : Datagram) (t : Nat) : Crowd N :=
  w.set n ((w.node n).withNet { (w.node n).prog.net with read := (w.node n).prog.net.read ++ List.replicate t d })

theorem flooded_zero (w : Crowd N) (n : N) (d : Datagram) : flooded w n d 0 = w := by
  unfold flooded Crowd.set Busy.withNet
  obtain ⟨node, air, conns⟩ := w
  congr 1
  funext m
  by_cases e : m = n
  · subst e; simp
  · simp [e]

theorem dropped_step {M : Machine} {b : Busy} {d : Datagram} (running : b.prog.net.main ≠ .ended)
    (reading : b.prog.net.listener d.fam = .reading)
    (drops : listenFrame M.S.T d.clock M.S.mtu d.bytes = .ret .drop) :
    b.step M (.net (.recv d)) = some (b.withNet { b.prog.net with read := b.prog.net.read ++ [d] }) := by
  unfold Busy.step
  rw [if_neg running]
  simp only [Program.step, World.step]
  rw [if_pos ⟨running, reading⟩]
  simp only [World.onRecv, drops, World.orEnd]
  rfl

theorem flooded_step {P : Plant N} {w : Crowd N} {n : N} {d : Datagram} (running : ¬ (w.node n).prog.Ended)
    (reading : (w.node n).prog.net.listener d.fam = .reading)
    (drops : listenFrame (P.machine n).S.T d.clock (P.machine n).S.mtu d.bytes = .ret .drop) (t : Nat) :
    (flooded w n d t).openStep P (.stranger n d) = some (flooded w n d (t + 1)) := by
  show (((flooded w n d t).node n).step (P.machine n) (.net (.recv d))).map _ = _
  have self : (flooded w n d t).node n = (w.node n).withNet
      { (w.node n).prog.net with read := (w.node n).prog.net.read ++ List.replicate t d } := crowd_set_self ..
  rw [dropped_step (by rw [self]; exact running) (by rw [self]; exact reading) drops, self]
  simp only [Option.map_some, Option.some.injEq]
  unfold flooded Crowd.set Busy.withNet
  congr 1
  funext m
  by_cases e : m = n
  · subst e; simp [List.replicate_succ', List.append_assoc]
  · simp [e]

/-- At machine 1 a beacon command and a settings command are entered; then machine 2 is sent empty datagrams for ever. -/
example : ∃ at_ does, OpenForever smallPlant (fun _ => exampleFS) (fun _ => shippedSettings) at_ does ∧
    (∀ n : Fin 3, n ∈ [0, 1, 2]) ∧ (∀ n i, ¬ ((at_ i).node n).prog.Ended) ∧
    (∀ n, HolderFairAt at_ (fun i => (does i).seen) n) ∧ (∀ n, LockFairAt at_ (fun i => (does i).seen) n) ∧
    does 0 = .goes (.typed 1 "saratoga[0]:beacon 1.1.1.2") ∧
    (∀ j n line, smallEvents.length ≤ j → does j ≠ .goes (.typed n line)) ∧
    (∀ j, smallEvents.length ≤ j → ∃ d, does j = .stranger 2 d) ∧
    ∀ j, smallEvents.length ≤ j → (at_ j).air.length = 3 := by
  have key : ((Crowd.init (fun _ => exampleFS) (fun _ => shippedSettings)).run smallPlant smallEvents).map (fun w =>
      (w.air.length, (w.node 2).prog.net.listener .v4 == .reading, ([0, 1, 2] : List (Fin 3)).map fun n =>
        ((w.node n).queue.length, (w.node n).holder.isNone, decide ((w.node n).prog.net.main = .ended)))) =
      some (3, true, [(0, true, false), (0, true, false), (0, true, false)]) := by decide +kernel
  obtain ⟨w, h, e⟩ := Option.map_eq_some_iff.1 key
  simp only [List.map_cons, List.map_nil, Prod.mk.injEq, List.cons.injEq, decide_eq_false_iff_not] at e
  have each : ∀ n : Fin 3, (w.node n).queue.length = 0 ∧ (w.node n).holder.isNone = true ∧ ¬ (w.node n).prog.net.main = .ended := by
    intro n
    match n with
    | 0 => exact e.2.2.1
    | 1 => exact e.2.2.2.1
    | 2 => exact e.2.2.2.2.1
  obtain ⟨at0, does0, run, last, first, silent⟩ := crowdForever_of_run h (n := 0) (each 0).2.2
  let d : Datagram := ⟨.v4, ⟨0, 0⟩, [], ⟨[9#8, 9#8, 9#8, 9#8], 7542, ""⟩⟩
  let L := smallEvents.length
  let at_ : Nat → Crowd (Fin 3) := fun i => if i < L then at0 i else flooded w 2 d (i - L)
  let does : Nat → OpenEvent (Fin 3) := fun i => if i < L then .goes (does0 i) else .stranger 2 d
  have before : ∀ {i}, i < L → at_ i = at0 i ∧ does i = .goes (does0 i) := fun hi => ⟨if_pos hi, if_pos hi⟩
  have after : ∀ {i}, L ≤ i → at_ i = flooded w 2 d (i - L) ∧ does i = .stranger 2 d :=
    fun hi => ⟨if_neg (by omega), if_neg (by omega)⟩
  have goes : ∀ i, (at_ i).openStep smallPlant (does i) = some (at_ (i + 1)) := by
    intro i
    by_cases hi : i < L
    · rw [(before hi).1, (before hi).2]
      have : at_ (i + 1) = at0 (i + 1) := by
        by_cases hi' : i + 1 < L
        · exact (before hi').1
        · rw [(after (by omega)).1, last (i + 1) (by omega), show i + 1 - L = 0 by omega, flooded_zero]
      rw [this]
      exact run.goes i
    · rw [(after (by omega)).1, (after (by omega)).2, (after (i := i + 1) (by omega)).1, show i + 1 - L = i - L + 1 by omega]
      exact flooded_step (each 2).2.2 (by simpa using e.2.1) rfl _
  have run' : OpenForever smallPlant (fun _ => exampleFS) (fun _ => shippedSettings) at_ does :=
    ⟨(before (by decide)).1.trans run.start, goes⟩
  have node : ∀ n j, L ≤ j → ((at_ j).node n).queue = (w.node n).queue ∧ ((at_ j).node n).holder = (w.node n).holder ∧
      ((at_ j).node n).prog.net.main = (w.node n).prog.net.main ∧ (at_ j).air = w.air := by
    intro n j hj
    rw [(after hj).1]
    unfold flooded
    by_cases hn : n = 2
    · subst hn; rw [crowd_set_self]; exact ⟨rfl, rfl, rfl, rfl⟩
    · rw [crowd_set_other _ _ hn]; exact ⟨rfl, rfl, rfl, rfl⟩
  refine ⟨at_, does, run', by decide, fun n i he => ?_, fun n i always => ?_, fun n i p q hq _ => ?_, ?_, fun j n line hj => ?_,
    fun j hj => ⟨d, (after hj).2⟩, fun j hj => by rw [(node 0 j hj).2.2.2]; exact e.1⟩
  · have : ((at_ (i + L)).node n).prog.net.main = .ended := open_ended_stays run' he L
    rw [(node n _ (by omega)).2.2.1] at this
    exact (each n).2.2 this
  · refine absurd ?_ (always (i + L) (by omega))
    rw [(node n _ (by omega)).2.1]
    simpa using (each n).2.1
  · refine ⟨L, ?_⟩
    obtain ⟨at', crun, quiet⟩ := calm_for_ever run'
    have waits : ∀ t, crowdWaits (fun i => (does i).seen.calm (at_ (i + 1))) n i p t =
        crowdWaits (fun i => (does i).seen) n i p t := by
      intro t
      induction t with
      | zero => rfl
      | succ t ih => simp only [crowdWaits, ih, calm_place]
    cases hk : crowdWaits (fun i => (does i).seen) n i p L with
    | none => rfl
    | some k =>
      have := crowd_queue_waits crun (n := n) (i := i) (p := p) (q := q)
        (by rw [← ((quiet i).node n).user.queue]; exact hq) L (k := k) (by rw [waits]; exact hk)
      rw [← ((quiet _).node n).user.queue, (node n _ (by omega)).1, List.eq_nil_of_length_eq_zero (each n).1] at this
      cases this
  · rw [(before (by decide)).2, first 0 _ rfl]
  · rw [(after hj).2]; simp

end Saratoga
