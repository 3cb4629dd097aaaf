import Verif.Props.Wild
/-! # C183, executions for ever: found again in spite of restarts and strangers -/
namespace Saratoga

variable {N : Type} [DecidableEq N]

/-! ## C181 from some time on -/

theorem open_running_before {P : Plant N} {fs : N → FS} {c : N → Cliflags} {at_ : Nat → Crowd N} {does : Nat → OpenEvent N}
    (run : OpenForever P fs c at_ does) {n : N} {T : Nat} (running : ∀ i, ¬ ((at_ (T + i)).node n).prog.Ended) :
    ∀ i, ¬ ((at_ i).node n).prog.Ended := by
  intro i h
  refine running i ?_
  rw [Nat.add_comm]
  exact open_ended_stays run h T

/-- Whoever keeps entering beacon commands keeps sending beacons. -/
theorem open_sends_from {P : Plant N} {fs : N → FS} {c : N → Cliflags} {at_ : Nat → Crowd N} {does : Nat → OpenEvent N}
    (run : OpenForever P fs c at_ does) {m n : N} (T : Nat) (runs : ∀ i, ¬ ((at_ (T + i)).node m).prog.Ended)
    (holders : HolderFairAt (fun i => at_ (T + i)) (fun i => (does (T + i)).seen) m)
    (locks : LockFairAt (fun i => at_ (T + i)) (fun i => (does (T + i)).seen) m)
    {word : String} (proper : word ≠ "?" ∧ word ≠ "off") {to s : UDPAddr} (heard : P.hears n to = true)
    (enters : KeepsEntering P (fun i => (does (T + i)).seen) m word)
    (works : BeaconsWork P (fun i => at_ (T + i)) (fun i => (does (T + i)).seen) m word to s) :
    ∀ i, ∃ j, i ≤ j ∧ LeavesFor P (fun i => at_ (T + i)) (fun i => (does (T + i)).seen) n s j := by
  obtain ⟨at', run', q⟩ := calm_for_ever run
  have waits : ∀ i p t, crowdWaits (fun i => (does (T + i)).seen.calm (at_ (T + i + 1))) m i p t =
      crowdWaits (fun i => (does (T + i)).seen) m i p t := by
    intro i p t
    induction t with
    | zero => rfl
    | succ t ih => simp only [crowdWaits, ih, calm_place]
  have sends := crowd_sends_from run' (m := m) (n := n) T (fun i => (((q (T + i)).node m).files (runs i)).1)
    (fun i hh => by
      obtain ⟨j, hj, e⟩ := holders i fun j hj => by
        show ((at_ (T + j)).node m).holder ≠ none
        rw [← ((q (T + j)).node m).user.holder.symm]; exact hh j hj
      simp only at e
      exact ⟨j, hj, by simp only [e]; rfl⟩)
    (fun i p x hx hh => by
      obtain ⟨t, ht⟩ := locks i p x (by
          show ((at_ (T + i)).node m).queue[p]? = some x
          rw [((q (T + i)).node m).user.queue]; exact hx) fun j hj => by
        obtain ⟨k, hk, h⟩ := hh j hj
        refine ⟨k, hk, fun hn => ?_⟩
        show ((at_ (T + k)).node m).holder = none
        rw [((q (T + k)).node m).user.holder]; exact h hn
      exact ⟨t, by rw [waits]; exact ht⟩)
    proper heard
    (fun i => by
      obtain ⟨j, line, hj, e, g⟩ := enters i
      simp only at e
      exact ⟨j, line, hj, by simp only [e]; rfl, g⟩)
    (to := to) (s := s)
    (fun j k o source x hd hx ha => by
      have hd := calm_users hd (by simp)
      obtain ⟨v1, v2, v3, v4, v5⟩ := works j k o source x hd (by
        show ((at_ (T + j)).node m).queue[k]? = some x
        rw [((q (T + j)).node m).user.queue]; exact hx) ha
      have this := ((q (T + j)).node m).user.commands.1
      simp only at v1 v2 v4
      rw [this] at v1 v2 v4
      exact ⟨v1, v2, v3, v4, v5⟩)
  intro i
  obtain ⟨j, hj, m', d, e, air, r⟩ := sends i
  refine ⟨j, hj, m', d, calm_users e (by simp), ?_, r⟩
  have air : (at' (T + j + 1)).air = (at' (T + j)).air ++ [d] := air
  show (at_ (T + j + 1)).air = (at_ (T + j)).air ++ [d]
  rw [← (q (T + j + 1)).air, ← (q (T + j)).air]; exact air

/-- A beacon that arrives at a program that goes on makes its sender listed for good, and for a moment truly. -/
theorem open_arrival {P : Plant N} (hT : ∀ n, (P.machine n).S.T = shipped) {fs : N → FS} {c : N → Cliflags}
    {at_ : Nat → Crowd N} {does : Nat → OpenEvent N} (run : OpenForever P fs c at_ does)
    (fit : NearbyFits fun e => ∃ i, (does i).seen = e) {n : N} (hm : 146 ≤ (P.machine n).S.mtu)
    (running : ∀ i, ¬ ((at_ i).node n).prog.Ended) (select : SelectFairAt at_ (fun i => (does i).seen) n) {i k : Nat} {fam : Fam}
    {clock : GoTime} {d : Packet N} (h1 : (does i).seen = .arrives n k fam clock) (h2 : (at_ i).air[k]? = some d) :
    ∃ j, i < j ∧ (∀ l, j ≤ l → (P.machine n).S.ipText d.source.ip ∈ ((at_ l).node n).prog.net.peers.map Peer.addr) ∧
      ∃ p ∈ ((at_ j).node n).prog.net.peers, p.addr = (P.machine n).S.ipText d.source.ip ∧ d ∈ (at_ j).air ∧
        (ValidGlobal shipped d.settings.global → d.Tells p) := by
  obtain ⟨j, y, x, hj, hy, y1, y2, b1⟩ := open_heard hT run running select h1 h2
    (open_sized hT run fit (List.mem_of_getElem? h2) hm)
  have hy' : y ∈ ((at_ (j + 1)).node n).prog.net.handled := by rw [hy]; simp
  have addr : Sighting.addr (P.machine n).S.ipText ⟨y.source, x, y.clock⟩ = (P.machine n).S.ipText d.source.ip := by
    unfold Sighting.addr; rw [y2]
  have stays : ∀ l, j + 1 ≤ l → (P.machine n).S.ipText d.source.ip ∈ ((at_ l).node n).prog.net.peers.map Peer.addr := by
    intro l hl
    rw [(C66_entries (P.machine n).S (by rw [hT]; exact shipped_peerTables) (by rw [hT]; exact shipped_shows) _ _
      (open_reaches (run.leads l) n)).1, firstSeen_mem]
    exact List.mem_map.2 ⟨_, sighted (open_handled_grows run running hl hy') y1, addr⟩
  refine ⟨j + 1, by omega, stays, ?_⟩
  have air : ∀ t, d ∈ (at_ (i + t)).air := by
    intro t
    induction t with
    | zero => exact List.mem_of_getElem? h2
    | succ t ih => exact open_air (run.goes (i + t)) d ih
  have hd : d ∈ (at_ (j + 1)).air := by
    have := air (j + 1 - i)
    rwa [show i + (j + 1 - i) = j + 1 by omega] at this
  obtain ⟨e1, _, e3⟩ := C66_entries (P.machine n).S (by rw [hT]; exact shipped_peerTables) (by rw [hT]; exact shipped_shows) _ _
    (open_reaches (run.leads (j + 1)) n)
  have hs : sightings ((at_ (j + 1)).node n).prog.net.handled =
      sightings ((at_ j).node n).prog.net.handled ++ [⟨y.source, x, y.clock⟩] := by
    rw [hy, sightings_append, sightings_one y1]
  obtain ⟨p, hp, ha⟩ := List.mem_map.1 (stays (j + 1) (Nat.le_refl _))
  obtain ⟨first, rest, f1, f2, _⟩ := e3 p hp
  have last : (first :: rest).getLast (by simp) = ⟨y.source, x, y.clock⟩ := by
    apply Option.some.inj
    rw [← List.getLast?_eq_some_getLast, ← f1, hs, List.filter_append]
    have : ([⟨y.source, x, y.clock⟩] : List Sighting).filter (fun s => s.addr (P.machine n).S.ipText = p.addr) =
        [⟨y.source, x, y.clock⟩] := by
      rw [List.filter_cons_of_pos (by simp [addr, ha])]; rfl
    rw [this, List.getLast?_append]
    rfl
  rw [last, hT] at f2
  exact ⟨p, hp, ha, hd, fun ok => shows_tells ok b1 f2⟩

/-! ## The runs of an execution for ever -/

/-- The states of the network of the runs. -/
def wildMirrored (P : Plant N) (v : Crowd (N × Nat)) (does : Nat → OpenEvent (N × Nat)) : Nat → Crowd (N × Nat)
  | 0 => v
  | i + 1 => ((wildMirrored P v does i).openStep P.runs (does i)).getD (wildMirrored P v does i)

/-- **C183, for ever.** The same for executions without end, with any number of restarts and of datagrams of strangers. -/
theorem C183_runs_for_ever (P : Plant N) (fs : N → FS) (c : N → Cliflags) (at_ : Nat → Crowd N) (does : Nat → WildEvent N)
    (run : WildForever P fs c at_ does) : ∃ c' v,
      OpenForever P.runs (fun x => fs x.1) c' v (fun i => (does i).ofRun (restartsBy (fun i => (does i).plain) i)) ∧
      (∀ n, c' (n, 0) = c n) ∧
      ∀ i, (∀ n, (v i).node (n, restartsBy (fun i => (does i).plain) i n) = (at_ i).node n) ∧
        (v i).air.map Packet.home = (at_ i).air := by
  let pl : Nat → RestartEvent N := fun i => (does i).plain
  have isRestart : ∀ {i n c0 f}, does i = .goes (.restart n c0 f) → pl i = .restart n c0 f := by
    intro i n c0 f h
    show (does i).plain = _
    rw [h]; rfl
  have choice : ∃ c' : N × Nat → Cliflags, (∀ n, c' (n, 0) = c n) ∧
      ∀ i n c0 f, does i = .goes (.restart n c0 f) → c' (n, restartsBy pl i n + 1) = c0 := by
    have : ∀ x : N × Nat, ∃ c0, (x.2 = 0 → c0 = c x.1) ∧
        ∀ i c1 f, does i = .goes (.restart x.1 c1 f) → restartsBy pl i x.1 + 1 = x.2 → c0 = c1 := by
      rintro ⟨n, j⟩
      by_cases h : ∃ i c1 f, does i = .goes (.restart n c1 f) ∧ restartsBy pl i n + 1 = j
      · obtain ⟨i, c1, f, h1, h2⟩ := h
        refine ⟨c1, fun e => by simp only at e; omega, fun i' c' f' h1' h2' => ?_⟩
        have := restartsBy_once (isRestart h1) (isRestart h1') (by simp only at h2'; omega)
        subst this
        rw [h1] at h1'
        injection h1' with h1'
        injection h1'
      · exact ⟨c n, fun _ => rfl, fun i c1 f h1 h2 => absurd ⟨i, c1, f, h1, h2⟩ h⟩
    refine ⟨fun x => Classical.choose (this x), fun n => (Classical.choose_spec (this (n, 0))).1 rfl, fun i n c0 f h => ?_⟩
    exact (Classical.choose_spec (this (n, restartsBy pl i n + 1))).2 i c0 f h rfl
  obtain ⟨c', z, hc⟩ := choice
  let v := wildMirrored P (Crowd.init (fun x => fs x.1) c') (fun i => (does i).ofRun (restartsBy pl i))
  have step : ∀ i, Mirrors fs c' (restartsBy pl i) (at_ i) (v i) →
      (v i).openStep P.runs ((does i).ofRun (restartsBy pl i)) = some (v (i + 1)) ∧
      Mirrors fs c' (restartsBy pl (i + 1)) (at_ (i + 1)) (v (i + 1)) := by
    intro i h
    obtain ⟨v1, s1, s2⟩ := wild_mirrors_step h (run.goes i) (fun n c0 f e => hc i n c0 f e)
    have : v (i + 1) = v1 := by
      show ((v i).openStep P.runs _).getD _ = v1
      rw [s1]; rfl
    rw [this]
    exact ⟨s1, s2⟩
  have all : ∀ i, Mirrors fs c' (restartsBy pl i) (at_ i) (v i) := by
    intro i
    induction i with
    | zero =>
      rw [run.start, show c = fun n => c' (n, 0) from funext fun n => (z n).symm]
      exact mirrors_start fs c'
    | succ i ih => exact (step i ih).2
  exact ⟨c', v, ⟨rfl, fun i => (step i (all i)).1⟩, z, fun i => ⟨(all i).node, (all i).air⟩⟩

omit [DecidableEq N] in
theorem wild_seen (e : WildEvent N) (k : N → Nat) : (e.ofRun k).seen = e.plain.ofRun k := by
  cases e <;> rfl

/-- An arrival again and again at a run that is not ended any more. -/
theorem wild_arrivals {P : Plant N} (hT : ∀ n, (P.machine n).S.T = shipped) {fs : N → FS} {c : N → Cliflags}
    {at_ : Nat → Crowd N} {does : Nat → WildEvent N} (run : WildForever P fs c at_ does)
    (fit : NearbyFits fun e => ∃ i, (does i).seen = e) {m n : N} (hm : 146 ≤ (P.machine n).S.mtu) {T : Nat}
    (stay : ∀ i c f, does (T + i) ≠ .goes (.restart m c f) ∧ does (T + i) ≠ .goes (.restart n c f))
    (runs : ∀ i, ¬ ((at_ (T + i)).node m).prog.Ended) (running : ∀ i, ¬ ((at_ (T + i)).node n).prog.Ended)
    (holders : HolderFairAt (fun i => at_ (T + i)) (fun i => (does (T + i)).seen) m)
    (locks : LockFairAt (fun i => at_ (T + i)) (fun i => (does (T + i)).seen) m)
    (select : SelectFairAt (fun i => at_ (T + i)) (fun i => (does (T + i)).seen) n)
    {word : String} (proper : word ≠ "?" ∧ word ≠ "off") {to s : UDPAddr} (heard : P.hears n to = true)
    (enters : KeepsEntering P (fun i => (does (T + i)).seen) m word)
    (works : BeaconsWork P (fun i => at_ (T + i)) (fun i => (does (T + i)).seen) m word to s)
    (network : LosesSomeAt P (fun i => at_ (T + i)) (fun i => (does (T + i)).seen) n s) (i0 : Nat) :
    ∃ j, T + i0 ≤ j ∧ (∀ l, j ≤ l → (P.machine n).S.ipText s.ip ∈ ((at_ l).node n).prog.net.peers.map Peer.addr) ∧
      ∃ p ∈ ((at_ j).node n).prog.net.peers, p.addr = (P.machine n).S.ipText s.ip ∧
        ∃ d ∈ (at_ j).air, d.source = s ∧ (ValidGlobal shipped d.settings.global → d.Tells p) := by
  let pl : Nat → RestartEvent N := fun i => (does i).plain
  obtain ⟨c', v, go, -, same⟩ := C183_runs_for_ever P fs c at_ does run
  have same : SameRuns pl at_ v := same
  have plain : ∀ {i x c f}, pl (T + i) = .restart x c f → does (T + i) = .goes (.restart x c f) := by
    intro i x c f h
    have h : (does (T + i)).plain = _ := h
    cases hd : does (T + i) with
    | stranger y d => rw [hd] at h; cases h
    | goes e => rw [hd] at h; exact congrArg _ h
  have sm : ∀ i c f, pl (T + i) ≠ .restart m c f := fun i c f h => (stay i c f).1 (plain h)
  have sn : ∀ i c f, pl (T + i) ≠ .restart n c f := fun i c f h => (stay i c f).2 (plain h)
  have seen : (fun i => ((does i).ofRun (restartsBy pl i)).seen) = fun i => ofRunsAt pl i := by
    funext i; exact wild_seen _ _
  have seenT : (fun i => ((does (T + i)).ofRun (restartsBy pl (T + i))).seen) = fun i => ofRunsAt pl (T + i) := by
    funext i; exact wild_seen _ _
  have sends := open_sends_from go (m := (m, restartsBy pl T m)) (n := (n, restartsBy pl T n)) T
    (fun i => by rw [same_node same sm]; exact runs i) (by rw [seenT]; exact runs_holders same sm holders)
    (by rw [seenT]; exact runs_locks same sm locks) proper (to := to) (s := s) heard
    (by rw [seenT]; exact runs_enters sm enters) (by rw [seenT]; exact runs_works same sm works)
  rw [seenT] at sends
  obtain ⟨i, hi, k, fam, clock, d, h1, h2, h3⟩ := runs_network same sn network sends i0
  have fit' : NearbyFits fun e => ∃ i, ((does i).ofRun (restartsBy pl i)).seen = e := by
    intro x k o source h
    obtain ⟨i, hi⟩ := h
    exact runs_fit (does := pl) fit x k o source ⟨i, by rw [← congrFun seen i]; exact hi⟩
  obtain ⟨j, hj, g1, p, g2, g3, g4, g5⟩ := open_arrival (P := P.runs) (fun x => hT x.1) go fit' (n := (n, restartsBy pl T n)) hm
    (open_running_before go (T := T) (fun i => by rw [same_node same sn]; exact running i))
    (selects_from (T := T) (by rw [seenT]; exact runs_select same sn select)) (i := T + i) (k := k) (fam := fam) (clock := clock)
    (d := d) (by rw [← h1]; exact wild_seen _ _) h2
  have here : ∀ l, T ≤ l → (v l).node (n, restartsBy pl T n) = (at_ l).node n := by
    intro l hl
    obtain ⟨t, rfl⟩ : ∃ t, l = T + t := ⟨l - T, by omega⟩
    exact same_node same sn t
  rw [h3] at g1 g3
  refine ⟨j, by omega, fun l hl => ?_, p, ?_, g3, d.home, ?_, h3, fun ok => ?_⟩
  · have := g1 l hl
    rwa [here l (by omega)] at this
  · rwa [here j (by omega)] at g2
  · rw [← (same j).2]; exact List.mem_map.2 ⟨d, g4, rfl⟩
  · obtain ⟨a, b, c, d, e⟩ := g5 ok
    exact ⟨a, b, c, d, e⟩

/-- **C183, found again.** If from some time on two programs are not ended and not started again, and at the one `beacon word`
is entered again and again, with a word that means an address heard at the other, then the other lists the sender in the
end and for good; although all it had learnt before its last start is forgotten, however often the other programs are
ended and started again, and whatever strangers send to anybody. -/
theorem C183_found (P : Plant N) (hT : ∀ n, (P.machine n).S.T = shipped) (fs : N → FS) (c : N → Cliflags)
    (at_ : Nat → Crowd N) (does : Nat → WildEvent N) (run : WildForever P fs c at_ does)
    (fit : NearbyFits fun e => ∃ i, (does i).seen = e) (m n : N) (hm : 146 ≤ (P.machine n).S.mtu) (T : Nat)
    (stay : ∀ i c f, does (T + i) ≠ .goes (.restart m c f) ∧ does (T + i) ≠ .goes (.restart n c f))
    (runs : ∀ i, ¬ ((at_ (T + i)).node m).prog.Ended) (running : ∀ i, ¬ ((at_ (T + i)).node n).prog.Ended)
    (holders : HolderFairAt (fun i => at_ (T + i)) (fun i => (does (T + i)).seen) m)
    (locks : LockFairAt (fun i => at_ (T + i)) (fun i => (does (T + i)).seen) m)
    (select : SelectFairAt (fun i => at_ (T + i)) (fun i => (does (T + i)).seen) n)
    (word : String) (proper : word ≠ "?" ∧ word ≠ "off") (to s : UDPAddr) (heard : P.hears n to = true)
    (enters : KeepsEntering P (fun i => (does (T + i)).seen) m word)
    (works : BeaconsWork P (fun i => at_ (T + i)) (fun i => (does (T + i)).seen) m word to s)
    (network : LosesSomeAt P (fun i => at_ (T + i)) (fun i => (does (T + i)).seen) n s) :
    ∃ j, ∀ l, j ≤ l → (P.machine n).S.ipText s.ip ∈ ((at_ l).node n).prog.net.peers.map Peer.addr := by
  obtain ⟨j, _, h, _⟩ := wild_arrivals hT run fit hm stay runs running holders locks select proper heard enters works network 0
  exact ⟨j, h⟩

/-- **C183, true again and again.** Under the same conditions the entry of the sender shows, again and again, what a program
of the network that sends from that address had when it sent, even if strangers send beacons under the same address in
between. -/
theorem C183_true_again (P : Plant N) (hT : ∀ n, (P.machine n).S.T = shipped) (fs : N → FS) (c : N → Cliflags)
    (at_ : Nat → Crowd N) (does : Nat → WildEvent N) (run : WildForever P fs c at_ does)
    (fit : NearbyFits fun e => ∃ i, (does i).seen = e) (m n : N) (hm : 146 ≤ (P.machine n).S.mtu) (T : Nat)
    (stay : ∀ i c f, does (T + i) ≠ .goes (.restart m c f) ∧ does (T + i) ≠ .goes (.restart n c f))
    (runs : ∀ i, ¬ ((at_ (T + i)).node m).prog.Ended) (running : ∀ i, ¬ ((at_ (T + i)).node n).prog.Ended)
    (holders : HolderFairAt (fun i => at_ (T + i)) (fun i => (does (T + i)).seen) m)
    (locks : LockFairAt (fun i => at_ (T + i)) (fun i => (does (T + i)).seen) m)
    (select : SelectFairAt (fun i => at_ (T + i)) (fun i => (does (T + i)).seen) n)
    (word : String) (proper : word ≠ "?" ∧ word ≠ "off") (to s : UDPAddr) (heard : P.hears n to = true)
    (enters : KeepsEntering P (fun i => (does (T + i)).seen) m word)
    (works : BeaconsWork P (fun i => at_ (T + i)) (fun i => (does (T + i)).seen) m word to s)
    (network : LosesSomeAt P (fun i => at_ (T + i)) (fun i => (does (T + i)).seen) n s) :
    ∀ i, ∃ l, i ≤ l ∧ ∃ p ∈ ((at_ l).node n).prog.net.peers, p.addr = (P.machine n).S.ipText s.ip ∧
      ∃ d ∈ (at_ l).air, d.source = s ∧ (ValidGlobal shipped d.settings.global → d.Tells p) := by
  intro i
  obtain ⟨j, hj, _, h⟩ := wild_arrivals hT run fit hm stay runs running holders locks select proper heard enters works network i
  exact ⟨j, by omega, h⟩

/-! ## Such executions exist -/

/-- A stranger ends the program of machine 2, it is started again, and then machine 1 sends beacons to it for ever. -/
theorem ended_and_found : ∃ at_ does, WildForever examplePlant (fun _ => exampleFS) (fun _ => shippedSettings) at_ does ∧
    (∀ n, (examplePlant.machine n).S.T = shipped) ∧ NearbyFits (fun e => ∃ i, (does i).seen = e) ∧
    146 ≤ (examplePlant.machine 2).S.mtu ∧ does 0 = .stranger 2 strangersVersion ∧ ((at_ 1).node 2).prog.Ended ∧
    (∃ c f, does 1 = .goes (.restart 2 c f)) ∧
    (∀ i c f, does (2 + i) ≠ .goes (.restart 1 c f) ∧ does (2 + i) ≠ .goes (.restart 2 c f)) ∧
    (∀ i, ¬ ((at_ (2 + i)).node 1).prog.Ended) ∧ (∀ i, ¬ ((at_ (2 + i)).node 2).prog.Ended) ∧
    HolderFairAt (fun i => at_ (2 + i)) (fun i => (does (2 + i)).seen) 1 ∧
    LockFairAt (fun i => at_ (2 + i)) (fun i => (does (2 + i)).seen) 1 ∧
    SelectFairAt (fun i => at_ (2 + i)) (fun i => (does (2 + i)).seen) 2 ∧ ("1.1.1.2" ≠ "?" ∧ "1.1.1.2" ≠ "off") ∧
    examplePlant.hears 2 ⟨[1#8, 1#8, 1#8, 2#8], 7542, ""⟩ = true ∧
    KeepsEntering examplePlant (fun i => (does (2 + i)).seen) 1 "1.1.1.2" ∧
    BeaconsWork examplePlant (fun i => at_ (2 + i)) (fun i => (does (2 + i)).seen) 1 "1.1.1.2" ⟨[1#8, 1#8, 1#8, 2#8], 7542, ""⟩
      ⟨[1#8, 1#8, 1#8, 1#8], 5000, ""⟩ ∧
    LosesSomeAt examplePlant (fun i => at_ (2 + i)) (fun i => (does (2 + i)).seen) 2 ⟨[1#8, 1#8, 1#8, 1#8], 5000, ""⟩ := by
  obtain ⟨at_, does, ⟨run, h1, h2, h3, h4, h5, h6, h7, h8, h9, h10, h11, h12, h13⟩, -⟩ := beacons_for_ever
  let w0 : Crowd Nat := Crowd.init (fun _ => exampleFS) (fun _ => shippedSettings)
  obtain ⟨w1, s1, s2, s3, s4⟩ := C180_ended_by (P := examplePlant) w0 2 rfl strangersVersion (fun h => by cases h) rfl (by
    rw [← C42_returns_iff_partial ⟨0, 0⟩]
    have : (match listenFrame shipped ⟨0, 0⟩ (examplePlant.machine 2).S.mtu strangersVersion.bytes with
      | .ret _ => false | _ => true) = true := by decide +kernel
    intro h
    split at this
    · cases this
    · rename_i no
      cases hl : listenFrame shipped ⟨0, 0⟩ (examplePlant.machine 2).S.mtu strangersVersion.bytes with
      | ret r => exact no r hl
      | fatal => rw [hl] at h; exact h
      | panic => rw [hl] at h; exact h)
  have conns : w1.conns = w0.conns := by
    have s1' : ((w0.node 2).step (examplePlant.machine 2) (.net (.recv strangersVersion))).map (w0.set 2) = some w1 := s1
    obtain ⟨b, _, e⟩ := Option.map_eq_some_iff.1 s1'
    rw [← e]; rfl
  let at' : Nat → Crowd Nat := fun i => match i with
    | 0 => w0
    | 1 => w1
    | i + 2 => at_ i
  let does' : Nat → WildEvent Nat := fun i => match i with
    | 0 => .stranger 2 strangersVersion
    | 1 => .goes (.restart 2 shippedSettings exampleFS)
    | i + 2 => .goes (.goes (does i))
  have e1 : (fun i => at' (2 + i)) = at_ := by funext i; rw [Nat.add_comm]
  have e2 : (fun i => (does' (2 + i)).seen) = does := by funext i; rw [Nat.add_comm]; rfl
  have e3 : ∀ i, at' (2 + i) = at_ i := fun i => congrFun e1 i
  have e4 : ∀ i, does' (2 + i) = .goes (.goes (does i)) := fun i => by rw [Nat.add_comm]
  refine ⟨at', does', ⟨rfl, fun i => ?_⟩, h1, ?_, h3, rfl, s2, ⟨_, _, rfl⟩, fun i c f => ?_, fun i => by rw [e3]; exact h4 i,
    fun i => by rw [e3]; exact h5 i, ?_, ?_, ?_, h9, h10, ?_, ?_, ?_⟩
  · match i with
    | 0 => exact s1
    | 1 =>
      show some (w1.restart 2 shippedSettings exampleFS) = some (at_ 0)
      rw [run.start]
      congr 1
      show Crowd.mk _ _ _ = Crowd.mk _ _ _
      congr 1
      · funext m
        show (if m = 2 then _ else w1.node m) = _
        split
        · rfl
        · rename_i hm; exact s4 m hm
      · funext m
        show (if m = 2 then _ else w1.conns m) = _
        rw [conns]
        split <;> rfl
    | i + 2 => exact run.goes i
  · intro n k o source h
    obtain ⟨i, hi⟩ := h
    match i with
    | 0 => cases hi
    | 1 => cases hi
    | i + 2 => exact h2 n k o source ⟨i, hi⟩
  · rw [e4]; exact ⟨fun h => (by cases h), fun h => (by cases h)⟩
  all_goals (rw [e2]; try rw [e1]); assumption

end Saratoga
