import Verif.Props.RestartForever
/-!
# C179: programs that are started again show themselves as they are now

In a network in which programs are ended and started again with other configurations, in the end the peer tables show the
settings of the programs that run now.
-/
namespace Saratoga

variable {N : Type} [DecidableEq N]

theorem passes_from {does : Nat → CrowdEvent N} {n : N} {T : Nat} (passes : Passes (fun i => does (T + i)) n) : Passes does n := by
  intro k
  obtain ⟨i, h⟩ := passes k
  refine ⟨T + i, fun j hj fam clock e => h (j - T) (by omega) fam clock ?_⟩
  simp only
  rw [show T + (j - T) = j by omega]
  exact e

theorem network_from {P : Plant N} {at_ : Nat → Crowd N} {does : Nat → CrowdEvent N} {n : N} {s : UDPAddr} {T : Nat}
    (network : LosesSomeAt P (fun i => at_ (T + i)) (fun i => does (T + i)) n s) : LosesSomeAt P at_ does n s := by
  intro sends i
  obtain ⟨j, hj, r⟩ := network (fun i => by
    obtain ⟨j, hj, r⟩ := sends (T + i)
    obtain ⟨j, rfl⟩ : ∃ j', j = T + j' := ⟨j - T, by omega⟩
    exact ⟨j, by omega, r⟩) i
  exact ⟨T + j, by omega, r⟩

theorem runs_passes {does : Nat → RestartEvent N} {n : N} {T : Nat} (stay : ∀ i c f, does (T + i) ≠ .restart n c f)
    (passes : Passes (fun i => (does (T + i)).seen) n) :
    Passes (fun i => ofRunsAt does (T + i)) (n, restartsBy does T n) := by
  intro k
  obtain ⟨i, h⟩ := passes k
  refine ⟨i, fun j hj fam clock e => h j hj fam clock ?_⟩
  simp only [ofRunsAt] at e ⊢
  cases he : does (T + j) with
  | restart n' c f => rw [he] at e; cases e
  | goes e' =>
    rw [he] at e
    cases e' with
    | arrives y k' fam' clock' =>
      have e : CrowdEvent.arrives (y, _) k' fam' clock' = .arrives (n, _) k fam clock := e
      injection e with h1 h2 h3 h4
      cases (show y = n from congrArg Prod.fst h1)
      subst h2 h3 h4
      rfl
    | _ => cases e

theorem runs_leaves {does : Nat → RestartEvent N} {at_ : Nat → Crowd N} {v : Nat → Crowd (N × Nat)} (same : SameRuns does at_ v)
    {d : Packet (N × Nat)} {t : Nat} (h : Leaves v (ofRunsAt does) d t) : Leaves at_ (fun i => (does i).seen) d.home t := by
  obtain ⟨e, x⟩ := runs_acts h.acts
  refine ⟨e, ?_, ?_⟩
  · rw [← (same _).2, ← (same _).2, h.air, List.map_append]; rfl
  · show d.settings = ((at_ t).node d.sender.1).prog.settings
    rw [h.settings, x, (same t).1]

/-- **C179, nothing old for ever.** In a network in which programs are ended and started again: if from some time on two of
them are not, and at the one `beacon word` is entered again and again, with a word that means an address heard at the other,
then the other lists the sender in the end and for good, and, whatever the time `since`, from some time on the entry shows a
beacon that left later than that: in particular, one of the run that goes on and none of an earlier run. Datagrams, also those
of earlier runs, may be lost, doubled, reordered and delayed, as long as some arrive and none is on its way for ever. -/
theorem C179_fresh (P : Plant N) (hT : ∀ n, (P.machine n).S.T = shipped) (fs : N → FS) (c : N → Cliflags)
    (at_ : Nat → Crowd N) (does : Nat → RestartEvent N) (run : RestartForever P fs c at_ does)
    (fit : NearbyFits fun e => ∃ i, (does i).seen = e) (m n : N) (hm : 146 ≤ (P.machine n).S.mtu) (T : Nat)
    (stay : ∀ i c f, does (T + i) ≠ .restart m c f ∧ does (T + i) ≠ .restart n c f)
    (runs : ∀ i, ¬ ((at_ (T + i)).node m).prog.Ended) (running : ∀ i, ¬ ((at_ (T + i)).node n).prog.Ended)
    (holders : HolderFairAt (fun i => at_ (T + i)) (fun i => (does (T + i)).seen) m)
    (locks : LockFairAt (fun i => at_ (T + i)) (fun i => (does (T + i)).seen) m)
    (select : SelectFairAt (fun i => at_ (T + i)) (fun i => (does (T + i)).seen) n)
    (word : String) (proper : word ≠ "?" ∧ word ≠ "off") (to s : UDPAddr) (heard : P.hears n to = true)
    (enters : KeepsEntering P (fun i => (does (T + i)).seen) m word)
    (works : BeaconsWork P (fun i => at_ (T + i)) (fun i => (does (T + i)).seen) m word to s)
    (network : LosesSomeAt P (fun i => at_ (T + i)) (fun i => (does (T + i)).seen) n s)
    (passes : Passes (fun i => (does (T + i)).seen) n) (since : Nat) :
    ∃ j, ∀ l, j ≤ l → (∃ p ∈ ((at_ l).node n).prog.net.peers, p.addr = (P.machine n).S.ipText s.ip) ∧
      ∀ p ∈ ((at_ l).node n).prog.net.peers, p.addr = (P.machine n).S.ipText s.ip →
        ∃ d t, since ≤ t ∧ t < l ∧ Leaves at_ (fun i => (does i).seen) d t ∧ P.hears n d.dest = true ∧
          (P.machine n).S.ipText d.source.ip = (P.machine n).S.ipText s.ip ∧
          (ValidGlobal shipped d.settings.global → d.Tells p) := by
  obtain ⟨c', v, go, -, same⟩ := C178_runs_for_ever P fs c at_ does run
  have same : SameRuns does at_ v := same
  have sm : ∀ i c f, does (T + i) ≠ .restart m c f := fun i c f => (stay i c f).1
  have sn : ∀ i c f, does (T + i) ≠ .restart n c f := fun i c f => (stay i c f).2
  have go : CrowdForever P.runs (fun x => fs x.1) c' v (ofRunsAt does) := go
  have sends := crowd_sends_from go (m := (m, restartsBy does T m)) (n := (n, restartsBy does T n)) T
    (fun i => by rw [same_node same sm]; exact runs i) (runs_holders same sm holders) (runs_locks same sm locks) proper
    (to := to) (s := s) heard (runs_enters sm enters) (runs_works same sm works)
  obtain ⟨j, h⟩ := crowd_fresh (P := P.runs) (fun x => hT x.1) go (runs_fit fit) (n := (n, restartsBy does T n)) hm
    (crowd_running_before go (T := T) fun i => by rw [same_node same sn]; exact running i)
    (selects_from (runs_select same sn select)) (s := s) (fun i => by
      obtain ⟨j, hj, r⟩ := sends i
      exact ⟨T + j, by omega, r⟩)
    (network_from (runs_network same sn network)) (passes_from (runs_passes sn passes)) since
  refine ⟨T + j, fun l hl => ?_⟩
  have := h l (by omega)
  obtain ⟨i, rfl⟩ : ∃ i, l = T + i := ⟨l - T, by omega⟩
  rw [same_node same sn] at this
  refine ⟨this.1, fun p hp ha => ?_⟩
  obtain ⟨d, t, t1, t2, t3, t4, t5, t6⟩ := this.2 p hp ha
  refine ⟨d.home, t, t1, t2, runs_leaves same t3, t4, t5, fun ok => ?_⟩
  have := t6 ok
  exact ⟨this.eid, this.descriptor, this.rxwilling, this.txwilling, this.freespace⟩

/-- **C179, current.** If moreover the settings of the sender stay as they are from some time on, are legal, and nobody else
sends from its address, then in the end and for good the entry shows these settings, whatever it was configured with in its
earlier runs, and the free space if the beacons that leave tell the same. -/
theorem C179_current (P : Plant N) (hT : ∀ n, (P.machine n).S.T = shipped) (fs : N → FS) (c : N → Cliflags)
    (at_ : Nat → Crowd N) (does : Nat → RestartEvent N) (run : RestartForever P fs c at_ does)
    (fit : NearbyFits fun e => ∃ i, (does i).seen = e) (m n : N) (hm : 146 ≤ (P.machine n).S.mtu) (T : Nat)
    (stay : ∀ i c f, does (T + i) ≠ .restart m c f ∧ does (T + i) ≠ .restart n c f)
    (runs : ∀ i, ¬ ((at_ (T + i)).node m).prog.Ended) (running : ∀ i, ¬ ((at_ (T + i)).node n).prog.Ended)
    (holders : HolderFairAt (fun i => at_ (T + i)) (fun i => (does (T + i)).seen) m)
    (locks : LockFairAt (fun i => at_ (T + i)) (fun i => (does (T + i)).seen) m)
    (select : SelectFairAt (fun i => at_ (T + i)) (fun i => (does (T + i)).seen) n)
    (word : String) (proper : word ≠ "?" ∧ word ≠ "off") (to s : UDPAddr) (heard : P.hears n to = true)
    (enters : KeepsEntering P (fun i => (does (T + i)).seen) m word)
    (works : BeaconsWork P (fun i => at_ (T + i)) (fun i => (does (T + i)).seen) m word to s)
    (network : LosesSomeAt P (fun i => at_ (T + i)) (fun i => (does (T + i)).seen) n s)
    (passes : Passes (fun i => (does (T + i)).seen) n) (since : Nat) (gl : List (String × String))
    (settled : ∀ i, since ≤ i → ((at_ i).node m).prog.settings.global = gl) (legal : ValidGlobal shipped gl)
    (own : ∀ d t, since ≤ t → Leaves at_ (fun i => (does i).seen) d t → P.hears n d.dest = true →
      (P.machine n).S.ipText d.source.ip = (P.machine n).S.ipText s.ip → d.sender = m) :
    ∃ j, ∀ l, j ≤ l → ∃ p ∈ ((at_ l).node n).prog.net.peers, p.addr = (P.machine n).S.ipText s.ip ∧
      assoc "descriptor" gl = some p.maxdesc ∧ assoc "rxwilling" gl = some p.canrx ∧ assoc "txwilling" gl = some p.cantx ∧
      ∀ free, (∀ d t, since ≤ t → Leaves at_ (fun i => (does i).seen) d t → d.sender = m → toldFree gl d.outside.disk = free) →
        p.freespace = free := by
  obtain ⟨j, h⟩ := C179_fresh P hT fs c at_ does run fit m n hm T stay runs running holders locks select word proper to s heard
    enters works network passes since
  refine ⟨j, fun l hl => ?_⟩
  obtain ⟨⟨p, hp, ha⟩, all⟩ := h l hl
  obtain ⟨d, t, t1, _, t3, t4, t5, t6⟩ := all p hp ha
  have hd := own d t t1 t3 t4 t5
  have hg : d.settings.global = gl := by rw [t3.settings, hd]; exact settled t t1
  have tells := t6 (by rw [hg]; exact legal)
  exact ⟨p, hp, ha, hg ▸ tells.descriptor, hg ▸ tells.rxwilling, hg ▸ tells.txwilling, fun free same => by
    rw [tells.freespace, hg]; exact same d t t1 t3 hd⟩

/-! ## Such executions exist -/

/-- The settings of an earlier configuration. -/
def earlierSettings : Cliflags := { shippedSettings with global := ("descriptor", "d32") :: shippedSettings.global }

/-- The program of machine 1 is started again with another configuration, and then it sends beacons to machine 2 for ever. -/
example : ∃ at_ does, RestartForever examplePlant (fun _ => exampleFS)
      (fun n => if n = 1 then earlierSettings else shippedSettings) at_ does ∧
    (∀ n, (examplePlant.machine n).S.T = shipped) ∧ NearbyFits (fun e => ∃ i, (does i).seen = e) ∧
    146 ≤ (examplePlant.machine 2).S.mtu ∧ ((at_ 0).node 1).prog.settings.global ≠ shippedSettings.global ∧
    (∀ i c f, does (1 + i) ≠ .restart 1 c f ∧ does (1 + i) ≠ .restart 2 c f) ∧
    (∀ i, ¬ ((at_ (1 + i)).node 1).prog.Ended) ∧ (∀ i, ¬ ((at_ (1 + i)).node 2).prog.Ended) ∧
    HolderFairAt (fun i => at_ (1 + i)) (fun i => (does (1 + i)).seen) 1 ∧
    LockFairAt (fun i => at_ (1 + i)) (fun i => (does (1 + i)).seen) 1 ∧
    SelectFairAt (fun i => at_ (1 + i)) (fun i => (does (1 + i)).seen) 2 ∧ ("1.1.1.2" ≠ "?" ∧ "1.1.1.2" ≠ "off") ∧
    examplePlant.hears 2 ⟨[1#8, 1#8, 1#8, 2#8], 7542, ""⟩ = true ∧
    KeepsEntering examplePlant (fun i => (does (1 + i)).seen) 1 "1.1.1.2" ∧
    BeaconsWork examplePlant (fun i => at_ (1 + i)) (fun i => (does (1 + i)).seen) 1 "1.1.1.2" ⟨[1#8, 1#8, 1#8, 2#8], 7542, ""⟩
      ⟨[1#8, 1#8, 1#8, 1#8], 5000, ""⟩ ∧
    LosesSomeAt examplePlant (fun i => at_ (1 + i)) (fun i => (does (1 + i)).seen) 2 ⟨[1#8, 1#8, 1#8, 1#8], 5000, ""⟩ ∧
    Passes (fun i => (does (1 + i)).seen) 2 ∧
    (∀ i, 1 ≤ i → ((at_ i).node 1).prog.settings.global = shippedSettings.global) ∧
    ValidGlobal shipped shippedSettings.global ∧
    ∀ d t, 1 ≤ t → Leaves at_ (fun i => (does i).seen) d t → d.sender = 1 := by
  obtain ⟨at_, does, ⟨run, h1, h2, h3, h4, h5, h6, h7, h8, h9, h10, h11, h12, h13⟩, settings, alone, soon⟩ := beacons_for_ever
  let at' : Nat → Crowd Nat := fun i => match i with
    | 0 => Crowd.init (fun _ => exampleFS) (fun n => if n = 1 then earlierSettings else shippedSettings)
    | i + 1 => at_ i
  let does' : Nat → RestartEvent Nat := fun i => match i with
    | 0 => .restart 1 shippedSettings exampleFS
    | i + 1 => .goes (does i)
  have e1 : (fun i => at' (1 + i)) = at_ := by funext i; rw [Nat.add_comm]
  have e2 : (fun i => (does' (1 + i)).seen) = does := by funext i; rw [Nat.add_comm]; rfl
  have e3 : ∀ i, at' (1 + i) = at_ i := fun i => congrFun e1 i
  have e4 : ∀ i, does' (1 + i) = .goes (does i) := fun i => by rw [Nat.add_comm]
  have h14 : Passes does 2 := fun k => by
    obtain ⟨i, h⟩ := crowd_air_unbounded run (crowd_sends run h4 h6 h7 h9 h10 h11 h12) (k + 4)
    refine ⟨i, fun j hj fam clock e => ?_⟩
    have := soon j 2 k fam clock e
    have := h j hj
    omega
  refine ⟨at', does', ⟨rfl, fun i => ?_⟩, h1, ?_, h3, (by decide +kernel : earlierSettings.global ≠ shippedSettings.global),
    fun i c f => ?_, fun i => by rw [e3]; exact h4 i, fun i => by rw [e3]; exact h5 i, ?_, ?_, ?_, h9, h10, ?_, ?_, ?_, ?_,
    fun i hi => ?_, C14_shipped_defaults, fun d t ht l => ?_⟩
  · cases i with
    | zero =>
      show some (Crowd.restart _ 1 shippedSettings exampleFS) = some (at_ 0)
      rw [run.start]
      congr 1
      show Crowd.mk _ _ _ = Crowd.mk _ _ _
      congr 1
      · funext m
        show (if m = 1 then Busy.init exampleFS shippedSettings else Busy.init exampleFS (if m = 1 then _ else _)) = _
        by_cases h : m = 1
        · rw [if_pos h]
        · rw [if_neg h, if_neg h]
      · funext m; show (if m = 1 then _ else _) = _; split <;> rfl
    | succ i => exact run.goes i
  · intro n k o source h
    obtain ⟨i, hi⟩ := h
    cases i with
    | zero => cases hi
    | succ i => exact h2 n k o source ⟨i, hi⟩
  · rw [e4]; exact ⟨fun h => (by cases h), fun h => (by cases h)⟩
  iterate 7 (first | (rw [e1, e2]; assumption) | (rw [e2]; assumption))
  · obtain ⟨i, rfl⟩ : ∃ i', i = 1 + i' := ⟨i - 1, by omega⟩
    rw [e3, settings]
  · obtain ⟨t, rfl⟩ : ∃ t', t = 1 + t' := ⟨t - 1, by omega⟩
    have := l.acts
    simp only [e4] at this
    exact alone t _ this

/-- A beacon of machine 1 arrives at machine 2, and then machine 1 is started again with an earlier configuration. -/
def beaconThenRestart : List (RestartEvent (Fin 3)) :=
  [.goes (.typed 1 "saratoga[0]:beacon 1.1.1.2"),
    .goes (.begin 1 0 towardsTwo (fun _ => ⟨[1#8, 1#8, 1#8, 1#8], 5000, ""⟩))] ++ List.replicate 9 (.goes (.act 1)) ++
  [.goes (.arrives 2 0 .v4 ⟨0, 0⟩), .goes (.inside 2 (.takeRx .v4 ⟨0, 0⟩)), .restart 1 earlierSettings exampleFS]

/-- **C179** A restart alone tells nobody: until a beacon of the new run arrives the entry shows what the program was
configured with before. -/
theorem C179_until_then : ∃ w, RestartLeads smallPlant (fun _ => exampleFS) (fun _ => shippedSettings) beaconThenRestart w ∧
    (w.node 2).prog.net.peers.map Peer.maxdesc = ["d64"] ∧
    assoc "descriptor" (w.node 1).prog.settings.global = some "d32" := by
  have key : ((Crowd.init (fun _ => exampleFS) (fun _ => shippedSettings)).runAgain smallPlant beaconThenRestart).map (fun w =>
      ((w.node 2).prog.net.peers.map Peer.maxdesc, assoc "descriptor" (w.node 1).prog.settings.global)) =
      some (["d64"], some "d32") := by decide +kernel
  obtain ⟨w, h, e⟩ := Option.map_eq_some_iff.1 key
  simp only [Prod.mk.injEq] at e
  exact ⟨w, h, e.1, e.2⟩

end Saratoga
