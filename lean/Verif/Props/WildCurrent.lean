import Verif.Props.StrangersCurrent
import Verif.Props.RestartCurrent
import Verif.Props.WildRest
/-! # C185: strangers cannot keep a peer table wrong for ever unless they go on sending under the sender's address -/
namespace Saratoga

variable {N : Type} [DecidableEq N]

/-- **C185, nothing old for ever.** On a network on which strangers send whatever they like and programs are ended and started
again: if from some time on two programs are not, and at the one `beacon word` is entered again and again, with a word that
means an address heard at the other, and strangers from then on do not send to the other under that address, then the other
lists the sender in the end and for good, and, whatever the time `since`, from some time on the entry shows a beacon that left
a program of the network later than that: none of an earlier run and nothing a stranger has ever said. -/
theorem C185_fresh (P : Plant N) (hT : ∀ n, (P.machine n).S.T = shipped) (fs : N → FS) (c : N → Cliflags)
    (at_ : Nat → Crowd N) (does : Nat → WildEvent N) (run : WildForever P fs c at_ does)
    (fit : NearbyFits fun e => ∃ i, (does i).seen = e) (m n : N) (hm : 146 ≤ (P.machine n).S.mtu) (T : Nat)
    (stay : ∀ i c f, does (T + i) ≠ .goes (.restart m c f) ∧ does (T + i) ≠ .goes (.restart n c f))
    (runs : ∀ i, ¬ ((at_ (T + i)).node m).prog.Ended) (running : ∀ i, ¬ ((at_ (T + i)).node n).prog.Ended)
    (holders : HolderFairAt (fun i => at_ (T + i)) (fun i => (does (T + i)).seen) m)
    (locks : LockFairAt (fun i => at_ (T + i)) (fun i => (does (T + i)).seen) m)
    (select : SelectFairAt (fun i => at_ (T + i)) (fun i => (does (T + i)).seen) n)
    (word : String) (proper : word ≠ "?" ∧ word ≠ "off") (to s : UDPAddr) (heard : P.hears n to = true)
    (enters : KeepsEntering P (fun i => (does (T + i)).seen) m word)
    (works : BeaconsWork P (fun i => at_ (T + i)) (fun i => (does (T + i)).seen) m word to s)
    (network : LosesSomeAt P (fun i => at_ (T + i)) (fun i => (does (T + i)).seen) n s)
    (passes : Passes (fun i => (does (T + i)).seen) n)
    (foreign : ∀ i d, does (T + i) = .stranger n d → (P.machine n).S.ipText d.source.ip ≠ (P.machine n).S.ipText s.ip)
    (since : Nat) :
    ∃ j, ∀ l, j ≤ l → (∃ p ∈ ((at_ l).node n).prog.net.peers, p.addr = (P.machine n).S.ipText s.ip) ∧
      ∀ p ∈ ((at_ l).node n).prog.net.peers, p.addr = (P.machine n).S.ipText s.ip →
        ∃ d t, since ≤ t ∧ t < l ∧ Leaves at_ (fun i => (does i).seen) d t ∧ P.hears n d.dest = true ∧
          (P.machine n).S.ipText d.source.ip = (P.machine n).S.ipText s.ip ∧
          (ValidGlobal shipped d.settings.global → d.Tells p) := by
  let pl : Nat → RestartEvent N := fun i => (does i).plain
  obtain ⟨c', v, go, -, same⟩ := C183_runs_for_ever P fs c at_ does run
  have same : SameRuns pl at_ v := same
  have plain : ∀ {i x c f}, pl (T + i) = .restart x c f → does (T + i) = .goes (.restart x c f) := by
    intro i x c f h
    have h : (does (T + i)).plain = _ := h
    cases hd : does (T + i) with
    | stranger y d => rw [hd] at h; cases h
    | goes e => rw [hd] at h; exact congrArg _ h
  have sm : ∀ i c f, pl (T + i) ≠ .restart m c f := fun i c f h => (stay i c f).1 (plain h)
  have sn : ∀ i c f, pl (T + i) ≠ .restart n c f := fun i c f h => (stay i c f).2 (plain h)
  have seen : (fun i => ((does i).ofRun (restartsBy pl i)).seen) = ofRunsAt pl := by
    funext i; exact wild_seen _ _
  have seenT : (fun i => ((does (T + i)).ofRun (restartsBy pl (T + i))).seen) = fun i => ofRunsAt pl (T + i) := by
    funext i; exact wild_seen _ _
  have sends := open_sends_from go (m := (m, restartsBy pl T m)) (n := (n, restartsBy pl T n)) T
    (fun i => by rw [same_node same sm]; exact runs i) (by rw [seenT]; exact runs_holders same sm holders)
    (by rw [seenT]; exact runs_locks same sm locks) proper (to := to) (s := s) heard
    (by rw [seenT]; exact runs_enters sm enters) (by rw [seenT]; exact runs_works same sm works)
  rw [seenT] at sends
  have fit' : NearbyFits fun e => ∃ i, ((does i).ofRun (restartsBy pl i)).seen = e := by
    intro x k o source h
    obtain ⟨i, hi⟩ := h
    exact runs_fit (does := pl) fit x k o source ⟨i, by rw [← congrFun seen i]; exact hi⟩
  obtain ⟨j, h⟩ := open_fresh (P := P.runs) (fun x => hT x.1) go fit' (n := (n, restartsBy pl T n)) hm
    (open_running_before go (T := T) fun i => by rw [same_node same sn]; exact running i)
    (by rw [seen]; exact selects_from (runs_select same sn select)) (s := s)
    (by
      rw [seen]
      intro i
      obtain ⟨j, hj, r⟩ := sends i
      exact ⟨T + j, by omega, r⟩)
    (by rw [seen]; exact network_from (runs_network same sn network))
    (by rw [seen]; exact passes_from (runs_passes sn passes)) (U := T)
    (fun i d hi e => by
      obtain ⟨t, rfl⟩ : ∃ t, i = T + t := ⟨i - T, by omega⟩
      cases hd : does (T + t) with
      | goes a => rw [hd] at e; cases e
      | stranger y x =>
        rw [hd] at e
        have e : OpenEvent.stranger (y, restartsBy pl (T + t) y) x = .stranger (n, _) d := e
        injection e with e1 e2
        cases (show y = n from congrArg Prod.fst e1)
        subst e2
        exact foreign t x hd)
    since
  rw [seen] at h
  refine ⟨T + j, fun l hl => ?_⟩
  have := h l (by omega)
  obtain ⟨i, rfl⟩ : ∃ i, l = T + i := ⟨l - T, by omega⟩
  rw [same_node same sn] at this
  refine ⟨this.1, fun p hp ha => ?_⟩
  obtain ⟨d, t, t1, t2, t3, t4, t5, t6⟩ := this.2 p hp ha
  refine ⟨d.home, t, t1, t2, runs_leaves same t3, t4, t5, fun ok => ?_⟩
  have := t6 ok
  exact ⟨this.eid, this.descriptor, this.rxwilling, this.txwilling, this.freespace⟩

/-- **C185, current.** If moreover the settings of the sender stay as they are from some time on, are legal, and no other
program sends from its address, then in the end and for good the entry shows these settings, whatever strangers said under
that address before, and the free space if the beacons that leave tell the same. -/
theorem C185_current (P : Plant N) (hT : ∀ n, (P.machine n).S.T = shipped) (fs : N → FS) (c : N → Cliflags)
    (at_ : Nat → Crowd N) (does : Nat → WildEvent N) (run : WildForever P fs c at_ does)
    (fit : NearbyFits fun e => ∃ i, (does i).seen = e) (m n : N) (hm : 146 ≤ (P.machine n).S.mtu) (T : Nat)
    (stay : ∀ i c f, does (T + i) ≠ .goes (.restart m c f) ∧ does (T + i) ≠ .goes (.restart n c f))
    (runs : ∀ i, ¬ ((at_ (T + i)).node m).prog.Ended) (running : ∀ i, ¬ ((at_ (T + i)).node n).prog.Ended)
    (holders : HolderFairAt (fun i => at_ (T + i)) (fun i => (does (T + i)).seen) m)
    (locks : LockFairAt (fun i => at_ (T + i)) (fun i => (does (T + i)).seen) m)
    (select : SelectFairAt (fun i => at_ (T + i)) (fun i => (does (T + i)).seen) n)
    (word : String) (proper : word ≠ "?" ∧ word ≠ "off") (to s : UDPAddr) (heard : P.hears n to = true)
    (enters : KeepsEntering P (fun i => (does (T + i)).seen) m word)
    (works : BeaconsWork P (fun i => at_ (T + i)) (fun i => (does (T + i)).seen) m word to s)
    (network : LosesSomeAt P (fun i => at_ (T + i)) (fun i => (does (T + i)).seen) n s)
    (passes : Passes (fun i => (does (T + i)).seen) n)
    (foreign : ∀ i d, does (T + i) = .stranger n d → (P.machine n).S.ipText d.source.ip ≠ (P.machine n).S.ipText s.ip)
    (since : Nat) (gl : List (String × String)) (settled : ∀ i, since ≤ i → ((at_ i).node m).prog.settings.global = gl)
    (legal : ValidGlobal shipped gl)
    (own : ∀ d t, since ≤ t → Leaves at_ (fun i => (does i).seen) d t → P.hears n d.dest = true →
      (P.machine n).S.ipText d.source.ip = (P.machine n).S.ipText s.ip → d.sender = m) :
    ∃ j, ∀ l, j ≤ l → ∃ p ∈ ((at_ l).node n).prog.net.peers, p.addr = (P.machine n).S.ipText s.ip ∧
      assoc "descriptor" gl = some p.maxdesc ∧ assoc "rxwilling" gl = some p.canrx ∧ assoc "txwilling" gl = some p.cantx ∧
      ∀ free, (∀ d t, since ≤ t → Leaves at_ (fun i => (does i).seen) d t → d.sender = m → toldFree gl d.outside.disk = free) →
        p.freespace = free := by
  obtain ⟨j, h⟩ := C185_fresh P hT fs c at_ does run fit m n hm T stay runs running holders locks select word proper to s heard
    enters works network passes foreign since
  refine ⟨j, fun l hl => ?_⟩
  obtain ⟨⟨p, hp, ha⟩, all⟩ := h l hl
  obtain ⟨d, t, t1, _, t3, t4, t5, t6⟩ := all p hp ha
  have hd := own d t t1 t3 t4 t5
  have hg : d.settings.global = gl := by rw [t3.settings, hd]; exact settled t t1
  have tells := t6 (by rw [hg]; exact legal)
  exact ⟨p, hp, ha, hg ▸ tells.descriptor, hg ▸ tells.rxwilling, hg ▸ tells.txwilling, fun free same => by
    rw [tells.freespace, hg]; exact same d t t1 t3 hd⟩

/-! ## Such executions exist -/

/-- A stranger ends the program of machine 2, it is started again, and then machine 1 sends beacons to it for ever. -/
example : ∃ at_ does, WildForever examplePlant (fun _ => exampleFS) (fun _ => shippedSettings) at_ does ∧
    (∀ n, (examplePlant.machine n).S.T = shipped) ∧ NearbyFits (fun e => ∃ i, (does i).seen = e) ∧
    146 ≤ (examplePlant.machine 2).S.mtu ∧ does 0 = .stranger 2 strangersVersion ∧ ((at_ 1).node 2).prog.Ended ∧
    (∀ i c f, does (2 + i) ≠ .goes (.restart 1 c f) ∧ does (2 + i) ≠ .goes (.restart 2 c f)) ∧
    (∀ i, ¬ ((at_ (2 + i)).node 1).prog.Ended) ∧ (∀ i, ¬ ((at_ (2 + i)).node 2).prog.Ended) ∧
    HolderFairAt (fun i => at_ (2 + i)) (fun i => (does (2 + i)).seen) 1 ∧
    LockFairAt (fun i => at_ (2 + i)) (fun i => (does (2 + i)).seen) 1 ∧
    SelectFairAt (fun i => at_ (2 + i)) (fun i => (does (2 + i)).seen) 2 ∧ ("1.1.1.2" ≠ "?" ∧ "1.1.1.2" ≠ "off") ∧
    examplePlant.hears 2 ⟨[1#8, 1#8, 1#8, 2#8], 7542, ""⟩ = true ∧
    KeepsEntering examplePlant (fun i => (does (2 + i)).seen) 1 "1.1.1.2" ∧
    BeaconsWork examplePlant (fun i => at_ (2 + i)) (fun i => (does (2 + i)).seen) 1 "1.1.1.2" ⟨[1#8, 1#8, 1#8, 2#8], 7542, ""⟩
      ⟨[1#8, 1#8, 1#8, 1#8], 5000, ""⟩ ∧
    LosesSomeAt examplePlant (fun i => at_ (2 + i)) (fun i => (does (2 + i)).seen) 2 ⟨[1#8, 1#8, 1#8, 1#8], 5000, ""⟩ ∧
    Passes (fun i => (does (2 + i)).seen) 2 ∧ (∀ i d, does (2 + i) ≠ .stranger 2 d) ∧
    (∀ i, 2 ≤ i → ((at_ i).node 1).prog.settings.global = shippedSettings.global) ∧
    ValidGlobal shipped shippedSettings.global ∧
    ∀ d t, 2 ≤ t → Leaves at_ (fun i => (does i).seen) d t → d.sender = 1 := by
  obtain ⟨at_, does, ⟨run, h1, h2, h3, h4, h5, h6, h7, h8, h9, h10, h11, h12, h13⟩, settings, alone, soon⟩ := beacons_for_ever
  let w0 : Crowd Nat := Crowd.init (fun _ => exampleFS) (fun _ => shippedSettings)
  obtain ⟨w1, s1, s2, s3, s4⟩ := C180_ended_by (P := examplePlant) w0 2 rfl strangersVersion (fun h => by cases h) rfl (by
    rw [← C42_returns_iff_partial ⟨0, 0⟩]
    have : (match listenFrame shipped ⟨0, 0⟩ (examplePlant.machine 2).S.mtu strangersVersion.bytes with
      | .ret _ => false | _ => true) = true := by decide +kernel
    intro h
    split at this
    · cases this
    · rename_i no
      cases hl : listenFrame shipped ⟨0, 0⟩ (examplePlant.machine 2).S.mtu strangersVersion.bytes with
      | ret r => exact no r hl
      | fatal => rw [hl] at h; exact h
      | panic => rw [hl] at h; exact h)
  have both : w1.conns = w0.conns ∧ w1.air = w0.air := by
    have s1' : ((w0.node 2).step (examplePlant.machine 2) (.net (.recv strangersVersion))).map (w0.set 2) = some w1 := s1
    obtain ⟨b, _, e⟩ := Option.map_eq_some_iff.1 s1'
    rw [← e]; exact ⟨rfl, rfl⟩
  let at' : Nat → Crowd Nat := fun i => match i with
    | 0 => w0
    | 1 => w1
    | i + 2 => at_ i
  let does' : Nat → WildEvent Nat := fun i => match i with
    | 0 => .stranger 2 strangersVersion
    | 1 => .goes (.restart 2 shippedSettings exampleFS)
    | i + 2 => .goes (.goes (does i))
  have e1 : (fun i => at' (2 + i)) = at_ := by funext i; rw [Nat.add_comm]
  have e2 : (fun i => (does' (2 + i)).seen) = does := by funext i; rw [Nat.add_comm]; rfl
  have e3 : ∀ i, at' (2 + i) = at_ i := fun i => congrFun e1 i
  have e4 : ∀ i, does' (2 + i) = .goes (.goes (does i)) := fun i => by rw [Nat.add_comm]
  have h14 : Passes does 2 := fun k => by
    obtain ⟨i, h⟩ := crowd_air_unbounded run (crowd_sends run h4 h6 h7 h9 h10 h11 h12) (k + 4)
    refine ⟨i, fun j hj fam clock e => ?_⟩
    have := soon j 2 k fam clock e
    have := h j hj
    omega
  refine ⟨at', does', ⟨rfl, fun i => ?_⟩, h1, ?_, h3, rfl, s2, fun i c f => ?_, fun i => by rw [e3]; exact h4 i,
    fun i => by rw [e3]; exact h5 i, ?_, ?_, ?_, h9, h10, ?_, ?_, ?_, ?_, fun i d => ?_, fun i hi => ?_, C14_shipped_defaults,
    fun d t ht l => ?_⟩
  · match i with
    | 0 => exact s1
    | 1 =>
      show some (w1.restart 2 shippedSettings exampleFS) = some (at_ 0)
      rw [run.start]
      exact congrArg some (restart_same (w0 := w0) s4 rfl both.1 rfl both.2)
    | i + 2 => exact run.goes i
  · intro n k o source h
    obtain ⟨i, hi⟩ := h
    match i with
    | 0 => cases hi
    | 1 => cases hi
    | i + 2 => exact h2 n k o source ⟨i, hi⟩
  · rw [e4]; exact ⟨fun h => (by cases h), fun h => (by cases h)⟩
  iterate 7 (first | (rw [e1, e2]; assumption) | (rw [e2]; assumption))
  · rw [e4]; exact fun h => by cases h
  · obtain ⟨i, rfl⟩ : ∃ i', i = 2 + i' := ⟨i - 2, by omega⟩
    rw [e3, settings]
  · obtain ⟨t, rfl⟩ : ∃ t', t = 2 + t' := ⟨t - 2, by omega⟩
    have := l.acts
    simp only [e4] at this
    exact alone t _ this

/-- The stranger's beacon, sent under the address of machine 1. -/
def forgedBeacon : Datagram := { strangersBeacon with source := ⟨[1#8, 1#8, 1#8, 1#8], 5000, ""⟩ }

/-- A beacon of machine 1 arrives at machine 2, and then one a stranger sends under the address of machine 1. -/
def beaconThenForged : List (WildEvent (Fin 3)) :=
  [.goes (.goes (.typed 1 "saratoga[0]:beacon 1.1.1.2")),
    .goes (.goes (.begin 1 0 towardsTwo (fun _ => ⟨[1#8, 1#8, 1#8, 1#8], 5000, ""⟩)))] ++ List.replicate 9 (.goes (.goes (.act 1))) ++
  [.goes (.goes (.arrives 2 0 .v4 ⟨0, 0⟩)), .goes (.goes (.inside 2 (.takeRx .v4 ⟨0, 0⟩))), .stranger 2 forgedBeacon,
    .goes (.goes (.inside 2 (.takeRx .v4 ⟨0, 0⟩)))]

/-- **C185** A stranger that sends under the address of a program is believed: until the next beacon of the program arrives
the entry shows what the stranger said. So it takes that strangers stop doing this. -/
theorem C185_believed : ∃ w, WildLeads smallPlant (fun _ => exampleFS) (fun _ => shippedSettings) beaconThenForged w ∧
    (w.node 2).prog.net.peers.map Peer.maxdesc = ["d16"] ∧
    assoc "descriptor" (w.node 1).prog.settings.global = some "d64" := by
  have key : ((Crowd.init (fun _ => exampleFS) (fun _ => shippedSettings)).wildRun smallPlant beaconThenForged).map (fun w =>
      ((w.node 2).prog.net.peers.map Peer.maxdesc, assoc "descriptor" (w.node 1).prog.settings.global)) =
      some (["d16"], some "d64") := by decide +kernel
  obtain ⟨w, h, e⟩ := Option.map_eq_some_iff.1 key
  simp only [Prod.mk.injEq] at e
  exact ⟨w, h, e.1, e.2⟩

end Saratoga
