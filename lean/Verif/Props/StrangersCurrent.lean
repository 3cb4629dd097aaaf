import Verif.Props.StrangersRest
import Verif.Props.Current
/-! # What a peer table shows in the end, with strangers that do not send under the address of the sender -/
namespace Saratoga

variable {N : Type} [DecidableEq N]

theorem open_air_keeps {P : Plant N} {w w' : Crowd N} {e : OpenEvent N} (h : w.openStep P e = some w') {k : Nat} {d : Packet N}
    (hd : w.air[k]? = some d) : w'.air[k]? = some d := by
  cases e with
  | goes e => exact crowd_air_keeps h hd
  | stranger m x =>
    obtain ⟨b, _, rfl⟩ := Option.map_eq_some_iff.1 h
    exact hd

/-- The datagram at this place of the air, if it was not there at time `i`, left later. -/
theorem open_left {P : Plant N} {fs : N → FS} {c : N → Cliflags} {at_ : Nat → Crowd N} {does : Nat → OpenEvent N}
    (run : OpenForever P fs c at_ does) {i : Nat} (t : Nat) {k : Nat} {d : Packet N} (hk : (at_ i).air.length ≤ k)
    (hd : (at_ (i + t)).air[k]? = some d) : ∃ j, i ≤ j ∧ j < i + t ∧ Leaves at_ (fun i => (does i).seen) d j := by
  obtain ⟨at', run', q⟩ := calm_for_ever run
  obtain ⟨j, h1, h2, h3⟩ := crowd_left run' (i := i) t (by rw [(q i).air]; exact hk) (by rw [(q (i + t)).air]; exact hd)
  refine ⟨j, h1, h2, calm_users h3.acts (by simp), ?_, ?_⟩
  · rw [← (q (j + 1)).air, ← (q j).air]; exact h3.air
  · rw [h3.settings]
    exact ((q j).node d.sender).user.commands.1.symm

/-- The frame comes from another address, or it is in a datagram that left at time `i` or later and is meant for `n`. -/
def LateFrom (P : Plant N) (at_ : Nat → Crowd N) (n : N) (s : UDPAddr) (i j : Nat) (f : Frame) (src : UDPAddr) : Prop :=
  (P.machine n).S.ipText src.ip ≠ (P.machine n).S.ipText s.ip ∨ Late P at_ n i j f src

theorem LateFrom.keeps {P : Plant N} {fs : N → FS} {c : N → Cliflags} {at_ : Nat → Crowd N} {does : Nat → OpenEvent N}
    (run : OpenForever P fs c at_ does) {n : N} {s : UDPAddr} {i j : Nat} {f : Frame} {src : UDPAddr}
    (h : LateFrom P at_ n s i j f src) : LateFrom P at_ n s i (j + 1) f src := by
  rcases h with h | ⟨k, d, h1, h2, h3⟩
  · exact .inl h
  · exact .inr ⟨k, d, h1, open_air_keeps (run.goes j) h2, h3⟩

/-- Once no early datagram arrives and no stranger sends under this address, what a listener held out early is gone when it is
taken. -/
theorem open_late_step {P : Plant N} {fs : N → FS} {c : N → Cliflags} {at_ : Nat → Crowd N} {does : Nat → OpenEvent N}
    (run : OpenForever P fs c at_ does) {n : N} (running : ∀ i, ¬ ((at_ i).node n).prog.Ended) {s : UDPAddr} {i l : Nat}
    (late : ∀ k fam clock, (does l).seen = .arrives n k fam clock → (at_ i).air.length ≤ k)
    (foreign : ∀ d, does l = .stranger n d → (P.machine n).S.ipText d.source.ip ≠ (P.machine n).S.ipText s.ip) {fam : Fam}
    (before : (∃ a, (does l).seen = .inside n a ∧ a.Takes fam) ∨
      ∀ f src, ((at_ l).node n).prog.net.listener fam = .sendRx f src → LateFrom P at_ n s i l f src) :
    ∀ f src, ((at_ (l + 1)).node n).prog.net.listener fam = .sendRx f src → LateFrom P at_ n s i (l + 1) f src := by
  intro f src hf
  have hs := run.goes l
  cases hd : does l with
  | stranger m x =>
    rw [hd] at hs before
    have b : ∀ f src, ((at_ l).node n).prog.net.listener fam = .sendRx f src → LateFrom P at_ n s i l f src := by
      rcases before with ⟨a, e, t⟩ | b
      · cases e
        rcases t with ⟨_, t⟩ | t | t <;> cases t
      · exact b
    have hs : (((at_ l).node m).step (P.machine m) (.net (.recv x))).map ((at_ l).set m) = some (at_ (l + 1)) := hs
    obtain ⟨y, h1, h2⟩ := Option.map_eq_some_iff.1 hs
    by_cases hm : n = m
    · subst hm
      rw [← h2, crowd_set_self] at hf
      rcases sendRx_from (busy_net_step h1).2.2 hf with ⟨h3, _⟩ | ⟨r, e, h3, _⟩
      · exact (b f src h3).keeps run
      · cases e
        exact .inl (by rw [← h3]; exact foreign x hd)
    · rw [← h2, crowd_set_other _ _ hm] at hf
      exact (b f src hf).keeps run
  | goes e =>
    rw [hd] at hs before late
    have hs : (at_ l).step P e = some (at_ (l + 1)) := hs
    by_cases ins : ∃ a, e = .inside n a
    · obtain ⟨a, he⟩ := ins
      subst he
      obtain ⟨ha, st⟩ := crowd_inside hs
      rcases sendRx_from st hf with ⟨h1, no⟩ | ⟨d, e, _⟩
      · rcases before with ⟨a', e, t⟩ | b
        · cases e; exact absurd t no
        · exact (b f src h1).keeps run
      · exact absurd e (ha d)
    · rcases before with ⟨a, e, _⟩ | b
      · exact absurd ⟨a, e⟩ ins
      rcases crowd_net hs n (open_honest (run.leads l) n) (running _) with ⟨e, _⟩ | ⟨k, g, clock, d, he, hk, hh, st⟩ | ⟨a, he, _⟩
      · exact (b f src (by rw [← e]; exact hf)).keeps run
      · rcases sendRx_from st hf with ⟨h1, _⟩ | ⟨r, e, h1, h2⟩
        · exact (b f src h1).keeps run
        · cases e
          exact .inr ⟨k, d, late k g clock he, crowd_air_keeps hs hk, hh, h1, (C42_delivers _ _ _ _ _ h2).2.2⟩
      · exact absurd ⟨a, he⟩ ins

/-- From some time on the listeners hold out only frames of other addresses and of datagrams that left at time `i` or later. -/
theorem open_late {P : Plant N} (hT : ∀ n, (P.machine n).S.T = shipped) {fs : N → FS} {c : N → Cliflags}
    {at_ : Nat → Crowd N} {does : Nat → OpenEvent N} (run : OpenForever P fs c at_ does) {n : N}
    (running : ∀ i, ¬ ((at_ i).node n).prog.Ended) (fair : SelectFairAt at_ (fun i => (does i).seen) n)
    (passes : Passes (fun i => (does i).seen) n) {s : UDPAddr} {U : Nat}
    (foreign : ∀ j d, U ≤ j → does j = .stranger n d → (P.machine n).S.ipText d.source.ip ≠ (P.machine n).S.ipText s.ip) (i : Nat) :
    ∃ j, ∀ l, j ≤ l → ∀ fam f src, ((at_ l).node n).prog.net.listener fam = .sendRx f src → LateFrom P at_ n s i l f src := by
  have selects : ∀ i, ((at_ i).node n).prog.net.main = .select := fun i => open_selects hT (run.leads i) n (running i)
  obtain ⟨i0, late⟩ := passes_all passes (at_ i).air.length
  let i1 := i0 + U
  have step := fun l (hl : i1 ≤ l) (fam : Fam) => open_late_step run running (s := s) (i := i) (l := l) (fam := fam)
    (late l (show i0 ≤ l by have : i0 + U ≤ l := hl; omega))
    (fun d => foreign l d (show U ≤ l by have : i0 + U ≤ l := hl; omega))
  have each : ∀ fam, ∃ j, i1 ≤ j ∧ ∀ f src, ((at_ j).node n).prog.net.listener fam = .sendRx f src →
      LateFrom P at_ n s i j f src := by
    intro fam
    by_cases offers : ((at_ i1).node n).prog.net.Offers fam
    · obtain ⟨j, a, hj, he, t, _⟩ := open_offer_taken run running fair selects offers
      exact ⟨j + 1, by omega, step j hj fam (.inl ⟨a, he, t⟩)⟩
    · exact ⟨i1, Nat.le_refl _, fun f src h => absurd ⟨by rw [h]; simp, by rw [h]; simp⟩ offers⟩
  have stays : ∀ fam j, i1 ≤ j → (∀ f src, ((at_ j).node n).prog.net.listener fam = .sendRx f src →
        LateFrom P at_ n s i j f src) →
      ∀ t f src, ((at_ (j + t)).node n).prog.net.listener fam = .sendRx f src → LateFrom P at_ n s i (j + t) f src := by
    intro fam j hj h t
    induction t with
    | zero => exact h
    | succ t ih => exact step (j + t) (by omega) fam (.inr ih)
  obtain ⟨j4, h4, g4⟩ := each .v4
  obtain ⟨j6, h6, g6⟩ := each .v6
  refine ⟨j4 + j6, fun l hl fam => ?_⟩
  cases fam with
  | v4 =>
    have := stays .v4 j4 h4 g4 (l - j4)
    rwa [show j4 + (l - j4) = l by omega] at this
  | v6 =>
    have := stays .v6 j6 h6 g6 (l - j6)
    rwa [show j6 + (l - j6) = l by omega] at this

/-- From some time on only frames of other addresses and of datagrams that left at time `i` or later are handled. -/
theorem open_handled_late {P : Plant N} (hT : ∀ n, (P.machine n).S.T = shipped) {fs : N → FS} {c : N → Cliflags}
    {at_ : Nat → Crowd N} {does : Nat → OpenEvent N} (run : OpenForever P fs c at_ does) {n : N}
    (running : ∀ i, ¬ ((at_ i).node n).prog.Ended) (fair : SelectFairAt at_ (fun i => (does i).seen) n)
    (passes : Passes (fun i => (does i).seen) n) {s : UDPAddr} {U : Nat}
    (foreign : ∀ j d, U ≤ j → does j = .stranger n d → (P.machine n).S.ipText d.source.ip ≠ (P.machine n).S.ipText s.ip) (i : Nat) :
    ∃ j0, ∀ j, j0 ≤ j → ∀ t, ∃ new, ((at_ (j + t)).node n).prog.net.handled = ((at_ j).node n).prog.net.handled ++ new ∧
      ∀ y ∈ new, LateFrom P at_ n s i (j + t) y.frame y.source := by
  obtain ⟨j0, late⟩ := open_late hT run running fair passes foreign i
  refine ⟨j0, fun j hj t => ?_⟩
  induction t with
  | zero => exact ⟨[], by simp, fun y hy => by cases hy⟩
  | succ t ih =>
    obtain ⟨new, h1, h2⟩ := ih
    have keeps : ∀ y ∈ new, LateFrom P at_ n s i (j + (t + 1)) y.frame y.source := fun y hy => (h2 y hy).keeps run
    have same : ((at_ (j + (t + 1))).node n).prog.net.handled = ((at_ (j + t)).node n).prog.net.handled →
        ∃ new, ((at_ (j + (t + 1))).node n).prog.net.handled = ((at_ j).node n).prog.net.handled ++ new ∧
          ∀ y ∈ new, LateFrom P at_ n s i (j + (t + 1)) y.frame y.source := fun e => ⟨new, by rw [e, h1], keeps⟩
    rcases open_moves (run.goes (j + t)) n (open_honest (run.leads _) n) (running _) with e | ⟨a, st, _⟩
    · exact same (congrArg World.handled e)
    · have look := late (j + t) (by omega)
      rcases step_cases st with ⟨d, rfl, _, hl, e⟩ | ⟨g, rfl, _, hl, e⟩ | ⟨g, clock, f', addr, rfl, _, hl, e⟩ |
        ⟨g, s, addr, rfl, _, hl, e⟩ | ⟨g, rfl, _, hl, e⟩ | ⟨rfl, _, e⟩ | ⟨rfl, _, e⟩ | ⟨f', rfl, _, e⟩
      · refine same (by
          show ((at_ (j + t + 1)).node n).prog.net.handled = _
          rw [e]
          rcases onRecv_cases (P.machine n).S ((at_ (j + t)).node n).prog.net d with ⟨_, e⟩ | ⟨_, e⟩ | ⟨f', hr, e⟩ | ⟨s, _, e⟩ <;>
            rw [e] <;> rfl)
      · exact same (by show ((at_ (j + t + 1)).node n).prog.net.handled = _; rw [e]; rfl)
      · refine ⟨new ++ [⟨g, f', addr, clock⟩], ?_, fun y hy => ?_⟩
        · show ((at_ (j + t + 1)).node n).prog.net.handled = _
          rw [e, (onRx_logs _ _ _ _ _ _).2.2.1, h1, List.append_assoc]
        · rcases List.mem_append.1 hy with hy | hy
          · exact keeps y hy
          · rw [List.mem_singleton.1 hy]
            exact (look g f' addr hl).keeps run
      · exact same (by show ((at_ (j + t + 1)).node n).prog.net.handled = _; rw [e]; exact (onTx_logs _ _ _ _ _).2.2.1)
      · exact same (by show ((at_ (j + t + 1)).node n).prog.net.handled = _; rw [e]; rfl)
      all_goals exact same (by show ((at_ (j + t + 1)).node n).prog.net.handled = _; rw [e])

theorem open_fresh {P : Plant N} (hT : ∀ n, (P.machine n).S.T = shipped) {fs : N → FS} {c : N → Cliflags}
    {at_ : Nat → Crowd N} {does : Nat → OpenEvent N} (run : OpenForever P fs c at_ does)
    (fit : NearbyFits fun e => ∃ i, (does i).seen = e) {n : N} (hm : 146 ≤ (P.machine n).S.mtu)
    (running : ∀ i, ¬ ((at_ i).node n).prog.Ended) (select : SelectFairAt at_ (fun i => (does i).seen) n) {s : UDPAddr}
    (sends : ∀ i, ∃ j, i ≤ j ∧ LeavesFor P at_ (fun i => (does i).seen) n s j)
    (network : LosesSomeAt P at_ (fun i => (does i).seen) n s) (passes : Passes (fun i => (does i).seen) n) {U : Nat}
    (foreign : ∀ j d, U ≤ j → does j = .stranger n d → (P.machine n).S.ipText d.source.ip ≠ (P.machine n).S.ipText s.ip)
    (since : Nat) :
    ∃ j, ∀ l, j ≤ l → (∃ p ∈ ((at_ l).node n).prog.net.peers, p.addr = (P.machine n).S.ipText s.ip) ∧
      ∀ p ∈ ((at_ l).node n).prog.net.peers, p.addr = (P.machine n).S.ipText s.ip →
        ∃ d t, since ≤ t ∧ t < l ∧ Leaves at_ (fun i => (does i).seen) d t ∧ P.hears n d.dest = true ∧
          (P.machine n).S.ipText d.source.ip = (P.machine n).S.ipText s.ip ∧
          (ValidGlobal shipped d.settings.global → d.Tells p) := by
  obtain ⟨i1, news⟩ := open_handled_late hT run running select passes foreign since
  obtain ⟨i, hi, k, fam, clock, d, h1, h2, h3⟩ := network sends (i1 + since)
  obtain ⟨j, y, x, hj, hy, y1, y2, _⟩ := open_heard hT run running select h1 h2
    (open_sized hT run fit (List.mem_of_getElem? h2) hm)
  refine ⟨j + 1, fun l hl => ?_⟩
  obtain ⟨e1, _, e3⟩ := C66_entries (P.machine n).S (by rw [hT]; exact shipped_peerTables) (by rw [hT]; exact shipped_shows) _ _
    (open_reaches (run.leads l) n)
  obtain ⟨new, n1, n2⟩ := news (j + 1) (by omega) (l - (j + 1))
  obtain ⟨new', g1, g2⟩ := news j (by omega) (l - j)
  rw [show j + 1 + (l - (j + 1)) = l by omega] at n1
  rw [show j + (l - j) = l by omega] at g1 g2
  have hnew : new' = y :: new := by
    rw [n1, hy, List.append_assoc] at g1
    exact (List.append_cancel_left g1).symm
  have hs : sightings ((at_ l).node n).prog.net.handled =
      sightings ((at_ j).node n).prog.net.handled ++ sightings new' := by rw [g1, sightings_append]
  have seen : ⟨y.source, x, y.clock⟩ ∈ sightings new' := sighted (by rw [hnew]; exact List.mem_cons_self) y1
  have addr : Sighting.addr (P.machine n).S.ipText ⟨y.source, x, y.clock⟩ = (P.machine n).S.ipText s.ip := by
    unfold Sighting.addr; rw [y2, h3]
  refine ⟨?_, fun p hp ha => ?_⟩
  · have : (P.machine n).S.ipText s.ip ∈ ((at_ l).node n).prog.net.peers.map Peer.addr := by
      rw [e1, firstSeen_mem, hs]
      exact List.mem_map.2 ⟨_, List.mem_append_right _ seen, addr⟩
    exact List.mem_map.1 this
  · obtain ⟨first, rest, f1, f2, _⟩ := e3 p hp
    have last : (first :: rest).getLast (by simp) ∈ (sightings new').filter
        (fun s => s.addr (P.machine n).S.ipText = p.addr) := by
      have hne : (sightings new').filter (fun s => s.addr (P.machine n).S.ipText = p.addr) ≠ [] := by
        apply List.ne_nil_of_mem (a := ⟨y.source, x, y.clock⟩)
        rw [List.mem_filter]
        exact ⟨seen, by simp [addr, ha]⟩
      have : (first :: rest).getLast (by simp) = ((sightings new').filter
          (fun s => s.addr (P.machine n).S.ipText = p.addr)).getLast hne := by
        apply Option.some.inj
        rw [← List.getLast?_eq_some_getLast, ← List.getLast?_eq_some_getLast, ← f1, hs, List.filter_append,
          List.getLast?_append, List.getLast?_eq_some_getLast hne]
        rfl
      rw [this]
      exact List.getLast_mem hne
    rw [List.mem_filter] at last
    obtain ⟨z, hz, z1, z2⟩ := sightings_mem last.1
    have at_s : (P.machine n).S.ipText z.source.ip = (P.machine n).S.ipText s.ip := by
      have : Sighting.addr (P.machine n).S.ipText ((first :: rest).getLast (by simp)) = p.addr := of_decide_eq_true last.2
      rw [z2, ← ha, ← this]
      rfl
    rcases g2 z hz with other | ⟨k', d', k1, k2, k3, k4, k5⟩
    · exact absurd at_s other
    obtain ⟨t, t1, t2, t3⟩ := open_left run (i := since) (l - since) k1 (by rw [show since + (l - since) = l by omega]; exact k2)
    refine ⟨d', t, t1, by omega, t3, k3, by rw [k4]; exact at_s, fun ok => ?_⟩
    obtain ⟨b, b1, b2⟩ := open_built hT (run.leads l) (List.mem_of_getElem? k2)
    obtain ⟨s1, s2, s3⟩ := built_says b1 b2
    have says : Says shipped d'.bytes (.beacon b) := ⟨s3, s1⟩
    rw [hT] at k5
    have := k5.unique says
    rw [z1] at this
    have hx : ((first :: rest).getLast (by simp)).beacon = b := by simpa using this
    rw [hT] at f2
    exact shows_tells ok b1 (hx ▸ f2)

end Saratoga
