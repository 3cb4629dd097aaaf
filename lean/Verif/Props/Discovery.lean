import Verif.Spec.Discovery
import Verif.Props.Forever
import Verif.Props.Network
import Verif.Props.Busy
/-! # C168: programs that keep sending beacons are found -/
namespace Saratoga

variable {N : Type} [DecidableEq N]

theorem NetForever.leads {P : Plant N} {fs : N → FS} {c : N → Cliflags} {at_ : Nat → Network N} {does : Nat → NetEvent N}
    (run : NetForever P fs c at_ does) (i : Nat) : NetLeads P fs c ((List.range i).map does) (at_ i) := by
  induction i with
  | zero => rw [run.start]; rfl
  | succ i ih =>
    rw [List.range_succ, List.map_append]
    refine netLeads_append ih ?_
    show ((at_ i).step P (does i)).bind _ = _
    rw [run.goes i]; rfl

/-- What a step of the network is for one program that goes on. -/
theorem node_moves {P : Plant N} {w w' : Network N} {e : NetEvent N} (h : w.step P e = some w') (n : N)
    (running : ¬ (w'.node n).Ended) :
    (w'.node n).net = (w.node n).net ∨
    ∃ a, (w.node n).net.step (P.machine n).S a = some (w'.node n).net ∧ ∀ fam, a.Takes fam → e = .inside n a := by
  rcases net_step_cases h with ⟨m, line, o, source, p, rfl, hp, rfl⟩ | ⟨m, k, fam, clock, d, p, rfl, _, _, hp, rfl⟩ |
    ⟨m, a, p, rfl, _, hp, rfl⟩
  · by_cases e : n = m
    · subst e
      have hn : (({ w.set n p with air := w.air ++ w.sent P n line o source } : Network N)).node n = p := set_self w n p
      rw [hn] at running ⊢
      rcases program_step_cases hp with ⟨_, _, e, _⟩ | ⟨line', o', e, hm, rfl⟩
      · cases e
      cases e
      rcases enter_cases (P.machine n) o (w.node n) line with ⟨e, _⟩ | ⟨cmd, args, _, p', hc, e⟩ | ⟨e, _⟩
      · rw [e]; exact .inl rfl
      · rw [e]
        have := (command_done hc).net
        refine .inr ⟨.files p'.net.fs, ?_, fun fam t => ?_⟩
        · simp only [World.step, if_pos hm]
          rw [← this]
        · rcases t with ⟨_, t⟩ | t | t <;> cases t
      · rw [e] at running; exact absurd rfl running
    · exact .inl (congrArg Program.net (set_other w p e))
  · by_cases e : n = m
    · subst e
      rw [set_self]
      rcases program_step_cases hp with ⟨a, v, e, _, h1, rfl⟩ | ⟨_, _, e, _⟩
      · cases e
        exact .inr ⟨_, h1, fun fam t => by rcases t with ⟨_, t⟩ | t | t <;> cases t⟩
      · cases e
    · exact .inl (congrArg Program.net (set_other w p e))
  · by_cases e : n = m
    · subst e
      rw [set_self]
      rcases program_step_cases hp with ⟨a', v, e, _, h1, rfl⟩ | ⟨_, _, e, _⟩
      · cases e
        exact .inr ⟨a, h1, fun _ _ => rfl⟩
      · cases e
    · exact .inl (congrArg Program.net (set_other w p e))

/-- What is held out at a program that goes on is taken in the end. -/
theorem net_offer_taken {P : Plant N} {fs : N → FS} {c : N → Cliflags} {at_ : Nat → Network N} {does : Nat → NetEvent N}
    (run : NetForever P fs c at_ does) {n : N} (running : ∀ i, ¬ ((at_ i).node n).Ended) (fair : SelectFair at_ does n)
    (selects : ∀ i, ((at_ i).node n).net.main = .select) {fam : Fam} {i : Nat}
    (offers : ((at_ i).node n).net.Offers fam) :
    ∃ j a, i ≤ j ∧ does j = .inside n a ∧ a.Takes fam ∧
      ((at_ j).node n).net.listener fam = ((at_ i).node n).net.listener fam := by
  apply Classical.byContradiction
  intro none
  have stays : ∀ m, ((at_ (i + m)).node n).net.listener fam = ((at_ i).node n).net.listener fam := by
    intro m
    induction m with
    | zero => rfl
    | succ m ih =>
      rw [← ih]
      rcases node_moves (run.goes (i + m)) n (running _) with e | ⟨a, h, only⟩
      · exact congrArg (fun v => v.listener fam) e
      · exact offer_stays h (by rw [ih]; exact offers.1)
          fun t => none ⟨i + m, a, by omega, only fam t, t, ih⟩
  have stays' : ∀ j, i ≤ j → ((at_ j).node n).net.listener fam = ((at_ i).node n).net.listener fam := fun j hj => by
    have := stays (j - i)
    rwa [show i + (j - i) = j by omega] at this
  obtain ⟨j, hj, a, he, t⟩ := fair fam i fun j hj =>
    ⟨selects j, by unfold World.Offers; rw [stays' j hj]; exact offers⟩
  exact none ⟨j, a, hj, he, t, stays' j hj⟩

theorem net_handled_grows {P : Plant N} {fs : N → FS} {c : N → Cliflags} {at_ : Nat → Network N} {does : Nat → NetEvent N}
    (run : NetForever P fs c at_ does) {n : N} (running : ∀ i, ¬ ((at_ i).node n).Ended) {i j : Nat} (hij : i ≤ j)
    {x : Handled} (hx : x ∈ ((at_ i).node n).net.handled) : x ∈ ((at_ j).node n).net.handled := by
  obtain ⟨m, rfl⟩ := Nat.le.dest hij
  induction m with
  | zero => exact hx
  | succ m ih =>
    have ih := ih (by omega)
    rcases node_moves (run.goes (i + m)) n (running _) with e | ⟨a, h, _⟩
    · rw [show i + (m + 1) = i + m + 1 by omega, e]; exact ih
    · exact handled_stays h ih

/-- **C168, heard is found.** In a network that runs for ever: when a datagram of a size that listeners look at arrives at a
program that goes on, the program comes to list its sender, and lists it from then on. -/
theorem C168_heard (P : Plant N) (hT : ∀ n, (P.machine n).S.T = shipped) (fs : N → FS) (c : N → Cliflags)
    (at_ : Nat → Network N) (does : Nat → NetEvent N) (run : NetForever P fs c at_ does) (n : N)
    (running : ∀ i, ¬ ((at_ i).node n).Ended) (fair : SelectFair at_ does n) (i k : Nat) (fam : Fam) (clock : GoTime)
    (d : Packet N) (arrives : does i = .arrives n k fam clock) (is : (at_ i).air[k]? = some d)
    (size : Sized (P.machine n).S.mtu d.bytes) :
    ∃ j, i ≤ j ∧ ∀ l, j ≤ l → (P.machine n).S.ipText d.source.ip ∈ ((at_ l).node n).net.peers.map Peer.addr := by
  have selects : ∀ i, ((at_ i).node n).net.main = .select := fun i =>
    (C131_only_peers hT (run.leads i) n).2.2.2.resolve_right (running i)
  have hd : d ∈ (at_ i).air := List.mem_of_getElem? is
  obtain ⟨-, x, b1, b2⟩ := air_built hT (run.leads i) hd
  obtain ⟨s1, s2, s3⟩ := built_says b1 b2
  have hl : listenFrame (P.machine n).S.T clock (P.machine n).S.mtu d.bytes = .ret (.rx (.beacon x)) := by
    rw [hT]
    rcases listenFrame_eq shipped clock (P.machine n).S.mtu d.bytes with ⟨hn, _⟩ | ⟨_, h⟩
    · exact absurd size hn
    · rw [h, s2]
      simp only [Out.ret_bind, ne_eq, not_true_eq_false, if_false]
      unfold listenTyped
      rw [s3]
      simp only [Out.ret_bind, if_true, s1]
      rfl
  have offered : ((at_ (i + 1)).node n).net.listener fam = .sendRx (.beacon x) d.source := by
    have hs := run.goes i
    generalize at_ (i + 1) = w' at hs ⊢
    rw [arrives] at hs
    rcases net_step_cases hs with ⟨_, _, _, _, _, e, _⟩ | ⟨m, k', fam', clock', d', p, e, hk, _, hp, rfl⟩ | ⟨_, _, _, e, _⟩
    · cases e
    rotate_left
    · cases e
    cases e
    rw [is] at hk
    cases hk
    rw [set_self]
    rcases program_step_cases hp with ⟨a, v, e, _, h1, rfl⟩ | ⟨_, _, e, _⟩
    rotate_left
    · cases e
    cases e
    rcases step_cases h1 with ⟨d', e, _, _, rfl⟩ | ⟨g, e, _⟩ | ⟨g, clock, f, addr, e, _⟩ |
      ⟨g, s, addr, e, _⟩ | ⟨g, e, _⟩ | ⟨e, _⟩ | ⟨e, _⟩ | ⟨f, e, _⟩ <;> cases e
    rcases onRecv_cases (P.machine n).S ((at_ i).node n).net ⟨fam, clock, d.bytes, d.source⟩ with ⟨hn, _⟩ | ⟨hf, _⟩ | ⟨f, hf, e⟩ | ⟨s, hf, _⟩
    · rw [hl] at hn; exact absurd trivial hn
    · rw [hl] at hf; cases hf
    · rw [hl] at hf
      cases hf
      rw [e]
      exact setListener_self _ _ _
    · rw [hl] at hf; cases hf
  obtain ⟨j, a, hj, hd', ht, hk⟩ := net_offer_taken run running fair selects (fam := fam) (i := i + 1)
    (by unfold World.Offers; rw [offered]; exact ⟨by simp, by simp⟩)
  rw [offered] at hk
  have handled : ∃ y ∈ ((at_ (j + 1)).node n).net.handled, y.frame = .beacon x ∧ y.source = d.source := by
    have hs := run.goes j
    generalize at_ (j + 1) = w' at hs ⊢
    rw [hd'] at hs
    rcases net_step_cases hs with ⟨_, _, _, _, _, e, _⟩ | ⟨_, _, _, _, _, _, e, _⟩ | ⟨m, a', p, e, _, hp, rfl⟩
    · cases e
    · cases e
    cases e
    rw [set_self]
    rcases program_step_cases hp with ⟨a', v, e, _, h1, rfl⟩ | ⟨_, _, e, _⟩
    rotate_left
    · cases e
    cases e
    rcases ht with ⟨clock', rfl⟩ | rfl | rfl
    · rw [World.step, selects j, hk] at h1
      simp only [Option.some.injEq] at h1
      have := (onRx_logs (P.machine n).S ((at_ j).node n).net fam clock' (.beacon x) d.source).2.2.1
      rw [h1] at this
      exact ⟨⟨fam, .beacon x, d.source, clock'⟩, by rw [this]; simp, rfl, rfl⟩
    · rw [World.step, selects j, hk] at h1; cases h1
    · rw [World.step, selects j, hk] at h1; cases h1
  obtain ⟨y, hy, y1, y2⟩ := handled
  refine ⟨j + 1, by omega, fun l hl => ?_⟩
  obtain ⟨own, h1, -, -⟩ := C131_node (run.leads l) n
  rw [(C66_entries (P.machine n).S (by rw [hT]; exact shipped_peerTables) (by rw [hT]; exact shipped_shows) _ _
    (C127_network h1)).1, firstSeen_mem]
  refine List.mem_map.2 ⟨_, sighted (net_handled_grows run running hl hy) y1, ?_⟩
  unfold Sighting.addr
  rw [y2]

/-- **C168** Whoever again and again sends beacons to an address that a program hears is listed there in the end and for
good, if the network does not lose them all, whatever else is lost, delayed, doubled or reordered, and whatever happens at
other programs. -/
theorem C168_found (P : Plant N) (hT : ∀ n, (P.machine n).S.T = shipped) (fs : N → FS) (c : N → Cliflags)
    (at_ : Nat → Network N) (does : Nat → NetEvent N) (run : NetForever P fs c at_ does) (n : N)
    (running : ∀ i, ¬ ((at_ i).node n).Ended) (fair : SelectFair at_ does n) (s : UDPAddr)
    (network : LosesSome P at_ does n s) (sends : ∀ i, ∃ j, i ≤ j ∧ SentTo P at_ does n s j)
    (size : ∀ i, ∀ d ∈ (at_ i).air, d.source = s → Sized (P.machine n).S.mtu d.bytes) :
    ∃ j, ∀ l, j ≤ l → (P.machine n).S.ipText s.ip ∈ ((at_ l).node n).net.peers.map Peer.addr := by
  obtain ⟨i, _, k, fam, clock, d, h1, h2, h3⟩ := network sends 0
  obtain ⟨j, _, h⟩ := C168_heard P hT fs c at_ does run n running fair i k fam clock d h1 h2
    (size i d (List.mem_of_getElem? h2) h3)
  exact ⟨j, by rw [← h3]; exact h⟩

/-- **C168, all of them.** So any number of programs come to know of each other: from some time on every program of the
list has listed everyone it was to hear of. -/
theorem C168_all (P : Plant N) (hT : ∀ n, (P.machine n).S.T = shipped) (fs : N → FS) (c : N → Cliflags)
    (at_ : Nat → Network N) (does : Nat → NetEvent N) (run : NetForever P fs c at_ does) (pairs : List (N × UDPAddr))
    (running : ∀ x ∈ pairs, ∀ i, ¬ ((at_ i).node x.1).Ended) (fair : ∀ x ∈ pairs, SelectFair at_ does x.1)
    (network : ∀ x ∈ pairs, LosesSome P at_ does x.1 x.2)
    (sends : ∀ x ∈ pairs, ∀ i, ∃ j, i ≤ j ∧ SentTo P at_ does x.1 x.2 j)
    (size : ∀ x ∈ pairs, ∀ i, ∀ d ∈ (at_ i).air, d.source = x.2 → Sized (P.machine x.1).S.mtu d.bytes) :
    ∃ j, ∀ l, j ≤ l → ∀ x ∈ pairs, (P.machine x.1).S.ipText x.2.ip ∈ ((at_ l).node x.1).net.peers.map Peer.addr := by
  induction pairs with
  | nil => exact ⟨0, fun _ _ x hx => by cases hx⟩
  | cons y ys ih =>
    have up : ∀ {Q : N × UDPAddr → Prop}, (∀ x ∈ y :: ys, Q x) → ∀ x ∈ ys, Q x := fun h x hx =>
      h x (List.mem_cons_of_mem _ hx)
    obtain ⟨j1, h1⟩ := ih (up running) (up fair) (up network) (up sends) (up size)
    obtain ⟨j2, h2⟩ := C168_found P hT fs c at_ does run y.1 (running y List.mem_cons_self) (fair y List.mem_cons_self) y.2
      (network y List.mem_cons_self) (sends y List.mem_cons_self) (size y List.mem_cons_self)
    refine ⟨j1 + j2, fun l hl x hx => ?_⟩
    rcases List.mem_cons.1 hx with rfl | hx
    · exact h2 l (by omega)
    · exact h1 l (by omega) x hx

/-! ## Such executions exist -/

/-- The state between two rounds of the execution below. -/
structure Round (P : Plant N) (fs : N → FS) (c : N → Cliflags) (a b : N) (w : Network N) : Prop where
  from_ : ∃ es, NetLeads P fs c es w
  settings : (w.node a).settings = c a
  sender : ¬ (w.node a).Ended
  main : (w.node b).net.main = .select
  reads : ∀ fam, (w.node b).net.listener fam = .reading
  sized : ∀ d ∈ w.air, Sized (P.machine b).S.mtu d.bytes

/-- One round: a beacon command at `a`, the first of its beacons arrives at `b` and is handled. -/
theorem one_round {P : Plant N} (hT : ∀ n, (P.machine n).S.T = shipped) {fs : N → FS} {c : N → Cliflags} {a b : N}
    (other : a ≠ b) (ok : ValidGlobal shipped (c a).global) (some_ : (c a).bcount ≠ 0) {line word : String} {o : Replies}
    {source : UDPAddr → UDPAddr}
    (entered : getLine ((P.machine a).H.map Prod.fst) cmdHandlers line = .ret (.started "beacon" ["beacon", word]))
    (proper : word ≠ "?" ∧ word ≠ "off") (works : ((P.machine a).beaconEnv o).Works) {addr : UDPAddr}
    (target : meant ((P.machine a).beaconEnv o) (c a) word = some addr) (heard : P.hears b addr = true)
    (size : ∀ frame, BuiltFor ((P.machine a).beaconEnv o) (setglobal shipped "beacon" (c a).global) (addr, frame) →
      Sized (P.machine b).S.mtu frame) (w : Network N) (h : Round P fs c a b w) :
    ∃ w1 w2 w3, w.step P (.typed a line o source) = some w1 ∧ w1.step P (.arrives b w.air.length .v4 ⟨0, 0⟩) = some w2 ∧
      w2.step P (.inside b (.takeRx .v4 ⟨0, 0⟩)) = some w3 ∧ Round P fs c a b w3 ∧
      (∃ frame, (addr, frame) ∈ (w.node a).emits (P.machine a) o line) ∧
      (∃ d, w1.air[w.air.length]? = some d ∧ d.source = source addr) ∧
      (∀ v ∈ [w1, w2], ¬ (v.node b).Ended ∧ ∀ d ∈ v.air, Sized (P.machine b).S.mtu d.bytes) := by
  obtain ⟨es, hl⟩ := h.from_
  obtain ⟨bs, ba, st⟩ := works.disk
  obtain ⟨b', acts, frame, c1, c2, -, -⟩ := C82_sends works (c := (w.node a).settings) (by rw [h.settings]; exact ok)
    (w.node a).beacon "beacon" word proper (by rw [h.settings]; exact target) st
  have built : Sized (P.machine b).S.mtu frame := by
    refine size frame ?_
    have := cmdBeacon_frames c1 (addr, frame) (by
      rw [c2, List.mem_replicate, h.settings]; exact ⟨some_, rfl⟩)
    rwa [works.tables, h.settings] at this
  have hemits : (w.node a).emits (P.machine a) o line = List.replicate (c a).bcount (addr, frame) := by
    unfold Program.emits
    simp only [entered, if_true, c1, framesOf_sends, c2]
    rw [h.settings]
  have henter : (w.node a).enter (P.machine a) o line = { w.node a with beacon := b' } := by
    rw [enter_of_started entered, command_of_beacon, c1]; rfl
  have hstep : w.step P (.typed a line o source) = some { w.set a ((w.node a).enter (P.machine a) o line) with
      air := w.air ++ w.sent P a line o source } := by
    have : (w.node a).step (P.machine a) (.typed line o) = some ((w.node a).enter (P.machine a) o line) :=
      if_neg h.sender
    simp only [Network.step, this, Option.map_some]
  generalize hw : ({ w.set a ((w.node a).enter (P.machine a) o line) with
      air := w.air ++ w.sent P a line o source } : Network N) = w1 at hstep
  have h1 : NetLeads P fs c (es ++ [.typed a line o source]) w1 :=
    netLeads_append hl (by show (w.step P _).bind _ = _; rw [hstep]; rfl)
  have hb : w1.node b = w.node b := by rw [← hw]; exact set_other _ _ (Ne.symm other)
  have ha : w1.node a = { w.node a with beacon := b' } := by rw [← hw, ← henter]; exact set_self _ _ _
  have hair : w1.air = w.air ++ List.replicate (c a).bcount
      ⟨source addr, addr, frame, a, (w.node a).settings, (P.machine a).beaconEnv o⟩ := by
    rw [← hw]
    show w.air ++ w.sent P a line o source = _
    unfold Network.sent
    rw [hemits, List.map_replicate]
  have sized1 : ∀ d ∈ w1.air, Sized (P.machine b).S.mtu d.bytes := by
    intro d hd
    rw [hair] at hd
    rcases List.mem_append.1 hd with hd | hd
    · exact h.sized d hd
    · rw [(List.mem_replicate.1 hd).2]; exact built
  have first : w1.air[w.air.length]? =
      some ⟨source addr, addr, frame, a, (w.node a).settings, (P.machine a).beaconEnv o⟩ := by
    rw [hair, List.getElem?_append_right (Nat.le_refl _), Nat.sub_self, List.getElem?_replicate]
    rw [if_pos (Nat.pos_of_ne_zero some_)]
  obtain ⟨-, x, b1, b2⟩ := air_built hT h1 (List.mem_of_getElem? first)
  obtain ⟨s1, s2, s3⟩ := built_says b1 b2
  obtain ⟨v1, v2, e1, e2, e3, -⟩ := beacon_arrives (P.machine b).S (hT b) (w1.node b).net (by rw [hb]; exact h.main) .v4
    (by rw [hb]; exact h.reads .v4) x _ built s2 s3 s1 (source addr) ⟨0, 0⟩ ⟨0, 0⟩
  have n1 : w1.step P (.arrives b w.air.length .v4 ⟨0, 0⟩) = some (w1.set b { w1.node b with net := v1 }) := by
    simp only [Network.step, first, heard, if_true, Program.step, e1, Option.map_some]
  have n2 : (w1.set b { w1.node b with net := v1 }).step P (.inside b (.takeRx .v4 ⟨0, 0⟩)) =
      some ((w1.set b { w1.node b with net := v1 }).set b { w1.node b with net := v2 }) := by
    simp only [Network.step, Program.step, set_self, e2, Option.map_some]
  have reads1 : v1.listener .v6 = .reading := by
    rcases step_cases e1 with ⟨d', e, _, _, rfl⟩ | ⟨g, e, _⟩ | ⟨g, clock, f, addr, e, _⟩ |
      ⟨g, s, addr, e, _⟩ | ⟨g, e, _⟩ | ⟨e, _⟩ | ⟨e, _⟩ | ⟨f, e, _⟩ <;> cases e
    have r6 : (w1.node b).net.listener .v6 = .reading := by rw [hb]; exact h.reads .v6
    rcases onRecv_cases (P.machine b).S (w1.node b).net ⟨.v4, ⟨0, 0⟩, frame, source addr⟩ with
      ⟨_, e⟩ | ⟨_, e⟩ | ⟨f, _, e⟩ | ⟨s, _, e⟩ <;> rw [e]
    · exact r6
    · exact r6
    · exact (setListener_other (w1.node b).net (fam := .v4) (g := .v6) (.sendRx f (source addr)) (fun e => by cases e)).trans r6
    · exact (setListener_other (w1.node b).net (fam := .v4) (g := .v6) (.sendTx s (source addr)) (fun e => by cases e)).trans r6
  have main1 : v1.main = .select := by
    rcases step_cases e2 with ⟨d', e, _⟩ | ⟨g, e, _⟩ | ⟨g, clock, f, addr, e, hm, _⟩ |
      ⟨g, s, addr, e, _⟩ | ⟨g, e, _⟩ | ⟨e, _⟩ | ⟨e, _⟩ | ⟨f, e, _⟩ <;> cases e
    exact hm
  have reads2 : ∀ fam, v2.listener fam = .reading := by
    rcases step_cases e2 with ⟨d', e, _⟩ | ⟨g, e, _⟩ | ⟨g, clock, f, addr, e, _, _, rfl⟩ |
      ⟨g, s, addr, e, _⟩ | ⟨g, e, _⟩ | ⟨e, _⟩ | ⟨e, _⟩ | ⟨f, e, _⟩ <;> cases e
    intro fam
    rw [(onRx_logs (P.machine b).S v1 .v4 ⟨0, 0⟩ f addr).1]
    cases fam with
    | v4 => exact setListener_self _ _ _
    | v6 => exact (setListener_other v1 (fam := .v4) (g := .v6) _ (fun e => by cases e)).trans reads1
  refine ⟨w1, _, _, hstep, n1, n2, ⟨⟨es ++ [.typed a line o source] ++
    [.arrives b w.air.length .v4 ⟨0, 0⟩, .inside b (.takeRx .v4 ⟨0, 0⟩)], netLeads_append h1 ?_⟩, ?_, ?_, ?_, ?_, sized1⟩,
    ⟨frame, ?_⟩, ⟨_, first, rfl⟩, ?_⟩
  · show (w1.step P _).bind _ = _
    rw [n1]
    show (Network.step P _ _).bind _ = _
    rw [n2]; rfl
  · rw [set_other _ _ other, set_other _ _ other, ha]; exact h.settings
  · rw [set_other _ _ other, set_other _ _ other, ha]; exact h.sender
  · rw [set_self]; exact e3
  · rw [set_self]; exact reads2
  · rw [hemits, List.mem_replicate]; exact ⟨some_, rfl⟩
  · intro v hv
    simp only [List.mem_cons, List.not_mem_nil, or_false] at hv
    rcases hv with rfl | rfl
    · refine ⟨?_, sized1⟩
      rw [hb]
      show ¬ (w.node b).net.main = .ended
      rw [h.main]; simp
    · refine ⟨?_, sized1⟩
      rw [set_self]
      show ¬ v1.main = .ended
      rw [main1]; simp

/-- Rounds without end. -/
theorem rounds_forever {P : Plant N} (hT : ∀ n, (P.machine n).S.T = shipped) {fs : N → FS} {c : N → Cliflags} {a b : N}
    (other : a ≠ b) (ok : ValidGlobal shipped (c a).global) (some_ : (c a).bcount ≠ 0) {line word : String} {o : Replies}
    {source : UDPAddr → UDPAddr}
    (entered : getLine ((P.machine a).H.map Prod.fst) cmdHandlers line = .ret (.started "beacon" ["beacon", word]))
    (proper : word ≠ "?" ∧ word ≠ "off") (works : ((P.machine a).beaconEnv o).Works) {addr : UDPAddr}
    (target : meant ((P.machine a).beaconEnv o) (c a) word = some addr) (heard : P.hears b addr = true)
    (size : ∀ frame, BuiltFor ((P.machine a).beaconEnv o) (setglobal shipped "beacon" (c a).global) (addr, frame) →
      Sized (P.machine b).S.mtu frame) :
    ∃ at_ does, NetForever P fs c at_ does ∧ (∀ i, ¬ ((at_ i).node b).Ended) ∧ SelectFair at_ does b ∧
      LosesSome P at_ does b (source addr) ∧ (∀ i, ∃ j, i ≤ j ∧ SentTo P at_ does b (source addr) j) ∧
      (∀ i, ∀ d ∈ (at_ i).air, d.source = source addr → Sized (P.machine b).S.mtu d.bytes) ∧
      ∀ i m line' o' source', does i = .typed m line' o' source' → o' = o := by
  have round := one_round hT (fs := fs) other ok some_ (source := source) entered proper works target heard size
  have zero : Round P fs c a b (Network.init fs c) :=
    ⟨⟨[], rfl⟩, rfl, (fun h => by cases h), rfl, (fun fam => by cases fam <;> rfl), (fun d hd => by cases hd)⟩
  let w1 := fun w : { w // Round P fs c a b w } => Classical.choose (round w.1 w.2)
  have h1 := fun w : { w // Round P fs c a b w } => Classical.choose_spec (round w.1 w.2)
  let w2 := fun w : { w // Round P fs c a b w } => Classical.choose (h1 w)
  have h2 := fun w : { w // Round P fs c a b w } => Classical.choose_spec (h1 w)
  let w3 := fun w : { w // Round P fs c a b w } => Classical.choose (h2 w)
  have h3 := fun w : { w // Round P fs c a b w } => Classical.choose_spec (h2 w)
  let next : { w // Round P fs c a b w } → { w // Round P fs c a b w } :=
    fun w => ⟨w3 w, (h3 w).2.2.2.1⟩
  let begins : Nat → { w // Round P fs c a b w } := fun k => Nat.rec ⟨_, zero⟩ (fun _ w => next w) k
  let at_ : Nat → Network N := fun i =>
    if i % 3 = 0 then (begins (i / 3)).1 else if i % 3 = 1 then w1 (begins (i / 3)) else w2 (begins (i / 3))
  let does : Nat → NetEvent N := fun i =>
    if i % 3 = 0 then .typed a line o source
    else if i % 3 = 1 then .arrives b (begins (i / 3)).1.air.length .v4 ⟨0, 0⟩ else .inside b (.takeRx .v4 ⟨0, 0⟩)
  have at0 : ∀ k, at_ (3 * k) = (begins k).1 := fun k => by
    show (if _ then _ else _) = _
    rw [if_pos (by omega), show 3 * k / 3 = k by omega]
  have at1 : ∀ k, at_ (3 * k + 1) = w1 (begins k) := fun k => by
    show (if _ then _ else _) = _
    rw [if_neg (by omega), if_pos (by omega), show (3 * k + 1) / 3 = k by omega]
  have at2 : ∀ k, at_ (3 * k + 2) = w2 (begins k) := fun k => by
    show (if _ then _ else _) = _
    rw [if_neg (by omega), if_neg (by omega), show (3 * k + 2) / 3 = k by omega]
  have does0 : ∀ k, does (3 * k) = .typed a line o source := fun k => by
    show (if _ then _ else _) = _
    rw [if_pos (by omega)]
  have does1 : ∀ k, does (3 * k + 1) = .arrives b (begins k).1.air.length .v4 ⟨0, 0⟩ := fun k => by
    show (if _ then _ else _) = _
    rw [if_neg (by omega), if_pos (by omega), show (3 * k + 1) / 3 = k by omega]
  have does2 : ∀ k, does (3 * k + 2) = .inside b (.takeRx .v4 ⟨0, 0⟩) := fun k => by
    show (if _ then _ else _) = _
    rw [if_neg (by omega), if_neg (by omega)]
  have third : ∀ i : Nat, ∃ k, i = 3 * k ∨ i = 3 * k + 1 ∨ i = 3 * k + 2 := fun i => ⟨i / 3, by omega⟩
  refine ⟨at_, does, ⟨at0 0, fun i => ?_⟩, fun i => ?_, fun fam i always => ?_, fun _ i => ?_, fun i => ?_, fun i d hd _ => ?_,
    fun i m line' o' source' e => ?_⟩
  · obtain ⟨k, rfl | rfl | rfl⟩ := third i
    · rw [at0, at1, does0]; exact (h3 (begins k)).1
    · rw [at1, at2, does1]; exact (h3 (begins k)).2.1
    · rw [at2, show 3 * k + 2 + 1 = 3 * (k + 1) by omega, at0, does2]; exact (h3 (begins k)).2.2.1
  · obtain ⟨k, rfl | rfl | rfl⟩ := third i
    · rw [at0]
      show ¬ ((begins k).1.node b).net.main = .ended
      rw [(begins k).2.main]; simp
    · rw [at1]; exact ((h3 (begins k)).2.2.2.2.2.2 _ List.mem_cons_self).1
    · rw [at2]; exact ((h3 (begins k)).2.2.2.2.2.2 _ (List.mem_cons_of_mem _ List.mem_cons_self)).1
  · have := (always (3 * i) (by omega)).2.1
    rw [at0] at this
    exact absurd ((begins i).2.reads fam) this
  · obtain ⟨d, hd, hs⟩ := (h3 (begins i)).2.2.2.2.2.1
    exact ⟨3 * i + 1, by omega, _, _, _, d, does1 i, by rw [at1]; exact hd, hs⟩
  · obtain ⟨frame, hf⟩ := (h3 (begins i)).2.2.2.2.1
    exact ⟨3 * i, by omega, a, line, o, source, addr, frame, does0 i, by rw [at0]; exact hf, heard, rfl⟩
  · obtain ⟨k, rfl | rfl | rfl⟩ := third i
    · rw [at0] at hd; exact (begins k).2.sized d hd
    · rw [at1] at hd; exact ((h3 (begins k)).2.2.2.2.2.2 _ List.mem_cons_self).2 d hd
    · rw [at2] at hd; exact ((h3 (begins k)).2.2.2.2.2.2 _ (List.mem_cons_of_mem _ List.mem_cons_self)).2 d hd
  · obtain ⟨k, rfl | rfl | rfl⟩ := third i
    · rw [does0] at e; cases e; rfl
    · rw [does1] at e; cases e
    · rw [does2] at e; cases e

/-- What the system answers in the example: the word on the command means machine 2. -/
def towardsTwo : Replies := { calmReplies with resolve := fun _ => .ok ⟨[1#8, 1#8, 1#8, 2#8], 7542, ""⟩ }

/-- Machine 1 sends beacons to machine 2 again and again, for ever. -/
theorem two_rounds : ∃ at_ does, NetForever examplePlant (fun _ => exampleFS) (fun _ => shippedSettings) at_ does ∧
    (∀ i, ¬ ((at_ i).node 2).Ended) ∧ SelectFair at_ does 2 ∧
    LosesSome examplePlant at_ does 2 ⟨[1#8, 1#8, 1#8, 1#8], 5000, ""⟩ ∧
    (∀ i, ∃ j, i ≤ j ∧ SentTo examplePlant at_ does 2 ⟨[1#8, 1#8, 1#8, 1#8], 5000, ""⟩ j) ∧
    (∀ i, ∀ d ∈ (at_ i).air, d.source = ⟨[1#8, 1#8, 1#8, 1#8], 5000, ""⟩ → Sized (examplePlant.machine 2).S.mtu d.bytes) ∧
    ∀ i m line o source, does i = .typed m line o source → o = towardsTwo := by
  refine rounds_forever (a := 1) (b := 2) (line := "saratoga[0]:beacon 1.1.1.2") (word := "1.1.1.2") (o := towardsTwo)
    (source := fun _ => ⟨[1#8, 1#8, 1#8, 1#8], 5000, ""⟩) (addr := ⟨[1#8, 1#8, 1#8, 2#8], 7542, ""⟩) (fun _ => rfl) (by decide)
    C14_shipped_defaults (by decide) (by decide +kernel) (by decide) ⟨rfl, rfl, ⟨_, _, rfl⟩, fun _ => ⟨_, rfl⟩, fun _ _ => rfl⟩
    (by decide +kernel) (by decide +kernel) ?_
  rintro frame ⟨_, x, h1, h2⟩
  have key : (match Beacon.zero.new shipped towardsTwo.disk (setglobal shipped "beacon" shippedSettings.global)
      ⟨0, ((examplePlant.machine 1).beaconEnv towardsTwo).eid ⟨[1#8, 1#8, 1#8, 2#8], 7542, ""⟩⟩ with
      | .ret (x, none) =>
        match x.encode shipped with
        | .ret (.ok f) => decide (Sized 1500 f)
        | _ => true
      | _ => true) = true := by decide +kernel
  have h1' : Beacon.zero.new shipped towardsTwo.disk (setglobal shipped "beacon" shippedSettings.global)
      ⟨0, ((examplePlant.machine 1).beaconEnv towardsTwo).eid ⟨[1#8, 1#8, 1#8, 2#8], 7542, ""⟩⟩ = .ret (x, none) := h1
  have h2' : x.encode shipped = .ret (.ok frame) := h2
  rw [h1'] at key
  simp only [h2'] at key
  exact of_decide_eq_true key

/-- What is asked of an execution holds of that one. -/
example : ∃ at_ does, NetForever examplePlant (fun _ => exampleFS) (fun _ => shippedSettings) at_ does ∧
    (∀ i, ¬ ((at_ i).node 2).Ended) ∧ SelectFair at_ does 2 ∧
    LosesSome examplePlant at_ does 2 ⟨[1#8, 1#8, 1#8, 1#8], 5000, ""⟩ ∧
    (∀ i, ∃ j, i ≤ j ∧ SentTo examplePlant at_ does 2 ⟨[1#8, 1#8, 1#8, 1#8], 5000, ""⟩ j) ∧
    ∀ i, ∀ d ∈ (at_ i).air, d.source = ⟨[1#8, 1#8, 1#8, 1#8], 5000, ""⟩ → Sized (examplePlant.machine 2).S.mtu d.bytes := by
  obtain ⟨at_, does, h1, h2, h3, h4, h5, h6, _⟩ := two_rounds
  exact ⟨at_, does, h1, h2, h3, h4, h5, h6⟩

end Saratoga
