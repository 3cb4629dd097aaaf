import Verif.Lemmas.Decoded
import Verif.Props.MainCrash
/-!
# C65, C66: what handling a packet does to the process and to its lists
-/
namespace Saratoga

/-- What a listener holds out came from a datagram it read. -/
theorem pending_from {S : Setup} {fs : FS} {w : World} (h : Reachable S fs w) {fam : Fam} {f : Frame}
    {a : UDPAddr} (hl : w.listener fam = .sendRx f a) :
    ∃ d ∈ w.read, d.fam = fam ∧ d.source = a ∧ listenFrame S.T d.clock S.mtu d.bytes = .ret (.rx f) := by
  revert fam f a
  refine reachable_induction (P := fun w => ∀ {fam f a}, w.listener fam = .sendRx f a →
    ∃ d ∈ w.read, d.fam = fam ∧ d.source = a ∧ listenFrame S.T d.clock S.mtu d.bytes = .ret (.rx f)) ?_ ?_ h
  · intro fam f a hl; cases hl
  · intro w b w' ih hs fam f a hl
    have keep : ∀ {st : LState} {g : Fam} {w1 : World}, w1.listener = (w.setListener g st).listener →
        (∀ f a, st ≠ .sendRx f a) → w1.listener fam = .sendRx f a → w.listener fam = .sendRx f a := by
      intro st g w1 e hne hl
      rw [e] at hl
      by_cases hg : fam = g
      · subst hg; rw [setListener_self] at hl; exact absurd hl (hne _ _)
      · rwa [setListener_other _ _ hg] at hl
    rcases step_cases hs with ⟨d, rfl, _, hr, rfl⟩ | ⟨g, rfl, _, hr, rfl⟩ | ⟨g, clock, f', addr, rfl, hm, hr, rfl⟩ |
      ⟨g, s, addr, rfl, hm, hr, rfl⟩ | ⟨g, rfl, hm, hr, rfl⟩ | ⟨rfl, hm, rfl⟩ |
      ⟨rfl, hm, rfl⟩ | ⟨fs1, rfl, hm, rfl⟩
    · have old : w.listener fam = .sendRx f a → ∃ d' ∈ w.read ++ [d], d'.fam = fam ∧ d'.source = a ∧
          listenFrame S.T d'.clock S.mtu d'.bytes = .ret (.rx f) := by
        intro hl
        obtain ⟨d', hd, h1⟩ := ih hl
        exact ⟨d', List.mem_append_left _ hd, h1⟩
      rcases onRecv_cases S w d with ⟨_, h⟩ | ⟨hf, h⟩ | ⟨f', hf, h⟩ | ⟨s, hf, h⟩
      · rw [h] at hl ⊢; exact ih hl
      · rw [h] at hl ⊢; exact old hl
      · rw [h] at hl ⊢
        by_cases hg : fam = d.fam
        · subst hg
          simp only [setListener_self] at hl
          cases hl
          exact ⟨d, by simp, rfl, rfl, hf⟩
        · simp only [setListener_other _ _ hg] at hl
          exact old hl
      · rw [h] at hl ⊢
        exact old (keep (st := .sendTx s d.source) (g := d.fam) rfl (by simp) hl)
    · exact ih (keep (st := .sendQuit) (g := g) rfl (by simp) hl)
    · rw [(onRx_logs S w g clock f' addr).2.1]
      exact ih (keep (onRx_logs S w g clock f' addr).1 (by simp) hl)
    · rw [(onTx_logs S w g s addr).2.1]
      exact ih (keep (onTx_logs S w g s addr).1 (by simp) hl)
    · exact ih (keep (st := .gone) (g := g) rfl (by simp) hl)
    · exact ih hl
    · exact ih hl
    · exact ih hl

/-! ## C65 -/

/-- The frames that end the process when the main loop takes them: every request, and metadata whose
checksum type has no name. -/
def Deadly : Frame → Prop
  | .request _ => True
  | .metadata m => 4 ≤ bitsAt m.header 0 4
  | _ => False

theorem print_stamp {T : Tables} {t : Timestamp} (h : ∃ s, getTStr T t.header = .ret s) : t.print T = .ret () := by
  obtain ⟨s, hs⟩ := h
  unfold Timestamp.print
  rw [hs]; rfl

/-- **C65** fails; this is the exact answer. With the shipped tables, taking a packet from a listener, in
any state that can be reached, ends the process exactly if the packet is deadly; otherwise the main loop is
back at its `select`. -/
theorem C65_ends_iff_partial (S : Setup) (hT : S.T = shipped) (fs : FS) (w w' : World)
    (reach : Reachable S fs w) (fam : Fam) (clock : GoTime) (f : Frame) (a : UDPAddr)
    (offered : w.listener fam = .sendRx f a) (h : w.step S (.takeRx fam clock) = some w') :
    (Deadly f → w'.main = .ended) ∧ (¬ Deadly f → w'.main = .select) := by
  obtain ⟨d, _, _, _, hd⟩ := pending_from reach offered
  have hsays := C42_delivers _ _ _ _ _ hd
  have alive : (listenFrame S.T d.clock S.mtu d.bytes).returns := by rw [hd]; trivial
  rcases step_cases h with ⟨d, he, _⟩ | ⟨g, he, _⟩ | ⟨g, clock', f', addr, he, hm, hl, rfl⟩ |
      ⟨g, s, addr, he, _⟩ | ⟨g, he, _⟩ | ⟨he, _⟩ | ⟨he, _⟩ | ⟨_, he, _⟩
  all_goals first | (cases he; done) | skip
  cases he
  rw [offered] at hl
  cases hl
  rw [hT] at hsays alive
  obtain ⟨_, _, hsays⟩ := hsays
  unfold World.onRx World.orEnd
  rw [hT]
  cases f with
  | request r =>
    refine ⟨fun _ => ?_, fun hn => absurd trivial hn⟩
    simp only [C40_counterexample]
  | beacon b =>
    refine ⟨fun hx => hx.elim, fun _ => ?_⟩
    simp only
    have h1 : b.shortPrint shipped = .ret () := by
      unfold Beacon.shortPrint
      rw [getStr_freespace]; rfl
    obtain ⟨ps, r, h2, _⟩ := C37_true_iff_changed shipped shipped_peerTables S.ipText clock
      (w.setListener fam .reading).peers b (some a)
    simp only [h1, Out.ret_bind, h2]
    exact hm
  | data x =>
    refine ⟨fun hx => hx.elim, fun _ => ?_⟩
    obtain ⟨h1, h2⟩ := data_decoded hsays.2
    have h3 : x.shortPrint shipped = .ret () := by
      unfold Data.shortPrint
      rw [h1, getStr_reqtstamp]
      simp only [Out.ret_bind]
      by_cases hst : stampNumber (headWord d.bytes) = 1
      · simp only [hst, if_true]
        exact print_stamp (h2 hst)
      · simp only [hst, if_false]
        rw [if_neg (by decide)]
        rfl
    simp only [h3]
    exact hm
  | metadata m =>
    obtain ⟨h1, h2, h3⟩ := metadata_decoded hsays.2
    rcases getStr_csumtype m.header with ⟨hlt, s, hs⟩ | ⟨hge, hs⟩
    · refine ⟨fun hx => ?_, fun _ => ?_⟩
      · simp only [Deadly] at hx; omega
      · have : m.shortPrint shipped = .ret () := by
          unfold MetaData.shortPrint DirEnt.shortPrint
          rw [hs, print_stamp h2, print_stamp h3]; rfl
        simp only [this]
        exact hm
    · refine ⟨fun _ => ?_, fun hn => absurd hge hn⟩
      have : m.shortPrint shipped = .fatal := by
        unfold MetaData.shortPrint
        rw [hs]; rfl
      simp only [this]
  | status s =>
    refine ⟨fun hx => hx.elim, fun _ => ?_⟩
    have : s.shortPrint shipped = .ret () := by
      rw [hT] at hd
      rcases listenFrame_eq shipped d.clock S.mtu d.bytes with ⟨_, k⟩ | ⟨_, k⟩
      · rw [k] at hd; cases hd
      · rw [k] at hd
        obtain ⟨v, hv, hd⟩ := Out.bind_eq_ret hd
        split at hd
        · exact absurd hd listenReply_not_rx
        · unfold listenTyped at hd
          obtain ⟨h1, h2⟩ := hsays
          rw [h1] at hd
          simp only [Out.ret_bind] at hd
          rw [if_neg (by decide), if_neg (by decide), if_neg (by decide), if_neg (by decide),
            if_pos (by decide), h2] at hd
          simp only [Out.ret_bind] at hd
          obtain ⟨u, h3, _⟩ := Out.bind_eq_ret hd
          exact h3
    simp only [this]
    exact hm

/-- A metadata frame with checksum type 4, for an empty file "f" dated at the epoch. -/
def deadlyMetadata : List Byte :=
  [0x22, 0x40, 0, 4, 0, 0, 0, 9, 0, 0x40, 0, 0, 0, 0, 0, 0, 0, 0, 0, 0, 0, 0, 0x66, 0]

example : ∃ w f w', (World.init tranFS).run shippedSetup [.recv ⟨.v4, ⟨0, 0⟩, deadlyMetadata, someone⟩] = some w ∧
    w.listener .v4 = .sendRx f someone ∧ Deadly f ∧ w.step shippedSetup (.takeRx .v4 ⟨5, 0⟩) = some w' :=
  ⟨_, _, _, rfl, rfl, (by decide +kernel : 4 ≤ bitsAt 0x22400004#32 0 4), rfl⟩

/-- **C65** fails: one well formed metadata frame, read and handed over, ends the process. -/
theorem C65_counterexample : ∃ (acts : List Action) (w w' : World) (f : Frame),
    (World.init tranFS).run shippedSetup acts = some w ∧ w.main = .select ∧
    w.listener .v4 = .sendRx f someone ∧
    w.step shippedSetup (.takeRx .v4 ⟨0, 0⟩) = some w' ∧ w'.main = .ended := by
  obtain ⟨w, m, h1, hm, hl, hc⟩ : ∃ w m, (World.init tranFS).run shippedSetup
      [.recv ⟨.v4, ⟨0, 0⟩, deadlyMetadata, someone⟩] = some w ∧ w.main = .select ∧
      w.listener .v4 = .sendRx (.metadata m) someone ∧ 4 ≤ bitsAt m.header 0 4 :=
    ⟨_, _, rfl, rfl, rfl, by decide +kernel⟩
  refine ⟨_, w, w.onRx shippedSetup .v4 ⟨0, 0⟩ (.metadata m) someone, _, h1, hm, hl, ?_, ?_⟩
  · simp only [World.step, hm, hl]
  · exact (C65_ends_iff_partial shippedSetup rfl tranFS w _ ⟨_, h1⟩ .v4 ⟨0, 0⟩ _ _ hl
      (by simp only [World.step, hm, hl])).1 hc

/-! ## C66 -/

theorem sightings_append (xs ys : List Handled) : sightings (xs ++ ys) = sightings xs ++ sightings ys := by
  induction xs with
  | nil => rfl
  | cons x xs ih =>
    obtain ⟨fam, f, a, t⟩ := x
    cases f <;> simp [sightings, ih]

/-- **C66** In every state of every execution the peer list is what the beacons handled so far, in their
order, make of an empty one. -/
theorem C66_peers (S : Setup) (ok : PeerTables S.T) (shows : ∀ h, (getStr S.T h "freespace").returns)
    (fs : FS) (w : World) (reach : Reachable S fs w) :
    receiveAll S.T S.ipText [] (sightings w.handled) = .ret w.peers := by
  refine reachable_induction (P := fun w => receiveAll S.T S.ipText [] (sightings w.handled) = .ret w.peers)
    rfl ?_ reach
  intro w b w' ih hs
  rcases step_cases hs with ⟨d, rfl, _, hr, rfl⟩ | ⟨g, rfl, _, hr, rfl⟩ | ⟨g, clock, f, a, rfl, hm, hr, rfl⟩ |
      ⟨g, s, addr, rfl, hm, hr, rfl⟩ | ⟨g, rfl, hm, hr, rfl⟩ | ⟨rfl, hm, rfl⟩ |
      ⟨rfl, hm, rfl⟩ | ⟨fs1, rfl, hm, rfl⟩
  · rcases onRecv_cases S w d with ⟨_, h⟩ | ⟨hf, h⟩ | ⟨f', hf, h⟩ | ⟨s, hf, h⟩ <;> (rw [h]; exact ih)
  · exact ih
  · rw [(onRx_logs S w g clock f a).2.2.1, sightings_append]
    unfold World.onRx World.orEnd
    cases f with
    | beacon b =>
      have h1 : b.shortPrint S.T = .ret () := by
        unfold Beacon.shortPrint
        have := shows b.header
        cases hx : getStr S.T b.header "freespace" with
        | ret s => rfl
        | fatal => rw [hx] at this; exact this.elim
        | panic => rw [hx] at this; exact this.elim
      obtain ⟨ps, r, h2, _⟩ := C37_true_iff_changed S.T ok S.ipText clock w.peers b (some a)
      have h2' : newPeer S.T S.ipText clock (w.setListener g .reading).peers b (some a) = .ret (ps, r) := h2
      simp only [h1, Out.ret_bind, h2']
      show receiveAll S.T S.ipText [] (sightings w.handled ++ [⟨a, b, clock⟩]) = .ret ps
      rw [receiveAll_snoc, ih]
      simp only [Out.ret_bind, h2, Out.pure_eq]
    | data d =>
      simp only [sightings, List.append_nil]
      split <;> exact ih
    | metadata d =>
      simp only [sightings, List.append_nil]
      split <;> exact ih
    | status d =>
      simp only [sightings, List.append_nil]
      split <;> exact ih
    | request d =>
      simp only [sightings, List.append_nil]
      split
      · split <;> exact ih
      · exact ih
      · exact ih
  · obtain ⟨_, _, h3, _, _, h6, _, _⟩ := onTx_logs S w g s addr
    rw [h3, h6]; exact ih
  · exact ih
  · exact ih
  · exact ih
  · exact ih

/-- **C66** So in every state there is one entry per address that was heard of, in the order of first
hearing, and it sums up the beacons of its address. -/
theorem C66_entries (S : Setup) (ok : PeerTables S.T) (shows : ∀ h, (getStr S.T h "freespace").returns)
    (fs : FS) (w : World) (reach : Reachable S fs w) :
    w.peers.map Peer.addr = firstSeen ((sightings w.handled).map (Sighting.addr S.ipText)) ∧
    (w.peers.map Peer.addr).Nodup ∧
    ∀ p ∈ w.peers, ∃ first rest,
      (sightings w.handled).filter (fun s => s.addr S.ipText = p.addr) = first :: rest ∧
      p.SumsUp S.T first rest := by
  obtain ⟨ps, h1, h2, h3, h4⟩ := C36_one_entry_per_peer S.T ok S.ipText (sightings w.handled)
  rw [C66_peers S ok shows fs w reach] at h1
  cases h1
  exact ⟨h2, h3, h4⟩

/-- The shipped tables meet the conditions of C66. -/
theorem shipped_shows (h : BitVec 32) : (getStr shipped h "freespace").returns := by
  rw [getStr_freespace]; trivial

/-- Two beacons of one address and one of another, then the list. -/
example : ∃ acts w, (World.init tranFS).run ⟨shipped, fun ip => toString (ip.map BitVec.toNat), 1500, []⟩ acts = some w ∧
    w.peers.map Peer.addr = ["[1]", "[2]"] ∧ (sightings w.handled).length = 3 := by
  refine ⟨[.recv ⟨.v4, ⟨0, 0⟩, [0x20, 0, 0, 0, 104, 105, 33, 33], ⟨[1], 7, ""⟩⟩, .takeRx .v4 ⟨5, 0⟩,
    .recv ⟨.v6, ⟨0, 0⟩, [0x20, 0, 0, 0, 104, 105, 33, 33], ⟨[2], 7, ""⟩⟩, .takeRx .v6 ⟨6, 0⟩,
    .recv ⟨.v4, ⟨0, 0⟩, [0x20, 0, 0, 0, 104, 105, 33, 34], ⟨[1], 9, ""⟩⟩, .takeRx .v4 ⟨7, 0⟩], _, rfl, ?_, ?_⟩
  · decide +kernel
  · decide +kernel

end Saratoga
