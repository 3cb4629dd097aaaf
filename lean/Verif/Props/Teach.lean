import Verif.Props.MainLists
import Verif.Props.Global
/-!
# C61: a beacon teaches the peer the sender's settings

From the global settings of the sender through `New`, `Encode`, the network, the listener and the main loop
of the receiver to its peer table.
-/
namespace Saratoga

/-- What the entry of a peer has to show for the settings `gl` and the endpoint and free space `info`, with
`bsize * bavail` bytes free on the disk of the sender. -/
structure Learned (gl : List (String × String)) (info : Binfo) (bsize bavail : BitVec 64) (p : Peer) :
    Prop where
  eid : p.eid = info.eid
  descriptor : ("descriptor", p.maxdesc) ∈ gl
  rxwilling : ("rxwilling", p.canrx) ∈ gl
  txwilling : ("txwilling", p.cantx) ∈ gl
  given : ("freespace", "yes") ∈ gl → info.freespace ≠ 0 → p.freespace = info.freespace
  disk : ("freespace", "yes") ∈ gl → info.freespace = 0 → p.freespace = bsize * bavail / 1024#64
  none : ("freespace", "no") ∈ gl → p.freespace = 0

/-- The beacon arrives: the listener of a receiver that reads hands it over and the main loop makes the entry
show it. -/
theorem beacon_arrives (S : Setup) (hT : S.T = shipped) (w : World) (ready : w.main = .select) (fam : Fam)
    (reading : w.listener fam = .reading) (x : Beacon) (frame : List Byte) (size : Sized S.mtu frame)
    (version : getStr shipped (headWord frame) "version" = .ret "v1")
    (type : getStr shipped (headWord frame) "frametype" = .ret "beacon")
    (dec : Beacon.zero.decode shipped frame = .ret (x, none)) (src : UDPAddr) (t0 t1 : GoTime) :
    ∃ w1 w2, w.step S (.recv ⟨fam, t0, frame, src⟩) = some w1 ∧ w1.step S (.takeRx fam t1) = some w2 ∧
      w2.main = .select ∧ ∃ p ∈ w2.peers, p.addr = S.ipText src.ip ∧ p.Shows shipped x := by
  have hl : listenFrame S.T t0 S.mtu frame = .ret (.rx (.beacon x)) := by
    rw [hT]
    rcases listenFrame_eq shipped t0 S.mtu frame with ⟨hn, _⟩ | ⟨_, h⟩
    · exact absurd size hn
    · rw [h, version]
      simp only [Out.ret_bind, ne_eq, not_true_eq_false, if_false]
      unfold listenTyped
      rw [type]
      simp only [Out.ret_bind, if_true, dec]
      rfl
  have hr : w.onRecv S ⟨fam, t0, frame, src⟩ =
      { w.setListener fam (.sendRx (.beacon x) src) with read := w.read ++ [⟨fam, t0, frame, src⟩] } := by
    unfold World.onRecv World.orEnd
    simp only [hl]
    rfl
  have h1 : x.shortPrint shipped = .ret () := by
    unfold Beacon.shortPrint
    rw [getStr_freespace]; rfl
  refine ⟨{ w.setListener fam (.sendRx (.beacon x) src) with read := w.read ++ [⟨fam, t0, frame, src⟩] },
    World.onRx S { w.setListener fam (.sendRx (.beacon x) src) with
    read := w.read ++ [⟨fam, t0, frame, src⟩] } fam t1 (.beacon x) src, ?_, ?_, ?_⟩
  · simp only [World.step, ready, reading]
    rw [hr]
    rfl
  · have e1 : (World.setListener w fam (.sendRx (.beacon x) src)).main = .select := ready
    have e2 : (World.setListener w fam (.sendRx (.beacon x) src)).listener fam = .sendRx (.beacon x) src :=
      setListener_self _ _ _
    simp only [World.step, e1, e2]
  · have key : ∃ ps r p, newPeer shipped S.ipText t1 w.peers x (some src) = .ret (ps, r) ∧ p ∈ ps ∧
        p.addr = S.ipText src.ip ∧ p.Shows shipped x := by
      rcases newPeer_cases shipped_peerTables S.ipText t1 w.peers x src with
        ⟨pre, p, post, hp, ha, _, ⟨hs, h⟩ | ⟨_, p', h, ha', hs, _⟩⟩ | ⟨_, p, h, ha, hs, _⟩
      · exact ⟨_, _, p, h, by rw [hp]; simp, ha, hs⟩
      · exact ⟨_, _, p', h, by simp, ha'.trans ha, hs⟩
      · exact ⟨_, _, p, h, by simp, ha, hs⟩
    obtain ⟨ps, r, p, h2, hp⟩ := key
    unfold World.onRx World.orEnd
    rw [hT]
    have h2' : ∀ st, newPeer shipped S.ipText t1 (World.setListener
      { w.setListener fam (.sendRx (.beacon x) src) with read := w.read ++ [⟨fam, t0, frame, src⟩] } fam st).peers
        x (some src) = .ret (ps, r) := fun _ => h2
    simp only [h1, Out.ret_bind, h2']
    exact ⟨ready, p, hp⟩

/-- **C61** (partial: the beacon has to have a size that listeners look at, see `C61_counterexample`.) For all
valid settings, endpoints and free space: the beacon built from the settings is encoded, and a receiver in
any state in which its listener reads and its main loop is at its `select` gets from it, in two steps, an
entry of the sender's address that shows the descriptor, the willingness, the endpoint and the free
space. -/
theorem C61_learns_partial (gl : List (String × String)) (ok : ValidGlobal shipped gl) (env : DiskEnv)
    (bs ba : BitVec 64) (wd : env.getwd = none) (st : env.statfs = .ok (bs, ba)) (d : Beacon)
    (info : Binfo) (small : info.freespace ≠ 0xFFFFFFFFFFFFFFFF#64) :
    ∃ x frame, d.new shipped env (setglobal shipped "beacon" gl) info = .ret (x, none) ∧
      x.encode shipped = .ret (.ok frame) ∧
      ∀ (S : Setup), S.T = shipped → Sized S.mtu frame →
      ∀ (w : World) (fam : Fam), w.main = .select → w.listener fam = .reading →
      ∀ (src : UDPAddr) (t0 t1 : GoTime), ∃ w1 w2, w.step S (.recv ⟨fam, t0, frame, src⟩) = some w1 ∧
        w1.step S (.takeRx fam t1) = some w2 ∧ w2.main = .select ∧
        ∃ p ∈ w2.peers, p.addr = S.ipText src.ip ∧ Learned gl info bs ba p := by
  obtain ⟨x, hx, hf⟩ := C14_beacon gl ok env bs ba wd st d info small
  have sep := C11_shipped_separated.2.2.2.2
  obtain ⟨extra, hextra, hc, heid⟩ := C11_beacon_partial shipped sep env d x _ info hx
  have hfields : ∀ f ∈ ["descriptor", "rxwilling", "txwilling", "freespace"],
      f ∈ values shipped "beacon" ∧ f ∈ globalKeys := by decide +kernel
  have setting : ∀ f ∈ ["descriptor", "rxwilling", "txwilling", "freespace"], ∃ v, (f, v) ∈ gl ∧
      getStr shipped x.header f = .ret v := by
    intro f hm
    obtain ⟨h1, h2⟩ := hfields f hm
    obtain ⟨v, hv⟩ := ok.2.2.1 f h2
    exact ⟨v, hv, hf f v h1 hv⟩
  have fixed : ∀ f v, (f, v) = ("version", "v1") ∨ (f, v) = ("frametype", "beacon") →
      getStr shipped x.header f = .ret v := by
    intro f v hfv
    have hnot : ∀ p ∈ (flagParts (setglobal shipped "beacon" gl)).flatMap beaconAssigns ++ extra,
        p.1 ≠ "version" ∧ p.1 ≠ "frametype" := by
      intro p hp
      rcases List.mem_append.1 hp with hp | hp
      · rw [List.mem_flatMap] at hp
        obtain ⟨⟨n, o⟩, _, hp⟩ := hp
        unfold beaconAssigns at hp
        split at hp
        · simp only [List.mem_cons, List.not_mem_nil, or_false] at hp
          rcases hp with rfl | rfl <;> simp
        · split at hp
          · rename_i h
            simp only [List.mem_cons, List.not_mem_nil, or_false] at hp h
            subst hp
            rcases h with h | h | h | h | h | h <;> simp [h]
          · simp at hp
      · rcases hextra with rfl | rfl | ⟨desc, rfl⟩
        · simp at hp
        · simp at hp; rw [hp]; simp
        · simp at hp; rw [hp]; simp
    apply hc.1
    · rcases hfv with h | h <;> (cases h; decide)
    · apply lastValue_eq_some
      · rcases hfv with h | h <;> (rw [h]; simp)
      · intro u hu
        simp only [List.cons_append, List.mem_cons] at hu
        rcases hu with hu | hu | hu
        · rcases hfv with h | h <;> (cases h; simp at hu; try exact hu)
        · rcases hfv with h | h <;> (cases h; simp at hu; try exact hu)
        · have := hnot _ hu
          rcases hfv with h | h <;> (cases h; simp at this)
  obtain ⟨desc, g1, k1⟩ := setting "descriptor" (by simp)
  obtain ⟨rx, g2, k2⟩ := setting "rxwilling" (by simp)
  obtain ⟨tx, g3, k3⟩ := setting "txwilling" (by simp)
  obtain ⟨free, g4, k4⟩ := setting "freespace" (by simp)
  have uniq : ∀ v, ("freespace", v) ∈ gl → v = free := by
    intro v hv
    have := hf "freespace" v (hfields _ (by simp)).1 hv
    rw [k4] at this; cases this; rfl
  have enc : ∃ frame, x.encode shipped = .ret (.ok frame) ∧ Beacon.zero.decode shipped frame = .ret (x, none) := by
    by_cases hy : free = "yes"
    · subst hy
      exact C34_peer_learns shipped sep env d x Beacon.zero _ info hx k4
    · have hno : free = "no" := by
        rw [getStr_freespace] at k4
        split at k4
        · cases k4; exact absurd rfl hy
        · cases k4; rfl
      subst hno
      exact C26_round_trip_nospace shipped x Beacon.zero "no" k4 (by decide)
        (C34_none_advertised shipped sep env d x _ info hx k4)
  obtain ⟨frame, henc, hdec⟩ := enc
  have hhead : headWord frame = x.header := by
    have := (C62_beacon_layout shipped x frame henc).1
    unfold headWord
    rw [this]
    simp
  refine ⟨x, frame, hx, henc, ?_⟩
  intro S hT hsize w fam hm hl src t0 t1
  obtain ⟨w1, w2, e1, e2, e3, p, hp, ha, s1, s2, s3, s4, s5⟩ := beacon_arrives S hT w hm fam hl x frame hsize
    (by rw [hhead]; exact fixed _ _ (Or.inl rfl)) (by rw [hhead]; exact fixed _ _ (Or.inr rfl)) hdec src t0 t1
  refine ⟨w1, w2, e1, e2, e3, p, hp, ha, ?_⟩
  rw [k1] at s3; rw [k2] at s4; rw [k3] at s5
  cases s3; cases s4; cases s5
  have hfree : free = "yes" → _ := fun hy => (C34_freespace_fits shipped sep env d x _ info hx
    (by rw [k4, hy])).2
  refine ⟨s2.trans heid, g1, g2, g3, ?_, ?_, ?_⟩
  · intro hy hne
    rcases hfree (uniq _ hy).symm with ⟨_, h⟩ | ⟨h, _⟩
    · rw [s1, h]
    · exact absurd h hne
  · intro hy h0
    rcases hfree (uniq _ hy).symm with ⟨h, _⟩ | ⟨_, bs', ba', h, h'⟩
    · exact absurd h0 h
    · rw [st] at h; cases h
      rw [s1, h']
  · intro hn
    rw [s1]
    exact C34_none_advertised shipped sep env d x _ info hx (by rw [k4, ← uniq _ hn])

/-- **C61** fails: with free space not advertised and an endpoint of up to three bytes the beacon is shorter
than the eight bytes below which a listener drops a datagram unread. -/
theorem C61_counterexample (eid : List Byte) (short : eid.length < 4) :
    ∃ gl x frame, ValidGlobal shipped gl ∧
      Beacon.zero.new shipped ⟨none, .ok (4096, 100)⟩ (setglobal shipped "beacon" gl) ⟨0, eid⟩ = .ret (x, none) ∧
      x.encode shipped = .ret (.ok frame) ∧
      ∀ T clock mtu, listenFrame T clock mtu frame = .ret .drop := by
  have ok : ValidGlobal shipped
      [("csumtype", "none"), ("freespace", "no"), ("txwilling", "yes"), ("rxwilling", "yes"), ("stream", "no"),
       ("reqtstamp", "yes"), ("reqstatus", "no"), ("udplite", "no"), ("descriptor", "d64")] := by
    refine ⟨by decide, by decide, ?_, by decide +kernel⟩
    intro k hk
    simp only [globalKeys, List.mem_cons, List.not_mem_nil, or_false] at hk
    rcases hk with rfl | rfl | rfl | rfl | rfl | rfl | rfl | rfl | rfl <;> simp
  obtain ⟨x, hx, hf⟩ := C14_beacon _ ok ⟨none, .ok (4096, 100)⟩ 4096 100 rfl rfl Beacon.zero ⟨0, eid⟩ (by simp)
  have k4 : getStr shipped x.header "freespace" = .ret "no" :=
    hf "freespace" "no" (by decide +kernel) (by simp)
  obtain ⟨_, _, _, heid⟩ := C11_beacon_partial shipped C11_shipped_separated.2.2.2.2 _ _ x _ _ hx
  refine ⟨_, x, _, ok, hx, Beacon.encode_no k4 (by decide), ?_⟩
  intro T clock mtu
  rcases listenFrame_eq T clock mtu (be32 x.header ++ x.eid) with ⟨_, h⟩ | ⟨hs, _⟩
  · exact h
  · have := hs.1
    rw [heid] at this
    simp at this
    omega

/-- The shipped settings and an endpoint of 13 bytes make a frame listeners look at. -/
example : ∃ x frame, Beacon.zero.new shipped ⟨none, .ok (4096, 100)⟩
      "descriptor=d64,stream=no,txwilling=yes,rxwilling=yes,udplite=no,freespace=yes"
      ⟨0, List.replicate 13 65#8⟩ = .ret (x, none) ∧
    x.encode shipped = .ret (.ok frame) ∧ Sized 1500 frame := by
  refine ⟨⟨0x208f4000#32, 400, List.replicate 13 65#8⟩,
    be32 0x208f4000#32 ++ numBytes 2 400 ++ List.replicate 13 65#8, ?_, ?_, ?_⟩
  · decide +kernel
  · rfl
  · decide +kernel

end Saratoga
