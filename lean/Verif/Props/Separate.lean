import Verif.Props.Replies
import Verif.Props.MainLists
import Verif.Props.Transfers
/-! # Property C159: peers do not disturb one another -/
namespace Saratoga

/-! ## Specification -/

/-- The replies made for an address by the listener of a socket: those the main loop has taken and the one still held
out to it, in order. -/
def World.repliesFor (w : World) (fam : Fam) (a : UDPAddr) : List Status :=
  (w.taken.filter fun r => r.fam = fam ∧ r.dest = a).map Reply.status ++
  (match w.listener fam with
    | .sendTx s b => if b = a then [s] else []
    | _ => [])

/-- The frames passed on from an address by the listener of a socket: those the main loop has handled and the one
still held out to it, in order. -/
def World.framesOfPeer (w : World) (fam : Fam) (a : UDPAddr) : List Frame :=
  (w.handled.filter fun h => h.fam = fam ∧ h.source = a).map Handled.frame ++
  (match w.listener fam with
    | .sendRx f b => if b = a then [f] else []
    | _ => [])

/-- The beacons handled from an IP address, with their times. -/
def World.beaconsOf (w : World) (ipText : List Byte → String) (ip : String) : List Sighting :=
  (sightings w.handled).filter fun s => s.addr ipText = ip

/-! ## Lemmas -/

/-- The reply a listener makes to a datagram. -/
def Datagram.reply (S : Setup) (d : Datagram) : Option Status :=
  match listenFrame S.T d.clock S.mtu d.bytes with
  | .ret (.tx s) => some s
  | _ => none

/-- The frame a listener passes on for a datagram. -/
def Datagram.frame (S : Setup) (d : Datagram) : Option Frame :=
  match listenFrame S.T d.clock S.mtu d.bytes with
  | .ret (.rx f) => some f
  | _ => none

def LState.reply (a : UDPAddr) : LState → List Status
  | .sendTx s b => if b = a then [s] else []
  | _ => []

def LState.frame (a : UDPAddr) : LState → List Frame
  | .sendRx f b => if b = a then [f] else []
  | _ => []

theorem repliesFor_eq (w : World) (fam : Fam) (a : UDPAddr) : w.repliesFor fam a =
    (w.taken.filter fun r => r.fam = fam ∧ r.dest = a).map Reply.status ++ (w.listener fam).reply a := by
  unfold World.repliesFor LState.reply
  cases w.listener fam <;> rfl

theorem framesOfPeer_eq (w : World) (fam : Fam) (a : UDPAddr) : w.framesOfPeer fam a =
    (w.handled.filter fun r => r.fam = fam ∧ r.source = a).map Handled.frame ++ (w.listener fam).frame a := by
  unfold World.framesOfPeer LState.frame
  cases w.listener fam <;> rfl

/-- What the step of a listener does for one address. -/
theorem read_one (w : World) (d : Datagram) (fam : Fam) (a : UDPAddr) :
    (w.read ++ [d]).filter (fun d => d.fam = fam ∧ d.source = a) =
      w.readFrom fam a ++ if d.fam = fam ∧ d.source = a then [d] else [] := by
  unfold World.readFrom
  rw [List.filter_append]
  congr 1
  by_cases h : d.fam = fam ∧ d.source = a
  · rw [if_pos h, List.filter_cons_of_pos (by simpa using h)]; rfl
  · rw [if_neg h, List.filter_cons_of_neg (by simpa using h)]; rfl

theorem replies_frames (S : Setup) (fs : FS) (w : World) (h : Reachable S fs w) (fam : Fam) (a : UDPAddr) :
    w.repliesFor fam a = (w.readFrom fam a).filterMap (Datagram.reply S) ∧
    w.framesOfPeer fam a = (w.readFrom fam a).filterMap (Datagram.frame S) := by
  refine reachable_induction (P := fun w => w.repliesFor fam a = (w.readFrom fam a).filterMap (Datagram.reply S) ∧
    w.framesOfPeer fam a = (w.readFrom fam a).filterMap (Datagram.frame S)) ?_ ?_ h
  · exact ⟨rfl, rfl⟩
  · rintro w x w' ⟨ih1, ih2⟩ hs
    rw [repliesFor_eq] at ih1 ⊢
    rw [framesOfPeer_eq] at ih2 ⊢
    rcases step_cases hs with ⟨d, -, -, hl, rfl⟩ | ⟨g, -, -, hl, rfl⟩ | ⟨g, clock, f, b, -, hm, hl, rfl⟩ |
      ⟨g, s, b, -, hm, hl, rfl⟩ | ⟨g, -, hm, hl, rfl⟩ | ⟨-, hm, rfl⟩ | ⟨-, hm, rfl⟩ | ⟨fs', -, hm, rfl⟩
    · rcases onRecv_cases S w d with ⟨hr, e⟩ | ⟨hr, e⟩ | ⟨f, hr, e⟩ | ⟨s, hr, e⟩ <;> rw [e]
      · exact ⟨ih1, ih2⟩
      · have r1 : d.reply S = none := by unfold Datagram.reply; rw [hr]
        have r2 : d.frame S = none := by unfold Datagram.frame; rw [hr]
        show _ = ((w.read ++ [d]).filter _).filterMap _ ∧ _ = ((w.read ++ [d]).filter _).filterMap _
        rw [read_one, List.filterMap_append, List.filterMap_append, ← ih1, ← ih2]
        split <;> simp [r1, r2]
      · have r1 : d.reply S = none := by unfold Datagram.reply; rw [hr]
        have r2 : d.frame S = some f := by unfold Datagram.frame; rw [hr]
        show _ ++ LState.reply a ((w.setListener d.fam (.sendRx f d.source)).listener fam) =
            ((w.read ++ [d]).filter _).filterMap _ ∧
          _ ++ LState.frame a ((w.setListener d.fam (.sendRx f d.source)).listener fam) =
            ((w.read ++ [d]).filter _).filterMap _
        rw [read_one, List.filterMap_append, List.filterMap_append, ← ih1, ← ih2]
        by_cases hg : fam = d.fam
        · subst hg
          rw [setListener_self, hl]
          by_cases hb : d.source = a
          · simp [r1, r2, hb, LState.reply, LState.frame, World.setListener]
          · simp [hb, LState.reply, LState.frame, World.setListener]
        · rw [setListener_other _ _ hg, if_neg fun h => hg h.1.symm]
          simp [World.setListener]
      · have r1 : d.reply S = some s := by unfold Datagram.reply; rw [hr]
        have r2 : d.frame S = none := by unfold Datagram.frame; rw [hr]
        show _ ++ LState.reply a ((w.setListener d.fam (.sendTx s d.source)).listener fam) =
            ((w.read ++ [d]).filter _).filterMap _ ∧
          _ ++ LState.frame a ((w.setListener d.fam (.sendTx s d.source)).listener fam) =
            ((w.read ++ [d]).filter _).filterMap _
        rw [read_one, List.filterMap_append, List.filterMap_append, ← ih1, ← ih2]
        by_cases hg : fam = d.fam
        · subst hg
          rw [setListener_self, hl]
          by_cases hb : d.source = a
          · simp [r1, r2, hb, LState.reply, LState.frame, World.setListener]
          · simp [hb, LState.reply, LState.frame, World.setListener]
        · rw [setListener_other _ _ hg, if_neg fun h => hg h.1.symm]
          simp [World.setListener]
    · by_cases hg : fam = g
      · subst hg
        rw [setListener_self]
        rw [hl] at ih1 ih2
        exact ⟨ih1, ih2⟩
      · rw [setListener_other _ _ hg]; exact ⟨ih1, ih2⟩
    · obtain ⟨e1, e2, e3, e4, -⟩ := onRx_logs S w g clock f b
      unfold World.readFrom at *
      rw [e1, e2, e3, e4, List.filter_append, List.map_append, ← ih1, ← ih2]
      by_cases hg : fam = g
      · subst hg
        rw [setListener_self, hl]
        by_cases hb : b = a
        · simp [hb, LState.reply, LState.frame]
        · simp [hb, LState.reply, LState.frame]
      · have : ¬ g = fam := fun h => hg h.symm
        rw [setListener_other _ _ hg]
        simp [this]
    · obtain ⟨e1, e2, e3, e4, -⟩ := onTx_logs S w g s b
      unfold World.readFrom at *
      rw [e1, e2, e3, e4, List.filter_append, List.map_append, ← ih1, ← ih2]
      by_cases hg : fam = g
      · subst hg
        rw [setListener_self, hl]
        by_cases hb : b = a
        · simp [hb, LState.reply, LState.frame]
        · simp [hb, LState.reply, LState.frame]
      · have : ¬ g = fam := fun h => hg h.symm
        rw [setListener_other _ _ hg]
        simp [this]
    · by_cases hg : fam = g
      · subst hg
        show _ ++ LState.reply a ((w.setListener fam .gone).listener fam) = _ ∧
          _ ++ LState.frame a ((w.setListener fam .gone).listener fam) = _
        rw [setListener_self]
        rw [hl] at ih1 ih2
        exact ⟨ih1, ih2⟩
      · show _ ++ LState.reply a ((w.setListener g .gone).listener fam) = _ ∧
          _ ++ LState.frame a ((w.setListener g .gone).listener fam) = _
        rw [setListener_other _ _ hg]; exact ⟨ih1, ih2⟩
    · exact ⟨ih1, ih2⟩
    · exact ⟨ih1, ih2⟩
    · exact ⟨ih1, ih2⟩

/-! ## C159 -/

/-- **C159** What a peer is told depends on what it sends, not on what others send: in any two executions, with
whatever files, in which the same datagrams were read from an address, the same replies were made for it, in the same
order. If one execution has read more from it than the other, the replies of the other come first. -/
theorem C159_replies (S : Setup) (fs fs' : FS) (w w' : World) (h : Reachable S fs w) (h' : Reachable S fs' w')
    (fam : Fam) (a : UDPAddr) (more : w.readFrom fam a <+: w'.readFrom fam a) :
    w.repliesFor fam a <+: w'.repliesFor fam a ∧
    (w.readFrom fam a = w'.readFrom fam a → w.repliesFor fam a = w'.repliesFor fam a) := by
  rw [(replies_frames S fs w h fam a).1, (replies_frames S fs' w' h' fam a).1]
  refine ⟨?_, fun e => by rw [e]⟩
  obtain ⟨t, e⟩ := more
  rw [← e, List.filterMap_append]
  exact List.prefix_append _ _

/-- **C159** The same of the frames passed on to the main loop. -/
theorem C159_frames (S : Setup) (fs fs' : FS) (w w' : World) (h : Reachable S fs w) (h' : Reachable S fs' w')
    (fam : Fam) (a : UDPAddr) (more : w.readFrom fam a <+: w'.readFrom fam a) :
    w.framesOfPeer fam a <+: w'.framesOfPeer fam a ∧
    (w.readFrom fam a = w'.readFrom fam a → w.framesOfPeer fam a = w'.framesOfPeer fam a) := by
  rw [(replies_frames S fs w h fam a).2, (replies_frames S fs' w' h' fam a).2]
  refine ⟨?_, fun e => by rw [e]⟩
  obtain ⟨t, e⟩ := more
  rw [← e, List.filterMap_append]
  exact List.prefix_append _ _

theorem stampOf_unique {T : Tables} {time : GoTime} {t u : Timestamp} (h : StampOf T time t) (h' : StampOf T time u) :
    t = u := by
  obtain ⟨e, h⟩ := h
  obtain ⟨e', h'⟩ := h'
  rw [h] at h'
  cases h'
  rfl

/-- Two entries for an address that sum up the same beacons are the same. -/
theorem sumsUp_unique {T : Tables} {p q : Peer} {first : Sighting} {rest : List Sighting} (addr : p.addr = q.addr)
    (hp : p.SumsUp T first rest) (hq : q.SumsUp T first rest) : p = q := by
  obtain ⟨⟨p1, p2, p3, p4, p5⟩, p6, p7⟩ := hp
  obtain ⟨⟨q1, q2, q3, q4, q5⟩, q6, q7⟩ := hq
  have c := stampOf_unique p6 q6
  have u := stampOf_unique p7 q7
  rw [p3] at q3
  rw [p4] at q4
  rw [p5] at q5
  cases p
  cases q
  simp only [Out.ret.injEq] at *
  simp [addr, p1, p2, q1, q2, q3, q4, q5, c, u]

/-- **C159** How a peer is listed depends on its own beacons, not on those of others: in any two executions in which
the same beacons from an IP address were handled at the same times, the same entries are listed for it. -/
theorem C159_listed (S : Setup) (ok : PeerTables S.T) (shows : ∀ h, (getStr S.T h "freespace").returns)
    (fs fs' : FS) (w w' : World) (h : Reachable S fs w) (h' : Reachable S fs' w') (ip : String)
    (same : w.beaconsOf S.ipText ip = w'.beaconsOf S.ipText ip) :
    w.peers.filter (fun p => p.addr = ip) = w'.peers.filter (fun p => p.addr = ip) := by
  have key : ∀ {fs : FS} {w : World}, Reachable S fs w →
      (w.beaconsOf S.ipText ip = [] ∧ w.peers.filter (fun p => p.addr = ip) = []) ∨
      (∃ p first rest, w.beaconsOf S.ipText ip = first :: rest ∧ p.addr = ip ∧ p.SumsUp S.T first rest ∧
        w.peers.filter (fun p => p.addr = ip) = [p]) := by
    intro fs w h
    obtain ⟨m1, m2, m3⟩ := C66_entries S ok shows fs w h
    by_cases hin : ∃ p ∈ w.peers, p.addr = ip
    · right
      obtain ⟨p, hp, rfl⟩ := hin
      obtain ⟨first, rest, e, hs⟩ := m3 p hp
      refine ⟨p, first, rest, e, rfl, hs, ?_⟩
      obtain ⟨pre, post, e⟩ := List.append_of_mem hp
      rw [e] at m2 ⊢
      simp only [List.map_append, List.map_cons, List.nodup_append, List.nodup_cons, List.mem_map, List.mem_cons] at m2
      have a1 : pre.filter (fun q => q.addr = p.addr) = [] := by
        rw [List.filter_eq_nil_iff]
        intro q hq hqa
        exact m2.2.2 _ ⟨q, hq, rfl⟩ _ (Or.inl rfl) (by simpa using hqa)
      have a2 : post.filter (fun q => q.addr = p.addr) = [] := by
        rw [List.filter_eq_nil_iff]
        intro q hq hqa
        exact m2.2.1.1 ⟨q, hq, by simpa using hqa⟩
      rw [List.filter_append, a1, List.filter_cons_of_pos (by simp), a2]
      rfl
    · left
      constructor
      · unfold World.beaconsOf
        rw [List.filter_eq_nil_iff]
        intro s hs hsa
        apply hin
        have : ip ∈ w.peers.map Peer.addr := by
          rw [m1, firstSeen_mem, List.mem_map]
          exact ⟨s, hs, by simpa using hsa⟩
        obtain ⟨p, hp, e⟩ := List.mem_map.1 this
        exact ⟨p, hp, e⟩
      · rw [List.filter_eq_nil_iff]
        intro p hp hpa
        exact hin ⟨p, hp, by simpa using hpa⟩
  rcases key h with ⟨b, e⟩ | ⟨p, first, rest, b, pa, ps, e⟩
  · rcases key h' with ⟨b', e'⟩ | ⟨p', first', rest', b', pa', ps', e'⟩
    · rw [e, e']
    · rw [← same, b] at b'; cases b'
  · rcases key h' with ⟨b', e'⟩ | ⟨p', first', rest', b', pa', ps', e'⟩
    · rw [← same, b] at b'; cases b'
    · rw [← same, b] at b'
      cases b'
      rw [e, e', sumsUp_unique (pa.trans pa'.symm) ps ps']

/-! ## A concrete case

`someone` sends a frame of the wrong version and a beacon, first alone and then with two more beacons of another peer
in between. -/

/-- Another peer. -/
def somebody : UDPAddr := { someone with ip := [10, 0, 0, 9] }

/-- What `someone` does alone. -/
def aloneSteps : List Action :=
  [.recv ⟨.v4, ⟨0, 0⟩, [0, 0, 0, 0, 0, 0, 0, 0], someone⟩, .takeTx .v4,
   .recv ⟨.v4, ⟨0, 0⟩, [0x20, 0, 0, 0, 104, 105, 33, 33], someone⟩, .takeRx .v4 ⟨0, 0⟩]

/-- The same with `somebody` in between. -/
def amongSteps : List Action :=
  [.recv ⟨.v4, ⟨5, 0⟩, [0x20, 0, 0, 0, 104, 105, 33, 34], somebody⟩,
   .recv ⟨.v6, ⟨5, 0⟩, [0, 0, 0, 0, 0, 0, 0, 1], somebody⟩, .takeRx .v4 ⟨5, 0⟩, .takeTx .v6,
   .recv ⟨.v4, ⟨0, 0⟩, [0, 0, 0, 0, 0, 0, 0, 0], someone⟩, .takeTx .v4,
   .recv ⟨.v4, ⟨5, 0⟩, [0x20, 0, 0, 0, 104, 105, 33, 35], somebody⟩, .takeRx .v4 ⟨5, 0⟩,
   .recv ⟨.v4, ⟨0, 0⟩, [0x20, 0, 0, 0, 104, 105, 33, 33], someone⟩, .takeRx .v4 ⟨0, 0⟩]

/-- The two peers are printed differently. -/
def twoPeers : Setup := { shippedSetup with ipText := fun ip => if ip = someone.ip then "one" else "other" }

example : (match (World.init tranFS).run twoPeers aloneSteps, (World.init exampleFS).run twoPeers amongSteps with
    | some w, some w' =>
      decide (w.readFrom .v4 someone = w'.readFrom .v4 someone ∧ (w.readFrom .v4 someone).length = 2 ∧
        w'.read.length = 5 ∧ (w.repliesFor .v4 someone).length = 1 ∧ w'.taken.length = 2 ∧
        (w.framesOfPeer .v4 someone).length = 1 ∧ w'.handled.length = 3)
    | _, _ => false) = true := by decide +kernel

example : (match (World.init tranFS).run twoPeers aloneSteps, (World.init exampleFS).run twoPeers amongSteps with
    | some w, some w' =>
      decide (w.beaconsOf twoPeers.ipText "one" = w'.beaconsOf twoPeers.ipText "one" ∧
        w.peers.length = 1 ∧ w'.peers.length = 2)
    | _, _ => false) = true := by decide +kernel

end Saratoga
