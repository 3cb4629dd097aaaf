import Verif.Props.Receive
import Verif.Props.MainLists
/-!
# C134, C135: what is announced

C134: the line "Added New Peer" means a new peer, and a transfer that was started for a peer is announced. Both fail.
C135: what is printed about a request agrees with the answer given.
-/
namespace Saratoga

/-! ## C134 -/

/-- **C134** The line "Added New Peer" is printed for a beacon exactly if the table of peers changes. -/
theorem C134_changed_partial (S : Setup) (ok : PeerTables S.T) (shows : ∀ h, (getStr S.T h "freespace").returns)
    (w : World) (fam : Fam) (clock : GoTime) (b : Beacon) (source : UDPAddr) :
    ∃ ls, rxSays S w fam clock (.beacon b) source = .ret ls ∧
      (⟨.msg, .newPeer source⟩ ∈ ls ↔ (w.onRx S fam clock (.beacon b) source).peers ≠ w.peers) := by
  have h1 : b.shortPrint S.T = .ret () := by
    unfold Beacon.shortPrint
    have := shows b.header
    cases hx : getStr S.T b.header "freespace" with
    | ret s => rfl
    | fatal => rw [hx] at this; exact this.elim
    | panic => rw [hx] at this; exact this.elim
  obtain ⟨ps, r, h2, h3⟩ := C37_true_iff_changed S.T ok S.ipText clock w.peers b (some source)
  have h2' : newPeer S.T S.ipText clock (w.setListener fam .reading).peers b (some source) = .ret (ps, r) := h2
  have hp : (w.onRx S fam clock (.beacon b) source).peers = ps := by
    unfold World.onRx World.orEnd
    simp only [h1, Out.ret_bind, h2']
  rw [hp]
  refine ⟨_, by unfold rxSays; simp only [h1, Out.ret_bind, h2]; rfl, ?_⟩
  rw [← h3]
  cases r <;> simp

example (h : BitVec 32) : PeerTables shipped ∧ (getStr shipped h "freespace").returns :=
  ⟨shipped_peerTables, shipped_shows h⟩

/-- The peers after a packet that is no beacon. -/
theorem onRx_peers {S : Setup} {w : World} {fam : Fam} {clock : GoTime} {f : Frame} {src : UDPAddr}
    (h : ∀ b, f ≠ .beacon b) : (w.onRx S fam clock f src).peers = w.peers := by
  unfold World.onRx World.orEnd
  cases f with
  | beacon b => exact absurd rfl (h b)
  | data b => simp only; split <;> rfl
  | metadata b => simp only; split <;> rfl
  | status b => simp only; split <;> rfl
  | request b =>
    simp only
    split
    · split <;> rfl
    · rfl
    · rfl

theorem rxSays_noPeer {S : Setup} {w : World} {fam : Fam} {clock : GoTime} {f : Frame} {src : UDPAddr} {ls : List Said}
    (hr : rxSays S w fam clock f src = .ret ls) (h : ∀ b, f ≠ .beacon b) (a : UDPAddr) :
    (⟨.msg, .newPeer a⟩ : Said) ∉ ls := by
  unfold rxSays at hr
  cases f with
  | beacon b => exact absurd rfl (h b)
  | data b => simp only at hr; obtain ⟨_, _, hr⟩ := Out.bind_eq_ret hr; cases hr; simp
  | metadata b => simp only at hr; obtain ⟨_, _, hr⟩ := Out.bind_eq_ret hr; cases hr; simp
  | status b => simp only at hr; obtain ⟨_, _, hr⟩ := Out.bind_eq_ret hr; cases hr; simp
  | request b =>
    simp only at hr
    obtain ⟨⟨e, told⟩, he, hr⟩ := Out.bind_eq_ret hr
    simp only [if_neg (addRxSays_sent he), List.append_nil] at hr
    cases hr
    simp

/-- **C134** As long as the program runs, the addresses announced so far are exactly those in the table of peers. -/
theorem C134_announced_partial (S : Setup) (ok : PeerTables S.T) (fs : FS) (k : Spoken) (h : k.Reached S fs)
    (run : k.world.main ≠ .ended) (addr : String) :
    addr ∈ k.world.peers.map Peer.addr ↔ ∃ a, ⟨.msg, .newPeer a⟩ ∈ k.lines ∧ S.ipText a.ip = addr := by
  revert addr
  refine reached_induction (P := fun k => ∀ addr, addr ∈ k.world.peers.map Peer.addr ↔
    ∃ a, ⟨.msg, .newPeer a⟩ ∈ k.lines ∧ S.ipText a.ip = addr) ?_ ?_ h run
  · intro addr
    constructor
    · intro hm; cases hm
    · rintro ⟨a, hm, _⟩; cases hm
  · intro k a w ih hm hs hr addr
    have quiet : w.peers = k.world.peers → (∀ a', (⟨.msg, .newPeer a'⟩ : Said) ∉ k.world.says S a) →
        (addr ∈ w.peers.map Peer.addr ↔
          ∃ a', ⟨.msg, .newPeer a'⟩ ∈ k.lines ++ k.world.says S a ∧ S.ipText a'.ip = addr) := by
      intro hp hn
      rw [hp, ih addr]
      constructor
      · rintro ⟨a', h1, h2⟩; exact ⟨a', List.mem_append_left _ h1, h2⟩
      · rintro ⟨a', h1, h2⟩
        rcases List.mem_append.1 h1 with h1 | h1
        · exact ⟨a', h1, h2⟩
        · exact absurd h1 (hn a')
    rcases says_cases hs hr with ⟨d, act, ls, rfl, h1, h2, _, _, _, h3⟩ | ⟨h2, _, _, _, h3⟩ |
      ⟨fam, clock, f, src, ls, _, _, h1, h2, hw, _⟩ | ⟨fam, s, src, h2, _, _, _, h3⟩ | ⟨h2, _, _, _, h3⟩
    · exact quiet h3 fun a' => by rw [h2]; exact ((listen_lines h1).2.2 a').2
    · exact quiet h3 fun a' => by rw [h2]; simp
    · by_cases hb : ∃ b, f = .beacon b
      · obtain ⟨b, rfl⟩ := hb
        have hps : ∀ ps r, newPeer S.T S.ipText clock k.world.peers b (some src) = .ret (ps, r) →
            w.peers = ps ∧ k.world.says S a = ⟨.packet, .rx (.beacon b)⟩ :: (if r then [⟨.msg, .newPeer src⟩] else []) := by
          intro ps r hn
          rw [h2]
          unfold rxSays at h1
          simp only at h1
          obtain ⟨u, hu, h1⟩ := Out.bind_eq_ret h1
          rw [hn] at h1
          cases h1
          refine ⟨?_, rfl⟩
          rw [hw]
          unfold World.onRx World.orEnd
          have hn' : newPeer S.T S.ipText clock (k.world.setListener fam .reading).peers b (some src) = .ret (ps, r) := hn
          simp only [hu, Out.ret_bind, hn']
        rcases newPeer_cases ok S.ipText clock k.world.peers b src with
            ⟨pre, p, post, hq, hp, hpre, ⟨_, hn⟩ | ⟨hn, p', hn', ha, _⟩⟩ | ⟨hno, p, hn, ha, _⟩
        · obtain ⟨e1, e2⟩ := hps _ _ hn
          refine quiet e1 fun a' => ?_
          rw [e2]; simp
        · obtain ⟨e1, e2⟩ := hps _ _ hn'
          rw [e2]
          have same : w.peers.map Peer.addr = k.world.peers.map Peer.addr := by
            rw [e1, hq]; simp [ha]
          simp only [if_true]
          rw [same, ih addr]
          constructor
          · rintro ⟨a', h1, h2⟩; exact ⟨a', List.mem_append_left _ h1, h2⟩
          · rintro ⟨a', h1, h2⟩
            rcases List.mem_append.1 h1 with h1 | h1
            · exact ⟨a', h1, h2⟩
            · have : a' = src := by simpa using h1
              subst this
              rw [← ih addr, hq]
              simp [← h2, hp]
        · obtain ⟨e1, e2⟩ := hps _ _ hn
          rw [e2, e1]
          simp only [if_true, List.map_append, List.map_cons, List.map_nil, List.mem_append, List.mem_singleton]
          rw [ih addr, ha]
          constructor
          · rintro (⟨a', h1, h2⟩ | rfl)
            · exact ⟨a', Or.inl h1, h2⟩
            · exact ⟨src, Or.inr (by simp), rfl⟩
          · rintro ⟨a', h1 | h1, h2⟩
            · exact Or.inl ⟨a', h1, h2⟩
            · have : a' = src := by simpa using h1
              subst this
              exact Or.inr h2.symm
      · have hb' : ∀ b, f ≠ .beacon b := fun b e => hb ⟨b, e⟩
        exact quiet (by rw [hw]; exact onRx_peers hb') fun a' => by rw [h2]; exact rxSays_noPeer h1 hb' a'
    · exact quiet h3 fun a' => by rw [h2]; simp
    · exact quiet h3 fun a' => by rw [h2]; simp

/-- Two beacons of one host with different names. -/
def twoBeacons : List Action :=
  [.recv ⟨.v4, ⟨0, 0⟩, [0x20, 0, 0, 0, 104, 105, 33, 33], someone⟩, .takeRx .v4 ⟨0, 0⟩,
   .recv ⟨.v4, ⟨0, 0⟩, [0x20, 0, 0, 0, 104, 105, 33, 34], someone⟩, .takeRx .v4 ⟨0, 0⟩]

example : ∃ k, (Spoken.init tranFS).run shippedSetup twoBeacons = some k ∧ k.world.main = .select :=
  ⟨_, rfl, by decide +kernel⟩

/-- **C134** fails for peers: a host that is in the table already and sends a beacon with another name is announced as
a new peer once more. -/
theorem C134_counterexample : ∃ k, (Spoken.init tranFS).run shippedSetup twoBeacons = some k ∧
    k.world.main = .select ∧ k.world.peers.length = 1 ∧
    k.lines.filter (·.board = .msg) = [⟨.msg, .newPeer someone⟩, ⟨.msg, .newPeer someone⟩] :=
  ⟨_, rfl, by decide +kernel, by decide +kernel, by decide +kernel⟩

/-- **C134** fails for transfers: "New transfer request" is printed in no execution, whatever the tables. The main loop
has the line after its send on the queue that only it reads. -/
theorem C134_never_announced (S : Setup) (fs : FS) (k : Spoken) (h : k.Reached S fs) (a : UDPAddr) (b : Board) :
    (⟨b, .newTransfer a⟩ : Said) ∉ k.lines := by
  obtain ⟨acts, h⟩ := h
  refine spoken_induction (P := fun k => (⟨b, .newTransfer a⟩ : Said) ∉ k.lines) ?_ acts (by simp [Spoken.init]) h
  intro k act w ih _ hm
  rcases List.mem_append.1 hm with hm | hm
  · exact ih hm
  · cases act with
    | recv d =>
      simp only [World.says] at hm
      cases hx : listenSays S.T d.clock S.mtu d.bytes d.source with
      | fatal => rw [hx] at hm; cases hm
      | panic => rw [hx] at hm; cases hm
      | ret p =>
        obtain ⟨act, ls⟩ := p
        rw [hx] at hm
        cases listenSays_prints S.T d.clock S.mtu d.bytes d.source act ls hx _ hm
    | readError g => simp [World.says] at hm
    | takeRx g clock =>
      simp only [World.says] at hm
      split at hm
      · rename_i f src _
        cases hx : rxSays S k.world g clock f src with
        | fatal => rw [hx] at hm; cases hm
        | panic => rw [hx] at hm; cases hm
        | ret ls =>
          rw [hx] at hm
          have hm : (⟨b, .newTransfer a⟩ : Said) ∈ ls := hm
          cases b with
          | msg => exact (rxSays_lines hx).2.2.2.2.2 a hm
          | err =>
            have := (rxSays_lines hx).2.2.2.1 (.newTransfer a) (by
              unfold errorLines
              exact List.mem_map.2 ⟨_, List.mem_filter.2 ⟨hm, rfl⟩, rfl⟩)
            cases this
          | packet =>
            unfold rxSays at hx
            cases f with
            | beacon c =>
              simp only at hx
              obtain ⟨_, _, hx⟩ := Out.bind_eq_ret hx
              obtain ⟨⟨ps, n⟩, _, hx⟩ := Out.bind_eq_ret hx
              cases hx
              cases n <;> simp at hm
            | data c => simp only at hx; obtain ⟨_, _, hx⟩ := Out.bind_eq_ret hx; cases hx; simp at hm
            | metadata c => simp only at hx; obtain ⟨_, _, hx⟩ := Out.bind_eq_ret hx; cases hx; simp at hm
            | status c => simp only at hx; obtain ⟨_, _, hx⟩ := Out.bind_eq_ret hx; cases hx; simp at hm
            | request c =>
              simp only at hx
              obtain ⟨⟨e, told⟩, he, hx⟩ := Out.bind_eq_ret hx
              simp only [if_neg (addRxSays_sent he), List.append_nil] at hx
              cases hx
              simp at hm
      · cases hm
    | takeTx g =>
      simp only [World.says] at hm
      split at hm
      · rename_i s src _
        cases hx : s.shortPrint S.T with
        | fatal => rw [hx] at hm; cases hm
        | panic => rw [hx] at hm; cases hm
        | ret u =>
          rw [hx] at hm
          simp [orNothing] at hm
      · cases hm
    | takeQuit g => cases hm
    | userQuit => cases hm
    | kill => cases hm
    | files g => cases hm

example : ∃ k, (Spoken.init tranFS).run shippedSetup twoBeacons = some k ∧ k.lines ≠ [] :=
  ⟨_, rfl, by decide +kernel⟩

/-- **C134** And there are transfers to announce: with tables that know the two missing names, a request is followed by
a transfer in the table. -/
theorem C134_transfer_counterexample : ∃ k t, (Spoken.init tranFS).run patchedSetup
      [.recv ⟨.v4, ⟨0, 0⟩, someRequest, someone⟩, .takeRx .v4 ⟨1000000000, 0⟩] = some k ∧
    k.world.transfers = [t] ∧ t.peer = someone ∧
    k.lines = [⟨.msg, .received .v4 "REQUEST"⟩, ⟨.packet, .rx (.request ⟨0x210F0001#32, 5, [0x66#8], []⟩)⟩] :=
  ⟨_, _, rfl, rfl, by decide +kernel, by decide +kernel⟩

/-! ## C135 -/

theorem answerSays_eq {T : Tables} (ht : TranTables T) (clock : GoTime) (fs : FS) (trans : List RxTran)
    (code : String) (hc : code ∈ tranCodes) (result : Bool) (b : List Told) :
    ∃ e, answerSays T clock fs trans ("errcode=" ++ code) result b = .ret (e, b) := by
  obtain ⟨st, _, h⟩ := answerWith_eq ht clock fs trans code hc result
  unfold answerWith at h
  unfold answerSays
  cases hn : Status.new T clock Status.zero ("errcode=" ++ code) ⟨0, 0, 0, []⟩ with
  | fatal => rw [hn] at h; cases h
  | panic => rw [hn] at h; cases h
  | ret p =>
    obtain ⟨x, e⟩ := p
    rw [hn] at h
    cases e with
    | none => exact ⟨_, rfl⟩
    | some e => cases h

/-- What is said agrees with the code. -/
def Agrees (q : Asked) (fname : List Byte) (x : Out (TranEnd × List Told)) : Prop :=
  ∃ e told, x = .ret (e, told) ∧
    ((q.code = "success" ∧ told = []) ∨
     (q.code ≠ "success" ∧ ∃ t, told = [t] ∧ t.code = some q.code ∧ t.IsSo q fname))

/-- **C135** A request of version 1 (the listener lets no other through, C42) whose flags can be read is answered, and
what is printed agrees with the answer: nothing if the answer is success, and otherwise one line in the error window,
which belongs to the code answered and tells what is so. -/
theorem C135_reason (T : Tables) (ht : TranTables T) (clock : GoTime) (sardir : List Byte) (fs : FS)
    (trans : List RxTran) (r : Request) (source : UDPAddr) (q : Asked) (hq : Asks T sardir fs r q)
    (v1 : q.version = "v1") :
    ∃ e told, addRxSays T clock sardir fs trans r source = .ret (e, told) ∧
      ((q.code = "success" ∧ told = []) ∨
       (q.code ≠ "success" ∧ ∃ t, told = [t] ∧ t.code = some q.code ∧ t.IsSo q r.fname)) := by
  show Agrees q r.fname (addRxSays T clock sardir fs trans r source)
  have fail : ∀ (code : String) (t : Told), code ∈ tranCodes → code ≠ "success" → q.code = code →
      t.code = some code → t.IsSo q r.fname →
      Agrees q r.fname (answerSays T clock fs trans ("errcode=" ++ code) false [t]) := by
    intro code t hc hne hcode h1 h2
    obtain ⟨e, he⟩ := answerSays_eq ht clock fs trans code hc false [t]
    exact ⟨e, [t], he, Or.inr ⟨by rw [hcode]; exact hne, t, rfl, by rw [hcode]; exact h1, h2⟩⟩
  have done : ∀ fs', q.code = "success" →
      Agrees q r.fname (answerSays T clock fs' trans ("errcode=" ++ "success") true []) := by
    intro fs' hcode
    obtain ⟨e, he⟩ := answerSays_eq ht clock fs' trans "success" (by decide) true []
    exact ⟨e, [], he, Or.inl ⟨hcode, rfl⟩⟩
  have start : ∀ tt, q.code = "success" → Agrees q r.fname (startSays T clock fs trans r tt source) := by
    intro tt hcode
    obtain ⟨h, _, hnow⟩ := epoch_now ht.epoch clock
    unfold startSays
    rw [hnow]
    simp only [Out.ret_bind]
    obtain ⟨e, he⟩ := answerSays_eq ht clock fs
      (trans ++ [⟨source, r.session, tt, r.fname, "epoch_2000_32",
        { Timestamp.zero with header := h, loc := utf8 "epoch_2000_32", ttype := "epoch_2000_32" },
        "none", 0, 0, []⟩]) "success" (by decide) true []
    exact ⟨e, [], he, Or.inl ⟨hcode, rfl⟩⟩
  obtain ⟨version, udplite, stream, rx, tx, rt, present, removable⟩ := q
  obtain ⟨h1, h2, h3, h4, h5, h6, h7, h8⟩ := hq
  simp only at h1 h2 h3 h4 h5 h6 h7 h8 v1
  subst v1
  unfold addRxSays
  simp only [h1, h2, h3, h4, h5, h6, Out.ret_bind]
  have code : Asked.code ⟨"v1", udplite, stream, rx, tx, rt, present, removable⟩ =
      firstCode "success" [
        (udplite != "no", "badrequest"), (stream != "no", "badrequest"), (rx == "invalid", "cantreceive"),
        (tx == "invalid", "cantsend"),
        (!["get", "getdir", "take", "put", "give", "delete"].contains rt, "badrequest"),
        (["get", "getdir", "take"].contains rt && rx != "yes", "cantreceive"),
        (["put", "give"].contains rt && tx != "yes", "cantsend"),
        (["get", "getdir", "take", "delete"].contains rt && !present, "filenotfound"),
        (["put", "give"].contains rt && present, "fileinuse"),
        (rt == "delete" && !removable, "didnotdelete")] := rfl
  by_cases a2 : udplite = "no"
  rotate_left
  · rw [if_neg (by simp), if_pos a2]
    exact fail "badrequest" .udplite (by decide) (by decide) (by rw [code]; simp [firstCode, a2]) rfl a2
  by_cases a3 : stream = "no"
  rotate_left
  · rw [if_neg (by simp), if_neg (by simp [a2]), if_pos a3]
    exact fail "badrequest" .streams (by decide) (by decide) (by rw [code]; simp [firstCode, a2, a3]) rfl a3
  by_cases a4 : rx = "invalid"
  · rw [if_neg (by simp), if_neg (by simp [a2]), if_neg (by simp [a3]), if_pos a4]
    exact fail "cantreceive" .rxInvalid (by decide) (by decide) (by rw [code]; simp [firstCode, a2, a3, a4]) rfl a4
  by_cases a5 : tx = "invalid"
  · rw [if_neg (by simp), if_neg (by simp [a2]), if_neg (by simp [a3]), if_neg a4, if_pos a5]
    exact fail "cantsend" .txInvalid (by decide) (by decide) (by rw [code]; simp [firstCode, a2, a3, a4, a5]) rfl a5
  rw [if_neg (by simp), if_neg (by simp [a2]), if_neg (by simp [a3]), if_neg a4, if_neg a5]
  rw [← h7]
  by_cases b1 : rt = "get" ∨ rt = "getdir" ∨ rt = "take"
  · have c1 : ["get", "getdir", "take", "put", "give", "delete"].contains rt = true := by
      rcases b1 with rfl | rfl | rfl <;> decide
    have c2 : ["get", "getdir", "take"].contains rt = true := by rcases b1 with rfl | rfl | rfl <;> decide
    have c3 : ["put", "give"].contains rt = false := by rcases b1 with rfl | rfl | rfl <;> decide
    have c4 : ["get", "getdir", "take", "delete"].contains rt = true := by rcases b1 with rfl | rfl | rfl <;> decide
    have c5 : ¬ rt = "delete" := by rcases b1 with rfl | rfl | rfl <;> decide
    have base : Asked.code ⟨"v1", udplite, stream, rx, tx, rt, present, removable⟩ =
        if rx = "yes" then (if present then "success" else "filenotfound") else "cantreceive" := by
      rw [code]
      simp only [firstCode, a2, a3, a4, a5, c1, c2, c3, c4, c5]
      by_cases d1 : rx = "yes" <;> cases present <;> simp [d1, c5, a4, a5]
    rw [if_pos b1]
    by_cases d1 : rx = "yes"
    · rw [if_neg (by simp [d1])]
      cases present with
      | false =>
        rw [if_pos (by rfl)]
        exact fail "filenotfound" _ (by decide) (by decide) (by rw [base]; simp [d1]) rfl ⟨rfl, rfl, rfl⟩
      | true =>
        rw [if_neg (by decide)]
        exact start _ (by rw [base]; simp [d1])
    · rw [if_pos d1]
      exact fail "cantreceive" _ (by decide) (by decide) (by rw [base]; simp [d1]) rfl ⟨rfl, d1⟩
  rw [if_neg b1]
  by_cases b2 : rt = "delete"
  · subst b2
    have base : Asked.code ⟨"v1", udplite, stream, rx, tx, "delete", present, removable⟩ =
        if present then (if removable then "success" else "didnotdelete") else "filenotfound" := by
      rw [code]
      simp only [firstCode, a2, a3, a4, a5]
      cases present <;> cases removable <;> simp [a4, a5]
    rw [if_pos rfl]
    cases present with
    | false =>
      rw [if_pos (by rfl)]
      exact fail "filenotfound" _ (by decide) (by decide) (by rw [base]; simp) rfl ⟨rfl, rfl, rfl⟩
    | true =>
      rw [if_neg (by decide)]
      rcases remove_effect fs (fullName sardir r.fname) with ⟨e, he⟩ | ⟨l, _, _, he⟩
      · have hrm : fileRm sardir fs r.fname = (fs, some e) := he
        rw [hrm] at h8 ⊢
        simp only [reduceCtorEq, decide_false] at h8
        subst h8
        exact fail "didnotdelete" _ (by decide) (by decide) (by rw [base]; simp) rfl ⟨rfl, rfl⟩
      · have hrm : fileRm sardir fs r.fname = (fs.del l, none) := he
        rw [hrm] at h8 ⊢
        simp only [decide_true] at h8
        subst h8
        exact done _ (by rw [base]; simp)
  rw [if_neg b2]
  by_cases b3 : rt = "put" ∨ rt = "give"
  · have c1 : ["get", "getdir", "take", "put", "give", "delete"].contains rt = true := by
      rcases b3 with rfl | rfl <;> decide
    have c2 : ["get", "getdir", "take"].contains rt = false := by rcases b3 with rfl | rfl <;> decide
    have c3 : ["put", "give"].contains rt = true := by rcases b3 with rfl | rfl <;> decide
    have c4 : ["get", "getdir", "take", "delete"].contains rt = false := by rcases b3 with rfl | rfl <;> decide
    have base : Asked.code ⟨"v1", udplite, stream, rx, tx, rt, present, removable⟩ =
        if tx = "yes" then (if present then "fileinuse" else "success") else "cantsend" := by
      rw [code]
      simp only [firstCode, a2, a3, a4, a5, c1, c2, c3, c4, b2]
      by_cases d1 : tx = "yes" <;> cases present <;> simp [d1, b2, a4, a5]
    rw [if_pos b3]
    by_cases d1 : tx = "yes"
    · rw [if_neg (by simp [d1])]
      cases present with
      | true =>
        rw [if_pos rfl]
        exact fail "fileinuse" _ (by decide) (by decide) (by rw [base]; simp [d1]) rfl ⟨rfl, rfl, rfl⟩
      | false =>
        rw [if_neg (by decide)]
        exact start _ (by rw [base]; simp [d1])
    · rw [if_pos d1]
      exact fail "cantsend" _ (by decide) (by decide) (by rw [base]; simp [d1]) rfl ⟨rfl, d1⟩
  · have c0 : rt ∉ ["get", "getdir", "take", "put", "give", "delete"] := by
      simp only [List.mem_cons, List.not_mem_nil, or_false]
      rintro (h | h | h | h | h | h)
      · exact b1 (.inl h)
      · exact b1 (.inr (.inl h))
      · exact b1 (.inr (.inr h))
      · exact b3 (.inl h)
      · exact b3 (.inr h)
      · exact b2 h
    have c1 : ["get", "getdir", "take", "put", "give", "delete"].contains rt = false := by
      simp only [List.contains_eq_mem, decide_eq_false_iff_not]
      exact c0
    rw [if_neg b3]
    exact fail "badrequest" .unknownRequest (by decide) (by decide)
      (by rw [code]; simp only [firstCode, a2, a3, a4, a5, c1]; simp [a4, a5]) rfl c0

-- a request to delete a file that is not there
example : ∃ e, addRxSays patched ⟨1000000000, 0⟩ [slash, 0x64#8] tranFS [] ⟨0x210F0005#32, 5, [0x67#8], []⟩ someone =
    .ret (e, [.missing [0x67#8] "delete"]) := ⟨_, by rfl⟩

/-- **C135** In the whole program: for a request that the listener passed on nothing else is printed. -/
theorem C135_lines (S : Setup) (ht : TranTables S.T) (w : World) (fam : Fam) (clock : GoTime) (r : Request)
    (source : UDPAddr) (q : Asked) (hq : Asks S.T S.sardir w.fs r q) (v1 : q.version = "v1") :
    ∃ ls, rxSays S w fam clock (.request r) source = .ret ls ∧
      ls.filter (·.board = .msg) = [⟨.msg, .received fam "REQUEST"⟩] ∧
      ls.filter (·.board = .packet) = [⟨.packet, .rx (.request r)⟩] ∧
      ((q.code = "success" ∧ errorLines ls = []) ∨
       (q.code ≠ "success" ∧ ∃ t, errorLines ls = [t] ∧ t.code = some q.code ∧ t.IsSo q r.fname)) := by
  obtain ⟨e, told, he, hc⟩ := C135_reason S.T ht clock S.sardir w.fs w.transfers r source q hq v1
  have hls : rxSays S w fam clock (.request r) source =
      .ret ([⟨.msg, .received fam "REQUEST"⟩, ⟨.packet, .rx (.request r)⟩] ++ told.map (Said.mk .err)) := by
    unfold rxSays
    simp only [he, Out.ret_bind]
    rw [if_neg (addRxSays_sent he), List.append_nil]
    rfl
  refine ⟨_, hls, ?_⟩
  rcases hc with ⟨h1, rfl⟩ | ⟨h1, t, rfl, h2, h3⟩
  · exact ⟨by simp, by simp, Or.inl ⟨h1, rfl⟩⟩
  · exact ⟨by simp, by simp, Or.inr ⟨h1, t, rfl, h2, h3⟩⟩

/-- **C135** With the shipped tables no request gets an answer or a reason: it ends the process (C40). -/
theorem C135_shipped (S : Setup) (hT : S.T = shipped) (w : World) (fam : Fam) (clock : GoTime) (r : Request)
    (source : UDPAddr) : rxSays S w fam clock (.request r) source = .fatal := by
  have h := addRxSays_hushed S.T clock S.sardir w.fs w.transfers r source
  rw [hT, C40_counterexample] at h
  unfold rxSays
  rw [hT]
  cases hx : addRxSays shipped clock S.sardir w.fs w.transfers r source with
  | ret p => rw [hx] at h; cases h
  | fatal => rfl
  | panic => rw [hx] at h; cases h

end Saratoga
