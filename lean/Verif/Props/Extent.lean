import Verif.Props.Survive
import Verif.Props.Report
import Verif.Props.Stamped
import Verif.Props.Teach
import Verif.Props.Transfers
import Verif.Props.Files
import Verif.Props.Peers
/-!
# Exactly how far C38, C55, C61, C71, C87 and C88 hold
-/
namespace Saratoga

/-! ## C38 -/

/-- The calls for an address that have not returned. -/
def waiting (a : String) (calls : List PeerCall) : Nat :=
  calls.countP fun c => decide (c.addr = a) && match c.at_ with | .done _ => false | _ => true

theorem waiting_set {a : String} {cs : List PeerCall} {k : Nat} {c d : PeerCall} (h : cs[k]? = some c) :
    waiting a (cs.set k d) + waiting a [c] = waiting a cs + waiting a [d] := by
  induction cs generalizing k with
  | nil => cases h
  | cons e' cs ih =>
    have cons : ∀ (x : PeerCall) l, waiting a (x :: l) = waiting a [x] + waiting a l := by
      intro x l
      simp only [waiting, List.countP_cons, List.countP_nil]
      omega
    cases k with
    | zero =>
      cases h
      show waiting a (d :: cs) + _ = _
      rw [cons d cs, cons c cs]
      omega
    | succ k =>
      have := ih (k := k) h
      show waiting a (e' :: cs.set k d) + _ = _
      rw [cons e', cons e' cs]
      omega

theorem peerStep_waiting {T : Tables} {ps ps' : List Peer} {cs cs' : List PeerCall} {k : Nat} (a : String)
    (h : peerStep T (ps, cs) k = .ret (ps', cs')) :
    entries a ps' + waiting a cs' ≤ entries a ps + waiting a cs := by
  unfold peerStep at h
  split at h
  · cases h; exact Nat.le_refl _
  · rename_i c hc
    split at h
    · rename_i hs
      cases h
      have := waiting_set (a := a) (d := { c with at_ := .scanned (findPeer c.addr ps 0) }) hc
      have e : waiting a [{ c with at_ := .scanned (findPeer c.addr ps 0) }] = waiting a [c] := by
        simp [waiting, hs]
      simp only at this ⊢
      omega
    · rename_i i hs
      obtain ⟨⟨ps2, r⟩, hu, h⟩ := Out.bind_eq_ret h
      simp only [Out.pure_eq, Out.ret.injEq, Prod.mk.injEq] at h
      obtain ⟨rfl, rfl⟩ := h
      have hadd := updatePeer_addrs hu
      have := waiting_set (a := a) (d := { c with at_ := .done r }) hc
      have e : waiting a [{ c with at_ := .done r }] = 0 := by simp [waiting]
      have e2 : entries a ps2 = entries a ps := by unfold entries; rw [hadd]
      simp only at this ⊢
      omega
    · rename_i hs
      obtain ⟨⟨ps2, r⟩, hu, h⟩ := Out.bind_eq_ret h
      simp only [Out.pure_eq, Out.ret.injEq, Prod.mk.injEq] at h
      obtain ⟨rfl, rfl⟩ := h
      have hadd := appendPeer_addrs hu
      have := waiting_set (a := a) (d := { c with at_ := .done r }) hc
      have e : waiting a [{ c with at_ := .done r }] = 0 := by simp [waiting]
      have e2 : entries a ps2 = entries a ps + waiting a [c] := by
        unfold entries
        rw [hadd, List.count_append]
        by_cases hc : c.addr = a <;> simp [hc, waiting, hs]
      simp only at this ⊢
      omega
    · cases h; exact Nat.le_refl _

/-- **C38** How many entries an address can get: in every schedule at most as many more as there are calls for it that
have not returned. -/
theorem C38_bound (T : Tables) (a : String) (schedule : List Nat) (peers peers' : List Peer)
    (calls calls' : List PeerCall) (run : peerRun T (peers, calls) schedule = .ret (peers', calls')) :
    entries a peers' + waiting a calls' ≤ entries a peers + waiting a calls := by
  induction schedule generalizing peers calls with
  | nil => cases run; exact Nat.le_refl _
  | cons k ks ih =>
    obtain ⟨⟨ps1, cs1⟩, h1, h2⟩ := Out.bind_eq_ret run
    exact Nat.le_trans (ih _ _ h2) (peerStep_waiting a h1)

example : (peerRun shipped ([], List.replicate 2 ⟨⟨0x20000000#32, 0, []⟩, "10.0.0.1", ⟨0, 0⟩, .start⟩)
    [0, 1, 1, 0, 0, 1]).returns := by decide +kernel

theorem peerRun_append {T : Tables} (a b : List Nat) (s : List Peer × List PeerCall) :
    peerRun T s (a ++ b) = (do let s ← peerRun T s a; peerRun T s b) := by
  induction a generalizing s with
  | nil => rfl
  | cons k ks ih =>
    show (peerStep T s k).bind _ = ((peerStep T s k).bind _).bind _
    cases peerStep T s k with
    | ret s1 => exact ih s1
    | fatal => rfl
    | panic => rfl

/-- **C38** And it can get as many: any number of beacons of one new address, all looked up before the first is entered,
make that number of entries. -/
theorem C38_attained (n : Nat) (b : Beacon) (t : GoTime) (a : String) (peers : List Peer) (new : entries a peers = 0) :
    ∃ schedule peers' calls', peerRun shipped (peers, List.replicate n ⟨b, a, t, .start⟩) schedule = .ret (peers', calls') ∧
      entries a peers' = n ∧ waiting a calls' = 0 := by
  have hf : findPeer a peers 0 = none := by
    rw [findPeer_none]
    intro p hp e
    have : 0 < entries a peers := List.count_pos_iff.2 (e ▸ List.mem_map_of_mem hp)
    omega
  have setAt : ∀ (pre : List PeerCall) (x y : PeerCall) (l : List PeerCall),
      (pre ++ x :: l).set pre.length y = (pre ++ [y]) ++ l := by
    intro pre x y l
    rw [List.set_append_right _ _ (Nat.le_refl _), Nat.sub_self]
    simp
  have scan : ∀ (m : Nat) (pre : List PeerCall),
      peerRun shipped (peers, pre ++ List.replicate m ⟨b, a, t, .start⟩) (List.range' pre.length m) =
        .ret (peers, pre ++ List.replicate m ⟨b, a, t, .scanned none⟩) := by
    intro m
    induction m with
    | zero => intro pre; rfl
    | succ m ih =>
      intro pre
      have e : peerStep shipped (peers, pre ++ List.replicate (m + 1) ⟨b, a, t, .start⟩) pre.length =
          .ret (peers, (pre ++ [⟨b, a, t, .scanned none⟩]) ++ List.replicate m ⟨b, a, t, .start⟩) := by
        have hg : (pre ++ List.replicate (m + 1) (⟨b, a, t, .start⟩ : PeerCall))[pre.length]? =
            some ⟨b, a, t, .start⟩ := by
          rw [List.getElem?_append_right (Nat.le_refl _), Nat.sub_self]
          rfl
        unfold peerStep
        simp only [hg, hf]
        rw [List.replicate_succ, setAt]
      rw [List.range'_succ]
      show (peerStep _ _ _).bind _ = _
      rw [e]
      have := ih (pre ++ [⟨b, a, t, .scanned none⟩])
      rw [List.length_append, List.length_singleton] at this
      refine this.trans ?_
      rw [List.replicate_succ, List.append_assoc]
      rfl
  obtain ⟨p, hp⟩ : ∃ p, Peer.fresh shipped t a b = .ret p := by
    obtain ⟨ps, r, h⟩ : ∃ ps r, newPeer shipped (fun _ => a) t [] b (some ⟨[], 0, ""⟩) = .ret (ps, r) := by
      rcases newPeer_cases shipped_peerTables (fun _ => a) t [] b ⟨[], 0, ""⟩ with
        ⟨pre, p, post, hp, _, _, ⟨_, h⟩ | ⟨_, _, h, _⟩⟩ | ⟨_, p, h, _⟩
      · exact ⟨_, _, h⟩
      · exact ⟨_, _, h⟩
      · exact ⟨_, _, h⟩
    obtain ⟨p, h, _⟩ := Out.bind_eq_ret (show (Peer.fresh shipped t a b).bind _ = .ret (ps, r) from h)
    exact ⟨p, h⟩
  have enter : ∀ (m : Nat) (pre : List PeerCall) (ps : List Peer),
      peerRun shipped (ps, pre ++ List.replicate m ⟨b, a, t, .scanned none⟩) (List.range' pre.length m) =
        .ret (ps ++ List.replicate m p, pre ++ List.replicate m ⟨b, a, t, .done true⟩) := by
    intro m
    induction m with
    | zero => intro pre ps; simp [peerRun]
    | succ m ih =>
      intro pre ps
      have e : peerStep shipped (ps, pre ++ List.replicate (m + 1) ⟨b, a, t, .scanned none⟩) pre.length =
          .ret (ps ++ [p], (pre ++ [⟨b, a, t, .done true⟩]) ++ List.replicate m ⟨b, a, t, .scanned none⟩) := by
        have hg : (pre ++ List.replicate (m + 1) (⟨b, a, t, .scanned none⟩ : PeerCall))[pre.length]? =
            some ⟨b, a, t, .scanned none⟩ := by
          rw [List.getElem?_append_right (Nat.le_refl _), Nat.sub_self]
          rfl
        unfold peerStep
        simp only [hg, appendPeer, hp, Out.ret_bind, Out.pure_eq]
        rw [List.replicate_succ, setAt]
      rw [List.range'_succ]
      show (peerStep _ _ _).bind _ = _
      rw [e]
      have := ih (pre ++ [⟨b, a, t, .done true⟩]) (ps ++ [p])
      rw [List.length_append, List.length_singleton] at this
      refine this.trans ?_
      simp only [List.replicate_succ, List.append_assoc, List.singleton_append]
  have pa : p.addr = a := by
    unfold Peer.fresh at hp
    obtain ⟨_, _, hp⟩ := Out.bind_eq_ret hp
    obtain ⟨_, _, hp⟩ := Out.bind_eq_ret hp
    obtain ⟨_, _, hp⟩ := Out.bind_eq_ret hp
    obtain ⟨_, _, hp⟩ := Out.bind_eq_ret hp
    cases hp; rfl
  refine ⟨List.range' 0 n ++ List.range' 0 n, peers ++ List.replicate n p, List.replicate n ⟨b, a, t, .done true⟩,
    ?_, ?_, ?_⟩
  · rw [peerRun_append]
    have h1 := scan n []
    have h2 := enter n [] peers
    simp only [List.nil_append, List.length_nil] at h1 h2
    rw [h1]
    exact h2
  · unfold entries at new ⊢
    rw [List.map_append, List.count_append, new, List.map_replicate, pa]
    simp
  · simp [waiting]

example : ∃ schedule peers' calls', peerRun shipped ([], List.replicate 5 ⟨⟨0x20000000#32, 0, []⟩, "10.0.0.1", ⟨0, 0⟩,
    .start⟩) schedule = .ret (peers', calls') ∧ entries "10.0.0.1" peers' = 5 ∧ waiting "10.0.0.1" calls' = 0 :=
  C38_attained 5 _ _ _ [] rfl

/-! ## C55 -/

/-- **C55** Exactly which existing files keep their bytes when a file of that name is to be received: empty ones, those
for which the directory followed by the full name exists too, and those the operating system refuses to write. -/
theorem C55_kept_iff (sardir fname : List Byte) (fs : FS) (ttype : String) (l : Loc) (c : List Byte)
    (ht : ttype = "get" ∨ ttype = "take")
    (hl : fs.locate (fullName sardir fname) = some l) (hn : fs.node l = some (.file c)) :
    (fileOpen sardir fs fname ttype).1.node l = some (.file c) ↔
      c = [] ∨ fileExists sardir fs (fullName sardir fname) = true ∨ fs.refuses .create l = true := by
  by_cases hx : fileExists sardir fs (fullName sardir fname) = true
  · rw [(C55_partial sardir fname fs ttype ht).1 hx]
    exact ⟨fun _ => .inr (.inl hx), fun _ => hn⟩
  · have hx' : fileExists sardir fs (fullName sardir fname) = false := by simpa using hx
    by_cases hr : fs.refuses .create l = true
    · refine ⟨fun _ => .inr (.inr hr), fun _ => ?_⟩
      unfold fileOpen
      simp only [ht, if_true, hx', Bool.false_eq_true, if_false]
      unfold FS.create
      simp only [hl, hr, if_true]
      exact hn
    · obtain ⟨h, _, _, e⟩ := C55_overwrites sardir fname fs ttype l c ht hl hn (by simpa using hr) hx'
      rw [e]
      simp only [Option.some.injEq, Node.file.injEq]
      exact ⟨fun h => .inl h.symm, fun h => h.elim Eq.symm fun h => h.elim (absurd · hx) (absurd · hr)⟩

example : exFS.locate (fullName exDir exName) = some [[0x64#8], [0x66#8]] ∧
    exFS.node [[0x64#8], [0x66#8]] = some (.file [7#8, 8#8]) ∧
    fileExists exDir exFS (fullName exDir exName) = false := by decide

/-! ## C71 -/

/-- **C71** Exactly when a transfer is started: every transfer in the table has a connection, none is of the same file
with the same peer, and, if there is one at all, what is to be fetched is not there yet. -/
theorem C71_starts_iff (env : TranEnv) (c : Cliflags) (w w' : TranWorld) (ttype : String) (peer : UDPAddr)
    (fname : List Byte) (r : Except Err Transfer)
    (h : newInitiator env c w ttype peer fname = .ret (w', r)) :
    (∃ t, r = .ok t) ↔ ∀ i ∈ w.transfers, i.conn ≠ none ∧
      ¬ (fname = i.filename ∧ env.str peer = env.str i.peer) ∧
      ¬ (fileExists env.sardir w.fs fname = true ∧ (ttype = "get" ∨ ttype = "getdelete" ∨ ttype = "getdir")) := by
  have key : ∀ ts : List Transfer, scanTransfers env w.fs ttype peer fname ts = .clear ↔ ∀ i ∈ ts, i.conn ≠ none ∧
      ¬ (fname = i.filename ∧ env.str peer = env.str i.peer) ∧
      ¬ (fileExists env.sardir w.fs fname = true ∧ (ttype = "get" ∨ ttype = "getdelete" ∨ ttype = "getdir")) := by
    intro ts
    induction ts with
    | nil => simp [scanTransfers]
    | cons a rest ih =>
      simp only [scanTransfers]
      by_cases h1 : a.conn = none
      · rw [if_pos h1]
        exact ⟨(fun h => by cases h), fun h => absurd h1 (h a (List.mem_cons_self ..)).1⟩
      rw [if_neg h1]
      by_cases h2 : fileExists env.sardir w.fs fname = true ∧ (ttype = "get" ∨ ttype = "getdelete" ∨ ttype = "getdir")
      · rw [if_pos h2]
        exact ⟨(fun h => by cases h), fun h => absurd h2 (h a (List.mem_cons_self ..)).2.2⟩
      rw [if_neg h2]
      by_cases h3 : fname = a.filename ∧ env.str peer = env.str a.peer
      · rw [if_pos h3]
        exact ⟨(fun h => by cases h), fun h => absurd h3 (h a (List.mem_cons_self ..)).2.1⟩
      rw [if_neg h3, ih]
      refine ⟨fun h i hi => ?_, fun h i hi => h i (List.mem_cons_of_mem _ hi)⟩
      rcases List.mem_cons.1 hi with rfl | hi
      · exact ⟨h1, h3, h2⟩
      · exact h i hi
  rw [← key]
  rcases newInitiator_ret h with ⟨_, _, _, e, rfl⟩ | ⟨hc, t, rfl, _⟩
  · refine ⟨fun ⟨t, ht⟩ => (by cases ht), fun hc => ?_⟩
    unfold newInitiator at h
    rw [hc] at h
    obtain ⟨_, _, h⟩ := Out.bind_eq_ret h
    cases h
  · exact ⟨fun _ => hc, fun _ => ⟨t, rfl⟩⟩

/-! ## C61 -/

/-- **C61** Exactly when a receiver learns: for all valid settings, endpoints and free space, and for every receiver
whose listener reads and whose main loop is at its `select`, the beacon makes the entry if and only if it has a size
that listeners look at. -/
theorem C61_learns_iff (gl : List (String × String)) (ok : ValidGlobal shipped gl) (env : DiskEnv)
    (bs ba : BitVec 64) (wd : env.getwd = none) (st : env.statfs = .ok (bs, ba)) (d : Beacon)
    (info : Binfo) (small : info.freespace ≠ 0xFFFFFFFFFFFFFFFF#64) :
    ∃ x frame, d.new shipped env (setglobal shipped "beacon" gl) info = .ret (x, none) ∧
      x.encode shipped = .ret (.ok frame) ∧
      ∀ (S : Setup), S.T = shipped →
      ∀ (w : World) (fam : Fam), w.main = .select → w.listener fam = .reading →
      ∀ (src : UDPAddr) (t0 t1 : GoTime),
        ((∃ w1 w2, w.step S (.recv ⟨fam, t0, frame, src⟩) = some w1 ∧
          w1.step S (.takeRx fam t1) = some w2 ∧ w2.main = .select ∧
          ∃ p ∈ w2.peers, p.addr = S.ipText src.ip ∧ Learned gl info bs ba p) ↔ Sized S.mtu frame) ∧
        (¬ Sized S.mtu frame → ∃ w1, w.step S (.recv ⟨fam, t0, frame, src⟩) = some w1 ∧ w1.peers = w.peers ∧
          w1.listener fam = .reading) := by
  obtain ⟨x, frame, h1, h2, h3⟩ := C61_learns_partial gl ok env bs ba wd st d info small
  refine ⟨x, frame, h1, h2, fun S hT w fam hm hl src t0 t1 => ?_⟩
  have drop : ¬ Sized S.mtu frame → ∃ w1, w.step S (.recv ⟨fam, t0, frame, src⟩) = some w1 ∧ w1.peers = w.peers ∧
      w1.listener fam = .reading := by
    intro no
    have hd : listenFrame S.T t0 S.mtu frame = .ret .drop := by
      rcases listenFrame_eq S.T t0 S.mtu frame with ⟨_, h⟩ | ⟨h, _⟩
      · exact h
      · exact absurd h no
    have hr : w.onRecv S ⟨fam, t0, frame, src⟩ = { w with read := w.read ++ [⟨fam, t0, frame, src⟩] } := by
      unfold World.onRecv World.orEnd
      simp only [hd]
    refine ⟨{ w with read := w.read ++ [⟨fam, t0, frame, src⟩] }, ?_, ?_, ?_⟩
    · have : w.step S (.recv ⟨fam, t0, frame, src⟩) = some (w.onRecv S ⟨fam, t0, frame, src⟩) := by
        simp only [World.step]
        exact if_pos ⟨by rw [hm]; simp, hl⟩
      rw [this, hr]
    · rfl
    · cases fam <;> exact hl
  refine ⟨⟨fun ⟨w1, w2, e1, e2, _⟩ => ?_, fun size => h3 S hT size w fam hm hl src t0 t1⟩, drop⟩
  apply Classical.byContradiction
  intro no
  obtain ⟨w1', e1', _, e3⟩ := drop no
  rw [e1] at e1'
  cases e1'
  simp only [World.step, e3] at e2
  split at e2
  · rename_i h; cases h
  · cases e2

/-! ## C87 -/

/-- **C87** Exactly when a report tells the sender what is missing: for numbers that fit the descriptor, whenever at least
one frame was sent, all of them do if and only if no timestamp is asked for. -/
theorem C87_learns_iff (mtu : Int) (clock : Nat → GoTime) (fails : Nat → Option Err) (t : Transfer)
    (hist : List AddCall) (recorded : t.curfills = Holes.run hist)
    (nonneg : ∀ c ∈ hist, c.start < c.stop → 0 ≤ c.start)
    (ps : List (String × String)) (plain : PlainPairs ps) (allValid : ∀ p ∈ ps, valid shipped p.1 p.2 = true)
    (d : String) (n : Nat) (desc : lastValue "descriptor" ps = some d) (width : descWidth d = some n)
    (noBare : ∀ p ∈ ps, p.1 ∉ bareStamps)
    (fits : ∀ c ∈ hist, c.stop ≤ 256 ^ n ∧ c.stop ≤ 2 ^ 63)
    (fitsP : t.progress.toNat < 256 ^ n) (fitsI : t.inrespto.toNat < 256 ^ n)
    (frames : List (List Byte)) (some_ : frames ≠ [])
    (ok : t.writeStatus shipped mtu clock fails (render ps) = .ret (frames, "success")) :
    (∀ f ∈ frames, ∃ st : Status, Status.zero.decode shipped f = .ret (st, none) ∧
      st.session = t.session ∧ st.progress = t.progress ∧ st.inrespto = t.inrespto ∧
      Canonical st.holes ∧
      ∀ x, Covers st.holes x ↔ 0 ≤ x ∧ ¬ Received hist x ∧ ∃ y, x < y ∧ Received hist y) ↔
    lastValue "reqtstamp" ps ≠ some "yes" := by
  refine ⟨fun all stamp => ?_, fun no => C87_learns_partial mtu clock fails t hist recorded nonneg ps plain allValid d n
    desc width no noBare fits fitsP fitsI frames ok⟩
  obtain ⟨f, hf⟩ := List.exists_mem_of_ne_nil _ some_
  obtain ⟨y, dec, _, yp, yi, yc, yh⟩ := all f hf
  have ne : ps ≠ [] := by rintro rfl; cases desc
  obtain ⟨st, enc, sh, ss, sp, si, -, -, fl⟩ := report_frames plain allValid ne noBare ok f hf
  have hr := (fl _ (.inr (.inl rfl))).1 _ stamp
  have hh : y.holes = st.holes := by
    rw [sh, recorded]
    obtain ⟨c1, c2⟩ := C04_holes_exact hist nonneg
    exact canonical_ext _ _ yc c1 fun x => (yh x).trans (c2 x).symm
  have hhead : y.header = st.header := by
    obtain ⟨rt, desc', n', h1, h2, h3, e⟩ := Status.encode_inv enc
    obtain ⟨_, _, _, _, _, _, _, _, _, _, k⟩ := Status.decode_bytes dec
    rw [e] at k
    simp only [List.append_assoc] at k
    rw [readWord_start] at k
    injection k with k
    exact k.symm
  exact stamped_differs (fun k h => by
    rw [show nameT shipped 0 = .ret "localinterp" by decide] at h
    cases h
    decide) hr enc dec hhead (by rw [yp, sp]) (by rw [yi, si]) hh

/-! ## C88 -/

/-- **C88** Exactly when every reader of a stamped data frame learns what it was built with and when: the timestamp is
not of the local type, the offset fits the descriptor, and the frame with a 16 bit descriptor has a payload. -/
theorem C88_time_iff (clock : GoTime) (ok : clock.NanoOk) (from1970 : 0 ≤ clock.sec) (text : String)
    (info : Dinfo) (x : Data) (built : Data.zero.new shipped clock text info = .ret (x, none))
    (stamped : stampNumber x.header = 1) (n : Nat) (width : HasWidth shipped "descriptor" x.header n) :
    (∃ frame, x.encode shipped = .ret (.ok frame) ∧ ∀ d0 : Data, ∃ y : Data,
      d0.decode shipped frame = .ret (y, none) ∧ y.session = info.session ∧ y.offset = info.offset ∧
      y.payload = info.payload ∧ y.tstamp.second = clock.sec ∧
      (y.tstamp.ttype ∈ nanoTypes → y.tstamp.nsecs.toNat = clock.nsec)) ↔
    x.tstamp.ttype ≠ "localinterp" ∧ info.offset.toNat < 256 ^ n ∧ ¬ (n = 2 ∧ info.payload = []) := by
  refine ⟨?_, fun ⟨a, b, c⟩ => C88_time_partial clock ok from1970 text info x built stamped a n width b c⟩
  rintro ⟨frame, enc, all⟩
  obtain ⟨y, dec, _, yo, yp, _⟩ := all Data.zero
  obtain ⟨-, e1, e2, e3⟩ := C11_data_partial shipped C11_shipped_separated.1 clock Data.zero x text info built
  have st := C76_data_time_partial clock text info x built stamped
  have hrt : getStr shipped x.header "reqtstamp" = .ret "yes" := by rw [getStr_reqtstamp, if_pos stamped]
  have notLocal : x.tstamp.ttype ≠ "localinterp" := by
    intro loc
    obtain ⟨type, mem, t0, acc⟩ := st
    have strip : stripSpaces type = type := by
      simp only [tsTypeNames, List.mem_cons, List.not_mem_nil, or_false] at mem
      rcases mem with rfl | rfl | rfl | rfl | rfl | rfl <;> decide +kernel
    have tt : type = "localinterp" := by
      obtain ⟨v, hd, _, _, p1, p2, p3, p4, p5⟩ := new_ret acc
      rw [strip] at p1 p2 p3 p4 p5
      simp only [tsTypeNames, List.mem_cons, List.not_mem_nil, or_false] at mem
      rcases mem with h | h | h | h | h | h <;>
        first
          | exact h
          | (have := (p1 h rfl).2; rw [show x.tstamp = _ from this] at loc; simp at loc)
          | (have := p2 h rfl; rw [show x.tstamp = _ from this] at loc; simp at loc)
          | (have := (p3 h rfl).2; rw [show x.tstamp = _ from this] at loc; simp at loc)
          | (have := (p4 h rfl).2; rw [show x.tstamp = _ from this] at loc; simp at loc)
          | (have := (p5 h rfl).2; rw [show x.tstamp = _ from this] at loc; simp at loc)
    subst tt
    obtain ⟨t, b, t', c1, c2, c3⟩ := C19_counterexample t0 Data.zero.tstamp clock
    rw [acc] at c1
    simp only [Out.ret.injEq, Prod.mk.injEq, and_true] at c1
    obtain ⟨rt, desc, m, ts, h1, h2, h3, h4, rfl⟩ := Data.encode_inv enc
    rw [hrt] at h1
    cases h1
    rw [if_pos rfl, c1, c2] at h4
    obtain ⟨h4, h5⟩ := h4
    cases h4
    obtain ⟨t2, hg⟩ := Data.decode_stamp (rest := numBytes m x.offset ++ x.payload) hrt h5
      (by simpa only [List.append_assoc] using dec)
    rw [c3] at hg
    cases hg
  obtain ⟨w, -, -⟩ := st.reads ok from1970 notLocal
  refine ⟨notLocal, ?_, ?_⟩
  · obtain ⟨ts, b1, b2, b3⟩ := put_bytes w
    obtain ⟨desc, hd, hn⟩ := width
    rw [← descSize_eq] at hn
    have hc := descSize_cases hn
    rw [Data.encode_eq (ts := ts) hrt hd hn (by simp [b1, b2])] at enc
    cases enc
    rw [Data.decode_eq (t := x.tstamp) Data.zero rfl hrt hd hn (by simp [b3, b2])] at dec
    simp only [Out.ret.injEq, Prod.mk.injEq] at dec
    obtain ⟨rfl, _⟩ := dec
    have := congrArg BitVec.toNat yo
    simp only at this
    rw [wireNum_toNat (by omega), e2] at this
    rw [← this]
    exact Nat.mod_lt _ (Nat.pow_pos (by decide))
  · rintro ⟨rfl, empty⟩
    obtain ⟨f, z, he, hd⟩ := C20_empty_refused shipped x Data.zero width hrt w (e3.trans empty)
    rw [enc] at he
    cases he
    rw [dec] at hd
    cases hd

end Saratoga
