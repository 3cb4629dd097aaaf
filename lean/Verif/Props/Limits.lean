import Verif.Props.Deliver
import Verif.Props.Listing
import Verif.Props.Make
import Verif.Props.Scroll
import Verif.Props.System
import Verif.Props.Keys
import Verif.Props.Startup

/-! Properties C75, C92, C99, C105, C114, C120, C121, C123: what exactly happens, as conditions that are both needed
and enough. -/

namespace Saratoga

/-! ## C75 -/

/-- **C75** Exactly: a status frame made from a header and information has the holes of the information exactly if the
variable had none. The rest of it is always as given, but for the timestamp, which stays. -/
theorem C75_status_iff (s : Status) (h : BitVec 32) (info : Sinfo) :
    ∃ x, s.make shipped h info = .ret (x, none) ∧ x.header = marked 4 h ∧ x.session = info.session ∧
      x.progress = info.progress ∧ x.inrespto = info.inrespto ∧ x.tstamp = s.tstamp ∧
      x.holes = s.holes ++ info.holes ∧ (x.holes = info.holes ↔ s.holes = []) := by
  obtain ⟨h1, e1, e2⟩ := set_marked h (name := "status") (type := 4) (by decide)
  refine ⟨⟨marked 4 h, info.session, s.tstamp, info.progress, info.inrespto, s.holes ++ info.holes⟩,
    by simp [Status.make, e1, e2], rfl, rfl, rfl, rfl, rfl, rfl, ?_⟩
  show s.holes ++ info.holes = info.holes ↔ _
  constructor
  · intro h
    have := congrArg List.length h
    rw [List.length_append] at this
    exact List.length_eq_zero_iff.1 (by omega)
  · intro h; rw [h]; rfl

/-- A variable used twice keeps the holes of the first time. -/
example : ∃ x, (Status.mk 0 0 Timestamp.zero 0 0 [⟨1, 2⟩]).make shipped 0 ⟨0, 0, 0, [⟨5, 9⟩]⟩ = .ret (x, none) ∧
    x.holes = [⟨1, 2⟩, ⟨5, 9⟩] := by
  obtain ⟨x, h1, -, -, -, -, -, h2, -⟩ := C75_status_iff (Status.mk 0 0 Timestamp.zero 0 0 [⟨1, 2⟩]) 0 ⟨0, 0, 0, [⟨5, 9⟩]⟩
  exact ⟨x, h1, h2⟩

/-! ## C92 -/

/-- **C92** Exactly when the end is lost: the frame that marks the end is read by every reader unless the frames have
timestamps, the descriptor is of 16 bits and the file is a whole number of blocks; then by none. -/
theorem C92_end_iff (E : SendEnv) (env : E.Fine) (mtu : Int) (file : List Byte) (short : file.length < 2 ^ 63)
    (session : BitVec 32) (ps : List (String × String)) (text : DataText ps) (plen : Nat) (room : 0 < plen)
    (computed : maxPaylen mtu (render ps) = .ret plen) (rounds : Nat) (enough : file.length / plen < rounds)
    (s : Sending) (ran : sendData shipped E mtu file session (render ps) rounds = .ret s) (w : Nat)
    (width : descWidth ((lastValue "descriptor" ps).getD "d16") = some w) (small : file.length < 256 ^ w)
    (x : Data) (sent : x ∈ s.sent) (isEnd : getStr shipped x.header "eod" = .ret "yes") (d0 : Data) :
    (∃ frame y, x.encode shipped = .ret (.ok frame) ∧ d0.decode shipped frame = .ret (y, none)) ↔
      ¬ (wantsStamp ps ∧ w = 2 ∧ plen ∣ file.length) := by
  obtain ⟨s', h1, -, h3, h4, -⟩ :=
    C90_sends E env mtu file short session ps text plen room computed rounds enough
  rw [ran] at h1
  cases h1
  obtain ⟨k, hk⟩ := List.mem_iff_getElem?.1 sent
  obtain ⟨at_, time⟩ := h4 k x hk
  have hlast : k = file.length / plen := by
    have := at_.eod
    rw [isEnd, yesNo] at this
    by_cases h : k = file.length / plen
    · exact h
    · rw [if_neg h] at this; exact absurd this (by decide)
  have le : k * plen ≤ file.length := by rw [hlast]; exact Nat.div_mul_le_self _ _
  have hempty : x.payload = [] ↔ plen ∣ file.length := by
    rw [at_.payload, List.take_eq_nil_iff, List.drop_eq_nil_iff]
    constructor
    · rintro (h | h)
      · omega
      · exact ⟨k, by rw [Nat.mul_comm]; omega⟩
    · intro h
      right
      rw [hlast, Nat.div_mul_cancel h]
      exact Nat.le_refl _
  obtain ⟨k1, k2⟩ := frame_known (E := E) at_ time width small le
  rw [hempty] at k1 k2
  constructor
  · rintro ⟨frame, y, he, hd⟩ lost
    obtain ⟨f, he', hd'⟩ := k2 lost
    rw [he] at he'
    cases he'
    obtain ⟨z, e, hz⟩ := hd' d0
    rw [hd] at hz
    cases hz
  · intro kept
    obtain ⟨f, he, hd⟩ := k1 kept
    obtain ⟨y, hy, -⟩ := hd d0
    exact ⟨f, y, he, hy⟩

/-! ## C99 -/

theorem pad_width (n : Nat) (s : String) : (pad n s).length = max n s.length := by
  unfold pad
  rw [String.length_append, String.length_ofList, List.length_replicate]; omega

theorem tableRow_width (mark : String) (cells : List (Nat × String)) :
    (tableRow mark cells).length =
      mark.length * (cells.length + 1) + (cells.map fun c => max c.1 c.2.length).sum + 1 := by
  induction cells with
  | nil => rw [tableRow, String.length_append]; simp; rfl
  | cons c cells ih =>
    obtain ⟨n, s⟩ := c
    rw [tableRow, String.length_append, String.length_append, pad_width, ih]
    simp only [List.length_cons, List.map_cons, List.sum_cons, Nat.mul_add]
    omega

theorem row_iff (a1 a3 a5 a6 a7 L : Nat) (c1 c2 c3 c4 c5 c6 c7 c8 : String) (h1 : c1.length ≤ a1)
    (h3 : c3.length ≤ a3) (h5 : c5.length ≤ a5) (h6 : c6.length ≤ a6) (h7 : c7.length ≤ a7) (h8 : c8.length ≤ L) :
    (tableRow "|" ([a1, 6, a3, 3, a5, a6, a7, L].zip [c1, c2, c3, c4, c5, c6, c7, c8])).length =
      (tableRow "+" ([a1, 6, a3, 3, a5, a6, a7, L].map fun n => (n, dashes n))).length ↔
    c4.length ≤ 3 ∧ c2.length ≤ 6 := by
  rw [tableRow_width, tableRow_width]
  simp only [List.zip_cons_cons, List.map_cons, List.map_nil, List.zip_nil_left, List.length_cons, List.length_nil,
    List.sum_cons, List.sum_nil, dashes_length]
  have k1 : "|".length = 1 := by decide
  have k2 : "+".length = 1 := by decide
  rw [k1, k2, Nat.max_eq_left h1, Nat.max_eq_left h3, Nat.max_eq_left h5, Nat.max_eq_left h6, Nat.max_eq_left h7,
    Nat.max_eq_left h8]
  simp only [Nat.max_self]
  generalize c4.length = x at *
  generalize c2.length = y at *
  clear k1 k2 h1 h3 h5 h6 h7 h8
  omega

/-- **C99** Exactly, if all times print equally long: the line of a peer is as long as the border exactly if its
descriptor has at most three characters and its disk less than a million gigabytes. -/
theorem C99_line_iff (V : PeerView) (L : Nat) (srt : TextSort) (H : CmdTable) (ps : List Peer) (ne : ps ≠ [])
    (times : ∀ p ∈ ps, (utf8 (V.time p.created)).length = L ∧ (utf8 (V.time p.updated)).length = L) (x : String) :
    ∃ text border head line, cmdPeers V srt H ps [x] = [.msg text] ∧
      TableOf text ["IP", "GB", "EID", "Des", "Rx", "Tx", "Created", "Modified"] (peerCells V) ps border head line ∧
      ∀ p ∈ ps, (line p).length = border.length ↔
        p.maxdesc.length ≤ 3 ∧ p.freespace.toNat / 2 ^ 20 < 10 ^ 6 := by
  have h := tableOf srt (peerWidths V ps) peerHeading (peerCells V) ps
    (tableRow "+" ((peerWidths V ps).map fun n => (n, dashes n))) rfl (fun _ => rfl)
  refine ⟨_, _, _, _, ?_, h, fun p hp => ?_⟩
  · show (if ps.length = 0 then _ else _) = _
    rw [if_neg fun h => ne (List.length_eq_zero_iff.1 h)]
    rfl
  · have hm : modifiedWidth V ps = L := by
      unfold modifiedWidth
      rw [modifiedWidth_same V ps L times 0 (Nat.zero_le _), if_neg ne]
    have wide : ∀ f : Peer → List Byte, (f p).length ≤ longest (ps.map fun q => (f q).length) :=
      fun f => le_longest (List.mem_map.2 ⟨p, hp, rfl⟩)
    have g : ∀ f : Peer → String, (f p).length ≤ longest (ps.map fun q => (utf8 (f q)).length) :=
      fun f => Nat.le_trans (length_le_utf8 _) (wide fun q => utf8 (f q))
    have he := Nat.le_trans (V.runes.short p.eid) (wide Peer.eid)
    have h1 := g Peer.addr
    have h2 := g Peer.canrx
    have h3 := g Peer.cantx
    have h4 := g fun q => V.time q.created
    have h5 := length_le_utf8 (V.time p.updated)
    rw [(times p hp).2] at h5
    have h7 : (toString (p.freespace.toNat / 1024 / 1024)).length ≤ 6 ↔ p.freespace.toNat / 2 ^ 20 < 10 ^ 6 := by
      rw [Nat.div_div_eq_div_mul]
      exact Nat.length_repr_le_iff (by decide)
    rw [← h7]
    simp only [peerWidths, peerCells, hm]
    have he3 : (V.runes.text p.eid).length ≤
        (if longest (ps.map fun p => p.eid.length) < 3 then 3 else longest (ps.map fun p => p.eid.length)) := by
      split <;> omega
    exact row_iff _ _ _ _ _ _ _ _ _ _ _ _ _ _ h1 he3 h2 h3 h4 h5

/-- A disk of 2^40 kilobytes is too large for the column. -/
example : (2 ^ 40 : BitVec 64).toNat / 2 ^ 20 = 1048576 ∧ ¬ (2 ^ 40 : BitVec 64).toNat / 2 ^ 20 < 10 ^ 6 := by decide

/-! ## C114 -/

/-- **C114** Exactly: after `clear` all that is printed is shown, as long as the window has room for it, exactly if the
window had not been scrolled (or nothing is printed). -/
theorem C114_shown_iff (p : Pane) (cursor : p.cy < p.height) (prints : List (Nat × Nat))
    (some : 0 < (prints.map (·.2)).sum) (fits : (prints.map (·.2)).sum ≤ p.height) :
    (∀ r, r < (prints.map (·.2)).sum → (p.run (.clear :: prints.map fun x => .print x.1 x.2)).Shows r) ↔ p.oy = 0 := by
  have k := (C114_counterexample p cursor prints fits).1
  constructor
  · intro h
    have := ((k 0).1 (h 0 some)).1
    omega
  · intro h r hr
    exact (k r).2 ⟨by omega, hr⟩

/-- Both cases occur. -/
example : (Pane.new 10 true).oy = 0 ∧ (((Pane.new 10 true).step (.print 30 30))).oy ≠ 0 ∧
    ((Pane.new 10 true).step (.print 30 30)).cy < 10 := by decide

/-! ## C120 -/

/-- **C120** Exactly: on linux and darwin the numbers are those of the disk exactly if it has less than 2^64 bytes. -/
theorem C120_unix_iff (s : Statfs) (d : Disk) (of : s.Of d) :
    (DiskUsage.unix (some s)).Tells d ↔ d.size < 2 ^ 64 :=
  ⟨fun h => by rw [← h.1]; exact BitVec.isLt _, C120_unix_partial s d of⟩

example : (DiskUsage.unix (some ⟨4096, 1000, 500, 400⟩)).Tells ⟨4096000, 2048000, 1638400⟩ :=
  (C120_unix_iff _ _ (by unfold Statfs.Of; decide)).2 (by decide)
/-- A disk of 2^64 bytes. -/
example : ¬ (DiskUsage.unix (some ⟨4096, 2 ^ 52, 0, 0⟩)).Tells ⟨2 ^ 64, 0, 0⟩ :=
  fun h => absurd ((C120_unix_iff _ _ (by unfold Statfs.Of; decide)).1 h) (by decide)

/-! ## C121 -/

/-- **C121** Exactly: asked for IPv6, a host with addresses answers one that is not IPv4 exactly if its first address is
not IPv4. -/
theorem C121_v6_iff (a : List Byte) (rest : List (List Byte)) (address : a.length = 4 ∨ a.length = 16) :
    (∃ b, outboundIP "IPv6" (a :: rest) = .ret b ∧ b.length = 16 ∧ ∀ x, ¬ IsV4 b x) ↔ ∀ x, ¬ IsV4 a x := by
  obtain ⟨b, h1, h2, h3, h4⟩ := C121_v6_partial a rest address
  constructor
  · rintro ⟨c, e, _, hn⟩ x hx
    rw [h1] at e
    cases e
    obtain ⟨y, hy⟩ := h3.2 ⟨x, hx⟩
    exact hn y hy
  · intro hn
    exact ⟨b, h1, h2, fun x hx => by obtain ⟨y, hy⟩ := h3.1 ⟨x, hx⟩; exact hn y hy⟩

example : ¬ ∃ b, outboundIP "IPv6" [[10, 0, 0, 1], List.replicate 15 0 ++ [1]] = .ret b ∧ b.length = 16 ∧
    ∀ x, ¬ IsV4 b x :=
  fun h => (C121_v6_iff _ _ (.inl rfl)).1 h _ (.plain _ rfl)

/-! ## C123 -/

/-- **C123** Exactly: no error is answered exactly if no key is refused, or the first one refused is one of the six that
are not told. -/
theorem C123_silent_iff (sets : BoundKey → Option Err) :
    (keybindings sets).2 = none ↔
      (∀ k, sets k = none) ∨
      ∃ k, k ∉ BoundKey.told ∧ sets k ≠ none ∧ ∀ j : BoundKey, j.rank < k.rank → sets j = none := by
  have key := C123_error sets
  have first : (∀ k, sets k = none) ∨ ∃ k, sets k ≠ none ∧ ∀ j : BoundKey, j.rank < k.rank → sets j = none := by
    by_cases h : ∀ k, sets k = none
    · exact Or.inl h
    · right
      have step : ∀ n, (∃ k : BoundKey, k.rank ≤ n ∧ sets k ≠ none) →
          ∃ k, sets k ≠ none ∧ ∀ j : BoundKey, j.rank < k.rank → sets j = none := by
        intro n
        induction n with
        | zero =>
          rintro ⟨k, h1, h2⟩
          exact ⟨k, h2, fun j hj => by omega⟩
        | succ n ih =>
          rintro ⟨k, h1, h2⟩
          by_cases he : ∃ k : BoundKey, k.rank ≤ n ∧ sets k ≠ none
          · exact ih he
          · refine ⟨k, h2, fun j hj => Decidable.byContradiction fun hn => he ⟨j, by omega, hn⟩⟩
      obtain ⟨k, hk⟩ := Classical.not_forall.1 h
      exact step k.rank ⟨k, Nat.le_refl _, hk⟩
  constructor
  · intro h
    rcases first with f | ⟨k, h1, h2⟩
    · exact Or.inl f
    · right
      refine ⟨k, fun ht => ?_, h1, h2⟩
      cases hs : sets k with
      | none => exact h1 hs
      | some e =>
        have := (key e).2 ⟨k, ht, hs, h2⟩
        rw [h] at this
        cases this
  · intro h
    cases hk : (keybindings sets).2 with
    | none => rfl
    | some e =>
      exfalso
      obtain ⟨j, ht, hs, hb⟩ := (key e).1 hk
      rcases h with f | ⟨k, h1, h2, h3⟩
      · rw [f j] at hs; cases hs
      · rcases Nat.lt_trichotomy j.rank k.rank with c | c | c
        · rw [h3 j c] at hs; cases hs
        · have : j = k := by
            have inj : ∀ a b : BoundKey, a.rank = b.rank → a = b := by
              intro a b; cases a <;> cases b <;> decide
            exact inj j k c
          subst this
          exact h1 ht
        · exact h2 (hb k c)

example : (keybindings fun k => if k = .backspace then some "unknown key" else none).2 = none :=
  (C123_silent_iff _).2 (.inr ⟨.backspace, by decide, by decide, by
    intro j hj; cases j <;> first | rfl | exact absurd hj (by decide)⟩)

/-! ## C105 -/

/-- What the start needs of a directory: the words of the configuration lead to it from where the program was started,
it may be entered, and the same words lead from inside it to something that may be looked at. -/
def Host.Enters (h : Host) (words : List Byte) (dir : Loc) : Prop :=
  h.fs.locate words = some dir ∧ h.fs.node dir = some .dir ∧ h.fs.refuses .chdir dir = false ∧
  ∃ l, FS.locate { h.fs with cwd := dir } words = some l ∧ h.fs.refuses .stat l = false ∧ h.fs.node l ≠ none

/-- **C105** Exactly when the program gets to its loop, for every way of naming the directory. -/
theorem C105_starts_iff (h : Host) (args : List String) :
    (∃ r, start h args = .ret (some r)) ↔
      ∃ prog file name c dir, args = [prog, file, name] ∧ h.config file = .ret (.ok c) ∧ h.Enters c.sardir dir ∧
        (∃ mtu, h.iface name = some mtu) ∧ h.gui = true ∧ h.interfaces = true ∧ h.keys = true ∧
        (∃ m, h.Joins .v6 name c.v6multicast c.port m) ∧ ∃ m, h.Joins .v4 name c.v4multicast c.port m := by
  constructor
  · rintro ⟨r, started⟩
    unfold start at started
    split at started
    · rename_i prog file name
      obtain ⟨cfg, hcfg, started⟩ := Out.bind_eq_ret started
      cases cfg with
      | error e => cases started
      | ok c =>
        simp only at started
        split at started
        · cases started
        rename_i fs hch
        split at started
        · cases started
        rename_i node hst
        split at started
        · cases started
        rename_i mtu hif
        split at started
        · cases started
        rename_i k1
        split at started
        · cases started
        rename_i k2
        split at started
        · cases started
        rename_i k3
        obtain ⟨g6, h6, started⟩ := Out.bind_eq_ret started
        obtain ⟨g4, h4, started⟩ := Out.bind_eq_ret started
        have hfs : ∃ l, h.fs.locate c.sardir = some l ∧ h.fs.node l = some .dir ∧ h.fs.refuses .chdir l = false ∧
            fs = { h.fs with cwd := l } := by
          unfold FS.chdir at hch
          split at hch
          · cases hch
          · rename_i l hl
            split at hch
            · cases hch
            · rename_i hr
              split at hch
              · rename_i hd
                cases hch
                exact ⟨l, hl, hd, by simpa using hr, rfl⟩
              · cases hch
        obtain ⟨dir, p1, p2, p3, rfl⟩ := hfs
        refine ⟨prog, file, name, c, dir, rfl, hcfg, ⟨p1, p2, p3, ?_⟩, ⟨mtu, hif⟩, by simpa using k1, by simpa using k2,
          by simpa using k3, ⟨g6, (openGroup_iff ..).1 h6⟩, g4, (openGroup_iff ..).1 h4⟩
        unfold FS.stat at hst
        split at hst
        · cases hst
        · rename_i l hl
          split at hst
          · cases hst
          · rename_i hr
            exact ⟨l, hl, by simpa using hr, fun e => nomatch e.symm.trans hst⟩
    · cases started
  · rintro ⟨prog, file, name, c, dir, rfl, hc, ⟨p1, p2, p3, l, p4, p5, p6⟩, ⟨mtu, hm⟩, k1, k2, k3, ⟨m6, h6⟩, m4, h4⟩
    have hch : h.fs.chdir c.sardir = ({ h.fs with cwd := dir }, none) := by
      simp [FS.chdir, p1, p2, p3]
    have hst : ∃ n, FS.stat { h.fs with cwd := dir } c.sardir = some n := by
      unfold FS.stat
      rw [p4]
      simp only [p5]
      exact Option.ne_none_iff_exists'.1 p6
    obtain ⟨n, hst⟩ := hst
    refine ⟨⟨{ h.fs with cwd := dir }, c, mtu, [(.v6, m6), (.v4, m4)]⟩, ?_⟩
    unfold start
    simp [hc, hch, hst, hm, k1, k2, k3, (openGroup_iff ..).2 h6, (openGroup_iff ..).2 h4, bind, Out.bind, pure]

example : exampleHost.Enters exDir [[0x64#8]] :=
  ⟨by decide, by decide, rfl, [[0x64#8]], by decide, rfl, by decide⟩

end Saratoga
