import Verif.Props.Survive
/-!
# C158: different frames are different on the wire

For each type of frame, exactly when two frames that are encoded have the same bytes.
-/
namespace Saratoga

theorem numBytes_same {n : Nat} (hn : n = 2 ∨ n = 4 ∨ n = 8) (v w : BitVec 64) :
    numBytes n v = numBytes n w ↔ v.toNat % 256 ^ n = w.toNat % 256 ^ n := by
  rw [← beNum_numBytes hn, ← beNum_numBytes hn]
  exact ⟨fun h => by rw [h], fun h => beNum_inj (by rw [numBytes_length hn, numBytes_length hn]) h⟩

theorem be32_same (v w : BitVec 32) : be32 v = be32 w ↔ v = w := by
  refine ⟨fun h => ?_, fun h => by rw [h]⟩
  have := congrArg beNum h
  rw [beNum_be32, beNum_be32] at this
  exact BitVec.eq_of_toNat_eq this

theorem be16_same (v w : BitVec 16) : be16 v = be16 w ↔ v = w := by
  refine ⟨fun h => ?_, fun h => by rw [h]⟩
  have := congrArg beNum h
  rw [beNum_be16, beNum_be16] at this
  exact BitVec.eq_of_toNat_eq this

theorem front_same {a a' b b' : List Byte} (len : a.length = a'.length) : a ++ b = a' ++ b' ↔ a = a' ∧ b = b' :=
  ⟨fun h => List.append_inj h len, fun ⟨h, h'⟩ => by rw [h, h']⟩

/-! ## Data -/

/-- **C158** Exactly when two data frames have the same bytes: header, session and payload are the same, so is the stamp
as written, if one is asked for, and the offsets are the same as far as the descriptor is wide. Any tables. -/
theorem C158_data (T : Tables) (d d' : Data) (f f' : List Byte) (n : Nat)
    (width : HasWidth T "descriptor" d.header n)
    (e : d.encode T = .ret (.ok f)) (e' : d'.encode T = .ret (.ok f')) :
    f = f' ↔ d.header = d'.header ∧ d.session = d'.session ∧
      (getStr T d.header "reqtstamp" = .ret "yes" → d.tstamp.put T = d'.tstamp.put T) ∧
      d.offset.toNat % 256 ^ n = d'.offset.toNat % 256 ^ n ∧ d.payload = d'.payload := by
  obtain ⟨rt, desc, m, ts, hrt, hd, hm, hts, rfl⟩ := Data.encode_inv e
  obtain ⟨rt', desc', m', ts', hrt', hd', hm', hts', rfl⟩ := Data.encode_inv e'
  obtain ⟨desc0, hd0, hn⟩ := width
  rw [hd] at hd0; cases hd0
  rw [← descSize_eq, hm] at hn; cases hn
  have hc := descSize_cases hm
  simp only [List.append_assoc]
  rw [front_same (by simp), front_same (by simp), be32_same, be32_same]
  refine and_congr_right fun eh => and_congr_right fun _ => ?_
  rw [← eh, hrt] at hrt'; cases hrt'
  rw [← eh, hd] at hd'; cases hd'
  rw [hm] at hm'; cases hm'
  have tl : ts.length = ts'.length := by
    by_cases hy : rt = "yes"
    · rw [if_pos hy] at hts hts'; rw [hts.2, hts'.2]
    · rw [if_neg hy] at hts hts'; rw [hts, hts']
  rw [front_same tl, front_same (by rw [numBytes_length hc, numBytes_length hc]), numBytes_same hc]
  refine and_congr_left fun _ => ?_
  rw [hrt]
  by_cases hy : rt = "yes"
  · rw [if_pos hy] at hts hts'
    simp [hy, hts.1, hts'.1]
  · rw [if_neg hy] at hts hts'
    simp [hy, hts, hts']

example := C158_data shipped ⟨0x23000000#32, 7, Timestamp.zero, 5, [9#8]⟩ ⟨0x23000000#32, 7, Timestamp.zero, 6, [9#8]⟩ _ _ 2
  ⟨"d16", by decide, by decide⟩ rfl rfl

/-- **C158** So data frames whose offsets fit and whose stamps are of a readable type have the same bytes only if they are
the same frame, but for a stamp that is not asked for. -/
theorem C158_data_fits (T : Tables) (d d' : Data) (f : List Byte) (n : Nat)
    (width : HasWidth T "descriptor" d.header n)
    (e : d.encode T = .ret (.ok f)) (e' : d'.encode T = .ret (.ok f))
    (fits : d.offset.toNat < 256 ^ n) (fits' : d'.offset.toNat < 256 ^ n)
    (wire : d.tstamp.Wire T) (wire' : d'.tstamp.Wire T) :
    d' = { d with tstamp := d'.tstamp } ∧ (getStr T d.header "reqtstamp" = .ret "yes" → d = d') := by
  obtain ⟨h1, h2, h3, h4, h5⟩ := (C158_data T d d' f f n width e e').mp rfl
  rw [Nat.mod_eq_of_lt fits, Nat.mod_eq_of_lt fits'] at h4
  have h4' := BitVec.eq_of_toNat_eq h4
  have one : d' = { d with tstamp := d'.tstamp } := by
    cases d; cases d'; simp_all
  refine ⟨one, fun hy => ?_⟩
  obtain ⟨b, hp, hg⟩ := (C17_survives_iff T d.tstamp Timestamp.zero).mpr wire
  obtain ⟨b', hp', hg'⟩ := (C17_survives_iff T d'.tstamp Timestamp.zero).mpr wire'
  have := h3 hy
  rw [hp, hp'] at this
  cases this
  rw [hg] at hg'
  have ht : d.tstamp = d'.tstamp := by injection hg' with hg'; injection hg'
  rw [one, ← ht]

example := C158_data_fits shipped ⟨dataHeader32, 7, someStamp, 65536, [1#8, 2#8]⟩ ⟨dataHeader32, 7, someStamp, 65536, [1#8, 2#8]⟩
  _ 4 ⟨"d32", by decide, rfl⟩ rfl rfl (by decide) (by decide) (by decide) (by decide)

/-! ## Requests -/

/-- **C158** Exactly when two requests have the same bytes: header and session are the same, and so is what comes of
putting a NUL between the name and the authentication. -/
theorem C158_request (r r' : Request) :
    r.encode = r'.encode ↔ r.header = r'.header ∧ r.session = r'.session ∧
      r.fname ++ 0#8 :: r.auth = r'.fname ++ 0#8 :: r'.auth := by
  rw [Request.encode_eq, Request.encode_eq]
  simp only [List.append_assoc, Out.ret.injEq]
  rw [front_same (by simp), front_same (by simp), be32_same, be32_same]
  simp

theorem nul_split {a a' b b' : List Byte} (h : NoNul a) (h' : NoNul a') (e : a ++ 0#8 :: b = a' ++ 0#8 :: b') :
    a = a' ∧ b = b' := by
  have k := upToNul_append h (post := b)
  have k' := upToNul_append h' (post := b')
  rw [e, k'] at k
  subst k
  exact ⟨rfl, by simpa using e⟩

/-- **C158** So requests with names without NUL have the same bytes only if they are the same. -/
theorem C158_request_names (r r' : Request) (h : NoNul r.fname) (h' : NoNul r'.fname) :
    r.encode = r'.encode ↔ r = r' := by
  rw [C158_request]
  constructor
  · rintro ⟨a, b, c⟩
    obtain ⟨c, d⟩ := nul_split h h' c
    cases r; cases r'; simp_all
  · rintro rfl; simp

example := C158_request_names ⟨0x21000000#32, 7, [97], []⟩ ⟨0x21000000#32, 7, [98], []⟩ (by decide) (by decide)

/-! ## Directory entries and metadata -/

/-- **C158** Exactly when two directory entries have the same bytes: flags, size and path are the same, and the times are
the same in the last 32 bits of their seconds. -/
theorem C158_dirent (T : Tables) (d d' : DirEnt) (b b' : List Byte)
    (e : d.encode T = .ret (.ok b)) (e' : d'.encode T = .ret (.ok b')) :
    b = b' ↔ d.header = d'.header ∧ d.size = d'.size ∧
      d.mtime.secs.toNat % 2 ^ 32 = d'.mtime.secs.toNat % 2 ^ 32 ∧
      d.ctime.secs.toNat % 2 ^ 32 = d'.ctime.secs.toNat % 2 ^ 32 ∧ d.path = d'.path := by
  obtain ⟨desc, n, hd, hn, hp, hs, rfl⟩ := DirEnt.encode_inv e
  obtain ⟨desc', n', hd', hn', hp', hs', rfl⟩ := DirEnt.encode_inv e'
  have hc := descSize_cases hn
  simp only [List.append_assoc]
  rw [front_same (by simp), be16_same]
  refine and_congr_right fun eh => ?_
  rw [← eh, hd] at hd'; cases hd'
  rw [hn] at hn'; cases hn'
  rw [front_same (by rw [numBytes_length hc, numBytes_length hc]), numBytes_same hc,
    Nat.mod_eq_of_lt (limit_fits hc hs), Nat.mod_eq_of_lt (limit_fits hc hs'), front_same (by simp),
    front_same (by simp), be32_same, be32_same, ← BitVec.toNat_inj, ← BitVec.toNat_inj, ← BitVec.toNat_inj]
  simp

example := C158_dirent shipped ⟨direntHeader, 5, someEpoch, someEpoch, [97#8]⟩ ⟨direntHeader, 5, someEpoch, someEpoch, [98#8]⟩ _ _
  rfl rfl

/-- **C158** Exactly when two metadata frames have the same bytes, if their checksums are as long as their headers say and
their entries can be encoded: header, session and checksum are the same, and the entries have the same bytes. -/
theorem C158_metadata (T : Tables) (m m' : MetaData) (de de' : List Byte)
    (agree : m.checksum.length = 4 * (get T m.header "csumlen").toNat)
    (agree' : m'.checksum.length = 4 * (get T m'.header "csumlen").toNat)
    (dir : m.dir.encode T = .ret (.ok de)) (dir' : m'.dir.encode T = .ret (.ok de')) :
    m.encode T = m'.encode T ↔ m.header = m'.header ∧ m.session = m'.session ∧ m.checksum = m'.checksum ∧ de = de' := by
  rw [MetaData.encode_eq dir, MetaData.encode_eq dir']
  simp only [List.append_assoc, Out.ret.injEq, bytesOrNil]
  rw [front_same (by simp), front_same (by simp), be32_same, be32_same]
  refine and_congr_right fun eh => and_congr_right fun _ => ?_
  rw [front_same (by rw [agree, agree', eh])]

example := C158_metadata shipped
  ⟨metaHeader, 7, [1, 2, 3, 4], ⟨direntHeader, 5, someEpoch, someEpoch, [97#8]⟩⟩
  ⟨metaHeader, 7, [1, 2, 3, 5], ⟨direntHeader, 5, someEpoch, someEpoch, [97#8]⟩⟩ _ _ (by decide) (by decide) rfl rfl

/-! ## Status -/

theorem holesBytes_same {n : Nat} (hn : n = 2 ∨ n = 4 ∨ n = 8) (hs hs' : List Hole) (len : hs.length = hs'.length) :
    holesBytes n hs = holesBytes n hs' ↔
      hs.map (fun h => (h.start % 256 ^ n, h.stop % 256 ^ n)) =
        hs'.map (fun h => (h.start % 256 ^ n, h.stop % 256 ^ n)) := by
  induction hs generalizing hs' with
  | nil => cases hs' with
    | nil => simp
    | cons _ _ => simp at len
  | cons h t ih => cases hs' with
    | nil => simp at len
    | cons h' t' =>
      simp only [List.length_cons, Nat.add_right_cancel_iff] at len
      have c : ∀ (x : Hole) (l : List Hole), holesBytes n (x :: l) =
          numBytes n (BitVec.ofInt 64 x.start) ++ (numBytes n (BitVec.ofInt 64 x.stop) ++ holesBytes n l) := by
        intro x l; simp [holesBytes, holeBytes]
      have k : ∀ a b : Int, numBytes n (BitVec.ofInt 64 a) = numBytes n (BitVec.ofInt 64 b) ↔
          a % 256 ^ n = b % 256 ^ n := by
        intro a b
        rw [numBytes_same hn]
        have ma := ofInt_mod hn a
        have mb := ofInt_mod hn b
        rw [← ma, ← mb]
        omega
      rw [c, c, front_same (by rw [numBytes_length hn, numBytes_length hn]),
        front_same (by rw [numBytes_length hn, numBytes_length hn]), k, k, ih t' len]
      simp [and_assoc]

/-- **C158** Exactly when two status frames have the same bytes: header, session and number of holes are the same, and
progress, in-response-to and the ends of the holes are the same as far as the descriptor is wide. The stamp never
matters. Any tables. -/
theorem C158_status (T : Tables) (s s' : Status) (f f' : List Byte) (n : Nat)
    (width : HasWidth T "descriptor" s.header n)
    (e : s.encode T = .ret (.ok f)) (e' : s'.encode T = .ret (.ok f')) :
    f = f' ↔ s.header = s'.header ∧ s.session = s'.session ∧
      s.progress.toNat % 256 ^ n = s'.progress.toNat % 256 ^ n ∧
      s.inrespto.toNat % 256 ^ n = s'.inrespto.toNat % 256 ^ n ∧
      s.holes.map (fun h => (h.start % 256 ^ n, h.stop % 256 ^ n)) =
        s'.holes.map (fun h => (h.start % 256 ^ n, h.stop % 256 ^ n)) := by
  obtain ⟨rt, desc, m, hrt, hd, hm, rfl⟩ := Status.encode_inv e
  obtain ⟨rt', desc', m', hrt', hd', hm', rfl⟩ := Status.encode_inv e'
  obtain ⟨desc0, hd0, hn⟩ := width
  rw [hd] at hd0; cases hd0
  rw [← descSize_eq, hm] at hn; cases hn
  have hc := descSize_cases hm
  simp only [List.append_assoc]
  rw [front_same (by simp), front_same (by simp), be32_same, be32_same]
  refine and_congr_right fun eh => and_congr_right fun _ => ?_
  rw [← eh, hrt] at hrt'; cases hrt'
  rw [← eh, hd] at hd'; cases hd'
  rw [hm] at hm'; cases hm'
  rw [front_same (by rw [numBytes_length hc, numBytes_length hc]),
    front_same (by rw [numBytes_length hc, numBytes_length hc]), numBytes_same hc, numBytes_same hc]
  refine and_congr_right fun _ => and_congr_right fun _ => ?_
  rw [List.append_cancel_right_eq]
  constructor
  · intro h
    have len : s.holes.length = s'.holes.length := by
      have := congrArg List.length h
      rw [holesBytes_length hc, holesBytes_length hc] at this
      rcases hc with rfl | rfl | rfl <;> omega
    exact (holesBytes_same hc _ _ len).mp h
  · intro h
    have len : s.holes.length = s'.holes.length := by simpa using congrArg List.length h
    exact (holesBytes_same hc _ _ len).mpr h

example := C158_status shipped ⟨statusHeader, 7, Timestamp.zero, 5, 6, [⟨1, 2⟩]⟩ ⟨statusHeader, 7, Timestamp.zero, 5, 6, [⟨1, 3⟩]⟩
  _ _ 4 ⟨"d32", by decide, by decide⟩ rfl rfl

/-- **C158** So two status frames that come back whole (C25), read by anyone, have the same bytes only if they are the same
but for the stamp. -/
theorem C158_status_fits (T : Tables) (s s' : Status) (f : List Byte) (n : Nat)
    (width : HasWidth T "descriptor" s.header n)
    (e : s.encode T = .ret (.ok f)) (e' : s'.encode T = .ret (.ok f))
    (fits : ∀ x, x = s ∨ x = s' → x.progress.toNat < 256 ^ n ∧ x.inrespto.toNat < 256 ^ n ∧
      ∀ h ∈ x.holes, EndFits n h.start ∧ EndFits n h.stop) :
    s' = { s with tstamp := s'.tstamp } := by
  obtain ⟨h1, h2, h3, h4, h5⟩ := (C158_status T s s' f f n width e e').mp rfl
  obtain ⟨p, i, hs⟩ := fits s (.inl rfl)
  obtain ⟨p', i', hs'⟩ := fits s' (.inr rfl)
  rw [Nat.mod_eq_of_lt p, Nat.mod_eq_of_lt p'] at h3
  rw [Nat.mod_eq_of_lt i, Nat.mod_eq_of_lt i'] at h4
  have id : ∀ l : List Hole, (∀ h ∈ l, EndFits n h.start ∧ EndFits n h.stop) →
      l.map (fun h => (h.start % 256 ^ n, h.stop % 256 ^ n)) = l.map (fun h => (h.start, h.stop)) := by
    intro l hl
    refine List.map_congr_left fun h hh => ?_
    obtain ⟨⟨a, b, _⟩, ⟨c, d, _⟩⟩ := hl h hh
    rw [Int.emod_eq_of_lt a b, Int.emod_eq_of_lt c d]
  rw [id _ hs, id _ hs'] at h5
  have h5 : s.holes = s'.holes :=
    (List.map_inj_right (by intro ⟨a, b⟩ ⟨c, d⟩ h; simpa using h)).mp h5
  have h3 := BitVec.eq_of_toNat_eq h3
  have h4 := BitVec.eq_of_toNat_eq h4
  cases s; cases s'; simp_all

example := C158_status_fits shipped ⟨statusHeader, 7, Timestamp.zero, 5, 6, [⟨1, 2⟩]⟩
  ⟨statusHeader, 7, Timestamp.zero, 5, 6, [⟨1, 2⟩]⟩ _ 4 ⟨"d32", by decide, by decide⟩ rfl rfl (by
    rintro x (rfl | rfl) <;> decide)

/-! ## Beacons -/

/-- **C158** Exactly when two beacons have the same bytes: header and endpoint are the same, and so is the free space, if
it is advertised, as far as the field is wide. Any tables. -/
theorem C158_beacon (T : Tables) (b b' : Beacon) (f f' : List Byte)
    (e : b.encode T = .ret (.ok f)) (e' : b'.encode T = .ret (.ok f')) :
    f = f' ↔ b.header = b'.header ∧ b.eid = b'.eid ∧
      (getStr T b.header "freespace" = .ret "yes" → ∀ n, HasWidth T "freespaced" b.header n →
        b.freespace.toNat % 256 ^ n = b'.freespace.toNat % 256 ^ n) := by
  rcases Beacon.encode_inv e with ⟨fsd, n, hf, hd, hn, rfl⟩ | ⟨fsp, hf, hy, rfl⟩
  · have hc := descSize_cases hn
    rcases Beacon.encode_inv e' with ⟨fsd', n', hf', hd', hn', rfl⟩ | ⟨fsp', hf', hy', rfl⟩
    · simp only [List.append_assoc]
      rw [front_same (by simp), be32_same]
      refine and_congr_right fun eh => ?_
      rw [← eh, hd] at hd'; cases hd'
      rw [hn] at hn'; cases hn'
      rw [front_same (by rw [numBytes_length hc, numBytes_length hc]), numBytes_same hc, and_comm]
      refine and_congr_right fun _ => ?_
      constructor
      · rintro h _ m ⟨d, hd', hm⟩
        rw [hd] at hd'; cases hd'
        rw [← descSize_eq, hn] at hm; cases hm
        exact h
      · intro h
        exact h hf n ⟨fsd, hd, by rw [← descSize_eq]; exact hn⟩
    · simp only [List.append_assoc]
      rw [front_same (by simp), be32_same]
      refine and_congr_right fun eh => ?_
      rw [← eh, hf] at hf'; cases hf'
      exact absurd rfl hy'
  · rcases Beacon.encode_inv e' with ⟨fsd', n', hf', hd', hn', rfl⟩ | ⟨fsp', hf', hy', rfl⟩
    · simp only [List.append_assoc]
      rw [front_same (by simp), be32_same]
      refine and_congr_right fun eh => ?_
      rw [← eh, hf] at hf'; cases hf'
      exact absurd rfl hy
    · rw [front_same (by simp), be32_same]
      refine and_congr_right fun eh => ?_
      simp [hf, hy]

example := C158_beacon shipped ⟨beaconHeader, 77, [97#8]⟩ ⟨beaconHeader, 78, [97#8]⟩ _ _ rfl rfl

/-! ## Not so -/

/-- **C158** The other side: frames that do differ in what the exact statements leave out are sent as the same bytes, an
offset of 65537 as one of 1, a status with one time as a status with another, a name with a NUL as a name and an
authentication. -/
theorem C158_lost :
    (∃ d d' : Data, d.offset ≠ d'.offset ∧ ∃ f, d.encode shipped = .ret (.ok f) ∧ d'.encode shipped = .ret (.ok f)) ∧
    (∃ s s' : Status, getStr shipped s.header "reqtstamp" = .ret "yes" ∧ s.tstamp.Wire shipped ∧
      s'.tstamp.Wire shipped ∧ s.tstamp.secs ≠ s'.tstamp.secs ∧
      ∃ f, s.encode shipped = .ret (.ok f) ∧ s'.encode shipped = .ret (.ok f)) ∧
    (∃ r r' : Request, r.fname ≠ r'.fname ∧ r.encode = r'.encode) := by
  refine ⟨⟨⟨0x23000000#32, 7, Timestamp.zero, 65537, [9#8]⟩, ⟨0x23000000#32, 7, Timestamp.zero, 1, [9#8]⟩,
    by decide, _, rfl, rfl⟩,
    ⟨⟨0x24880000#32, 7, ⟨2, 5, 0, [], "posix64"⟩, 1, 2, []⟩, ⟨0x24880000#32, 7, ⟨2, 6, 0, [], "posix64"⟩, 1, 2, []⟩,
      by decide, by decide, by decide, by decide, _, rfl, rfl⟩,
    ⟨⟨0, 0, [97], [98, 0, 99]⟩, ⟨0, 0, [97, 0, 98], [99]⟩, by decide, ?_⟩⟩
  rw [C158_request]
  decide

/-- Frames that meet the conditions. -/
example : ∃ f f', HasWidth shipped "descriptor" (0x23000000#32) 2 ∧
    Data.encode shipped ⟨0x23000000#32, 7, Timestamp.zero, 5, [9#8]⟩ = .ret (.ok f) ∧
    Data.encode shipped ⟨0x23000000#32, 7, Timestamp.zero, 6, [9#8]⟩ = .ret (.ok f') ∧ f ≠ f' :=
  ⟨_, _, ⟨"d16", by decide, by decide⟩, rfl, rfl, by decide⟩

example : ∃ f f', HasWidth shipped "descriptor" statusHeader 4 ∧
    Status.encode shipped ⟨statusHeader, 7, Timestamp.zero, 5, 6, [⟨1, 2⟩]⟩ = .ret (.ok f) ∧
    Status.encode shipped ⟨statusHeader, 7, Timestamp.zero, 5, 6, [⟨1, 3⟩]⟩ = .ret (.ok f') ∧ f ≠ f' :=
  ⟨_, _, ⟨"d32", by decide, by decide⟩, rfl, rfl, by decide⟩

example : ∃ f f', Beacon.encode shipped ⟨beaconHeader, 77, [97#8]⟩ = .ret (.ok f) ∧
    Beacon.encode shipped ⟨beaconHeader, 78, [97#8]⟩ = .ret (.ok f') ∧ f ≠ f' :=
  ⟨_, _, rfl, rfl, by decide⟩

example : ∃ de de', DirEnt.encode shipped ⟨direntHeader, 5, someEpoch, someEpoch, [97#8]⟩ = .ret (.ok de) ∧
    DirEnt.encode shipped ⟨direntHeader, 5, someEpoch, someEpoch, [98#8]⟩ = .ret (.ok de') ∧ de ≠ de' ∧
    ([1#8, 2#8, 3#8, 4#8] : List Byte).length = 4 * (get shipped metaHeader "csumlen").toNat :=
  ⟨_, _, rfl, rfl, by decide, by decide⟩

example : NoNul [97#8] ∧ NoNul [98#8] := by decide

end Saratoga
