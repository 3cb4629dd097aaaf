import Verif.Lemmas.Dirent
import Verif.Lemmas.Shipped
/-!
# Directory entries (`dirent/dirent.go`): C22, and the directory parts of C27, C30, C33, C62
-/
namespace Saratoga

/-- The largest size the encoder accepts for a width. -/
def direntMax (n : Nat) : Nat := if n = 2 then 65535 else 4294967295

/-- A timestamp as directory entries carry it: type epoch2000_32, seconds in 32 bits. -/
def EpochStamp (T : Tables) (t : Timestamp) : Prop :=
  nameT T t.header = .ret "epoch2000_32" ∧ setT T 0 "epoch2000_32" = .ret t.header ∧
  t.ttype = "epoch2000_32" ∧ t.loc = [] ∧ t.nsecs = 0 ∧ t.secs.toNat < 2 ^ 32

instance (T : Tables) (t : Timestamp) : Decidable (EpochStamp T t) := by
  unfold EpochStamp; infer_instance

theorem gt_limit_iff {n : Nat} {s : BitVec 64} (hc : n = 2 ∨ n = 4 ∨ n = 8) :
    ¬ s > direntLimit n ↔ s.toNat ≤ direntMax n := by
  rw [gt_iff_lt, BitVec.lt_def]
  rcases hc with rfl | rfl | rfl
  · have : (direntLimit 2).toNat = 65535 := by decide
    have h2 : direntMax 2 = 65535 := by decide
    omega
  · have : (direntLimit 4).toNat = 4294967295 := by decide
    have h2 : direntMax 4 = 4294967295 := by decide
    omega
  · have : (direntLimit 8).toNat = 4294967295 := by decide
    have h2 : direntMax 8 = 4294967295 := by decide
    omega

/-! ## C62: layout -/

/-- **C62** The bytes of an encoded entry: flags, size, modification and creation seconds, path, NUL. -/
theorem C62_dirent_layout (T : Tables) (d : DirEnt) (b : List Byte)
    (encoded : d.encode T = .ret (.ok b)) :
    ∃ n, HasWidthD T d.header n ∧ b.length = 11 + n + d.path.length ∧
      beNum (b.take 2) = d.header.toNat ∧
      beNum ((b.drop 2).take n) = d.size.toNat ∧
      beNum ((b.drop (2 + n)).take 4) = d.mtime.secs.toNat % 2 ^ 32 ∧
      beNum ((b.drop (6 + n)).take 4) = d.ctime.secs.toNat % 2 ^ 32 ∧
      b.drop (10 + n) = d.path ++ [0#8] := by
  obtain ⟨desc, n, hd, hn, hp, hs, rfl⟩ := DirEnt.encode_inv encoded
  have hc := descSize_cases hn
  have hl := numBytes_length hc d.size
  refine ⟨n, ⟨desc, hd, by rw [← descSize_eq]; exact hn⟩, by simp [hl]; omega, ?_, ?_, ?_, ?_, ?_⟩
  · simp only [List.append_assoc]
    rw [List.take_append_of_le_length (by simp), List.take_of_length_le (by simp), beNum_be16]
  · simp only [List.append_assoc]
    rw [List.drop_left' (by simp), List.take_append_of_le_length (by omega),
      List.take_of_length_le (by omega), beNum_numBytes hc, Nat.mod_eq_of_lt (limit_fits hc hs)]
  · have := slice_mid (be16 d.header ++ numBytes n d.size) (be32 (d.mtime.secs.setWidth 32))
      (be32 (d.ctime.secs.setWidth 32) ++ d.path ++ [0#8]) (2 + n) (2 + n + 4) (by simp [hl]) (by simp [hl])
    rw [slice_ok (by omega) (by simp [hl]; omega), show 2 + n + 4 - (2 + n) = 4 by omega] at this
    simp only [Out.ret.injEq, List.append_assoc] at this ⊢
    rw [this, beNum_be32]; simp
  · have := slice_mid (be16 d.header ++ numBytes n d.size ++ be32 (d.mtime.secs.setWidth 32))
      (be32 (d.ctime.secs.setWidth 32)) (d.path ++ [0#8]) (6 + n) (6 + n + 4)
      (by simp [hl]; omega) (by simp [hl]; omega)
    rw [slice_ok (by omega) (by simp [hl]; omega), show 6 + n + 4 - (6 + n) = 4 by omega] at this
    simp only [Out.ret.injEq, List.append_assoc] at this ⊢
    rw [this, beNum_be32]; simp
  · rw [List.append_assoc _ d.path [0#8]]
    exact List.drop_left' (by simp [hl]; omega)

/-! ## C22 -/

/-- **C22** When an entry can be encoded at all: its descriptor is d16, d32 or d64, the path has at most
1024 bytes and the size is at most 65535 for d16 and at most 2^32-1 for d32 *and for d64*. -/
theorem C22_encodable_iff (T : Tables) (d : DirEnt) :
    (∃ b, d.encode T = .ret (.ok b)) ↔
      ∃ n, HasWidthD T d.header n ∧ d.path.length ≤ 1024 ∧ d.size.toNat ≤ direntMax n := by
  constructor
  · rintro ⟨b, h⟩
    obtain ⟨desc, n, hd, hn, hp, hs, _⟩ := DirEnt.encode_inv h
    exact ⟨n, ⟨desc, hd, by rw [← descSize_eq]; exact hn⟩, hp, (gt_limit_iff (descSize_cases hn)).1 hs⟩
  · rintro ⟨n, ⟨desc, hd, hn⟩, hp, hs⟩
    rw [← descSize_eq] at hn
    exact ⟨_, DirEnt.encode_eq hd hn hp ((gt_limit_iff (descSize_cases hn)).2 hs)⟩

/-- **C22** What any variable decodes from any encoded entry: flags and size are exact, the times are
the seconds modulo 2^32 as epoch2000_32, the path is garbled beyond ASCII and cut at a NUL. -/
theorem C22_exact (T : Tables) (d d0 : DirEnt) (b : List Byte) (epoch : HasEpoch T)
    (encoded : d.encode T = .ret (.ok b)) :
    ∃ x, d0.decode T b = .ret (x, none) ∧ x.header = d.header ∧ x.size = d.size ∧
      x.mtime.secs.toNat = d.mtime.secs.toNat % 2 ^ 32 ∧
      x.ctime.secs.toNat = d.ctime.secs.toNat % 2 ^ 32 ∧
      EpochStamp T x.mtime ∧ EpochStamp T x.ctime ∧ x.path = garbled (upToNul d.path) := by
  obtain ⟨desc, n, hd, hn, hp, hs, rfl⟩ := DirEnt.encode_inv encoded
  have hc := descSize_cases hn
  obtain ⟨th, hnm, hth, hdec⟩ := DirEnt.decode_eq (s := d.size) (m := d.mtime.secs.setWidth 32)
    (c := d.ctime.secs.setWidth 32) (rest := d.path ++ [0#8]) epoch d0 hd hn
  rw [← List.append_assoc] at hdec
  refine ⟨_, hdec, rfl, wireNum_eq (limit_fits hc hs), ?_, ?_, ?_, ?_, ?_⟩
  · simp; omega
  · simp; omega
  · exact ⟨hnm, hth, rfl, rfl, rfl, by simp; omega⟩
  · exact ⟨hnm, hth, rfl, rfl, rfl, by simp; omega⟩
  · simp only
    congr 1
    unfold upToNul
    clear hdec hp encoded
    generalize d.path = l
    induction l with
    | nil => rfl
    | cons a t ih => simp only [List.cons_append, List.takeWhile_cons, ih]

/-- **C22** (partial: sizes above 2^32-1 are refused, paths are ASCII). The entry comes back whole. -/
theorem C22_round_trip_partial (T : Tables) (d d0 : DirEnt) (n : Nat) (epoch : HasEpoch T)
    (width : HasWidthD T d.header n) (fits : d.size.toNat ≤ direntMax n)
    (short : d.path.length ≤ 1024) (noNul : NoNul d.path) (ascii : Ascii d.path)
    (mt : EpochStamp T d.mtime) (ct : EpochStamp T d.ctime) :
    ∃ b, d.encode T = .ret (.ok b) ∧ d0.decode T b = .ret (d, none) := by
  obtain ⟨b, hb⟩ := (C22_encodable_iff T d).2 ⟨n, width, short, fits⟩
  obtain ⟨x, hx, h1, h2, h3, h4, h5, h6, h7⟩ := C22_exact T d d0 b epoch hb
  refine ⟨b, hb, ?_⟩
  rw [hx]
  rw [upToNul_end noNul, garbled_ascii ascii] at h7
  have stamps : ∀ a c : Timestamp, EpochStamp T a → EpochStamp T c →
      a.secs.toNat = c.secs.toNat % 2 ^ 32 → a = c := by
    rintro ⟨a1, a2, a3, a4, a5⟩ ⟨c1, c2, c3, c4, c5⟩ ⟨_, p2, p3, p4, p5, _⟩ ⟨_, q2, q3, q4, q5, q6⟩ hh
    simp only at p2 p3 p4 p5 q2 q3 q4 q5 q6 hh
    rw [p2] at q2
    cases q2
    subst p3 p4 p5 q3 q4 q5
    rw [Nat.mod_eq_of_lt q6] at hh
    rw [BitVec.eq_of_toNat_eq hh]
  have e1 := stamps _ _ h5 mt h3
  have e2 := stamps _ _ h6 ct h4
  obtain ⟨x1, x2, x3, x4, x5⟩ := x
  obtain ⟨d1, d2, d3, d4, d5⟩ := d
  simp only at h1 h2 e1 e2 h7
  subst h1 h2 e1 e2 h7
  rfl

/-- A directory entry header: sod, normal file, descriptor d64. -/
def direntHeader : BitVec 16 := 0x8080#16
/-- 2001-09-09T01:46:40Z as epoch2000_32. -/
def someEpoch : Timestamp := ⟨5, 53315200, 0, [], "epoch2000_32"⟩

example := C22_round_trip_partial shipped ⟨direntHeader, 4294967295, someEpoch, someEpoch, [97#8, 47#8, 98#8]⟩ .zero 8
  (by decide) ⟨"d64", by decide, rfl⟩ (by decide) (by decide) (by decide) (by decide) (by decide) (by decide)

example := C22_exact shipped ⟨direntHeader, 5, someEpoch, someEpoch, [97#8]⟩ .zero _ (by decide) rfl

/-- **C22** fails: a 4 GiB file with a 64 bit descriptor is refused, and a name that is not ASCII comes
back as another one. -/
theorem C22_counterexample :
    (∃ d : DirEnt, HasWidthD shipped d.header 8 ∧ NoNul d.path ∧ d.size.toNat < 256 ^ 8 ∧
      ∃ e, d.encode shipped = .ret (.error e)) ∧
    (∃ (d x : DirEnt) (b : List Byte), NoNul d.path ∧ d.encode shipped = .ret (.ok b) ∧
      DirEnt.zero.decode shipped b = .ret (x, none) ∧ x.path ≠ d.path) := by
  refine ⟨⟨⟨direntHeader, 4294967296, someEpoch, someEpoch, [97#8]⟩, ⟨"d64", by decide, rfl⟩, by decide,
    by decide, _, rfl⟩, ⟨direntHeader, 5, someEpoch, someEpoch, [0xC3#8, 0xA9#8]⟩,
    ⟨direntHeader, 5, someEpoch, someEpoch, [0xC3#8, 0x83#8, 0xC2#8, 0xA9#8]⟩, _, by decide, rfl, ?_, ?_⟩
  · decide
  · decide

-- hypotheses met by a real entry
example : HasEpoch shipped ∧ HasWidthD shipped direntHeader 8 ∧ (4294967295#64).toNat ≤ direntMax 8 ∧
    NoNul [97#8, 47#8, 98#8] ∧ Ascii [97#8, 47#8, 98#8] ∧ EpochStamp shipped someEpoch :=
  ⟨by decide, ⟨"d64", by decide, rfl⟩, by decide, by decide, by decide, by decide⟩

/-! ## C27: truncation -/

/-- **C27** holds for the size of directory entries: if encoding succeeds the wire holds the size.
Missing for the full C27: the times (`C27_dirent_counterexample`). -/
theorem C27_dirent_size_partial (T : Tables) (d : DirEnt) (b : List Byte) (n : Nat)
    (encoded : d.encode T = .ret (.ok b)) (width : HasWidthD T d.header n) :
    beNum ((b.drop 2).take n) = d.size.toNat := by
  obtain ⟨n', ⟨desc', h2, h2'⟩, _, _, h, _⟩ := C62_dirent_layout T d b encoded
  obtain ⟨desc, hd, hn⟩ := width
  rw [h2] at hd; cases hd
  rw [h2'] at hn; cases hn
  exact h

/-- **C27** fails for its times: a posix64 time is cut to 32 bits without an error. -/
theorem C27_dirent_counterexample :
    ∃ (d x : DirEnt) (b : List Byte), d.encode shipped = .ret (.ok b) ∧
      DirEnt.zero.decode shipped b = .ret (x, none) ∧ x.mtime.secs ≠ d.mtime.secs :=
  ⟨⟨direntHeader, 5, ⟨2, 4294967297, 0, [], "posix64"⟩, someEpoch, [97#8]⟩,
   ⟨direntHeader, 5, ⟨5, 1, 0, [], "epoch2000_32"⟩, someEpoch, [97#8]⟩, _, rfl, by decide, by decide⟩

/-! ## C30: crashes -/

/-- The byte strings a directory entry decoder copes with, by the shipped tables. -/
def DirentDecodable (f : List Byte) : Prop :=
  f.length < 12 ∨ direntDescNumber (headHalf f) = 3 ∨
    10 + 2 ^ (direntDescNumber (headHalf f) + 1) ≤ f.length

/-- **C30** (the exact set for directory entries; see `C30_dirent_counterexample`). -/
theorem C30_dirent_returns_iff_partial (d0 : DirEnt) (f : List Byte) :
    (d0.decode shipped f).returns ↔ DirentDecodable f := by
  unfold DirentDecodable
  by_cases hshort : f.length < 12
  · simp [DirEnt.decode, hshort, Out.returns]
  · simp only [hshort, false_or]
    have hk : direntDescNumber (headHalf f) < 4 := Nat.mod_lt _ (by decide)
    have hsz := descSize_nameOf (direntDescNumber (headHalf f))
    unfold DirEnt.decode
    rw [if_neg hshort, slice_ok (by decide) (by omega)]
    simp only [Out.ret_bind]
    have hlen : ((f.drop 0).take (2 - 0)).length = 2 := by simp; omega
    rcases rd16_cases ((f.drop 0).take (2 - 0)) with ⟨_, v, hv, _⟩ | ⟨hh, _⟩
    · have hval := rd16_val hv
      have hhead : v = headHalf f := by
        apply BitVec.eq_of_toNat_eq
        rw [hval]
        simp only [headHalf, List.drop_zero, Nat.sub_zero, List.take_take, Nat.min_self,
          BitVec.toNat_ofNat]
        rw [Nat.mod_eq_of_lt]
        have := beNum_lt (f.take 2)
        have hl2 : (f.take 2).length = 2 := by simp; omega
        rw [hl2] at this
        exact this
      subst hhead
      simp only [hv, Out.ret_bind, getDStr_descriptor, hsz]
      by_cases h3 : direntDescNumber (headHalf f) < 3
      · have hn := two_pow_desc h3
        simp only [h3, if_true]
        have hth : setT shipped 0 "epoch2000_32" = .ret 5#8 := by decide
        generalize 2 ^ (direntDescNumber (headHalf f) + 1) = n at hn
        obtain ⟨s, hs⟩ := readNum_ok (f := f) (pos := 2) hn (by omega)
        simp only [hs, Out.ret_bind, hth]
        by_cases hfit : 10 + n ≤ f.length
        · rw [slice_ok (by omega) (by omega), slice_ok (by omega) (by omega)]
          simp only [Out.ret_bind]
          have four : ∀ l : List Byte, l.length = 4 → ∃ w, l = be32 w := by
            intro l hl
            rcases rd32_cases l with ⟨_, w, _, hw⟩ | ⟨hb, _⟩
            · exact ⟨w, by rw [← hw, List.take_of_length_le (by omega)]⟩
            · omega
          obtain ⟨m, hm⟩ := four ((f.drop (2 + n)).take (2 + n + 4 - (2 + n))) (by simp; omega)
          obtain ⟨c, hc⟩ := four ((f.drop (2 + n + 4)).take (2 + n + 8 - (2 + n + 4))) (by simp; omega)
          have hnm : nameT shipped 5#8 = .ret "epoch2000_32" := by decide
          rw [hm, hc]
          simp only [epoch_get hnm, Out.ret_bind, sliceFrom_ok (show 2 + n + 8 ≤ f.length by omega)]
          simp [Out.returns, hfit]
        · have hne : ¬ (direntDescNumber (headHalf f) = 3 ∨ 10 + n ≤ f.length) := by omega
          simp only [hne, iff_false]
          by_cases hm4 : 2 + n + 4 ≤ f.length
          · rw [slice_ok (by omega) hm4]
            simp only [Out.ret_bind]
            rw [slice_bad (by omega)]
            have four : ∀ l : List Byte, l.length = 4 → ∃ w, l = be32 w := by
              intro l hl
              rcases rd32_cases l with ⟨_, w, _, hw⟩ | ⟨hb, _⟩
              · exact ⟨w, by rw [← hw, List.take_of_length_le (by omega)]⟩
              · omega
            obtain ⟨m, hm⟩ := four ((f.drop (2 + n)).take (2 + n + 4 - (2 + n))) (by simp; omega)
            have hnm : nameT shipped 5#8 = .ret "epoch2000_32" := by decide
            rw [hm]
            simp [epoch_get hnm, Out.returns]
          · rw [slice_bad (by omega)]
            simp [Out.returns]
      · have : direntDescNumber (headHalf f) = 3 := by omega
        simp only [this]
        simp [Out.returns]
    · omega

/-- **C30** fails: twelve bytes with a 64 bit descriptor. -/
theorem C30_dirent_counterexample : ∃ f : List Byte, ∀ d0 : DirEnt,
    ¬ (d0.decode shipped f).returns :=
  ⟨[0x80, 0x80, 1, 2, 3, 4, 5, 6, 7, 8, 9, 0], fun d0 => by
    rw [C30_dirent_returns_iff_partial]
    simp [DirentDecodable, headHalf, beNum, direntDescNumber, bitsAt]⟩

example : DirentDecodable ([0x80, 0x80] ++ List.replicate 17 0#8) := by
  simp [DirentDecodable, headHalf, beNum, direntDescNumber, bitsAt]

/-! ## C33: what the variable held before -/

/-- **C33** holds for directory entries. -/
theorem C33_dirent (T : Tables) (d1 d2 x : DirEnt) (f : List Byte)
    (h : d1.decode T f = .ret (x, none)) : d2.decode T f = .ret (x, none) := by
  unfold DirEnt.decode at h ⊢
  split at h
  · cases h
  · rename_i hl
    rw [if_neg hl]
    obtain ⟨hb, h1, h⟩ := Out.bind_eq_ret h
    obtain ⟨hd, h2, h⟩ := Out.bind_eq_ret h
    obtain ⟨desc, h3, h⟩ := Out.bind_eq_ret h
    simp only [h1, h2, h3, Out.ret_bind]
    cases hn : descSize desc with
    | none => simp [hn] at h
    | some n =>
      simp only [hn] at h
      obtain ⟨s, h4, h⟩ := Out.bind_eq_ret h
      obtain ⟨th, h5, h⟩ := Out.bind_eq_ret h
      obtain ⟨mb, h6, h⟩ := Out.bind_eq_ret h
      obtain ⟨⟨mt, e⟩, h7, h⟩ := Out.bind_eq_ret h
      rw [get_receiver T _ d2.mtime] at h7
      simp only [h4, h5, h6, h7, Out.ret_bind]
      cases e with
      | some e => cases h
      | none =>
        obtain ⟨cb, h8, h⟩ := Out.bind_eq_ret h
        obtain ⟨⟨ct, e⟩, h9, h⟩ := Out.bind_eq_ret h
        rw [get_receiver T _ d2.ctime] at h9
        simp only [h8, h9, Out.ret_bind]
        cases e with
        | some e => cases h
        | none =>
          obtain ⟨r, h10, h⟩ := Out.bind_eq_ret h
          simp only [h10, Out.ret_bind]
          cases h; rfl

example : ∃ x, DirEnt.zero.decode shipped ([0x80, 0x80] ++ List.replicate 17 0#8) = .ret (x, none) :=
  ⟨_, rfl⟩

end Saratoga
