import Verif.Lemmas.Metadata
import Verif.Props.Dirent
/-!
# Metadata frames (`metadata/metadata.go`): C23, C24, and the metadata parts of C30, C33, C62
-/
namespace Saratoga

/-- A metadata frame header: version v1, type metadata, descriptor d64, checksum crc32 of one word. -/
def metaHeader : BitVec 32 := 0x22800011#32

/-! ## C62: layout -/

/-- **C62** The bytes of a metadata frame whose directory entry can be encoded: header, session,
checksum, directory entry. -/
theorem C62_metadata_layout (T : Tables) (m : MetaData) (de : List Byte)
    (dir : m.dir.encode T = .ret (.ok de)) :
    ∃ frame, m.encode T = .ret frame ∧ beNum (frame.take 4) = m.header.toNat ∧
      beNum ((frame.drop 4).take 4) = m.session.toNat ∧
      frame.drop 8 = m.checksum ++ de := by
  refine ⟨_, MetaData.encode_eq dir, ?_, ?_, ?_⟩
  · simp only [List.append_assoc]
    rw [List.take_append_of_le_length (by simp), List.take_of_length_le (by simp), beNum_be32]
  · simp only [List.append_assoc]
    rw [List.drop_left' (by simp), List.take_append_of_le_length (by simp),
      List.take_of_length_le (by simp), beNum_be32]
  · rw [List.append_assoc _ m.checksum]
    exact List.drop_left' (by simp)

example : ∃ de, (⟨direntHeader, 5, someEpoch, someEpoch, [97#8]⟩ : DirEnt).encode shipped = .ret (.ok de) ∧
    DirEnt.zero.decode shipped de = .ret (⟨direntHeader, 5, someEpoch, someEpoch, [97#8]⟩, none) :=
  ⟨_, rfl, rfl⟩

/-! ## C23 -/

/-- **C23** Given a checksum of the announced length, decoding returns header, session and checksum, and
the directory entry exactly as its own decoder returns it (see C22). -/
theorem C23_round_trip (T : Tables) (m m0 : MetaData) (de : List Byte)
    (agree : m.checksum.length = 4 * (get T m.header "csumlen").toNat)
    (dir : m.dir.encode T = .ret (.ok de)) (d : DirEnt)
    (back : m0.dir.decode T de = .ret (d, none)) :
    ∃ frame, m.encode T = .ret frame ∧ m0.decode T frame = .ret ({ m with dir := d }, none) := by
  obtain ⟨frame, he, h1, h2, h3⟩ := C62_metadata_layout T m de dir
  refine ⟨frame, he, ?_⟩
  have hlen : 8 + (m.checksum.length + de.length) = frame.length := by
    have h8 : 8 ≤ frame.length := by
      rw [MetaData.encode_eq dir] at he; cases he; simp; omega
    have := congrArg List.length h3
    rw [List.length_drop, List.length_append] at this
    omega
  rw [MetaData.decode_eq m0 (by omega)]
  have hh : headWord frame = m.header := by
    rw [headWord, h1, BitVec.ofNat_toNat, BitVec.setWidth_eq]
  simp only [hh, h2, h3]
  rw [Nat.mul_comm, ← agree, if_pos (by omega), ← List.drop_drop, h3, List.drop_left' rfl, back,
    List.take_left' rfl]
  simp

/-- **C23** With the conditions on the directory entry written out (those of `C22_round_trip_partial`)
the whole frame comes back. -/
theorem C23_round_trip_whole (T : Tables) (m m0 : MetaData) (n : Nat) (epoch : HasEpoch T)
    (agree : m.checksum.length = 4 * (get T m.header "csumlen").toNat)
    (width : HasWidthD T m.dir.header n) (fits : m.dir.size.toNat ≤ direntMax n)
    (short : m.dir.path.length ≤ 1024) (noNul : NoNul m.dir.path) (ascii : Ascii m.dir.path)
    (mt : EpochStamp T m.dir.mtime) (ct : EpochStamp T m.dir.ctime) :
    ∃ frame, m.encode T = .ret frame ∧ m0.decode T frame = .ret (m, none) := by
  obtain ⟨de, h1, h2⟩ := C22_round_trip_partial T m.dir m0.dir n epoch width fits short noNul ascii mt ct
  exact C23_round_trip T m m0 de agree h1 m.dir h2

example : ([1#8, 2#8, 3#8, 4#8] : List Byte).length = 4 * (get shipped metaHeader "csumlen").toNat ∧
    HasWidthD shipped direntHeader 8 ∧ EpochStamp shipped someEpoch :=
  ⟨by decide, ⟨"d64", by decide, rfl⟩, by decide⟩

/-! ## C24 -/

/-- **C24** (partial: how the code behaves; the property itself fails, see `C24_counterexample`). When
the directory entry is refused, `Encode` still succeeds, the frame ends after the checksum, and every
reader that agrees on the checksum length answers with an error. -/
theorem C24_dropped_partial (T : Tables) (m m0 : MetaData) (e : Err)
    (agree : m.checksum.length = 4 * (get T m.header "csumlen").toNat)
    (dir : m.dir.encode T = .ret (.error e)) :
    ∃ frame x, m.encode T = .ret frame ∧ frame.length = 8 + m.checksum.length ∧
      m0.decode T frame = .ret (x, some "DirEntGet - Entry too short") := by
  have he := MetaData.encode_eq dir
  simp only [bytesOrNil, List.append_nil] at he
  have h3 : (be32 m.header ++ be32 m.session ++ m.checksum).drop 8 = m.checksum :=
    List.drop_left' (by simp)
  have hh : headWord (be32 m.header ++ be32 m.session ++ m.checksum) = m.header := by
    simp only [headWord, List.append_assoc]
    rw [List.take_append_of_le_length (by simp), List.take_of_length_le (by simp), beNum_be32,
      BitVec.ofNat_toNat, BitVec.setWidth_eq]
  have key : m0.decode T (be32 m.header ++ be32 m.session ++ m.checksum) =
      .ret (⟨m.header, BitVec.ofNat 32 (beNum (((be32 m.header ++ be32 m.session ++ m.checksum).drop
        4).take 4)), m.checksum, m0.dir⟩, some "DirEntGet - Entry too short") := by
    rw [MetaData.decode_eq m0 (by simp; omega)]
    simp only [hh, h3]
    rw [Nat.mul_comm, ← agree, if_pos (by simp; omega), ← List.drop_drop, h3, List.drop_length,
      List.take_length]
    simp [DirEnt.decode]
  exact ⟨_, _, he, by simp; omega, key⟩

/-- **C24** fails: a metadata frame for a 4 GiB file is emitted without its directory entry and without
an error. -/
theorem C24_counterexample : ∃ (m : MetaData) (frame : List Byte), m.encode shipped = .ret frame ∧
    frame.length = 8 + m.checksum.length ∧ ∃ e, m.dir.encode shipped = .ret (.error e) := by
  obtain ⟨frame, x, h1, h2, _⟩ := C24_dropped_partial shipped
    ⟨metaHeader, 7, [1#8, 2#8, 3#8, 4#8], ⟨direntHeader, 4294967296, someEpoch, someEpoch, [97#8]⟩⟩
    MetaData.zero "Descriptor too small for file size" (by decide) rfl
  exact ⟨_, frame, h1, h2, _, rfl⟩

/-! ## C30: crashes -/

/-- **C30** (the exact set for metadata; see `C30_metadata_counterexample`). Decoding returns exactly
when the announced checksum is complete and the rest is a decodable directory entry. -/
theorem C30_metadata_returns_iff_partial (m0 : MetaData) (f : List Byte) :
    (m0.decode shipped f).returns ↔
      f.length < 8 ∨ (8 + 4 * csumlenNumber (headWord f) ≤ f.length ∧
        DirentDecodable (f.drop (8 + 4 * csumlenNumber (headWord f)))) := by
  by_cases h8 : 8 ≤ f.length
  · rw [MetaData.decode_eq m0 h8]
    simp only [get_csumlen, Nat.mul_comm _ 4]
    by_cases hc : 8 + 4 * csumlenNumber (headWord f) ≤ f.length
    · rw [if_pos hc, ← C30_dirent_returns_iff_partial m0.dir]
      cases m0.dir.decode shipped (f.drop (8 + 4 * csumlenNumber (headWord f))) with
      | ret a => simp [Out.returns, hc]
      | fatal => simp [Out.returns]; omega
      | panic => simp [Out.returns]; omega
    · rw [if_neg hc]
      simp [Out.returns]; omega
  · simp [MetaData.decode, show f.length < 8 by omega, Out.returns]

/-- **C30** fails for metadata: a frame shorter than its announced checksum. -/
theorem C30_metadata_counterexample : ∃ f : List Byte, ∀ m0 : MetaData,
    ¬ (m0.decode shipped f).returns :=
  ⟨[0x22, 0x80, 0, 0x11, 0, 0, 0, 7, 1, 2], fun m0 => by
    rw [C30_metadata_returns_iff_partial]
    simp [headWord, beNum, csumlenNumber, bitsAt]⟩

/-! ## C33: what the variable held before -/

/-- **C33** holds for metadata frames. -/
theorem C33_metadata (T : Tables) (m1 m2 x : MetaData) (f : List Byte)
    (h : m1.decode T f = .ret (x, none)) : m2.decode T f = .ret (x, none) := by
  by_cases h8 : 8 ≤ f.length
  · rw [MetaData.decode_eq m1 h8] at h
    rw [MetaData.decode_eq m2 h8]
    simp only at h ⊢
    split at h
    · rename_i hc
      rw [if_pos hc]
      obtain ⟨⟨d, e⟩, h1, h⟩ := Out.bind_eq_ret h
      simp only [Out.pure_eq, Out.ret.injEq, Prod.mk.injEq] at h
      obtain ⟨rfl, rfl⟩ := h
      rw [C33_dirent T _ m2.dir _ _ h1]
      rfl
    · cases h
  · simp [MetaData.decode, show f.length < 8 by omega] at h

example : ∃ x, MetaData.zero.decode shipped
    ([0x22, 0x80, 0, 0x11, 0, 0, 0, 7, 1, 2, 3, 4, 0x80, 0x80] ++ List.replicate 17 0#8) = .ret (x, none) :=
  ⟨_, rfl⟩

end Saratoga
