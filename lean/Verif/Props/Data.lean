import Verif.Lemmas.Data
import Verif.Lemmas.Shipped
/-!
# Data frames (`data/data.go`): C20, and the data parts of C27, C28, C33, C62

`T` is any set of tables unless `shipped` is named.
-/
namespace Saratoga

/-- Where the offset starts in a data frame: after header and session, and after the 16 bytes of a
timestamp if there is one. -/
def Data.offsetPos (stamped : Prop) [Decidable stamped] : Nat := if stamped then 24 else 8

/-! ## C20 -/

/-- **C20** (partial: an empty payload behind a timestamp with a 16 bit descriptor is excluded, see
`C20_counterexample`). Encoding succeeds, and decoding into any variable gives the frame back. Without
a timestamp on the wire the variable keeps its own. -/
theorem C20_round_trip_partial (T : Tables) (d d0 : Data) (n : Nat) (rt : String)
    (width : HasWidth T "descriptor" d.header n)
    (stamp : getStr T d.header "reqtstamp" = .ret rt)
    (fits : d.offset.toNat < 256 ^ n)
    (readable : rt = "yes" → d.tstamp.Wire T)
    (notEmpty : ¬ (rt = "yes" ∧ n = 2 ∧ d.payload = [])) :
    ∃ frame, d.encode T = .ret (.ok frame) ∧
      d0.decode T frame =
        .ret ({ d with tstamp := if rt = "yes" then d.tstamp else d0.tstamp }, none) := by
  obtain ⟨desc, hd, hn⟩ := width
  rw [← descSize_eq] at hn
  by_cases hy : rt = "yes"
  · obtain ⟨ts, hp, hl, hg⟩ := put_bytes (readable hy)
    refine ⟨_, Data.encode_eq (ts := ts) stamp hd hn (by simp [hy, hp, hl]), ?_⟩
    rw [Data.decode_eq (t := d.tstamp) d0 rfl stamp hd hn (by simp [hy, hg, hl]), if_neg notEmpty,
      wireNum_eq fits]
    simp [hy]
  · refine ⟨_, Data.encode_eq (ts := []) stamp hd hn (by simp [hy]), ?_⟩
    rw [Data.decode_eq (t := d0.tstamp) d0 rfl stamp hd hn (by simp [hy]), if_neg notEmpty,
      wireNum_eq fits]
    simp [hy]

/-- **C20** The excluded case: the frame is written but every reader answers with an error. -/
theorem C20_empty_refused (T : Tables) (d d0 : Data)
    (width : HasWidth T "descriptor" d.header 2)
    (stamp : getStr T d.header "reqtstamp" = .ret "yes")
    (readable : d.tstamp.Wire T) (empty : d.payload = []) :
    ∃ frame x, d.encode T = .ret (.ok frame) ∧
      d0.decode T frame = .ret (x, some "length of data payload is 0") := by
  obtain ⟨desc, hd, hn⟩ := width
  rw [← descSize_eq] at hn
  obtain ⟨ts, hp, hl, hg⟩ := put_bytes readable
  refine ⟨_, ⟨d.header, d.session, d.tstamp, wireNum 2 d.offset, d.payload⟩,
    Data.encode_eq (ts := ts) stamp hd hn (by simp [hp, hl]), ?_⟩
  rw [Data.decode_eq (t := d.tstamp) d0 rfl stamp hd hn (by simp [hg, hl]), if_pos ⟨rfl, rfl, empty⟩]

/-- A stamped data frame with a 16 bit descriptor: version v1, type data, reqtstamp yes. -/
def dataHeader : BitVec 32 := 0x23080000#32
/-- The same with a 32 bit descriptor. -/
def dataHeader32 : BitVec 32 := 0x23480000#32
/-- 2001-09-09T01:46:40Z as posix32. -/
def someStamp : Timestamp := ⟨1, 1000000000, 0, [], "posix32"⟩

example := C20_empty_refused shipped ⟨dataHeader, 7, someStamp, 5, []⟩ .zero ⟨"d16", by decide, rfl⟩ (by decide) (by decide) rfl

example := C20_round_trip_partial shipped ⟨dataHeader32, 7, someStamp, 65536, [1#8, 2#8]⟩ .zero 4 "yes" ⟨"d32", by decide, rfl⟩
  (by decide) (by decide) (fun _ => by decide) (by decide)

/-- **C20** The property as stated fails: a frame meeting all its conditions does not come back. -/
theorem C20_counterexample :
    ∃ d : Data, HasWidth shipped "descriptor" d.header 2 ∧
      getStr shipped d.header "reqtstamp" = .ret "yes" ∧ d.offset.toNat < 256 ^ 2 ∧
      d.tstamp.Wire shipped ∧
      ¬ ∃ frame, d.encode shipped = .ret (.ok frame) ∧
        ∀ d0 : Data, d0.decode shipped frame = .ret (d, none) := by
  refine ⟨⟨dataHeader, 7, someStamp, 5, []⟩, ⟨"d16", by decide, rfl⟩, by decide, by decide, by decide, ?_⟩
  rintro ⟨frame, he, hd⟩
  obtain ⟨f, x, he', hd'⟩ := C20_empty_refused shipped ⟨dataHeader, 7, someStamp, 5, []⟩ Data.zero
    ⟨"d16", by decide, rfl⟩ (by decide) (by decide) rfl
  rw [he] at he'
  cases he'
  rw [hd] at hd'
  cases hd'

-- the hypotheses of the round trip are met by a stamped frame carrying payload at a large offset
example : HasWidth shipped "descriptor" dataHeader32 4 ∧
    getStr shipped dataHeader32 "reqtstamp" = .ret "yes" ∧ (4294967295#64).toNat < 256 ^ 4 ∧
    someStamp.Wire shipped ∧ ¬ ("yes" = "yes" ∧ 4 = 2 ∧ [1#8, 2#8] = []) :=
  ⟨⟨"d32", by decide, rfl⟩, by decide, by decide, by decide, by decide⟩

/-! ## C62: layout -/

/-- **C62** The bytes of an encoded data frame: header, session, timestamp, offset, payload, numbers
big endian. The offset is reduced to the descriptor's width. -/
theorem C62_data_layout (T : Tables) (d : Data) (frame : List Byte)
    (encoded : d.encode T = .ret (.ok frame)) :
    ∃ rt n, getStr T d.header "reqtstamp" = .ret rt ∧ HasWidth T "descriptor" d.header n ∧
      frame.length = Data.offsetPos (rt = "yes") + n + d.payload.length ∧
      beNum (frame.take 4) = d.header.toNat ∧
      beNum ((frame.drop 4).take 4) = d.session.toNat ∧
      (rt = "yes" → d.tstamp.put T = .ret ((frame.drop 8).take 16)) ∧
      beNum ((frame.drop (Data.offsetPos (rt = "yes"))).take n) = d.offset.toNat % 256 ^ n ∧
      frame.drop (Data.offsetPos (rt = "yes") + n) = d.payload := by
  obtain ⟨rt, desc, n, ts, hrt, hd, hn, hts, rfl⟩ := Data.encode_inv encoded
  have hc := descSize_cases hn
  have hl := numBytes_length hc d.offset
  refine ⟨rt, n, hrt, ⟨desc, hd, by rw [← descSize_eq]; exact hn⟩, ?_⟩
  have hpos : ts.length + 8 = Data.offsetPos (rt = "yes") := by
    unfold Data.offsetPos
    by_cases hy : rt = "yes"
    · simp [hy] at hts ⊢; omega
    · simp [hy] at hts ⊢; simp [hts]
  rw [← hpos]
  refine ⟨by simp [hl]; omega, ?_, ?_, ?_, ?_, ?_⟩
  · simp only [List.append_assoc]
    rw [List.take_append_of_le_length (by simp), List.take_of_length_le (by simp), beNum_be32]
  · simp only [List.append_assoc]
    rw [List.drop_append_of_le_length (by simp), List.drop_of_length_le (by simp), List.nil_append,
      List.take_append_of_le_length (by simp), List.take_of_length_le (by simp), beNum_be32]
  · intro hy
    simp only [hy, if_true] at hts
    have hsl := slice_mid (be32 d.header ++ be32 d.session) ts (numBytes n d.offset ++ d.payload) 8 24
      (by simp) (by simp [hts.2])
    rw [slice_ok (by decide) (by simp [hts.2]; omega)] at hsl
    simp only [Out.ret.injEq] at hsl
    simp only [List.append_assoc] at hsl ⊢
    rw [hsl]; exact hts.1
  · have hsl := slice_mid (be32 d.header ++ be32 d.session ++ ts) (numBytes n d.offset) d.payload
      (ts.length + 8) (ts.length + 8 + n) (by simp; omega) (by simp [hl]; omega)
    rw [slice_ok (by omega) (by simp [hl]; omega), show ts.length + 8 + n - (ts.length + 8) = n by omega]
      at hsl
    simp only [Out.ret.injEq] at hsl
    rw [hsl, beNum_numBytes hc]
  · exact List.drop_left' (by simp [hl]; omega)

-- met by a stamped frame with payload
example : ∃ frame, Data.encode shipped ⟨dataHeader32, 7, someStamp, 65536, [1#8, 2#8]⟩ = .ret (.ok frame) :=
  ⟨_, rfl⟩

/-! ## C27: truncation -/

/-- **C27** Data frames: exactly the offset modulo the descriptor's range goes on the wire, so it
equals the offset if and only if it fits. Missing for the full C27: an error when it does not
(`C27_data_counterexample`). -/
theorem C27_data_exact_partial (T : Tables) (d : Data) (frame : List Byte) (n : Nat) (rt : String)
    (encoded : d.encode T = .ret (.ok frame)) (width : HasWidth T "descriptor" d.header n)
    (stamp : getStr T d.header "reqtstamp" = .ret rt) :
    beNum ((frame.drop (Data.offsetPos (rt = "yes"))).take n) = d.offset.toNat ↔
      d.offset.toNat < 256 ^ n := by
  obtain ⟨rt', n', h1, ⟨desc', h2, h2'⟩, _, _, _, _, h, _⟩ := C62_data_layout T d frame encoded
  obtain ⟨desc, hd, hn⟩ := width
  rw [h1] at stamp; cases stamp
  rw [h2] at hd; cases hd
  rw [h2'] at hn; cases hn
  rw [h]
  constructor
  · intro e
    rw [← e]
    exact Nat.mod_lt _ (Nat.pow_pos (by decide))
  · exact Nat.mod_eq_of_lt

/-- **C27** fails for data frames: an offset that does not fit is encoded without an error and the
reader gets another one. -/
theorem C27_data_counterexample :
    ∃ (d : Data) (frame : List Byte) (x : Data), d.encode shipped = .ret (.ok frame) ∧
      Data.zero.decode shipped frame = .ret (x, none) ∧ x.offset ≠ d.offset := by
  refine ⟨⟨0x23000000#32, 7, Timestamp.zero, 65537, [9#8]⟩, _, ⟨0x23000000#32, 7, Timestamp.zero, 1, [9#8]⟩,
    rfl, by decide, by decide⟩

/-! ## C28: crashes -/

/-- The frames a data decoder copes with, by the shipped tables. -/
def DataDecodable (f : List Byte) : Prop :=
  f.length < 10 ∨
  (stampNumber (headWord f) = 0 ∧
    (descNumber (headWord f) = 3 ∨ 8 + 2 ^ (descNumber (headWord f) + 1) ≤ f.length)) ∨
  (stampNumber (headWord f) = 1 ∧ 24 ≤ f.length ∧
    ∃ kind, f[8]? = some kind ∧
      (kind.toNat = 0 ∨
        (kind.toNat ≤ 5 ∧
          (descNumber (headWord f) = 3 ∨ 24 + 2 ^ (descNumber (headWord f) + 1) ≤ f.length))))

/-- **C28** (the exact set; the property itself fails, see `C28_counterexample`). Decoding returns, with
or without an error, exactly for the frames of `DataDecodable`. -/
theorem C28_decode_returns_iff_partial (d0 : Data) (f : List Byte) :
    (d0.decode shipped f).returns ↔ DataDecodable f := by
  unfold DataDecodable
  by_cases hshort : f.length < 10
  · simp [Data.decode, hshort, Out.returns]
  · have hw := readWord_head (f := f) (by omega)
    obtain ⟨sess, hs⟩ := readWord_ok (f := f) (pos := 4) (by omega)
    have hk : descNumber (headWord f) < 4 := Nat.mod_lt _ (by decide)
    have hb : stampNumber (headWord f) < 2 := Nat.mod_lt _ (by decide)
    have hsz := descSize_nameOf (descNumber (headWord f))
    generalize hH : headWord f = h at *
    simp only [hshort, false_or]
    unfold Data.decode
    rw [if_neg hshort]
    simp only [hw, hs, Out.ret_bind, getStr_reqtstamp, getStr_descriptor]
    -- the tail after the timestamp
    by_cases hst : stampNumber h = 1
    · simp only [hst, if_true]
      by_cases h24 : 24 ≤ f.length
      · rw [slice_ok (by decide) h24]
        simp only [Out.ret_bind]
        have hlen : ((f.drop 8).take (24 - 8)).length = 16 := by simp; omega
        obtain ⟨kind, hk0, hc⟩ := get16_shipped d0.tstamp hlen
        have hk8 : f[8]? = some kind := by
          rw [← hk0]; simp
        rcases hc with ⟨h6, hg⟩ | ⟨h1, h5, t', hg⟩ | ⟨hz, t', e, hg⟩
        · simp only [hg, Out.fatal_bind]
          simp [Out.returns, hk8]; omega
        · simp only [hg, Out.ret_bind]
          rw [hsz]
          by_cases h3 : descNumber h < 3
          · simp only [h3, if_true]
            have hn : 2 ^ (descNumber h + 1) = 2 ∨ 2 ^ (descNumber h + 1) = 4 ∨ 2 ^ (descNumber h + 1) = 8 := by
              have : descNumber h = 0 ∨ descNumber h = 1 ∨ descNumber h = 2 := by omega
              rcases this with e | e | e <;> rw [e] <;> decide
            generalize 2 ^ (descNumber h + 1) = n at hn
            by_cases hfit : 24 + n ≤ f.length
            · obtain ⟨v, hv⟩ := readNum_ok hn hfit
              simp only [hv, Out.ret_bind, sliceFrom_ok hfit]
              split <;> simp [Out.returns, hk8, h5, hfit, h24]
            · rw [readNum_bad hn (by omega)]
              simp [Out.returns, hk8]
              omega
          · simp only [h3, if_false]
            have : descNumber h = 3 := by omega
            simp [Out.returns, hk8, this, h24, h5]
        · simp only [hg, Out.ret_bind]
          simp [Out.returns, hk8, hz, h24]
      · rw [slice_bad (by omega)]
        simp [Out.returns, h24]
    · have h0 : stampNumber h = 0 := by omega
      simp only [h0, show ¬ (0 = 1) by decide, if_false, show ¬ ("no" = "yes") by decide]
      rw [hsz]
      by_cases h3 : descNumber h < 3
      · simp only [h3, if_true]
        have hn : 2 ^ (descNumber h + 1) = 2 ∨ 2 ^ (descNumber h + 1) = 4 ∨ 2 ^ (descNumber h + 1) = 8 := by
          have : descNumber h = 0 ∨ descNumber h = 1 ∨ descNumber h = 2 := by omega
          rcases this with e | e | e <;> rw [e] <;> decide
        generalize 2 ^ (descNumber h + 1) = n at hn
        by_cases hfit : 8 + n ≤ f.length
        · obtain ⟨v, hv⟩ := readNum_ok hn hfit
          simp [hv, Out.ret_bind, sliceFrom_ok hfit, Out.returns, hfit]
        · rw [readNum_bad hn (by omega)]
          simp [Out.returns]
          omega
      · simp only [h3, if_false]
        have : descNumber h = 3 := by omega
        simp [Out.returns, this]

/-- **C28** fails: 10 bytes announcing a timestamp crash the reader. -/
theorem C28_counterexample : ∃ f : List Byte, ∀ d0 : Data, ¬ (d0.decode shipped f).returns :=
  ⟨[0x23, 0x08, 0, 0, 0, 0, 0, 7, 1, 2], fun d0 => by
    rw [C28_decode_returns_iff_partial]
    simp [DataDecodable, headWord, beNum, stampNumber, descNumber, bitsAt]⟩

-- a stamped frame with d32 and payload is decodable
example : DataDecodable ([0x23, 0x48, 0, 0, 0, 0, 0, 7, 1] ++ List.replicate 30 1#8) := by
  simp [DataDecodable, headWord, beNum, stampNumber, descNumber, bitsAt]

/-! ## C33: what the variable held before -/

/-- **C33** Data frames: two variables decode the same bytes to the same outcome; only an absent
timestamp leaves the variable's own. -/
theorem C33_data_partial (T : Tables) (d1 d2 x : Data) (f : List Byte)
    (h : d1.decode T f = .ret (x, none)) :
    ∃ rt, getStr T x.header "reqtstamp" = .ret rt ∧
      d2.decode T f = .ret ({ x with tstamp := if rt = "yes" then x.tstamp else d2.tstamp }, none) := by
  unfold Data.decode at h ⊢
  split at h
  · cases h
  · rename_i hl
    rw [if_neg hl]
    obtain ⟨hd, h1, h⟩ := Out.bind_eq_ret h
    obtain ⟨se, h2, h⟩ := Out.bind_eq_ret h
    obtain ⟨rt, h3, h⟩ := Out.bind_eq_ret h
    simp only [h1, h2, h3, Out.ret_bind]
    split at h
    · rename_i hy
      rw [if_pos hy]
      obtain ⟨tb, h4, h⟩ := Out.bind_eq_ret h
      obtain ⟨⟨ts, e⟩, h5, h⟩ := Out.bind_eq_ret h
      rw [get_receiver T _ d2.tstamp] at h5
      simp only [h4, h5, Out.ret_bind]
      cases e with
      | some e => cases h
      | none =>
        obtain ⟨desc, h6, h⟩ := Out.bind_eq_ret h
        simp only [h6, Out.ret_bind]
        cases hn : descSize desc with
        | none => simp [hn] at h
        | some n =>
          simp only [hn] at h
          obtain ⟨off, h7, h⟩ := Out.bind_eq_ret h
          obtain ⟨pay, h8, h⟩ := Out.bind_eq_ret h
          simp only [h7, h8, Out.ret_bind]
          split at h
          · cases h
          · rename_i hne
            cases h
            rw [if_neg hne]
            exact ⟨rt, h3, by simp [hy]⟩
    · rename_i hy
      rw [if_neg hy]
      obtain ⟨desc, h6, h⟩ := Out.bind_eq_ret h
      simp only [h6, Out.ret_bind]
      cases hn : descSize desc with
      | none => simp [hn] at h
      | some n =>
        simp only [hn] at h
        obtain ⟨off, h7, h⟩ := Out.bind_eq_ret h
        obtain ⟨pay, h8, h⟩ := Out.bind_eq_ret h
        simp only [h7, h8, Out.ret_bind]
        cases h
        exact ⟨rt, h3, by simp [hy]⟩

/-- **C33** fails for data frames: the previous timestamp shows through. -/
theorem C33_data_counterexample : ∃ (d1 d2 : Data) (f : List Byte),
    d1.decode shipped f ≠ d2.decode shipped f ∧
    (d1.decode shipped f).returns ∧ (d2.decode shipped f).returns :=
  ⟨Data.zero, { Data.zero with tstamp := someStamp }, [0x23, 0, 0, 0, 0, 0, 0, 7, 0, 5, 9], by decide,
    by decide, by decide⟩

end Saratoga
