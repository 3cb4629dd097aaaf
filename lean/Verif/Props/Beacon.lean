import Verif.Lemmas.Beacon
import Verif.Lemmas.Shipped
/-!
# Beacon frames (`beacon/beacon.go`): C26, and the beacon parts of C27, C32, C33, C62
-/
namespace Saratoga

/-- A beacon with free space: version v1, type beacon, freespace yes, freespaced d32. -/
def beaconHeader : BitVec 32 := 0x20005000#32

/-! ## C26 -/

/-- **C26** A beacon that advertises free space comes back whole, whatever variable it is read into. -/
theorem C26_round_trip (T : Tables) (b b0 : Beacon) (n : Nat)
    (free : getStr T b.header "freespace" = .ret "yes") (width : HasWidth T "freespaced" b.header n)
    (fits : b.freespace.toNat < 256 ^ n) :
    ∃ frame, b.encode T = .ret (.ok frame) ∧ b0.decode T frame = .ret (b, none) := by
  obtain ⟨fsd, hd, hn⟩ := width
  rw [← descSize_eq] at hn
  refine ⟨_, Beacon.encode_yes free hd hn, ?_⟩
  rw [Beacon.decode_yes b0 free hd hn, wireNum_eq fits]

example := C26_round_trip shipped ⟨beaconHeader, 77, [97]⟩ .zero 4 (by decide) ⟨"d32", by decide, rfl⟩ (by decide)

/-- **C26** A beacon that does not advertise free space (and so holds none) comes back whole. -/
theorem C26_round_trip_nospace (T : Tables) (b b0 : Beacon) (fsp : String)
    (free : getStr T b.header "freespace" = .ret fsp) (no : fsp ≠ "yes") (zero : b.freespace = 0) :
    ∃ frame, b.encode T = .ret (.ok frame) ∧ b0.decode T frame = .ret (b, none) := by
  refine ⟨_, Beacon.encode_no free no, ?_⟩
  rw [Beacon.decode_no b0 free no, ← zero]

example := C26_round_trip_nospace shipped ⟨0x20000000#32, 0, [97]⟩ .zero "no" (by decide) (by decide) rfl

/-- **C26** The d128 width cannot be sent: it is refused when encoding. -/
theorem C26_d128_refused (T : Tables) (b : Beacon)
    (free : getStr T b.header "freespace" = .ret "yes")
    (wide : getStr T b.header "freespaced" = .ret "d128") :
    ∃ e, b.encode T = .ret (.error e) := by
  unfold Beacon.encode
  simp only [free, wide, Out.ret_bind, if_true]
  exact ⟨_, rfl⟩

example : getStr shipped beaconHeader "freespace" = .ret "yes" ∧
    HasWidth shipped "freespaced" beaconHeader 4 ∧ (4294967295#64).toNat < 256 ^ 4 :=
  ⟨by decide, ⟨"d32", by decide, rfl⟩, by decide⟩
example : getStr shipped 0x20000000#32 "freespace" = .ret "no" ∧ "no" ≠ "yes" := ⟨by decide, by decide⟩
example : getStr shipped 0x20007000#32 "freespace" = .ret "yes" ∧
    getStr shipped 0x20007000#32 "freespaced" = .ret "d128" := ⟨by decide, by decide⟩

/-! ## C62: layout -/

/-- **C62** The bytes of an encoded beacon: header, free space if advertised, endpoint id. -/
theorem C62_beacon_layout (T : Tables) (b : Beacon) (frame : List Byte)
    (encoded : b.encode T = .ret (.ok frame)) :
    beNum (frame.take 4) = b.header.toNat ∧
    ((getStr T b.header "freespace" = .ret "yes" ∧ ∃ n, HasWidth T "freespaced" b.header n ∧
        frame.length = 4 + n + b.eid.length ∧
        beNum ((frame.drop 4).take n) = b.freespace.toNat % 256 ^ n ∧ frame.drop (4 + n) = b.eid) ∨
     (getStr T b.header "freespace" ≠ .ret "yes" ∧ frame.length = 4 + b.eid.length ∧ frame.drop 4 = b.eid)) := by
  rcases Beacon.encode_inv encoded with ⟨fsd, n, hf, hd, hn, rfl⟩ | ⟨fsp, hf, hy, rfl⟩
  · have hc := descSize_cases hn
    have hl := numBytes_length hc b.freespace
    refine ⟨?_, Or.inl ⟨hf, n, ⟨fsd, hd, by rw [← descSize_eq]; exact hn⟩, by simp [hl]; omega, ?_,
      List.drop_left' (by simp [hl])⟩⟩
    · simp only [List.append_assoc]
      rw [List.take_append_of_le_length (by simp), List.take_of_length_le (by simp), beNum_be32]
    · simp only [List.append_assoc]
      rw [List.drop_left' (by simp), List.take_append_of_le_length (by omega),
        List.take_of_length_le (by omega), beNum_numBytes hc]
  · refine ⟨?_, Or.inr ⟨by rw [hf]; simpa using hy, by simp, List.drop_left' (by simp)⟩⟩
    rw [List.take_append_of_le_length (by simp), List.take_of_length_le (by simp), beNum_be32]

example : ∃ frame, Beacon.encode shipped ⟨beaconHeader, 77, [97#8]⟩ = .ret (.ok frame) := ⟨_, rfl⟩

/-! ## C27: truncation -/

/-- **C27** Beacons: the wire holds the free space if and only if it fits the width.
Missing for the full C27: values that do not fit are cut without an error (`C27_beacon_counterexample`). -/
theorem C27_beacon_exact_partial (T : Tables) (b : Beacon) (frame : List Byte) (n : Nat)
    (encoded : b.encode T = .ret (.ok frame)) (free : getStr T b.header "freespace" = .ret "yes")
    (width : HasWidth T "freespaced" b.header n) :
    beNum ((frame.drop 4).take n) = b.freespace.toNat ↔ b.freespace.toNat < 256 ^ n := by
  rcases (C62_beacon_layout T b frame encoded).2 with ⟨_, n', ⟨desc', h2, h2'⟩, _, h, _⟩ | ⟨h, _⟩
  · obtain ⟨desc, hd, hn⟩ := width
    rw [h2] at hd; cases hd
    rw [h2'] at hn; cases hn
    rw [h]
    constructor
    · intro e
      rw [← e]
      exact Nat.mod_lt _ (Nat.pow_pos (by decide))
    · exact Nat.mod_eq_of_lt
  · exact absurd free h

/-- **C27** fails for hand made beacons: the reader gets another free space. -/
theorem C27_beacon_counterexample :
    ∃ (b : Beacon) (frame : List Byte) (x : Beacon), b.encode shipped = .ret (.ok frame) ∧
      Beacon.zero.decode shipped frame = .ret (x, none) ∧ x.freespace ≠ b.freespace :=
  ⟨⟨0x20004000#32, 65537, [97#8]⟩, _, ⟨0x20004000#32, 1, [97#8]⟩, rfl, by decide, by decide⟩

/-! ## C32: crashes -/

/-- **C32** (the exact set; the property itself fails, see `C32_counterexample`). Decoding a beacon
returns exactly when the header is complete and, if free space is announced in 16, 32 or 64 bit, that
field is complete. -/
theorem C32_decode_returns_iff_partial (b0 : Beacon) (f : List Byte) :
    (b0.decode shipped f).returns ↔
      4 ≤ f.length ∧ (freeNumber (headWord f) = 0 ∨ freeDescNumber (headWord f) = 3 ∨
        4 + 2 ^ (freeDescNumber (headWord f) + 1) ≤ f.length) := by
  by_cases h4 : 4 ≤ f.length
  · have hw := readWord_head h4
    have hk : freeDescNumber (headWord f) < 4 := Nat.mod_lt _ (by decide)
    have hb : freeNumber (headWord f) < 2 := Nat.mod_lt _ (by decide)
    have hsz := descSize_nameOf (freeDescNumber (headWord f))
    generalize hH : headWord f = h at *
    unfold Beacon.decode
    simp only [hw, Out.ret_bind, getStr_freespace, getStr_freespaced, hsz]
    by_cases hst : freeNumber h = 1
    · simp only [hst, if_true]
      by_cases h3 : freeDescNumber h < 3
      · have hn := two_pow_desc h3
        simp only [h3, if_true]
        generalize 2 ^ (freeDescNumber h + 1) = n at hn
        by_cases hfit : 4 + n ≤ f.length
        · obtain ⟨v, hv⟩ := readNum_ok hn hfit
          simp [hv, sliceFrom_ok hfit, Out.returns, hfit, h4]
        · rw [readNum_bad hn (by omega)]
          simp [Out.returns]
          omega
      · have : freeDescNumber h = 3 := by omega
        simp only [this]
        simp [descNameOf, Out.returns, h4]
    · have h0 : freeNumber h = 0 := by omega
      simp only [h0, show ¬ (0 = 1) by decide, if_false, show ¬ ("no" = "yes") by decide,
        sliceFrom_ok h4]
      simp [Out.returns, h4]
  · unfold Beacon.decode
    rw [readWord_bad (by omega)]
    simp [Out.returns, h4]

/-- **C32** Frames of at least 8 bytes, which is what the listener passes on, crash the decoder exactly
when they announce a 64 bit free space and are shorter than 12 bytes. -/
theorem C32_listener (b0 : Beacon) (f : List Byte) (h8 : 8 ≤ f.length) :
    ¬ (b0.decode shipped f).returns ↔
      freeNumber (headWord f) = 1 ∧ freeDescNumber (headWord f) = 2 ∧ f.length < 12 := by
  rw [C32_decode_returns_iff_partial]
  have hk : freeDescNumber (headWord f) < 4 := Nat.mod_lt _ (by decide)
  have hb : freeNumber (headWord f) < 2 := Nat.mod_lt _ (by decide)
  generalize freeNumber (headWord f) = a at *
  generalize freeDescNumber (headWord f) = k at *
  have : k = 0 ∨ k = 1 ∨ k = 2 ∨ k = 3 := by omega
  rcases this with rfl | rfl | rfl | rfl <;> simp <;> omega

/-- **C32** fails: 8 bytes that announce a 64 bit free space. -/
theorem C32_counterexample : ∃ f : List Byte, 8 ≤ f.length ∧ ∀ b0 : Beacon,
    ¬ (b0.decode shipped f).returns :=
  ⟨[0x20, 0, 0x60, 0, 1, 2, 3, 4], by decide, fun b0 => by
    rw [C32_listener _ _ (by decide)]
    simp [headWord, beNum, freeNumber, freeDescNumber, bitsAt]⟩

/-! ## C33: what the variable held before -/

/-- **C33** holds for beacons: a successful decode gives the same beacon in any variable. -/
theorem C33_beacon (T : Tables) (b1 b2 x : Beacon) (f : List Byte)
    (h : b1.decode T f = .ret (x, none)) : b2.decode T f = .ret (x, none) := by
  unfold Beacon.decode at h ⊢
  obtain ⟨hd, h1, h⟩ := Out.bind_eq_ret h
  obtain ⟨fsp, h2, h⟩ := Out.bind_eq_ret h
  simp only [h1, h2, Out.ret_bind]
  split at h
  · rename_i hy
    rw [if_pos hy]
    obtain ⟨fsd, h3, h⟩ := Out.bind_eq_ret h
    simp only [h3, Out.ret_bind]
    cases hn : descSize fsd with
    | some n =>
      simp only [hn] at h
      obtain ⟨v, h4, h⟩ := Out.bind_eq_ret h
      obtain ⟨e, h5, h⟩ := Out.bind_eq_ret h
      simp only [h4, h5, Out.ret_bind]
      cases h; rfl
    | none =>
      simp only [hn] at h
      split at h
      · cases h
      · obtain ⟨e, h5, h⟩ := Out.bind_eq_ret h
        cases h
  · rename_i hy
    rw [if_neg hy]
    obtain ⟨e, h5, h⟩ := Out.bind_eq_ret h
    simp only [h5, Out.ret_bind]
    cases h; rfl

example : ∃ x, Beacon.zero.decode shipped [0x20, 0, 0x40, 0, 1, 2, 97] = .ret (x, none) := ⟨_, rfl⟩

end Saratoga
