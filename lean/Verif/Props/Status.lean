import Verif.Lemmas.Status
import Verif.Lemmas.Shipped
/-!
# Status frames (`status/status.go`): C25, C31, and the status parts of C27, C33, C62
-/
namespace Saratoga

/-- An end of a hole that `n` bytes (and a Go `int`) can hold. -/
def EndFits (n : Nat) (i : Int) : Prop := 0 ≤ i ∧ i < 256 ^ n ∧ i < 2 ^ 63

instance (n : Nat) (i : Int) : Decidable (EndFits n i) := by unfold EndFits; infer_instance

/-- A status header: version v1, type status, descriptor d32, no timestamp. -/
def statusHeader : BitVec 32 := 0x24400000#32

/-! ## C62: layout -/

/-- **C62** The bytes of an encoded status frame: header, session, progress, in-response-to, then start
and end of every hole, numbers big endian and reduced to the descriptor's width. With a requested
timestamp there are 16 zero bytes at the end (where no reader expects them). -/
theorem C62_status_layout (T : Tables) (s : Status) (frame : List Byte)
    (encoded : s.encode T = .ret (.ok frame)) :
    ∃ rt n, getStr T s.header "reqtstamp" = .ret rt ∧ HasWidth T "descriptor" s.header n ∧
      frame.length = 8 + 2 * n + 2 * n * s.holes.length + (if rt = "yes" then 16 else 0) ∧
      beNum (frame.take 4) = s.header.toNat ∧
      beNum ((frame.drop 4).take 4) = s.session.toNat ∧
      beNum ((frame.drop 8).take n) = s.progress.toNat % 256 ^ n ∧
      beNum ((frame.drop (8 + n)).take n) = s.inrespto.toNat % 256 ^ n ∧
      (∀ k h, s.holes[k]? = some h →
        (beNum ((frame.drop (8 + 2 * n + 2 * n * k)).take n) : Int) = h.start % 256 ^ n ∧
        (beNum ((frame.drop (8 + 2 * n + 2 * n * k + n)).take n) : Int) = h.stop % 256 ^ n) ∧
      frame.drop (8 + 2 * n + 2 * n * s.holes.length) = List.replicate (if rt = "yes" then 16 else 0) 0#8 := by
  obtain ⟨rt, desc, n, hrt, hd, hn, rfl⟩ := Status.encode_inv encoded
  have hc := descSize_cases hn
  have l1 := numBytes_length hc s.progress
  have l2 := numBytes_length hc s.inrespto
  have lh := holesBytes_length hc s.holes
  have mulc : 2 * n * s.holes.length = n * s.holes.length * 2 := by
    rw [Nat.mul_assoc, Nat.mul_comm]
  refine ⟨rt, n, hrt, ⟨desc, hd, by rw [← descSize_eq]; exact hn⟩, ?_, ?_, ?_, ?_, ?_, ?_, ?_⟩
  · simp [l1, l2, lh, mulc]; omega
  · simp only [List.append_assoc]
    rw [List.take_append_of_le_length (by simp), List.take_of_length_le (by simp), beNum_be32]
  · simp only [List.append_assoc]
    rw [List.drop_left' (by simp), List.take_append_of_le_length (by simp),
      List.take_of_length_le (by simp), beNum_be32]
  · rw [show ∀ a b c d e f : List Byte, a ++ b ++ c ++ d ++ e ++ f = (a ++ b) ++ (c ++ (d ++ e ++ f)) by
      simp, List.drop_left' (by simp), List.take_left' (by omega), beNum_numBytes hc]
  · rw [show ∀ a b c d e f : List Byte, a ++ b ++ c ++ d ++ e ++ f = (a ++ b ++ c) ++ (d ++ (e ++ f)) by
      simp, List.drop_left' (by simp [l1]; omega), List.take_left' (by omega), beNum_numBytes hc]
  · intro k h hk
    have ek : 2 * n * k = n * k * 2 := by rw [Nat.mul_assoc, Nat.mul_comm]
    have hlt : k < s.holes.length := by
      rcases Nat.lt_or_ge k s.holes.length with h | h
      · exact h
      · rw [List.getElem?_eq_none h] at hk; cases hk
    have hcons : s.holes.drop k = h :: s.holes.drop (k + 1) := by
      rw [List.drop_eq_getElem_cons hlt]
      rw [List.getElem?_eq_getElem hlt] at hk
      cases hk; rfl
    have lk : n * k * 2 ≤ (holesBytes n s.holes).length := by
      rw [lh]; exact Nat.mul_le_mul_right 2 (Nat.mul_le_mul_left n (by omega))
    have hdrop : (be32 s.header ++ be32 s.session ++ numBytes n s.progress ++ numBytes n s.inrespto ++
        holesBytes n s.holes ++ mkBytes (if rt = "yes" then 16 else 0)).drop (8 + 2 * n + 2 * n * k) =
        numBytes n (BitVec.ofInt 64 h.start) ++ (numBytes n (BitVec.ofInt 64 h.stop) ++
          (holesBytes n (s.holes.drop (k + 1)) ++ mkBytes (if rt = "yes" then 16 else 0))) := by
      rw [List.append_assoc _ (holesBytes n s.holes), ← List.drop_drop,
        List.drop_left' (by simp [l1, l2]; omega), ek, List.drop_append_of_le_length lk,
        holesBytes_drop hc, hcons]
      simp [holesBytes, holeBytes]
    have m1 := numBytes_length hc (BitVec.ofInt 64 h.start)
    have m2 := numBytes_length hc (BitVec.ofInt 64 h.stop)
    constructor
    · rw [hdrop, List.take_left' m1, beNum_numBytes hc, ofInt_mod hc]
    · rw [← List.drop_drop, hdrop, List.drop_left' m1, List.take_left' m2, beNum_numBytes hc, ofInt_mod hc]
  · rw [mulc]
    exact List.drop_left' (by simp [l1, l2, lh]; omega)

example : ∃ frame, Status.encode shipped ⟨statusHeader, 7, Timestamp.zero, 10, 20, [⟨0, 5⟩, ⟨8, 9⟩]⟩ =
    .ret (.ok frame) := ⟨_, rfl⟩

/-! ## C25 -/

/-- **C25** (partial: no timestamp, and a variable that holds no holes; see `C25_counterexample` and
`C33_status_counterexample`). The frame comes back; the variable keeps its own timestamp. -/
theorem C25_round_trip_partial (T : Tables) (s s0 : Status) (n : Nat) (rt : String)
    (width : HasWidth T "descriptor" s.header n)
    (stamp : getStr T s.header "reqtstamp" = .ret rt) (noStamp : rt ≠ "yes")
    (fitsP : s.progress.toNat < 256 ^ n) (fitsI : s.inrespto.toNat < 256 ^ n)
    (fitsH : ∀ h ∈ s.holes, EndFits n h.start ∧ EndFits n h.stop) (fresh : s0.holes = []) :
    ∃ frame, s.encode T = .ret (.ok frame) ∧
      s0.decode T frame = .ret ({ s with tstamp := s0.tstamp }, none) := by
  obtain ⟨desc, hd, hn⟩ := width
  rw [← descSize_eq] at hn
  refine ⟨_, Status.encode_eq stamp hd hn, ?_⟩
  rw [if_neg noStamp]
  rw [show mkBytes 0 = [] from rfl, List.append_nil, Status.decode_eq s0 stamp noStamp hd hn, fresh,
    wireNum_eq fitsP, wireNum_eq fitsI, List.nil_append]
  have : s.holes.map (wireHole n) = s.holes := by
    conv => rhs; rw [← List.map_id s.holes]
    apply List.map_congr_left
    intro h hh
    exact wireHole_eq (fitsH h hh).1 (fitsH h hh).2
  rw [this]

example : HasWidth shipped "descriptor" statusHeader 4 ∧
    getStr shipped statusHeader "reqtstamp" = .ret "no" ∧
    (∀ h ∈ [(⟨0, 5⟩ : Hole), ⟨70000, 80000⟩], EndFits 4 h.start ∧ EndFits 4 h.stop) :=
  ⟨⟨"d32", by decide, rfl⟩, by decide, by decide⟩

/-- **C25** What goes wrong with timestamps, for 64 bit descriptors and any progress below 2^56: the
frame is written but every reader refuses it (it takes the progress for a timestamp). -/
theorem C25_stamped_refused (s s0 : Status) (desc : descNumber s.header = 2)
    (stamp : stampNumber s.header = 1) (small : s.progress.toNat < 2 ^ 56) :
    ∃ frame x e, s.encode shipped = .ret (.ok frame) ∧ s0.decode shipped frame = .ret (x, some e) := by
  have hrt : getStr shipped s.header "reqtstamp" = .ret "yes" := by rw [getStr_reqtstamp, if_pos stamp]
  have hd : getStr shipped s.header "descriptor" = .ret "d64" := by rw [getStr_descriptor, desc]; rfl
  have henc := Status.encode_eq (s := s) hrt hd (n := 8) rfl
  rw [if_pos rfl] at henc
  have l1 : (numBytes 8 s.progress).length = 8 := numBytes_length (by decide) _
  have l2 : (numBytes 8 s.inrespto).length = 8 := numBytes_length (by decide) _
  have hsl := slice_mid (be32 s.header ++ be32 s.session) (numBytes 8 s.progress ++ numBytes 8 s.inrespto)
    (holesBytes 8 s.holes ++ mkBytes 16) 8 24 (by simp) (by simp [l1, l2])
  have e0 : be32 s.header ++ be32 s.session ++ (numBytes 8 s.progress ++ numBytes 8 s.inrespto) ++
      (holesBytes 8 s.holes ++ mkBytes 16) = be32 s.header ++ be32 s.session ++ numBytes 8 s.progress ++
      numBytes 8 s.inrespto ++ holesBytes 8 s.holes ++ mkBytes 16 := by simp
  rw [e0] at hsl
  obtain ⟨kind, hk0, hc⟩ := get16_shipped s0.tstamp
    (b := numBytes 8 s.progress ++ numBytes 8 s.inrespto) (by simp [l1, l2])
  have hkind : kind.toNat = 0 := by
    have : kind = s.progress.extractLsb' 56 8 := by
      simp only [numBytes, if_neg (by decide : ¬ 8 = 2), if_neg (by decide : ¬ 8 = 4), be64,
        List.cons_append] at hk0
      simpa using hk0.symm
    rw [this, BitVec.extractLsb'_toNat, Nat.shiftRight_eq_div_pow]
    omega
  rcases hc with ⟨h6, _⟩ | ⟨h1, _⟩ | ⟨_, t', e, hg⟩
  · omega
  · omega
  · refine ⟨_, ⟨s.header, s.session, t', s0.progress, s0.inrespto, s0.holes⟩, e, henc, ?_⟩
    generalize hF : be32 s.header ++ be32 s.session ++ numBytes 8 s.progress ++
      numBytes 8 s.inrespto ++ holesBytes 8 s.holes ++ mkBytes 16 = F at *
    have r1 : readWord F 0 = .ret s.header := by
      rw [← hF]; simp only [List.append_assoc]; exact readWord_start _ _
    have r2 : readWord F 4 = .ret s.session := by
      rw [← hF]
      have := readWord_mid (be32 s.header) (numBytes 8 s.progress ++ numBytes 8 s.inrespto ++
        holesBytes 8 s.holes ++ mkBytes 16) s.session 4 (by simp)
      simpa only [List.append_assoc] using this
    have hlen : ¬ F.length < 12 := by rw [← hF]; simp [l1]; omega
    unfold Status.decode
    rw [if_neg hlen]
    simp only [r1, r2, Out.ret_bind, hrt, if_true, hsl, hg, Out.pure_eq]

/-- **C25** fails with timestamps. -/
theorem C25_counterexample :
    ∃ s : Status, HasWidth shipped "descriptor" s.header 8 ∧ s.tstamp.Wire shipped ∧
      ∀ s0 : Status, ∃ frame x e, s.encode shipped = .ret (.ok frame) ∧
        s0.decode shipped frame = .ret (x, some e) :=
  ⟨⟨0x24880000#32, 7, ⟨1, 1000000000, 0, [], "posix32"⟩, 10, 20, [⟨0, 5⟩]⟩, ⟨"d64", by decide, rfl⟩,
    by decide, fun s0 => C25_stamped_refused _ s0 (by decide) (by decide) (by decide)⟩

/-! ## C27: truncation -/

/-- **C27** Status frames: progress on the wire is exact if and only if it fits. Missing for the full
C27: an error when it does not (`C27_status_counterexample`). -/
theorem C27_status_exact_partial (T : Tables) (s : Status) (frame : List Byte) (n : Nat)
    (encoded : s.encode T = .ret (.ok frame)) (width : HasWidth T "descriptor" s.header n) :
    (beNum ((frame.drop 8).take n) = s.progress.toNat ↔ s.progress.toNat < 256 ^ n) ∧
    (beNum ((frame.drop (8 + n)).take n) = s.inrespto.toNat ↔ s.inrespto.toNat < 256 ^ n) ∧
    (∀ k h, s.holes[k]? = some h →
      ((beNum ((frame.drop (8 + 2 * n + 2 * n * k)).take n) : Int) = h.start ↔
        0 ≤ h.start ∧ h.start < 256 ^ n) ∧
      ((beNum ((frame.drop (8 + 2 * n + 2 * n * k + n)).take n) : Int) = h.stop ↔
        0 ≤ h.stop ∧ h.stop < 256 ^ n)) := by
  obtain ⟨rt', n', h1, ⟨desc', h2, h2'⟩, _, _, _, hp, hi, hh, _⟩ := C62_status_layout T s frame encoded
  obtain ⟨desc, hd, hn⟩ := width
  rw [h2] at hd; cases hd
  rw [h2'] at hn; cases hn
  have key : ∀ v : Nat, v % 256 ^ n = v ↔ v < 256 ^ n := by
    intro v
    constructor
    · intro e
      rw [← e]
      exact Nat.mod_lt _ (Nat.pow_pos (by decide))
    · exact Nat.mod_eq_of_lt
  have keyi : ∀ v : Int, v % 256 ^ n = v ↔ 0 ≤ v ∧ v < 256 ^ n := by
    intro v
    have hpos : (0 : Int) < 256 ^ n := Int.pow_pos (by decide)
    constructor
    · intro e
      have := Int.emod_nonneg v (Int.ne_of_gt hpos)
      have := Int.emod_lt_of_pos v hpos
      omega
    · rintro ⟨a, b⟩
      exact Int.emod_eq_of_lt a b
  rw [hp, hi]
  refine ⟨key _, key _, fun k h hk => ?_⟩
  obtain ⟨a, b⟩ := hh k h hk
  rw [a, b]
  exact ⟨keyi _, keyi _⟩

/-- **C27** fails for status frames. -/
theorem C27_status_counterexample :
    ∃ (s : Status) (frame : List Byte) (x : Status), s.encode shipped = .ret (.ok frame) ∧
      Status.zero.decode shipped frame = .ret (x, none) ∧ x.progress ≠ s.progress ∧ x.holes ≠ s.holes :=
  ⟨⟨0x24000000#32, 7, Timestamp.zero, 65537, 0, [⟨65536, 65538⟩]⟩, _,
    ⟨0x24000000#32, 7, Timestamp.zero, 1, 0, [⟨0, 2⟩]⟩, rfl, by decide, by decide, by decide⟩

/-! ## C31: crashes -/

/-- The frames a status decoder copes with, by the shipped tables. -/
def StatusDecodable (f : List Byte) : Prop :=
  f.length < 12 ∨
  (stampNumber (headWord f) = 0 ∧
    (descNumber (headWord f) = 3 ∨ 8 + 2 * 2 ^ (descNumber (headWord f) + 1) ≤ f.length)) ∨
  (stampNumber (headWord f) = 1 ∧ 24 ≤ f.length ∧
    ∃ kind, f[8]? = some kind ∧
      (kind.toNat = 0 ∨
        (kind.toNat ≤ 5 ∧
          (descNumber (headWord f) = 3 ∨ 24 + 2 * 2 ^ (descNumber (headWord f) + 1) ≤ f.length))))

/-- The part of the decoder after the timestamp. -/
theorem status_tail {f : List Byte} {n pos : Nat} (hn : n = 2 ∨ n = 4 ∨ n = 8) (acc : List Hole)
    (hfit : pos + n + n ≤ f.length) :
    ∃ hs, Status.getHoles f n ((f.drop (pos + n + n)).length / 2 / n) (pos + n + n) acc = .ret (acc ++ hs) := by
  have hk : (f.drop (pos + n + n)).length / 2 / n * (n * 2) ≤ (f.drop (pos + n + n)).length := by
    rw [Nat.div_div_eq_div_mul, Nat.mul_comm 2 n]
    exact Nat.div_mul_le_self _ _
  obtain ⟨hs, _, hg⟩ := getHoles_ok (f := f) hn ((f.drop (pos + n + n)).length / 2 / n) (pos + n + n) acc
    (by rw [List.length_drop] at hk ⊢; omega)
  exact ⟨hs, hg acc⟩

/-- **C31** (the exact set; the property itself fails, see `C31_counterexample`). -/
theorem C31_decode_returns_iff_partial (s0 : Status) (f : List Byte) :
    (s0.decode shipped f).returns ↔ StatusDecodable f := by
  unfold StatusDecodable
  by_cases hshort : f.length < 12
  · simp [Status.decode, hshort, Out.returns]
  · have hw := readWord_head (f := f) (by omega)
    obtain ⟨sess, hs⟩ := readWord_ok (f := f) (pos := 4) (by omega)
    have hk : descNumber (headWord f) < 4 := Nat.mod_lt _ (by decide)
    have hb : stampNumber (headWord f) < 2 := Nat.mod_lt _ (by decide)
    have hsz := descSize_nameOf (descNumber (headWord f))
    generalize hH : headWord f = h at *
    simp only [hshort, false_or]
    unfold Status.decode
    rw [if_neg hshort]
    simp only [hw, hs, Out.ret_bind, getStr_reqtstamp, getStr_descriptor]
    by_cases hst : stampNumber h = 1
    · simp only [hst, if_true]
      by_cases h24 : 24 ≤ f.length
      · rw [slice_ok (by decide) h24]
        simp only [Out.ret_bind]
        have hlen : ((f.drop 8).take (24 - 8)).length = 16 := by simp; omega
        obtain ⟨kind, hk0, hc⟩ := get16_shipped s0.tstamp hlen
        have hk8 : f[8]? = some kind := by
          rw [← hk0]; simp
        rcases hc with ⟨h6, hg⟩ | ⟨h1, h5, t', hg⟩ | ⟨hz, t', e, hg⟩
        · simp only [hg, Out.fatal_bind]
          simp [Out.returns, hk8]; omega
        · simp only [hg, Out.ret_bind, Out.pure_eq]
          rw [hsz]
          by_cases h3 : descNumber h < 3
          · simp only [h3, if_true]
            have hn := two_pow_desc h3
            generalize 2 ^ (descNumber h + 1) = n at hn
            by_cases hfit : 24 + n + n ≤ f.length
            · obtain ⟨v, hv⟩ := readNum_ok (f := f) (pos := 24) hn (by omega)
              obtain ⟨w, hw'⟩ := readNum_ok (f := f) (pos := 24 + n) hn (by omega)
              obtain ⟨hs', hg'⟩ := status_tail hn s0.holes hfit
              simp only [hv, hw', Out.ret_bind, sliceFrom_ok hfit, hg']
              simp [Out.returns, hk8, h24, h5]; omega
            · by_cases h1' : 24 + n ≤ f.length
              · obtain ⟨v, hv⟩ := readNum_ok (f := f) (pos := 24) hn (by omega)
                rw [hv]
                simp only [Out.ret_bind]
                rw [readNum_bad hn (by omega)]
                simp [Out.returns, hk8]; omega
              · rw [readNum_bad hn (by omega)]
                simp [Out.returns, hk8]; omega
          · simp only [h3, if_false]
            have : descNumber h = 3 := by omega
            simp [Out.returns, hk8, this, h24, h5]
        · simp only [hg, Out.ret_bind, Out.pure_eq]
          simp [Out.returns, hk8, hz, h24]
      · rw [slice_bad (by omega)]
        simp [Out.returns, h24]
    · have h0 : stampNumber h = 0 := by omega
      simp only [h0, show ¬ (0 = 1) by decide, if_false, show ¬ ("no" = "yes") by decide, Out.pure_eq,
        Out.ret_bind]
      rw [hsz]
      by_cases h3 : descNumber h < 3
      · simp only [h3, if_true]
        have hn := two_pow_desc h3
        generalize 2 ^ (descNumber h + 1) = n at hn
        by_cases hfit : 8 + n + n ≤ f.length
        · obtain ⟨v, hv⟩ := readNum_ok (f := f) (pos := 8) hn (by omega)
          obtain ⟨w, hw'⟩ := readNum_ok (f := f) (pos := 8 + n) hn (by omega)
          obtain ⟨hs', hg'⟩ := status_tail hn s0.holes hfit
          simp only [hv, hw', Out.ret_bind, sliceFrom_ok hfit, hg']
          simp [Out.returns]; omega
        · by_cases h1' : 8 + n ≤ f.length
          · obtain ⟨v, hv⟩ := readNum_ok (f := f) (pos := 8) hn (by omega)
            rw [hv]
            simp only [Out.ret_bind]
            rw [readNum_bad hn (by omega)]
            simp [Out.returns]; omega
          · rw [readNum_bad hn (by omega)]
            simp [Out.returns]; omega
      · simp only [h3, if_false]
        have : descNumber h = 3 := by omega
        simp [Out.returns, this]

/-- **C31** fails: a 12 byte status frame with a 64 bit descriptor. -/
theorem C31_counterexample : ∃ f : List Byte, ∀ s0 : Status, ¬ (s0.decode shipped f).returns :=
  ⟨[0x24, 0x80, 0, 0, 0, 0, 0, 7, 1, 2, 3, 4], fun s0 => by
    rw [C31_decode_returns_iff_partial]
    simp [StatusDecodable, headWord, beNum, stampNumber, descNumber, bitsAt]⟩

example : StatusDecodable ([0x24, 0x80, 0, 0, 0, 0, 0, 7] ++ List.replicate 32 1#8) := by
  simp [StatusDecodable, headWord, beNum, stampNumber, descNumber, bitsAt]

/-! ## C33: what the variable held before -/

/-- **C33** (for status frames). Decoding keeps the holes already in the variable in front of the
received ones, and an absent timestamp leaves the variable's own; everything else depends on the frame
only. -/
theorem C33_status_partial (T : Tables) (s1 s2 x : Status) (f : List Byte)
    (h : s1.decode T f = .ret (x, none)) :
    ∃ rt hs, getStr T x.header "reqtstamp" = .ret rt ∧ x.holes = s1.holes ++ hs ∧
      s2.decode T f = .ret ({ x with tstamp := if rt = "yes" then x.tstamp else s2.tstamp,
                                     holes := s2.holes ++ hs }, none) := by
  unfold Status.decode at h ⊢
  split at h
  · cases h
  · rename_i hl
    rw [if_neg hl]
    obtain ⟨hd, h1, h⟩ := Out.bind_eq_ret h
    obtain ⟨se, h2, h⟩ := Out.bind_eq_ret h
    obtain ⟨rt, h3, h⟩ := Out.bind_eq_ret h
    simp only [h1, h2, h3, Out.ret_bind]
    have tail : ∀ (desc : String) (pos : Nat) (t t' : Timestamp),
        (match descSize desc with
          | none => pure (({ s1 with header := hd, session := se, tstamp := t } : Status),
              some "invalid descriptor in status")
          | some n => do
            let p ← readNum f pos n
            let i ← readNum f (pos + n) n
            let rest ← sliceFrom f (pos + n + n)
            let hs ← Status.getHoles f n (rest.length / 2 / n) (pos + n + n) s1.holes
            pure (({ s1 with header := hd, session := se, tstamp := t, progress := p, inrespto := i,
                             holes := hs } : Status), none)) = Out.ret (x, (none : Option Err)) →
        x.header = hd ∧ x.tstamp = t ∧ ∃ hs, x.holes = s1.holes ++ hs ∧
        (match descSize desc with
          | none => pure (({ s2 with header := hd, session := se, tstamp := t' } : Status),
              some "invalid descriptor in status")
          | some n => do
            let p ← readNum f pos n
            let i ← readNum f (pos + n) n
            let rest ← sliceFrom f (pos + n + n)
            let hs ← Status.getHoles f n (rest.length / 2 / n) (pos + n + n) s2.holes
            pure (({ s2 with header := hd, session := se, tstamp := t', progress := p, inrespto := i,
                             holes := hs } : Status), none)) =
          Out.ret ({ x with tstamp := t', holes := s2.holes ++ hs }, (none : Option Err)) := by
      intro desc pos t t' hh
      cases hn : descSize desc with
      | none => simp [hn] at hh
      | some n =>
        have hc := descSize_cases hn
        simp only [hn] at hh ⊢
        obtain ⟨p, g1, hh⟩ := Out.bind_eq_ret hh
        obtain ⟨i, g2, hh⟩ := Out.bind_eq_ret hh
        obtain ⟨rest, g3, hh⟩ := Out.bind_eq_ret hh
        obtain ⟨hs, g4, hh⟩ := Out.bind_eq_ret hh
        have hfit : pos + n + n ≤ f.length := by
          by_cases hx : pos + n + n ≤ f.length
          · exact hx
          · rw [sliceFrom_bad (by omega)] at g3; cases g3
        rw [sliceFrom_ok hfit] at g3
        cases g3
        have hk : (f.drop (pos + n + n)).length / 2 / n * (n * 2) ≤ (f.drop (pos + n + n)).length := by
          rw [Nat.div_div_eq_div_mul, Nat.mul_comm 2 n]
          exact Nat.div_mul_le_self _ _
        obtain ⟨hs', _, hg⟩ := getHoles_ok (f := f) hc ((f.drop (pos + n + n)).length / 2 / n)
          (pos + n + n) [] (by rw [List.length_drop] at hk ⊢; omega)
        rw [hg] at g4
        cases g4
        cases hh
        refine ⟨rfl, rfl, hs', rfl, ?_⟩
        simp only [g1, g2, sliceFrom_ok hfit, hg, Out.ret_bind]
        rfl
    split at h
    · rename_i hy
      rw [if_pos hy]
      obtain ⟨⟨s', e, pos⟩, h0, h⟩ := Out.bind_eq_ret h
      obtain ⟨tb, h4, h0⟩ := Out.bind_eq_ret h0
      obtain ⟨⟨ts, e'⟩, h5, h0⟩ := Out.bind_eq_ret h0
      rw [get_receiver T _ s2.tstamp] at h5
      cases h0
      simp only [h4, h5, Out.ret_bind, Out.pure_eq]
      cases e with
      | some e => cases h
      | none =>
        obtain ⟨desc, h6, h⟩ := Out.bind_eq_ret h
        obtain ⟨ha, hb, hs, hc, hd'⟩ := tail desc 24 ts ts h
        refine ⟨rt, hs, by rw [ha]; exact h3, hc, ?_⟩
        simp only [h6, Out.ret_bind, hy, if_true, hb]
        exact hd'
    · rename_i hy
      rw [if_neg hy]
      simp only [Out.pure_eq, Out.ret_bind] at h ⊢
      obtain ⟨desc, h6, h⟩ := Out.bind_eq_ret h
      obtain ⟨ha, hb, hs, hc, hd'⟩ := tail desc 8 s1.tstamp s2.tstamp h
      refine ⟨rt, hs, by rw [ha]; exact h3, hc, ?_⟩
      simp only [h6, Out.ret_bind, hy, if_false]
      exact hd'

/-- **C33** fails for status frames: holes of an earlier frame remain. -/
theorem C33_status_counterexample : ∃ (s1 s2 x1 x2 : Status) (f : List Byte),
    s1.decode shipped f = .ret (x1, none) ∧ s2.decode shipped f = .ret (x2, none) ∧ x1.holes ≠ x2.holes :=
  ⟨Status.zero, { Status.zero with holes := [⟨1, 2⟩] },
    ⟨0x24000000#32, 7, Timestamp.zero, 5, 6, []⟩, ⟨0x24000000#32, 7, Timestamp.zero, 5, 6, [⟨1, 2⟩]⟩,
    [0x24, 0, 0, 0, 0, 0, 0, 7, 0, 5, 0, 6], by decide, by decide, by decide⟩

example : ∃ x, Status.zero.decode shipped
    [0x24, 0, 0, 0, 0, 0, 0, 7, 0, 5, 0, 6, 0, 1, 0, 2] = .ret (x, none) := ⟨_, rfl⟩

end Saratoga
