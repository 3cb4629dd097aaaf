import Verif.Lemmas.Again
import Verif.Props.Data
import Verif.Props.Survive
/-! # C142: a received frame sent on -/
namespace Saratoga

/-- **C142** Beacons: encoding what was read gives the very bytes that were read, whatever the frame. -/
theorem C142_beacon (T : Tables) (b x : Beacon) (f : List Byte) (received : b.decode T f = .ret (x, none)) :
    x.encode T = .ret (.ok f) := by
  unfold Beacon.decode at received
  obtain ⟨hdr, h1, h⟩ := Out.bind_eq_ret received
  obtain ⟨fsp, h2, h⟩ := Out.bind_eq_ret h
  obtain ⟨l1, e1⟩ := readWord_bytes h1
  simp only at h2
  split at h
  · rename_i hy
    subst hy
    obtain ⟨fsd, h3, h⟩ := Out.bind_eq_ret h
    simp only at h3
    cases hn : descSize fsd with
    | none =>
      simp only [hn] at h
      split at h
      · cases h
      · obtain ⟨s, _, h⟩ := Out.bind_eq_ret h; cases h
    | some n =>
      simp only [hn] at h
      obtain ⟨v, h4, h⟩ := Out.bind_eq_ret h
      obtain ⟨e, h5, h⟩ := Out.bind_eq_ret h
      cases h
      obtain ⟨_, e4⟩ := readNum_again (descSize_cases hn) h4
      obtain ⟨_, rfl⟩ := sliceFrom_ret h5
      rw [Beacon.encode_yes h2 h3 hn]
      simp only
      rw [e1, e4, List.append_assoc, glue, ← Nat.zero_add 4, glue]; rfl
  · rename_i hy
    obtain ⟨e, h5, h⟩ := Out.bind_eq_ret h
    cases h
    obtain ⟨_, rfl⟩ := sliceFrom_ret h5
    rw [Beacon.encode_no h2 hy]
    simp only
    rw [e1, ← Nat.zero_add 4, glue]; rfl

example := C142_beacon shipped ⟨0, 0, []⟩ _ [0x20, 0, 0x50, 0, 1, 2, 3, 4, 65] rfl

private theorem zeros_iff (l : List Byte) (n : Nat) (len : l.length = n) : l = mkBytes n ↔ ∀ b ∈ l, b = 0#8 := by
  unfold mkBytes
  rw [List.eq_replicate_iff]
  exact ⟨fun h => h.2, fun h => ⟨len, h⟩⟩

/-- **C142** Data frames: encoding what was read gives the bytes that were read, exactly if the frame
has no timestamp or the bytes of its timestamp that the timestamp's type does not use are zero. -/
theorem C142_data (T : Tables) (d x : Data) (f : List Byte) (rt : String)
    (received : d.decode T f = .ret (x, none)) (stamp : getStr T x.header "reqtstamp" = .ret rt) :
    x.encode T = .ret (.ok f) ↔
      (rt = "yes" → ∀ b ∈ ((f.drop 8).take 16).drop (stampUses x.tstamp.ttype), b = 0#8) := by
  unfold Data.decode at received
  split at received
  · cases received
  obtain ⟨hdr, h1, h⟩ := Out.bind_eq_ret received
  obtain ⟨ses, h2, h⟩ := Out.bind_eq_ret h
  obtain ⟨rt', h3, h⟩ := Out.bind_eq_ret h
  obtain ⟨_, e1⟩ := readWord_bytes h1
  obtain ⟨_, e2⟩ := readWord_bytes h2
  simp only at h3
  split at h
  · rename_i hy
    obtain ⟨tb, h4, h⟩ := Out.bind_eq_ret h
    obtain ⟨⟨ts, e⟩, h5, h⟩ := Out.bind_eq_ret h
    cases e with
    | some e => cases h
    | none =>
      obtain ⟨desc, h6, h⟩ := Out.bind_eq_ret h
      simp only at h6
      cases hn : descSize desc with
      | none => simp only [hn] at h; cases h
      | some n =>
        simp only [hn] at h
        obtain ⟨off, h7, h⟩ := Out.bind_eq_ret h
        obtain ⟨pay, h8, h⟩ := Out.bind_eq_ret h
        split at h
        · cases h
        cases h
        simp only at stamp
        rw [h3] at stamp
        cases stamp
        subst hy
        obtain ⟨_, l4, e4⟩ := slice_ret h4
        obtain ⟨_, e7⟩ := readNum_again (descSize_cases hn) h7
        obtain ⟨_, rfl⟩ := sliceFrom_ret h8
        have ltb : tb.length = 16 := by rw [e4]; simp; omega
        obtain ⟨lu, pu⟩ := stamp_again ltb h5
        rw [Data.encode_eq (ts := tb.take (stampUses ts.ttype) ++ mkBytes (16 - stampUses ts.ttype)) h3 h6 hn
          (by rw [if_pos rfl]; exact ⟨pu, by simp [mkBytes, ltb]; omega⟩)]
        simp only [e1, e2, e7, Out.ret.injEq, Except.ok.injEq, forall_const]
        rw [show (f.drop 8).take 16 = tb from e4.symm, ← zeros_iff _ (16 - stampUses ts.ttype) (by simp [ltb])]
        have key : f = (f.drop 0).take 4 ++ (f.drop 4).take 4 ++ tb ++ (f.drop 24).take n ++ f.drop (24 + n) := by
          rw [e4]
          simp only [List.append_assoc]
          rw [glue, show (24 : Nat) = 8 + 16 from rfl]
          show f = _ ++ (_ ++ ((f.drop 8).take 16 ++ f.drop (8 + 16)))
          rw [glue, show (8 : Nat) = 4 + 4 from rfl, glue]
          exact (glue f 0 4).symm
        have tk := List.take_append_drop (stampUses ts.ttype) tb
        constructor
        · intro he
          have a2 := he.trans key
          simp only [List.append_assoc] at a2
          have a3 := List.append_cancel_left (List.append_cancel_left a2)
          have a4 : (tb.take (stampUses ts.ttype) ++ mkBytes (16 - stampUses ts.ttype)) ++
              ((f.drop 24).take n ++ f.drop (24 + n)) = tb ++ ((f.drop 24).take n ++ f.drop (24 + n)) := by
            rw [List.append_assoc]; exact a3
          have a5 := List.append_cancel_right a4
          exact (List.append_cancel_left (a5.trans tk.symm)).symm
        · intro hz
          rw [← hz, tk]
          exact key.symm
  · rename_i hy
    obtain ⟨desc, h6, h⟩ := Out.bind_eq_ret h
    simp only at h6
    cases hn : descSize desc with
    | none => simp only [hn] at h; cases h
    | some n =>
      simp only [hn] at h
      obtain ⟨off, h7, h⟩ := Out.bind_eq_ret h
      obtain ⟨pay, h8, h⟩ := Out.bind_eq_ret h
      cases h
      simp only at stamp
      rw [h3] at stamp
      cases stamp
      obtain ⟨_, e7⟩ := readNum_again (descSize_cases hn) h7
      obtain ⟨_, rfl⟩ := sliceFrom_ret h8
      rw [Data.encode_eq (ts := []) h3 h6 hn (by rw [if_neg hy])]
      simp only [e1, e2, e7]
      refine iff_of_true ?_ (fun hh => absurd hh hy)
      congr 2
      simp only [List.append_assoc, List.nil_append]
      rw [glue, show (8 : Nat) = 4 + 4 from rfl, glue]
      exact glue f 0 4

example := C142_data shipped .zero _ ([0x23, 0x48, 0, 0, 0, 0, 0, 7, 1] ++ List.replicate 30 1#8) "yes" rfl (by decide)

private theorem upToNul_split {l u : List Byte} (h : upToNul l = u) (len : u.length < l.length) :
    l = u ++ ([0#8] ++ l.drop (u.length + 1)) := by
  have e : l = u ++ l.drop u.length := by
    have p : u <+: l := by rw [← h]; exact List.takeWhile_prefix _
    obtain ⟨t, rfl⟩ := p
    simp
  cases hd : l.drop u.length with
  | nil => rw [hd] at e; have := congrArg List.length e; simp at this; omega
  | cons b r =>
    have hr : l.drop (u.length + 1) = r := by rw [← List.drop_drop, hd]; rfl
    rw [hr]
    rw [hd] at e
    by_cases hb : b = 0#8
    · rw [hb] at e; exact e
    · exfalso
      have nn : NoNul (u ++ [b]) := by
        intro x hx
        rw [List.mem_append] at hx
        rcases hx with hx | hx
        · rw [← h] at hx; exact upToNul_noNul _ x hx
        · simp only [List.mem_singleton] at hx; rw [hx]; exact hb
      have : upToNul l = (u ++ [b]) ++ upToNul r := by
        rw [e, show u ++ b :: r = (u ++ [b]) ++ r by simp]
        unfold upToNul
        rw [List.takeWhile_append_of_pos (by simpa [NoNul] using nn)]
      rw [h] at this
      have := congrArg List.length this
      simp at this

/-- **C142** Requests, received in a variable with no name in it: encoding what was read gives the
bytes that were read, exactly if the name in the frame is ASCII. -/
theorem C142_request (r x : Request) (f : List Byte) (fresh : r.fname = [])
    (received : r.decode f = .ret (x, none)) :
    x.encode = .ret f ↔ Ascii (upToNul (f.drop 8)) := by
  unfold Request.decode at received
  split at received
  · cases received
  obtain ⟨hdr, h1, h⟩ := Out.bind_eq_ret received
  obtain ⟨ses, h2, h⟩ := Out.bind_eq_ret h
  obtain ⟨rest, h3, h⟩ := Out.bind_eq_ret h
  obtain ⟨_, e1⟩ := readWord_bytes h1
  obtain ⟨_, e2⟩ := readWord_bytes h2
  obtain ⟨l3, rfl⟩ := sliceFrom_ret h3
  simp only [nameLoop_eq, fresh, List.nil_append] at h
  have key : x.header = hdr ∧ x.session = ses ∧ x.fname = garbled (upToNul (f.drop 8)) ∧
      9 + (garbled (upToNul (f.drop 8))).length ≤ f.length ∧
      x.auth = f.drop (9 + (garbled (upToNul (f.drop 8))).length) := by
    split at h
    · rename_i hl
      cases h
      exact ⟨rfl, rfl, rfl, by omega, (List.drop_eq_nil_of_le (by omega)).symm⟩
    · obtain ⟨a, h4, h⟩ := Out.bind_eq_ret h
      cases h
      obtain ⟨l4, rfl⟩ := sliceFrom_ret h4
      exact ⟨rfl, rfl, rfl, by omega, rfl⟩
  obtain ⟨k1, k2, k3, k4, k5⟩ := key
  have pre : f = (f.drop 0).take 4 ++ ((f.drop 4).take 4 ++ f.drop 8) := by
    rw [show (8 : Nat) = 4 + 4 from rfl, glue]; exact (glue f 0 4).symm
  rw [Request.encode_eq, k1, k2, k3, k5, e1, e2, Out.ret.injEq]
  have gl := garbled_length (upToNul (f.drop 8))
  generalize hu : upToNul (f.drop 8) = u at *
  constructor
  · intro he
    rw [← garbled_ascii_iff]
    have a := he.trans pre
    simp only [List.append_assoc] at a
    have a := List.append_cancel_left (List.append_cancel_left a)
    have nn : NoNul u := by rw [← hu]; exact upToNul_noNul _
    have b := upToNul_append (post := f.drop (9 + (garbled u).length)) (garbled_noNul nn)
    rw [show garbled u ++ 0#8 :: f.drop (9 + (garbled u).length) = f.drop 8 from a, hu] at b
    rw [← b]
  · intro ha
    rw [garbled_ascii ha] at k4 ⊢
    refine Eq.trans ?_ pre.symm
    simp only [List.append_assoc]
    rw [upToNul_split hu (by simp; omega)]
    simp only [List.drop_drop]
    rw [show 8 + (u.length + 1) = 9 + u.length by omega]

example := C142_request .zero _ [0x21, 0, 0, 0, 0, 0, 0, 7, 97, 0, 9] rfl rfl

private theorem rotate {s q : List Byte} (h : s ++ q = q ++ mkBytes 16) : ∀ b ∈ s, b = 0#8 := by
  have e := congrArg (List.countP (fun b => decide (b ≠ 0#8))) h
  simp only [List.countP_append] at e
  have z : List.countP (fun b => decide (b ≠ 0#8)) (mkBytes 16) = 0 := by decide
  rw [z] at e
  have y : List.countP (fun b => decide (b ≠ 0#8)) s = 0 := by omega
  rw [List.countP_eq_zero] at y
  intro b hb
  simpa using y b hb

private theorem zero_stamp {t0 t : Timestamp} {b : List Byte} (len : b.length = 16)
    (h : t0.get shipped b = .ret (t, none)) (z : ∀ x ∈ b, x = 0#8) : False := by
  have e : b = mkBytes 16 := (zeros_iff b 16 len).2 z
  subst e
  have : ∃ y e, t0.get shipped (mkBytes 16) = .ret (y, some e) := ⟨_, _, rfl⟩
  obtain ⟨y, e, h'⟩ := this
  rw [h] at h'
  cases h'

/-- **C142** Status frames under the shipped tables, received in a variable with no holes in it:
encoding what was read gives the bytes that were read, exactly if the frame has no timestamp (one is
read, but only zeros are written, and in another place) and no bytes after its last whole hole. -/
theorem C142_status (s x : Status) (f : List Byte) (n : Nat) (fresh : s.holes = [])
    (received : s.decode shipped f = .ret (x, none)) (width : HasWidth shipped "descriptor" x.header n) :
    x.encode shipped = .ret (.ok f) ↔
      getStr shipped x.header "reqtstamp" ≠ .ret "yes" ∧ (f.length - 8) % (2 * n) = 0 := by
  unfold Status.decode at received
  split at received
  · cases received
  obtain ⟨hdr, h1, h⟩ := Out.bind_eq_ret received
  obtain ⟨ses, h2, h⟩ := Out.bind_eq_ret h
  obtain ⟨rt, h3, h⟩ := Out.bind_eq_ret h
  obtain ⟨_, e1⟩ := readWord_bytes h1
  obtain ⟨_, e2⟩ := readWord_bytes h2
  simp only at h3
  obtain ⟨⟨s', e, pos⟩, h4, h⟩ := Out.bind_eq_ret h
  cases e with
  | some e => cases h
  | none =>
    obtain ⟨desc, h5, h⟩ := Out.bind_eq_ret h
    cases hn : descSize desc with
    | none => simp only [hn] at h; cases h
    | some m =>
      simp only [hn] at h
      have hc := descSize_cases hn
      obtain ⟨p, h6, h⟩ := Out.bind_eq_ret h
      obtain ⟨i, h7, h⟩ := Out.bind_eq_ret h
      obtain ⟨rest, h8, h⟩ := Out.bind_eq_ret h
      obtain ⟨hs, h9, h⟩ := Out.bind_eq_ret h
      cases h
      obtain ⟨l6, e6⟩ := readNum_again hc h6
      obtain ⟨l7, e7⟩ := readNum_again hc h7
      obtain ⟨l8, rfl⟩ := sliceFrom_ret h8
      obtain ⟨new, r1, r2, r3, r4⟩ := getHoles_again hc l8 h9
      rw [← r2] at r3 r4
      have hh : s'.holes = [] ∧ s'.header = hdr ∧ s'.session = ses ∧
          (if rt = "yes" then pos = 24 ∧ ∃ t0 : Timestamp, t0.get shipped ((f.drop 8).take 16) = .ret (s'.tstamp, none) ∧ 24 ≤ f.length
            else pos = 8) := by
        split at h4
        · rename_i hy
          obtain ⟨tb, g1, h4⟩ := Out.bind_eq_ret h4
          obtain ⟨⟨ts, e⟩, g2, h4⟩ := Out.bind_eq_ret h4
          cases h4
          obtain ⟨_, lb, rfl⟩ := slice_ret g1
          rw [if_pos hy]
          exact ⟨fresh, rfl, rfl, rfl, _, g2, lb⟩
        · rename_i hy
          cases h4
          rw [if_neg hy]
          exact ⟨fresh, rfl, rfl, rfl⟩
      obtain ⟨q1, q2, q3, q4⟩ := hh
      rw [q1, List.nil_append] at r1
      subst r1
      obtain ⟨desc', w1, w2⟩ := width
      rw [q2] at h5
      simp only [q2] at w1
      rw [h5] at w1
      cases w1
      rw [← descSize_eq, hn] at w2
      cases w2
      rw [Status.encode_eq (rt := rt) (n := n) (desc := desc) (by simp only [q2]; exact h3) (by simp only [q2]; exact h5) hn]
      simp only [q2, q3, e1, e2, e6, e7, r4, Out.ret.injEq, Except.ok.injEq, h3]
      have la := holesBytes_length hc hs
      by_cases hy : rt = "yes"
      · rw [if_pos hy] at q4
        obtain ⟨rfl, t0, g, l24⟩ := q4
        refine iff_of_false (fun he => ?_) (fun c => c.1 (by rw [hy]))
        rw [if_pos hy] at he
        have pre : f = (f.drop 0).take 4 ++ ((f.drop 4).take 4 ++ ((f.drop 8).take 16 ++ f.drop 24)) := by
          rw [show (24 : Nat) = 8 + 16 from rfl, glue, show (8 : Nat) = 4 + 4 from rfl, glue]; exact (glue f 0 4).symm
        have a := he.trans pre
        simp only [List.append_assoc] at a
        have a := List.append_cancel_left (List.append_cancel_left a)
        have len := congrArg List.length he
        have k : hs.length * (n * 2) = f.length - (24 + n + n) := by
          simp [mkBytes] at len
          omega
        have whole : (f.drop 24).take n ++ ((f.drop (24 + n)).take n ++ (f.drop (24 + n + n)).take (hs.length * (n * 2))) =
            f.drop 24 := by
          rw [List.take_of_length_le (l := f.drop (24 + n + n)) (by simp; omega), glue, glue]
        have a' : ((f.drop 24).take n ++ ((f.drop (24 + n)).take n ++
            (f.drop (24 + n + n)).take (hs.length * (n * 2)))) ++ mkBytes 16 = (f.drop 8).take 16 ++ f.drop 24 := by
          simp only [List.append_assoc]; exact a
        rw [whole] at a'
        exact zero_stamp (by simp; omega) g (rotate a'.symm)
      · rw [if_neg hy] at q4
        subst q4
        rw [if_neg hy]
        have pre : f = (f.drop 0).take 4 ++ ((f.drop 4).take 4 ++ ((f.drop 8).take n ++
            ((f.drop (8 + n)).take n ++ f.drop (8 + n + n)))) := by
          rw [glue, glue, show (8 : Nat) = 4 + 4 from rfl, glue]; exact (glue f 0 4).symm
        constructor
        · intro he
          refine ⟨fun c => hy (by injection c), ?_⟩
          have len := congrArg List.length he
          simp [mkBytes] at len
          rcases hc with rfl | rfl | rfl <;> omega
        · rintro ⟨_, hm⟩
          have k : hs.length * (n * 2) = f.length - (8 + n + n) := by
            simp only [List.length_drop] at r2
            rw [r2]
            rcases hc with rfl | rfl | rfl <;> omega
          rw [k, List.take_of_length_le (l := f.drop (8 + n + n)) (by simp)]
          simp only [List.append_assoc]
          rw [show mkBytes 0 = [] from rfl, List.append_nil]
          exact pre.symm

example := C142_status .zero _ [0x24, 0, 0, 0, 0, 0, 0, 7, 0, 9, 0, 1, 0, 2, 0, 5] 2 rfl rfl ⟨"d16", by decide, rfl⟩

/-- **C142** Metadata frames: encoding what was read gives the bytes that were read, exactly if the
name is ASCII of at most 1024 bytes, the size is below 2^32 and the frame ends with the NUL after the
name. -/
theorem C142_metadata (T : Tables) (m x : MetaData) (f : List Byte) (n : Nat)
    (received : m.decode T f = .ret (x, none)) (width : HasWidthD T x.dir.header n) :
    x.encode T = .ret f ↔
      Ascii x.dir.path ∧ x.dir.path.length ≤ 1024 ∧ x.dir.size.toNat < 2 ^ 32 ∧
      f.length = 8 + x.checksum.length + 10 + n + x.dir.path.length + 1 := by
  unfold MetaData.decode at received
  split at received
  · cases received
  obtain ⟨hdr, h1, h⟩ := Out.bind_eq_ret received
  obtain ⟨ses, h2, h⟩ := Out.bind_eq_ret h
  obtain ⟨c, h3, h⟩ := Out.bind_eq_ret h
  obtain ⟨rest, h4, h⟩ := Out.bind_eq_ret h
  obtain ⟨⟨d, e⟩, h5, h⟩ := Out.bind_eq_ret h
  cases h
  obtain ⟨_, e1⟩ := readWord_bytes h1
  obtain ⟨_, e2⟩ := readWord_bytes h2
  obtain ⟨l3, l3', e3⟩ := slice_ret h3
  obtain ⟨l4, rfl⟩ := sliceFrom_ret h4
  generalize (get T hdr "csumlen").toNat * 4 = k at *
  rw [show 8 + k - 8 = k by omega] at e3
  obtain ⟨desc, n', d1, d2, d3, d4, d5, d6, d7⟩ := DirEnt.decode_inv h5
  obtain ⟨desc', w1, w2⟩ := width
  simp only at w1 d6 d7
  rw [d1] at w1
  cases w1
  rw [← descSize_eq, d2] at w2
  cases w2
  have hc := descSize_cases d2
  have pre : f = (f.drop 0).take 4 ++ ((f.drop 4).take 4 ++ (c ++ f.drop (8 + k))) := by
    rw [e3, glue, show (8 : Nat) = 4 + 4 from rfl, glue]; exact (glue f 0 4).symm
  have lc : c.length = k := by rw [e3]; simp; omega
  have lr : (f.drop (8 + k)).length = f.length - (8 + k) := by simp
  simp only [lc]
  generalize f.drop (8 + k) = r at *
  constructor
  · intro he
    have he' := he
    unfold MetaData.encode at he'
    obtain ⟨o, g1, _⟩ := Out.bind_eq_ret he'
    rw [MetaData.encode_eq g1] at he
    simp only [e1, e2, Out.ret.injEq] at he
    have a := he.trans pre
    simp only [List.append_assoc] at a
    have a := List.append_cancel_left (List.append_cancel_left (List.append_cancel_left a))
    cases o with
    | error o => simp only [bytesOrNil] at a; rw [← a] at d3; simp at d3
    | ok b =>
      simp only [bytesOrNil] at a
      subst a
      obtain ⟨desc', n', y1, y2, y3, y4, y5⟩ := DirEnt.encode_inv g1
      simp only at y1
      rw [d1] at y1
      cases y1
      rw [d2] at y2
      cases y2
      simp only at y3 y4 y5
      rw [d5] at y5
      have tk := List.take_append_drop (10 + n) b
      simp only [List.append_assoc] at y5
      have z := List.append_cancel_left (y5.symm.trans tk.symm)
      have nn : NoNul d.path := by rw [d6]; exact garbled_noNul (upToNul_noNul _)
      have u := upToNul_append (post := []) nn
      rw [z] at u
      rw [u] at d6
      have lz := congrArg List.length z
      simp at lz
      refine ⟨?_, y3, ?_, ?_⟩
      · rw [← garbled_ascii_iff, ← d6]
      · rw [gt_iff_lt, BitVec.lt_def] at y4
        have : (direntLimit n).toNat ≤ 4294967295 := by unfold direntLimit; split <;> decide
        omega
      · omega
  · rintro ⟨as, p1, p2, p3⟩
    have lim : ¬ d.size > direntLimit n := by
      rw [gt_iff_lt, BitVec.lt_def]
      rcases hc with rfl | rfl | rfl
      · have : (direntLimit 2).toNat = 65535 := by decide
        omega
      · have : (direntLimit 4).toNat = 4294967295 := by decide
        omega
      · have : (direntLimit 8).toNat = 4294967295 := by decide
        omega
    rw [MetaData.encode_eq (DirEnt.encode_eq d1 d2 p1 lim)]
    simp only [e1, e2, bytesOrNil, Out.ret.injEq]
    refine Eq.trans ?_ pre.symm
    simp only [List.append_assoc]
    congr 3
    have gu : Ascii (upToNul (r.drop (10 + n))) := by
      rw [d6] at as; exact ascii_of_garbled as
    rw [garbled_ascii gu] at d6
    have sp := upToNul_split d6.symm (by simp; omega)
    rw [List.drop_eq_nil_of_le (i := d.path.length + 1) (by simp; omega), List.append_nil] at sp
    rw [← List.take_append_drop (10 + n) r, sp, ← d5]
    simp only [List.append_assoc]

example := C142_metadata shipped .zero _ [0x22, 0, 0, 0, 0, 0, 0, 7, 0x80, 1, 0, 9, 0, 0, 0, 1, 0, 0, 0, 2, 97, 0] 2 rfl
  ⟨"d16", by decide, rfl⟩

/-- **C142** So different beacons are never read as the same beacon. -/
theorem C142_beacons_differ (T : Tables) (b b' x : Beacon) (f f' : List Byte)
    (one : b.decode T f = .ret (x, none)) (two : b'.decode T f' = .ret (x, none)) : f = f' := by
  have h := C142_beacon T b x f one
  rw [C142_beacon T b' x f' two] at h
  simpa using h.symm

example := C142_beacons_differ shipped .zero ⟨5, 6, [7]⟩ _ [0x20, 0, 0x50, 0, 1, 2, 3, 4, 65]
  [0x20, 0, 0x50, 0, 1, 2, 3, 4, 65] rfl rfl

/-- **C142** Nor are different requests with ASCII names. -/
theorem C142_requests_differ (r r' x : Request) (f f' : List Byte) (fresh : r.fname = []) (fresh' : r'.fname = [])
    (ascii : Ascii (upToNul (f.drop 8))) (ascii' : Ascii (upToNul (f'.drop 8)))
    (one : r.decode f = .ret (x, none)) (two : r'.decode f' = .ret (x, none)) : f = f' := by
  have h := (C142_request r x f fresh one).2 ascii
  rw [(C142_request r' x f' fresh' two).2 ascii'] at h
  simpa using h.symm

/-! Frames meeting the hypotheses, sent on unchanged and not. -/

example : ∃ x, Beacon.decode shipped ⟨0, 0, []⟩ [0x20, 0x02, 0, 0, 1, 2, 3, 4, 5, 6, 7, 8, 65] = .ret (x, none) :=
  ⟨_, rfl⟩

example : ∃ x, Data.decode shipped .zero ([0x23, 0x48, 0, 0, 0, 0, 0, 7, 1] ++ List.replicate 30 1#8) =
    .ret (x, none) ∧ getStr shipped x.header "reqtstamp" = .ret "yes" ∧
    ¬ ∀ b ∈ ((([0x23, 0x48, 0, 0, 0, 0, 0, 7, 1] ++ List.replicate 30 1#8).drop 8).take 16).drop
      (stampUses x.tstamp.ttype), b = 0#8 :=
  ⟨_, rfl, by decide, by decide⟩

example : ∃ x, Request.decode ⟨0, 0, [], []⟩ [0x21, 0, 0, 0, 0, 0, 0, 7, 97, 0, 9] = .ret (x, none) ∧
    Ascii (upToNul (List.drop 8 [0x21#8, 0, 0, 0, 0, 0, 0, 7, 97, 0, 9])) :=
  ⟨_, rfl, by decide⟩

example : ∃ x, Request.decode ⟨0, 0, [], []⟩ [0x21, 0, 0, 0, 0, 0, 0, 7, 0xE9, 0, 9] = .ret (x, none) ∧
    ¬ Ascii (upToNul (List.drop 8 [0x21#8, 0, 0, 0, 0, 0, 0, 7, 0xE9, 0, 9])) :=
  ⟨_, rfl, by decide⟩

example : ∃ x, Status.decode shipped .zero [0x24, 0, 0, 0, 0, 0, 0, 7, 0, 9, 0, 1, 0, 2, 0, 5] = .ret (x, none) ∧
    HasWidth shipped "descriptor" x.header 2 ∧ getStr shipped x.header "reqtstamp" ≠ .ret "yes" ∧ (16 - 8) % (2 * 2) = 0 :=
  ⟨_, rfl, ⟨"d16", by decide, rfl⟩, by decide, rfl⟩

example : ∃ x, MetaData.decode shipped .zero
      [0x22, 0, 0, 0, 0, 0, 0, 7, 0x80, 1, 0, 9, 0, 0, 0, 1, 0, 0, 0, 2, 97, 0] = .ret (x, none) ∧
    HasWidthD shipped x.dir.header 2 ∧ Ascii x.dir.path ∧ x.dir.path.length ≤ 1024 ∧ x.dir.size.toNat < 2 ^ 32 ∧
    22 = 8 + x.checksum.length + 10 + 2 + x.dir.path.length + 1 :=
  ⟨_, rfl, ⟨"d16", by decide, rfl⟩, by decide, by decide, by decide, rfl⟩

end Saratoga
