import Verif.Props.Timestamp
import Verif.Props.Data
import Verif.Props.Status
import Verif.Props.Request
import Verif.Props.Metadata
import Verif.Props.Beacon
/-!
# Which frames come back whole, exactly (C17, C20 - C23, C25, C26)

The round trip theorems give conditions under which a value survives the wire. Here the conditions are
shown to be necessary too.
-/
namespace Saratoga

/-- What `Get` answers without an error could have been written: it is of a readable type and its numbers
have the type's widths. -/
theorem get_wire {T : Tables} {t t0 : Timestamp} {b : List Byte} (h : t0.get T b = .ret (t, none)) :
    t.Wire T := by
  unfold Timestamp.get at h
  obtain ⟨hd, _, h⟩ := Out.bind_eq_ret h
  obtain ⟨tt, ht, h⟩ := Out.bind_eq_ret h
  rw [getTStr_eq_nameT] at ht
  have w : ∀ v : BitVec 32, (v.setWidth 64).toNat < 2 ^ 32 := fun v => by
    have := v.isLt
    rw [BitVec.toNat_setWidth]; omega
  by_cases c1 : tt = "posix32"
  · rw [if_pos c1] at h
    obtain ⟨_, _, h⟩ := Out.bind_eq_ret h
    obtain ⟨v, _, h⟩ := Out.bind_eq_ret h
    cases h
    subst c1
    exact ⟨ht, by simp [readableTypes], rfl, fun _ => w v, fun _ => rfl, by simp⟩
  · rw [if_neg c1] at h
    by_cases c2 : tt = "posix64"
    · rw [if_pos c2] at h
      obtain ⟨_, _, h⟩ := Out.bind_eq_ret h
      obtain ⟨v, _, h⟩ := Out.bind_eq_ret h
      cases h
      subst c2
      exact ⟨ht, by simp [readableTypes], rfl, by simp, fun _ => rfl, by simp⟩
    · rw [if_neg c2] at h
      by_cases c3 : tt = "posix32_32"
      · rw [if_pos c3] at h
        obtain ⟨_, _, h⟩ := Out.bind_eq_ret h
        obtain ⟨v, _, h⟩ := Out.bind_eq_ret h
        obtain ⟨_, _, h⟩ := Out.bind_eq_ret h
        obtain ⟨k, _, h⟩ := Out.bind_eq_ret h
        cases h
        subst c3
        exact ⟨ht, by simp [readableTypes], rfl, fun _ => w v, by simp, w k⟩
      · rw [if_neg c3] at h
        by_cases c4 : tt = "posix64_32"
        · rw [if_pos c4] at h
          obtain ⟨_, _, h⟩ := Out.bind_eq_ret h
          obtain ⟨v, _, h⟩ := Out.bind_eq_ret h
          obtain ⟨_, _, h⟩ := Out.bind_eq_ret h
          obtain ⟨k, _, h⟩ := Out.bind_eq_ret h
          cases h
          subst c4
          exact ⟨ht, by simp [readableTypes], rfl, by simp, by simp, w k⟩
        · rw [if_neg c4] at h
          by_cases c5 : tt = "epoch2000_32"
          · rw [if_pos c5] at h
            obtain ⟨_, _, h⟩ := Out.bind_eq_ret h
            obtain ⟨v, _, h⟩ := Out.bind_eq_ret h
            cases h
            subst c5
            exact ⟨ht, by simp [readableTypes], rfl, fun _ => w v, fun _ => rfl, by simp⟩
          · rw [if_neg c5] at h
            obtain ⟨_, _, h⟩ := Out.bind_eq_ret h
            cases h

/-- **C17** Exactly which timestamps, made by `New` or not, `Get` gives back from the bytes of `Put`: those
of a readable type whose numbers fit the type. Any tables. -/
theorem C17_survives_iff (T : Tables) (t t0 : Timestamp) :
    (∃ b, t.put T = .ret b ∧ t0.get T b = .ret (t, none)) ↔ t.Wire T :=
  ⟨fun ⟨_, _, h⟩ => get_wire h, fun h => by
    obtain ⟨b, h1, _, h3⟩ := put_bytes h
    exact ⟨b, h1, h3 t0⟩⟩

example : (⟨3#8, 5#64, 7#64, [], "posix32_32"⟩ : Timestamp).Wire shipped := by
  refine ⟨by decide, by decide, rfl, by decide, by decide, by decide⟩


/-- **C17** Of the timestamps that `New` makes, of a readable type and a time within 1678 to 2262, exactly
those of type `posix32_32` within the second before 1970 do not come back. -/
theorem C17_new_survives_iff (T : Tables) (wf : T.ts.WF) (t0 t1 t : Timestamp) (flag : String) (ts : GoTime)
    (readable : stripSpaces flag ∈ readableTypes) (ok : ts.NanoOk)
    (accepted : t0.new T flag ts = .ret (t, none)) :
    (∃ b, t.put T = .ret b ∧ t1.get T b = .ret (t, none)) ↔
      ¬ (stripSpaces flag = "posix32_32" ∧ ts.sec = -1 ∧ ts.nsec ≠ 0) := by
  rw [C17_survives_iff]
  constructor
  · rintro w ⟨e, h1, h2⟩
    obtain ⟨v, hd, _, _, _, _, p3, _⟩ := new_ret accepted
    obtain ⟨_, ht⟩ := p3 e rfl
    simp only at ht
    have k := w.2.2.2.2.2
    subst ht
    have m := (tmod_abs _).1 k
    rw [unixNano_toInt ok] at m
    have := ok.1.2.2
    rcases tdiv_cases (ts.sec * 1000000000 + ts.nsec) with ⟨_, hd, hm⟩ | ⟨_, hd, hm⟩
    · omega
    · omega
  · intro h
    refine new_wire wf readable (fun e => ⟨ok, fun h1 => ?_⟩) accepted
    by_cases c : ts.nsec = 0
    · exact c
    · exact absurd ⟨e, h1, c⟩ h

example : (⟨-1, 0⟩ : GoTime).NanoOk ∧ (⟨1700000000, 5⟩ : GoTime).NanoOk := by decide

/-! ## Data frames -/

/-- The reader's data frame `x` is the writer's `d`; the timestamp counts when one was asked for. -/
def Data.Same (T : Tables) (d x : Data) : Prop :=
  x.header = d.header ∧ x.session = d.session ∧ x.offset = d.offset ∧ x.payload = d.payload ∧
  (getStr T d.header "reqtstamp" = .ret "yes" → x.tstamp = d.tstamp)

/-- A stamped frame read without an error held a readable timestamp. -/
theorem Data.decode_stamp {T : Tables} {h sess : BitVec 32} {ts rest : List Byte} {d0 x : Data}
    (hrt : getStr T h "reqtstamp" = .ret "yes") (l : ts.length = 16)
    (hd : d0.decode T (be32 h ++ be32 sess ++ ts ++ rest) = .ret (x, none)) :
    ∃ t, d0.tstamp.get T ts = .ret (t, none) := by
  unfold Data.decode at hd
  rw [if_neg (by simp [l]; omega)] at hd
  have e1 : readWord (be32 h ++ be32 sess ++ ts ++ rest) 0 = .ret h := by
    simp only [List.append_assoc]; exact readWord_start _ _
  have e2 : readWord (be32 h ++ be32 sess ++ ts ++ rest) 4 = .ret sess := by
    have := readWord_mid (be32 h) (ts ++ rest) sess 4 (by simp)
    simpa only [List.append_assoc] using this
  have e3 : slice (be32 h ++ be32 sess ++ ts ++ rest) 8 24 = .ret ts := by
    have := slice_mid (be32 h ++ be32 sess) ts rest 8 24 (by simp) (by simp [l])
    simpa only [List.append_assoc] using this
  simp only [e1, e2, Out.ret_bind, hrt, e3, if_true] at hd
  obtain ⟨⟨t, e⟩, hg, hd⟩ := Out.bind_eq_ret hd
  cases e with
  | some e => cases hd
  | none => exact ⟨t, hg⟩

/-- **C20** Exactly which data frames come back whole, whatever variable they are read into: the descriptor
is d16, d32 or d64, the offset fits it, a timestamp asked for is of a readable type with numbers that fit,
and a stamped frame with a 16 bit descriptor has a payload. Any tables. -/
theorem C20_survives_iff (T : Tables) (d d0 : Data) :
    (∃ frame x, d.encode T = .ret (.ok frame) ∧ d0.decode T frame = .ret (x, none) ∧ d.Same T x) ↔
      ∃ n rt, HasWidth T "descriptor" d.header n ∧ getStr T d.header "reqtstamp" = .ret rt ∧
        d.offset.toNat < 256 ^ n ∧
        (rt = "yes" → d.tstamp.Wire T ∧ ¬ (n = 2 ∧ d.payload = [])) := by
  constructor
  · rintro ⟨frame, x, he, hd, s1, s2, s3, s4, s5⟩
    obtain ⟨rt, desc, n, ts, h1, h2, h3, h4, rfl⟩ := Data.encode_inv he
    have hc := descSize_cases h3
    refine ⟨n, rt, ⟨desc, h2, by rw [← descSize_eq]; exact h3⟩, h1, ?_⟩
    have fits : ∀ v : BitVec 64, wireNum n v = v → v.toNat < 256 ^ n := fun v e => by
      have := congrArg BitVec.toNat e
      rw [wireNum_toNat (by omega)] at this
      rw [← this]
      exact Nat.mod_lt _ (Nat.pow_pos (by decide))
    by_cases hy : rt = "yes"
    · rw [if_pos hy] at h4
      subst hy
      have s5 := s5 h1
      obtain ⟨t, hg⟩ := Data.decode_stamp (rest := numBytes n d.offset ++ d.payload) h1 h4.2
        (by simpa only [List.append_assoc] using hd)
      rw [Data.decode_eq (t := t) d0 rfl h1 h2 h3 (by rw [if_pos rfl]; exact ⟨hg, h4.2⟩)] at hd
      simp only [Out.ret.injEq, Prod.mk.injEq] at hd
      obtain ⟨rfl, hd⟩ := hd
      simp only at s3 s5
      subst s5
      refine ⟨fits _ s3, fun _ => ⟨get_wire hg, fun ⟨a, b⟩ => ?_⟩⟩
      rw [if_pos ⟨trivial, a, b⟩] at hd
      cases hd
    · rw [if_neg hy] at h4
      subst h4
      rw [Data.decode_eq (t := d0.tstamp) d0 rfl h1 h2 h3 (by rw [if_neg hy]; exact ⟨rfl, rfl⟩)] at hd
      simp only [Out.ret.injEq, Prod.mk.injEq] at hd
      obtain ⟨rfl, _⟩ := hd
      exact ⟨fits _ s3, fun e => absurd e hy⟩
  · rintro ⟨n, rt, h1, h2, h3, h4⟩
    obtain ⟨frame, he, hd⟩ := C20_round_trip_partial T d d0 n rt h1 h2 h3 (fun e => (h4 e).1)
      (fun ⟨e, a, b⟩ => (h4 e).2 ⟨a, b⟩)
    refine ⟨frame, _, he, hd, rfl, rfl, rfl, rfl, fun e => ?_⟩
    rw [h2] at e
    cases e
    simp


example : ∃ d : Data, HasWidth shipped "descriptor" d.header 8 ∧
    getStr shipped d.header "reqtstamp" = .ret "yes" ∧ d.tstamp.Wire shipped ∧ d.payload ≠ [] :=
  ⟨⟨0x23888000#32, 1, ⟨1#8, 5, 0, [], "posix32"⟩, 7, [1#8]⟩, ⟨"d64", by decide, by decide⟩,
    by decide, by decide, by decide⟩

/-! ## Status frames -/

theorem beNum_inj {a b : List Byte} (l : a.length = b.length) (h : beNum a = beNum b) : a = b := by
  induction a generalizing b with
  | nil => cases b with
    | nil => rfl
    | cons _ _ => simp at l
  | cons x xs ih =>
    cases b with
    | nil => simp at l
    | cons y ys =>
      simp only [List.length_cons, Nat.add_right_cancel_iff] at l
      simp only [beNum, l] at h
      have h1 := beNum_lt xs
      have h2 := beNum_lt ys
      rw [l] at h1
      have p : 0 < 256 ^ ys.length := Nat.pow_pos (by decide)
      have e : x.toNat = y.toNat := by
        have a1 : (x.toNat * 256 ^ ys.length + beNum xs) / 256 ^ ys.length = x.toNat := by
          rw [Nat.add_comm, Nat.add_mul_div_right _ _ p, Nat.div_eq_of_lt h1, Nat.zero_add]
        have a2 : (y.toNat * 256 ^ ys.length + beNum ys) / 256 ^ ys.length = y.toNat := by
          rw [Nat.add_comm, Nat.add_mul_div_right _ _ p, Nat.div_eq_of_lt h2, Nat.zero_add]
        rw [← a1, ← a2, h]
      rw [e] at h
      rw [BitVec.eq_of_toNat_eq e, ih l (by omega)]

/-- The bytes that a number was read from are the bytes of the number. -/
theorem readNum_bytes {n : Nat} (hn : n = 2 ∨ n = 4 ∨ n = 8) {f : List Byte} {pos : Nat} {v : BitVec 64}
    (h : readNum f pos n = .ret v) : f.drop pos = numBytes n v ++ f.drop (pos + n) := by
  have fit : pos + n ≤ f.length := by
    rcases readNum_cases hn f pos with ⟨h, _⟩ | ⟨_, hh⟩
    · exact h
    · rw [h] at hh; cases hh
  have k := readNum_val hn h
  have l : ((f.drop pos).take n).length = n := by simp; omega
  have lt := beNum_lt ((f.drop pos).take n)
  rw [l, ← k] at lt
  have e : numBytes n v = (f.drop pos).take n :=
    beNum_inj (by rw [l, numBytes_length hn]) (by rw [beNum_numBytes hn, ← k, Nat.mod_eq_of_lt lt])
  rw [e, ← List.drop_drop, List.take_append_drop]

/-- The same for holes. -/
theorem getHoles_bytes {n : Nat} (hn : n = 2 ∨ n = 4 ∨ n = 8) {f : List Byte} {k pos : Nat}
    {acc hs : List Hole} (h : Status.getHoles f n k pos acc = .ret hs) :
    ∃ new, hs = acc ++ new ∧ new.length = k ∧
      f.drop pos = holesBytes n new ++ f.drop (pos + n * k * 2) := by
  induction k generalizing pos acc with
  | zero =>
    cases h
    exact ⟨[], by simp, rfl, by simp [holesBytes]⟩
  | succ k ih =>
    unfold Status.getHoles at h
    obtain ⟨a, ha, h⟩ := Out.bind_eq_ret h
    obtain ⟨b, hb, h⟩ := Out.bind_eq_ret h
    obtain ⟨new, e1, e2, e3⟩ := ih h
    refine ⟨⟨a.toInt, b.toInt⟩ :: new, by simp [e1], by simp [e2], ?_⟩
    rw [readNum_bytes hn ha, readNum_bytes hn hb, e3]
    have : pos + n + n + n * k * 2 = pos + n * (k + 1) * 2 := by
      rw [Nat.mul_add, Nat.add_mul]; omega
    rw [this]
    simp [holesBytes, holeBytes]

/-- What was read without an error is what the bytes behind header, session and timestamp say; fewer bytes
than a hole needs may follow. -/
theorem Status.decode_bytes {T : Tables} {s0 x : Status} {f : List Byte}
    (h : s0.decode T f = .ret (x, none)) :
    ∃ rt n new rest, getStr T x.header "reqtstamp" = .ret rt ∧ HasWidth T "descriptor" x.header n ∧
      x.holes = s0.holes ++ new ∧ rest.length < n * 2 ∧
      f.drop (if rt = "yes" then 24 else 8) =
        numBytes n x.progress ++ numBytes n x.inrespto ++ holesBytes n new ++ rest ∧
      (rt = "yes" → (∃ tb, slice f 8 24 = .ret tb ∧ s0.tstamp.get T tb = .ret (x.tstamp, none))) ∧
      readWord f 0 = .ret x.header := by
  unfold Status.decode at h
  split at h
  · cases h
  obtain ⟨hd, hw, h⟩ := Out.bind_eq_ret h
  obtain ⟨sess, _, h⟩ := Out.bind_eq_ret h
  simp only at h
  obtain ⟨rt, hrt, h⟩ := Out.bind_eq_ret h
  obtain ⟨⟨s, e, pos⟩, hs, h⟩ := Out.bind_eq_ret h
  have key : s.header = hd ∧ s.holes = s0.holes ∧ (e = none → pos = (if rt = "yes" then 24 else 8) ∧
      (rt = "yes" → ∃ tb, slice f 8 24 = .ret tb ∧ s0.tstamp.get T tb = .ret (s.tstamp, none))) := by
    by_cases hy : rt = "yes"
    · rw [if_pos hy] at hs
      obtain ⟨tb, h1, hs⟩ := Out.bind_eq_ret hs
      obtain ⟨⟨ts, e'⟩, h2, hs⟩ := Out.bind_eq_ret hs
      cases hs
      refine ⟨rfl, rfl, fun e => ?_⟩
      subst e
      rw [if_pos hy]
      exact ⟨rfl, fun _ => ⟨tb, h1, h2⟩⟩
    · rw [if_neg hy] at hs
      cases hs
      refine ⟨rfl, rfl, fun _ => ?_⟩
      rw [if_neg hy]
      exact ⟨rfl, fun e => absurd e hy⟩
  obtain ⟨k1, k2, k3⟩ := key
  cases e with
  | some e => cases h
  | none =>
    obtain ⟨hpos, k4⟩ := k3 rfl
    simp only at h
    obtain ⟨desc, hdesc, h⟩ := Out.bind_eq_ret h
    cases hn : descSize desc with
    | none => simp only [hn] at h; cases h
    | some n =>
      simp only [hn] at h
      have hc := descSize_cases hn
      obtain ⟨p, hp, h⟩ := Out.bind_eq_ret h
      obtain ⟨i, hi, h⟩ := Out.bind_eq_ret h
      obtain ⟨r, hr, h⟩ := Out.bind_eq_ret h
      obtain ⟨hs', hg, h⟩ := Out.bind_eq_ret h
      cases h
      obtain ⟨new, e1, e2, e3⟩ := getHoles_bytes hc hg
      rw [k1] at hdesc
      refine ⟨rt, n, new, f.drop (pos + n + n + n * new.length * 2), by rw [k1]; exact hrt,
        ⟨desc, by rw [k1]; exact hdesc, by rw [← descSize_eq]; exact hn⟩, by rw [e1, k2], ?_, ?_, k4, by rw [k1]; exact hw⟩
      · have l : r.length = f.length - (pos + n + n) := by
          by_cases c : pos + n + n ≤ f.length
          · rw [sliceFrom_ok c] at hr
            cases hr
            simp
          · rw [sliceFrom_bad (by omega)] at hr; cases hr
        rw [List.length_drop, e2, l]
        rcases hc with rfl | rfl | rfl <;> omega
      · rw [← hpos, readNum_bytes hc hp, readNum_bytes hc hi, e3, e2]
        simp

/-- The reader's status frame `x` is the writer's `s`; the timestamp counts when one was asked for. -/
def Status.Same (T : Tables) (s x : Status) : Prop :=
  x.header = s.header ∧ x.session = s.session ∧ x.progress = s.progress ∧ x.inrespto = s.inrespto ∧
  x.holes = s.holes ∧ (getStr T s.header "reqtstamp" = .ret "yes" → x.tstamp = s.tstamp)

/-- A list that is its own continuation by zeros holds nothing but zeros. -/
theorem zeros_of_shift {α : Type} {z : α} {b : List α} {m : Nat} (pos : 0 < m)
    (h : (b ++ List.replicate m z).drop m = b) : ∀ y ∈ b, y = z := by
  have at_ : ∀ j, b[j]? = (b ++ List.replicate m z)[m + j]? := fun j => by
    rw [← List.getElem?_drop, h]
  have key : ∀ k j, b.length - j ≤ k → j < b.length → b[j]? = some z := by
    intro k
    induction k with
    | zero => intro j h1 h2; omega
    | succ k ih =>
      intro j h1 h2
      rw [at_]
      by_cases c : m + j < b.length
      · rw [List.getElem?_append_left c]
        exact ih _ (by omega) c
      · rw [List.getElem?_append_right (by omega), List.getElem?_replicate, if_pos (by omega)]
  intro y hy
  obtain ⟨j, hj, e⟩ := List.getElem_of_mem hy
  have := key _ j (Nat.le_refl _) hj
  rw [List.getElem?_eq_getElem hj, e] at this
  exact Option.some.inj this

/-- A status frame with a timestamp never comes back with the header, session, progress, in-response-to and
holes it was written with. -/
theorem stamped_differs {T : Tables} (zero : ∀ k, nameT T 0 = .ret k → k ∉ readableTypes)
    {s s0 x : Status} {frame : List Byte} (stamp : getStr T s.header "reqtstamp" = .ret "yes")
    (encoded : s.encode T = .ret (.ok frame)) (decoded : s0.decode T frame = .ret (x, none))
    (s1 : x.header = s.header) (s3 : x.progress = s.progress) (s4 : x.inrespto = s.inrespto)
    (s5 : x.holes = s.holes) : False := by
  obtain ⟨rt, desc, n, h1, h2, h3, rfl⟩ := Status.encode_inv encoded
  rw [stamp] at h1
  cases h1
  obtain ⟨rt', n', new, rest, k1, ⟨desc', k2, k3⟩, k4, k5, k6, k7, -⟩ := Status.decode_bytes decoded
  rw [s1] at k1 k2
  rw [stamp] at k1
  cases k1
  rw [h2] at k2
  cases k2
  rw [← descSize_eq, h3] at k3
  cases k3
  have hc := descSize_cases h3
  simp only [if_true] at k6 k7
  have lp := numBytes_length hc s.progress
  have li := numBytes_length hc s.inrespto
  have lh := holesBytes_length hc s.holes
  have ln := holesBytes_length hc new
  rw [s3, s4] at k6
  rw [s5] at k4
  generalize hp : numBytes n s.progress = P at *
  generalize hi : numBytes n s.inrespto = I at *
  have l8 : (be32 s.header ++ be32 s.session).length = 8 := by simp
  have hlen : s.holes.length = s0.holes.length + new.length := by rw [k4]; simp
  have len := congrArg List.length k6
  simp only [List.length_append, List.length_drop, be32_length, lp, li, lh, ln, mkBytes,
    List.length_replicate] at len
  have e0 : new.length = s.holes.length ∧ rest = [] := by
    rw [← List.length_eq_zero_iff]
    rcases hc with rfl | rfl | rfl <;> omega
  obtain ⟨e1, rfl⟩ := e0
  have e2 : s0.holes = [] := List.length_eq_zero_iff.1 (by omega)
  rw [e2, List.nil_append] at k4
  subst k4
  rw [List.append_nil] at k6
  have e3 : (be32 s.header ++ be32 s.session ++ P ++ I ++ holesBytes n s.holes ++ mkBytes 16).drop 24 =
      ((P ++ I ++ holesBytes n s.holes) ++ List.replicate 16 0#8).drop 16 := by
    have : be32 s.header ++ be32 s.session ++ P ++ I ++ holesBytes n s.holes ++ mkBytes 16 =
        (be32 s.header ++ be32 s.session) ++ (P ++ I ++ holesBytes n s.holes ++ List.replicate 16 0#8) := by
      simp [mkBytes]
    rw [this, show (24 : Nat) = (be32 s.header ++ be32 s.session).length + 16 by rw [l8],
      List.drop_length_add_append]
  rw [e3] at k6
  have z := zeros_of_shift (by decide) k6
  obtain ⟨tb, t1, t2⟩ := k7 trivial
  have full : 24 ≤ (be32 s.header ++ be32 s.session ++ P ++ I ++ holesBytes n s.holes ++ mkBytes 16).length := by
    simp [mkBytes]; omega
  rw [slice_ok (by decide) full] at t1
  cases t1
  cases hP : P with
  | nil => rw [hP] at lp; simp at lp; omega
  | cons p0 P' =>
    have hp0 : p0 = 0#8 := z p0 (by rw [hP]; simp)
    have l16 : ((be32 s.header ++ be32 s.session ++ P ++ I ++ holesBytes n s.holes ++ mkBytes 16).drop 8
        |>.take (24 - 8)).length = 16 := by rw [List.length_take, List.length_drop]; omega
    obtain ⟨h0, g1, g2⟩ := get16_cases T s0.tstamp l16
    have : h0 = p0 := by
      rw [List.getElem?_take, if_pos (by decide), List.getElem?_drop, hP] at g1
      have e : (be32 s.header ++ be32 s.session ++ p0 :: P' ++ I ++ holesBytes n s.holes ++ mkBytes 16) =
          (be32 s.header ++ be32 s.session) ++ (p0 :: (P' ++ I ++ holesBytes n s.holes ++ mkBytes 16)) := by
        simp
      rw [e, List.getElem?_append_right (by rw [l8]; decide), l8] at g1
      simpa using g1.symm
    rw [this, hp0] at g2
    rcases g2 with ⟨_, g⟩ | ⟨k, g, g', _⟩ | ⟨_, _, _, _, _, g⟩
    · rw [g] at t2; cases t2
    · exact zero k g g'
    · rw [g] at t2; cases t2

/-- **C25** A status frame with a timestamp never comes back, whatever it says and whatever variable it is
read into: the timestamp is not written and the reader takes sixteen other bytes for it. Any tables in which
the zero byte does not start a readable timestamp. -/
theorem C25_stamped_never (T : Tables) (zero : ∀ k, nameT T 0 = .ret k → k ∉ readableTypes)
    (s s0 x : Status) (frame : List Byte) (stamp : getStr T s.header "reqtstamp" = .ret "yes")
    (encoded : s.encode T = .ret (.ok frame)) (decoded : s0.decode T frame = .ret (x, none)) :
    ¬ s.Same T x :=
  fun h => stamped_differs zero stamp encoded decoded h.1 h.2.2.1 h.2.2.2.1 h.2.2.2.2.1

example : ∀ k, nameT shipped 0 = .ret k → k ∉ readableTypes := by
  intro k h
  rw [show nameT shipped 0 = .ret "localinterp" by decide] at h
  cases h
  decide

/-- The ends of holes (Go's `int`) that come back through numbers of `n` bytes: through 64 bits all, through
fewer only those from zero on that fit. -/
def EndComesBack (n : Nat) (i : Int) : Prop :=
  if n = 8 then -2 ^ 63 ≤ i ∧ i < 2 ^ 63 else 0 ≤ i ∧ i < 256 ^ n

theorem wireEnd_iff {n : Nat} (hn : n = 2 ∨ n = 4 ∨ n = 8) (i : Int) :
    (wireNum n (BitVec.ofInt 64 i)).toInt = i ↔ EndComesBack n i := by
  have k := wireNum_toNat (n := n) (by omega) (BitVec.ofInt 64 i)
  have m := ofInt_mod hn i
  rw [← k] at m
  generalize wireNum n (BitVec.ofInt 64 i) = v at *
  unfold EndComesBack
  have t := BitVec.toInt_eq_toNat_cond v
  have lt := v.isLt
  rcases hn with rfl | rfl | rfl
  · simp only [show ¬ (2 = 8) by decide, if_false]
    rw [t]; split <;> omega
  · simp only [show ¬ (4 = 8) by decide, if_false]
    rw [t]; split <;> omega
  · simp only [if_true]
    rw [t]; split <;> omega

theorem wireHole_iff {n : Nat} (hn : n = 2 ∨ n = 4 ∨ n = 8) (h : Hole) :
    wireHole n h = h ↔ EndComesBack n h.start ∧ EndComesBack n h.stop := by
  rw [← wireEnd_iff hn, ← wireEnd_iff hn]
  obtain ⟨a, b⟩ := h
  simp only [wireHole, Hole.mk.injEq]

theorem wireHoles_iff {n : Nat} (hn : n = 2 ∨ n = 4 ∨ n = 8) (hs : List Hole) :
    hs.map (wireHole n) = hs ↔ ∀ h ∈ hs, EndComesBack n h.start ∧ EndComesBack n h.stop := by
  induction hs with
  | nil => simp
  | cons h t ih => simp [ih, wireHole_iff hn]

/-- **C25** Exactly which status frames come back whole: the descriptor is d16, d32 or d64, no timestamp is
asked for, progress and in-response-to fit the descriptor, so do the ends of all holes, and the variable read
into holds no holes. -/
theorem C25_survives_iff (T : Tables) (zero : ∀ k, nameT T 0 = .ret k → k ∉ readableTypes) (s s0 : Status) :
    (∃ frame x, s.encode T = .ret (.ok frame) ∧ s0.decode T frame = .ret (x, none) ∧ s.Same T x) ↔
      ∃ n rt, HasWidth T "descriptor" s.header n ∧ getStr T s.header "reqtstamp" = .ret rt ∧ rt ≠ "yes" ∧
        s.progress.toNat < 256 ^ n ∧ s.inrespto.toNat < 256 ^ n ∧
        (∀ h ∈ s.holes, EndComesBack n h.start ∧ EndComesBack n h.stop) ∧ s0.holes = [] := by
  constructor
  · rintro ⟨frame, x, he, hd, hs⟩
    obtain ⟨rt, desc, n, h1, h2, h3, e⟩ := Status.encode_inv he
    have hc := descSize_cases h3
    have fits : ∀ v : BitVec 64, wireNum n v = v → v.toNat < 256 ^ n := fun v e => by
      have := congrArg BitVec.toNat e
      rw [wireNum_toNat (by omega)] at this
      rw [← this]
      exact Nat.mod_lt _ (Nat.pow_pos (by decide))
    refine ⟨n, rt, ⟨desc, h2, by rw [← descSize_eq]; exact h3⟩, h1, ?_⟩
    by_cases hy : rt = "yes"
    · exact absurd hs (C25_stamped_never T zero s s0 x frame (hy ▸ h1) he hd)
    · rw [if_neg hy, show mkBytes 0 = [] from rfl, List.append_nil] at e
      subst e
      rw [Status.decode_eq s0 h1 hy h2 h3] at hd
      cases hd
      obtain ⟨_, _, s3, s4, s5, _⟩ := hs
      have len := congrArg List.length s5
      simp only [List.length_append, List.length_map] at len
      have e0 : s0.holes = [] := List.length_eq_zero_iff.1 (by omega)
      simp only [e0, List.nil_append] at s5
      exact ⟨hy, fits _ s3, fits _ s4, (wireHoles_iff hc _).1 s5, e0⟩
  · rintro ⟨n, rt, ⟨desc, h2, h3⟩, h1, hy, p, i, hh, e0⟩
    rw [← descSize_eq] at h3
    have hc := descSize_cases h3
    have he := Status.encode_eq h1 h2 h3
    rw [if_neg hy, show mkBytes 0 = [] from rfl, List.append_nil] at he
    refine ⟨_, _, he, Status.decode_eq s0 h1 hy h2 h3, rfl, rfl, wireNum_eq p, wireNum_eq i, ?_, fun e => ?_⟩
    · simp only [e0, List.nil_append]
      exact (wireHoles_iff hc _).2 hh
    · rw [h1] at e
      cases e
      exact absurd rfl hy

example : ∃ s : Status, HasWidth shipped "descriptor" s.header 4 ∧ s.holes.length = 2 ∧
    ∀ h ∈ s.holes, EndComesBack 4 h.start ∧ EndComesBack 4 h.stop := by
  refine ⟨⟨statusHeader, 1, Timestamp.zero, 7, 9, [⟨1, 2⟩, ⟨3, 5⟩]⟩, ⟨"d32", by decide, by decide⟩, rfl, ?_⟩
  intro h hh
  simp only [List.mem_cons, List.not_mem_nil, or_false] at hh
  rcases hh with rfl | rfl <;> simp [EndComesBack]

/-! ## Requests -/

theorem garbled_noNul {l : List Byte} (h : NoNul l) : NoNul (garbled l) := by
  intro b hb
  simp only [garbled, List.mem_flatMap] at hb
  obtain ⟨a, ha, hb⟩ := hb
  split at hb
  · simp only [List.mem_singleton] at hb
    rw [hb]; exact h a ha
  · simp only [List.mem_cons, List.not_mem_nil, or_false] at hb
    have := a.isLt
    rcases hb with rfl | rfl
    · intro e
      have := congrArg BitVec.toNat e
      simp only [BitVec.toNat_ofNat] at this
      omega
    · intro e
      have := congrArg BitVec.toNat e
      simp only [BitVec.toNat_ofNat] at this
      omega

theorem upToNul_noNul (l : List Byte) : NoNul (upToNul l) := by
  unfold upToNul
  induction l with
  | nil => intro b hb; simp at hb
  | cons a as ih =>
    intro b hb
    rw [List.takeWhile_cons] at hb
    split at hb
    · rename_i ha
      rcases List.mem_cons.1 hb with rfl | hb
      · simpa using ha
      · exact ih b hb
    · simp at hb

theorem ascii_of_highBytes {l : List Byte} (h : highBytes l = 0) : Ascii l := by
  unfold highBytes at h
  rw [List.countP_eq_zero] at h
  intro b hb
  have := h b hb
  simp only [decide_eq_true_eq] at this
  omega

/-- A name is read as itself exactly when it has no NUL and is ASCII. -/
theorem garbled_iff (l : List Byte) : garbled (upToNul l) = l ↔ NoNul l ∧ Ascii l := by
  constructor
  · intro h
    have n : NoNul l := h ▸ garbled_noNul (upToNul_noNul l)
    refine ⟨n, ?_⟩
    rw [upToNul_end n] at h
    have := congrArg List.length h
    rw [garbled_length] at this
    exact ascii_of_highBytes (by omega)
  · rintro ⟨n, a⟩
    rw [upToNul_end n, garbled_ascii a]

theorem upToNul_nul (l post : List Byte) : upToNul (l ++ 0#8 :: post) = upToNul l := by
  induction l with
  | nil => simp [upToNul]
  | cons b bs ih =>
    unfold upToNul at ih ⊢
    rw [List.cons_append, List.takeWhile_cons, List.takeWhile_cons]
    split
    · rw [ih]
    · rfl

/-- A request comes back when its name does. -/
theorem request_survives (r r0 : Request) :
    (∃ frame, r.encode = .ret frame ∧ r0.decode frame = .ret (r, none)) ↔
      r0.fname ++ garbled (upToNul r.fname) = r.fname := by
  have he := Request.encode_eq r
  have l8 : (be32 r.header ++ be32 r.session).length = 8 := by simp
  have e : be32 r.header ++ be32 r.session ++ r.fname ++ [0#8] ++ r.auth =
      (be32 r.header ++ be32 r.session) ++ (r.fname ++ 0#8 :: r.auth) := by simp
  have d8 : (be32 r.header ++ be32 r.session ++ r.fname ++ [0#8] ++ r.auth).drop 8 =
      r.fname ++ 0#8 :: r.auth := by
    rw [e, List.drop_left' l8]
  have len : (be32 r.header ++ be32 r.session ++ r.fname ++ [0#8] ++ r.auth).length =
      9 + r.fname.length + r.auth.length := by simp; omega
  have hw : headWord (be32 r.header ++ be32 r.session ++ r.fname ++ [0#8] ++ r.auth) = r.header := by
    have := readWord_head (f := be32 r.header ++ be32 r.session ++ r.fname ++ [0#8] ++ r.auth) (by omega)
    simp only [List.append_assoc] at this ⊢
    rw [readWord_start] at this
    exact (Out.ret.inj this).symm
  have hs : BitVec.ofNat 32 (beNum
      (((be32 r.header ++ be32 r.session ++ r.fname ++ [0#8] ++ r.auth).drop 4).take 4)) = r.session := by
    have : be32 r.header ++ be32 r.session ++ r.fname ++ [0#8] ++ r.auth =
        be32 r.header ++ (be32 r.session ++ (r.fname ++ [0#8] ++ r.auth)) := by simp
    rw [this, List.drop_left' (by simp), List.take_left' (by simp), beNum_be32, BitVec.ofNat_toNat,
      BitVec.setWidth_eq]
  constructor
  · rintro ⟨frame, h1, h2⟩
    rw [he] at h1
    cases h1
    rw [Request.decode_eq r0 (by omega), d8, upToNul_nul] at h2
    simp only at h2
    split at h2
    · simp only [Out.ret.injEq, Prod.mk.injEq, and_true] at h2
      exact congrArg Request.fname h2
    · split at h2
      · simp only [Out.ret.injEq, Prod.mk.injEq, and_true] at h2
        exact congrArg Request.fname h2
      · cases h2
  · intro h
    refine ⟨_, he, ?_⟩
    rw [Request.decode_eq r0 (by omega), d8, upToNul_nul]
    simp only [h, len, hw, hs]
    by_cases c : r.auth = []
    · rw [if_pos (by rw [c]; rfl)]
      obtain ⟨a, b, f, g⟩ := r
      simp only at c
      rw [c]
    · have p : 0 < r.auth.length := List.length_pos_iff.2 c
      rw [if_neg (by omega), if_pos (by omega)]
      have : (be32 r.header ++ be32 r.session ++ r.fname ++ [0#8] ++ r.auth).drop (9 + r.fname.length) =
          r.auth := List.drop_left' (by simp; omega)
      rw [this]

/-- **C21** Exactly which requests with a name without NUL come back: those with an ASCII name, read into a
variable that holds no name. -/
theorem C21_survives_iff (r r0 : Request) (noNul : NoNul r.fname) :
    (∃ frame, r.encode = .ret frame ∧ r0.decode frame = .ret (r, none)) ↔
      Ascii r.fname ∧ r0.fname = [] := by
  rw [request_survives, upToNul_end noNul]
  constructor
  · intro h
    have l := congrArg List.length h
    rw [List.length_append, garbled_length] at l
    exact ⟨ascii_of_highBytes (by omega), List.length_eq_zero_iff.1 (by omega)⟩
  · rintro ⟨a, e⟩
    rw [e, garbled_ascii a, List.nil_append]

/-- **C21** Into a variable that holds no name, exactly the requests come back whose name is ASCII and has no
NUL. -/
theorem C21_fresh_iff (r r0 : Request) (fresh : r0.fname = []) :
    (∃ frame, r.encode = .ret frame ∧ r0.decode frame = .ret (r, none)) ↔
      NoNul r.fname ∧ Ascii r.fname := by
  rw [request_survives, fresh, List.nil_append, garbled_iff]

example : NoNul [0x61#8, 0xC3#8] ∧ ¬ Ascii [0x61#8, 0xC3#8] ∧ Request.zero.fname = [] := by decide

/-! ## Directory entries and metadata -/

/-- **C22** Exactly which directory entries come back whole, whatever variable they are read into: the
descriptor is d16, d32 or d64, the size fits (for d64 as for d32), the path has at most 1024 bytes, all
ASCII and none of them NUL, and both times are of type epoch2000_32 with 32 bit seconds. -/
theorem C22_survives_iff (T : Tables) (d d0 : DirEnt) (epoch : HasEpoch T) :
    (∃ b, d.encode T = .ret (.ok b) ∧ d0.decode T b = .ret (d, none)) ↔
      (∃ n, HasWidthD T d.header n ∧ d.size.toNat ≤ direntMax n) ∧ d.path.length ≤ 1024 ∧
        NoNul d.path ∧ Ascii d.path ∧ EpochStamp T d.mtime ∧ EpochStamp T d.ctime := by
  constructor
  · rintro ⟨b, h1, h2⟩
    obtain ⟨n, a1, a2, a3⟩ := (C22_encodable_iff T d).1 ⟨b, h1⟩
    obtain ⟨x, b1, _, _, _, _, b2, b3, b4⟩ := C22_exact T d d0 b epoch h1
    rw [h2] at b1
    cases b1
    obtain ⟨c1, c2⟩ := (garbled_iff _).1 b4.symm
    exact ⟨⟨n, a1, a3⟩, a2, c1, c2, b2, b3⟩
  · rintro ⟨⟨n, a1, a3⟩, a2, c1, c2, b2, b3⟩
    exact C22_round_trip_partial T d d0 n epoch a1 a3 a2 c1 c2 b2 b3

/-- **C23** Exactly which metadata frames come back whole: the checksum has the announced length and the
directory entry comes back (`C22_survives_iff`). Any tables. -/
theorem C23_survives_iff (T : Tables) (m m0 : MetaData) :
    (∃ frame, m.encode T = .ret frame ∧ m0.decode T frame = .ret (m, none)) ↔
      m.checksum.length = 4 * (get T m.header "csumlen").toNat ∧
        ∃ de, m.dir.encode T = .ret (.ok de) ∧ m0.dir.decode T de = .ret (m.dir, none) := by
  constructor
  · rintro ⟨frame, h1, h2⟩
    have hr : ∃ r, m.dir.encode T = .ret r := by
      unfold MetaData.encode at h1
      obtain ⟨r, hr, _⟩ := Out.bind_eq_ret h1
      exact ⟨r, hr⟩
    obtain ⟨r, hr⟩ := hr
    have agree : m.checksum.length = 4 * (get T m.header "csumlen").toNat := by
      have h2' := h2
      unfold MetaData.decode at h2'
      split at h2'
      · cases h2'
      obtain ⟨hd, _, h2'⟩ := Out.bind_eq_ret h2'
      obtain ⟨ss, _, h2'⟩ := Out.bind_eq_ret h2'
      simp only at h2'
      obtain ⟨c, hc, h2'⟩ := Out.bind_eq_ret h2'
      obtain ⟨rest, _, h2'⟩ := Out.bind_eq_ret h2'
      obtain ⟨⟨d, e⟩, _, h2'⟩ := Out.bind_eq_ret h2'
      cases h2'
      simp only
      unfold slice at hc
      split at hc
      · cases hc
        simp; omega
      · cases hc
    refine ⟨agree, ?_⟩
    cases r with
    | error e =>
      obtain ⟨f, x, k1, _, k2⟩ := C24_dropped_partial T m m0 e agree hr
      rw [h1] at k1
      cases k1
      rw [h2] at k2
      cases k2
    | ok de =>
      refine ⟨de, hr, ?_⟩
      obtain ⟨frame', he, g1, g2, g3⟩ := C62_metadata_layout T m de hr
      rw [he] at h1
      cases h1
      have hlen : 8 + (m.checksum.length + de.length) = frame.length := by
        have h8 : 8 ≤ frame.length := by
          rw [MetaData.encode_eq hr] at he; cases he; simp; omega
        have := congrArg List.length g3
        rw [List.length_drop, List.length_append] at this
        omega
      have hh : headWord frame = m.header := by
        rw [headWord, g1, BitVec.ofNat_toNat, BitVec.setWidth_eq]
      rw [MetaData.decode_eq m0 (by omega)] at h2
      simp only [hh, g2, g3] at h2
      rw [Nat.mul_comm, ← agree, if_pos (by omega), ← List.drop_drop, g3, List.drop_left' rfl] at h2
      obtain ⟨⟨d, e⟩, hb, h2⟩ := Out.bind_eq_ret h2
      simp only [Out.pure_eq, Out.ret.injEq, Prod.mk.injEq] at h2
      obtain ⟨h2, rfl⟩ := h2
      have : d = m.dir := congrArg MetaData.dir h2
      rw [hb, this]
  · rintro ⟨agree, de, h1, h2⟩
    exact C23_round_trip T m m0 de agree h1 m.dir h2

example : HasEpoch shipped ∧ EpochStamp shipped ⟨5#8, 7, 0, [], "epoch2000_32"⟩ := by decide

/-! ## Beacons -/

/-- **C26** Exactly which beacons come back whole, whatever variable they are read into: those that advertise
a free space that fits the width they announce, and those that advertise none and hold none. Any tables. -/
theorem C26_survives_iff (T : Tables) (b b0 : Beacon) :
    (∃ frame, b.encode T = .ret (.ok frame) ∧ b0.decode T frame = .ret (b, none)) ↔
      (getStr T b.header "freespace" = .ret "yes" ∧
        ∃ n, HasWidth T "freespaced" b.header n ∧ b.freespace.toNat < 256 ^ n) ∨
      (∃ fsp, getStr T b.header "freespace" = .ret fsp ∧ fsp ≠ "yes" ∧ b.freespace = 0) := by
  constructor
  · rintro ⟨frame, h1, h2⟩
    rcases Beacon.encode_inv h1 with ⟨fsd, n, k1, k2, k3, rfl⟩ | ⟨fsp, k1, k2, rfl⟩
    · have hc := descSize_cases k3
      rw [Beacon.decode_yes b0 k1 k2 k3] at h2
      simp only [Out.ret.injEq, Prod.mk.injEq, and_true] at h2
      have e := congrArg (fun x => x.freespace.toNat) h2
      simp only at e
      rw [wireNum_toNat (by omega)] at e
      exact .inl ⟨k1, n, ⟨fsd, k2, by rw [← descSize_eq]; exact k3⟩,
        e ▸ Nat.mod_lt _ (Nat.pow_pos (by decide))⟩
    · rw [Beacon.decode_no b0 k1 k2] at h2
      simp only [Out.ret.injEq, Prod.mk.injEq, and_true] at h2
      exact .inr ⟨fsp, k1, k2, (congrArg Beacon.freespace h2).symm⟩
  · rintro (⟨h1, n, h2, h3⟩ | ⟨fsp, h1, h2, h3⟩)
    · exact C26_round_trip T b b0 n h1 h2 h3
    · exact C26_round_trip_nospace T b b0 fsp h1 h2 h3

example : ∃ b : Beacon, getStr shipped b.header "freespace" = .ret "yes" ∧
    HasWidth shipped "freespaced" b.header 4 ∧ b.freespace.toNat = 70000 :=
  ⟨⟨beaconHeader, 70000, []⟩, by decide, ⟨"d32", by decide, rfl⟩, rfl⟩

end Saratoga
