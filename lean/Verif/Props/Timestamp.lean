import Verif.Lemmas.Timestamp
import Verif.Props.Flags
/-!
# C17 - C19: timestamps (`timestamp/timestamp.go`)

The code departs from C17 and C18 for `posix32_32` in the second before 1970: the seconds are
truncated towards zero and pass the range check, the negative remainder wraps.  It departs from C19
for `localinterp`, which `Get` always refuses.
-/
namespace Saratoga

theorem unixNano_toInt {ts : GoTime} (h : ts.NanoOk) :
    ts.unixNano.toInt = ts.sec * 1000000000 + ts.nsec := toInt_ofInt64 h.2.1 h.2.2

theorem unix_toInt {ts : GoTime} (h : ts.Ok) : ts.unix.toInt = ts.sec := toInt_ofInt64 h.1 h.2.1

theorem epoch_toInt (x : BitVec 64) :
    ¬ (x - 946684800#64) > maxUint32 ↔ 946684800 ≤ x.toInt ∧ x.toInt < 946684800 + 2 ^ 32 := by
  rw [gt_max_iff, Decidable.not_not, BitVec.toInt_sub]
  have h1 := @BitVec.toInt_lt 64 x
  have h2 := @BitVec.le_toInt 64 x
  rw [show (946684800#64).toInt = 946684800 by decide]
  rw [Int.bmod_def]
  split <;> omega

/-- A timestamp that `New` accepts, of a readable type, is in wire form. -/
theorem new_wire {T : Tables} (wf : T.ts.WF) {t0 t : Timestamp} {flag : String} {ts : GoTime}
    (readable : stripSpaces flag ∈ readableTypes)
    (before1970 : stripSpaces flag = "posix32_32" → ts.NanoOk ∧ (ts.sec = -1 → ts.nsec = 0))
    (accepted : t0.new T flag ts = .ret (t, none)) :
    t.Wire T := by
  obtain ⟨h1, h2⟩ := new_header wf accepted
  obtain ⟨v, hd, _, _, p1, p2, p3, p4, p5⟩ := new_ret accepted
  rw [← h2] at h1
  refine ⟨h1, by rw [h2]; exact readable, ?_⟩
  have key : ∀ x : BitVec 64, ¬ x > maxUint32 → x.toNat < 2 ^ 32 := fun x => (le_max_iff x).1
  rw [← h2] at p1 p2 p3 p4 p5 before1970
  simp only [readableTypes, List.mem_cons, List.not_mem_nil, or_false] at readable
  rw [← h2] at readable
  rcases readable with e | e | e | e | e
  · obtain ⟨hb, ht⟩ := p1 e rfl; simp only at ht; subst ht
    exact ⟨rfl, fun _ => key _ hb, by simp, by simp⟩
  · have ht := p2 e rfl; simp only at ht; subst ht; simp
  · obtain ⟨hb, ht⟩ := p3 e rfl; simp only at ht; subst ht
    obtain ⟨hn, hz⟩ := before1970 e
    refine ⟨rfl, fun _ => key _ hb, by simp, (tmod_abs _).2 ?_⟩
    rw [gt_max_iff, toInt_div1e9, unixNano_toInt hn] at hb
    rw [unixNano_toInt hn]
    obtain ⟨⟨_, _, h3⟩, _, _⟩ := hn
    rcases tdiv_cases (ts.sec * 1000000000 + ts.nsec) with ⟨_, hd, hm⟩ | ⟨_, hd, hm⟩
    · rw [hm]; omega
    · rw [hd] at hb; omega
  · obtain ⟨hb, ht⟩ := p4 e rfl; simp only at ht; subst ht
    exact ⟨rfl, by simp, by simp, key _ hb⟩
  · obtain ⟨hb, ht⟩ := p5 e rfl; simp only at ht; subst ht
    exact ⟨rfl, fun _ => key _ hb, by simp, by simp⟩

/-! ## C17 -/

/-- **C17** A timestamp accepted by `New` is returned unchanged by `Get` on the 16 bytes of `Put`.
Missing from C17: `posix32_32` of a time in the second before 1970. -/
theorem C17_wire_partial (T : Tables) (wf : T.ts.WF) (t0 t1 t : Timestamp) (flag : String) (ts : GoTime)
    (readable : stripSpaces flag ∈ readableTypes)
    (before1970 : stripSpaces flag = "posix32_32" → ts.NanoOk ∧ (ts.sec = -1 → ts.nsec = 0))
    (accepted : t0.new T flag ts = .ret (t, none)) :
    ∃ b, t.put T = .ret b ∧ b.length = 16 ∧ t1.get T b = .ret (t, none) := by
  obtain ⟨b, h1, h2, h3⟩ := put_bytes (new_wire wf readable before1970 accepted)
  exact ⟨b, h1, h2, h3 t1⟩

example : ∃ t b, Timestamp.zero.new shipped "posix64" ⟨1700000000, 5⟩ = .ret (t, none) ∧ t.put shipped = .ret b ∧
    Timestamp.zero.get shipped b = .ret (t, none) ∧ stripSpaces "posix64" ∈ readableTypes :=
  ⟨_, _, rfl, rfl, rfl, by decide +kernel⟩

/-- **C17** fails in general: half a second before 1970 as `posix32_32` is accepted and comes back as
a different timestamp. -/
theorem C17_counterexample :
    ∃ t b t', Timestamp.zero.new shipped "posix32_32" ⟨-1, 500000000⟩ = .ret (t, none) ∧
      t.put shipped = .ret b ∧ Timestamp.zero.get shipped b = .ret (t', none) ∧ t' ≠ t := by
  refine ⟨_, _, _, rfl, rfl, rfl, ?_⟩
  decide +kernel

/-- **C17** Seconds of `posix32` and `posix64` are those of the time. -/
theorem C17_seconds (T : Tables) (t0 t : Timestamp) (flag : String) (ts : GoTime) (ok : ts.Ok)
    (type : stripSpaces flag = "posix32" ∨ stripSpaces flag = "posix64")
    (accepted : t0.new T flag ts = .ret (t, none)) :
    t.secs.toInt = ts.sec ∧ t.nsecs = 0 := by
  obtain ⟨v, hd, _, _, p1, p2, _⟩ := new_ret accepted
  rcases type with e | e
  · have := (p1 e rfl).2; simp only at this; subst this
    exact ⟨unix_toInt ok, rfl⟩
  · have := p2 e rfl; simp only at this; subst this
    exact ⟨unix_toInt ok, rfl⟩

/-- **C17** Seconds and nanoseconds of `posix32_32` and `posix64_32` are those of the time, for times
from 1970 on. -/
theorem C17_nanoseconds (T : Tables) (t0 t : Timestamp) (flag : String) (ts : GoTime) (ok : ts.NanoOk)
    (from1970 : 0 ≤ ts.sec)
    (type : stripSpaces flag = "posix32_32" ∨ stripSpaces flag = "posix64_32")
    (accepted : t0.new T flag ts = .ret (t, none)) :
    (t.secs.toNat : Int) = ts.sec ∧ t.nsecs.toNat = ts.nsec := by
  obtain ⟨v, hd, _, _, _, _, p3, p4, _⟩ := new_ret accepted
  have main : ∀ t : Timestamp, t.secs = ts.unixNano.sdiv 1000000000#64 →
      t.nsecs = ts.unixNano.srem 1000000000#64 →
      (t.secs.toNat : Int) = ts.sec ∧ t.nsecs.toNat = ts.nsec := by
    intro t h1 h2
    have hN := unixNano_toInt ok
    obtain ⟨⟨_, _, hns⟩, _, _⟩ := ok
    have hs : t.secs.toInt = ts.sec := by
      rw [h1, toInt_div1e9, hN]
      rcases tdiv_cases (ts.sec * 1000000000 + ts.nsec) with ⟨_, hd, hm⟩ | ⟨_, hd, hm⟩
      · rw [hd]; omega
      · omega
    have hn : t.nsecs.toInt = ts.nsec := by
      rw [h2, toInt_mod1e9, hN]
      rcases tdiv_cases (ts.sec * 1000000000 + ts.nsec) with ⟨_, hd, hm⟩ | ⟨_, hd, hm⟩
      · rw [hm]; omega
      · omega
    have a := toNat_of_toInt (x := t.secs) (by omega)
    have b := toNat_of_toInt (x := t.nsecs) (by omega)
    omega
  rcases type with e | e
  · have := (p3 e rfl).2; simp only at this; subst this
    exact main _ rfl rfl
  · have := (p4 e rfl).2; simp only at this; subst this
    exact main _ rfl rfl

/-- **C17** `epoch2000_32` holds the seconds since 2000-01-01. -/
theorem C17_epoch2000 (T : Tables) (t0 t : Timestamp) (flag : String) (ts : GoTime) (ok : ts.Ok)
    (type : stripSpaces flag = "epoch2000_32")
    (accepted : t0.new T flag ts = .ret (t, none)) :
    (t.secs.toNat : Int) = ts.sec - 946684800 ∧ t.nsecs = 0 := by
  obtain ⟨v, hd, _, _, _, _, _, _, p5⟩ := new_ret accepted
  obtain ⟨hb, this⟩ := p5 type rfl; simp only at this; subst this
  refine ⟨?_, rfl⟩
  have h := (epoch_toInt _).1 hb
  rw [gt_max_iff, Decidable.not_not] at hb
  rw [toNat_of_toInt hb.1, BitVec.toInt_sub, unix_toInt ok,
    show (946684800#64).toInt = 946684800 by decide]
  rw [unix_toInt ok] at h
  exact Int.bmod_eq_of_le (by omega) (by omega)

/-! ## C18 -/

/-- **C18** `posix32` refuses exactly the times outside 0 .. 2^32-1 seconds. -/
theorem C18_posix32 (T : Tables) (t0 : Timestamp) (flag : String) (ts : GoTime) (ok : ts.Ok)
    (type : stripSpaces flag = "posix32") (known : goodT T "posix32" = true) :
    ∃ t e, t0.new T flag ts = .ret (t, e) ∧ (e = none ↔ 0 ≤ ts.sec ∧ ts.sec < 2 ^ 32) := by
  obtain ⟨v, hv⟩ := Option.isSome_iff_exists.1 known
  unfold Timestamp.new
  simp only [type, setT_eq hv, Out.ret_bind, Out.pure_eq, if_true]
  rw [← unix_toInt ok]
  split
  · rename_i h; rw [gt_max_iff] at h
    exact ⟨_, _, rfl, by simp only [reduceCtorEq, false_iff]; exact h⟩
  · rename_i h; rw [gt_max_iff, Decidable.not_not] at h
    exact ⟨_, _, rfl, by simp only [true_iff]; exact h⟩

example := C18_posix32 shipped Timestamp.zero "posix32" ⟨1700000000, 5⟩ (by decide) (by decide +kernel) (by decide +kernel)

/-- **C18** `epoch2000_32` refuses exactly the times outside 0 .. 2^32-1 seconds from 2000-01-01. -/
theorem C18_epoch2000 (T : Tables) (t0 : Timestamp) (flag : String) (ts : GoTime) (ok : ts.Ok)
    (type : stripSpaces flag = "epoch2000_32") (known : goodT T "epoch2000_32" = true) :
    ∃ t e, t0.new T flag ts = .ret (t, e) ∧
      (e = none ↔ 0 ≤ ts.sec - 946684800 ∧ ts.sec - 946684800 < 2 ^ 32) := by
  obtain ⟨v, hv⟩ := Option.isSome_iff_exists.1 known
  unfold Timestamp.new
  simp only [type, setT_eq hv, Out.ret_bind, Out.pure_eq]
  rw [if_neg (by decide), if_neg (by decide), if_neg (by decide), if_neg (by decide), if_pos trivial]
  have := epoch_toInt ts.unix
  rw [unix_toInt ok] at this
  split
  · rename_i h
    refine ⟨_, _, rfl, ?_⟩
    simp only [reduceCtorEq, false_iff]
    intro hc; exact this.2 (by omega) h
  · rename_i h
    refine ⟨_, _, rfl, ?_⟩
    have := this.1 h
    simp only [true_iff]; omega

example := C18_epoch2000 shipped Timestamp.zero "epoch2000_32" ⟨1700000000, 5⟩ (by decide) (by decide +kernel) (by decide +kernel)

/-- **C18** `posix32_32` accepts exactly the times from (not including) one second before 1970 up to
2^32 seconds after. C18 demands that those before 1970 be refused too. -/
theorem C18_posix32_32_partial (T : Tables) (t0 : Timestamp) (flag : String) (ts : GoTime)
    (ok : ts.NanoOk) (type : stripSpaces flag = "posix32_32") (known : goodT T "posix32_32" = true) :
    ∃ t e, t0.new T flag ts = .ret (t, e) ∧
      (e = none ↔ (0 ≤ ts.sec ∨ (ts.sec = -1 ∧ ts.nsec ≠ 0)) ∧ ts.sec < 2 ^ 32) := by
  obtain ⟨v, hv⟩ := Option.isSome_iff_exists.1 known
  unfold Timestamp.new
  simp only [type, setT_eq hv, Out.ret_bind, Out.pure_eq]
  rw [if_neg (by decide), if_neg (by decide), if_pos trivial]
  have key : ts.unixNano.sdiv 1000000000#64 > maxUint32 ↔
      ¬ ((0 ≤ ts.sec ∨ (ts.sec = -1 ∧ ts.nsec ≠ 0)) ∧ ts.sec < 2 ^ 32) := by
    rw [gt_max_iff, toInt_div1e9, unixNano_toInt ok]
    obtain ⟨⟨_, _, hns⟩, _, _⟩ := ok
    rcases tdiv_cases (ts.sec * 1000000000 + ts.nsec) with ⟨_, hd, hm⟩ | ⟨_, hd, hm⟩ <;> rw [hd] <;>
      omega
  split
  · rename_i h
    exact ⟨_, _, rfl, by simp only [reduceCtorEq, false_iff]; exact key.1 h⟩
  · rename_i h
    refine ⟨_, _, rfl, ?_⟩
    simp only [true_iff]
    rw [key, Decidable.not_not] at h
    exact h

example := C18_posix32_32_partial shipped Timestamp.zero "posix32_32" ⟨1700000000, 5⟩ (by decide) (by decide +kernel) (by decide +kernel)

/-- **C18** fails: half a second before 1970 is accepted as `posix32_32`. -/
theorem C18_counterexample :
    ∃ t, Timestamp.zero.new shipped "posix32_32" ⟨-1, 500000000⟩ = .ret (t, none) := ⟨_, rfl⟩

/-! ## C19 -/

/-- **C19** Every type but `localinterp` that the shipped tables have can be read back. Missing:
`localinterp`, and `posix32_32` in the second before 1970 (which is read, but wrongly, see C17). -/
theorem C19_readable_partial (t0 t1 t : Timestamp) (flag : String) (ts : GoTime)
    (notLocal : stripSpaces flag ≠ "localinterp")
    (before1970 : stripSpaces flag = "posix32_32" → ts.NanoOk ∧ (ts.sec = -1 → ts.nsec = 0))
    (accepted : t0.new shipped flag ts = .ret (t, none)) :
    ∃ b, t.put shipped = .ret b ∧ t1.get shipped b = .ret (t, none) := by
  have hr : stripSpaces flag ∈ readableTypes := by
    obtain ⟨v, _, ho, _⟩ := new_ret accepted
    have hm := assoc_mem ho
    have : ∀ p ∈ shipped.ts.options, p.1 = "localinterp" ∨ p.1 ∈ readableTypes := by decide +kernel
    rcases this _ hm with h | h
    · exact absurd h notLocal
    · exact h
  obtain ⟨b, h1, _, h3⟩ := C17_wire_partial shipped C09_ts_wf t0 t1 t flag ts hr before1970 accepted
  exact ⟨b, h1, h3⟩

/-- **C19** fails: a `localinterp` timestamp of any time is created and written, and `Get` answers
with an error for it. -/
theorem C19_counterexample (t0 t1 : Timestamp) (ts : GoTime) :
    ∃ t b t', t0.new shipped "localinterp" ts = .ret (t, none) ∧ t.put shipped = .ret b ∧
      t1.get shipped b = .ret (t', some "timestamp.Get: Invalid Timestamp type") := by
  generalize hl : utf8 "localinterp" = l
  have hput : (⟨0, t0.secs, t0.nsecs, l, "localinterp"⟩ : Timestamp).put shipped =
      copyAt (0#8 :: mkBytes 15) 1 15 l := by
    unfold Timestamp.put
    rw [show putAt (mkBytes 16) 0 1 [(⟨0, t0.secs, t0.nsecs, l, "localinterp"⟩ : Timestamp).header] =
      .ret (0#8 :: mkBytes 15) from rfl]
    simp only [Out.ret_bind, show nameT shipped 0 = .ret "localinterp" from rfl]
    rfl
  have hcopy : copyAt (0#8 :: mkBytes 15) 1 15 l =
      .ret (0#8 :: (l.take 14 ++ mkBytes (15 - min 14 l.length))) := by
    unfold copyAt
    rw [if_pos (by simp)]
    congr 1
    simp only [List.take_succ_cons, List.take_zero, List.cons_append, List.nil_append,
      Nat.add_comm 1, List.drop_succ_cons, mkBytes_drop]
  refine ⟨⟨0, t0.secs, t0.nsecs, l, "localinterp"⟩, _,
    ⟨0, 0, 0, (0#8 :: (l.take 14 ++ mkBytes (15 - min 14 l.length))).drop 1 |>.take 14, "localinterp"⟩,
    ?_, hput.trans hcopy, ?_⟩
  · rw [← hl]; rfl
  · have hlen : (0#8 :: (l.take 14 ++ mkBytes (15 - min 14 l.length))).length = 16 := by
      simp; omega
    have hs := slice_ok (f := 0#8 :: (l.take 14 ++ mkBytes (15 - min 14 l.length))) (lo := 1) (hi := 15)
      (by omega) (by omega)
    unfold Timestamp.get
    rw [show byteAt (0#8 :: (l.take 14 ++ mkBytes (15 - min 14 l.length))) 0 = .ret 0#8 from rfl]
    simp only [Out.ret_bind, show getTStr shipped 0#8 = .ret "localinterp" from rfl, hs]
    rfl

/-- How many bytes a timestamp of this type has behind its first byte. -/
def stampBytes (kind : String) : Nat :=
  if kind = "posix32" ∨ kind = "epoch2000_32" then 4
  else if kind = "posix64" ∨ kind = "posix32_32" then 8
  else if kind = "posix64_32" then 12
  else 14

theorem slice_short {f : List Byte} {lo hi : Nat} (h : f.length < hi) : slice f lo hi = .panic := by
  unfold slice
  rw [if_neg (by omega)]

theorem slice_rd32 {f : List Byte} {lo : Nat} (h : lo + 4 ≤ f.length) :
    ∃ s v, slice f lo (lo + 4) = .ret s ∧ rd32 s = .ret v := by
  have e := slice_ok (f := f) (lo := lo) (hi := lo + 4) (by omega) (by omega)
  rcases rd32_cases ((f.drop lo).take (lo + 4 - lo)) with ⟨_, v, hv, _⟩ | ⟨hs, _⟩
  · exact ⟨_, v, e, hv⟩
  · simp at hs; omega

theorem slice_rd64 {f : List Byte} {lo : Nat} (h : lo + 8 ≤ f.length) :
    ∃ s v, slice f lo (lo + 8) = .ret s ∧ rd64 s = .ret v := by
  have e := slice_ok (f := f) (lo := lo) (hi := lo + 8) (by omega) (by omega)
  obtain ⟨v, hv⟩ := (rd64_ret_iff ((f.drop lo).take (lo + 8 - lo))).2 (by simp; omega)
  exact ⟨_, v, e, hv⟩

/-- **C19** What `Get` needs to read: it panics exactly on no bytes and on fewer than the type in the first byte has,
and returns on all others of a known type. Any tables. -/
theorem C19_bytes_needed (T : Tables) (t : Timestamp) :
    t.get T [] = .panic ∧
    ∀ (h : Byte) (rest : List Byte) (kind : String), getTStr T h = .ret kind →
      (rest.length < stampBytes kind → t.get T (h :: rest) = .panic) ∧
      (stampBytes kind ≤ rest.length → (t.get T (h :: rest)).returns) := by
  refine ⟨rfl, fun h rest kind hk => ⟨fun short => ?_, fun long => ?_⟩⟩
  · unfold Timestamp.get
    simp only [show byteAt (h :: rest) 0 = .ret h from rfl, Out.ret_bind, hk]
    have panics : ∀ {lo hi : Nat} {g : List Byte → Out (Timestamp × Option Err)}, rest.length + 1 < hi →
        (slice (h :: rest) lo hi).bind g = .panic := by
      intro lo hi g hh
      rw [slice_short (by simpa using hh)]; rfl
    unfold stampBytes at short
    by_cases h1 : kind = "posix32"
    · subst h1; exact panics (by simp at short; omega)
    by_cases h2 : kind = "posix64"
    · subst h2; exact panics (by simp at short; omega)
    by_cases h3 : kind = "posix32_32"
    · subst h3
      simp at short
      show (slice (h :: rest) 1 5).bind _ = _
      by_cases h5 : rest.length + 1 < 5
      · exact panics h5
      · obtain ⟨x, v, e1, e2⟩ := slice_rd32 (f := h :: rest) (lo := 1) (by simp; omega)
        rw [e1]
        show (rd32 x).bind _ = _
        rw [e2]
        exact panics (by omega)
    by_cases h4 : kind = "posix64_32"
    · subst h4
      simp at short
      show (slice (h :: rest) 1 9).bind _ = _
      by_cases h5 : rest.length + 1 < 9
      · exact panics h5
      · obtain ⟨x, v, e1, e2⟩ := slice_rd64 (f := h :: rest) (lo := 1) (by simp; omega)
        rw [e1]
        show (rd64 x).bind _ = _
        rw [e2]
        exact panics (by omega)
    by_cases h5 : kind = "epoch2000_32"
    · subst h5; exact panics (by simp at short; omega)
    simp only [h1, h2, h3, h4, h5, if_false, or_self] at short ⊢
    exact panics (by omega)
  · unfold Timestamp.get
    simp only [show byteAt (h :: rest) 0 = .ret h from rfl, Out.ret_bind, hk]
    unfold stampBytes at long
    by_cases h1 : kind = "posix32"
    · subst h1
      simp at long
      obtain ⟨x, v, e1, e2⟩ := slice_rd32 (f := h :: rest) (lo := 1) (by simp; omega)
      simp only [e1, e2, Out.ret_bind, if_true]; trivial
    by_cases h2 : kind = "posix64"
    · subst h2
      simp at long
      obtain ⟨x, v, e1, e2⟩ := slice_rd64 (f := h :: rest) (lo := 1) (by simp; omega)
      simp only [h1, e1, e2, Out.ret_bind, if_true, if_false]; trivial
    by_cases h3 : kind = "posix32_32"
    · subst h3
      simp at long
      obtain ⟨x, v, e1, e2⟩ := slice_rd32 (f := h :: rest) (lo := 1) (by simp; omega)
      obtain ⟨x', v', e1', e2'⟩ := slice_rd32 (f := h :: rest) (lo := 5) (by simp; omega)
      simp only [h1, h2, e1, e2, e1', e2', Out.ret_bind, if_true, if_false]; trivial
    by_cases h4 : kind = "posix64_32"
    · subst h4
      simp at long
      obtain ⟨x, v, e1, e2⟩ := slice_rd64 (f := h :: rest) (lo := 1) (by simp; omega)
      obtain ⟨x', v', e1', e2'⟩ := slice_rd32 (f := h :: rest) (lo := 9) (by simp; omega)
      simp only [h1, h2, h3, e1, e2, e1', e2', Out.ret_bind, if_true, if_false]; trivial
    by_cases h5 : kind = "epoch2000_32"
    · subst h5
      simp at long
      obtain ⟨x, v, e1, e2⟩ := slice_rd32 (f := h :: rest) (lo := 1) (by simp; omega)
      simp only [h1, h2, h3, h4, e1, e2, Out.ret_bind, if_true, if_false]; trivial
    simp only [h1, h2, h3, h4, h5, if_false, or_self] at long ⊢
    rw [slice_ok (by omega) (by simp; omega)]
    trivial

/-! ## The hypotheses are met -/

example : (⟨1700000000, 5⟩ : GoTime).NanoOk ∧ stripSpaces " posix32_32" = "posix32_32" ∧
    "posix32_32" ∈ readableTypes ∧ goodT shipped "posix32_32" = true := by decide +kernel

example : ∃ t, Timestamp.zero.new shipped "posix32_32" ⟨1700000000, 5⟩ = .ret (t, none) ∧
    t.secs = 1700000000 ∧ t.nsecs = 5 := ⟨_, rfl, rfl, rfl⟩

example : ∃ t, Timestamp.zero.new shipped "epoch2000_32" ⟨946684801, 5⟩ = .ret (t, none) ∧
    t.secs = 1 ∧ t.nsecs = 0 := ⟨_, rfl, rfl, rfl⟩

/-- A time after the year 2106 is refused. -/
example : ∃ t, Timestamp.zero.new shipped "posix32" ⟨4294967296, 0⟩ =
    .ret (t, some "posix32:Seconds exceed 32 bits") := ⟨_, rfl⟩

end Saratoga
