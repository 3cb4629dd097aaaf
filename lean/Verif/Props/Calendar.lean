import Verif.Model.Calendar
import Verif.Spec.Calendar
import Verif.Props.Timestamp
/-!
# Properties of printed time stamps

C118: a time stamp is printed as the moment it was made.
-/
namespace Saratoga

/-! ## The date -/

theorem yearsDays_eq (n : Nat) : yearsDays n + n / 100 = 365 * n + n / 4 + n / 400 := by
  induction n with
  | zero => rfl
  | succ n ih =>
    simp only [yearsDays, yearLength]
    split
    · rename_i h; unfold LeapYear at h; omega
    · rename_i h; unfold LeapYear at h; omega

theorem yearOf_spec (d : Nat) :
    1 ≤ (yearOf d).1 ∧ yearsDays ((yearOf d).1 - 1) + (yearOf d).2 = d ∧ (yearOf d).2 < yearLength (yearOf d).1 := by
  simp only [yearOf]
  obtain ⟨q, hq⟩ : ∃ q, q = d / 146097 := ⟨_, rfl⟩
  rw [← hq]
  obtain ⟨r, hr⟩ : ∃ r, r = d - 146097 * q := ⟨_, rfl⟩
  rw [← hr]
  have r1 : r < 146097 := by omega
  have d1 : d = 146097 * q + r := by omega
  obtain ⟨a, ha⟩ : ∃ a, a = r / 36524 - r / 36524 / 4 := ⟨_, rfl⟩
  rw [← ha]
  obtain ⟨s, hs⟩ : ∃ s, s = r - 36524 * a := ⟨_, rfl⟩
  rw [← hs]
  have a1 : a ≤ 3 := by omega
  have s1 : r = 36524 * a + s ∧ s ≤ 36524 ∧ (s = 36524 → a = 3) := by omega
  obtain ⟨b, hb⟩ : ∃ b, b = s / 1461 := ⟨_, rfl⟩
  rw [← hb]
  obtain ⟨t, ht⟩ : ∃ t, t = s - 1461 * b := ⟨_, rfl⟩
  rw [← ht]
  have b1 : s = 1461 * b + t ∧ t < 1461 ∧ b ≤ 24 ∧ (b = 24 → t = 1460 → a = 3) := by omega
  obtain ⟨c, hc⟩ : ∃ c, c = t / 365 - t / 365 / 4 := ⟨_, rfl⟩
  rw [← hc]
  obtain ⟨u, hu⟩ : ∃ u, u = t - 365 * c := ⟨_, rfl⟩
  rw [← hu]
  have c1 : t = 365 * c + u ∧ c ≤ 3 ∧ u ≤ 365 ∧ (u = 365 → c = 3) := by omega
  clear hq hr ha hs hb ht hc hu
  have hy := yearsDays_eq (400 * q + 100 * a + 4 * b + c)
  have e1 : (400 * q + 100 * a + 4 * b + c) / 4 = 100 * q + 25 * a + b := by omega
  have e2 : (400 * q + 100 * a + 4 * b + c) / 100 = 4 * q + a := by omega
  have e3 : (400 * q + 100 * a + 4 * b + c) / 400 = q := by omega
  rw [e1, e2, e3] at hy
  refine ⟨by omega, ?_, ?_⟩
  · rw [Nat.add_sub_cancel]; omega
  · unfold yearLength
    have f1 : (400 * q + 100 * a + 4 * b + c + 1) % 4 = (c + 1) % 4 := by omega
    have f2 : (400 * q + 100 * a + 4 * b + c + 1) % 100 = (4 * b + c + 1) % 100 := by omega
    have f3 : (400 * q + 100 * a + 4 * b + c + 1) % 400 = (100 * a + 4 * b + c + 1) % 400 := by omega
    by_cases hu : u = 365
    · have := c1.2.2.2 hu
      subst this
      rw [if_pos]
      · omega
      · unfold LeapYear
        by_cases hb : b = 24
        · left; have := b1.2.2.2 hb (by omega); omega
        · right; omega
    · split <;> omega

theorem monthDay_all : ∀ leap : Bool, ∀ n ∈ List.range 366, (n < 365 ∨ leap = true) →
    1 ≤ (monthDay leap n).1 ∧ (monthDay leap n).1 ≤ 12 ∧ 1 ≤ (monthDay leap n).2 ∧
    (monthDay leap n).2 ≤ monthLength (if leap then 4 else 1) (monthDay leap n).1 ∧
    monthsDays (if leap then 4 else 1) ((monthDay leap n).1 - 1) + ((monthDay leap n).2 - 1) = n := by
  decide +kernel

theorem goLeap_iff (y : Nat) : goLeap y = true ↔ LeapYear y := by
  simp only [goLeap, LeapYear, decide_eq_true_eq]; omega

theorem monthLength_congr {y z : Nat} (h : LeapYear y ↔ LeapYear z) (m : Nat) : monthLength y m = monthLength z m := by
  unfold monthLength
  by_cases hy : LeapYear y
  · rw [if_pos hy, if_pos (h.1 hy)]
  · rw [if_neg hy, if_neg (fun hz => hy (h.2 hz))]

theorem monthsDays_congr {y z : Nat} (h : LeapYear y ↔ LeapYear z) (m : Nat) : monthsDays y m = monthsDays z m := by
  induction m with
  | zero => rfl
  | succ m ih => simp only [monthsDays, ih, monthLength_congr h]

/-- The date computed is the date of the day. -/
theorem date_spec (days : Nat) :
    let y := (yearOf days).1
    let m := (monthDay (goLeap y) (yearOf days).2).1
    let d := (monthDay (goLeap y) (yearOf days).2).2
    IsDate y m d ∧ dayNumber y m d = days := by
  intro y m d
  obtain ⟨h1, h2, h3⟩ := yearOf_spec days
  have hlt : (yearOf days).2 < 365 ∨ goLeap y = true := by
    rw [goLeap_iff]
    unfold yearLength at h3
    by_cases hl : LeapYear y
    · exact .inr hl
    · rw [if_neg hl] at h3; exact .inl h3
  have h366 : (yearOf days).2 < 366 := by
    unfold yearLength at h3; split at h3 <;> omega
  obtain ⟨m1, m2, m3, m4, m5⟩ := monthDay_all (goLeap y) _ (List.mem_range.2 h366) hlt
  have hl : LeapYear y ↔ LeapYear (if goLeap y then 4 else 1) := by
    rw [← goLeap_iff]
    cases goLeap y <;> decide
  rw [← monthLength_congr hl] at m4
  rw [← monthsDays_congr hl] at m5
  refine ⟨⟨h1, m1, m2, m3, m4⟩, ?_⟩
  unfold dayNumber
  show yearsDays ((yearOf days).1 - 1) + monthsDays y ((monthDay (goLeap y) (yearOf days).2).1 - 1) +
    ((monthDay (goLeap y) (yearOf days).2).2 - 1) = _
  omega

/-! ## The text -/

theorem filled_eq (c : Char) (width n : Nat) : filled c width n = padded c width n := by
  unfold filled padded List.leftpad
  rw [String.ofList_append, String.ofList_toList, String.length_toList]

theorem weekday_eq (n : Nat) :
    shortDays.getD ((n + 1) % 7) "" = ["Mon", "Tue", "Wed", "Thu", "Fri", "Sat", "Sun"].getD (n % 7) "" := by
  have all : ∀ k ∈ List.range 7, shortDays.getD ((k + 1) % 7) "" =
      ["Mon", "Tue", "Wed", "Thu", "Fri", "Sat", "Sun"].getD k "" := by decide
  have := all (n % 7) (List.mem_range.2 (Nat.mod_lt _ (by omega)))
  rw [← this]
  congr 1
  omega

/-- A moment from the year 1 on is printed as its date and time. -/
theorem format_shows (t : GoTime) (h : -62135596800 ≤ t.sec) (millis : Bool) :
    ShowsMoment (t.format millis) t.sec (if millis then "." ++ padded '0' 3 (t.nsec / 1000000) else "") := by
  obtain ⟨secs, hs⟩ : ∃ n : Nat, t.sec + 62135596800 = n := ⟨(t.sec + 62135596800).toNat, by omega⟩
  obtain ⟨h1, h2⟩ := date_spec (secs / 86400)
  refine ⟨_, _, _, secs % 86400 / 3600, secs % 86400 % 3600 / 60, secs % 86400 % 60, h1, by omega, by omega, by omega, ?_, ?_⟩
  · rw [h2, hs]
    omega
  · unfold GoTime.format dateText
    have e : (t.sec + yearOneSeconds).toNat = secs := by unfold yearOneSeconds; omega
    simp only [e]
    rw [h2]
    simp only [filled_eq, weekday_eq]
    rfl

/-! ## C118 -/

/-- What is shown behind the seconds. -/
def fractionOf (kind : String) (nsec : Nat) : String :=
  if kind = "posix32_32" ∨ kind = "posix64_32" then "." ++ padded '0' 3 (nsec / 1000000) else ""

theorem ofUnix_nano {ts : GoTime} (ok : ts.NanoOk) :
    GoTime.ofUnix (ts.unixNano.sdiv 1000000000#64) (ts.unixNano.srem 1000000000#64) = ts := by
  unfold GoTime.ofUnix
  rw [toInt_div1e9, toInt_mod1e9, unixNano_toInt ok]
  obtain ⟨⟨_, _, h3⟩, _, _⟩ := ok
  obtain ⟨s, n⟩ := ts
  simp only at h3 ⊢
  rcases tdiv_cases (s * 1000000000 + n) with ⟨a, b, c⟩ | ⟨a, b, c⟩ <;> rw [b, c] <;> congr 1 <;> omega

theorem ofUnix_seconds {ts : GoTime} (ok : ts.Ok) : GoTime.ofUnix ts.unix 0 = ⟨ts.sec, 0⟩ := by
  unfold GoTime.ofUnix
  rw [unix_toInt ok]
  simp

/-- **C118** (partial: without `localinterp`.) A time stamp made of a moment from the year 1 on prints the date and the
time of that moment, and with nanoseconds the thousandths, rounded down. Missing: `localinterp`, see
`C118_counterexample`. -/
theorem C118_shows_partial (T : Tables) (wf : T.ts.WF) (t0 t : Timestamp) (flag : String) (ts : GoTime)
    (readable : stripSpaces flag ∈ readableTypes) (ok : ts.Ok)
    (nano : stripSpaces flag = "posix32_32" ∨ stripSpaces flag = "posix64_32" → ts.NanoOk)
    (ad : -62135596800 ≤ ts.sec) (accepted : t0.new T flag ts = .ret (t, none)) :
    ∃ text, t.printText T = .ret (utf8 text) ∧ ShowsMoment text ts.sec (fractionOf (stripSpaces flag) ts.nsec) := by
  obtain ⟨hn, -⟩ := new_header wf accepted
  obtain ⟨v, hd, -, -, p1, p2, p3, p4, p5⟩ := new_ret accepted
  unfold Timestamp.printText
  rw [getTStr_eq_nameT, hn]
  simp only [Out.ret_bind, Out.pure_eq]
  simp only [readableTypes, List.mem_cons, List.not_mem_nil, or_false] at readable
  rcases readable with e | e | e | e | e <;> simp only [e] at *
  · have := (p1 trivial trivial).2
    subst this
    refine ⟨_, rfl, ?_⟩
    rw [ofUnix_seconds ok]
    exact format_shows ⟨ts.sec, 0⟩ ad false
  · have := p2 trivial trivial
    subst this
    refine ⟨_, rfl, ?_⟩
    rw [ofUnix_seconds ok]
    exact format_shows ⟨ts.sec, 0⟩ ad false
  · have := (p3 trivial trivial).2
    subst this
    refine ⟨_, rfl, ?_⟩
    rw [ofUnix_nano (nano (.inl trivial))]
    exact format_shows ts ad true
  · have := (p4 trivial trivial).2
    subst this
    refine ⟨_, rfl, ?_⟩
    rw [ofUnix_nano (nano (.inr trivial))]
    exact format_shows ts ad true
  · have := (p5 trivial trivial).2
    subst this
    refine ⟨_, rfl, ?_⟩
    dsimp only
    rw [show 946684800#64 + (ts.unix - 946684800#64) = ts.unix by rw [BitVec.add_comm, BitVec.sub_add_cancel],
      ofUnix_seconds ok]
    exact format_shows ⟨ts.sec, 0⟩ ad false

/-- **C118** (partial: as `C118_shows_partial`, and not in the second before 1970 as `posix32_32`.) What the receiver of a
time stamp prints is the moment at which the sender made it. -/
theorem C118_received_partial (T : Tables) (wf : T.ts.WF) (t0 t1 t : Timestamp) (flag : String) (ts : GoTime)
    (readable : stripSpaces flag ∈ readableTypes) (ok : ts.Ok)
    (nano : stripSpaces flag = "posix32_32" ∨ stripSpaces flag = "posix64_32" → ts.NanoOk)
    (before1970 : stripSpaces flag = "posix32_32" → ts.sec = -1 → ts.nsec = 0)
    (ad : -62135596800 ≤ ts.sec) (accepted : t0.new T flag ts = .ret (t, none)) :
    ∃ b r text, t.put T = .ret b ∧ t1.get T b = .ret (r, none) ∧ r.printText T = .ret (utf8 text) ∧
      ShowsMoment text ts.sec (fractionOf (stripSpaces flag) ts.nsec) := by
  obtain ⟨b, h1, _, h2⟩ := C17_wire_partial T wf t0 t1 t flag ts readable
    (fun h => ⟨nano (.inl h), before1970 h⟩) accepted
  obtain ⟨text, h3, h4⟩ := C118_shows_partial T wf t0 t flag ts readable ok nano ad accepted
  exact ⟨b, t, text, h1, h2, h3, h4⟩

example := C118_received_partial shipped (by decide +kernel) .zero .zero _ "posix32_32" ⟨1700000000, 123456789⟩ (by decide +kernel)
  (by decide +kernel) (fun _ => by decide +kernel) (by decide +kernel) (by decide +kernel) rfl

/-- **C118, any received stamp.** Whatever bytes a stamp is read from, also with a count of nanoseconds that is a second and
more: what is printed is the moment its numbers add up to. (From the year 1 on, and not so far ahead that the count of
seconds in the library overflows, which is not modelled.) -/
theorem C118_any_stamp (T : Tables) (t1 r : Timestamp) (b : List Byte) (got : t1.get T b = .ret (r, none))
    (ad : -62135596800 ≤ r.secs.toInt ∧ r.secs.toInt < 2 ^ 62) :
    ∃ (text kind : String) (sec : Int) (nsec : Nat), kind ∈ readableTypes ∧ getTStr T r.header = .ret kind ∧ r.printText T = .ret (utf8 text) ∧
      nsec < 1000000000 ∧
      sec * 1000000000 + (nsec : Int) =
        ((if kind = "epoch2000_32" then 946684800 else 0) + r.secs.toInt) * 1000000000 + r.nsecs.toInt ∧
      ShowsMoment text sec (fractionOf kind nsec) := by
  have main : ∀ (base : Int) (s n : BitVec 64), s.toInt = base + r.secs.toInt → 0 ≤ base → n = r.nsecs → 0 ≤ n.toInt →
      ∀ millis, (GoTime.ofUnix s n).nsec < 1000000000 ∧
      (GoTime.ofUnix s n).sec * 1000000000 + ((GoTime.ofUnix s n).nsec : Int) =
        (base + r.secs.toInt) * 1000000000 + r.nsecs.toInt ∧
      ShowsMoment ((GoTime.ofUnix s n).format millis) (GoTime.ofUnix s n).sec
        (if millis then "." ++ padded '0' 3 ((GoTime.ofUnix s n).nsec / 1000000) else "") := by
    intro base s n hs hb hn h0 millis
    refine ⟨?_, ?_, format_shows _ ?_ millis⟩
    · show (n.toInt % 1000000000).toNat < _
      omega
    · show (s.toInt + n.toInt / 1000000000) * 1000000000 + ((n.toInt % 1000000000).toNat : Int) = _
      rw [hs, ← hn]
      omega
    · show _ ≤ s.toInt + n.toInt / 1000000000
      omega
  unfold Timestamp.get at got
  obtain ⟨hd, _, got⟩ := Out.bind_eq_ret got
  obtain ⟨k, hk, got⟩ := Out.bind_eq_ret got
  have small : ∀ n : BitVec 32, 0 ≤ (n.setWidth 64).toInt ∧ (n.setWidth 64).toInt < 2 ^ 32 := by
    intro n
    have h1 : (n.setWidth 64).toNat = n.toNat := by
      rw [BitVec.toNat_setWidth, Nat.mod_eq_of_lt]; have := n.isLt; omega
    have h2 : (n.setWidth 64).toInt = (n.toNat : Int) := by
      rw [BitVec.toInt_eq_toNat_of_lt, h1]
      rw [h1]; have := n.isLt; omega
    have := n.isLt
    omega
  have finish : ∀ (base : Int) (s : BitVec 64) (millis : Bool), r.header = hd → s.toInt = base + r.secs.toInt → 0 ≤ base →
      base = (if k = "epoch2000_32" then 946684800 else 0) → 0 ≤ r.nsecs.toInt → k ∈ readableTypes →
      (∀ nsec, fractionOf k nsec = if millis then "." ++ padded '0' 3 (nsec / 1000000) else "") →
      r.printText T = .ret (utf8 ((GoTime.ofUnix s r.nsecs).format millis)) →
      ∃ (text kind : String) (sec : Int) (nsec : Nat), kind ∈ readableTypes ∧ getTStr T r.header = .ret kind ∧ r.printText T = .ret (utf8 text) ∧
      nsec < 1000000000 ∧
      sec * 1000000000 + (nsec : Int) =
        ((if kind = "epoch2000_32" then 946684800 else 0) + r.secs.toInt) * 1000000000 + r.nsecs.toInt ∧
      ShowsMoment text sec (fractionOf kind nsec) := by
    intro base s millis hh hs hb hbase hn hmem hf hp
    obtain ⟨m1, m2, m3⟩ := main base s r.nsecs hs hb rfl hn millis
    refine ⟨_, k, (GoTime.ofUnix s r.nsecs).sec, (GoTime.ofUnix s r.nsecs).nsec, hmem, hh ▸ hk, hp, m1, ?_, ?_⟩
    · rw [← hbase]; exact m2
    · rw [hf]; exact m3
  have print : r.header = hd → r.printText T =
      if k = "posix32" ∨ k = "posix64" then .ret (utf8 ((GoTime.ofUnix r.secs r.nsecs).format false))
      else if k = "posix32_32" ∨ k = "posix64_32" then .ret (utf8 ((GoTime.ofUnix r.secs r.nsecs).format true))
      else if k = "epoch2000_32" then .ret (utf8 ((GoTime.ofUnix (946684800#64 + r.secs) r.nsecs).format false))
      else .ret r.loc := by
    intro hh
    unfold Timestamp.printText
    rw [hh, hk, Out.ret_bind]
    rfl
  by_cases c1 : k = "posix32"
  · rw [if_pos c1] at got
    obtain ⟨_, _, got⟩ := Out.bind_eq_ret got
    obtain ⟨v, _, got⟩ := Out.bind_eq_ret got
    cases got
    refine finish 0 _ false rfl (Int.zero_add _).symm (Int.le_refl _) ?_ (by simp) ?_ ?_ (by rw [print rfl]; simp [c1])
    all_goals (subst c1; first | decide | (intro n; rfl))
  rw [if_neg c1] at got
  by_cases c2 : k = "posix64"
  · rw [if_pos c2] at got
    obtain ⟨_, _, got⟩ := Out.bind_eq_ret got
    obtain ⟨v, _, got⟩ := Out.bind_eq_ret got
    cases got
    refine finish 0 _ false rfl (Int.zero_add _).symm (Int.le_refl _) ?_ (by simp) ?_ ?_ (by rw [print rfl]; simp [c2])
    all_goals (subst c2; first | decide | (intro n; rfl))
  rw [if_neg c2] at got
  by_cases c3 : k = "posix32_32"
  · rw [if_pos c3] at got
    obtain ⟨_, _, got⟩ := Out.bind_eq_ret got
    obtain ⟨v, _, got⟩ := Out.bind_eq_ret got
    obtain ⟨_, _, got⟩ := Out.bind_eq_ret got
    obtain ⟨n, _, got⟩ := Out.bind_eq_ret got
    cases got
    refine finish 0 _ true rfl (Int.zero_add _).symm (Int.le_refl _) ?_ (small n).1 ?_ ?_ (by rw [print rfl]; simp [c3])
    all_goals (subst c3; first | decide | (intro n; rfl))
  rw [if_neg c3] at got
  by_cases c4 : k = "posix64_32"
  · rw [if_pos c4] at got
    obtain ⟨_, _, got⟩ := Out.bind_eq_ret got
    obtain ⟨v, _, got⟩ := Out.bind_eq_ret got
    obtain ⟨_, _, got⟩ := Out.bind_eq_ret got
    obtain ⟨n, _, got⟩ := Out.bind_eq_ret got
    cases got
    refine finish 0 _ true rfl (Int.zero_add _).symm (Int.le_refl _) ?_ (small n).1 ?_ ?_ (by rw [print rfl]; simp [c4])
    all_goals (subst c4; first | decide | (intro n; rfl))
  rw [if_neg c4] at got
  by_cases c5 : k = "epoch2000_32"
  · rw [if_pos c5] at got
    obtain ⟨_, _, got⟩ := Out.bind_eq_ret got
    obtain ⟨v, _, got⟩ := Out.bind_eq_ret got
    cases got
    refine finish 946684800 (946684800#64 + v.setWidth 64) false rfl ?_ (by omega) ?_ (by simp) ?_ ?_
      (by rw [print rfl]; simp [c5])
    · have := small v
      rw [BitVec.toInt_add]
      show ((946684800 : Int) + (v.setWidth 64).toInt).bmod (2 ^ 64) = 946684800 + (v.setWidth 64).toInt
      rw [Int.bmod_eq_of_le] <;> omega
    all_goals (subst c5; first | decide | (intro n; rfl))
  rw [if_neg c5] at got
  obtain ⟨_, _, got⟩ := Out.bind_eq_ret got
  cases got

/-- A stamp on the wire with 1 500 000 000 nanoseconds: it is a second later. -/
example : (do let (r, _) ← Timestamp.get shipped ⟨0, 0, 0, [], ""⟩ [3, 0, 0, 0, 10, 0x59, 0x68, 0x2f, 0]; r.printText shipped) =
    .ret (utf8 "Thu Jan  1 00:00:11.500 1970 UTC") := by
  decide +kernel

/-! ## Different moments -/

theorem monthsDays_mono (y : Nat) {a b : Nat} (h : a ≤ b) : monthsDays y a ≤ monthsDays y b := by
  induction b with
  | zero => rw [Nat.le_zero.1 h]; exact Nat.le_refl _
  | succ b ih =>
    rcases Nat.eq_or_lt_of_le h with rfl | h
    · exact Nat.le_refl _
    · exact Nat.le_trans (ih (by omega)) (by simp only [monthsDays]; omega)

theorem digits_le {n k : Nat} (h : n < 10 ^ k) (hk : 0 < k) : (toString n).length ≤ k :=
  (Nat.length_repr_le_iff hk).2 h

theorem padded_length {c : Char} {width n : Nat} (h : n < 10 ^ width) (hk : 0 < width) :
    (padded c width n).toList.length = width := by
  have := digits_le h hk
  unfold padded List.leftpad
  rw [String.toList_ofList, List.length_append, List.length_replicate, String.length_toList]
  omega

theorem padded_value {c : Char} (hc : c.toNat ≤ '0'.toNat) (width n : Nat) :
    Nat.ofDigitChars 10 (padded c width n).toList 0 = n := by
  have z : ∀ k, Nat.ofDigitChars 10 (List.replicate k c) 0 = 0 := by
    intro k
    induction k with
    | zero => rfl
    | succ k ih =>
      rw [List.replicate_succ, Nat.ofDigitChars_cons, Nat.sub_eq_zero_of_le hc]
      exact ih
  unfold padded List.leftpad
  rw [String.toList_ofList, Nat.ofDigitChars_append, z]
  show Nat.ofDigitChars 10 (Nat.repr n).toList 0 = n
  rw [Nat.toList_repr]
  exact Nat.ofDigitChars_ten_toDigits

theorem padded_inj {c : Char} (hc : c.toNat ≤ '0'.toNat) {width n m : Nat}
    (h : (padded c width n).toList = (padded c width m).toList) : n = m := by
  rw [← padded_value hc width n, h, padded_value hc]

theorem month_names : ∀ a < 12, ∀ b < 12,
    (["Jan", "Feb", "Mar", "Apr", "May", "Jun", "Jul", "Aug", "Sep", "Oct", "Nov", "Dec"].getD a "").toList =
    (["Jan", "Feb", "Mar", "Apr", "May", "Jun", "Jul", "Aug", "Sep", "Oct", "Nov", "Dec"].getD b "").toList → a = b := by
  decide +kernel

theorem month_names_length : ∀ a < 12,
    (["Jan", "Feb", "Mar", "Apr", "May", "Jun", "Jul", "Aug", "Sep", "Oct", "Nov", "Dec"].getD a "").toList.length
      = 3 := by
  decide +kernel

theorem day_names_length : ∀ a < 7,
    (["Mon", "Tue", "Wed", "Thu", "Fri", "Sat", "Sun"].getD a "").toList.length = 3 := by
  decide +kernel

theorem monthLength_le (y m : Nat) : monthLength y m ≤ 31 := by
  unfold monthLength; split <;> (try split) <;> omega

/-- The text of a moment tells the moment. -/
theorem shows_inj {text f1 f2 : String} {s1 s2 : Int} (long : f1.toList.length = f2.toList.length)
    (h1 : ShowsMoment text s1 f1) (h2 : ShowsMoment text s2 f2) : s1 = s2 ∧ f1 = f2 := by
  obtain ⟨y, m, d, h, mi, s, ⟨a1, a2, a3, a4, a5⟩, b1, b2, b3, e, t⟩ := h1
  obtain ⟨y', m', d', h', mi', s', ⟨a1', a2', a3', a4', a5'⟩, b1', b2', b3', e', t'⟩ := h2
  rw [t] at t'
  have l := congrArg String.toList t'
  unfold dateText at l
  simp only [String.toList_append, List.append_assoc] at l
  have d1 := monthLength_le y m
  have d2 := monthLength_le y' m'
  have p : ∀ {a b : Nat} (c : Char), a < 100 → b < 100 →
      (padded c 2 a).toList.length = (padded c 2 b).toList.length := by
    intro a b c ha hb
    rw [padded_length ha (by omega), padded_length hb (by omega)]
  obtain ⟨-, l⟩ := List.append_inj l (by
    rw [day_names_length _ (Nat.mod_lt _ (by omega)), day_names_length _ (Nat.mod_lt _ (by omega))])
  obtain ⟨-, l⟩ := List.append_inj l rfl
  obtain ⟨em, l⟩ := List.append_inj l (by rw [month_names_length _ (by omega), month_names_length _ (by omega)])
  obtain ⟨-, l⟩ := List.append_inj l rfl
  obtain ⟨ed, l⟩ := List.append_inj l (p _ (by omega) (by omega))
  obtain ⟨-, l⟩ := List.append_inj l rfl
  obtain ⟨eh, l⟩ := List.append_inj l (p _ (by omega) (by omega))
  obtain ⟨-, l⟩ := List.append_inj l rfl
  obtain ⟨ei, l⟩ := List.append_inj l (p _ (by omega) (by omega))
  obtain ⟨-, l⟩ := List.append_inj l rfl
  obtain ⟨es, l⟩ := List.append_inj l (p _ (by omega) (by omega))
  obtain ⟨ef, l⟩ := List.append_inj l long
  obtain ⟨-, l⟩ := List.append_inj l rfl
  obtain ⟨ey, -⟩ := List.append_inj' l rfl
  have em := month_names _ (by omega) _ (by omega) em
  have ed := padded_inj (by decide) ed
  have eh := padded_inj (by decide) eh
  have ei := padded_inj (by decide) ei
  have es := padded_inj (by decide) es
  have ey := padded_inj (by decide) ey
  obtain rfl : m = m' := by omega
  subst ed eh ei es ey
  exact ⟨by omega, String.toList_inj.1 ef⟩

theorem fractionOf_length (kind : String) {n : Nat} (h : n < 1000000000) :
    (fractionOf kind n).toList.length =
      if kind = "posix32_32" ∨ kind = "posix64_32" then 4 else 0 := by
  unfold fractionOf
  split
  · rw [String.toList_append, List.length_append, padded_length (by omega) (by omega)]; rfl
  · rfl

/-- The text is 28 characters long until the year 9999, without the fraction. -/
theorem shows_length {text f : String} {s : Int} (h : ShowsMoment text s f) (late : s < 253402300800) :
    text.toList.length = 28 + f.toList.length := by
  obtain ⟨y, m, d, hh, mi, se, ⟨a1, a2, a3, a4, a5⟩, b1, b2, b3, e, t⟩ := h
  have d1 := monthLength_le y m
  have hy : y < 10000 := by
    apply Nat.lt_of_not_le
    intro hy
    have := yearsDays_eq (y - 1)
    unfold dayNumber at e
    omega
  rw [t]
  unfold dateText
  simp only [String.toList_append, List.length_append]
  rw [day_names_length _ (Nat.mod_lt _ (by omega)), month_names_length _ (by omega), padded_length (by omega) (by omega),
    padded_length (by omega) (by omega), padded_length (by omega) (by omega), padded_length (by omega) (by omega),
    padded_length (by omega) (by omega)]
  simp
  omega

theorem toList_loop_eq (b : ByteArray) (i : Nat) (r : List UInt8) :
    ByteArray.toList.loop b i r = r.reverse ++ b.data.toList.drop i := by
  unfold ByteArray.toList.loop
  split
  · rename_i h
    rw [toList_loop_eq b (i + 1) _, List.reverse_cons, List.append_assoc]
    congr 1
    have h' : i < b.data.toList.length := h
    rw [List.drop_eq_getElem_cons h']
    show b.get! i :: _ = _
    congr 1
    show b.data[i]! = _
    rw [getElem!_pos b.data i h]
    rfl
  · rename_i h
    rw [List.drop_eq_nil_of_le (by have : b.size = b.data.toList.length := rfl; omega), List.append_nil]
termination_by b.size - i

theorem utf8_inj {a b : String} (h : utf8 a = utf8 b) : a = b := by
  unfold utf8 at h
  have h := List.map_inj_right (f := UInt8.toBitVec) (fun _ _ e => UInt8.toBitVec_inj.1 e) |>.1 h
  change ByteArray.toList.loop a.toByteArray 0 [] = ByteArray.toList.loop b.toByteArray 0 [] at h
  rw [toList_loop_eq, toList_loop_eq] at h
  exact String.toByteArray_inj.1 (ByteArray.ext (Array.toList_inj.1 h))

/-- **C118** (partial: without `localinterp`.) Two moments of different seconds, or for the types with nanoseconds of
different thousandths, print differently. -/
theorem C118_distinct_partial (T : Tables) (wf : T.ts.WF) (t0 t t' : Timestamp) (flag : String) (ts ts' : GoTime)
    (readable : stripSpaces flag ∈ readableTypes) (ok : ts.Ok ∧ ts'.Ok)
    (nano : stripSpaces flag = "posix32_32" ∨ stripSpaces flag = "posix64_32" → ts.NanoOk ∧ ts'.NanoOk)
    (ad : -62135596800 ≤ ts.sec ∧ -62135596800 ≤ ts'.sec) (accepted : t0.new T flag ts = .ret (t, none))
    (accepted' : t0.new T flag ts' = .ret (t', none)) (same : t.printText T = t'.printText T) :
    ts.sec = ts'.sec ∧ (stripSpaces flag = "posix32_32" ∨ stripSpaces flag = "posix64_32" →
      ts.nsec / 1000000 = ts'.nsec / 1000000) := by
  obtain ⟨x, h1, h2⟩ := C118_shows_partial T wf t0 t flag ts readable ok.1 (fun h => (nano h).1) ad.1 accepted
  obtain ⟨x', h1', h2'⟩ := C118_shows_partial T wf t0 t' flag ts' readable ok.2 (fun h => (nano h).2) ad.2 accepted'
  rw [h1, h1'] at same
  obtain rfl := utf8_inj (Out.ret.inj same)
  obtain ⟨a, b⟩ := shows_inj (by rw [fractionOf_length _ ok.1.2.2, fractionOf_length _ ok.2.2.2]) h2 h2'
  refine ⟨a, fun h => ?_⟩
  unfold fractionOf at b
  rw [if_pos h, if_pos h] at b
  have := congrArg String.toList b
  rw [String.toList_append, String.toList_append] at this
  exact padded_inj (by decide) (List.append_cancel_left this)

/-- **C118** (partial: without `localinterp`.) Until the year 9999 the text has 28 characters, with thousandths 32. -/
theorem C118_width_partial (T : Tables) (wf : T.ts.WF) (t0 t : Timestamp) (flag : String) (ts : GoTime)
    (readable : stripSpaces flag ∈ readableTypes) (ok : ts.Ok)
    (nano : stripSpaces flag = "posix32_32" ∨ stripSpaces flag = "posix64_32" → ts.NanoOk)
    (ad : -62135596800 ≤ ts.sec) (late : ts.sec < 253402300800) (accepted : t0.new T flag ts = .ret (t, none)) :
    ∃ text : String, t.printText T = .ret (utf8 text) ∧
      text.length = if stripSpaces flag = "posix32_32" ∨ stripSpaces flag = "posix64_32" then 32 else 28 := by
  obtain ⟨x, h1, h2⟩ := C118_shows_partial T wf t0 t flag ts readable ok nano ad accepted
  refine ⟨x, h1, ?_⟩
  rw [← String.length_toList, shows_length h2 late, fractionOf_length _ ok.2.2]
  split <;> rfl

/-- **C118** fails for `localinterp`: every moment prints the same word. -/
theorem C118_counterexample (t0 : Timestamp) (ts : GoTime) :
    ∃ t, t0.new shipped "localinterp" ts = .ret (t, none) ∧ t.printText shipped = .ret (utf8 "localinterp") :=
  ⟨⟨0, t0.secs, t0.nsecs, utf8 "localinterp", "localinterp"⟩, rfl, by
    unfold Timestamp.printText
    simp only [show getTStr shipped 0 = .ret "localinterp" from rfl, Out.ret_bind]
    rw [if_neg (by decide), if_neg (by decide), if_neg (by decide)]
    rfl⟩

/-! ## Cases -/

example : ∃ t, Timestamp.zero.new shipped "posix32_32" ⟨1700000000, 123456789⟩ = .ret (t, none) ∧
    t.printText shipped = .ret (utf8 "Tue Nov 14 22:13:20.123 2023 UTC") := ⟨_, rfl, rfl⟩

/-- The leap day of 2000, as seconds since 2000. -/
example : ∃ t, Timestamp.zero.new shipped "epoch2000_32" ⟨951782400, 0⟩ = .ret (t, none) ∧
    t.printText shipped = .ret (utf8 "Tue Feb 29 00:00:00 2000 UTC") := ⟨_, rfl, rfl⟩

/-- A moment before 1970. -/
example : ∃ t, Timestamp.zero.new shipped "posix64" ⟨-86400, 5⟩ = .ret (t, none) ∧
    t.printText shipped = .ret (utf8 "Wed Dec 31 00:00:00 1969 UTC") := ⟨_, rfl, rfl⟩

example : (⟨1700000000, 123456789⟩ : GoTime).NanoOk ∧ (-62135596800 : Int) ≤ 1700000000 := by decide +kernel

end Saratoga
