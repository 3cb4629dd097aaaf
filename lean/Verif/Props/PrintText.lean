import Verif.Lemmas.PrintText
import Verif.Props.Print
import Verif.Props.Calendar
/-!
# Property C122: printed frames tell their contents apart

The text a frame prints to should tell what is in the frame: two frames that print alike have the same contents, as far
as the form shows them (a data frame shows the length of its payload, the short form of a status the number of holes).
-/
namespace Saratoga

/-! ## Helpers -/

theorem bind_ret {α β : Type} {x : Out α} {f : α → Out β} {b : β} (h : (x >>= f) = .ret b) :
    ∃ a, x = .ret a ∧ f a = .ret b := by
  cases x with
  | ret a => exact ⟨a, rfl, h⟩
  | fatal => cases h
  | panic => cases h

theorem nl : utf8 "\n" = [10#8] := by decide +kernel

theorem toNat_inj32 {a b : BitVec 32} (h : a.toNat = b.toNat) : a = b := BitVec.eq_of_toNat_eq h

/-- The time stamps print the same, if there are any. -/
def SameStamp (T : Tables) (h : BitVec 32) (t t' : Timestamp) : Prop :=
  getStr T h "reqtstamp" = .ret "yes" → t.printText T = t'.printText T

theorem stampLine_cases {T : Tables} {label : String} {h : BitVec 32} {t : Timestamp} {s : List Byte}
    (e : stampLine T label h t = .ret s) :
    (getStr T h "reqtstamp" ≠ .ret "yes" ∧ s = []) ∨
    (getStr T h "reqtstamp" = .ret "yes" ∧ ∃ x, t.printText T = .ret x ∧ s = utf8 label ++ x ++ [10#8]) := by
  unfold stampLine at e
  obtain ⟨rt, h1, h2⟩ := bind_ret e
  by_cases hy : rt = "yes"
  · subst hy
    rw [if_pos rfl] at h2
    obtain ⟨x, h3, h4⟩ := bind_ret h2
    cases h4
    exact .inr ⟨h1, x, h3, by rw [nl]⟩
  · rw [if_neg hy] at h2
    cases h2
    exact .inl ⟨fun h => hy (Out.ret.inj (h1.symm.trans h)), rfl⟩

/-- Stamps followed by text of one line. -/
theorem stampLine_inj {T : Tables} {label : String} {h : BitVec 32} {t t' : Timestamp} {s s' r r' : List Byte}
    (e : stampLine T label h t = .ret s) (e' : stampLine T label h t' = .ret s') (o : OneLine r) (o' : OneLine r')
    (eq : s ++ r = s' ++ r') : SameStamp T h t t' ∧ r = r' := by
  rcases stampLine_cases e with ⟨n, rfl⟩ | ⟨y, x, hx, rfl⟩
  · rcases stampLine_cases e' with ⟨_, rfl⟩ | ⟨y', _⟩
    · exact ⟨fun h => absurd h n, eq⟩
    · exact absurd y' n
  · rcases stampLine_cases e' with ⟨n, _⟩ | ⟨_, x', hx', rfl⟩
    · exact absurd y n
    · have eq : (utf8 label ++ x) ++ 10#8 :: r = (utf8 label ++ x') ++ 10#8 :: r' := by simpa using eq
      obtain ⟨e1, e2⟩ := lastLine_inj eq o o'
      have e1 := List.append_cancel_left e1
      exact ⟨fun _ => by rw [hx, hx', e1], e2⟩

/-- Stamps of one line. -/
theorem stampLine_inj_left {T : Tables} {label : String} {h : BitVec 32} {t t' : Timestamp} {s s' r r' : List Byte}
    (e : stampLine T label h t = .ret s) (e' : stampLine T label h t' = .ret s')
    (o : ∀ x, t.printText T = .ret x → OneLine x) (o' : ∀ x, t'.printText T = .ret x → OneLine x)
    (eq : s ++ r = s' ++ r') : SameStamp T h t t' ∧ r = r' := by
  rcases stampLine_cases e with ⟨n, rfl⟩ | ⟨y, x, hx, rfl⟩
  · rcases stampLine_cases e' with ⟨_, rfl⟩ | ⟨y', _⟩
    · exact ⟨fun h => absurd h n, eq⟩
    · exact absurd y' n
  · rcases stampLine_cases e' with ⟨n, _⟩ | ⟨_, x', hx', rfl⟩
    · exact absurd y n
    · have eq : utf8 label ++ (x ++ 10#8 :: r) = utf8 label ++ (x' ++ 10#8 :: r') := by simpa using eq
      obtain ⟨e1, e2⟩ := line_inj (List.append_cancel_left eq) (o x hx) (o' x' hx')
      exact ⟨fun _ => by rw [hx, hx', e1], e2⟩

/-! ### Dates are one line -/

theorem utf8_append (a b : String) : utf8 (a ++ b) = utf8 a ++ utf8 b := by
  have t : ∀ s : String, utf8 s = s.toByteArray.data.toList.map UInt8.toBitVec := by
    intro s
    unfold utf8
    change (ByteArray.toList.loop s.toByteArray 0 []).map _ = _
    rw [toList_loop_eq]
    rfl
  rw [t, t, t, String.toByteArray_append]
  simp

theorem oneLine_chars (l : List Char) (h : ∀ c ∈ l, OneLine (utf8 (String.ofList [c]))) : OneLine (utf8 (String.ofList l)) := by
  induction l with
  | nil => decide +kernel
  | cons c l ih =>
    have : String.ofList (c :: l) = String.ofList [c] ++ String.ofList l := by
      rw [← String.ofList_append]; rfl
    rw [this, utf8_append]
    exact oneLine_append (h c List.mem_cons_self) (ih fun d hd => h d (List.mem_cons_of_mem _ hd))

theorem oneLine_digit {c : Char} (h : c.isDigit = true) : OneLine (utf8 (String.ofList [c])) := by
  have r : 48 ≤ c.toNat ∧ c.toNat ≤ 57 := by
    simp only [Char.isDigit, Bool.and_eq_true, decide_eq_true_eq, ge_iff_le] at h
    exact h
  have all : ∀ k < 58, 48 ≤ k → OneLine (utf8 (String.ofList [Char.ofNat k])) := by decide +kernel
  have := all c.toNat (by omega) r.1
  rwa [Char.ofNat_toNat] at this

theorem oneLine_filled {c : Char} (h : OneLine (utf8 (String.ofList [c]))) (width n : Nat) :
    OneLine (utf8 (filled c width n)) := by
  unfold filled
  rw [utf8_append]
  refine oneLine_append (oneLine_chars _ fun d hd => ?_) ?_
  · rw [(List.mem_replicate.1 hd).2]; exact h
  · have : toString n = String.ofList (toString n).toList := by rw [String.ofList_toList]
    rw [this]
    refine oneLine_chars _ fun d hd => oneLine_digit ?_
    have : d ∈ (Nat.repr n).toList := hd
    rw [Nat.toList_repr] at this
    exact Nat.isDigit_of_mem_toDigits (by omega) (by omega) this

theorem oneLine_getD {l : List String} (h : ∀ s ∈ l, OneLine (utf8 s)) (i : Nat) : OneLine (utf8 (l.getD i "")) := by
  rw [List.getD_eq_getElem?_getD]
  cases e : l[i]? with
  | none => decide +kernel
  | some s => exact h s (List.mem_of_getElem? e)

theorem oneLine_format (t : GoTime) (millis : Bool) : OneLine (utf8 (t.format millis)) := by
  have z := oneLine_filled (c := '0') (by decide +kernel)
  have b := oneLine_filled (c := ' ') (by decide +kernel)
  unfold GoTime.format
  simp only [utf8_append]
  refine oneLine_append (oneLine_append (oneLine_append (oneLine_append (oneLine_append (oneLine_append (oneLine_append
    (oneLine_append (oneLine_append (oneLine_append (oneLine_append (oneLine_append (oneLine_append (oneLine_append
    (oneLine_getD (by decide +kernel) _) (by decide +kernel)) (oneLine_getD (by decide +kernel) _)) (by decide +kernel))
    (b _ _)) (by decide +kernel)) (z _ _)) (by decide +kernel)) (z _ _)) (by decide +kernel)) (z _ _)) ?_)
    (by decide +kernel)) (z _ _)) (by decide +kernel)
  cases millis
  · rw [if_neg (by decide)]; decide +kernel
  · rw [if_pos rfl, utf8_append]
    exact oneLine_append (by decide +kernel) (z _ _)

/-- A stamp that is not `localinterp` prints in one line. -/
theorem stamp_oneLine (T : Tables) (t : Timestamp)
    (dated : ∃ k ∈ ["posix32", "posix64", "posix32_32", "posix64_32", "epoch2000_32"], getTStr T t.header = .ret k)
    (x : List Byte) (h : t.printText T = .ret x) : OneLine x := by
  obtain ⟨k, hk, hg⟩ := dated
  unfold Timestamp.printText at h
  rw [hg, Out.ret_bind] at h
  split at h
  · cases h; exact oneLine_format _ _
  · split at h
    · cases h; exact oneLine_format _ _
    · split at h
      · cases h; exact oneLine_format _ _
      · exfalso
        rename_i h1 h2 h3
        simp only [List.mem_cons, List.not_mem_nil, or_false] at hk
        rcases hk with rfl | rfl | rfl | rfl | rfl <;> simp at h1 h2 h3

/-! ## C122 -/

/-- The stamp is of one of the types that hold a time. -/
def Timestamp.HoldsTime (T : Tables) (t : Timestamp) : Prop :=
  ∃ k ∈ ["posix32", "posix64", "posix32_32", "posix64_32", "epoch2000_32"], getTStr T t.header = .ret k

/-- **C122** Beacons: both forms tell the header, the EID, and the free space of a beacon that has it. -/
theorem C122_beacon (T : Tables) (b b' : Beacon) (text : List Byte)
    (alike : (b.shortText T = .ret text ∧ b'.shortText T = .ret text) ∨
      (b.printText T = .ret text ∧ b'.printText T = .ret text)) :
    b.header = b'.header ∧ b.eid = b'.eid ∧
      (getStr T b.header "freespace" = .ret "yes" → b.freespace = b'.freespace) := by
  have tail : ∀ fs r r', b.header = b'.header → getStr T b.header "freespace" = .ret fs →
      freeLine b fs ++ (utf8 "  EID:" ++ r) = freeLine b' fs ++ (utf8 "  EID:" ++ r') →
      r = r' ∧ (getStr T b.header "freespace" = .ret "yes" → b.freespace = b'.freespace) := by
    intro fs r r' eh hf h
    unfold freeLine at h
    by_cases hy : fs = "yes"
    · rw [if_pos hy, if_pos hy] at h
      simp only [List.append_assoc] at h
      obtain ⟨e, h⟩ := decimal_inj (List.append_cancel_left h) (stops_append _ (by decide +kernel))
        (stops_append _ (by decide +kernel))
      exact ⟨List.append_cancel_left (List.append_cancel_left h), fun _ => BitVec.eq_of_toNat_eq e⟩
    · rw [if_neg hy, if_neg hy] at h
      exact ⟨List.append_cancel_left h, fun h => absurd (Out.ret.inj (hf.symm.trans h)) hy⟩
  rcases alike with ⟨h, h'⟩ | ⟨h, h'⟩
  · obtain ⟨fs, hf, h⟩ := bind_ret h
    obtain ⟨fs', hf', h'⟩ := bind_ret h'
    have eq := Out.ret.inj (h.trans h'.symm)
    simp only [List.append_assoc] at eq
    obtain ⟨e1, eq⟩ := hexadecimal_inj (List.append_cancel_left eq) (stops_append _ (by decide +kernel))
      (stops_append _ (by decide +kernel))
    have eh := toNat_inj32 e1
    rw [← eh, hf] at hf'
    cases hf'
    obtain ⟨e2, e3⟩ := tail fs _ _ eh hf (List.append_cancel_left eq)
    exact ⟨eh, e2, e3⟩
  · obtain ⟨fl, hl, h⟩ := bind_ret h
    obtain ⟨fl', hl', h'⟩ := bind_ret h'
    obtain ⟨fs, hf, h⟩ := bind_ret h
    obtain ⟨fs', hf', h'⟩ := bind_ret h'
    have eq := Out.ret.inj (h.trans h'.symm)
    simp only [List.append_assoc] at eq
    obtain ⟨e1, eq⟩ := hexadecimal_inj (List.append_cancel_left eq) (stops_append _ (by decide +kernel))
      (stops_append _ (by decide +kernel))
    have eh := toNat_inj32 e1
    rw [← eh, hf] at hf'
    cases hf'
    rw [← eh, hl] at hl'
    cases hl'
    obtain ⟨e2, e3⟩ := tail fs _ _ eh hf (List.append_cancel_left (List.append_cancel_left eq))
    exact ⟨eh, e2, e3⟩

example : ((⟨0x20000000#32, 5, [65#8]⟩ : Beacon).shortText shipped).returns := by decide +kernel

/-- **C122** Data frames: both forms tell the header, the session, the offset, the length of the payload and the time
of the stamp. -/
theorem C122_data (T : Tables) (d d' : Data) (text : List Byte)
    (alike : (d.shortText T = .ret text ∧ d'.shortText T = .ret text) ∨
      (d.printText T = .ret text ∧ d'.printText T = .ret text)) :
    d.header = d'.header ∧ d.session = d'.session ∧ d.offset = d'.offset ∧ d.payload.length = d'.payload.length ∧
      SameStamp T d.header d.tstamp d'.tstamp := by
  rcases alike with ⟨h, h'⟩ | ⟨h, h'⟩
  · obtain ⟨st, hs, h⟩ := bind_ret h
    obtain ⟨st', hs', h'⟩ := bind_ret h'
    have eq := Out.ret.inj (h.trans h'.symm)
    simp only [List.append_assoc] at eq
    obtain ⟨e1, eq⟩ := hexadecimal_inj (List.append_cancel_left eq) (stops_append _ (by decide +kernel))
      (stops_append _ (by decide +kernel))
    have eh := toNat_inj32 e1
    rw [← eh] at hs'
    have one : ∀ x : Data, OneLine (utf8 "  session:" ++ (decimal x.session.toNat ++ (utf8 ",  offset:" ++
        (decimal x.offset.toNat ++ (utf8 ",  paylen:" ++ decimal x.payload.length))))) := by
      intro x
      exact oneLine_append (by decide +kernel) (oneLine_append (oneLine_decimal _) (oneLine_append (by decide +kernel)
        (oneLine_append (oneLine_decimal _) (oneLine_append (by decide +kernel) (oneLine_decimal _)))))
    obtain ⟨es, eq⟩ := stampLine_inj hs hs' (one d) (one d') (List.append_cancel_left eq)
    obtain ⟨e2, eq⟩ := decimal_inj (List.append_cancel_left eq) (stops_append _ (by decide +kernel))
      (stops_append _ (by decide +kernel))
    obtain ⟨e3, eq⟩ := decimal_inj (List.append_cancel_left eq) (stops_append _ (by decide +kernel))
      (stops_append _ (by decide +kernel))
    exact ⟨eh, toNat_inj32 e2, BitVec.eq_of_toNat_eq e3, decimal_last (List.append_cancel_left eq), es⟩
  · obtain ⟨fl, hl, h⟩ := bind_ret h
    obtain ⟨fl', hl', h'⟩ := bind_ret h'
    obtain ⟨st, hs, h⟩ := bind_ret h
    obtain ⟨st', hs', h'⟩ := bind_ret h'
    have eq := Out.ret.inj (h.trans h'.symm)
    simp only [List.append_assoc] at eq
    obtain ⟨e1, eq⟩ := hexadecimal_inj (List.append_cancel_left eq) (stops_append _ (by decide +kernel))
      (stops_append _ (by decide +kernel))
    have eh := toNat_inj32 e1
    rw [← eh] at hs'
    rw [← eh, hl] at hl'
    cases hl'
    have one : ∀ x : Data, OneLine (utf8 "  session:" ++ (decimal x.session.toNat ++ (utf8 "  offset:" ++
        (decimal x.offset.toNat ++ (utf8 "  paylen : " ++ decimal x.payload.length))))) := by
      intro x
      exact oneLine_append (by decide +kernel) (oneLine_append (oneLine_decimal _) (oneLine_append (by decide +kernel)
        (oneLine_append (oneLine_decimal _) (oneLine_append (by decide +kernel) (oneLine_decimal _)))))
    obtain ⟨es, eq⟩ := stampLine_inj hs hs' (one d) (one d') (List.append_cancel_left (List.append_cancel_left eq))
    obtain ⟨e2, eq⟩ := decimal_inj (List.append_cancel_left eq) (stops_append _ (by decide +kernel))
      (stops_append _ (by decide +kernel))
    obtain ⟨e3, eq⟩ := decimal_inj (List.append_cancel_left eq) (stops_append _ (by decide +kernel))
      (stops_append _ (by decide +kernel))
    exact ⟨eh, toNat_inj32 e2, BitVec.eq_of_toNat_eq e3, decimal_last (List.append_cancel_left eq), es⟩

example : ((⟨0x23000000#32, 5, Timestamp.zero, 9, [65#8]⟩ : Data).shortText shipped).returns := by decide +kernel

theorem splitLit (s : String) (lit : List Byte) (h : utf8 s = 10#8 :: lit) (r : List Byte) :
    utf8 s ++ r = 10#8 :: (lit ++ r) := by rw [h]; rfl

/-- **C122** The short form of a status: header, session, progress, what it answers, the number of holes and the time
of the stamp. -/
theorem C122_status_short (T : Tables) (s s' : Status) (text : List Byte)
    (h : s.shortText T = .ret text) (h' : s'.shortText T = .ret text) :
    s.header = s'.header ∧ s.session = s'.session ∧ s.progress = s'.progress ∧ s.inrespto = s'.inrespto ∧
      s.holes.length = s'.holes.length ∧ SameStamp T s.header s.tstamp s'.tstamp := by
  obtain ⟨st, hs, h⟩ := bind_ret h
  obtain ⟨st', hs', h'⟩ := bind_ret h'
  obtain ⟨ec, hc, h⟩ := bind_ret h
  obtain ⟨ec', hc', h'⟩ := bind_ret h'
  have eq := Out.ret.inj (h.trans h'.symm)
  simp only [List.append_assoc] at eq
  obtain ⟨e1, eq⟩ := hexadecimal_inj (List.append_cancel_left eq) (stops_append _ (by decide +kernel))
    (stops_append _ (by decide +kernel))
  have eh := toNat_inj32 e1
  rw [← eh] at hs'
  rw [← eh, hc] at hc'
  cases hc'
  replace eq := List.append_cancel_left (List.append_cancel_left eq)
  obtain ⟨e2, eq⟩ := decimal_inj eq (stops_append _ (by decide +kernel)) (stops_append _ (by decide +kernel))
  replace eq := List.append_cancel_left eq
  -- the last three lines, from the end
  rw [splitLit "\n  numb holes:" (utf8 "  numb holes:") (by decide +kernel),
    splitLit "\n  numb holes:" (utf8 "  numb holes:") (by decide +kernel),
    splitLit "\n  inrespto:" (utf8 "  inrespto:") (by decide +kernel),
    splitLit "\n  inrespto:" (utf8 "  inrespto:") (by decide +kernel),
    splitLit "\n  progress:" (utf8 "  progress:") (by decide +kernel),
    splitLit "\n  progress:" (utf8 "  progress:") (by decide +kernel)] at eq
  have l3 : ∀ n, OneLine (utf8 "  numb holes:" ++ decimal n) := fun n =>
    oneLine_append (by decide +kernel) (oneLine_decimal n)
  have l2 : ∀ n, OneLine (utf8 "  inrespto:" ++ decimal n) := fun n =>
    oneLine_append (by decide +kernel) (oneLine_decimal n)
  have l1 : ∀ n, OneLine (utf8 "  progress:" ++ decimal n) := fun n =>
    oneLine_append (by decide +kernel) (oneLine_decimal n)
  have reassoc : ∀ (st : List Byte) (p i n : Nat), st ++ (utf8 "  errcode:" ++ (utf8 ec ++ 10#8 :: (utf8 "  progress:" ++
      (decimal p ++ 10#8 :: (utf8 "  inrespto:" ++ (decimal i ++ 10#8 :: (utf8 "  numb holes:" ++ decimal n))))))) =
      ((st ++ (utf8 "  errcode:" ++ utf8 ec) ++ 10#8 :: (utf8 "  progress:" ++ decimal p)) ++
        10#8 :: (utf8 "  inrespto:" ++ decimal i)) ++ 10#8 :: (utf8 "  numb holes:" ++ decimal n) := by
    intro st p i n
    simp
  rw [reassoc, reassoc] at eq
  obtain ⟨eq, e3⟩ := lastLine_inj eq (l3 _) (l3 _)
  obtain ⟨eq, e4⟩ := lastLine_inj eq (l2 _) (l2 _)
  obtain ⟨eq, e5⟩ := lastLine_inj eq (l1 _) (l1 _)
  have est : st ++ [] = st' ++ [] := by
    rw [List.append_nil, List.append_nil]
    exact List.append_cancel_right eq
  exact ⟨eh, toNat_inj32 e2, BitVec.eq_of_toNat_eq (decimal_last (List.append_cancel_left e5)),
    BitVec.eq_of_toNat_eq (decimal_last (List.append_cancel_left e4)), decimal_last (List.append_cancel_left e3),
    (stampLine_inj hs hs' (by decide) (by decide) est).1⟩

/-- **C122** (partial: stamps that hold a time.) The long form of a status tells all of it. Missing: stamps
`localinterp` with ends of lines in them, which no decoded frame has. -/
theorem C122_status_partial (T : Tables) (s s' : Status) (text : List Byte)
    (h : s.printText T = .ret text) (h' : s'.printText T = .ret text)
    (o : s.tstamp.HoldsTime T) (o' : s'.tstamp.HoldsTime T) :
    s.header = s'.header ∧ s.session = s'.session ∧ s.progress = s'.progress ∧ s.inrespto = s'.inrespto ∧
      s.holes = s'.holes ∧ SameStamp T s.header s.tstamp s'.tstamp := by
  obtain ⟨fl, hl, h⟩ := bind_ret h
  obtain ⟨fl', hl', h'⟩ := bind_ret h'
  obtain ⟨st, hs, h⟩ := bind_ret h
  obtain ⟨st', hs', h'⟩ := bind_ret h'
  have eq := Out.ret.inj (h.trans h'.symm)
  simp only [List.append_assoc] at eq
  obtain ⟨e1, eq⟩ := hexadecimal_inj (List.append_cancel_left eq) (stops_append _ (by decide +kernel))
    (stops_append _ (by decide +kernel))
  have eh := toNat_inj32 e1
  rw [← eh] at hs'
  rw [← eh, hl] at hl'
  cases hl'
  replace eq := List.append_cancel_left (List.append_cancel_left (List.append_cancel_left eq))
  obtain ⟨e2, eq⟩ := decimal_inj eq (stops_append _ (by decide +kernel)) (stops_append _ (by decide +kernel))
  obtain ⟨es, eq⟩ := stampLine_inj_left hs hs' (stamp_oneLine T _ o) (stamp_oneLine T _ o') (List.append_cancel_left eq)
  obtain ⟨e3, eq⟩ := decimal_inj (List.append_cancel_left eq) (stops_append _ (by decide +kernel))
    (stops_append _ (by decide +kernel))
  obtain ⟨e4, eq⟩ := decimal_inj (List.append_cancel_left eq) (stops_append _ (by decide +kernel))
    (stops_append _ (by decide +kernel))
  exact ⟨eh, toNat_inj32 e2, BitVec.eq_of_toNat_eq e3, BitVec.eq_of_toNat_eq e4,
    holeLines_inj _ _ _ (List.append_cancel_left eq), es⟩

/-- **C122** Requests: the header and the session are always told; a file name without end of line, and then the
authentication, too. Missing: names with ends of lines, see `C122_counterexample`. (`Print` never returns for a request
under the shipped tables, see C77; here for any.) -/
theorem C122_request_partial (T : Tables) (r r' : Request) (text : List Byte)
    (alike : (r.shortText = text ∧ r'.shortText = text) ∨ (r.printText T = .ret text ∧ r'.printText T = .ret text)) :
    r.header = r'.header ∧ r.session = r'.session ∧
      (OneLine r.fname → OneLine r'.fname → r.fname = r'.fname ∧ r.auth = r'.auth) := by
  have names : ∀ a b a' b' : List Byte, a ++ (utf8 "\n  auth:" ++ b) = a' ++ (utf8 "\n  auth:" ++ b') →
      OneLine a → OneLine a' → a = a' ∧ b = b' := by
    intro a b a' b' e o o'
    rw [splitLit "\n  auth:" (utf8 "  auth:") (by decide +kernel),
      splitLit "\n  auth:" (utf8 "  auth:") (by decide +kernel)] at e
    obtain ⟨e1, e2⟩ := line_inj e o o'
    exact ⟨e1, List.append_cancel_left e2⟩
  rcases alike with ⟨h, h'⟩ | ⟨h, h'⟩
  · have eq := h.trans h'.symm
    unfold Request.shortText at eq
    simp only [List.append_assoc] at eq
    obtain ⟨e1, eq⟩ := hexadecimal_inj (List.append_cancel_left eq) (stops_append _ (by decide +kernel))
      (stops_append _ (by decide +kernel))
    obtain ⟨e2, eq⟩ := decimal_inj (List.append_cancel_left eq) (stops_append _ (by decide +kernel))
      (stops_append _ (by decide +kernel))
    exact ⟨toNat_inj32 e1, toNat_inj32 e2, names _ _ _ _ (List.append_cancel_left eq)⟩
  · obtain ⟨fl, hl, h⟩ := bind_ret h
    obtain ⟨fl', hl', h'⟩ := bind_ret h'
    have eq := Out.ret.inj (h.trans h'.symm)
    simp only [List.append_assoc] at eq
    obtain ⟨e1, eq⟩ := hexadecimal_inj (List.append_cancel_left eq) (stops_append _ (by decide +kernel))
      (stops_append _ (by decide +kernel))
    have eh := toNat_inj32 e1
    rw [← eh, hl] at hl'
    cases hl'
    replace eq := List.append_cancel_left (List.append_cancel_left (List.append_cancel_left eq))
    obtain ⟨e2, eq⟩ := decimal_inj eq (stops_append _ (by decide +kernel)) (stops_append _ (by decide +kernel))
    exact ⟨eh, toNat_inj32 e2, names _ _ _ _ (List.append_cancel_left eq)⟩

/-- **C122** fails for requests: a name with an end of line in it can look like a name and an authentication. For every
name, authentication and further text there are two different requests that print alike. -/
theorem C122_counterexample (h session : BitVec 32) (name auth more : List Byte) :
    Request.shortText ⟨h, session, name, auth ++ utf8 "\n  auth:" ++ more⟩ =
      Request.shortText ⟨h, session, name ++ utf8 "\n  auth:" ++ auth, more⟩ ∧
    (⟨h, session, name, auth ++ utf8 "\n  auth:" ++ more⟩ : Request) ≠
      ⟨h, session, name ++ utf8 "\n  auth:" ++ auth, more⟩ := by
  constructor
  · simp [Request.shortText]
  · intro e
    have := congrArg (fun r : Request => r.fname.length) e
    simp only [List.length_append] at this
    have : (utf8 "\n  auth:").length = 8 := by decide +kernel
    omega

/-! ### Directory entries and metadata -/

/-- The stamps of the entry hold times. -/
def DirEnt.Dated (T : Tables) (d : DirEnt) : Prop := d.mtime.HoldsTime T ∧ d.ctime.HoldsTime T

theorem body_inj (T : Tables) (d d' : DirEnt) (o : d.Dated T) (o' : d'.Dated T) (b : List Byte)
    (h : d.bodyText T = .ret b) (h' : d'.bodyText T = .ret b) :
    d.path = d'.path ∧ d.size = d'.size ∧ d.mtime.printText T = d'.mtime.printText T ∧
      d.ctime.printText T = d'.ctime.printText T := by
  obtain ⟨m, hm, h⟩ := bind_ret h
  obtain ⟨m', hm', h'⟩ := bind_ret h'
  obtain ⟨c, hc, h⟩ := bind_ret h
  obtain ⟨c', hc', h'⟩ := bind_ret h'
  have eq := Out.ret.inj (h.trans h'.symm)
  simp only [List.append_assoc] at eq
  replace eq := List.append_cancel_left eq
  rw [splitLit "\n    Size:" (utf8 "    Size:") (by decide +kernel),
    splitLit "\n    Size:" (utf8 "    Size:") (by decide +kernel),
    splitLit "\n    Mtime:" (utf8 "    Mtime:") (by decide +kernel),
    splitLit "\n    Mtime:" (utf8 "    Mtime:") (by decide +kernel),
    splitLit "\n    Ctime:" (utf8 "    Ctime:") (by decide +kernel),
    splitLit "\n    Ctime:" (utf8 "    Ctime:") (by decide +kernel)] at eq
  have reassoc : ∀ (p : List Byte) (n : Nat) (m c : List Byte), p ++ 10#8 :: (utf8 "    Size:" ++ (decimal n ++
      10#8 :: (utf8 "    Mtime:" ++ (m ++ 10#8 :: (utf8 "    Ctime:" ++ c))))) =
      ((p ++ 10#8 :: (utf8 "    Size:" ++ decimal n)) ++ 10#8 :: (utf8 "    Mtime:" ++ m)) ++
        10#8 :: (utf8 "    Ctime:" ++ c) := by
    intro p n m c
    simp
  rw [reassoc, reassoc] at eq
  obtain ⟨eq, e1⟩ := lastLine_inj eq (oneLine_append (by decide +kernel) (stamp_oneLine T _ o.2 c hc))
    (oneLine_append (by decide +kernel) (stamp_oneLine T _ o'.2 c' hc'))
  obtain ⟨eq, e2⟩ := lastLine_inj eq (oneLine_append (by decide +kernel) (stamp_oneLine T _ o.1 m hm))
    (oneLine_append (by decide +kernel) (stamp_oneLine T _ o'.1 m' hm'))
  obtain ⟨eq, e3⟩ := lastLine_inj eq (oneLine_append (by decide +kernel) (oneLine_decimal _))
    (oneLine_append (by decide +kernel) (oneLine_decimal _))
  refine ⟨eq, BitVec.eq_of_toNat_eq (decimal_last (List.append_cancel_left e3)), ?_, ?_⟩
  · rw [hm, hm', List.append_cancel_left e2]
  · rw [hc, hc', List.append_cancel_left e1]

theorem flagLines_length {pad : String} {name : String → Out String} {l l' : List String} (p : l.Perm l') :
    ∀ {a a' : List Byte}, flagLines pad name l = .ret a → flagLines pad name l' = .ret a' → a.length = a'.length := by
  induction p with
  | nil => intro a a' h h'; rw [h] at h'; cases h'; rfl
  | cons x p ih =>
    intro a a' h h'
    obtain ⟨n, h1, h⟩ := bind_ret h
    obtain ⟨n', h1', h'⟩ := bind_ret h'
    obtain ⟨m, h2, h⟩ := bind_ret h
    obtain ⟨m', h2', h'⟩ := bind_ret h'
    rw [h1] at h1'
    cases h1'
    cases h; cases h'
    simp only [List.length_append, ih h2 h2']
  | swap x y l =>
    intro a a' h h'
    obtain ⟨n, h1, h⟩ := bind_ret h
    obtain ⟨n', h1', h'⟩ := bind_ret h'
    obtain ⟨m, h2, h⟩ := bind_ret h
    obtain ⟨m', h2', h'⟩ := bind_ret h'
    obtain ⟨k, h3, h2⟩ := bind_ret h2
    obtain ⟨k', h3', h2'⟩ := bind_ret h2'
    obtain ⟨q, h4, h2⟩ := bind_ret h2
    obtain ⟨q', h4', h2'⟩ := bind_ret h2'
    rw [h1] at h3'; cases h3'
    rw [h3] at h1'; cases h1'
    rw [h4] at h4'; cases h4'
    cases h; cases h'; cases h2; cases h2'
    simp only [List.length_append]
    omega
  | trans p q ih1 ih2 =>
    intro a a' h h'
    rename_i l1 l2 l3
    have mid : ∃ b, flagLines pad name l2 = .ret b := by
      have all : ∀ {l : List String}, (∃ b, flagLines pad name l = .ret b) ↔ ∀ f ∈ l, ∃ n, name f = .ret n := by
        intro l
        induction l with
        | nil => exact ⟨fun _ f hf => (by cases hf), fun _ => ⟨[], rfl⟩⟩
        | cons f l ih =>
          constructor
          · rintro ⟨b, hb⟩ g hg
            obtain ⟨n, h1, hb⟩ := bind_ret hb
            obtain ⟨m, h2, hb⟩ := bind_ret hb
            rcases List.mem_cons.1 hg with rfl | hg
            · exact ⟨n, h1⟩
            · exact ih.1 ⟨m, h2⟩ g hg
          · intro hall
            obtain ⟨n, hn⟩ := hall f List.mem_cons_self
            obtain ⟨m, hm⟩ := ih.2 fun g hg => hall g (List.mem_cons_of_mem _ hg)
            exact ⟨utf8 pad ++ utf8 f ++ utf8 ":" ++ utf8 n ++ utf8 "\n" ++ m,
              by simp only [flagLines, hn, hm, Out.ret_bind, Out.pure_eq]⟩
      rw [all]
      intro f hf
      exact all.1 ⟨a, h⟩ f (p.mem_iff.2 hf)
    obtain ⟨b, hb⟩ := mid
    rw [ih1 h hb, ih2 hb h']

/-- What a directory entry shows. -/
def DirEnt.Alike (T : Tables) (d d' : DirEnt) : Prop :=
  d.header = d'.header ∧ d.path = d'.path ∧ d.size = d'.size ∧ d.mtime.printText T = d'.mtime.printText T ∧
      d.ctime.printText T = d'.ctime.printText T

theorem dir_short_inj (T : Tables) (d d' : DirEnt) (o : d.Dated T) (o' : d'.Dated T) (text : List Byte)
    (h : d.shortText T = .ret text) (h' : d'.shortText T = .ret text) : d.Alike T d' := by
  obtain ⟨b, hb, h⟩ := bind_ret h
  obtain ⟨b', hb', h'⟩ := bind_ret h'
  have eq := Out.ret.inj (h.trans h'.symm)
  simp only [List.append_assoc] at eq
  obtain ⟨e1, eq⟩ := hexadecimal_inj (List.append_cancel_left eq) (stops_append _ (by decide +kernel))
    (stops_append _ (by decide +kernel))
  replace eq := List.append_cancel_left eq
  subst eq
  exact ⟨BitVec.eq_of_toNat_eq e1, body_inj T d d' o o' b hb hb'⟩

theorem dir_print_inj (T : Tables) (order order' : List String) (perm : order.Perm order') (d d' : DirEnt)
    (o : d.Dated T) (o' : d'.Dated T) (text : List Byte)
    (h : d.printText T order = .ret text) (h' : d'.printText T order' = .ret text) : d.Alike T d' := by
  obtain ⟨fl, hl, h⟩ := bind_ret h
  obtain ⟨fl', hl', h'⟩ := bind_ret h'
  obtain ⟨b, hb, h⟩ := bind_ret h
  obtain ⟨b', hb', h'⟩ := bind_ret h'
  have eq := Out.ret.inj (h.trans h'.symm)
  simp only [List.append_assoc] at eq
  obtain ⟨e1, eq⟩ := hexadecimal_inj (List.append_cancel_left eq) (stops_append _ (by decide +kernel))
    (stops_append _ (by decide +kernel))
  have eh : d.header = d'.header := BitVec.eq_of_toNat_eq e1
  rw [← eh] at hl'
  obtain ⟨-, eq⟩ := List.append_inj (List.append_cancel_left eq) (flagLines_length perm hl hl')
  subst eq
  exact ⟨eh, body_inj T d d' o o' b hb hb'⟩

/-- **C122** Directory entries, their names with ends of lines or not, in both forms, whatever the order of the flags.
(Partial: entries with stamps that hold times.) -/
theorem C122_dirent_partial (T : Tables) (order order' : List String) (perm : order.Perm order') (d d' : DirEnt)
    (o : d.Dated T) (o' : d'.Dated T) (text : List Byte)
    (alike : (d.shortText T = .ret text ∧ d'.shortText T = .ret text) ∨
      (d.printText T order = .ret text ∧ d'.printText T order' = .ret text)) :
    d.header = d'.header ∧ d.path = d'.path ∧ d.size = d'.size ∧ d.mtime.printText T = d'.mtime.printText T ∧
      d.ctime.printText T = d'.ctime.printText T := by
  rcases alike with ⟨h, h'⟩ | ⟨h, h'⟩
  · exact dir_short_inj T d d' o o' text h h'
  · exact dir_print_inj T order order' perm d d' o o' text h h'

theorem checksum_inj (label : String) (m m' : MetaData) (cs : String) (r r' : List Byte)
    (h : checksumLine label m cs ++ r = checksumLine label m' cs ++ r') :
    (cs ≠ "none" → m.checksum = m'.checksum) ∧ r = r' := by
  unfold checksumLine at h
  by_cases hn : cs = "none"
  · rw [if_pos hn, if_pos hn] at h
    exact ⟨fun n => absurd hn n, h⟩
  · rw [if_neg hn, if_neg hn] at h
    simp only [List.append_assoc] at h
    replace h := List.append_cancel_left (List.append_cancel_left (List.append_cancel_left h))
    obtain ⟨e1, e2⟩ := span_inj (P := HexByte) (hexBytes_bytes _) (hexBytes_bytes _)
      (stops_append _ (by decide +kernel)) (stops_append _ (by decide +kernel)) h
    exact ⟨fun _ => hexBytes_inj e1, List.append_cancel_left e2⟩

/-- **C122** Metadata: header, session, the checksum of a frame that has one, and the directory entry. (Partial as
above.) -/
theorem C122_metadata_partial (T : Tables) (order order' : List String) (perm : order.Perm order') (m m' : MetaData)
    (o : m.dir.Dated T) (o' : m'.dir.Dated T) (text : List Byte)
    (alike : (m.shortText T = .ret text ∧ m'.shortText T = .ret text) ∨
      (m.printText T order = .ret text ∧ m'.printText T order' = .ret text)) :
    m.header = m'.header ∧ m.session = m'.session ∧
      (getStr T m.header "csumtype" ≠ .ret "none" → m.checksum = m'.checksum) ∧
      m.dir.header = m'.dir.header ∧ m.dir.path = m'.dir.path ∧ m.dir.size = m'.dir.size ∧
      m.dir.mtime.printText T = m'.dir.mtime.printText T ∧ m.dir.ctime.printText T = m'.dir.ctime.printText T := by
  rcases alike with ⟨h, h'⟩ | ⟨h, h'⟩
  · obtain ⟨cs, hc, h⟩ := bind_ret h
    obtain ⟨cs', hc', h'⟩ := bind_ret h'
    obtain ⟨b, hb, h⟩ := bind_ret h
    obtain ⟨b', hb', h'⟩ := bind_ret h'
    have eq := Out.ret.inj (h.trans h'.symm)
    simp only [List.append_assoc] at eq
    obtain ⟨e1, eq⟩ := hexadecimal_inj (List.append_cancel_left eq) (stops_append _ (by decide +kernel))
      (stops_append _ (by decide +kernel))
    have eh := toNat_inj32 e1
    rw [← eh, hc] at hc'
    cases hc'
    replace eq := List.append_cancel_left (List.append_cancel_left eq)
    obtain ⟨e2, eq⟩ := decimal_inj eq (stops_append _ (by decide +kernel)) (stops_append _ (by decide +kernel))
    obtain ⟨e3, eq⟩ := checksum_inj _ m m' cs _ _ (List.append_cancel_left eq)
    subst eq
    exact ⟨eh, toNat_inj32 e2, fun n => e3 fun e => n (by rw [hc, e]), dir_short_inj T _ _ o o' b hb hb'⟩
  · obtain ⟨fl, hl, h⟩ := bind_ret h
    obtain ⟨fl', hl', h'⟩ := bind_ret h'
    obtain ⟨cs, hc, h⟩ := bind_ret h
    obtain ⟨cs', hc', h'⟩ := bind_ret h'
    obtain ⟨b, hb, h⟩ := bind_ret h
    obtain ⟨b', hb', h'⟩ := bind_ret h'
    have eq := Out.ret.inj (h.trans h'.symm)
    simp only [List.append_assoc] at eq
    obtain ⟨e1, eq⟩ := hexadecimal_inj (List.append_cancel_left eq) (stops_append _ (by decide +kernel))
      (stops_append _ (by decide +kernel))
    have eh := toNat_inj32 e1
    rw [← eh, hc] at hc'
    cases hc'
    rw [← eh, hl] at hl'
    cases hl'
    replace eq := List.append_cancel_left (List.append_cancel_left (List.append_cancel_left eq))
    obtain ⟨e2, eq⟩ := decimal_inj eq (stops_append _ (by decide +kernel)) (stops_append _ (by decide +kernel))
    obtain ⟨e3, eq⟩ := checksum_inj _ m m' cs _ _ (List.append_cancel_left eq)
    subst eq
    exact ⟨eh, toNat_inj32 e2, fun n => e3 fun e => n (by rw [hc, e]), dir_print_inj T _ _ perm _ _ o o' b hb hb'⟩

/-! ### The texts themselves -/

/-- The text has this label followed by this value, and no more digits. -/
def Prints (text : List Byte) (label : String) (value : List Byte) : Prop :=
  ∃ before after, text = before ++ (utf8 label ++ (value ++ after)) ∧ Stops after

theorem utf8_digits {l : List Char} (h : ∀ c ∈ l, c.isDigit = true) : utf8 (String.ofList l) = l.map asciiByte := by
  induction l with
  | nil => decide +kernel
  | cons c l ih =>
    have e : String.ofList (c :: l) = String.ofList [c] ++ String.ofList l := by
      rw [← String.ofList_append]; rfl
    have hc := h c List.mem_cons_self
    have r : 48 ≤ c.toNat ∧ c.toNat ≤ 57 := by
      simp only [Char.isDigit, Bool.and_eq_true, decide_eq_true_eq, ge_iff_le] at hc
      exact hc
    have all : ∀ k < 58, 48 ≤ k → utf8 (String.ofList [Char.ofNat k]) = [asciiByte (Char.ofNat k)] := by decide +kernel
    have := all c.toNat (by omega) r.1
    rw [Char.ofNat_toNat] at this
    rw [e, utf8_append, this, ih fun d hd => h d (List.mem_cons_of_mem _ hd)]
    rfl

theorem decimal_eq (n : Nat) : decimal n = utf8 (toString n) := by
  have : toString n = String.ofList (Nat.toDigits 10 n) := Nat.toString_eq_ofList_toDigits
  rw [this, utf8_digits fun c hc => Nat.isDigit_of_mem_toDigits (by omega) (by omega) hc]
  rfl

/-- **C122** What a data frame prints has the number of its session behind `session:`, of its offset behind `offset:`,
and the length of its payload behind `paylen`. -/
theorem C122_data_shows (T : Tables) (d : Data) (text : List Byte) (h : d.shortText T = .ret text ∨ d.printText T = .ret text) :
    Prints text "  session:" (utf8 (toString d.session.toNat)) ∧ Prints text "  offset:" (utf8 (toString d.offset.toNat)) ∧
    (Prints text "  paylen:" (utf8 (toString d.payload.length)) ∨ Prints text "  paylen : " (utf8 (toString d.payload.length))) := by
  simp only [← decimal_eq]
  rcases h with h | h
  · obtain ⟨st, hs, h⟩ := bind_ret h
    cases h
    have o : utf8 ",  offset:" = utf8 "," ++ utf8 "  offset:" := by decide +kernel
    have p : utf8 ",  paylen:" = utf8 "," ++ utf8 "  paylen:" := by decide +kernel
    refine ⟨⟨utf8 "Data: 0x" ++ hexadecimal d.header.toNat ++ utf8 "\n" ++ st, utf8 ",  offset:" ++
      (decimal d.offset.toNat ++ (utf8 ",  paylen:" ++ decimal d.payload.length)), by simp, stops_append _ (by decide +kernel)⟩,
      ⟨utf8 "Data: 0x" ++ hexadecimal d.header.toNat ++ utf8 "\n" ++ st ++ utf8 "  session:" ++ decimal d.session.toNat ++
        utf8 ",", utf8 ",  paylen:" ++ decimal d.payload.length, by simp [o], stops_append _ (by decide +kernel)⟩,
      .inl ⟨utf8 "Data: 0x" ++ hexadecimal d.header.toNat ++ utf8 "\n" ++ st ++ utf8 "  session:" ++ decimal d.session.toNat ++
        utf8 ",  offset:" ++ decimal d.offset.toNat ++ utf8 ",", [], by simp [p], stops_nil⟩⟩
  · obtain ⟨fl, hl, h⟩ := bind_ret h
    obtain ⟨st, hs, h⟩ := bind_ret h
    cases h
    refine ⟨⟨utf8 "Data: 0x" ++ hexadecimal d.header.toNat ++ utf8 "\n" ++ fl ++ st, utf8 "  offset:" ++
      (decimal d.offset.toNat ++ (utf8 "  paylen : " ++ decimal d.payload.length)), by simp, stops_append _ (by decide +kernel)⟩,
      ⟨utf8 "Data: 0x" ++ hexadecimal d.header.toNat ++ utf8 "\n" ++ fl ++ st ++ utf8 "  session:" ++ decimal d.session.toNat,
        utf8 "  paylen : " ++ decimal d.payload.length, by simp, stops_append _ (by decide +kernel)⟩,
      .inr ⟨utf8 "Data: 0x" ++ hexadecimal d.header.toNat ++ utf8 "\n" ++ fl ++ st ++ utf8 "  session:" ++
        decimal d.session.toNat ++ utf8 "  offset:" ++ decimal d.offset.toNat, [], by simp, stops_nil⟩⟩

theorem signedDec_eq (n : Int) : signedDec n = utf8 (toString n) := by
  cases n with
  | ofNat n => exact decimal_eq n
  | negSucc n =>
    have e : toString (Int.negSucc n) = "-" ++ toString (n + 1) := rfl
    have u : utf8 "-" = [asciiByte '-'] := by decide +kernel
    rw [e, utf8_append, u, ← decimal_eq]
    rfl

/-- **C122** The long form of a status has a line for each hole, with its number, its start and its end. -/
theorem C122_holes (T : Tables) (s : Status) (text : List Byte) (h : s.printText T = .ret text) (i : Nat) (hole : Hole)
    (at_ : s.holes[i]? = some hole) :
    ∃ before after, text = before ++ utf8 ("\n  Hole[" ++ toString i ++ "]: Start:" ++ toString hole.start ++ " End:" ++
      toString hole.stop ++ "\n") ++ after := by
  have all : ∀ (holes : List Hole) (j i : Nat) (hole : Hole) (pre : List Byte), holes[i]? = some hole →
      ∃ before after, pre ++ utf8 "\n" ++ holeLines j holes = before ++ utf8 "\n" ++ (utf8 "  Hole[" ++ decimal (j + i) ++ utf8 "]: Start:" ++
        signedDec hole.start ++ utf8 " End:" ++ signedDec hole.stop ++ utf8 "\n") ++ after := by
    intro holes
    induction holes with
    | nil => intro j i hole pre h; simp at h
    | cons g rest ih =>
      intro j i hole pre h
      cases i with
      | zero =>
        simp only [List.getElem?_cons_zero, Option.some.injEq] at h
        subst h
        exact ⟨pre, holeLines (j + 1) rest, by simp [holeLines]⟩
      | succ i =>
        simp only [List.getElem?_cons_succ] at h
        obtain ⟨before, after, e⟩ := ih (j + 1) i hole (pre ++ utf8 "\n" ++ (utf8 "  Hole[" ++ decimal j ++ utf8 "]: Start:" ++
          signedDec g.start ++ utf8 " End:" ++ signedDec g.stop)) h
        refine ⟨before, after, ?_⟩
        rw [show j + (i + 1) = j + 1 + i by omega, ← e]
        simp [holeLines]
  obtain ⟨fl, hl, h⟩ := bind_ret h
  obtain ⟨st, hs, h⟩ := bind_ret h
  cases h
  obtain ⟨before, after, e⟩ := all s.holes 0 i hole (utf8 "Status: 0x" ++ hexadecimal s.header.toNat ++ utf8 "\n" ++ fl ++
    utf8 "  session:" ++ decimal s.session.toNat ++ utf8 "\n" ++ st ++
    utf8 "  progress:" ++ decimal s.progress.toNat ++ utf8 "  inresponseto:" ++ decimal s.inrespto.toNat) at_
  refine ⟨before, after, ?_⟩
  rw [e]
  simp only [utf8_append, ← signedDec_eq, ← decimal_eq, Nat.zero_add]
  have n : utf8 "\n  Hole[" = utf8 "\n" ++ utf8 "  Hole[" := by decide +kernel
  rw [n]
  simp

/-- **C122** What a status prints has the numbers of its session, of its progress and of what it answers behind their
names, and in the short form the number of holes and the name of the error code. -/
theorem C122_status_shows (T : Tables) (s : Status) (text : List Byte) :
    (s.shortText T = .ret text → Prints text "  session:" (utf8 (toString s.session.toNat)) ∧
      Prints text "  progress:" (utf8 (toString s.progress.toNat)) ∧
      Prints text "  inrespto:" (utf8 (toString s.inrespto.toNat)) ∧
      Prints text "  numb holes:" (utf8 (toString s.holes.length)) ∧
      ∃ code, getStr T s.header "errcode" = .ret code ∧ Prints text "  errcode:" (utf8 code)) ∧
    (s.printText T = .ret text → Prints text "  session:" (utf8 (toString s.session.toNat)) ∧
      Prints text "  progress:" (utf8 (toString s.progress.toNat)) ∧
      Prints text "  inresponseto:" (utf8 (toString s.inrespto.toNat))) := by
  simp only [← decimal_eq]
  constructor
  · intro h
    obtain ⟨st, hs, h⟩ := bind_ret h
    obtain ⟨ec, hc, h⟩ := bind_ret h
    cases h
    have p : utf8 "\n  progress:" = utf8 "\n" ++ utf8 "  progress:" := by decide +kernel
    have i : utf8 "\n  inrespto:" = utf8 "\n" ++ utf8 "  inrespto:" := by decide +kernel
    have n : utf8 "\n  numb holes:" = utf8 "\n" ++ utf8 "  numb holes:" := by decide +kernel
    refine ⟨⟨utf8 "Status: 0x" ++ hexadecimal s.header.toNat ++ utf8 "\n", utf8 "\n" ++ (st ++ (utf8 "  errcode:" ++ (utf8 ec ++
      (utf8 "\n  progress:" ++ (decimal s.progress.toNat ++ (utf8 "\n  inrespto:" ++ (decimal s.inrespto.toNat ++
      (utf8 "\n  numb holes:" ++ decimal s.holes.length)))))))), by simp, stops_append _ (by decide +kernel)⟩,
      ⟨utf8 "Status: 0x" ++ hexadecimal s.header.toNat ++ utf8 "\n" ++ utf8 "  session:" ++ decimal s.session.toNat ++ utf8 "\n" ++
        st ++ utf8 "  errcode:" ++ utf8 ec ++ utf8 "\n", utf8 "\n  inrespto:" ++ (decimal s.inrespto.toNat ++
        (utf8 "\n  numb holes:" ++ decimal s.holes.length)), by simp [p], stops_append _ (by decide +kernel)⟩,
      ⟨utf8 "Status: 0x" ++ hexadecimal s.header.toNat ++ utf8 "\n" ++ utf8 "  session:" ++ decimal s.session.toNat ++ utf8 "\n" ++
        st ++ utf8 "  errcode:" ++ utf8 ec ++ utf8 "\n  progress:" ++ decimal s.progress.toNat ++ utf8 "\n",
        utf8 "\n  numb holes:" ++ decimal s.holes.length, by simp [i], stops_append _ (by decide +kernel)⟩,
      ⟨utf8 "Status: 0x" ++ hexadecimal s.header.toNat ++ utf8 "\n" ++ utf8 "  session:" ++ decimal s.session.toNat ++ utf8 "\n" ++
        st ++ utf8 "  errcode:" ++ utf8 ec ++ utf8 "\n  progress:" ++ decimal s.progress.toNat ++ utf8 "\n  inrespto:" ++
        decimal s.inrespto.toNat ++ utf8 "\n", [], by simp [n], stops_nil⟩,
      ec, hc, ⟨utf8 "Status: 0x" ++ hexadecimal s.header.toNat ++ utf8 "\n" ++ utf8 "  session:" ++ decimal s.session.toNat ++
        utf8 "\n" ++ st, utf8 "\n  progress:" ++ (decimal s.progress.toNat ++ (utf8 "\n  inrespto:" ++
        (decimal s.inrespto.toNat ++ (utf8 "\n  numb holes:" ++ decimal s.holes.length)))), by simp,
        stops_append _ (by decide +kernel)⟩⟩
  · intro h
    obtain ⟨fl, hl, h⟩ := bind_ret h
    obtain ⟨st, hs, h⟩ := bind_ret h
    cases h
    refine ⟨⟨utf8 "Status: 0x" ++ hexadecimal s.header.toNat ++ utf8 "\n" ++ fl, utf8 "\n" ++ (st ++ (utf8 "  progress:" ++
      (decimal s.progress.toNat ++ (utf8 "  inresponseto:" ++ (decimal s.inrespto.toNat ++ (utf8 "\n" ++
      holeLines 0 s.holes)))))), by simp, stops_append _ (by decide +kernel)⟩,
      ⟨utf8 "Status: 0x" ++ hexadecimal s.header.toNat ++ utf8 "\n" ++ fl ++ utf8 "  session:" ++ decimal s.session.toNat ++
        utf8 "\n" ++ st, utf8 "  inresponseto:" ++ (decimal s.inrespto.toNat ++ (utf8 "\n" ++ holeLines 0 s.holes)), by simp,
        stops_append _ (by decide +kernel)⟩,
      ⟨utf8 "Status: 0x" ++ hexadecimal s.header.toNat ++ utf8 "\n" ++ fl ++ utf8 "  session:" ++ decimal s.session.toNat ++
        utf8 "\n" ++ st ++ utf8 "  progress:" ++ decimal s.progress.toNat, utf8 "\n" ++ holeLines 0 s.holes, by simp,
        stops_append _ (by decide +kernel)⟩⟩

/-- **C122** The text of a request has its session and ends in its authentication, that of a beacon ends in its EID; and
metadata has its session, and both it and a directory entry have the path and the size. -/
theorem C122_other_shows (T : Tables) (text : List Byte) :
    (∀ r : Request, r.shortText = text → Prints text "  session:" (utf8 (toString r.session.toNat)) ∧
      ∃ before, text = before ++ utf8 "\n  filename:" ++ r.fname ++ utf8 "\n  auth:" ++ r.auth) ∧
    (∀ b : Beacon, b.shortText T = .ret text ∨ b.printText T = .ret text →
      (∃ before, text = before ++ utf8 "  EID:" ++ b.eid) ∧
      (getStr T b.header "freespace" = .ret "yes" → Prints text "  free:" (utf8 (toString b.freespace.toNat)))) ∧
    (∀ (d : DirEnt) order, d.shortText T = .ret text ∨ d.printText T order = .ret text →
      Prints text "\n    Size:" (utf8 (toString d.size.toNat)) ∧
      ∃ before after, text = before ++ utf8 "    Path:" ++ d.path ++ utf8 "\n    Size:" ++ after) := by
  simp only [← decimal_eq]
  refine ⟨fun r h => ?_, fun b h => ?_, fun d order h => ?_⟩
  · subst h
    have s : utf8 "\n  session:" = utf8 "\n" ++ utf8 "  session:" := by decide +kernel
    exact ⟨⟨utf8 "Request: 0x" ++ hexadecimal r.header.toNat ++ utf8 "\n", utf8 "\n  filename:" ++ (r.fname ++
      (utf8 "\n  auth:" ++ r.auth)), by simp [Request.shortText, s], stops_append _ (by decide +kernel)⟩,
      utf8 "Request: 0x" ++ hexadecimal r.header.toNat ++ utf8 "\n  session:" ++ decimal r.session.toNat,
      by simp [Request.shortText]⟩
  · have free : ∀ fs, getStr T b.header "freespace" = .ret fs → ∀ x y : List Byte,
        getStr T b.header "freespace" = .ret "yes" →
        Prints (x ++ (freeLine b fs ++ y)) "  free:" (decimal b.freespace.toNat) := by
      intro fs hf x y hy
      rw [hf] at hy
      cases hy
      exact ⟨x, utf8 "kB\n" ++ y, by simp [freeLine], stops_append _ (by decide +kernel)⟩
    rcases h with h | h
    · obtain ⟨fs, hf, h⟩ := bind_ret h
      cases h
      refine ⟨⟨_, rfl⟩, fun hy => ?_⟩
      have := free fs hf (utf8 "Beacon: 0x" ++ hexadecimal b.header.toNat ++ utf8 "\n") (utf8 "  EID:" ++ b.eid) hy
      simpa using this
    · obtain ⟨fl, hl, h⟩ := bind_ret h
      obtain ⟨fs, hf, h⟩ := bind_ret h
      cases h
      refine ⟨⟨_, rfl⟩, fun hy => ?_⟩
      have := free fs hf (utf8 "Beacon: 0x" ++ hexadecimal b.header.toNat ++ utf8 "\n" ++ fl) (utf8 "  EID:" ++ b.eid) hy
      simpa using this
  · have body : ∀ (x : List Byte) (b : List Byte), d.bodyText T = .ret b →
        Prints (x ++ b) "\n    Size:" (decimal d.size.toNat) ∧
        ∃ before after, x ++ b = before ++ utf8 "    Path:" ++ d.path ++ utf8 "\n    Size:" ++ after := by
      intro x b h
      obtain ⟨m, hm, h⟩ := bind_ret h
      obtain ⟨c, hc, h⟩ := bind_ret h
      cases h
      exact ⟨⟨x ++ utf8 "    Path:" ++ d.path, utf8 "\n    Mtime:" ++ (m ++ (utf8 "\n    Ctime:" ++ c)), by simp,
        stops_append _ (by decide +kernel)⟩, x, decimal d.size.toNat ++ (utf8 "\n    Mtime:" ++ (m ++
        (utf8 "\n    Ctime:" ++ c))), by simp⟩
    rcases h with h | h
    · obtain ⟨b, hb, h⟩ := bind_ret h
      cases h
      exact body _ b hb
    · obtain ⟨fl, hl, h⟩ := bind_ret h
      obtain ⟨b, hb, h⟩ := bind_ret h
      cases h
      exact body _ b hb

/-! ### On the other side -/

/-- **C122** (partial: the frames that come back whole, C20.) A data frame prints at its receiver as at its sender,
whatever variable it is read into. -/
theorem C122_received_data_partial (T : Tables) (d d0 : Data) (n : Nat) (rt : String)
    (width : HasWidth T "descriptor" d.header n) (stamp : getStr T d.header "reqtstamp" = .ret rt)
    (fits : d.offset.toNat < 256 ^ n) (readable : rt = "yes" → d.tstamp.Wire T)
    (notEmpty : ¬ (rt = "yes" ∧ n = 2 ∧ d.payload = [])) :
    ∃ frame x, d.encode T = .ret (.ok frame) ∧ d0.decode T frame = .ret (x, none) ∧
      x.printText T = d.printText T ∧ x.shortText T = d.shortText T := by
  obtain ⟨frame, he, hd⟩ := C20_round_trip_partial T d d0 n rt width stamp fits readable notEmpty
  refine ⟨frame, _, he, hd, ?_⟩
  by_cases hy : rt = "yes"
  · rw [if_pos hy]; exact ⟨rfl, rfl⟩
  · have : ∀ t, stampLine T "  tstamp:" d.header t = .ret [] := by
      intro t
      unfold stampLine
      rw [stamp, Out.ret_bind, if_neg hy]
      rfl
    unfold Data.printText Data.shortText
    simp only [this, and_self]

example : HasWidth shipped "descriptor" 0x23800000#32 8 ∧ getStr shipped 0x23800000#32 "reqtstamp" = .ret "no" := by
  refine ⟨⟨"d64", ?_, rfl⟩, ?_⟩ <;> decide +kernel

/-- **C122** (partial: the frames that come back whole, C25.) So does a status. -/
theorem C122_received_status_partial (T : Tables) (s s0 : Status) (n : Nat) (rt : String)
    (width : HasWidth T "descriptor" s.header n)
    (stamp : getStr T s.header "reqtstamp" = .ret rt) (noStamp : rt ≠ "yes")
    (fitsP : s.progress.toNat < 256 ^ n) (fitsI : s.inrespto.toNat < 256 ^ n)
    (fitsH : ∀ h ∈ s.holes, EndFits n h.start ∧ EndFits n h.stop) (fresh : s0.holes = []) :
    ∃ frame x, s.encode T = .ret (.ok frame) ∧ s0.decode T frame = .ret (x, none) ∧
      x.printText T = s.printText T ∧ x.shortText T = s.shortText T := by
  obtain ⟨frame, he, hd⟩ := C25_round_trip_partial T s s0 n rt width stamp noStamp fitsP fitsI fitsH fresh
  refine ⟨frame, _, he, hd, ?_⟩
  have : ∀ t, stampLine T "  timestamp:" s.header t = .ret [] := by
    intro t
    unfold stampLine
    rw [stamp, Out.ret_bind, if_neg noStamp]
    rfl
  unfold Status.printText Status.shortText
  simp only [this, and_self]

/-- **C122** Frames of different types never print alike, in the short form. -/
theorem C122_types (T : Tables) (text : List Byte) (b : Beacon) (d : Data) (m : MetaData) (r : Request) (s : Status) :
    [b.shortText T = .ret text, d.shortText T = .ret text, m.shortText T = .ret text, r.shortText = text,
      s.shortText T = .ret text].Pairwise fun p q => ¬ (p ∧ q) := by
  have hb : b.shortText T = .ret text → text.head? = some (asciiByte 'B') := by
    intro h
    obtain ⟨_, _, h⟩ := bind_ret h
    cases h
    rw [show utf8 "Beacon: 0x" = asciiByte 'B' :: utf8 "eacon: 0x" by decide +kernel]
    rfl
  have hd : d.shortText T = .ret text → text.head? = some (asciiByte 'D') := by
    intro h
    obtain ⟨_, _, h⟩ := bind_ret h
    cases h
    rw [show utf8 "Data: 0x" = asciiByte 'D' :: utf8 "ata: 0x" by decide +kernel]
    rfl
  have hm : m.shortText T = .ret text → text.head? = some (asciiByte 'M') := by
    intro h
    obtain ⟨_, _, h⟩ := bind_ret h
    obtain ⟨_, _, h⟩ := bind_ret h
    cases h
    rw [show utf8 "Metadata: 0x" = asciiByte 'M' :: utf8 "etadata: 0x" by decide +kernel]
    rfl
  have hr : r.shortText = text → text.head? = some (asciiByte 'R') := by
    intro h
    subst h
    unfold Request.shortText
    rw [show utf8 "Request: 0x" = asciiByte 'R' :: utf8 "equest: 0x" by decide +kernel]
    rfl
  have hs : s.shortText T = .ret text → text.head? = some (asciiByte 'S') := by
    intro h
    obtain ⟨_, _, h⟩ := bind_ret h
    obtain ⟨_, _, h⟩ := bind_ret h
    cases h
    rw [show utf8 "Status: 0x" = asciiByte 'S' :: utf8 "tatus: 0x" by decide +kernel]
    rfl
  have clash : ∀ {p q : Prop} {x y : Byte}, (p → text.head? = some x) → (q → text.head? = some y) → x ≠ y →
      ¬ (p ∧ q) := by
    intro p q x y h1 h2 ne h
    exact ne (Option.some.inj ((h1 h.1).symm.trans (h2 h.2)))
  simp only [List.pairwise_cons, List.mem_cons, List.not_mem_nil, or_false, forall_eq_or_imp, forall_eq,
    List.Pairwise.nil, and_true, false_implies, implies_true]
  exact ⟨⟨clash hb hd (by decide), clash hb hm (by decide), clash hb hr (by decide), clash hb hs (by decide)⟩,
    ⟨clash hd hm (by decide), clash hd hr (by decide), clash hd hs (by decide)⟩,
    ⟨clash hm hr (by decide), clash hm hs (by decide)⟩, clash hr hs (by decide)⟩

/-! ### When there is a text -/

theorem flagLines_returns (pad : String) (name : String → Out String) (l : List String) :
    (flagLines pad name l).returns ↔ (l.forM fun f => do let _ ← name f; (pure () : Out Unit)).returns := by
  induction l with
  | nil => simp [flagLines, Out.returns]
  | cons f l ih =>
    simp only [flagLines, List.forM]
    cases name f with
    | ret n =>
      simp only [Out.ret_bind]
      change _ ↔ (l.forM fun f => do let _ ← name f; (pure () : Out Unit)).returns
      rw [← ih]
      cases flagLines pad name l <;> simp [Out.returns]
    | fatal => simp [Out.returns]
    | panic => simp [Out.returns]

theorem stamp_returns (T : Tables) (t : Timestamp) : (t.printText T).returns ↔ (t.print T).returns := by
  unfold Timestamp.printText Timestamp.print
  cases getTStr T t.header with
  | ret k =>
    simp only [Out.ret_bind]
    split
    · simp [Out.returns]
    · split
      · simp [Out.returns]
      · split <;> simp [Out.returns]
  | fatal => simp [Out.returns]
  | panic => simp [Out.returns]

theorem pure_returns {α : Type} (a : α) : (pure a : Out α).returns ↔ True := Iff.rfl

theorem stampLine_returns (T : Tables) (label : String) (h : BitVec 32) (t : Timestamp) :
    (stampLine T label h t).returns ↔
      (getStr T h "reqtstamp" >>= fun rt => if rt = "yes" then t.print T else pure ()).returns := by
  unfold stampLine
  cases getStr T h "reqtstamp" with
  | ret rt =>
    simp only [Out.ret_bind]
    split
    · rw [← stamp_returns]
      cases t.printText T <;> simp [Out.returns]
    · simp [Out.returns]
  | fatal => simp [Out.returns]
  | panic => simp [Out.returns]

theorem returns_iff {α : Type} (x : Out α) : x.returns ↔ ∃ a, x = .ret a := by
  cases x <;> simp [Out.returns]

/-- **C122** There is a text exactly when printing does not end the process (C77). -/
theorem C122_returns (T : Tables) (d : Data) (s : Status) (b : Beacon) (r : Request) :
    ((d.printText T).returns ↔ (d.print T).returns) ∧ ((d.shortText T).returns ↔ (d.shortPrint T).returns) ∧
    ((s.printText T).returns ↔ (s.print T).returns) ∧ ((b.printText T).returns ↔ (b.print T).returns) ∧
    ((b.shortText T).returns ↔ (b.shortPrint T).returns) ∧ ((r.printText T).returns ↔ (r.print T).returns) := by
  have two : ∀ {α β γ : Type} (x : Out α) (y : Out β) (g : α → β → γ),
      (x >>= fun a => y >>= fun b => (pure (g a b) : Out γ)).returns ↔ x.returns ∧ y.returns := by
    intro α β γ x y g
    cases x <;> cases y <;> simp [Out.returns]
  have one : ∀ {α γ : Type} (x : Out α) (g : α → γ), (x >>= fun a => (pure (g a) : Out γ)).returns ↔ x.returns := by
    intro α γ x g
    cases x <;> simp [Out.returns]
  refine ⟨?_, ?_, ?_, ?_, ?_, ?_⟩
  · unfold Data.printText Data.print
    rw [two, bind_unit_returns, flagLines_returns, stampLine_returns]
  · unfold Data.shortText Data.shortPrint
    rw [one, stampLine_returns]
  · unfold Status.printText Status.print
    rw [two, bind_unit_returns, flagLines_returns, stampLine_returns]
  · unfold Beacon.printText Beacon.print
    rw [two, bind_unit_returns, flagLines_returns, bind_unit_returns]
    simp [Out.returns]
  · unfold Beacon.shortText Beacon.shortPrint
    rw [one, bind_unit_returns]
    simp [Out.returns]
  · unfold Request.printText Request.print
    rw [one, flagLines_returns]

/-! ### Cases -/

/-- A status with two holes, its stamp of type `posix64`. -/
def exampleStatus : Status :=
  { header := 0x24400000, session := 7, tstamp := ⟨2, 0, 0, [], "posix64"⟩, progress := 30, inrespto := 40,
    holes := [⟨0, 10⟩, ⟨20, 30⟩] }

example : exampleStatus.tstamp.HoldsTime shipped := ⟨"posix64", by decide, by decide +kernel⟩
example : exampleStatus.shortText shipped = .ret (utf8
    "Status: 0x24400000\n  session:7\n  errcode:success\n  progress:30\n  inrespto:40\n  numb holes:2") := by
  decide +kernel
example : holeLines 0 exampleStatus.holes = utf8 "  Hole[0]: Start:0 End:10\n  Hole[1]: Start:20 End:30\n" := by
  decide +kernel
example : Data.shortText shipped { Data.zero with header := 0x23800000, session := 300, offset := 12, payload := [1, 2, 3] } =
    .ret (utf8 "Data: 0x23800000\n  session:300,  offset:12,  paylen:3") := by decide +kernel
example : Request.shortText ⟨0x21000000, 5, utf8 "a", utf8 "b"⟩ =
    utf8 "Request: 0x21000000\n  session:5\n  filename:a\n  auth:b" := by decide +kernel
example : Beacon.shortText shipped ⟨0x20000000, 0, utf8 "10.0.0.1"⟩ = .ret (utf8 "Beacon: 0x20000000\n  EID:10.0.0.1") := by
  decide +kernel
example : OneLine (utf8 "file") ∧ ¬ OneLine (utf8 "a\nb") := by decide +kernel
example : (DirEnt.mk 0x8000 100 ⟨2, 0, 0, [], "posix64"⟩ ⟨2, 86400, 0, [], "posix64"⟩ (utf8 "f")).Dated shipped :=
  ⟨⟨"posix64", by decide, by decide +kernel⟩, ⟨"posix64", by decide, by decide +kernel⟩⟩
example : (DirEnt.mk 0x8000 100 ⟨2, 0, 0, [], "posix64"⟩ ⟨2, 86400, 0, [], "posix64"⟩ (utf8 "f")).shortText shipped =
    .ret (utf8 "  Dir Entry: 0x8000\n    Path:f\n    Size:100\n    Mtime:Thu Jan  1 00:00:00 1970 UTC\n    Ctime:Fri Jan  2 00:00:00 1970 UTC") := by
  decide +kernel
example : hexBytes [0xab, 0x01] = utf8 "ab01" := by decide +kernel

end Saratoga
