import Verif.Model.Status
import Verif.Lemmas.Frame
import Verif.Lemmas.Timestamp
/-! # Helper lemmas about status frames -/
namespace Saratoga

/-- The bytes of one hole. -/
def holeBytes (n : Nat) (h : Hole) : List Byte :=
  numBytes n (BitVec.ofInt 64 h.start) ++ numBytes n (BitVec.ofInt 64 h.stop)

/-- The bytes of a list of holes. -/
def holesBytes (n : Nat) (hs : List Hole) : List Byte := hs.flatMap (holeBytes n)

/-- What a reader gets from the bytes of one hole. -/
def wireHole (n : Nat) (h : Hole) : Hole :=
  ⟨(wireNum n (BitVec.ofInt 64 h.start)).toInt, (wireNum n (BitVec.ofInt 64 h.stop)).toInt⟩

theorem holesBytes_length {n : Nat} (hn : n = 2 ∨ n = 4 ∨ n = 8) (hs : List Hole) :
    (holesBytes n hs).length = n * hs.length * 2 := by
  induction hs with
  | nil => rfl
  | cons h t ih =>
    have e : holesBytes n (h :: t) = holeBytes n h ++ holesBytes n t := by simp [holesBytes]
    rw [e, List.length_append, ih, holeBytes, List.length_append, numBytes_length hn, numBytes_length hn,
      List.length_cons, Nat.mul_add, Nat.add_mul]
    omega

theorem putHoles_eq {n : Nat} (hn : n = 2 ∨ n = 4 ∨ n = 8) (hs : List Hole) (pre : List Byte) (x pos : Nat)
    (hp : pos = pre.length) :
    Status.putHoles n (pre ++ mkBytes (n * hs.length * 2 + x)) pos hs =
      .ret (pre ++ holesBytes n hs ++ mkBytes x) := by
  induction hs generalizing pre pos with
  | nil => simp [Status.putHoles, holesBytes]
  | cons h t ih =>
    have l1 := numBytes_length hn (BitVec.ofInt 64 h.start)
    have l2 := numBytes_length hn (BitVec.ofInt 64 h.stop)
    unfold Status.putHoles
    have e : n * (h :: t).length * 2 + x = n + n + (n * t.length * 2 + x) := by
      rw [List.length_cons, Nat.mul_add, Nat.add_mul]; omega
    rw [e, putAt_mk pre _ pos (pos + n) _ hp (by omega) (by omega)]
    simp only [Out.ret_bind]
    rw [putAt_mk (pre ++ numBytes n _) _ (pos + n) (pos + n + n) _ (by simp [l1, hp]) (by omega)
      (by simp [l1, hp]; omega)]
    simp only [Out.ret_bind, l1, l2]
    have e2 : n + n + (n * t.length * 2 + x) - n - n = n * t.length * 2 + x := by omega
    rw [e2, ih _ _ (by simp [l1, l2, hp]; omega)]
    simp [holesBytes, holeBytes]

theorem Status.encode_eq {T : Tables} {s : Status} {rt desc : String} {n : Nat}
    (hrt : getStr T s.header "reqtstamp" = .ret rt) (hd : getStr T s.header "descriptor" = .ret desc)
    (hn : descSize desc = some n) :
    s.encode T = .ret (.ok (be32 s.header ++ be32 s.session ++ numBytes n s.progress ++
      numBytes n s.inrespto ++ holesBytes n s.holes ++ mkBytes (if rt = "yes" then 16 else 0))) := by
  have hc := descSize_cases hn
  have l1 := numBytes_length hc s.progress
  have l2 := numBytes_length hc s.inrespto
  unfold Status.encode
  simp only [hrt, hd, hn, Out.ret_bind]
  generalize (if rt = "yes" then 16 else 0) = x
  rw [putAt_mk0 _ 4 _ (by simp) (by omega)]
  simp only [Out.ret_bind]
  rw [putAt_mk (be32 s.header) _ 4 8 _ (by simp) (by simp) (by simp; omega)]
  simp only [Out.ret_bind]
  rw [putAt_mk (be32 s.header ++ be32 s.session) _ 8 (8 + n) _ (by simp) (by omega)
    (by simp; omega)]
  simp only [Out.ret_bind]
  rw [putAt_mk (be32 s.header ++ be32 s.session ++ numBytes n s.progress) _ (8 + n) (8 + n + n) _
    (by simp [l1]; omega) (by omega) (by simp [l1]; omega)]
  simp only [Out.ret_bind, be32_length, l1, l2]
  have e : 4 + 4 + x + (n * 2 + n * s.holes.length * 2) - 4 - 4 - n - n = n * s.holes.length * 2 + x := by
    omega
  rw [e, putHoles_eq hc _ _ _ _ (by simp [l1, l2]; omega)]
  rfl

theorem Status.encode_inv {T : Tables} {s : Status} {frame : List Byte}
    (h : s.encode T = .ret (.ok frame)) :
    ∃ rt desc n, getStr T s.header "reqtstamp" = .ret rt ∧ getStr T s.header "descriptor" = .ret desc ∧
      descSize desc = some n ∧ frame = be32 s.header ++ be32 s.session ++ numBytes n s.progress ++
      numBytes n s.inrespto ++ holesBytes n s.holes ++ mkBytes (if rt = "yes" then 16 else 0) := by
  have h' := h
  unfold Status.encode at h
  obtain ⟨rt, hrt, h⟩ := Out.bind_eq_ret h
  obtain ⟨desc, hd, h⟩ := Out.bind_eq_ret h
  cases hn : descSize desc with
  | none => simp [hn] at h
  | some n =>
    rw [Status.encode_eq hrt hd hn] at h'
    cases h'
    exact ⟨rt, desc, n, hrt, hd, hn, rfl⟩

theorem getHoles_eq {n : Nat} (hn : n = 2 ∨ n = 4 ∨ n = 8) (hs : List Hole) (pre post : List Byte)
    (pos : Nat) (hp : pos = pre.length) (acc : List Hole) :
    Status.getHoles (pre ++ holesBytes n hs ++ post) n hs.length pos acc =
      .ret (acc ++ hs.map (wireHole n)) := by
  induction hs generalizing pre pos acc with
  | nil => simp [Status.getHoles]
  | cons h t ih =>
    have l1 := numBytes_length hn (BitVec.ofInt 64 h.start)
    have l2 := numBytes_length hn (BitVec.ofInt 64 h.stop)
    have e : pre ++ holesBytes n (h :: t) ++ post =
        pre ++ numBytes n (BitVec.ofInt 64 h.start) ++
          (numBytes n (BitVec.ofInt 64 h.stop) ++ holesBytes n t ++ post) := by
      simp [holesBytes, holeBytes]
    have e' : pre ++ holesBytes n (h :: t) ++ post =
        (pre ++ numBytes n (BitVec.ofInt 64 h.start)) ++ numBytes n (BitVec.ofInt 64 h.stop) ++
          (holesBytes n t ++ post) := by
      simp [holesBytes, holeBytes]
    have e'' : pre ++ holesBytes n (h :: t) ++ post =
        (pre ++ numBytes n (BitVec.ofInt 64 h.start) ++ numBytes n (BitVec.ofInt 64 h.stop)) ++
          holesBytes n t ++ post := by
      simp [holesBytes, holeBytes]
    have r1 : readNum (pre ++ holesBytes n (h :: t) ++ post) pos n =
        .ret (wireNum n (BitVec.ofInt 64 h.start)) := by
      rw [e]; exact readNum_mid hn _ _ _ _ hp
    have r2 : readNum (pre ++ holesBytes n (h :: t) ++ post) (pos + n) n =
        .ret (wireNum n (BitVec.ofInt 64 h.stop)) := by
      rw [e']; exact readNum_mid hn _ _ _ _ (by simp [l1, hp])
    rw [List.length_cons]
    unfold Status.getHoles
    simp only [r1, r2, Out.ret_bind]
    rw [e'', ih _ _ (by simp [l1, l2, hp]; omega)]
    simp [wireHole]

/-- Reading holes never runs past the frame. -/
theorem getHoles_ok {f : List Byte} {n : Nat} (hn : n = 2 ∨ n = 4 ∨ n = 8) (k pos : Nat) (acc : List Hole)
    (h : pos + k * (n * 2) ≤ f.length) :
    ∃ hs, hs.length = k ∧ ∀ acc, Status.getHoles f n k pos acc = .ret (acc ++ hs) := by
  induction k generalizing pos acc with
  | zero => exact ⟨[], rfl, fun acc => by simp [Status.getHoles]⟩
  | succ k ih =>
    rw [Nat.add_mul] at h
    obtain ⟨a, ha⟩ := readNum_ok (f := f) (pos := pos) hn (by omega)
    obtain ⟨b, hb⟩ := readNum_ok (f := f) (pos := pos + n) hn (by omega)
    obtain ⟨hs, hl, hg⟩ := ih (pos + n + n) [] (by omega)
    refine ⟨⟨a.toInt, b.toInt⟩ :: hs, by simp [hl], fun acc => ?_⟩
    unfold Status.getHoles
    simp only [ha, hb, Out.ret_bind, hg]
    simp

theorem wireHole_eq {n : Nat} {h : Hole}
    (h1 : 0 ≤ h.start ∧ h.start < 256 ^ n ∧ h.start < 2 ^ 63)
    (h2 : 0 ≤ h.stop ∧ h.stop < 256 ^ n ∧ h.stop < 2 ^ 63) : wireHole n h = h := by
  have key : ∀ i : Int, 0 ≤ i ∧ i < 256 ^ n ∧ i < 2 ^ 63 →
      (wireNum n (BitVec.ofInt 64 i)).toInt = i := by
    rintro i ⟨a, b, c⟩
    obtain ⟨k, rfl⟩ := Int.eq_ofNat_of_zero_le a
    have hk : (BitVec.ofInt 64 (k : Int)).toNat = k := by
      simp only [BitVec.ofInt_natCast, BitVec.toNat_ofNat]
      omega
    have hb : k < 256 ^ n := by
      have : ((256 ^ n : Nat) : Int) = (256 : Int) ^ n := by simp
      omega
    rw [wireNum_eq (by rw [hk]; exact hb)]
    exact toInt_ofInt64 (by omega) c
  simp [wireHole, key _ h1, key _ h2]

/-- Decoding an unstamped encoded frame. -/
theorem Status.decode_eq {T : Tables} {h sess : BitVec 32} {rt desc : String} {n : Nat}
    {p i : BitVec 64} {hs : List Hole} (s0 : Status)
    (hrt : getStr T h "reqtstamp" = .ret rt) (hno : rt ≠ "yes")
    (hd : getStr T h "descriptor" = .ret desc) (hn : descSize desc = some n) :
    s0.decode T (be32 h ++ be32 sess ++ numBytes n p ++ numBytes n i ++ holesBytes n hs) =
      .ret (⟨h, sess, s0.tstamp, wireNum n p, wireNum n i, s0.holes ++ hs.map (wireHole n)⟩, none) := by
  have hc := descSize_cases hn
  have l1 := numBytes_length hc p
  have l2 := numBytes_length hc i
  have lh := holesBytes_length hc hs
  unfold Status.decode
  rw [if_neg (by simp [l1, l2]; omega)]
  have e1 : readWord (be32 h ++ be32 sess ++ numBytes n p ++ numBytes n i ++ holesBytes n hs) 0 = .ret h := by
    simp only [List.append_assoc]; exact readWord_start _ _
  have e2 : readWord (be32 h ++ be32 sess ++ numBytes n p ++ numBytes n i ++ holesBytes n hs) 4 =
      .ret sess := by
    have := readWord_mid (be32 h) (numBytes n p ++ numBytes n i ++ holesBytes n hs) sess 4 (by simp)
    simpa only [List.append_assoc] using this
  have e3 : readNum (be32 h ++ be32 sess ++ numBytes n p ++ numBytes n i ++ holesBytes n hs) 8 n =
      .ret (wireNum n p) := by
    have := readNum_mid hc (be32 h ++ be32 sess) (numBytes n i ++ holesBytes n hs) p 8 (by simp)
    simpa only [List.append_assoc] using this
  have e4 : readNum (be32 h ++ be32 sess ++ numBytes n p ++ numBytes n i ++ holesBytes n hs) (8 + n) n =
      .ret (wireNum n i) :=
    readNum_mid hc _ _ _ _ (by simp [l1]; omega)
  have e5 : sliceFrom (be32 h ++ be32 sess ++ numBytes n p ++ numBytes n i ++ holesBytes n hs)
      (8 + n + n) = .ret (holesBytes n hs) :=
    sliceFrom_end _ _ _ (by simp [l1, l2]; omega)
  have hk : (holesBytes n hs).length / 2 / n = hs.length := by
    rw [lh, Nat.mul_div_cancel _ (by decide), Nat.mul_div_cancel_left _ (by omega)]
  have e6 := getHoles_eq hc hs (be32 h ++ be32 sess ++ numBytes n p ++ numBytes n i) [] (8 + n + n)
    (by simp [l1, l2]; omega) s0.holes
  rw [List.append_nil] at e6
  simp only [e1, e2, Out.ret_bind, hrt, hno, if_false, Out.pure_eq, hd, hn, e3, e4, e5, hk, e6]

end Saratoga

namespace Saratoga

theorem holesBytes_drop {n : Nat} (hn : n = 2 ∨ n = 4 ∨ n = 8) (hs : List Hole) (k : Nat) :
    (holesBytes n hs).drop (n * k * 2) = holesBytes n (hs.drop k) := by
  induction k generalizing hs with
  | zero => simp
  | succ k ih =>
    cases hs with
    | nil => simp [holesBytes]
    | cons h t =>
      have e : holesBytes n (h :: t) = holeBytes n h ++ holesBytes n t := by simp [holesBytes]
      have l : (holeBytes n h).length = n * 2 := by
        rw [holeBytes, List.length_append, numBytes_length hn, numBytes_length hn]; omega
      rw [e, List.drop_succ_cons, ← ih t, Nat.mul_add, Nat.add_mul, Nat.add_comm, ← List.drop_drop,
        List.drop_left' (by omega)]

theorem ofInt_mod {n : Nat} (hn : n = 2 ∨ n = 4 ∨ n = 8) (i : Int) :
    (((BitVec.ofInt 64 i).toNat % 256 ^ n : Nat) : Int) = i % 256 ^ n := by
  rw [BitVec.toNat_ofInt]
  rcases hn with rfl | rfl | rfl <;> omega

end Saratoga
