import Verif.Lemmas.Data
import Verif.Lemmas.Status
import Verif.Lemmas.Request
import Verif.Lemmas.Metadata
import Verif.Lemmas.Dirent
import Verif.Lemmas.Beacon
import Verif.Lemmas.Timestamp
import Verif.Spec.Again
/-! # What a read part of a frame says about its bytes -/
namespace Saratoga

theorem slice_ret {f s : List Byte} {lo hi : Nat} (h : slice f lo hi = .ret s) :
    lo ≤ hi ∧ hi ≤ f.length ∧ s = (f.drop lo).take (hi - lo) := by
  unfold slice at h
  split at h
  · rename_i hc; cases h; exact ⟨hc.1, hc.2, rfl⟩
  · cases h

theorem sliceFrom_ret {f s : List Byte} {lo : Nat} (h : sliceFrom f lo = .ret s) : lo ≤ f.length ∧ s = f.drop lo := by
  obtain ⟨h1, _, h2⟩ := slice_ret h
  refine ⟨h1, ?_⟩
  rw [h2, List.take_of_length_le (by simp)]

theorem glue (f : List Byte) (a b : Nat) : (f.drop a).take b ++ f.drop (a + b) = f.drop a := by
  rw [← List.drop_drop]; exact List.take_append_drop b (f.drop a)

theorem be64_rd64 (a b c d e f g h : Byte) :
    be64 (a ++ b ++ c ++ d ++ e ++ f ++ g ++ h) = [a, b, c, d, e, f, g, h] := by
  simp only [be64, List.cons.injEq, and_true]
  refine ⟨?_, ?_, ?_, ?_, ?_, ?_, ?_, ?_⟩ <;> ext i hi <;>
  simp only [BitVec.getElem_extractLsb', BitVec.getLsbD_append] <;>
  (repeat' split) <;> first | omega | (rw [← BitVec.getLsbD_eq_getElem]; congr 1; omega)

theorem rd64_bytes {b : List Byte} {v : BitVec 64} (h : rd64 b = .ret v) : be64 v = b.take 8 := by
  unfold rd64 at h
  split at h
  · simp only [Out.ret.injEq] at h
    rw [← h, be64_rd64]; rfl
  · cases h

theorem rd32_bytes {b : List Byte} {v : BitVec 32} (h : rd32 b = .ret v) : be32 v = b.take 4 := by
  rcases rd32_cases b with ⟨_, w, hw, e⟩ | ⟨_, e⟩
  · rw [hw] at h; cases h; exact e.symm
  · rw [e] at h; cases h

theorem rd16_bytes {b : List Byte} {v : BitVec 16} (h : rd16 b = .ret v) : be16 v = b.take 2 := by
  rcases rd16_cases b with ⟨_, w, hw, e⟩ | ⟨_, e⟩
  · rw [hw] at h; cases h; exact e.symm
  · rw [e] at h; cases h

theorem readWord_bytes {f : List Byte} {pos : Nat} {v : BitVec 32} (h : readWord f pos = .ret v) :
    pos + 4 ≤ f.length ∧ be32 v = (f.drop pos).take 4 := by
  obtain ⟨s, h1, h2⟩ := Out.bind_eq_ret h
  obtain ⟨_, b, rfl⟩ := slice_ret h1
  refine ⟨b, ?_⟩
  rw [rd32_bytes h2, show pos + 4 - pos = 4 by omega, List.take_take]
  simp

theorem readNum_again {f : List Byte} {pos n : Nat} (hn : n = 2 ∨ n = 4 ∨ n = 8) {v : BitVec 64}
    (h : readNum f pos n = .ret v) : pos + n ≤ f.length ∧ numBytes n v = (f.drop pos).take n := by
  obtain ⟨s, h1, h2⟩ := Out.bind_eq_ret h
  obtain ⟨_, b, rfl⟩ := slice_ret h1
  refine ⟨b, ?_⟩
  rw [show pos + n - pos = n by omega] at h2
  rcases hn with rfl | rfl | rfl
  · rw [if_pos rfl] at h2
    obtain ⟨w, h3, h4⟩ := Out.bind_eq_ret h2
    cases h4
    rw [numBytes, if_pos rfl, BitVec.setWidth_setWidth_of_le _ (by omega), BitVec.setWidth_eq, rd16_bytes h3,
      List.take_take]
    simp
  · rw [if_neg (by omega), if_pos rfl] at h2
    obtain ⟨w, h3, h4⟩ := Out.bind_eq_ret h2
    cases h4
    rw [numBytes, if_neg (by omega), if_pos rfl, BitVec.setWidth_setWidth_of_le _ (by omega), BitVec.setWidth_eq,
      rd32_bytes h3, List.take_take]
    simp
  · rw [if_neg (by omega), if_neg (by omega)] at h2
    rw [numBytes, if_neg (by omega), if_neg (by omega), rd64_bytes h2, List.take_take]
    simp

theorem readNum_small {f : List Byte} {pos n : Nat} (hn : n = 2 ∨ n = 4 ∨ n = 8) {v : BitVec 64}
    (h : readNum f pos n = .ret v) : v.toNat < 256 ^ n := by
  obtain ⟨s, h1, h2⟩ := Out.bind_eq_ret h
  rcases hn with rfl | rfl | rfl
  · rw [if_pos rfl] at h2
    obtain ⟨w, h3, h4⟩ := Out.bind_eq_ret h2
    cases h4
    rw [BitVec.toNat_setWidth]
    have := w.isLt
    omega
  · rw [if_neg (by omega), if_pos rfl] at h2
    obtain ⟨w, h3, h4⟩ := Out.bind_eq_ret h2
    cases h4
    rw [BitVec.toNat_setWidth]
    have := w.isLt
    omega
  · have := v.isLt
    omega

private theorem one (b : List Byte) (h : Byte) (h0 : byteAt b 0 = .ret h) : ∃ r, b = h :: r := by
  unfold byteAt at h0
  cases b with
  | nil => cases h0
  | cons a r => simp only [List.getElem?_cons_zero, Out.ret.injEq] at h0; exact ⟨r, by rw [h0]⟩

/-- A timestamp read from 16 bytes and written again: the bytes its type uses, then zeros. -/
theorem stamp_again {T : Tables} {t0 t : Timestamp} {b : List Byte} (len : b.length = 16)
    (h : t0.get T b = .ret (t, none)) :
    stampUses t.ttype ≤ 13 ∧
    t.put T = .ret (b.take (stampUses t.ttype) ++ mkBytes (16 - stampUses t.ttype)) := by
  unfold Timestamp.get at h
  obtain ⟨hd, h0, h⟩ := Out.bind_eq_ret h
  obtain ⟨tt, h1, h⟩ := Out.bind_eq_ret h
  obtain ⟨r, rfl⟩ := one b hd h0
  have lr : r.length = 15 := by simpa using len
  rw [getTStr_eq_nameT] at h1
  by_cases c1 : tt = "posix32"
  · rw [if_pos c1] at h
    obtain ⟨s, h2, h⟩ := Out.bind_eq_ret h
    obtain ⟨v, h3, h⟩ := Out.bind_eq_ret h
    cases h
    subst c1
    refine ⟨by simp [stampUses], ?_⟩
    obtain ⟨_, _, rfl⟩ := slice_ret h2
    have e := rd32_bytes h3
    unfold Timestamp.put
    rw [putAt_mk0 _ 1 _ (by simp) (by omega)]
    simp only [Out.ret_bind, h1, if_true]
    rw [putAt_mk [hd] _ 1 5 _ (by simp) (by simp) (by simp), BitVec.setWidth_setWidth_of_le _ (by omega),
      BitVec.setWidth_eq, e]
    simp [stampUses, List.take_take, lr]
  rw [if_neg c1] at h
  by_cases c2 : tt = "posix64"
  · rw [if_pos c2] at h
    obtain ⟨s, h2, h⟩ := Out.bind_eq_ret h
    obtain ⟨v, h3, h⟩ := Out.bind_eq_ret h
    cases h
    subst c2
    refine ⟨by simp [stampUses], ?_⟩
    obtain ⟨_, _, rfl⟩ := slice_ret h2
    have e := rd64_bytes h3
    unfold Timestamp.put
    rw [putAt_mk0 _ 1 _ (by simp) (by omega)]
    simp only [Out.ret_bind, h1]
    rw [if_neg (by decide), if_pos trivial, putAt_mk [hd] _ 1 9 _ (by simp) (by simp) (by simp), e]
    simp [stampUses, List.take_take, lr]
  rw [if_neg c2] at h
  by_cases c3 : tt = "posix32_32"
  · rw [if_pos c3] at h
    obtain ⟨s, h2, h⟩ := Out.bind_eq_ret h
    obtain ⟨v, h3, h⟩ := Out.bind_eq_ret h
    obtain ⟨s', h4, h⟩ := Out.bind_eq_ret h
    obtain ⟨v', h5, h⟩ := Out.bind_eq_ret h
    cases h
    subst c3
    refine ⟨by simp [stampUses], ?_⟩
    obtain ⟨_, _, rfl⟩ := slice_ret h2
    obtain ⟨_, _, rfl⟩ := slice_ret h4
    have e := rd32_bytes h3
    have e' := rd32_bytes h5
    unfold Timestamp.put
    rw [putAt_mk0 _ 1 _ (by simp) (by omega)]
    simp only [Out.ret_bind, h1]
    rw [if_neg (by decide), if_neg (by decide), if_pos trivial, putAt_mk [hd] _ 1 5 _ (by simp) (by simp) (by simp)]
    simp only [Out.ret_bind]
    rw [putAt_mk _ _ 5 9 _ (by simp) (by simp) (by simp), BitVec.setWidth_setWidth_of_le _ (by omega),
      BitVec.setWidth_eq, BitVec.setWidth_setWidth_of_le _ (by omega), BitVec.setWidth_eq, e, e']
    have q := List.take_append_drop 4 (r.take 8)
    simp only [stampUses, List.take_take, List.length_cons, lr, List.drop_succ_cons, List.drop_zero,
      List.take_succ_cons, List.length_append, List.length_nil, List.length_take, List.length_drop, List.cons_append,
      List.nil_append] at q ⊢
    rw [List.drop_take] at q
    simp at q ⊢
    rw [← List.append_assoc, q]
  rw [if_neg c3] at h
  by_cases c4 : tt = "posix64_32"
  · rw [if_pos c4] at h
    obtain ⟨s, h2, h⟩ := Out.bind_eq_ret h
    obtain ⟨v, h3, h⟩ := Out.bind_eq_ret h
    obtain ⟨s', h4, h⟩ := Out.bind_eq_ret h
    obtain ⟨v', h5, h⟩ := Out.bind_eq_ret h
    cases h
    subst c4
    refine ⟨by simp [stampUses], ?_⟩
    obtain ⟨_, _, rfl⟩ := slice_ret h2
    obtain ⟨_, _, rfl⟩ := slice_ret h4
    have e := rd64_bytes h3
    have e' := rd32_bytes h5
    unfold Timestamp.put
    rw [putAt_mk0 _ 1 _ (by simp) (by omega)]
    simp only [Out.ret_bind, h1]
    rw [if_neg (by decide), if_neg (by decide), if_neg (by decide), if_pos trivial,
      putAt_mk [hd] _ 1 9 _ (by simp) (by simp) (by simp)]
    simp only [Out.ret_bind]
    rw [putAt_mk _ _ 9 13 _ (by simp) (by simp) (by simp), BitVec.setWidth_setWidth_of_le _ (by omega),
      BitVec.setWidth_eq, e, e']
    have q := List.take_append_drop 8 (r.take 12)
    simp only [stampUses, List.take_take, List.length_cons, lr, List.drop_succ_cons, List.drop_zero,
      List.take_succ_cons, List.length_append, List.length_nil, List.length_take, List.length_drop, List.cons_append,
      List.nil_append] at q ⊢
    rw [List.drop_take] at q
    simp at q ⊢
    rw [← List.append_assoc, q]
  rw [if_neg c4] at h
  by_cases c5 : tt = "epoch2000_32"
  · rw [if_pos c5] at h
    obtain ⟨s, h2, h⟩ := Out.bind_eq_ret h
    obtain ⟨v, h3, h⟩ := Out.bind_eq_ret h
    cases h
    subst c5
    refine ⟨by simp [stampUses], ?_⟩
    obtain ⟨_, _, rfl⟩ := slice_ret h2
    have e := rd32_bytes h3
    unfold Timestamp.put
    rw [putAt_mk0 _ 1 _ (by simp) (by omega)]
    simp only [Out.ret_bind, h1]
    rw [if_neg (by decide), if_neg (by decide), if_neg (by decide), if_neg (by decide), if_pos trivial,
      putAt_mk [hd] _ 1 5 _ (by simp) (by simp) (by simp), BitVec.setWidth_setWidth_of_le _ (by omega),
      BitVec.setWidth_eq, e]
    simp [stampUses, List.take_take, lr]
  rw [if_neg c5] at h
  obtain ⟨s, h2, h⟩ := Out.bind_eq_ret h
  cases h

end Saratoga

namespace Saratoga

/-- The holes read from a frame, written again. -/
theorem getHoles_again {f : List Byte} {n : Nat} (hn : n = 2 ∨ n = 4 ∨ n = 8) {k pos : Nat} {acc hs : List Hole}
    (hp : pos ≤ f.length) (h : Status.getHoles f n k pos acc = .ret hs) :
    ∃ new, hs = acc ++ new ∧ new.length = k ∧ pos + k * (n * 2) ≤ f.length ∧
      holesBytes n new = (f.drop pos).take (k * (n * 2)) := by
  induction k generalizing pos acc with
  | zero =>
    simp only [Status.getHoles, Out.ret.injEq] at h
    exact ⟨[], by simp [h], rfl, by omega, by simp [holesBytes]⟩
  | succ k ih =>
    simp only [Status.getHoles] at h
    obtain ⟨a, h1, h⟩ := Out.bind_eq_ret h
    obtain ⟨b, h2, h⟩ := Out.bind_eq_ret h
    obtain ⟨_, e1⟩ := readNum_again hn h1
    obtain ⟨l2, e2⟩ := readNum_again hn h2
    obtain ⟨new, r1, r2, r3, r4⟩ := ih l2 h
    refine ⟨⟨a.toInt, b.toInt⟩ :: new, by rw [r1]; simp, by simp [r2], by rw [Nat.add_mul]; omega, ?_⟩
    have e : holesBytes n (⟨a.toInt, b.toInt⟩ :: new) = numBytes n a ++ (numBytes n b ++ holesBytes n new) := by
      simp [holesBytes, holeBytes]
    rw [e, e1, e2, r4, Nat.add_mul, Nat.add_comm (k * (n * 2)), Nat.one_mul, show n * 2 = n + n by omega,
      Nat.add_assoc n n, List.take_add, List.take_add (i := n), List.drop_drop, List.drop_drop]

theorem get_five {T : Tables} {t0 t : Timestamp} {th : Byte} {mb : List Byte} (len : mb.length = 4)
    (h : t0.get T (th :: mb) = .ret (t, none)) : be32 (t.secs.setWidth 32) = mb := by
  unfold Timestamp.get at h
  obtain ⟨hd, h0, h⟩ := Out.bind_eq_ret h
  obtain ⟨tt, h1, h⟩ := Out.bind_eq_ret h
  split at h
  · obtain ⟨s, h2, h⟩ := Out.bind_eq_ret h
    obtain ⟨v, h3, h⟩ := Out.bind_eq_ret h
    cases h
    obtain ⟨_, _, rfl⟩ := slice_ret h2
    rw [BitVec.setWidth_setWidth_of_le _ (by omega), BitVec.setWidth_eq, rd32_bytes h3]
    simp [List.take_of_length_le, len]
  split at h
  · obtain ⟨s, h2, h⟩ := Out.bind_eq_ret h
    have := (slice_ret h2).2.1
    simp [len] at this
  split at h
  · obtain ⟨s, h2, h⟩ := Out.bind_eq_ret h
    obtain ⟨v, h3, h⟩ := Out.bind_eq_ret h
    obtain ⟨s', h4, h⟩ := Out.bind_eq_ret h
    have := (slice_ret h4).2.1
    simp [len] at this
  split at h
  · obtain ⟨s, h2, h⟩ := Out.bind_eq_ret h
    have := (slice_ret h2).2.1
    simp [len] at this
  split at h
  · obtain ⟨s, h2, h⟩ := Out.bind_eq_ret h
    obtain ⟨v, h3, h⟩ := Out.bind_eq_ret h
    cases h
    obtain ⟨_, _, rfl⟩ := slice_ret h2
    rw [BitVec.setWidth_setWidth_of_le _ (by omega), BitVec.setWidth_eq, rd32_bytes h3]
    simp [List.take_of_length_le, len]
  obtain ⟨s, h2, h⟩ := Out.bind_eq_ret h
  cases h

/-- A directory entry read from bytes: what the bytes are. -/
theorem DirEnt.decode_inv {T : Tables} {d0 d : DirEnt} {b : List Byte} (h : d0.decode T b = .ret (d, none)) :
    ∃ desc n, getDStr T d.header "descriptor" = .ret desc ∧ descSize desc = some n ∧ 12 ≤ b.length ∧
      10 + n ≤ b.length ∧
      be16 d.header ++ numBytes n d.size ++ be32 (d.mtime.secs.setWidth 32) ++ be32 (d.ctime.secs.setWidth 32) =
        b.take (10 + n) ∧ d.path = garbled (upToNul (b.drop (10 + n))) ∧ d.size.toNat < 256 ^ n := by
  unfold DirEnt.decode at h
  split at h
  · cases h
  rename_i len
  obtain ⟨hb, h1, h⟩ := Out.bind_eq_ret h
  obtain ⟨hdr, h2, h⟩ := Out.bind_eq_ret h
  obtain ⟨desc, h3, h⟩ := Out.bind_eq_ret h
  cases hn : descSize desc with
  | none => simp only [hn] at h; cases h
  | some n =>
    simp only [hn] at h
    have hc := descSize_cases hn
    obtain ⟨size, h4, h⟩ := Out.bind_eq_ret h
    obtain ⟨th, h5, h⟩ := Out.bind_eq_ret h
    obtain ⟨mb, h6, h⟩ := Out.bind_eq_ret h
    obtain ⟨⟨mt, e⟩, h7, h⟩ := Out.bind_eq_ret h
    cases e with
    | some e => cases h
    | none =>
      obtain ⟨cb, h8, h⟩ := Out.bind_eq_ret h
      obtain ⟨⟨ct, e⟩, h9, h⟩ := Out.bind_eq_ret h
      cases e with
      | some e => cases h
      | none =>
        obtain ⟨rest, h10, h⟩ := Out.bind_eq_ret h
        cases h
        obtain ⟨_, _, rfl⟩ := slice_ret h1
        obtain ⟨_, l6, rfl⟩ := slice_ret h6
        obtain ⟨_, l8, rfl⟩ := slice_ret h8
        obtain ⟨l10, rfl⟩ := sliceFrom_ret h10
        have e2 := rd16_bytes h2
        obtain ⟨_, e4⟩ := readNum_again hc h4
        have e7 := get_five (by simp; omega) h7
        have e9 := get_five (by simp; omega) h9
        refine ⟨desc, n, h3, hn, by omega, by omega, ?_, ?_, readNum_small hc h4⟩
        · simp only at e2 e4 e7 e9 ⊢
          rw [e2, e4, e7, e9, show 10 + n = 2 + (n + (4 + 4)) by omega, List.take_add, List.take_add (i := n),
            List.take_add (i := 4)]
          simp only [List.drop_zero, List.drop_drop, List.append_assoc, List.take_take]
          simp [Nat.add_comm, Nat.add_left_comm, Nat.add_sub_cancel_left, show 8 + (n + 2) - (4 + (n + 2)) = 4 by omega]
        · rw [nameLoop_eq, List.nil_append, show 2 + n + 8 = 10 + n by omega]

/-- A name that comes through unchanged is ASCII. -/
theorem garbled_ascii_iff (l : List Byte) : (garbled l).length = l.length ↔ Ascii l := by
  rw [garbled_length]
  constructor
  · intro h b hb
    have : highBytes l = 0 := by omega
    unfold highBytes at this
    rw [List.countP_eq_zero] at this
    have := this b hb
    simp at this
    omega
  · intro h; rw [highBytes_ascii h]; rfl

theorem ascii_of_garbled {l : List Byte} (h : Ascii (garbled l)) : Ascii l := by
  intro b hb
  by_cases c : b.toNat < 128
  · exact c
  · have := h (BitVec.ofNat 8 (192 + b.toNat / 64)) (by
      unfold garbled
      rw [List.mem_flatMap]
      exact ⟨b, hb, by rw [if_neg c]; simp⟩)
    have := b.isLt
    simp only [BitVec.toNat_ofNat] at *
    omega

end Saratoga
