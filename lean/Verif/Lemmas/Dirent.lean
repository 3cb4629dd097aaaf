import Verif.Model.Dirent
import Verif.Lemmas.Request
import Verif.Lemmas.Timestamp
/-! # Helper lemmas about directory entries -/
namespace Saratoga

/-- The header byte of an epoch2000_32 timestamp. -/
theorem epoch_header {T : Tables} (he : HasEpoch T) :
    ∃ th, setT T 0 "epoch2000_32" = .ret th ∧ nameT T th = .ret "epoch2000_32" := by
  obtain ⟨wf, ho⟩ := he
  obtain ⟨v, hv⟩ := Option.isSome_iff_exists.1 ho
  have hlt : v.toNat < 2 ^ T.ts.len.toNat := wf.2.1 _ (assoc_mem hv)
  refine ⟨_, setT_eq hv 0, ?_⟩
  simp only [nameT, getT_eq, bitsGet_bitsSet (by decide : 0 < 8) _ _ _ _ wf.1 hlt]
  rw [optName_of_mem wf.2.2.1 (assoc_mem hv)]

theorem epoch_get {T : Tables} {th : BitVec 8} (hn : nameT T th = .ret "epoch2000_32") (t : Timestamp)
    (s : BitVec 32) : t.get T (th :: be32 s) = .ret (⟨th, s.setWidth 64, 0, [], "epoch2000_32"⟩, none) := by
  unfold Timestamp.get
  rw [show byteAt (th :: be32 s) 0 = .ret th from rfl]
  simp only [Out.ret_bind, getTStr_eq_nameT, hn]
  rw [if_neg (by decide), if_neg (by decide), if_neg (by decide), if_neg (by decide), if_pos trivial,
    show th :: be32 s = [th] ++ be32 s ++ [] by simp, slice_mid [th] (be32 s) [] 1 5 rfl rfl]
  simp

theorem desc_not128 {desc : String} {n : Nat} (hn : descSize desc = some n) : desc ≠ "d128" := by
  rintro rfl
  simp [descSize] at hn

theorem DirEnt.encode_eq {T : Tables} {d : DirEnt} {desc : String} {n : Nat}
    (hd : getDStr T d.header "descriptor" = .ret desc) (hn : descSize desc = some n)
    (hp : d.path.length ≤ 1024) (hs : ¬ d.size > direntLimit n) :
    d.encode T = .ret (.ok (be16 d.header ++ numBytes n d.size ++ be32 (d.mtime.secs.setWidth 32) ++
      be32 (d.ctime.secs.setWidth 32) ++ d.path ++ [0#8])) := by
  have hc := descSize_cases hn
  have hl := numBytes_length hc d.size
  unfold DirEnt.encode
  simp only [hd, Out.ret_bind, if_neg (desc_not128 hn), hn]
  rw [if_neg (by omega), if_neg hs]
  rw [putAt_mk0 _ 2 _ (by simp) (by omega)]
  simp only [Out.ret_bind]
  rw [putAt_mk (be16 d.header) _ 2 (2 + n) _ (by simp) (by omega) (by simp; omega)]
  simp only [Out.ret_bind]
  rw [putAt_mk (be16 d.header ++ numBytes n d.size) _ (2 + n) (2 + n + 4) _ (by simp [hl]) (by simp)
    (by simp [hl]; omega)]
  simp only [Out.ret_bind]
  rw [putAt_mk (be16 d.header ++ numBytes n d.size ++ be32 _) _ (2 + n + 4) (2 + n + 8) _
    (by simp [hl]; omega) (by simp) (by simp [hl]; omega)]
  simp only [Out.ret_bind]
  rw [copyAt_mk (be16 d.header ++ numBytes n d.size ++ be32 _ ++ be32 _) _ (2 + n + 8)
    (2 + n + 8 + d.path.length) _
    (by simp [hl]; omega) (by simp) (by simp [hl]; omega)]
  simp only [Out.ret_bind]
  rw [copyAt_mk (be16 d.header ++ numBytes n d.size ++ be32 _ ++ be32 _ ++ d.path) _
    (2 + n + 8 + d.path.length) _ _
    (by simp [hl]; omega) (by simp [hl]; omega) (by simp [hl]; omega)]
  simp only [Out.ret_bind, Out.pure_eq, be32_length, be16_length, hl, List.length_cons, List.length_nil]
  have : 2 + 4 + 4 + n + (d.path.length + 1) - 2 - n - 4 - 4 - d.path.length - (0 + 1) = 0 := by omega
  rw [this]
  simp [mkBytes]

/-- When encoding succeeds and what it yields. -/
theorem DirEnt.encode_inv {T : Tables} {d : DirEnt} {b : List Byte} (h : d.encode T = .ret (.ok b)) :
    ∃ desc n, getDStr T d.header "descriptor" = .ret desc ∧ descSize desc = some n ∧
      d.path.length ≤ 1024 ∧ ¬ d.size > direntLimit n ∧
      b = be16 d.header ++ numBytes n d.size ++ be32 (d.mtime.secs.setWidth 32) ++
      be32 (d.ctime.secs.setWidth 32) ++ d.path ++ [0#8] := by
  have h' := h
  unfold DirEnt.encode at h
  obtain ⟨desc, hd, h⟩ := Out.bind_eq_ret h
  split at h
  · split at h <;> cases h
  · cases hn : descSize desc with
    | none => simp [hn] at h
    | some n =>
      simp only [hn] at h
      split at h
      · cases h
      · rename_i hp
        split at h
        · cases h
        · rename_i hs
          rw [DirEnt.encode_eq hd hn (by omega) hs] at h'
          cases h'
          exact ⟨desc, n, hd, hn, by omega, hs, rfl⟩

theorem limit_fits {n : Nat} (hc : n = 2 ∨ n = 4 ∨ n = 8) {s : BitVec 64} (h : ¬ s > direntLimit n) :
    s.toNat < 256 ^ n := by
  rw [gt_iff_lt, BitVec.lt_def] at h
  rcases hc with rfl | rfl | rfl
  · have : (direntLimit 2).toNat = 65535 := by decide
    omega
  · have : (direntLimit 4).toNat = 4294967295 := by decide
    omega
  · have : (direntLimit 8).toNat = 4294967295 := by decide
    omega

/-- Decoding bytes of the encoded form (with anything after them). -/
theorem DirEnt.decode_eq {T : Tables} (he : HasEpoch T) {h : BitVec 16} {desc : String} {n : Nat}
    {s : BitVec 64} {m c : BitVec 32} {rest : List Byte} (d0 : DirEnt)
    (hd : getDStr T h "descriptor" = .ret desc) (hn : descSize desc = some n) :
    ∃ th, nameT T th = .ret "epoch2000_32" ∧ setT T 0 "epoch2000_32" = .ret th ∧
    d0.decode T (be16 h ++ numBytes n s ++ be32 m ++ be32 c ++ rest) =
      .ret (⟨h, wireNum n s, ⟨th, m.setWidth 64, 0, [], "epoch2000_32"⟩,
        ⟨th, c.setWidth 64, 0, [], "epoch2000_32"⟩, garbled (upToNul rest)⟩, none) := by
  have hc := descSize_cases hn
  have hl := numBytes_length hc s
  obtain ⟨th, hth, hnm⟩ := epoch_header he
  refine ⟨th, hnm, hth, ?_⟩
  unfold DirEnt.decode
  rw [if_neg (by simp [hl]; omega)]
  have e1 : slice (be16 h ++ numBytes n s ++ be32 m ++ be32 c ++ rest) 0 2 = .ret (be16 h) := by
    have := slice_mid [] (be16 h) (numBytes n s ++ be32 m ++ be32 c ++ rest) 0 2 rfl rfl
    simpa only [List.append_assoc, List.nil_append] using this
  have e2 : readNum (be16 h ++ numBytes n s ++ be32 m ++ be32 c ++ rest) 2 n = .ret (wireNum n s) := by
    have := readNum_mid hc (be16 h) (be32 m ++ be32 c ++ rest) s 2 rfl
    simpa only [List.append_assoc] using this
  have e3 : slice (be16 h ++ numBytes n s ++ be32 m ++ be32 c ++ rest) (2 + n) (2 + n + 4) = .ret (be32 m) := by
    have := slice_mid (be16 h ++ numBytes n s) (be32 m) (be32 c ++ rest) (2 + n) (2 + n + 4)
      (by simp [hl]) (by simp [hl])
    simpa only [List.append_assoc] using this
  have e4 : slice (be16 h ++ numBytes n s ++ be32 m ++ be32 c ++ rest) (2 + n + 4) (2 + n + 8) =
      .ret (be32 c) := by
    exact slice_mid (be16 h ++ numBytes n s ++ be32 m) (be32 c) rest (2 + n + 4) (2 + n + 8)
      (by simp [hl]; omega) (by simp [hl]; omega)
  have e5 : sliceFrom (be16 h ++ numBytes n s ++ be32 m ++ be32 c ++ rest) (2 + n + 8) = .ret rest :=
    sliceFrom_end _ _ _ (by simp [hl]; omega)
  simp only [e1, e2, e3, e4, e5, rd16_be16', Out.ret_bind, hd, hn, hth, epoch_get hnm, nameLoop_eq,
    List.nil_append, Out.pure_eq]

end Saratoga
