import Verif.Model.Beacon
import Verif.Lemmas.Frame
/-! # Helper lemmas about beacons -/
namespace Saratoga

theorem Beacon.encode_yes {T : Tables} {b : Beacon} {fsd : String} {n : Nat}
    (hf : getStr T b.header "freespace" = .ret "yes") (hd : getStr T b.header "freespaced" = .ret fsd)
    (hn : descSize fsd = some n) :
    b.encode T = .ret (.ok (be32 b.header ++ numBytes n b.freespace ++ b.eid)) := by
  have hc := descSize_cases hn
  have hl := numBytes_length hc b.freespace
  unfold Beacon.encode
  simp only [hf, hd, hn, Out.ret_bind, if_true]
  rw [putAt_mk0 _ 4 _ (by simp) (by omega)]
  simp only [Out.ret_bind]
  rw [putAt_mk (be32 b.header) _ 4 (4 + n) _ (by simp) (by omega) (by simp; omega)]
  simp only [Out.ret_bind]
  rw [copyAt_mk (be32 b.header ++ numBytes n b.freespace) _ (4 + n) _ _ (by simp [hl])
    (by simp [hl]; omega) (by simp [hl]; omega)]
  simp only [Out.ret_bind, Out.pure_eq, be32_length, hl]
  congr 2
  have : 4 + b.eid.length + n - 4 - n - b.eid.length = 0 := by omega
  rw [this]
  simp [mkBytes]

theorem Beacon.encode_no {T : Tables} {b : Beacon} {fsp : String}
    (hf : getStr T b.header "freespace" = .ret fsp) (hy : fsp ≠ "yes") :
    b.encode T = .ret (.ok (be32 b.header ++ b.eid)) := by
  unfold Beacon.encode
  simp only [hf, Out.ret_bind, hy, if_false]
  rw [putAt_mk0 _ 4 _ (by simp) (by omega)]
  simp only [Out.ret_bind]
  rw [copyAt_mk (be32 b.header) _ 4 _ _ (by simp) (by simp) (by simp)]
  simp [mkBytes]

theorem Beacon.encode_inv {T : Tables} {b : Beacon} {frame : List Byte}
    (h : b.encode T = .ret (.ok frame)) :
    (∃ fsd n, getStr T b.header "freespace" = .ret "yes" ∧ getStr T b.header "freespaced" = .ret fsd ∧
      descSize fsd = some n ∧ frame = be32 b.header ++ numBytes n b.freespace ++ b.eid) ∨
    (∃ fsp, getStr T b.header "freespace" = .ret fsp ∧ fsp ≠ "yes" ∧ frame = be32 b.header ++ b.eid) := by
  have h' := h
  unfold Beacon.encode at h
  obtain ⟨fsp, hf, h⟩ := Out.bind_eq_ret h
  by_cases hy : fsp = "yes"
  · subst hy
    rw [if_pos rfl] at h
    obtain ⟨fsd, hd, h⟩ := Out.bind_eq_ret h
    cases hn : descSize fsd with
    | none => simp [hn] at h
    | some n =>
      rw [Beacon.encode_yes hf hd hn] at h'
      cases h'
      exact Or.inl ⟨fsd, n, hf, hd, hn, rfl⟩
  · rw [Beacon.encode_no hf hy] at h'
    cases h'
    exact Or.inr ⟨fsp, hf, hy, rfl⟩

theorem Beacon.decode_yes {T : Tables} {h : BitVec 32} {fsd : String} {n : Nat} {fs : BitVec 64}
    {eid : List Byte} (b0 : Beacon)
    (hf : getStr T h "freespace" = .ret "yes") (hd : getStr T h "freespaced" = .ret fsd)
    (hn : descSize fsd = some n) :
    b0.decode T (be32 h ++ numBytes n fs ++ eid) = .ret (⟨h, wireNum n fs, eid⟩, none) := by
  have hc := descSize_cases hn
  have hl := numBytes_length hc fs
  unfold Beacon.decode
  have e1 : readWord (be32 h ++ numBytes n fs ++ eid) 0 = .ret h := by
    simp only [List.append_assoc]; exact readWord_start _ _
  have e2 : readNum (be32 h ++ numBytes n fs ++ eid) 4 n = .ret (wireNum n fs) :=
    readNum_mid hc _ _ _ _ (by simp)
  have e3 : sliceFrom (be32 h ++ numBytes n fs ++ eid) (4 + n) = .ret eid :=
    sliceFrom_end _ _ _ (by simp [hl])
  simp only [e1, Out.ret_bind, hf, hd, hn, if_true, e2, e3, Out.pure_eq]

theorem Beacon.decode_no {T : Tables} {h : BitVec 32} {fsp : String}
    {eid : List Byte} (b0 : Beacon)
    (hf : getStr T h "freespace" = .ret fsp) (hy : fsp ≠ "yes") :
    b0.decode T (be32 h ++ eid) = .ret (⟨h, 0, eid⟩, none) := by
  unfold Beacon.decode
  have e1 : readWord (be32 h ++ eid) 0 = .ret h := readWord_start _ _
  have e3 : sliceFrom (be32 h ++ eid) 4 = .ret eid := sliceFrom_end _ _ _ (by simp)
  simp only [e1, Out.ret_bind, hf, hy, if_false, e3, Out.pure_eq]

end Saratoga
