import Verif.Model.Metadata
import Verif.Lemmas.Dirent
/-! # Helper lemmas about metadata frames -/
namespace Saratoga

/-- The bytes of an encoded metadata frame; `de` are those of the directory entry, empty if its
encoding fails. -/
theorem MetaData.encode_eq {T : Tables} {m : MetaData} {r : Except Err (List Byte)}
    (hd : m.dir.encode T = .ret r) :
    m.encode T = .ret (be32 m.header ++ be32 m.session ++ m.checksum ++
      bytesOrNil r) := by
  unfold MetaData.encode
  simp only [hd, Out.ret_bind]
  generalize bytesOrNil r = de
  rw [putAt_mk0 _ 4 _ (by simp) (by omega)]
  simp only [Out.ret_bind]
  rw [putAt_mk (be32 m.header) _ 4 8 _ (by simp) (by simp) (by simp; omega)]
  simp only [Out.ret_bind, be32_length]
  by_cases hc : m.checksum.length > 0
  · rw [if_pos hc, copyAt_mk (be32 m.header ++ be32 m.session) _ 8 (8 + m.checksum.length) _ (by simp)
      (by simp) (by simp; omega)]
    simp only [Out.ret_bind]
    rw [copyAt_mk (be32 m.header ++ be32 m.session ++ m.checksum) _ (8 + m.checksum.length) _ _
      (by simp; omega) (by simp; omega) (by simp; omega)]
    have : 4 + 4 + m.checksum.length + de.length - 4 - 4 - m.checksum.length - de.length = 0 := by omega
    rw [this]
    simp [mkBytes]
  · have : m.checksum = [] := List.length_eq_zero_iff.1 (by omega)
    rw [if_neg hc, this]
    simp only [Out.pure_eq, Out.ret_bind]
    rw [copyAt_mk (be32 m.header ++ be32 m.session) _ _ _ _
      (by simp) (by simp; omega) (by simp; omega)]
    have : 4 + 4 + ([] : List Byte).length + de.length - 4 - 4 - de.length = 0 := by simp; omega
    rw [this]
    simp [mkBytes]

/-- Decoding a frame long enough for its checksum. -/
theorem MetaData.decode_eq {T : Tables} (m0 : MetaData) {f : List Byte} (h8 : 8 ≤ f.length) :
    m0.decode T f =
      (let c := (get T (headWord f) "csumlen").toNat * 4
       if 8 + c ≤ f.length then do
         let (d, e) ← m0.dir.decode T (f.drop (8 + c))
         pure (⟨headWord f, BitVec.ofNat 32 (beNum ((f.drop 4).take 4)), (f.drop 8).take c, d⟩, e)
       else .panic) := by
  unfold MetaData.decode
  rw [if_neg (by omega), readWord_head (by omega), readWord_eq (by omega)]
  simp only [Out.ret_bind]
  split
  · rename_i hc
    rw [slice_ok (by omega) hc, sliceFrom_ok hc]
    simp only [Out.ret_bind]
    congr 1
    funext p
    congr 4
    congr 1
    omega
  · rw [slice_bad (by omega)]
    rfl

end Saratoga
