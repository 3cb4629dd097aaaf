import Verif.Model.Request
import Verif.Spec.Request
import Verif.Lemmas.Frame
/-! # Helper lemmas about request frames -/
namespace Saratoga

theorem runeOfByte_eq : ∀ b : Byte, runeOfByte b =
    if b.toNat < 128 then [b] else [BitVec.ofNat 8 (192 + b.toNat / 64), BitVec.ofNat 8 (128 + b.toNat % 64)] := by
  decide +kernel

theorem nameLoop_eq (acc l : List Byte) : nameLoop acc l = acc ++ garbled (upToNul l) := by
  induction l generalizing acc with
  | nil => simp [nameLoop, upToNul, garbled]
  | cons b bs ih =>
    unfold nameLoop
    by_cases hb : b = 0#8
    · simp [hb, upToNul, garbled]
    · rw [if_neg hb, ih]
      simp [upToNul, garbled, hb, runeOfByte_eq]

theorem upToNul_append {l post : List Byte} (h : NoNul l) : upToNul (l ++ 0#8 :: post) = l := by
  unfold upToNul
  rw [List.takeWhile_append_of_pos (by simpa [NoNul] using h)]
  simp

theorem upToNul_end {l : List Byte} (h : NoNul l) : upToNul l = l := by
  unfold upToNul
  have := List.takeWhile_append_of_pos (p := fun b => decide (b ≠ 0#8)) (l₁ := l) (l₂ := [])
    (by simpa [NoNul] using h)
  simpa using this

theorem garbled_length (l : List Byte) : (garbled l).length = l.length + highBytes l := by
  induction l with
  | nil => rfl
  | cons b bs ih =>
    have e : garbled (b :: bs) = (if b.toNat < 128 then [b] else
        [BitVec.ofNat 8 (192 + b.toNat / 64), BitVec.ofNat 8 (128 + b.toNat % 64)]) ++ garbled bs := by
      simp [garbled]
    rw [e, List.length_append, ih]
    simp only [highBytes, List.countP_cons, List.length_cons]
    by_cases hb : b.toNat < 128
    · simp [hb, show ¬ 128 ≤ b.toNat by omega]; omega
    · simp [hb, show 128 ≤ b.toNat by omega]; omega

theorem garbled_ascii {l : List Byte} (h : Ascii l) : garbled l = l := by
  induction l with
  | nil => rfl
  | cons b bs ih =>
    have hb := h b (by simp)
    have := ih (fun x hx => h x (by simp [hx]))
    simp only [garbled] at this
    simp [garbled, hb, this]

theorem highBytes_ascii {l : List Byte} (h : Ascii l) : highBytes l = 0 := by
  unfold highBytes
  rw [List.countP_eq_zero]
  intro b hb
  have := h b hb
  simp; omega

theorem Request.encode_eq (r : Request) :
    r.encode = .ret (be32 r.header ++ be32 r.session ++ r.fname ++ [0#8] ++ r.auth) := by
  unfold Request.encode
  simp only
  rw [putAt_mk0 _ 4 _ (by simp) (by omega)]
  simp only [Out.ret_bind]
  rw [putAt_mk (be32 r.header) _ 4 8 _ (by simp) (by simp) (by simp; omega)]
  simp only [Out.ret_bind]
  rw [copyAt_mk (be32 r.header ++ be32 r.session) _ 8 (8 + r.fname.length) _ (by simp) (by omega)
    (by simp; omega)]
  simp only [Out.ret_bind]
  rw [copyAt_mk (be32 r.header ++ be32 r.session ++ r.fname) _ (8 + r.fname.length) _ _
    (by simp; omega) (by simp; omega) (by simp; omega)]
  simp only [Out.ret_bind]
  rw [copyAt_mk (be32 r.header ++ be32 r.session ++ r.fname ++ [0#8]) _ (8 + r.fname.length + 1) _ _
    (by simp; omega) (by simp; omega) (by simp; omega)]
  simp only [be32_length, List.length_cons, List.length_nil]
  have : 4 + 4 + r.fname.length + 1 + r.auth.length - 4 - 4 - r.fname.length - (0 + 1) - r.auth.length = 0 := by
    omega
  rw [this]
  simp [mkBytes]

/-- Decoding, with the two words read. -/
theorem Request.decode_eq (r0 : Request) {f : List Byte} (h9 : 9 ≤ f.length) :
    r0.decode f =
      (let name := r0.fname ++ garbled (upToNul (f.drop 8))
       if 9 + name.length = f.length then
         .ret (⟨headWord f, BitVec.ofNat 32 (beNum ((f.drop 4).take 4)), name, []⟩, none)
       else if 9 + name.length < f.length then
         .ret (⟨headWord f, BitVec.ofNat 32 (beNum ((f.drop 4).take 4)), name,
           f.drop (9 + name.length)⟩, none)
       else .panic) := by
  unfold Request.decode
  rw [if_neg (by omega), readWord_head (by omega), readWord_eq (by omega), sliceFrom_ok (by omega)]
  simp only [Out.ret_bind, nameLoop_eq]
  split
  · rfl
  · split
    · rename_i hlt
      rw [sliceFrom_ok (by omega)]
      rfl
    · rename_i h1 h2
      rw [sliceFrom_bad (by omega)]
      rfl

end Saratoga
