import Verif.Model.Data
import Verif.Lemmas.Frame
import Verif.Lemmas.Timestamp
/-! # Helper lemmas about data frames -/
namespace Saratoga

/-- The bytes of an encoded data frame. -/
theorem Data.encode_eq {T : Tables} {d : Data} {rt desc : String} {n : Nat} {ts : List Byte}
    (hrt : getStr T d.header "reqtstamp" = .ret rt) (hd : getStr T d.header "descriptor" = .ret desc)
    (hn : descSize desc = some n)
    (hts : if rt = "yes" then d.tstamp.put T = .ret ts ∧ ts.length = 16 else ts = []) :
    d.encode T = .ret (.ok (be32 d.header ++ be32 d.session ++ ts ++ numBytes n d.offset ++ d.payload)) := by
  have hc := descSize_cases hn
  have hl := numBytes_length hc d.offset
  unfold Data.encode
  simp only [hrt, hd, hn, Out.ret_bind]
  by_cases hy : rt = "yes"
  · simp only [hy, if_true, decide_true] at hts ⊢
    obtain ⟨h1, h2⟩ := hts
    rw [putAt_mk0 _ 4 _ (by simp) (by omega)]
    simp only [Out.ret_bind]
    rw [putAt_mk (be32 d.header) _ 4 8 _ (by simp) (by simp) (by simp; omega)]
    simp only [Out.ret_bind, h1]
    rw [copyAt_mk (be32 d.header ++ be32 d.session) _ 8 24 _ (by simp) (by simp [h2]) (by simp; omega)]
    simp only [Out.ret_bind]
    rw [putAt_mk (be32 d.header ++ be32 d.session ++ ts) _ 24 (24 + n) _ (by simp [h2])
      (by omega) (by simp [h2]; omega)]
    simp only [Out.ret_bind]
    rw [copyAt_mk (be32 d.header ++ be32 d.session ++ ts ++ numBytes n d.offset) _ (24 + n) _ _
      (by simp [h2, hl]; omega) (by simp [h2, hl]; omega) (by simp [h2, hl]; omega)]
    simp only [Out.ret_bind, Out.pure_eq, be32_length, hl, h2]
    congr 2
    have : 4 + 4 + 16 + n + d.payload.length - 4 - 4 - 16 - n - d.payload.length = 0 := by omega
    rw [this]
    simp [mkBytes]
  · simp only [hy, if_false, decide_false, Bool.false_eq_true] at hts ⊢
    subst hts
    rw [putAt_mk0 _ 4 _ (by simp) (by omega)]
    simp only [Out.ret_bind]
    rw [putAt_mk (be32 d.header) _ 4 8 _ (by simp) (by simp) (by simp; omega)]
    simp only [Out.ret_bind, Out.pure_eq]
    rw [putAt_mk (be32 d.header ++ be32 d.session) _ 8 (8 + n) _ (by simp)
      (by omega) (by simp; omega)]
    simp only [Out.ret_bind]
    rw [copyAt_mk (be32 d.header ++ be32 d.session ++ numBytes n d.offset) _ (8 + n) _ _
      (by simp [hl]; omega) (by simp [hl]; omega) (by simp [hl]; omega)]
    simp only [Out.ret_bind, be32_length, hl]
    congr 2
    have : 4 + 4 + 0 + n + d.payload.length - 4 - 4 - n - d.payload.length = 0 := by omega
    rw [this]
    simp [mkBytes]

/-- Decoding such bytes. -/
theorem Data.decode_eq {T : Tables} {h sess : BitVec 32} {rt desc : String} {n : Nat}
    {ts : List Byte} {t t0 : Timestamp} {off : BitVec 64} {pay : List Byte} (d0 : Data)
    (h0 : d0.tstamp = t0)
    (hrt : getStr T h "reqtstamp" = .ret rt) (hd : getStr T h "descriptor" = .ret desc)
    (hn : descSize desc = some n)
    (hts : if rt = "yes" then t0.get T ts = .ret (t, none) ∧ ts.length = 16 else ts = [] ∧ t = t0) :
    d0.decode T (be32 h ++ be32 sess ++ ts ++ numBytes n off ++ pay) =
      .ret (⟨h, sess, t, wireNum n off, pay⟩,
        if rt = "yes" ∧ n = 2 ∧ pay = [] then some "length of data payload is 0" else none) := by
  have hc := descSize_cases hn
  have hl := numBytes_length hc off
  subst h0
  unfold Data.decode
  rw [if_neg (by simp [hl]; omega)]
  have e1 : readWord (be32 h ++ be32 sess ++ ts ++ numBytes n off ++ pay) 0 = .ret h := by
    simp only [List.append_assoc]; exact readWord_start _ _
  have e2 : readWord (be32 h ++ be32 sess ++ ts ++ numBytes n off ++ pay) 4 = .ret sess := by
    have := readWord_mid (be32 h) (ts ++ numBytes n off ++ pay) sess 4 (by simp)
    simpa only [List.append_assoc] using this
  simp only [e1, e2, Out.ret_bind, hrt, hd, hn]
  by_cases hy : rt = "yes"
  · simp only [hy, if_true] at hts ⊢
    obtain ⟨h1, h2⟩ := hts
    have e3 : slice (be32 h ++ be32 sess ++ ts ++ numBytes n off ++ pay) 8 24 = .ret ts := by
      have := slice_mid (be32 h ++ be32 sess) ts (numBytes n off ++ pay) 8 24 (by simp) (by simp [h2])
      simpa only [List.append_assoc] using this
    have e4 : readNum (be32 h ++ be32 sess ++ ts ++ numBytes n off ++ pay) 24 n = .ret (wireNum n off) :=
      readNum_mid hc _ _ _ _ (by simp [h2])
    have e5 : sliceFrom (be32 h ++ be32 sess ++ ts ++ numBytes n off ++ pay) (24 + n) = .ret pay :=
      sliceFrom_end _ _ _ (by simp [h2, hl]; omega)
    simp only [e3, Out.ret_bind, h1, e4, e5, Out.pure_eq, List.length_eq_zero_iff, true_and]
    split <;> simp
  · simp only [hy, if_false, false_and] at hts ⊢
    obtain ⟨rfl, rfl⟩ := hts
    simp only [List.append_nil]
    have e4 : readNum (be32 h ++ be32 sess ++ numBytes n off ++ pay) 8 n = .ret (wireNum n off) :=
      readNum_mid hc _ _ _ _ (by simp)
    have e5 : sliceFrom (be32 h ++ be32 sess ++ numBytes n off ++ pay) (8 + n) = .ret pay :=
      sliceFrom_end _ _ _ (by simp [hl]; omega)
    simp only [e4, e5, Out.ret_bind, Out.pure_eq]

end Saratoga

namespace Saratoga

/-- An encoding that succeeds has the explicit form. -/
theorem Data.encode_inv {T : Tables} {d : Data} {frame : List Byte} (h : d.encode T = .ret (.ok frame)) :
    ∃ rt desc n ts, getStr T d.header "reqtstamp" = .ret rt ∧ getStr T d.header "descriptor" = .ret desc ∧
      descSize desc = some n ∧ (if rt = "yes" then d.tstamp.put T = .ret ts ∧ ts.length = 16 else ts = []) ∧
      frame = be32 d.header ++ be32 d.session ++ ts ++ numBytes n d.offset ++ d.payload := by
  have h' := h
  unfold Data.encode at h
  obtain ⟨rt, hrt, h⟩ := Out.bind_eq_ret h
  obtain ⟨desc, hd, h⟩ := Out.bind_eq_ret h
  cases hn : descSize desc with
  | none => simp [hn] at h
  | some n =>
    simp only [hn] at h
    obtain ⟨f1, _, h⟩ := Out.bind_eq_ret h
    obtain ⟨f2, _, h⟩ := Out.bind_eq_ret h
    obtain ⟨f3, h3, h⟩ := Out.bind_eq_ret h
    have : ∃ ts, if rt = "yes" then d.tstamp.put T = .ret ts ∧ ts.length = 16 else ts = [] := by
      by_cases hy : rt = "yes"
      · simp only [hy, decide_true, if_true] at h3 ⊢
        obtain ⟨ts, hts, _⟩ := Out.bind_eq_ret h3
        exact ⟨ts, hts, put_length hts⟩
      · simp only [hy, if_false]; exact ⟨[], rfl⟩
    obtain ⟨ts, hts⟩ := this
    refine ⟨rt, desc, n, ts, hrt, hd, hn, hts, ?_⟩
    rw [Data.encode_eq hrt hd hn hts] at h'
    cases h'; rfl

end Saratoga
