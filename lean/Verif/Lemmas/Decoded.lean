import Verif.Lemmas.MainLoop
/-! # What a decoded frame can be printed -/
namespace Saratoga

theorem readWord_zero_head {f : List Byte} {h : BitVec 32} (h8 : 4 ≤ f.length) (hr : readWord f 0 = .ret h) :
    h = headWord f := by
  rw [readWord_head h8] at hr; cases hr; rfl

/-- A decoded data frame: its header, and a readable timestamp if it has one. -/
theorem data_decoded {d0 x : Data} {f : List Byte} (h : d0.decode shipped f = .ret (x, none)) :
    x.header = headWord f ∧ (stampNumber (headWord f) = 1 → ∃ s, getTStr shipped x.tstamp.header = .ret s) := by
  unfold Data.decode at h
  split at h
  · cases h
  · obtain ⟨hd, h1, h⟩ := Out.bind_eq_ret h
    have hh := readWord_zero_head (by omega) h1
    subst hh
    obtain ⟨sess, _, h⟩ := Out.bind_eq_ret h
    simp only [getStr_reqtstamp, Out.ret_bind] at h
    by_cases hst : stampNumber (headWord f) = 1
    · simp only [hst, if_true] at h
      obtain ⟨tb, _, h⟩ := Out.bind_eq_ret h
      obtain ⟨⟨ts, e⟩, hts, h⟩ := Out.bind_eq_ret h
      cases e with
      | some e => cases h
      | none =>
        have := tsGet_header hts rfl
        simp only at h
        obtain ⟨desc, _, h⟩ := Out.bind_eq_ret h
        split at h
        · cases h
        · obtain ⟨off, _, h⟩ := Out.bind_eq_ret h
          obtain ⟨pay, _, h⟩ := Out.bind_eq_ret h
          split at h
          · cases h
          · cases h; exact ⟨rfl, fun _ => this⟩
    · simp only [hst, if_false] at h
      rw [if_neg (by decide)] at h
      obtain ⟨desc, _, h⟩ := Out.bind_eq_ret h
      split at h
      · cases h
      · obtain ⟨off, _, h⟩ := Out.bind_eq_ret h
        obtain ⟨pay, _, h⟩ := Out.bind_eq_ret h
        cases h; exact ⟨rfl, fun hc => absurd hc hst⟩

/-- A decoded entry has readable times. -/
theorem dirent_decoded {T : Tables} {d0 x : DirEnt} {f : List Byte} (h : d0.decode T f = .ret (x, none)) :
    (∃ s, getTStr T x.mtime.header = .ret s) ∧ ∃ s, getTStr T x.ctime.header = .ret s := by
  unfold DirEnt.decode at h
  split at h
  · cases h
  · obtain ⟨_, _, h⟩ := Out.bind_eq_ret h
    obtain ⟨_, _, h⟩ := Out.bind_eq_ret h
    obtain ⟨_, _, h⟩ := Out.bind_eq_ret h
    split at h
    · cases h
    · obtain ⟨_, _, h⟩ := Out.bind_eq_ret h
      obtain ⟨_, _, h⟩ := Out.bind_eq_ret h
      obtain ⟨_, _, h⟩ := Out.bind_eq_ret h
      obtain ⟨⟨mt, e⟩, hm, h⟩ := Out.bind_eq_ret h
      cases e with
      | some e => cases h
      | none =>
        simp only at h
        obtain ⟨_, _, h⟩ := Out.bind_eq_ret h
        obtain ⟨⟨ct, e⟩, hc, h⟩ := Out.bind_eq_ret h
        cases e with
        | some e => cases h
        | none =>
          simp only at h
          obtain ⟨_, _, h⟩ := Out.bind_eq_ret h
          cases h
          exact ⟨tsGet_header hm rfl, tsGet_header hc rfl⟩

/-- A decoded metadata frame: its header and readable times. -/
theorem metadata_decoded {T : Tables} {m0 x : MetaData} {f : List Byte} (h : m0.decode T f = .ret (x, none)) :
    x.header = headWord f ∧ (∃ s, getTStr T x.dir.mtime.header = .ret s) ∧
      ∃ s, getTStr T x.dir.ctime.header = .ret s := by
  unfold MetaData.decode at h
  split at h
  · cases h
  · obtain ⟨hd, h1, h⟩ := Out.bind_eq_ret h
    have hh := readWord_zero_head (by omega) h1
    subst hh
    obtain ⟨_, _, h⟩ := Out.bind_eq_ret h
    obtain ⟨_, _, h⟩ := Out.bind_eq_ret h
    obtain ⟨_, _, h⟩ := Out.bind_eq_ret h
    obtain ⟨⟨d, e⟩, hd, h⟩ := Out.bind_eq_ret h
    cases h
    exact ⟨rfl, dirent_decoded hd⟩

/-- Checksum types 0 to 3 have names. -/
theorem getStr_csumtype (h : BitVec 32) :
    (bitsAt h 0 4 < 4 ∧ ∃ s, getStr shipped h "csumtype" = .ret s) ∨
    (4 ≤ bitsAt h 0 4 ∧ getStr shipped h "csumtype" = .fatal) := by
  have wf : (shipped.flag "csumtype").WF := by decide
  have hlt : bitsAt h 0 4 < 16 := Nat.mod_lt _ (by decide)
  have hg := get_ofNat wf h 0 4 (by decide) (by decide)
  unfold getStr
  rw [hg]
  generalize bitsAt h 0 4 = k at *
  have all : ∀ k : Fin 16, (k.val < 4 ∧ (optName (BitVec.ofNat 32 k) (shipped.flag "csumtype").options).isSome = true) ∨
    (4 ≤ k.val ∧ optName (BitVec.ofNat 32 k) (shipped.flag "csumtype").options = none) := by decide +kernel
  rcases all ⟨k, hlt⟩ with ⟨a, b⟩ | ⟨a, b⟩
  · obtain ⟨s, hs⟩ := Option.isSome_iff_exists.1 b
    simp only at hs
    exact Or.inl ⟨a, s, by rw [hs]⟩
  · exact Or.inr ⟨a, by simp only at b; rw [b]⟩

end Saratoga
