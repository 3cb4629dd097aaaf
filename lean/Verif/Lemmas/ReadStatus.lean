import Verif.Props.Print
import Verif.Props.Listen
import Verif.Spec.ReadStatus
/-! Lemmas on `readstatus`. -/
namespace Saratoga

theorem getStr_frametpye (h : BitVec 32) : getStr shipped h "frametpye" = .fatal := by
  unfold getStr
  rw [show (shipped.flag "frametpye").options = [] from rfl]
  rfl

theorem getStr_errcode_eq (h : BitVec 32) : getStr shipped h "errcode" = match optName (BitVec.ofNat 32 (errcodeNumber h))
    (shipped.flag "errcode").options with | some k => Out.ret k | none => .fatal := by
  unfold getStr
  rw [get_ofNat (by decide) h 0 8 (by decide) (by decide)]
  rfl

/-- The code 0 is the one called `success`. -/
theorem errcode_success {h : BitVec 32} {w : String} (hw : getStr shipped h "errcode" = .ret w) :
    w = "success" ↔ errcodeNumber h = 0 := by
  rw [getStr_errcode_eq] at hw
  have hlt : errcodeNumber h < 256 := Nat.mod_lt _ (by decide)
  generalize errcodeNumber h = k at hlt hw
  have key : ∀ k : Fin 256, (optName (BitVec.ofNat 32 k) (shipped.flag "errcode").options = some "success") ↔ k.val = 0 := by
    decide +kernel
  have := key ⟨k, hlt⟩
  simp only at this
  cases ho : optName (BitVec.ofNat 32 k) (shipped.flag "errcode").options with
  | none => rw [ho] at hw; cases hw
  | some s =>
    rw [ho] at hw this
    cases hw
    simpa using this

/-- The codes with a name are those below 19. -/
theorem errcode_name {h : BitVec 32} (named : errcodeNumber h < 19) : ∃ w, getStr shipped h "errcode" = .ret w := by
  rw [getStr_errcode_eq]
  generalize errcodeNumber h = k at named
  have key : ∀ k : Fin 19, (optName (BitVec.ofNat 32 k) (shipped.flag "errcode").options).isSome = true := by
    decide +kernel
  have := key ⟨k, named⟩
  simp only at this
  cases ho : optName (BitVec.ofNat 32 k) (shipped.flag "errcode").options with
  | none => rw [ho] at this; cases this
  | some s => exact ⟨s, rfl⟩

theorem getStr_metadatarecvd (h : BitVec 32) :
    getStr shipped h "metadatarecvd" = .ret (if lacksMeta h = 1 then "no" else "yes") := by
  unfold getStr
  rw [get_ofNat (by decide) h 18 1 (by decide) (by decide)]
  have hlt : bitsAt h 18 1 < 2 := Nat.mod_lt _ (by decide)
  unfold lacksMeta
  generalize bitsAt h 18 1 = k at hlt
  have : k = 0 ∨ k = 1 := by omega
  rcases this with rfl | rfl <;> rfl

/-- A decoded status prints just when its code has a name. -/
theorem decoded_prints {f : List Byte} {st : Status} (h : Status.zero.decode shipped f = .ret (st, none)) :
    st.header = headWord f ∧ ((st.shortPrint shipped).returns ↔ errcodeNumber (headWord f) < 19) := by
  obtain ⟨-, hd⟩ := status_decoded h
  obtain ⟨hh, hs⟩ := hd rfl
  refine ⟨hh, ?_⟩
  rw [C77_status_short_iff_partial, hh]
  refine and_iff_left ?_
  intro h1
  obtain ⟨s, hs⟩ := hs h1
  rcases getTStr_cases st.tstamp.header with ⟨h1, h2⟩ | ⟨h1, h2, -⟩ | ⟨h1, h2⟩
  · omega
  · omega
  · rw [hs] at h2; cases h2

/-- `readOne` on the shipped tables, by the number of version and type. -/
theorem readOne_cases (E : ReadEnv) (i : Nat) (dg : List Byte) :
    ((dg.take maxBuff).length < 4 ∧ readOne shipped E i dg = .panic) ∨
    (4 ≤ (dg.take maxBuff).length ∧ versionNumber (headWord (dg.take maxBuff)) = 0 ∧
      readOne shipped E i dg = .ret ([.word "badpacket"], true)) ∨
    (4 ≤ (dg.take maxBuff).length ∧ (2 ≤ versionNumber (headWord (dg.take maxBuff)) ∨
        versionNumber (headWord (dg.take maxBuff)) = 1 ∧ typeNumber (headWord (dg.take maxBuff)) ≠ 4) ∧
      readOne shipped E i dg = .fatal) ∨
    (4 ≤ (dg.take maxBuff).length ∧ versionNumber (headWord (dg.take maxBuff)) = 1 ∧
      typeNumber (headWord (dg.take maxBuff)) = 4 ∧
      readOne shipped E i dg = (do
        let (st, e) ← Status.zero.decode shipped (dg.take maxBuff)
        match e with
        | some _ => .ret ([.word "badpacket"], true)
        | none =>
          st.shortPrint shipped
          let errf ← getStr shipped (headWord (dg.take maxBuff)) "errcode"
          if errf ≠ "success" then .ret ([.word errf], true)
          else if lacksMeta (headWord (dg.take maxBuff)) = 1 then
            if E.metaWrite i ≠ "success" then .ret ([.metadata, .word (E.metaWrite i)], true)
            else
              E.metaData.shortPrint shipped
              let (acts, done) ← readGood shipped E i st
              .ret (.metadata :: acts, done)
          else readGood shipped E i st)) := by
  unfold readOne
  simp only
  generalize dg.take maxBuff = f
  by_cases h4 : f.length < 4
  · refine .inl ⟨h4, ?_⟩
    have : readWord f 0 = .panic := by unfold readWord; rw [slice_bad (by omega)]; rfl
    rw [this]; rfl
  · refine .inr ?_
    rw [readWord_head (by omega), Out.ret_bind]
    rcases getStr_version (headWord f) with ⟨hv, hg⟩ | ⟨hv, hg⟩ | ⟨hv, hg⟩
    · rw [hg, Out.ret_bind, if_neg (by decide)]
      rcases getStr_frametype (headWord f) with ⟨ht, hg⟩ | ⟨ht, hg⟩
      · rw [hg, Out.ret_bind]
        by_cases h5 : typeNumber (headWord f) = 4
        · rw [h5, if_pos (by rfl)]
          refine .inr (.inr ⟨by omega, hv, rfl, ?_⟩)
          rw [getStr_metadatarecvd]
          congr 1
          funext ⟨st, e⟩
          cases e with
          | some e => rfl
          | none =>
            simp only
            congr 1
            funext _
            congr 1
            funext errf
            split
            · rfl
            · rw [Out.ret_bind]
              by_cases hm : lacksMeta (headWord f) = 1
              · simp only [hm, if_true]
              · simp only [hm, if_false]
                rw [if_neg (by decide)]
        · rw [if_neg, getStr_frametpye]
          · exact .inr (.inl ⟨by omega, .inr ⟨hv, h5⟩, rfl⟩)
          · unfold typeNameOf
            repeat' split
            all_goals first | decide | omega
      · rw [hg]
        exact .inr (.inl ⟨by omega, .inr ⟨hv, by omega⟩, rfl⟩)
    · rw [hg, Out.ret_bind, if_pos (by decide)]
      exact .inl ⟨by omega, hv, rfl⟩
    · rw [hg]
      exact .inr (.inl ⟨by omega, .inl hv, rfl⟩)

/-! Holes give up with a word that is no success. -/

theorem holeLoop_word {T : Tables} {clock : Nat → GoTime} {write : Nat → String} {session : BitVec 32} {dflags : String}
    {buf : List Byte} {plen stop : Int} {n fc : Nat} {sent out : List Data} {w : String}
    (ok : holeLoop T clock write session dflags buf plen stop n fc sent = .ret (out, some w)) : w ≠ "success" := by
  induction n generalizing fc sent with
  | zero => unfold holeLoop at ok; cases ok
  | succ n ih =>
    unfold holeLoop at ok
    simp only at ok
    generalize (if (buf.length : Int) - (fc : Int) * plen + plen > stop then stop
      else (buf.length : Int) - (fc : Int) * plen + plen) = pend at ok
    split at ok
    · obtain ⟨⟨d, e⟩, h1, ok⟩ := Out.bind_eq_ret ok
      cases e with
      | some e => cases ok; decide
      | none =>
        simp only at ok
        split at ok
        · rename_i h; cases ok; exact h
        · obtain ⟨u, -, ok⟩ := Out.bind_eq_ret ok
          exact ih ok
    · cases ok

theorem fillHole_word {T : Tables} {E : ReadEnv} {i k : Nat} {h : Hole} {ds : List Data} {w : String}
    (ok : fillHole T E i k h = .ret (ds, some w)) : w ≠ "success" := by
  have key : ∀ plen, resendHole T (E.clock i k) (E.write i k) E.session E.dflags E.file E.room plen h =
      .ret (ds, some w) → w ≠ "success" := by
    intro plen ok
    unfold resendHole at ok
    simp only at ok
    split at ok
    · cases ok
    · split at ok
      · cases ok; decide
      · split at ok
        · cases ok; decide
        · split at ok
          · cases ok
          · exact holeLoop_word ok
  unfold fillHole at ok
  split at ok
  · obtain ⟨plen, -, ok⟩ := Out.bind_eq_ret ok
    exact key _ ok
  · exact key _ ok

theorem fillHoles_word {T : Tables} {E : ReadEnv} {i k : Nat} {hs : List Hole} {ds : List Data} {w : String}
    (ok : fillHoles T E i k hs = .ret (ds, some w)) : w ≠ "success" := by
  induction hs generalizing k ds with
  | nil => cases ok
  | cons h hs ih =>
    unfold fillHoles at ok
    obtain ⟨⟨d1, w1⟩, h1, ok⟩ := Out.bind_eq_ret ok
    cases w1 with
    | some w1 => cases ok; exact fillHole_word h1
    | none =>
      obtain ⟨⟨d2, w2⟩, h2, ok⟩ := Out.bind_eq_ret ok
      cases ok
      exact ih h2

/-- What `readGood` does. -/
theorem readGood_ret {T : Tables} {E : ReadEnv} {i : Nat} {st : Status} {acts : List Act} {done : Bool}
    (ok : readGood T E i st = .ret (acts, done)) :
    ∃ ds w, fillHoles T E i 0 st.holes = .ret (ds, w) ∧
      acts = Act.position st.progress st.inrespto ::
        ((if st.progress = BitVec.ofNat 64 E.file.length then [Act.word "success"] else []) ++ ds.map .data) ++
          [.word (w.getD "success")] ∧
      (done = true ↔ w ≠ none) ∧ (w ≠ some "success") := by
  unfold readGood at ok
  simp only at ok
  obtain ⟨⟨ds, w⟩, h1, ok⟩ := Out.bind_eq_ret ok
  refine ⟨ds, w, h1, ?_⟩
  cases w with
  | none => cases ok; simp
  | some w => cases ok; simp [fillHoles_word h1]

/-- The first word of an encoded status is its header. -/
theorem status_header_of_encode {s : Status} {f : List Byte} (enc : s.encode shipped = .ret (.ok f)) :
    headWord f = s.header := by
  have key : ∃ rest, f = be32 s.header ++ rest := by
    have enc' := enc
    unfold Status.encode at enc'
    obtain ⟨rt, hr, enc'⟩ := Out.bind_eq_ret enc'
    obtain ⟨desc, hd, enc'⟩ := Out.bind_eq_ret enc'
    cases hn : descSize desc with
    | none => rw [hn] at enc'; cases enc'
    | some n =>
      rw [Status.encode_eq hr hd hn] at enc
      cases enc
      exact ⟨be32 s.session ++ numBytes n s.progress ++ numBytes n s.inrespto ++ holesBytes n s.holes ++
        mkBytes (if rt = "yes" then 16 else 0), by simp only [List.append_assoc]⟩
  obtain ⟨rest, rfl⟩ := key
  unfold headWord
  rw [List.take_append_of_le_length (by simp), List.take_of_length_le (by simp), beNum_be32,
    BitVec.ofNat_toNat, BitVec.setWidth_eq]

end Saratoga
