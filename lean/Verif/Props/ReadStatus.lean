import Verif.Lemmas.ReadStatus
import Verif.Props.Report
import Verif.Props.Resend
import Verif.Lemmas.Peers
/-! # C130: reading statuses -/
namespace Saratoga

/-! ## One datagram -/

/-- What a frame that says all is well makes `readstatus` do, the frames for the holes being `ds`. -/
def goodActs (fileLength : Nat) (f : List Byte) (st : Status) (ds : List Data) : List Act :=
  (if lacksMeta (headWord f) = 1 then [Act.metadata] else []) ++ [.position st.progress st.inrespto] ++
    (if st.progress = BitVec.ofNat 64 fileLength then [.word "success"] else []) ++ ds.map .data ++ [.word "success"]

/-- **C130** (partial: for datagrams that `readstatus` survives, see `C130_counterexample`.) `readstatus` goes on only
after a status of version 1 that says all is well and decodes. Then the caller is told its progress and its number,
the metadata is sent just when the status asks for it, and nothing else but frames for its holes; no holes, no frames. -/
theorem C130_good_partial (E : ReadEnv) (i : Nat) (dg : List Byte) (acts : List Act)
    (ran : readOne shipped E i dg = .ret (acts, false)) :
    let f := dg.take maxBuff
    SaysWell f ∧ ∃ st ds, Status.zero.decode shipped f = .ret (st, none) ∧ acts = goodActs E.file.length f st ds ∧
      (st.holes = [] → ds = []) := by
  intro f
  rcases readOne_cases E i dg with ⟨-, h⟩ | ⟨-, -, h⟩ | ⟨-, -, h⟩ | ⟨h4, hv, ht, h⟩
  · rw [h] at ran; cases ran
  · rw [h] at ran; cases ran
  · rw [h] at ran; cases ran
  rw [h] at ran
  obtain ⟨⟨st, e⟩, hd, ran⟩ := Out.bind_eq_ret ran
  cases e with
  | some e => cases ran
  | none =>
    simp only at ran
    obtain ⟨u, -, ran⟩ := Out.bind_eq_ret ran
    obtain ⟨w, hw, ran⟩ := Out.bind_eq_ret ran
    split at ran
    · cases ran
    · rename_i hs
      have hs := Classical.not_not.1 hs
      refine ⟨⟨h4, hv, ht, (errcode_success hw).1 hs⟩, st, ?_⟩
      split at ran
      · rename_i hm
        split at ran
        · cases ran
        · obtain ⟨u, -, ran⟩ := Out.bind_eq_ret ran
          obtain ⟨⟨as, done⟩, hg, ran⟩ := Out.bind_eq_ret ran
          cases ran
          obtain ⟨ds, w, h1, h2, h3, -⟩ := readGood_ret hg
          have : w = none := by
            cases w with
            | none => rfl
            | some w => simp at h3
          subst this
          refine ⟨ds, hd, ?_, fun hh => ?_⟩
          · rw [h2]
            simp [goodActs, f, hm]
          · rw [hh] at h1
            cases h1
            rfl
      · rename_i hm
        obtain ⟨ds, w, h1, h2, h3, -⟩ := readGood_ret ran
        have : w = none := by
          cases w with
          | none => rfl
          | some w => simp at h3
        subst this
        refine ⟨ds, hd, ?_, fun hh => ?_⟩
        · rw [h2]
          simp [goodActs, f, hm]
        · rw [hh] at h1
          cases h1
          rfl

/-- **C130** When `readstatus` returns after a datagram, the last it did was to send a word that is no success. -/
theorem C130_ends (E : ReadEnv) (i : Nat) (dg : List Byte) (acts : List Act)
    (ran : readOne shipped E i dg = .ret (acts, true)) :
    ∃ pre w, acts = pre ++ [.word w] ∧ w ≠ "success" ∧ ∀ v ∈ pre.filterMap Act.word?, v = "success" := by
  have good : ∀ st as, readGood shipped E i st = .ret (as, true) →
      ∃ pre w, as = pre ++ [.word w] ∧ w ≠ "success" ∧ ∀ v ∈ pre.filterMap Act.word?, v = "success" := by
    intro st as hg
    obtain ⟨ds, w, h1, h2, h3, h4⟩ := readGood_ret hg
    cases w with
    | none => simp at h3
    | some w =>
      refine ⟨_, w, h2, fun h => h4 (by rw [h]), ?_⟩
      have nd : ∀ ds : List Data, (ds.map Act.data).filterMap Act.word? = [] := by
        intro ds; induction ds with
        | nil => rfl
        | cons d ds ih => simpa [Act.word?] using ih
      intro v hv
      rw [List.filterMap_cons_none (by rfl), List.filterMap_append, nd, List.append_nil] at hv
      split at hv
      · simpa [Act.word?] using hv
      · cases hv
  rcases readOne_cases E i dg with ⟨-, h⟩ | ⟨-, -, h⟩ | ⟨-, -, h⟩ | ⟨h4, hv, ht, h⟩
  · rw [h] at ran; cases ran
  · rw [h] at ran; cases ran; exact ⟨[], _, rfl, by decide, by simp⟩
  · rw [h] at ran; cases ran
  rw [h] at ran
  obtain ⟨⟨st, e⟩, hd, ran⟩ := Out.bind_eq_ret ran
  cases e with
  | some e => cases ran; exact ⟨[], _, rfl, by decide, by simp⟩
  | none =>
    simp only at ran
    obtain ⟨u, -, ran⟩ := Out.bind_eq_ret ran
    obtain ⟨w, hw, ran⟩ := Out.bind_eq_ret ran
    split at ran
    · rename_i hne; cases ran; exact ⟨[], w, rfl, hne, by simp⟩
    · split at ran
      · split at ran
        · rename_i hne; cases ran; exact ⟨[.metadata], _, rfl, hne, by simp [Act.word?]⟩
        · obtain ⟨u, -, ran⟩ := Out.bind_eq_ret ran
          obtain ⟨⟨as, done⟩, hg, ran⟩ := Out.bind_eq_ret ran
          cases ran
          obtain ⟨pre, w, h1, h2, h3⟩ := good _ _ hg
          exact ⟨.metadata :: pre, w, by rw [h1]; rfl, h2, by
            rw [List.filterMap_cons_none (by rfl)]; exact h3⟩
      · exact good _ _ ran

/-- **C130** An error code that has a name is passed on by that name, and nothing else is done. -/
theorem C130_error_passed (E : ReadEnv) (i : Nat) (dg : List Byte) (st : Status) (long : 4 ≤ (dg.take maxBuff).length)
    (version : versionNumber (headWord (dg.take maxBuff)) = 1) (type : typeNumber (headWord (dg.take maxBuff)) = 4)
    (decoded : Status.zero.decode shipped (dg.take maxBuff) = .ret (st, none))
    (bad : 0 < errcodeNumber (headWord (dg.take maxBuff))) (named : errcodeNumber (headWord (dg.take maxBuff)) < 19) :
    ∃ w, getStr shipped (headWord (dg.take maxBuff)) "errcode" = .ret w ∧ w ≠ "success" ∧
      readOne shipped E i dg = .ret ([.word w], true) := by
  obtain ⟨-, hp⟩ := decoded_prints decoded
  have hp := hp.2 named
  obtain ⟨u, hu⟩ := returns_ret hp
  have hw : ∃ w, getStr shipped (headWord (dg.take maxBuff)) "errcode" = .ret w := by
    rw [getStr_errcode_eq]
    generalize errcodeNumber (headWord (dg.take maxBuff)) = k at named
    have key : ∀ k : Fin 19, (optName (BitVec.ofNat 32 k) (shipped.flag "errcode").options).isSome = true := by
      decide +kernel
    have := key ⟨k, named⟩
    simp only at this
    cases ho : optName (BitVec.ofNat 32 k) (shipped.flag "errcode").options with
    | none => rw [ho] at this; cases this
    | some s => exact ⟨s, rfl⟩
  obtain ⟨w, hw⟩ := hw
  have hne : w ≠ "success" := fun h => by have := (errcode_success hw).1 h; omega
  refine ⟨w, hw, hne, ?_⟩
  rcases readOne_cases E i dg with ⟨h, -⟩ | ⟨-, h, -⟩ | ⟨-, h, -⟩ | ⟨-, -, -, h⟩
  · omega
  · omega
  · omega
  · rw [h, decoded]
    simp only [Out.ret_bind]
    rw [hu, Out.ret_bind, hw, Out.ret_bind, if_pos hne]

/-- **C130** A datagram of version 0, and a status that cannot be decoded, end the reading as `badpacket`; nothing else is
done. -/
theorem C130_bad_packet (E : ReadEnv) (i : Nat) (dg : List Byte) (long : 4 ≤ (dg.take maxBuff).length)
    (bad : versionNumber (headWord (dg.take maxBuff)) = 0 ∨
      versionNumber (headWord (dg.take maxBuff)) = 1 ∧ typeNumber (headWord (dg.take maxBuff)) = 4 ∧
        ∃ st e, Status.zero.decode shipped (dg.take maxBuff) = .ret (st, some e)) :
    readOne shipped E i dg = .ret ([.word "badpacket"], true) := by
  rcases readOne_cases E i dg with ⟨h, -⟩ | ⟨-, -, h⟩ | ⟨-, h, -⟩ | ⟨-, hv, -, h⟩
  · omega
  · exact h
  · omega
  · rcases bad with h0 | ⟨-, -, st, e, hd⟩
    · omega
    · rw [h, hd]; rfl

/-- A status of version 0. -/
example : let dg : List Byte := [0x04, 0, 0, 0]
    4 ≤ (dg.take maxBuff).length ∧ versionNumber (headWord (dg.take maxBuff)) = 0 := by decide +kernel

/-- **C130** A status that says all is well, decodes, has no holes and does not ask for metadata is always survived. -/
theorem C130_well (E : ReadEnv) (i : Nat) (dg : List Byte) (st : Status) (well : SaysWell (dg.take maxBuff))
    (decoded : Status.zero.decode shipped (dg.take maxBuff) = .ret (st, none)) (whole : st.holes = [])
    (metadata : lacksMeta (headWord (dg.take maxBuff)) = 1 →
      E.metaWrite i = "success" ∧ (E.metaData.shortPrint shipped).returns) :
    readOne shipped E i dg = .ret (goodActs E.file.length (dg.take maxBuff) st [], false) := by
  obtain ⟨h4, hv, ht, h0⟩ := well
  obtain ⟨-, hp⟩ := decoded_prints decoded
  obtain ⟨u, hu⟩ := returns_ret (hp.2 (by omega))
  have hw : getStr shipped (headWord (dg.take maxBuff)) "errcode" = .ret "success" := by
    rw [getStr_errcode_eq, h0]; rfl
  have hg : readGood shipped E i st = .ret (Act.position st.progress st.inrespto ::
      ((if st.progress = BitVec.ofNat 64 E.file.length then [Act.word "success"] else []) ++ [.word "success"]), false) := by
    unfold readGood
    rw [whole]
    simp [fillHoles]
  rcases readOne_cases E i dg with ⟨h, -⟩ | ⟨-, h, -⟩ | ⟨-, h, -⟩ | ⟨-, -, -, h⟩
  · omega
  · omega
  · omega
  · rw [h, decoded]
    simp only [Out.ret_bind]
    rw [hu, Out.ret_bind, hw, Out.ret_bind, if_neg (by decide)]
    by_cases hm : lacksMeta (headWord (dg.take maxBuff)) = 1
    · obtain ⟨h1, h2⟩ := metadata hm
      obtain ⟨u, hu⟩ := returns_ret h2
      rw [if_pos hm, if_neg (by rw [h1]; decide), hu, Out.ret_bind, hg]
      simp [goodActs, hm]
    · rw [if_neg hm, hg]
      simp [goodActs, hm]

/-- **C130** Exactly the datagrams `readstatus` survives: the holes of a status that says all is well have to be, see
`C130_hole`. -/
theorem C130_survives_iff (E : ReadEnv) (i : Nat) (dg : List Byte) :
    let f := dg.take maxBuff
    (readOne shipped E i dg).returns ↔ 4 ≤ f.length ∧ (versionNumber (headWord f) = 0 ∨
      versionNumber (headWord f) = 1 ∧ typeNumber (headWord f) = 4 ∧ StatusDecodable f ∧
        ∀ st, Status.zero.decode shipped f = .ret (st, none) → errcodeNumber (headWord f) < 19 ∧
          (errcodeNumber (headWord f) = 0 → (lacksMeta (headWord f) = 1 → E.metaWrite i = "success" →
              (E.metaData.shortPrint shipped).returns) ∧
            ((lacksMeta (headWord f) = 1 → E.metaWrite i = "success") → (fillHoles shipped E i 0 st.holes).returns))) := by
  intro f
  have good : ∀ st, (readGood shipped E i st).returns ↔ (fillHoles shipped E i 0 st.holes).returns := by
    intro st
    unfold readGood
    cases fillHoles shipped E i 0 st.holes with
    | ret x => obtain ⟨ds, w⟩ := x; cases w <;> exact ⟨fun _ => trivial, fun _ => trivial⟩
    | fatal => exact Iff.rfl
    | panic => exact Iff.rfl
  rcases readOne_cases E i dg with ⟨h4, h⟩ | ⟨h4, hv, h⟩ | ⟨h4, hv, h⟩ | ⟨h4, hv, ht, h⟩
  · rw [h]
    exact ⟨False.elim, fun hh => absurd hh.1 (Nat.not_le.2 h4)⟩
  · rw [h]
    exact ⟨fun _ => ⟨h4, .inl hv⟩, fun _ => trivial⟩
  · rw [h]
    refine ⟨False.elim, fun hh => ?_⟩
    obtain ⟨-, h1 | ⟨h1, h2, -⟩⟩ := hh <;> simp only [f] at h1 <;> try simp only [f] at h2
    all_goals omega
  · rw [h]
    have hdec := C31_decode_returns_iff_partial Status.zero f
    refine Iff.trans ?_ (Iff.trans (b := StatusDecodable f ∧ ∀ st, Status.zero.decode shipped f = .ret (st, none) → errcodeNumber (headWord f) < 19 ∧
          (errcodeNumber (headWord f) = 0 → (lacksMeta (headWord f) = 1 → E.metaWrite i = "success" →
              (E.metaData.shortPrint shipped).returns) ∧
            ((lacksMeta (headWord f) = 1 → E.metaWrite i = "success") → (fillHoles shipped E i 0 st.holes).returns)))
      Iff.rfl ?_)
    · rw [← hdec]
      show Out.returns (Status.zero.decode shipped f >>= _) ↔ _
      cases hd : Status.zero.decode shipped f with
      | fatal => exact ⟨False.elim, fun h => h.1⟩
      | panic => exact ⟨False.elim, fun h => h.1⟩
      | ret x =>
        obtain ⟨st, e⟩ := x
        cases e with
        | some e => exact ⟨fun _ => ⟨trivial, fun st h => by cases h⟩, fun _ => trivial⟩
        | none =>
          obtain ⟨-, hp⟩ := decoded_prints hd
          simp only [Out.ret_bind]
          refine Iff.trans (b := errcodeNumber (headWord f) < 19 ∧
            (errcodeNumber (headWord f) = 0 → (lacksMeta (headWord f) = 1 → E.metaWrite i = "success" →
              (E.metaData.shortPrint shipped).returns) ∧
            ((lacksMeta (headWord f) = 1 → E.metaWrite i = "success") → (fillHoles shipped E i 0 st.holes).returns)))
            ?_ ⟨fun h => ⟨trivial, fun st' h' => by cases h'; exact h⟩, fun h => h.2 st rfl⟩
          by_cases h19 : errcodeNumber (headWord f) < 19
          · obtain ⟨u, hu⟩ := returns_ret (hp.2 h19)
            rw [hu, Out.ret_bind]
            obtain ⟨w, hw⟩ := errcode_name h19
            show Out.returns (getStr shipped (headWord f) "errcode" >>= _) ↔ _
            rw [hw, Out.ret_bind]
            have hs := errcode_success hw
            by_cases h0 : w = "success"
            · rw [if_neg (by rw [h0]; decide)]
              have h0' := hs.1 h0
              by_cases hm : lacksMeta (headWord f) = 1
              · rw [if_pos hm]
                by_cases hwr : E.metaWrite i = "success"
                · rw [if_neg (by rw [hwr]; decide)]
                  cases hmp : E.metaData.shortPrint shipped with
                  | fatal =>
                    exact ⟨False.elim, fun h => (h.2 h0').1 hm hwr⟩
                  | panic =>
                    exact ⟨False.elim, fun h => (h.2 h0').1 hm hwr⟩
                  | ret u =>
                    rw [Out.ret_bind]
                    refine Iff.trans (b := (readGood shipped E i st).returns) ?_ ?_
                    · cases readGood shipped E i st with
                      | ret x => exact ⟨fun _ => trivial, fun _ => trivial⟩
                      | fatal => exact Iff.rfl
                      | panic => exact Iff.rfl
                    · rw [good]
                      exact ⟨fun h => ⟨h19, fun _ => ⟨fun _ _ => trivial, fun _ => h⟩⟩,
                        fun h => (h.2 h0').2 fun _ => hwr⟩
                · rw [if_pos hwr]
                  exact ⟨fun _ => ⟨h19, fun _ => ⟨fun _ h => absurd h hwr, fun h => absurd (h hm) hwr⟩⟩, fun _ => trivial⟩
              · rw [if_neg hm, good]
                exact ⟨fun h => ⟨h19, fun _ => ⟨fun h => absurd h hm, fun _ => h⟩⟩,
                  fun h => (h.2 h0').2 fun h => absurd h hm⟩
            · rw [if_pos h0]
              exact ⟨fun _ => ⟨h19, fun h => absurd (hs.2 h) h0⟩, fun _ => trivial⟩
          · refine ⟨fun h => ?_, fun h => absurd h.1 h19⟩
            cases hpp : st.shortPrint shipped with
            | ret u => exact absurd (hp.1 (by rw [hpp]; trivial)) h19
            | fatal => rw [hpp] at h; exact h.elim
            | panic => rw [hpp] at h; exact h.elim
    · exact ⟨fun h => ⟨h4, .inr ⟨hv, ht, h⟩⟩, fun h => by
        rcases h.2 with h | h
        · simp only [f] at h; omega
        · exact h.2.2⟩

/-- Where a status puts its sender. -/
def statusPosition (f : List Byte) : Option (BitVec 64 × BitVec 64) :=
  match Status.zero.decode shipped f with
  | .ret (st, none) => some (st.progress, st.inrespto)
  | _ => none

theorem goodActs_position (n : Nat) (f : List Byte) (st : Status) (ds : List Data) :
    (goodActs n f st ds).filterMap Act.position? = [(st.progress, st.inrespto)] := by
  have nd : ∀ ds : List Data, (ds.map Act.data).filterMap Act.position? = [] := by
    intro ds; induction ds with
    | nil => rfl
    | cons d ds ih => simpa [Act.position?] using ih
  unfold goodActs
  simp only [List.filterMap_append, nd]
  split <;> split <;> rfl

theorem goodActs_word (n : Nat) (f : List Byte) (st : Status) (ds : List Data) :
    ∀ v ∈ (goodActs n f st ds).filterMap Act.word?, v = "success" := by
  have nd : ∀ ds : List Data, (ds.map Act.data).filterMap Act.word? = [] := by
    intro ds; induction ds with
    | nil => rfl
    | cons d ds ih => simpa [Act.word?] using ih
  unfold goodActs
  simp only [List.filterMap_append, nd]
  split <;> split <;> simp [Act.word?]

/-! ## The loop -/

/-- The bytes of a hole are all in the file; an empty hole has none. -/
def HoleInFile (length : Nat) (h : Hole) : Prop := 0 ≤ h.start ∧ (h.start = h.stop ∨ h.stop ≤ length)

/-- **C130** (with C93) Everything a hole can do. A hole that ends before it starts, or is longer than any buffer, ends the
program. One that is not in the file ends `readstatus` with `badoffset`, whatever the flags. For one in the file the block
length is worked out: if that ends the program or is 0, so does the hole; a hole shorter than a block, or a length below
0, is passed over; a longer hole ends the program unless it starts at the first byte of the file. -/
theorem C130_hole (E : ReadEnv) (i k : Nat) (h : Hole) :
    (h.stop < h.start ∨ (E.room : Int) < h.stop - h.start → fillHole shipped E i k h = .panic) ∧
    (h.start ≤ h.stop → h.stop - h.start ≤ E.room →
      (¬ HoleInFile E.file.length h → fillHole shipped E i k h = .ret ([], some "badoffset")) ∧
      (HoleInFile E.file.length h →
        (maxPaylen E.mtu E.dflags = .panic → fillHole shipped E i k h = .panic) ∧
        (maxPaylen E.mtu E.dflags = .fatal → fillHole shipped E i k h = .fatal) ∧
        ∀ plen, maxPaylen E.mtu E.dflags = .ret plen →
          (plen = 0 → fillHole shipped E i k h = .panic) ∧
          (plen < 0 ∨ h.stop - h.start < plen → plen ≠ 0 → fillHole shipped E i k h = .ret ([], none)) ∧
          (0 < plen → plen ≤ h.stop - h.start → 0 < h.start → fillHole shipped E i k h = .panic))) := by
  have reads : holeReads E.file E.room h = true ↔
      h.start ≤ h.stop ∧ h.stop - h.start ≤ E.room ∧ HoleInFile E.file.length h := by
    unfold holeReads HoleInFile
    simp only [Bool.and_eq_true, decide_eq_true_eq, List.length_drop]
    omega
  refine ⟨fun bad => ?_, fun order fits => ⟨fun out => ?_, fun inside => ?_⟩⟩
  · have hr : ¬ holeReads E.file E.room h = true := by rw [reads]; omega
    unfold fillHole
    rw [if_neg hr]
    unfold resendHole
    simp only
    rw [if_pos (by omega)]
  · have hr : ¬ holeReads E.file E.room h = true := by rw [reads]; exact fun x => out x.2.2
    unfold fillHole
    rw [if_neg hr]
    unfold resendHole
    simp only
    rw [if_neg (by omega)]
    by_cases hs : h.start < 0
    · rw [if_pos hs]
    · rw [if_neg hs, if_pos]
      rw [List.length_take, List.length_drop]
      unfold HoleInFile at out
      omega
  · have hr : holeReads E.file E.room h = true := reads.2 ⟨order, fits, inside⟩
    have hf : fillHole shipped E i k h = (maxPaylen E.mtu E.dflags >>= fun plen =>
        resendHole shipped (E.clock i k) (E.write i k) E.session E.dflags E.file E.room plen h) := by
      unfold fillHole; rw [if_pos hr]
    rw [hf]
    refine ⟨fun hm => by rw [hm]; rfl, fun hm => by rw [hm]; rfl, fun plen hm => ?_⟩
    rw [hm, Out.ret_bind]
    obtain ⟨i0, inF⟩ := inside
    have hbl : ((E.file.drop h.start.toNat).take (h.stop - h.start).toNat).length = (h.stop - h.start).toNat := by
      rw [List.length_take, List.length_drop]; omega
    refine ⟨fun p0 => ?_, fun small p0 => ?_, fun pos block later => ?_⟩
    · unfold resendHole
      simp only
      rw [if_neg (by omega), if_neg (by omega), if_neg (by omega), if_pos p0]
    · unfold resendHole
      simp only
      rw [if_neg (by omega), if_neg (by omega), if_neg (by omega), if_neg p0]
      generalize (E.file.drop h.start.toNat).take (h.stop - h.start).toNat = buf at *
      have hdiv : ((buf.length : Int).tdiv plen).toNat = 0 := by
        by_cases hneg : plen < 0
        · have h1 : (buf.length : Int).tdiv plen = - (buf.length : Int).tdiv (-plen) := by rw [Int.tdiv_neg, Int.neg_neg]
          have h2 : 0 ≤ (buf.length : Int).tdiv (-plen) := Int.tdiv_nonneg (by omega) (by omega)
          omega
        · rw [Int.tdiv_eq_ediv_of_nonneg (by omega), Int.ediv_eq_zero_of_lt (by omega) (by omega)]; rfl
      rw [hdiv]
      rfl
    · obtain ⟨p, rfl⟩ := Int.eq_ofNat_of_zero_le (Int.le_of_lt pos)
      exact C93_later_panics _ _ _ _ _ _ p h later (by omega) fits block

/-- **C130** Without the length of the file nothing is read: one word, and `readstatus` returns. -/
theorem C130_no_length (T : Tables) (E : ReadEnv) (reads : List (Option (List Byte))) :
    readStatus T E false reads = .ret ([.word "filenotfound"], true) := rfl

/-- **C130** The holes of a status are served in its order, each once: when all are passed, the frames are theirs one hole
after another; when one is given up, the frames are those up to it, and no later hole is looked at. -/
theorem C130_holes_in_order (T : Tables) (E : ReadEnv) (i : Nat) (frames : Nat → List Data) :
    ∀ (hs : List Hole) (k : Nat), (∀ j h, hs[j]? = some h → fillHole T E i (k + j) h = .ret (frames (k + j), none)) →
      fillHoles T E i k hs = .ret ((List.range hs.length).flatMap (fun j => frames (k + j)), none) ∧
      ∀ h ds w rest, fillHole T E i (k + hs.length) h = .ret (ds, some w) →
        fillHoles T E i k (hs ++ h :: rest) =
          .ret ((List.range hs.length).flatMap (fun j => frames (k + j)) ++ ds, some w)
  | [], k, _ => ⟨rfl, fun h ds w rest hf => by
      rw [List.nil_append]
      unfold fillHoles
      rw [show k + ([] : List Hole).length = k from rfl] at hf
      rw [hf]
      rfl⟩
  | g :: hs, k, each => by
    have h0 := each 0 g rfl
    rw [Nat.add_zero] at h0
    obtain ⟨a, b⟩ := C130_holes_in_order T E i frames hs (k + 1) (fun j h hj => by
      have := each (j + 1) h (by simpa using hj)
      rwa [show k + 1 + j = k + (j + 1) by omega])
    have hrange : (List.range (g :: hs).length).flatMap (fun j => frames (k + j)) =
        frames k ++ (List.range hs.length).flatMap (fun j => frames (k + 1 + j)) := by
      rw [List.length_cons, List.range_succ_eq_map, List.flatMap_cons, List.flatMap_map, Nat.add_zero]
      congr 1
      refine congrArg (List.flatMap · _) (funext fun j => ?_)
      rw [Nat.add_right_comm, Nat.add_assoc]
    refine ⟨?_, fun h ds w rest hf => ?_⟩
    · unfold fillHoles
      rw [h0, hrange]
      simp only [Out.ret_bind]
      rw [a]
      rfl
    · rw [List.cons_append]
      unfold fillHoles
      rw [h0, hrange]
      simp only [Out.ret_bind]
      rw [b h ds w rest (by rw [← hf, List.length_cons]; congr 1; omega)]
      simp only [Out.ret_bind, List.append_assoc]

/-- **C130** Of a datagram 9000 bytes are read, no more; and no fewer: a status in a datagram of at most 9000 bytes that
says all is well, decodes, has no holes and does not ask for metadata is taken whole. -/
theorem C130_window (E : ReadEnv) (i : Nat) (dg : List Byte) :
    readOne shipped E i dg = readOne shipped E i (dg.take 9000) ∧
    ∀ st, dg.length ≤ 9000 → SaysWell dg → Status.zero.decode shipped dg = .ret (st, none) → st.holes = [] →
      lacksMeta (headWord dg) ≠ 1 → readOne shipped E i dg = .ret (goodActs E.file.length dg st [], false) := by
  refine ⟨?_, fun st short well decoded whole asks => ?_⟩
  · unfold readOne
    rw [List.take_take, show min maxBuff 9000 = maxBuff by decide]
  · have ht : dg.take maxBuff = dg := List.take_of_length_le (by unfold maxBuff; exact short)
    have := C130_well E i dg st (by rw [ht]; exact well) (by rw [ht]; exact decoded) whole
      (by rw [ht]; exact fun h => absurd h asks)
    rwa [ht] at this

/-- **C130** As long as `readstatus` runs, whatever it read was a status that says all is well, the positions it told
are those of the statuses, in order, and every word it sent is `success`. -/
theorem C130_running (E : ReadEnv) (i : Nat) (reads : List (Option (List Byte))) (acts : List Act)
    (ran : readLoop shipped E i reads = .ret (acts, false)) :
    (∀ r ∈ reads, ∃ dg, r = some dg ∧ SaysWell (dg.take maxBuff)) ∧
    (acts.filterMap Act.position?).map some =
      reads.map (fun r => r.bind fun dg => statusPosition (dg.take maxBuff)) ∧
    ∀ v ∈ acts.filterMap Act.word?, v = "success" := by
  induction reads generalizing i acts with
  | nil => cases ran; simp
  | cons r rest ih =>
    cases r with
    | none => cases ran
    | some dg =>
      unfold readLoop at ran
      obtain ⟨⟨a, done⟩, h1, ran⟩ := Out.bind_eq_ret ran
      cases done with
      | true => cases ran
      | false =>
        simp only at ran
        rw [if_neg (by decide)] at ran
        obtain ⟨⟨more, done⟩, h2, ran⟩ := Out.bind_eq_ret ran
        cases ran
        obtain ⟨i1, i2, i3⟩ := ih (i + 1) more h2
        obtain ⟨sw, st, ds, hd, ha, -⟩ := C130_good_partial E i dg a h1
        refine ⟨?_, ?_, ?_⟩
        · intro r hr
          rcases List.mem_cons.1 hr with rfl | hr
          · exact ⟨dg, rfl, sw⟩
          · exact i1 r hr
        · rw [ha, List.filterMap_append, goodActs_position, List.map_append, i2, List.map_cons]
          simp [statusPosition, hd]
        · intro v hv
          rw [List.filterMap_append] at hv
          rcases List.mem_append.1 hv with hv | hv
          · rw [ha] at hv; exact goodActs_word _ _ _ _ v hv
          · exact i3 v hv

/-- **C130** `readstatus` returns with exactly one word that is no success, and that word is the last it sent. -/
theorem C130_returned (E : ReadEnv) (stat : Bool) (reads : List (Option (List Byte))) (acts : List Act)
    (ran : readStatus shipped E stat reads = .ret (acts, true)) :
    ∃ pre w, acts = pre ++ [.word w] ∧ w ≠ "success" ∧ ∀ v ∈ pre.filterMap Act.word?, v = "success" := by
  have loop : ∀ i acts, readLoop shipped E i reads = .ret (acts, true) →
      ∃ pre w, acts = pre ++ [.word w] ∧ w ≠ "success" ∧ ∀ v ∈ pre.filterMap Act.word?, v = "success" := by
    clear ran acts
    induction reads with
    | nil => intro i acts ran; cases ran
    | cons r rest ih =>
      intro i acts ran
      cases r with
      | none => cases ran; exact ⟨[], _, rfl, by decide, by simp⟩
      | some dg =>
        unfold readLoop at ran
        obtain ⟨⟨a, done⟩, h1, ran⟩ := Out.bind_eq_ret ran
        cases done with
        | true => cases ran; exact C130_ends E i dg _ h1
        | false =>
          simp only at ran
          rw [if_neg (by decide)] at ran
          obtain ⟨⟨more, done⟩, h2, ran⟩ := Out.bind_eq_ret ran
          cases ran
          obtain ⟨pre, w, e, hw, hp⟩ := ih (i + 1) more h2
          obtain ⟨-, st, ds, -, ha, -⟩ := C130_good_partial E i dg a h1
          refine ⟨a ++ pre, w, by rw [e, List.append_assoc], hw, fun v hv => ?_⟩
          rw [List.filterMap_append] at hv
          rcases List.mem_append.1 hv with hv | hv
          · rw [ha] at hv; exact goodActs_word _ _ _ _ v hv
          · exact hp v hv
  unfold readStatus at ran
  split at ran
  · exact loop 0 acts ran
  · cases ran; exact ⟨[], _, rfl, by decide, by simp⟩

/-- **C130** Silence, whenever it comes, ends `readstatus` with `cantreceive`; what comes later is not read. -/
theorem C130_silence (E : ReadEnv) (reads later : List (Option (List Byte))) (acts : List Act)
    (ran : readStatus shipped E true reads = .ret (acts, false)) :
    readStatus shipped E true (reads ++ none :: later) = .ret (acts ++ [.word "cantreceive"], true) := by
  have loop : ∀ i acts, readLoop shipped E i reads = .ret (acts, false) →
      readLoop shipped E i (reads ++ none :: later) = .ret (acts ++ [.word "cantreceive"], true) := by
    clear ran acts
    induction reads with
    | nil => intro i acts ran; cases ran; rfl
    | cons r rest ih =>
      intro i acts ran
      cases r with
      | none => cases ran
      | some dg =>
        unfold readLoop at ran
        obtain ⟨⟨a, done⟩, h1, ran⟩ := Out.bind_eq_ret ran
        cases done with
        | true => cases ran
        | false =>
          simp only at ran
          rw [if_neg (by decide)] at ran
          obtain ⟨⟨more, done⟩, h2, ran⟩ := Out.bind_eq_ret ran
          cases ran
          rw [List.cons_append]
          unfold readLoop
          rw [h1, Out.ret_bind]
          simp only
          rw [if_neg (by decide), ih (i + 1) more h2, Out.ret_bind, List.append_assoc]
  exact loop 0 acts ran

/-! ## What the other end reported -/

/-- **C130** (with C87; partial: reports without a timestamp whose numbers fit the descriptor, of a transfer without
gaps.) Each frame of a report that all is well makes `readstatus` tell exactly the progress and the number of the other
end, send the metadata if the report asks for it, and go on. -/
theorem C130_report_partial (E : ReadEnv) (i : Nat) (mtu : Int) (clock : Nat → GoTime) (fails : Nat → Option Err) (t : Transfer)
    (hist : List AddCall) (recorded : t.curfills = Holes.run hist)
    (nonneg : ∀ c ∈ hist, c.start < c.stop → 0 ≤ c.start)
    (noGap : ∀ x y, 0 ≤ x → x < y → Received hist y → Received hist x)
    (ps : List (String × String)) (plain : PlainPairs ps) (allValid : ∀ p ∈ ps, valid shipped p.1 p.2 = true)
    (d : String) (n : Nat) (desc : lastValue "descriptor" ps = some d) (width : descWidth d = some n)
    (noStamp : lastValue "reqtstamp" ps ≠ some "yes") (noBare : ∀ p ∈ ps, p.1 ∉ bareStamps)
    (fits : ∀ c ∈ hist, c.stop ≤ 256 ^ n ∧ c.stop ≤ 2 ^ 63)
    (fitsP : t.progress.toNat < 256 ^ n) (fitsI : t.inrespto.toNat < 256 ^ n)
    (well : lastValue "errcode" ps = some "success") (m : String) (asks : lastValue "metadatarecvd" ps = some m)
    (metadata : m = "no" → E.metaWrite i = "success" ∧ (E.metaData.shortPrint shipped).returns)
    (frames : List (List Byte))
    (ok : t.writeStatus shipped mtu clock fails (render ps) = .ret (frames, "success")) :
    ∀ f ∈ frames, f.length ≤ maxBuff → readOne shipped E i f = .ret ((if m = "no" then [.metadata] else []) ++
      [.position t.progress t.inrespto] ++
      (if t.progress = BitVec.ofNat 64 E.file.length then [.word "success"] else []) ++ [.word "success"], false) := by
  intro f hf hlen
  have ne : ps ≠ [] := by rintro rfl; cases desc
  obtain ⟨st, hd, -, hp, hi, can, cov⟩ := C87_learns_partial mtu clock fails t hist recorded nonneg ps plain allValid d n desc width
    noStamp noBare fits fitsP fitsI frames ok f hf
  have hholes : st.holes = [] := by
    cases hh : st.holes with
    | nil => rfl
    | cons h hs =>
      have lt := can.1 h (by rw [hh]; simp)
      obtain ⟨h0, h1, y, h2, h3⟩ := (cov h.start).1 ⟨h, by rw [hh]; simp, by omega, lt⟩
      exact absurd (noGap _ _ h0 h2 h3) h1
  obtain ⟨st', enc, -, -, -, -, hv, ht, fl⟩ := report_frames plain allValid ne noBare ok f hf
  have hhead : headWord f = st'.header := status_header_of_encode enc
  rw [← hhead] at hv ht
  have herr := (fl _ (.inr (.inr (.inl rfl)))).1 _ well
  have hm := (fl _ (.inr (.inr (.inr rfl)))).1 _ asks
  rw [← hhead] at herr hm
  rw [getStr_metadatarecvd] at hm
  have htake : f.take maxBuff = f := List.take_of_length_le hlen
  have h4 : 4 ≤ f.length := by
    have := ((status_decoded hd).1).1 rfl
    have := this.1
    omega
  have hsw : SaysWell f := by
    refine ⟨h4, ?_, ?_, (errcode_success herr).1 rfl⟩
    · rcases getStr_version (headWord f) with ⟨h, -⟩ | ⟨-, h⟩ | ⟨-, h⟩
      · exact h
      · rw [hv] at h; exact absurd (Out.ret.inj h) (by decide)
      · rw [hv] at h; cases h
    · rcases getStr_frametype (headWord f) with ⟨hk, h⟩ | ⟨-, h⟩
      · rw [ht] at h
        have h := Out.ret.inj h
        generalize typeNumber (headWord f) = k at h hk
        have : k = 0 ∨ k = 1 ∨ k = 2 ∨ k = 3 ∨ k = 4 := by omega
        rcases this with rfl | rfl | rfl | rfl | rfl
        · exact absurd h (by decide)
        · exact absurd h (by decide)
        · exact absurd h (by decide)
        · exact absurd h (by decide)
        · rfl
      · rw [ht] at h; cases h
  have hmm : lacksMeta (headWord f) = 1 ↔ m = "no" := by
    have := Out.ret.inj hm
    rw [← this]
    split
    · simp_all
    · rename_i h; exact ⟨fun h' => absurd h' h, fun h' => absurd h' (by decide)⟩
  have := C130_well E i f st (by rw [htake]; exact hsw) (by rw [htake]; exact hd) hholes
    (by rw [htake]; exact fun h => metadata (hmm.1 h))
  rw [this, htake]
  unfold goodActs
  rw [hp, hi]
  simp only [hmm, List.map_nil, List.append_nil]

/-! ## Where the code disagrees -/

/-- C130 as stated fails. A frame of version 1 that is no status ends the process, whatever it is, as does a datagram of
less than four bytes. A status of any session is taken for one of this transfer: the same is done whatever session it
names. And for a file that has arrived `success` is sent twice. -/
theorem C130_counterexample :
    (∀ (E : ReadEnv) (i : Nat) (dg : List Byte), 4 ≤ (dg.take maxBuff).length →
      versionNumber (headWord (dg.take maxBuff)) = 1 → typeNumber (headWord (dg.take maxBuff)) ≠ 4 →
      readOne shipped E i dg = .fatal) ∧
    (∀ (E : ReadEnv) (i : Nat) (dg : List Byte), dg.length < 4 → readOne shipped E i dg = .panic) ∧
    (∀ (E : ReadEnv) (i : Nat) (progress inrespto : BitVec 64), progress.toNat < 65536 → inrespto.toNat < 65536 →
      ∀ session, ∃ f, (Status.mk 0x24000000#32 session Timestamp.zero progress inrespto []).encode shipped =
          .ret (.ok f) ∧ readOne shipped E i f = .ret (.position progress inrespto ::
            (if progress = BitVec.ofNat 64 E.file.length then [.word "success", .word "success"]
              else [.word "success"]), false)) := by
  refine ⟨fun E i dg h4 hv ht => ?_, fun E i dg h => ?_, fun E i progress inrespto hp hi session => ?_⟩
  · rcases readOne_cases E i dg with ⟨h, -⟩ | ⟨-, h, -⟩ | ⟨-, -, h⟩ | ⟨-, -, h, -⟩
    · omega
    · omega
    · exact h
    · exact absurd h ht
  · rcases readOne_cases E i dg with ⟨-, h⟩ | ⟨h4, -⟩ | ⟨h4, -⟩ | ⟨h4, -⟩
    · exact h
    all_goals
      have := List.length_take_le maxBuff dg
      have := List.length_take_le' maxBuff dg
      omega
  · have hr : getStr shipped 0x24000000#32 "reqtstamp" = .ret "no" := by decide
    have hd : getStr shipped 0x24000000#32 "descriptor" = .ret "d16" := by decide
    obtain ⟨f, enc, dec⟩ := C25_round_trip_partial shipped
      (Status.mk 0x24000000#32 session Timestamp.zero progress inrespto []) Status.zero 2 "no" ⟨"d16", hd, rfl⟩ hr (by decide)
      hp hi (by intro h hh; cases hh) rfl
    refine ⟨f, enc, ?_⟩
    have hh : headWord f = 0x24000000#32 := status_header_of_encode enc
    have hl : f.length = 12 := by
      have := Status.encode_eq (s := Status.mk 0x24000000#32 session Timestamp.zero progress inrespto []) hr hd (n := 2) rfl
      rw [enc] at this
      cases this
      simp [numBytes_length, holesBytes, mkBytes]
    have htake : f.take maxBuff = f := List.take_of_length_le (by rw [hl]; decide)
    have := C130_well E i f _ (by
      rw [htake]; refine ⟨by omega, ?_, ?_, ?_⟩ <;> rw [hh] <;> decide) (by rw [htake]; exact dec) rfl
      (by rw [htake, hh]; exact fun h => absurd h (by decide))
    rw [this, htake]
    unfold goodActs
    rw [hh, if_neg (by decide)]
    congr 1
    split <;> rfl

/-! The hypotheses are met: a status that all is well, one that asks for the metadata, one with an error, and silence. -/

def readEnv : ReadEnv :=
  ⟨[1, 2, 3], "descriptor=d16", 9, MetaData.zero, 1500, 100, fun _ => "success", fun _ _ _ => ⟨1000, 0⟩,
    fun _ _ _ => "success"⟩

/-- A hole in the file and shorter than a block, an empty one behind it, and one that is not in it. -/
example : HoleInFile readEnv.file.length ⟨1, 3⟩ ∧ HoleInFile readEnv.file.length ⟨9, 9⟩ ∧
    ¬ HoleInFile readEnv.file.length ⟨1, 4⟩ ∧ maxPaylen readEnv.mtu readEnv.dflags = .ret 1422 := by
  unfold HoleInFile
  decide +kernel

example : fillHoles shipped readEnv 0 0 [⟨1, 3⟩, ⟨1, 4⟩, ⟨0, 2⟩] = .ret ([], some "badoffset") := rfl

def wellFrame : List Byte := [0x24, 0, 0, 0, 0, 0, 0, 7, 0, 2, 0, 1]
def askFrame : List Byte := [0x24, 4, 0, 0, 0, 0, 0, 7, 0, 3, 0, 1]
def errorFrame : List Byte := [0x24, 0, 0, 3, 0, 0, 0, 7, 0, 2, 0, 1]

example : ∃ st, Status.zero.decode shipped (errorFrame.take maxBuff) = .ret (st, none) ∧
    errcodeNumber (headWord (errorFrame.take maxBuff)) = 3 ∧ typeNumber (headWord (errorFrame.take maxBuff)) = 4 ∧
    versionNumber (headWord (errorFrame.take maxBuff)) = 1 := ⟨_, rfl, by decide +kernel⟩

example : SaysWell (wellFrame.take maxBuff) ∧ SaysWell (askFrame.take maxBuff) ∧ ¬ SaysWell (errorFrame.take maxBuff) ∧
    lacksMeta (headWord (askFrame.take maxBuff)) = 1 ∧ statusPosition wellFrame = some (2, 1) := by
  unfold SaysWell
  refine ⟨?_, ?_, ?_, ?_, rfl⟩ <;> decide

example : ∃ w, readStatus shipped readEnv true [some wellFrame, some askFrame, some errorFrame] =
    .ret ([.position 2 1, .word "success", .metadata, .position 3 1, .word "success", .word "success", .word w], true) :=
  ⟨_, rfl⟩

example : readStatus shipped readEnv true [some wellFrame, none, some askFrame] =
    .ret ([.position 2 1, .word "success", .word "cantreceive"], true) := rfl

end Saratoga
