import Verif.Lemmas.Listen
/-!
# C42: no datagram can terminate the listener

The property fails; the exact set of datagrams the listener survives is characterised. For those it is
shown what comes of them.
-/
namespace Saratoga

theorem seen_sized {mtu : Nat} {dg : List Byte} (h : Sized mtu dg) : dg.take (mtu + 40) = dg := by
  unfold Sized at h
  exact List.take_of_length_le (by omega)

/-- One round, by size. -/
theorem listenFrame_eq (T : Tables) (clock : GoTime) (mtu : Nat) (dg : List Byte) :
    (¬ Sized mtu dg ∧ listenFrame T clock mtu dg = .ret .drop) ∨
    (Sized mtu dg ∧ listenFrame T clock mtu dg =
      (getStr T (headWord dg) "version" >>= fun version =>
        if version ≠ "v1" then listenReply T clock "errcode=badpacket" ⟨0, 0, 0, []⟩
        else listenTyped T clock (headWord dg) dg)) := by
  by_cases h : Sized mtu dg
  · refine Or.inr ⟨h, ?_⟩
    have hs := seen_sized h
    unfold Sized at h
    unfold listenFrame
    simp only [hs]
    rw [if_neg (by omega), if_neg (by omega), readWord_head (by omega)]
    rfl
  · refine Or.inl ⟨h, ?_⟩
    unfold Sized at h
    unfold listenFrame
    simp only [List.length_take]
    by_cases h8 : min (mtu + 40) dg.length < 8
    · rw [if_pos h8]
    · rw [if_neg h8, if_pos (by omega)]

/-- The datagrams with a size and version the listener looks into and survives, by the shipped tables. -/
def TypedSafe (f : List Byte) : Prop :=
  -- beacon
  (typeNumber (headWord f) = 0 ∧
    ¬ (freeNumber (headWord f) = 1 ∧ freeDescNumber (headWord f) = 2 ∧ f.length < 12)) ∨
  -- request
  (typeNumber (headWord f) = 1 ∧
    (f.length < 9 ∨ 9 + (upToNul (f.drop 8)).length + highBytes (upToNul (f.drop 8)) ≤ f.length)) ∨
  -- metadata
  (typeNumber (headWord f) = 2 ∧ 8 + 4 * csumlenNumber (headWord f) ≤ f.length ∧
    DirentDecodable (f.drop (8 + 4 * csumlenNumber (headWord f)))) ∨
  -- data
  (typeNumber (headWord f) = 3 ∧ DataDecodable f) ∨
  -- status
  (typeNumber (headWord f) = 4 ∧ StatusDecodable f ∧
    (StatusComplete f → errcodeNumber (headWord f) < 19))

/-- The datagrams the listener survives. -/
def ListenSafe (mtu : Nat) (dg : List Byte) : Prop :=
  ¬ Sized mtu dg ∨ versionNumber (headWord dg) = 0 ∨
  (versionNumber (headWord dg) = 1 ∧ TypedSafe dg)

theorem bind_returns {α β : Type} {x : Out α} {f : α → Out β} (h : ∀ a, x = .ret a → (f a).returns) :
    (x >>= f).returns ↔ x.returns := by
  cases x with
  | ret a => exact ⟨fun _ => trivial, fun _ => h a rfl⟩
  | fatal => exact Iff.rfl
  | panic => exact Iff.rfl

theorem badFrame_returns (clock : GoTime) (header session : BitVec 32) (progress : BitVec 64) :
    (badFrame shipped clock header session progress).returns := by
  obtain ⟨st, h, _⟩ := badFrame_eq shipped_reply clock (header := header) (session := session)
    (progress := progress) (getStr_descriptor header) (descNameOf_mem _)
  rw [h]; trivial

/-- Printing a decoded status frame returns exactly when its error code has a name. -/
theorem status_prints {s0 s : Status} {f : List Byte} (h : s0.decode shipped f = .ret (s, none))
    (ht : typeNumber (headWord f) = 4) (hv : versionNumber (headWord f) = 1) :
    (s.shortPrint shipped >>= fun _ => s.print shipped >>= fun _ => (.ret (.rx (.status s)) : Out ListenAct)).returns ↔
      errcodeNumber (headWord f) < 19 := by
  obtain ⟨hh, hts⟩ := (status_decoded h).2 rfl
  unfold Status.shortPrint Status.print Timestamp.print
  have hts' : stampNumber (headWord f) = 0 ∨ ∃ t, getTStr shipped s.tstamp.header = .ret t := by
    have hb : stampNumber (headWord f) < 2 := Nat.mod_lt _ (by decide)
    by_cases h1 : stampNumber (headWord f) = 1
    · exact Or.inr (hts h1)
    · exact Or.inl (by omega)
  have hval : values shipped "status" = ["version", "frametype", "descriptor", "reqtstamp",
    "metadatarecvd", "allholes", "reqholes", "errcode"] := by decide
  obtain ⟨a1, b1⟩ := getStr_bit (f := "metadatarecvd") (by decide) (headWord f)
  obtain ⟨a2, b2⟩ := getStr_bit (f := "allholes") (by decide) (headWord f)
  obtain ⟨a3, b3⟩ := getStr_bit (f := "reqholes") (by decide) (headWord f)
  have hty : getStr shipped (headWord f) "frametype" = .ret "status" := by
    rcases getStr_frametype (headWord f) with ⟨_, k⟩ | ⟨k, _⟩
    · rw [k, ht]; rfl
    · omega
  have hve : getStr shipped (headWord f) "version" = .ret "v1" := by
    rcases getStr_version (headWord f) with ⟨_, k⟩ | ⟨k, _⟩ | ⟨k, _⟩
    · exact k
    · omega
    · omega
  rw [hh, hval]
  simp only [getStr_reqtstamp, Out.ret_bind]
  rcases getStr_errcode (headWord f) with ⟨hlt, e, he⟩ | ⟨hge, he⟩
  · rcases hts' with h0 | ⟨t, h0⟩
    · simp [h0, he, hve, hty, getStr_descriptor, getStr_reqtstamp, b1, b2, b3, Out.returns, hlt]
    · split <;> simp [h0, he, hve, hty, getStr_descriptor, getStr_reqtstamp, b1, b2, b3, Out.returns, hlt]
  · rcases hts' with h0 | ⟨t, h0⟩
    · simp [h0, he, Out.returns]; omega
    · split <;> simp [h0, he, Out.returns] <;> omega

/-- **C42** (the exact set; the property itself fails, see `C42_counterexample`). The listener survives
a datagram, that is drops it, queues a packet or queues a reply, exactly if the datagram is in
`ListenSafe`, whatever the clock and the MTU. -/
theorem C42_returns_iff_partial (clock : GoTime) (mtu : Nat) (dg : List Byte) :
    (listenFrame shipped clock mtu dg).returns ↔ ListenSafe mtu dg := by
  unfold ListenSafe
  rcases listenFrame_eq shipped clock mtu dg with ⟨hs, h⟩ | ⟨hs, h⟩
  · rw [h]; simp [hs, Out.returns]
  · have h8 : 8 ≤ dg.length := hs.1
    rw [h]
    rcases getStr_version (headWord dg) with ⟨hv, hg⟩ | ⟨hv, hg⟩ | ⟨hv, hg⟩
    · simp only [hs, hv, hg, Out.ret_bind, not_true_eq_false, ne_eq, if_false, false_or, true_and]
      unfold listenTyped TypedSafe
      rcases getStr_frametype (headWord dg) with ⟨ht, hg⟩ | ⟨ht, hg⟩
      · rw [hg]
        simp only [Out.ret_bind]
        have : typeNumber (headWord dg) = 0 ∨ typeNumber (headWord dg) = 1 ∨ typeNumber (headWord dg) = 2 ∨
          typeNumber (headWord dg) = 3 ∨ typeNumber (headWord dg) = 4 := by omega
        rcases this with k | k | k | k | k
        · rw [k, if_pos (by decide), bind_returns, C32_decode_returns_iff_partial]
          · have hk : freeDescNumber (headWord dg) < 4 := Nat.mod_lt _ (by decide)
            have hb : freeNumber (headWord dg) < 2 := Nat.mod_lt _ (by decide)
            generalize freeNumber (headWord dg) = a at *
            generalize freeDescNumber (headWord dg) = k at *
            have : k = 0 ∨ k = 1 ∨ k = 2 ∨ k = 3 := by omega
            rcases this with rfl | rfl | rfl | rfl <;> simp <;> omega
          · rintro ⟨b, e⟩ _
            cases e <;> trivial
        · rw [k, if_neg (by decide), if_pos (by decide), bind_returns, C29_decode_returns_iff_partial]
          · simp [Request.zero]
          · rintro ⟨b, e⟩ _
            cases e <;> trivial
        · rw [k, if_neg (by decide), if_neg (by decide), if_neg (by decide), if_pos (by decide), bind_returns,
            C30_metadata_returns_iff_partial]
          · simp; omega
          · rintro ⟨b, e⟩ _
            cases e with
            | none => trivial
            | some e =>
              obtain ⟨s, hsess⟩ := readWord_ok (f := dg) (pos := 4) (by omega)
              simp only [hsess, Out.ret_bind]
              exact badFrame_returns _ _ _ _
        · rw [k, if_neg (by decide), if_neg (by decide), if_pos (by decide), bind_returns,
            C28_decode_returns_iff_partial]
          · simp
          · rintro ⟨b, e⟩ _
            cases e with
            | none => trivial
            | some e => exact badFrame_returns _ _ _ _
        · rw [k, if_neg (by decide), if_neg (by decide), if_neg (by decide), if_neg (by decide),
            if_pos (by decide)]
          have hr := C31_decode_returns_iff_partial Status.zero dg
          cases hd : Status.zero.decode shipped dg with
          | fatal => rw [hd] at hr; simp [Out.returns] at hr ⊢; exact fun h => absurd h hr
          | panic => rw [hd] at hr; simp [Out.returns] at hr ⊢; exact fun h => absurd h hr
          | ret a =>
            obtain ⟨s, e⟩ := a
            rw [hd] at hr
            have hdec : StatusDecodable dg := hr.1 trivial
            have hc := (status_decoded hd).1
            simp only [Out.ret_bind]
            cases e with
            | none =>
              simp only
              show (s.shortPrint shipped >>= fun _ => s.print shipped >>= fun _ => (.ret (.rx (.status s)) : Out ListenAct)).returns ↔ _
              rw [status_prints hd k hv]
              simp [hdec, hc.1 rfl]
            | some e =>
              obtain ⟨w, hsess⟩ := readWord_ok (f := dg) (pos := 4) (by omega)
              simp only [hsess, Out.ret_bind]
              have hnc : ¬ StatusComplete dg := fun hh => by have := hc.2 hh; cases this
              simp [hdec, hnc, badFrame_returns]
      · rw [hg]; simp [Out.returns]; omega
    · obtain ⟨st, hst, _⟩ := badVersion_eq shipped_reply clock
      simp only [hs, hv, hg, Out.ret_bind]
      rw [if_pos (by decide), hst]
      simp [Out.returns]
    · simp only [hg, hs]
      simp [Out.returns]; omega

/-- **C42** fails: eight bytes with an unknown version number end the process, for every MTU that lets
eight bytes through. -/
theorem C42_counterexample : ∃ dg : List Byte, ∀ (clock : GoTime) (mtu : Nat), 68 ≤ mtu →
    ¬ (listenFrame shipped clock mtu dg).returns :=
  ⟨[0x40, 0, 0, 0, 0, 0, 0, 0], fun clock mtu hm => by
    rw [C42_returns_iff_partial]
    simp [ListenSafe, Sized, headWord, beNum, versionNumber, bitsAt]
    omega⟩

-- an ordinary data frame is survived; a stamped one of 8 payload bytes too short is not
example : ListenSafe 1500 ([0x23, 0x48, 0, 0, 0, 0, 0, 7, 1] ++ List.replicate 30 1#8) := by
  simp [ListenSafe, TypedSafe, Sized, DataDecodable, headWord, beNum, versionNumber, typeNumber, stampNumber,
    descNumber, bitsAt]
example : ¬ ListenSafe 1500 ([0x23, 0x48, 0, 0, 0, 0, 0, 7, 1] ++ List.replicate 18 1#8) := by
  simp [ListenSafe, TypedSafe, Sized, DataDecodable, headWord, beNum, versionNumber, typeNumber, stampNumber,
    descNumber, bitsAt]

/-! ## What comes of a datagram -/

theorem listenReply_not_rx {T : Tables} {clock : GoTime} {text : String} {info : Sinfo} {f : Frame} :
    listenReply T clock text info ≠ .ret (.rx f) := by
  unfold listenReply
  intro h
  obtain ⟨⟨st, e⟩, _, h⟩ := Out.bind_eq_ret h
  cases e <;> cases h

theorem badFrame_not_rx {T : Tables} {clock : GoTime} {header session : BitVec 32} {progress : BitVec 64}
    {f : Frame} : badFrame T clock header session progress ≠ .ret (.rx f) := by
  unfold badFrame
  intro h
  obtain ⟨d, _, h⟩ := Out.bind_eq_ret h
  exact listenReply_not_rx h

/-- **C42** What is queued for the main loop is exactly what the datagram says: it has a proper size,
version 1, and decodes to the frame without an error. Any tables. -/
theorem C42_delivers (T : Tables) (clock : GoTime) (mtu : Nat) (dg : List Byte) (f : Frame)
    (h : listenFrame T clock mtu dg = .ret (.rx f)) :
    Sized mtu dg ∧ getStr T (headWord dg) "version" = .ret "v1" ∧ Says T dg f := by
  rcases listenFrame_eq T clock mtu dg with ⟨_, h'⟩ | ⟨hs, h'⟩
  · rw [h'] at h; cases h
  · rw [h'] at h
    obtain ⟨v, hv, h⟩ := Out.bind_eq_ret h
    split at h
    · exact absurd h listenReply_not_rx
    · rename_i hne
      have hv1 : v = "v1" := by simpa using hne
      subst hv1
      refine ⟨hs, hv, ?_⟩
      unfold listenTyped at h
      obtain ⟨ft, hft, h⟩ := Out.bind_eq_ret h
      split at h
      · rename_i k; subst k
        obtain ⟨⟨b, e⟩, hd, h⟩ := Out.bind_eq_ret h
        cases e with
        | some e => cases h
        | none => cases h; exact ⟨hft, hd⟩
      · split at h
        · rename_i k; subst k
          obtain ⟨⟨b, e⟩, hd, h⟩ := Out.bind_eq_ret h
          cases e with
          | some e => cases h
          | none => cases h; exact ⟨hft, hd⟩
        · split at h
          · rename_i k; subst k
            obtain ⟨⟨b, e⟩, hd, h⟩ := Out.bind_eq_ret h
            cases e with
            | some e => exact absurd h badFrame_not_rx
            | none => cases h; exact ⟨hft, hd⟩
          · split at h
            · rename_i k; subst k
              obtain ⟨⟨b, e⟩, hd, h⟩ := Out.bind_eq_ret h
              cases e with
              | some e =>
                obtain ⟨w, _, h⟩ := Out.bind_eq_ret h
                exact absurd h badFrame_not_rx
              | none => cases h; exact ⟨hft, hd⟩
            · split at h
              · rename_i k; subst k
                obtain ⟨⟨b, e⟩, hd, h⟩ := Out.bind_eq_ret h
                cases e with
                | some e =>
                  obtain ⟨w, _, h⟩ := Out.bind_eq_ret h
                  exact absurd h badFrame_not_rx
                | none =>
                  obtain ⟨_, _, h⟩ := Out.bind_eq_ret h
                  obtain ⟨_, _, h⟩ := Out.bind_eq_ret h
                  cases h; exact ⟨hft, hd⟩
              · cases h

/-- **C42** And nothing that says something is lost: if the listener survives the datagram at all, the
frame is queued. Any tables. -/
theorem C42_delivered (T : Tables) (clock : GoTime) (mtu : Nat) (dg : List Byte) (f : Frame)
    (hs : Sized mtu dg) (hv : getStr T (headWord dg) "version" = .ret "v1") (h : Says T dg f)
    (alive : (listenFrame T clock mtu dg).returns) :
    listenFrame T clock mtu dg = .ret (.rx f) := by
  rcases listenFrame_eq T clock mtu dg with ⟨hn, _⟩ | ⟨_, h'⟩
  · exact absurd hs hn
  · rw [h'] at alive ⊢
    rw [hv] at alive ⊢
    simp only [Out.ret_bind, ne_eq, not_true_eq_false, if_false] at alive ⊢
    unfold listenTyped at alive ⊢
    cases f with
    | beacon b =>
      obtain ⟨h1, h2⟩ := h
      rw [h1] at alive ⊢
      simp only [Out.ret_bind, if_true, h2]
      rfl
    | request b =>
      obtain ⟨h1, h2⟩ := h
      rw [h1]
      simp only [Out.ret_bind]
      rw [if_neg (by decide), if_pos (by decide), h2]
      rfl
    | data b =>
      obtain ⟨h1, h2⟩ := h
      rw [h1]
      simp only [Out.ret_bind]
      rw [if_neg (by decide), if_neg (by decide), if_pos (by decide), h2]
      rfl
    | metadata b =>
      obtain ⟨h1, h2⟩ := h
      rw [h1]
      simp only [Out.ret_bind]
      rw [if_neg (by decide), if_neg (by decide), if_neg (by decide), if_pos (by decide), h2]
      rfl
    | status b =>
      obtain ⟨h1, h2⟩ := h
      rw [h1] at alive ⊢
      simp only [Out.ret_bind] at alive ⊢
      rw [if_neg (by decide), if_neg (by decide), if_neg (by decide), if_neg (by decide), if_pos (by decide), h2]
        at alive ⊢
      simp only [Out.ret_bind] at alive ⊢
      cases h3 : b.shortPrint T with
      | fatal => rw [h3] at alive; cases alive
      | panic => rw [h3] at alive; cases alive
      | ret u =>
        rw [h3] at alive
        simp only [Out.ret_bind] at alive ⊢
        cases h4 : b.print T with
        | fatal => rw [h4] at alive; cases alive
        | panic => rw [h4] at alive; cases alive
        | ret u => rfl

/-- The session number a datagram carries in its bytes 4 to 7. -/
def sessionOf (dg : List Byte) : BitVec 32 := BitVec.ofNat 32 (beNum ((dg.drop 4).take 4))

/-- **C42** A reply is queued only for a datagram that has a proper size and cannot be read, and the
reply says `badpacket`. For a wrong version it names session 0 and has
a 16 bit descriptor; for a metadata, data or status frame it
echoes the descriptor and the session, except that a data frame of less than 10 bytes is answered for
session 0. The reply shows no progress, except that a stamped data frame with a 16 bit offset and nothing
after it is answered with that offset. Beacons and requests are never answered here. -/
theorem C42_reply (clock : GoTime) (mtu : Nat) (dg : List Byte) (st : Status)
    (h : listenFrame shipped clock mtu dg = .ret (.tx st)) :
    Sized mtu dg ∧ (∀ f, ¬ (versionNumber (headWord dg) = 1 ∧ Says shipped dg f)) ∧
    ((versionNumber (headWord dg) = 0 ∧ st.Refuses shipped 0 0 ∧ descNumber st.header = 0) ∨
     (versionNumber (headWord dg) = 1 ∧ 2 ≤ typeNumber (headWord dg) ∧ typeNumber (headWord dg) ≤ 4 ∧
      descNumber st.header = descNumber (headWord dg) ∧
      ∃ session progress, st.Refuses shipped session progress ∧
        session = (if typeNumber (headWord dg) = 3 ∧ dg.length < 10 then 0 else sessionOf dg) ∧
        (progress = 0 ∨ (typeNumber (headWord dg) = 3 ∧ dg.length = 26 ∧
          progress.toNat = beNum (dg.drop 24))))) := by
  have alive : (listenFrame shipped clock mtu dg).returns := by rw [h]; trivial
  have hvs : versionNumber (headWord dg) = 1 → getStr shipped (headWord dg) "version" = .ret "v1" := by
    intro hv
    rcases getStr_version (headWord dg) with ⟨_, k⟩ | ⟨k, _⟩ | ⟨k, _⟩
    · exact k
    · omega
    · omega
  rcases listenFrame_eq shipped clock mtu dg with ⟨_, h'⟩ | ⟨hs, h'⟩
  · rw [h'] at h; cases h
  · refine ⟨hs, fun f hf => ?_, ?_⟩
    · have := C42_delivered shipped clock mtu dg f hs (hvs hf.1) hf.2 alive
      rw [h] at this; cases this
    · have h8 : 8 ≤ dg.length := hs.1
      rw [h'] at h
      have hdesc : ∀ x : Status, getStr shipped x.header "descriptor" = .ret (descNameOf (descNumber (headWord dg))) →
          descNumber x.header = descNumber (headWord dg) := by
        intro x hx
        rw [getStr_descriptor] at hx
        have h1 : descNumber x.header < 4 := Nat.mod_lt _ (by decide)
        have h2 : descNumber (headWord dg) < 4 := Nat.mod_lt _ (by decide)
        have key : ∀ a b : Fin 4, descNameOf a.val = descNameOf b.val → a.val = b.val := by decide +kernel
        exact key ⟨_, h1⟩ ⟨_, h2⟩ (by injection hx)
      have hsess : readWord dg 4 = .ret (sessionOf dg) := readWord_eq (by omega)
      rcases getStr_version (headWord dg) with ⟨hv, hg⟩ | ⟨hv, hg⟩ | ⟨hv, hg⟩
      · refine Or.inr ⟨hv, ?_⟩
        rw [hg] at h
        simp only [Out.ret_bind, ne_eq, not_true_eq_false, if_false] at h
        unfold listenTyped at h
        rcases getStr_frametype (headWord dg) with ⟨ht, hgt⟩ | ⟨ht, hgt⟩
        · rw [hgt] at h
          simp only [Out.ret_bind] at h
          have : typeNumber (headWord dg) = 0 ∨ typeNumber (headWord dg) = 1 ∨ typeNumber (headWord dg) = 2 ∨
            typeNumber (headWord dg) = 3 ∨ typeNumber (headWord dg) = 4 := by omega
          rcases this with k | k | k | k | k
          · rw [k, if_pos (by decide)] at h
            obtain ⟨⟨b, e⟩, _, h⟩ := Out.bind_eq_ret h
            cases e <;> cases h
          · rw [k, if_neg (by decide), if_pos (by decide)] at h
            obtain ⟨⟨b, e⟩, _, h⟩ := Out.bind_eq_ret h
            cases e <;> cases h
          · rw [k, if_neg (by decide), if_neg (by decide), if_neg (by decide), if_pos (by decide)] at h
            obtain ⟨⟨b, e⟩, _, h⟩ := Out.bind_eq_ret h
            cases e with
            | none => cases h
            | some e =>
              simp only [hsess, Out.ret_bind] at h
              obtain ⟨st', h1, h2, h3⟩ := badFrame_eq shipped_reply clock (header := headWord dg)
                (session := sessionOf dg) (progress := 0) (getStr_descriptor _) (descNameOf_mem _)
              rw [h1] at h; cases h
              refine ⟨by omega, by omega, hdesc _ h3, sessionOf dg, 0, h2, ?_, Or.inl rfl⟩
              rw [if_neg (by omega)]
          · rw [k, if_neg (by decide), if_neg (by decide), if_pos (by decide)] at h
            obtain ⟨⟨b, e⟩, hd, h⟩ := Out.bind_eq_ret h
            cases e with
            | none => cases h
            | some e =>
              simp only at h
              obtain ⟨st', h1, h2, h3⟩ := badFrame_eq shipped_reply clock (header := headWord dg)
                (session := b.session) (progress := b.offset) (getStr_descriptor _) (descNameOf_mem _)
              rw [h1] at h; cases h
              refine ⟨by omega, by omega, hdesc _ h3, b.session, b.offset, h2, ?_⟩
              rw [k]
              simp only [true_and]
              by_cases h10 : dg.length < 10
              · simp only [Data.decode, h10, if_true] at hd
                cases hd
                exact ⟨by rw [if_pos h10]; rfl, Or.inl rfl⟩
              · rw [if_neg h10]
                unfold Data.decode at hd
                rw [if_neg h10, readWord_head (by omega), hsess] at hd
                simp only [Out.ret_bind] at hd
                obtain ⟨rt, _, hd⟩ := Out.bind_eq_ret hd
                split at hd
                · obtain ⟨tb, _, hd⟩ := Out.bind_eq_ret hd
                  obtain ⟨⟨ts, e1⟩, _, hd⟩ := Out.bind_eq_ret hd
                  cases e1 with
                  | some e1 => cases hd; exact ⟨rfl, Or.inl rfl⟩
                  | none =>
                    simp only at hd
                    obtain ⟨desc, _, hd⟩ := Out.bind_eq_ret hd
                    split at hd
                    · cases hd; exact ⟨rfl, Or.inl rfl⟩
                    · rename_i n hn
                      obtain ⟨o, ho, hd⟩ := Out.bind_eq_ret hd
                      obtain ⟨pp, hpp, hd⟩ := Out.bind_eq_ret hd
                      split at hd
                      · rename_i hz
                        cases hd
                        refine ⟨rfl, Or.inr ?_⟩
                        obtain ⟨n2, hl0⟩ := hz
                        subst n2
                        by_cases h26 : 26 ≤ dg.length
                        · rw [sliceFrom_ok (by omega)] at hpp
                          cases hpp
                          rw [List.length_drop] at hl0
                          have h26' : dg.length = 26 := by omega
                          refine ⟨h26', ?_⟩
                          rw [readNum_val (Or.inl rfl) ho]
                          congr 1
                          exact List.take_of_length_le (by simp; omega)
                        · rw [sliceFrom_bad (by omega)] at hpp; cases hpp
                      · cases hd
                · obtain ⟨desc, _, hd⟩ := Out.bind_eq_ret hd
                  split at hd
                  · cases hd; exact ⟨rfl, Or.inl rfl⟩
                  · obtain ⟨o, _, hd⟩ := Out.bind_eq_ret hd
                    obtain ⟨pp, _, hd⟩ := Out.bind_eq_ret hd
                    cases hd
          · rw [k, if_neg (by decide), if_neg (by decide), if_neg (by decide), if_neg (by decide),
              if_pos (by decide)] at h
            obtain ⟨⟨b, e⟩, _, h⟩ := Out.bind_eq_ret h
            cases e with
            | none =>
              obtain ⟨_, _, h⟩ := Out.bind_eq_ret h
              obtain ⟨_, _, h⟩ := Out.bind_eq_ret h
              cases h
            | some e =>
              simp only [hsess, Out.ret_bind] at h
              obtain ⟨st', h1, h2, h3⟩ := badFrame_eq shipped_reply clock (header := headWord dg)
                (session := sessionOf dg) (progress := 0) (getStr_descriptor _) (descNameOf_mem _)
              rw [h1] at h; cases h
              refine ⟨by omega, by omega, hdesc _ h3, sessionOf dg, 0, h2, ?_, Or.inl rfl⟩
              rw [if_neg (by omega)]
        · rw [hgt] at h; cases h
      · refine Or.inl ⟨hv, ?_⟩
        obtain ⟨st', h1, h2, h3⟩ := badVersion_eq shipped_reply clock
        rw [hg] at h
        simp only [Out.ret_bind] at h
        rw [if_pos (by decide), h1] at h
        cases h
        refine ⟨h2, ?_⟩
        have e : getStr shipped st.header "descriptor" = getStr shipped 0 "descriptor" := by
          unfold getStr; rw [h3]
        rw [getStr_descriptor, getStr_descriptor] at e
        have h1 : descNumber st.header < 4 := Nat.mod_lt _ (by decide)
        have key : ∀ a : Fin 4, descNameOf a.val = descNameOf (descNumber 0#32) → a.val = 0 := by decide +kernel
        exact key ⟨_, h1⟩ (by injection e)
      · rw [hg] at h; cases h

-- a status frame of 8 bytes is answered for its session; a data frame of 9 for session 0
example : ∃ st, listenFrame shipped ⟨0, 0⟩ 1500 [0x24, 0, 0, 0, 0, 0, 0, 7] = .ret (.tx st) ∧ st.session = 7 :=
  ⟨_, rfl, rfl⟩
example : ∃ st, listenFrame shipped ⟨0, 0⟩ 1500 [0x23, 0, 0, 0, 0, 0, 0, 7, 1] = .ret (.tx st) ∧ st.session = 0 :=
  ⟨_, rfl, rfl⟩

/-- **C42** Everything else the listener survives is dropped without a trace: what is not of a proper
size, and beacons and requests that do not decode. -/
theorem C42_dropped (clock : GoTime) (mtu : Nat) (dg : List Byte)
    (alive : (listenFrame shipped clock mtu dg).returns) :
    listenFrame shipped clock mtu dg = .ret .drop ↔
      ¬ Sized mtu dg ∨ (versionNumber (headWord dg) = 1 ∧ typeNumber (headWord dg) < 2 ∧
        ∀ f, ¬ Says shipped dg f) := by
  constructor
  · intro h
    rcases listenFrame_eq shipped clock mtu dg with ⟨hs, _⟩ | ⟨hs, h'⟩
    · exact Or.inl hs
    · refine Or.inr ?_
      have hv1 : versionNumber (headWord dg) = 1 := by
        rcases getStr_version (headWord dg) with ⟨hv, _⟩ | ⟨_, hg⟩ | ⟨_, hg⟩
        · exact hv
        · obtain ⟨st', h1, _⟩ := badVersion_eq shipped_reply clock
          rw [h', hg] at h
          simp only [Out.ret_bind] at h
          rw [if_pos (by decide), h1] at h
          cases h
        · rw [h', hg] at h; cases h
      have hvs : getStr shipped (headWord dg) "version" = .ret "v1" := by
        rcases getStr_version (headWord dg) with ⟨_, k⟩ | ⟨k, _⟩ | ⟨k, _⟩
        · exact k
        · omega
        · omega
      refine ⟨hv1, ?_, fun f hf => ?_⟩
      · rw [h', hvs] at h
        simp only [Out.ret_bind, ne_eq, not_true_eq_false, if_false] at h
        unfold listenTyped at h
        rcases getStr_frametype (headWord dg) with ⟨ht, hgt⟩ | ⟨ht, hgt⟩
        · rw [hgt] at h
          simp only [Out.ret_bind] at h
          have bad : ∀ s p, badFrame shipped clock (headWord dg) s p ≠ .ret .drop := by
            intro s p hb
            obtain ⟨st', h1, _⟩ := badFrame_eq shipped_reply clock (header := headWord dg)
              (session := s) (progress := p) (getStr_descriptor _) (descNameOf_mem _)
            rw [h1] at hb; cases hb
          have : typeNumber (headWord dg) < 2 ∨ typeNumber (headWord dg) = 2 ∨
            typeNumber (headWord dg) = 3 ∨ typeNumber (headWord dg) = 4 := by omega
          rcases this with k | k | k | k
          · exact k
          · rw [k, if_neg (by decide), if_neg (by decide), if_neg (by decide), if_pos (by decide)] at h
            obtain ⟨⟨b, e⟩, _, h⟩ := Out.bind_eq_ret h
            cases e with
            | none => cases h
            | some e =>
              obtain ⟨w, _, h⟩ := Out.bind_eq_ret h
              exact absurd h (bad _ _)
          · rw [k, if_neg (by decide), if_neg (by decide), if_pos (by decide)] at h
            obtain ⟨⟨b, e⟩, hd, h⟩ := Out.bind_eq_ret h
            cases e with
            | none => cases h
            | some e => exact absurd h (bad _ _)
          · rw [k, if_neg (by decide), if_neg (by decide), if_neg (by decide), if_neg (by decide),
              if_pos (by decide)] at h
            obtain ⟨⟨b, e⟩, _, h⟩ := Out.bind_eq_ret h
            cases e with
            | none =>
              obtain ⟨_, _, h⟩ := Out.bind_eq_ret h
              obtain ⟨_, _, h⟩ := Out.bind_eq_ret h
              cases h
            | some e =>
              obtain ⟨w, _, h⟩ := Out.bind_eq_ret h
              exact absurd h (bad _ _)
        · rw [hgt] at h; cases h
      · have := C42_delivered shipped clock mtu dg f hs hvs hf alive
        rw [h] at this; cases this
  · rintro (hs | ⟨hv, ht, hno⟩)
    · rcases listenFrame_eq shipped clock mtu dg with ⟨_, h⟩ | ⟨h, _⟩
      · exact h
      · exact absurd h hs
    · cases h : listenFrame shipped clock mtu dg with
      | fatal => rw [h] at alive; cases alive
      | panic => rw [h] at alive; cases alive
      | ret a =>
        cases a with
        | drop => rfl
        | rx f => exact absurd (C42_delivers _ _ _ _ _ h).2.2 (hno f)
        | tx st =>
          obtain ⟨_, _, h3⟩ := C42_reply _ _ _ _ h
          rcases h3 with ⟨h0, _⟩ | ⟨_, h2, _⟩ <;> omega

example : listenFrame shipped ⟨0, 0⟩ 1500 [0x20, 0, 0x70, 0, 1, 2, 3, 4] = .ret .drop := by decide
example : listenFrame shipped ⟨0, 0⟩ 1500 [0x20, 0, 0, 0, 104, 105, 33, 33] =
    .ret (.rx (.beacon ⟨0x20000000#32, 0, [104, 105, 33, 33]⟩)) := by decide

end Saratoga
