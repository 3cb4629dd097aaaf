import Verif.Lemmas.Request
/-!
# Request frames (`request/request.go`): C21, C29, and the request parts of C33, C62
-/
namespace Saratoga

/-! ## C62: layout -/

/-- **C62** Encoding a request always succeeds; the bytes are header, session, name, NUL,
authentication. -/
theorem C62_request_layout (r : Request) :
    ∃ frame, r.encode = .ret frame ∧ beNum (frame.take 4) = r.header.toNat ∧
      beNum ((frame.drop 4).take 4) = r.session.toNat ∧
      frame.drop 8 = r.fname ++ 0#8 :: r.auth := by
  refine ⟨_, Request.encode_eq r, ?_, ?_, ?_⟩
  · simp only [List.append_assoc]
    rw [List.take_append_of_le_length (by simp), List.take_of_length_le (by simp), beNum_be32]
  · simp only [List.append_assoc]
    rw [List.drop_left' (by simp), List.take_append_of_le_length (by simp),
      List.take_of_length_le (by simp), beNum_be32]
  · have : be32 r.header ++ be32 r.session ++ r.fname ++ [0#8] ++ r.auth =
        (be32 r.header ++ be32 r.session) ++ (r.fname ++ 0#8 :: r.auth) := by simp
    rw [this, List.drop_left' (by simp)]

/-! ## C21 -/

/-- **C21** What exactly a fresh variable decodes from the frame of any request whose name has no NUL:
every name byte from 0x80 on becomes two, and as many bytes of the authentication are lost; when there
are not that many the receiver panics. -/
theorem C21_exact (r r0 : Request) (frame : List Byte) (noNul : NoNul r.fname) (fresh : r0.fname = [])
    (encoded : r.encode = .ret frame) :
    r0.decode frame =
      if highBytes r.fname ≤ r.auth.length then
        .ret (⟨r.header, r.session, garbled r.fname, r.auth.drop (highBytes r.fname)⟩, none)
      else .panic := by
  obtain ⟨frame', he, h1, h2, h3⟩ := C62_request_layout r
  rw [encoded] at he; cases he
  have hlen : frame.length = 9 + r.fname.length + r.auth.length := by
    have := congrArg List.length h3
    rw [List.length_drop] at this
    simp at this; omega
  rw [Request.decode_eq r0 (by omega), h3, upToNul_append noNul, fresh, List.nil_append]
  have hh : headWord frame = r.header := by
    rw [headWord, h1, BitVec.ofNat_toNat, BitVec.setWidth_eq]
  rw [hh, h2, BitVec.ofNat_toNat, BitVec.setWidth_eq]
  simp only [garbled_length, hlen]
  by_cases hc : highBytes r.fname ≤ r.auth.length
  · rw [if_pos hc]
    by_cases he : highBytes r.fname = r.auth.length
    · rw [if_pos (by omega), he, List.drop_length]
    · rw [if_neg (by omega), if_pos (by omega)]
      congr 3
      have : frame.drop (9 + (r.fname.length + highBytes r.fname)) =
          (frame.drop 8).drop (r.fname.length + 1 + highBytes r.fname) := by
        rw [List.drop_drop]; congr 1; omega
      rw [this, h3, show r.fname ++ 0#8 :: r.auth = (r.fname ++ [0#8]) ++ r.auth by simp,
        ← List.drop_drop, List.drop_left' (by simp)]
  · rw [if_neg hc, if_neg (by omega), if_neg (by omega)]

example : ∃ frame, (⟨0x21000001#32, 7, [0xC3#8, 0xA9#8], [1, 2, 3]⟩ : Request).encode = .ret frame ∧
    Request.zero.decode frame = .ret (⟨0x21000001#32, 7, garbled [0xC3#8, 0xA9#8], [3]⟩, none) := ⟨_, rfl, by rfl⟩

/-- **C21** (partial: only ASCII names and only into a variable that holds no name; see
`C21_counterexample` and `C33_request_counterexample`). -/
theorem C21_round_trip_partial (r r0 : Request) (noNul : NoNul r.fname) (ascii : Ascii r.fname)
    (fresh : r0.fname = []) :
    ∃ frame, r.encode = .ret frame ∧ r0.decode frame = .ret (r, none) := by
  refine ⟨_, Request.encode_eq r, ?_⟩
  rw [C21_exact r r0 _ noNul fresh (Request.encode_eq r), highBytes_ascii ascii, garbled_ascii ascii,
    if_pos (Nat.zero_le _)]
  rfl

example := C21_round_trip_partial ⟨0x21000001#32, 7, [104, 105], [1, 2, 3]⟩ Request.zero (by decide) (by decide) rfl

/-- **C21** fails for names that are not ASCII: the name `é` (bytes C3 A9) without authentication makes
every receiver panic, with two bytes of authentication it arrives as another name. -/
theorem C21_counterexample :
    (∃ r : Request, NoNul r.fname ∧ ∃ frame, r.encode = .ret frame ∧
      Request.zero.decode frame = .panic) ∧
    (∃ r x : Request, NoNul r.fname ∧ ∃ frame, r.encode = .ret frame ∧
      Request.zero.decode frame = .ret (x, none) ∧ x.fname ≠ r.fname ∧ x.auth ≠ r.auth) := by
  refine ⟨⟨⟨0x21000001#32, 1, [0xC3#8, 0xA9#8], []⟩, by decide, _, Request.encode_eq _, ?_⟩,
    ⟨0x21000001#32, 1, [0xC3#8, 0xA9#8], [7#8, 8#8]⟩,
    ⟨0x21000001#32, 1, [0xC3#8, 0x83#8, 0xC2#8, 0xA9#8], []⟩, by decide, _, Request.encode_eq _, ?_,
    by decide, by decide⟩
  · rw [C21_exact _ _ _ (by decide) rfl (Request.encode_eq _)]; decide
  · rw [C21_exact _ _ _ (by decide) rfl (Request.encode_eq _)]; decide

example : NoNul [104#8, 105#8] ∧ Ascii [104#8, 105#8] ∧ Request.zero.fname = [] := by decide

/-! ## C29: crashes -/

/-- **C29** (the exact set; the property itself fails, see `C29_counterexample`). Decoding panics
exactly when the frame has at least 9 bytes and the name found in it, with every byte from 0x80 on
counted twice and whatever name the variable already held, plus 9 exceeds the frame length. -/
theorem C29_decode_returns_iff_partial (r0 : Request) (f : List Byte) :
    (r0.decode f).returns ↔
      f.length < 9 ∨
      9 + r0.fname.length + (upToNul (f.drop 8)).length + highBytes (upToNul (f.drop 8)) ≤ f.length := by
  by_cases h9 : 9 ≤ f.length
  · rw [Request.decode_eq r0 h9]
    simp only [List.length_append, garbled_length]
    split
    · simp [Out.returns]; omega
    · split
      · simp [Out.returns]; omega
      · simp [Out.returns]; omega
  · simp [Request.decode, show f.length < 9 by omega, Out.returns]

/-- **C29** It never ends the process by itself (`log.Fatalln`): the only crash is a panic. -/
theorem C29_never_fatal (r0 : Request) (f : List Byte) : r0.decode f ≠ .fatal := by
  by_cases h9 : 9 ≤ f.length
  · rw [Request.decode_eq r0 h9]
    simp only
    split
    · simp
    · split <;> simp
  · simp [Request.decode, show f.length < 9 by omega]

/-- **C29** fails: a name without its NUL. -/
theorem C29_counterexample : ∃ f : List Byte, ∀ r0 : Request, ¬ (r0.decode f).returns :=
  ⟨[0x21, 0, 0, 1, 0, 0, 0, 1, 97], fun r0 => by
    rw [C29_decode_returns_iff_partial]
    simp [upToNul, highBytes]
    omega⟩

-- a well formed frame is in the returning set
example : (Request.zero.decode [0x21, 0, 0, 1, 0, 0, 0, 1, 97, 0]).returns := by decide

/-! ## C33: what the variable held before -/

/-- **C33** (partial for requests: the variables hold no name). Then the whole result is the same. -/
theorem C33_request_partial (r1 r2 : Request) (f : List Byte) (h1 : r1.fname = []) (h2 : r2.fname = [])
    (h9 : 9 ≤ f.length) : r1.decode f = r2.decode f := by
  rw [Request.decode_eq r1 h9, Request.decode_eq r2 h9, h1, h2]

/-- **C33** In general the name already held stays in front of the received one. -/
theorem C33_request_appends (r0 x : Request) (f : List Byte) (h : r0.decode f = .ret (x, none)) :
    x.fname = r0.fname ++ garbled (upToNul (f.drop 8)) := by
  by_cases h9 : 9 ≤ f.length
  · rw [Request.decode_eq r0 h9] at h
    simp only at h
    split at h
    · cases h; rfl
    · split at h
      · cases h; rfl
      · cases h
  · simp [Request.decode, show f.length < 9 by omega] at h

/-- **C33** fails for requests. -/
theorem C33_request_counterexample : ∃ (r1 r2 x1 x2 : Request) (f : List Byte),
    r1.decode f = .ret (x1, none) ∧ r2.decode f = .ret (x2, none) ∧ x1.fname ≠ x2.fname :=
  ⟨Request.zero, ⟨0, 0, [98#8], []⟩, ⟨0x21000001#32, 1, [97#8], [1#8]⟩,
    ⟨0x21000001#32, 1, [98#8, 97#8], []⟩, [0x21, 0, 0, 1, 0, 0, 0, 1, 97, 0, 1], by decide, by decide,
    by decide⟩

example : 9 ≤ [0x21#8, 0, 0, 1, 0, 0, 0, 1, 97, 0, 1].length := by decide

end Saratoga
