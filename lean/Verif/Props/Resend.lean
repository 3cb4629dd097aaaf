import Verif.Props.ClientFit
/-!
# C93, C94: filling holes and ending a put (`client/client.go`, readstatus, cput, cputrm)
-/
namespace Saratoga

/-! ## C93 -/

/-- Frames sent for a hole at the start of the file lie above its first block. -/
theorem holeLoop_above {clock : Nat → GoTime} {write : Nat → String} {session : BitVec 32} {dflags : String}
    {buf : List Byte} (short : buf.length < 2 ^ 63) {plen : Nat} {n fc : Nat} {sent out : List Data} {w : Option String}
    (some_ : (fc + n) * plen ≤ buf.length)
    (ok : holeLoop shipped clock write session dflags buf plen buf.length n fc sent = .ret (out, w)) :
    ∀ x ∈ out, x ∈ sent ∨ ∃ j, fc ≤ j ∧ j < fc + n ∧ x.offset.toNat = buf.length - j * plen ∧ x.session = session ∧
      x.payload = (buf.drop (buf.length - j * plen)).take plen := by
  induction n generalizing fc sent with
  | zero => unfold holeLoop at ok; cases ok; exact fun x hx => .inl hx
  | succ n ih =>
    unfold holeLoop at ok
    simp only at ok
    have hmul : fc * plen ≤ buf.length :=
      Nat.le_trans (Nat.mul_le_mul_right plen (by omega)) some_
    have hcast : ((fc : Int) * (plen : Int)) = ((fc * plen : Nat) : Int) := by simp
    rw [hcast] at ok
    generalize hj : fc * plen = j at *
    have hstart : ((buf.length : Int) - (j : Int)).toNat = buf.length - j := by omega
    generalize hpend : (if (buf.length : Int) - (j : Int) + plen > buf.length then (buf.length : Int)
      else (buf.length : Int) - (j : Int) + plen) = pend at ok
    split at ok
    · rename_i hb
      obtain ⟨⟨d, e⟩, h1, ok⟩ := Out.bind_eq_ret ok
      cases e with
      | some e => cases ok; exact fun x hx => .inl hx
      | none =>
        obtain ⟨-, s1, s2, s3⟩ := C11_data_partial shipped C11_shipped_separated.1 _ _ _ _ _ h1
        have fits : d.offset.toNat = buf.length - j ∧ d.session = session ∧
            d.payload = (buf.drop (buf.length - j)).take plen := by
          refine ⟨?_, s1, ?_⟩
          · rw [s2]
            simp only [BitVec.toNat_ofInt]
            omega
          · rw [s3]
            simp only [hstart]
            by_cases hlt : (buf.length : Int) - (j : Int) + plen > buf.length
            · rw [if_pos hlt] at hpend
              rw [List.take_of_length_le (by rw [List.length_drop]; omega),
                List.take_of_length_le (by rw [List.length_drop]; omega)]
            · rw [if_neg hlt] at hpend
              congr 1
              omega
        have here : ∀ x ∈ sent ++ [d], x ∈ sent ∨ ∃ i, fc ≤ i ∧ i < fc + (n + 1) ∧
            x.offset.toNat = buf.length - i * plen ∧ x.session = session ∧
            x.payload = (buf.drop (buf.length - i * plen)).take plen := by
          intro x hx
          simp only [List.mem_append, List.mem_singleton] at hx
          rcases hx with hx | rfl
          · exact .inl hx
          · exact .inr ⟨fc, by omega, by omega, by rw [hj]; exact fits⟩
        simp only at ok
        split at ok
        · cases ok; exact here
        · obtain ⟨u, -, ok⟩ := Out.bind_eq_ret ok
          intro x hx
          rcases ih (fc := fc + 1) (by rw [show fc + 1 + n = fc + (n + 1) by omega]; exact some_) ok x hx with h | ⟨i, a, b, c⟩
          · exact here x h
          · exact .inr ⟨i, by omega, by omega, c⟩
    · cases ok

/-- **C93** (partial.) What is sent for a hole at the start of the file is what the file holds at that place. Missing:
everything else, see `C93_counterexample`. -/
theorem C93_genuine_partial (clock : Nat → GoTime) (write : Nat → String) (session : BitVec 32) (dflags : String)
    (file : List Byte) (short : file.length < 2 ^ 63) (room : Nat) (plen : Int) (h : Hole) (atStart : h.start = 0)
    (sent : List Data) (w : Option String)
    (ran : resendHole shipped clock write session dflags file room plen h = .ret (sent, w)) :
    ∀ x ∈ sent, x.session = session ∧ x.offset.toNat + x.payload.length ≤ file.length ∧
      x.payload = (file.drop x.offset.toNat).take x.payload.length ∧ 0 < plen ∧ plen ≤ x.offset.toNat := by
  unfold resendHole at ran
  simp only at ran
  split at ran
  · cases ran
  rename_i hsize
  rw [if_neg (by omega)] at ran
  split at ran
  · cases ran; intro x hx; cases hx
  rename_i hfull
  split at ran
  · cases ran
  rename_i hp
  have hbl : ((file.drop h.start.toNat).take (h.stop - h.start).toNat).length = (h.stop - h.start).toNat := by
    rw [List.length_take] at hfull ⊢
    omega
  generalize hbuf : (file.drop h.start.toNat).take (h.stop - h.start).toNat = buf at *
  have hb : buf = file.take h.stop.toNat := by rw [← hbuf, atStart]; simp
  have hlen : buf.length ≤ file.length := by rw [hb, List.length_take]; omega
  have hstop : h.stop = buf.length := by omega
  by_cases hpos : 0 < plen
  · obtain ⟨p, rfl⟩ := Int.eq_ofNat_of_zero_le (Int.le_of_lt hpos)
    have hdiv : ((buf.length : Int).tdiv p).toNat = buf.length / p := by
      rw [Int.tdiv_eq_ediv_of_nonneg (by omega)]
      exact Int.toNat_natCast _
    rw [hdiv, hstop] at ran
    intro x hx
    have hp0 : 0 < p := by omega
    rcases holeLoop_above (by omega) (by rw [Nat.zero_add]; exact Nat.div_mul_le_self _ _) ran x hx with hx | ⟨j, -, j2, j3, j4, j5⟩
    · cases hx
    · have hmul : (j + 1) * p ≤ buf.length :=
        Nat.le_trans (Nat.mul_le_mul_right p (by omega)) (Nat.div_mul_le_self _ _)
      rw [Nat.add_mul, Nat.one_mul] at hmul
      have hl : x.payload.length ≤ buf.length - x.offset.toNat := by
        rw [j5, List.length_take, List.length_drop, j3]; omega
      refine ⟨j4, by omega, ?_, hpos, by omega⟩
      have hx : x.payload = (buf.drop x.offset.toNat).take x.payload.length := by
        conv => lhs; rw [j5]
        rw [← j3, j5, List.length_take, List.length_drop]
        by_cases hle : p ≤ buf.length - x.offset.toNat
        · rw [Nat.min_eq_left (by omega)]
        · rw [List.take_of_length_le (by rw [List.length_drop]; omega),
            List.take_of_length_le (by rw [List.length_drop]; omega)]
      rw [hx]
      rw [hb, List.drop_take, List.take_take, List.length_take, List.length_drop]
      have hle : h.stop.toNat = buf.length := by omega
      rw [hle]
      congr 1
      omega
  · have hneg : ((buf.length : Int).tdiv plen).toNat = 0 := by
      have : (buf.length : Int).tdiv plen ≤ 0 := by
        have h1 : (buf.length : Int).tdiv plen = - (buf.length : Int).tdiv (-plen) := by rw [Int.tdiv_neg, Int.neg_neg]
        have h2 : 0 ≤ (buf.length : Int).tdiv (-plen) := Int.tdiv_nonneg (by omega) (by omega)
        omega
      omega
    rw [hneg] at ran
    unfold holeLoop at ran
    cases ran
    intro x hx; cases hx

/-- **C93** A hole that starts later and has a whole block's bytes: the program panics, whatever the file, the block
length and the connection. -/
theorem C93_later_panics (clock : Nat → GoTime) (write : Nat → String) (session : BitVec 32) (dflags : String)
    (file : List Byte) (room plen : Nat) (h : Hole) (later : 0 < h.start) (inFile : h.stop ≤ file.length)
    (fits : h.stop - h.start ≤ room) (block : (plen : Int) ≤ h.stop - h.start) :
    resendHole shipped clock write session dflags file room plen h = .panic := by
  unfold resendHole
  simp only
  rw [if_neg (by omega), if_neg (by omega)]
  have hbl : ((file.drop h.start.toNat).take (h.stop - h.start).toNat).length = (h.stop - h.start).toNat := by
    rw [List.length_take, List.length_drop]; omega
  rw [if_neg (by omega)]
  by_cases hp : plen = 0
  · rw [if_pos (by omega)]
  · rw [if_neg (by omega)]
    generalize (file.drop h.start.toNat).take (h.stop - h.start).toNat = buf at *
    have hdiv : ((buf.length : Int).tdiv plen).toNat = buf.length / plen := by
      rw [Int.tdiv_eq_ediv_of_nonneg (by omega)]
      exact Int.toNat_natCast _
    have h1 : 1 ≤ buf.length / plen := (Nat.le_div_iff_mul_le (by omega)).2 (by omega)
    obtain ⟨n, hn⟩ : ∃ n, buf.length / plen = n + 1 := ⟨buf.length / plen - 1, by omega⟩
    rw [hdiv, hn]
    unfold holeLoop
    simp only [Int.natCast_zero, Int.zero_mul, Int.sub_zero]
    have bad : ∀ pend : Int, pend = h.stop ∨ pend = buf.length + plen →
        ¬ (0 ≤ (buf.length : Int) ∧ (buf.length : Int) ≤ pend ∧ pend ≤ buf.length) := by
      rintro pend (rfl | rfl) <;> omega
    by_cases hb : (buf.length : Int) + plen > h.stop
    · simp only [if_pos hb]; rw [if_neg (bad _ (.inl rfl))]
    · simp only [if_neg hb]; rw [if_neg (bad _ (.inr rfl))]

example := C93_later_panics (fun _ => ⟨1000000000, 0⟩) (fun _ => "success") 9 "descriptor=d16" [1, 2, 3, 4, 5, 6, 7, 8] 100 3
  ⟨2, 6⟩ (by decide) (by decide) (by decide) (by decide)

/-- **C93** A hole shorter than a block: nothing is sent. -/
theorem C93_short_ignored (clock : Nat → GoTime) (write : Nat → String) (session : BitVec 32) (dflags : String)
    (file : List Byte) (room plen : Nat) (h : Hole) (start : 0 ≤ h.start) (order : h.start ≤ h.stop)
    (inFile : h.stop ≤ file.length) (fits : h.stop - h.start ≤ room) (less : h.stop - h.start < plen) :
    resendHole shipped clock write session dflags file room plen h = .ret ([], none) := by
  unfold resendHole
  simp only
  rw [if_neg (by omega), if_neg (by omega)]
  have hbl : ((file.drop h.start.toNat).take (h.stop - h.start).toNat).length = (h.stop - h.start).toNat := by
    rw [List.length_take, List.length_drop]; omega
  rw [if_neg (by omega), if_neg (by omega)]
  generalize (file.drop h.start.toNat).take (h.stop - h.start).toNat = buf at *
  have hdiv : ((buf.length : Int).tdiv plen).toNat = 0 := by
    rw [Int.tdiv_eq_ediv_of_nonneg (by omega), Int.ediv_eq_zero_of_lt (by omega) (by omega)]; rfl
  rw [hdiv]
  rfl

example := C93_short_ignored (fun _ => ⟨1000000000, 0⟩) (fun _ => "success") 9 "descriptor=d16" [1, 2, 3, 4, 5, 6, 7, 8] 100 30
  ⟨2, 6⟩ (by decide) (by decide) (by decide) (by decide) (by decide)

/-- **C93** fails: no hole is ever filled: whatever hole a status names, however often, the first byte of the hole is in
none of the frames sent for it. -/
theorem C93_counterexample (clock : Nat → GoTime) (write : Nat → String) (session : BitVec 32) (dflags : String)
    (file : List Byte) (short : file.length < 2 ^ 63) (room : Nat) (plen : Int) (h : Hole) (sent : List Data)
    (w : Option String)
    (ran : resendHole shipped clock write session dflags file room plen h = .ret (sent, w)) :
    ∀ x ∈ sent, ¬ ((x.offset.toNat : Int) ≤ h.start ∧ h.start < x.offset.toNat + x.payload.length) := by
  intro x hx
  by_cases hs : h.start = 0
  · obtain ⟨-, -, -, a, b⟩ := C93_genuine_partial clock write session dflags file short room plen h hs sent w ran x hx
    omega
  · exfalso
    have none : sent = [] := by
      by_cases hneg : h.start < 0
      · unfold resendHole at ran
        simp only at ran
        split at ran
        · cases ran
        · first
          | (cases ran; rfl)
          | (rw [if_pos hneg] at ran; cases ran; rfl)
      · have ran' := ran
        unfold resendHole at ran
        simp only at ran
        split at ran
        · cases ran
        rename_i hsz
        split at ran
        · cases ran; rfl
        rename_i hfull
        rw [List.length_take, List.length_drop] at hfull
        split at ran
        · cases ran
        rename_i hp0
        by_cases hpos : 0 < plen
        · obtain ⟨p, rfl⟩ := Int.eq_ofNat_of_zero_le (Int.le_of_lt hpos)
          by_cases hin : h.stop ≤ file.length
          · by_cases hb : (p : Int) ≤ h.stop - h.start
            · rw [C93_later_panics clock write session dflags file room p h (by omega) hin (by omega) hb] at ran'
              cases ran'
            · rw [C93_short_ignored clock write session dflags file room p h (by omega) (by omega) hin (by omega)
                (by omega)] at ran'
              cases ran'; rfl
          · -- an empty hole behind the end of the file
            have he : h.stop - h.start = 0 := by omega
            rw [he] at ran
            simp only [Int.toNat_zero, List.take_zero, List.length_nil] at ran
            rw [show ((0 : Nat) : Int).tdiv p = 0 by simp] at ran
            unfold holeLoop at ran
            cases ran; rfl
        · generalize (file.drop h.start.toNat).take (h.stop - h.start).toNat = buf at *
          have hneg : ((buf.length : Int).tdiv plen).toNat = 0 := by
            have : (buf.length : Int).tdiv plen ≤ 0 := by
              have h1 : (buf.length : Int).tdiv plen = - (buf.length : Int).tdiv (-plen) := by
                rw [Int.tdiv_neg, Int.neg_neg]
              have h2 : 0 ≤ (buf.length : Int).tdiv (-plen) := Int.tdiv_nonneg (by omega) (by omega)
              omega
            omega
          rw [hneg] at ran
          unfold holeLoop at ran
          cases ran; rfl
    rw [none] at hx
    cases hx

/-- A hole of seven bytes at the start, blocks of three: an empty frame at 7 and the bytes 4 to 6. -/
example : ∃ x y, resendHole shipped (fun _ => ⟨1000000000, 0⟩) (fun _ => "success") 9 "descriptor=d16"
      [1, 2, 3, 4, 5, 6, 7, 8] 100 3 ⟨0, 7⟩ = .ret ([x, y], none) ∧
    x.payload = [] ∧ x.offset = 7 ∧ y.payload = [5, 6, 7] ∧ y.offset = 4 := ⟨_, _, rfl, by decide +kernel⟩

/-! ## C94 -/

/-- The word of an event, if it is an error: a word from either side that is not `success` and, from the reader of
status frames, not two numbers. -/
def PutEvent.errorWord (numbers : String → Bool) : PutEvent → Option String
  | .status w => if w ≠ "success" ∧ numbers w = false then some w else none
  | .data w => if w ≠ "success" then some w else none
  | .statusPos => none
  | .dataPos => none

/-- **C94** (partial.) A put that got to its loop reports the first error and nothing else. Missing: success, see
`C94_counterexample`. -/
theorem C94_first_error_partial (p : PutStart) (started : p.word = .ret none) (numbers : String → Bool)
    (events : List PutEvent) :
    cput p numbers events = .ret (events.filterMap (PutEvent.errorWord numbers)).head? := by
  unfold cput
  rw [started, Out.ret_bind]
  simp only
  congr 1
  induction events with
  | nil => rfl
  | cons e t ih =>
    cases e with
    | status w =>
      unfold putLoop
      simp only [List.filterMap_cons, PutEvent.errorWord]
      by_cases h : numbers w = true
      · simp [h, ih]
      · by_cases h2 : w = "success" <;> simp [h, h2, ih]
    | data w =>
      unfold putLoop
      simp only [List.filterMap_cons, PutEvent.errorWord]
      by_cases h2 : w = "success" <;> simp [h2, ih]
    | statusPos =>
      rw [putLoop, List.filterMap_cons_none rfl]; exact ih
    | dataPos =>
      rw [putLoop, List.filterMap_cons_none rfl]; exact ih

/-- What a put has to get right before its loop, in order, each with the word that says it went wrong. -/
def PutStart.steps (p : PutStart) : List (Bool × String) :=
  [(p.opened, "filenotfound"), (p.seeked, "badoffset"), (p.resolved, "cantsend"),
   (p.request, "badrequest"), (p.requestSent = "success", p.requestSent), (p.metadata, "badrequest"),
   (p.metadataSent = "success", p.metadataSent)]

/-- **C94** (partial.) If the peer could be called, a put reports what went wrong first: opening the file, preparing it,
finding the peer, the request, the metadata, and then what the sender of the data and the reader of the answers say.
Missing: success, and a peer that cannot be called, see `C94_counterexample`. -/
theorem C94_first_failure_partial (p : PutStart) (numbers : String → Bool) (events : List PutEvent)
    (called : p.dialled = true) :
    cput p numbers events =
      .ret ((p.steps.filter fun s => !s.1).map Prod.snd ++ events.filterMap (PutEvent.errorWord numbers)).head? := by
  obtain ⟨a, b, c, d, e, f, g, h⟩ := p
  cases a
  · rfl
  cases b
  · rfl
  cases c
  · rfl
  cases d
  · cases called
  cases e
  · rfl
  by_cases hf : f = "success"
  · subst hf
    cases g
    · rfl
    by_cases hh : h = "success"
    · subst hh
      rw [C94_first_error_partial _ (by rfl)]
      rfl
    · unfold cput
      simp [PutStart.word, PutStart.steps, hh, Out.ret_bind]
  · unfold cput
    simp [PutStart.word, PutStart.steps, hf, Out.ret_bind]

/-- **C94** fails: whatever happens, a put never reports success, and `putrm` never removes the file: with every frame
sent and acknowledged it waits until the other side is silent for too long, and reports that. If the peer cannot be
called the process panics. -/
theorem C94_counterexample (p : PutStart) (numbers : String → Bool) (events : List PutEvent) (removes : Bool) :
    cput p numbers events ≠ .ret (some "success") ∧
    (∀ w removed, cputrm p numbers events removes = .ret (some (w, removed)) → removed = false ∧ w ≠ "success") ∧
    (p.opened = true → p.seeked = true → p.resolved = true → p.dialled = false →
      cput p numbers events = .panic ∧ cputrm p numbers events removes = .panic) := by
  have never : cput p numbers events ≠ .ret (some "success") := by
    by_cases hs : p.word = .ret none
    · rw [C94_first_error_partial p hs]
      intro h
      have h := Out.ret.inj h
      have hm : "success" ∈ events.filterMap (PutEvent.errorWord numbers) := List.mem_of_mem_head? h
      rw [List.mem_filterMap] at hm
      obtain ⟨e, -, he⟩ := hm
      cases e with
      | status w =>
        simp only [PutEvent.errorWord] at he
        split at he
        · rename_i hw; cases he; exact hw.1 rfl
        · cases he
      | data w =>
        simp only [PutEvent.errorWord] at he
        split at he
        · rename_i hw; cases he; exact hw rfl
        · cases he
      | statusPos => cases he
      | dataPos => cases he
    · have hw : ∀ w, p.word = .ret (some w) → w ≠ "success" := by
        intro w hw
        unfold PutStart.word at hw
        repeat' split at hw
        all_goals first | (cases hw; done) | (cases hw; assumption) | (cases hw; decide)
      intro e
      unfold cput at e
      obtain ⟨r, h, e⟩ := Out.bind_eq_ret e
      cases r with
      | none => exact hs h
      | some w => cases e; exact hw _ h rfl
  refine ⟨never, ?_, ?_⟩
  · intro w removed h
    unfold cputrm at h
    obtain ⟨r, hc, h⟩ := Out.bind_eq_ret h
    cases r with
    | none => cases h
    | some v =>
      simp only at h
      split at h
      · rename_i hv; subst hv; exact absurd hc never
      · rename_i hv; cases h; exact ⟨rfl, hv⟩
  · intro h1 h2 h3 h4
    have hw : p.word = .panic := by simp [PutStart.word, h1, h2, h3, h4]
    have hc : cput p numbers events = .panic := by unfold cput; rw [hw]; rfl
    exact ⟨hc, by unfold cputrm; rw [hc]; rfl⟩

/-- Everything went well, then the other side fell silent. -/
example : cput ⟨true, true, true, true, true, "success", true, "success"⟩ (fun _ => false)
    [.statusPos, .status "success", .data "success", .status "success", .status "cantreceive"] = .ret (some "cantreceive") := by
  rfl

end Saratoga
