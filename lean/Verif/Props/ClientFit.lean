import Verif.Props.Client
/-!
# C91: how much goes into a data frame (`maxpaylen`, `filedescriptor`)
-/
namespace Saratoga

theorem valid_descriptor {v : String} (h : valid shipped "descriptor" v = true) :
    v = "d16" ∨ v = "d32" ∨ v = "d64" ∨ v = "d128" := by
  by_cases a : v = "d16"
  · exact .inl a
  by_cases b : v = "d32"
  · exact .inr (.inl b)
  by_cases c : v = "d64"
  · exact .inr (.inr (.inl c))
  by_cases d : v = "d128"
  · exact .inr (.inr (.inr d))
  exfalso
  have o : (shipped.flag "descriptor").options = [("d16", 0#32), ("d32", 1#32), ("d64", 2#32), ("d128", 3#32)] := rfl
  simp [valid, o, assoc, Ne.symm a, Ne.symm b, Ne.symm c, Ne.symm d] at h

theorem payLoop_render {ps : List (String × String)} (plain : PlainPairs ps)
    (ok : ∀ p ∈ ps, p.1 = "descriptor" → valid shipped "descriptor" p.2 = true) (plen : Int) :
    payLoop (ps.map fun p => p.1 ++ "=" ++ p.2) plen =
      .ret (plen - namedBytes ps - 16 * ps.count ("reqtstamp", "yes")) := by
  induction ps generalizing plen with
  | nil => simp [payLoop, namedBytes]
  | cons p t ih =>
    have ih := ih (fun q hq => plain q (by simp [hq])) (fun q hq => ok q (by simp [hq]))
    have hp := plain p (by simp)
    have okp := ok p (by simp)
    obtain ⟨a, b⟩ := p
    have e : namedBytes ((a, b) :: t) = (if a = "descriptor" then numSize b else 0) + namedBytes t := by
      simp [namedBytes]
    rw [List.map_cons, payLoop, e]
    simp only [strSplit_pair hp.1 hp.2, first, second, Out.ret_bind, ih]
    by_cases h1 : a = "descriptor"
    · have hc : ((a, b) :: t).count ("reqtstamp", "yes") = t.count ("reqtstamp", "yes") := by
        rw [List.count_cons_of_ne]; simp [h1]
      rw [if_pos h1, hc, if_pos h1]
      rcases valid_descriptor (okp h1) with e | e | e | e <;> simp only at e <;> subst e
      · rw [if_pos rfl]; simp only [numSize, Out.ret.injEq]; omega
      · rw [if_neg (by decide), if_pos rfl]; simp only [numSize, Out.ret.injEq]; omega
      · rw [if_neg (by decide), if_neg (by decide), if_pos rfl]; simp only [numSize, Out.ret.injEq]; omega
      · rw [if_neg (by decide), if_neg (by decide), if_neg (by decide), if_pos rfl]
        simp only [numSize, Out.ret.injEq]; omega
    · rw [if_neg h1, if_neg h1]
      by_cases h2 : a = "reqtstamp"
      · subst h2
        rw [if_pos rfl]
        by_cases h3 : b = "yes"
        · subst h3
          rw [if_pos rfl, List.count_cons_self]; simp only [Out.ret.injEq]; omega
        · rw [if_neg h3, List.count_cons_of_ne (by simp [h3])]; simp only [Out.ret.injEq]; omega
      · rw [if_neg h2, List.count_cons_of_ne (by simp [h2])]; simp only [Out.ret.injEq]; omega

/-! ## C91 -/

/-- **C91** The room computed: the MTU without 60 + 8 + 8 bytes, the bytes of each descriptor named and 16 bytes for
each `reqtstamp=yes`. -/
theorem C91_value (mtu : Int) (ps : List (String × String)) (text : DataText ps) :
    maxPaylen mtu (render ps) = .ret (mtu - 76 - namedBytes ps - 16 * ps.count ("reqtstamp", "yes")) := by
  unfold maxPaylen
  rw [stripSpaces_render text.1, strSplit_render text.1 text.2.1, payLoop_render text.1]
  · simp only [Out.ret.injEq]; omega
  · rintro ⟨a, b⟩ hp rfl
    exact (text.2.2 _ hp).2.1

example := C91_value 1500 putText (by decide +kernel)

/-- The bytes of the descriptor in a frame, the way the decoder counts them. -/
theorem width_numSize {v : String} {n : Nat} (h : descWidth v = some n) : numSize v = n := by
  unfold descWidth at h
  split at h <;> simp_all [numSize]

theorem namedBytes_ge {ps : List (String × String)} {v : String} (h : ("descriptor", v) ∈ ps) :
    numSize v ≤ namedBytes ps := by
  induction ps with
  | nil => cases h
  | cons p t ih =>
    have e : namedBytes (p :: t) = (if p.1 = "descriptor" then numSize p.2 else 0) + namedBytes t := by
      simp [namedBytes]
    rw [e]
    rcases List.mem_cons.1 h with h | h
    · subst h; simp
    · have := ih h; omega

theorem wants_count {ps : List (String × String)} (h : wantsStamp ps) : 1 ≤ ps.count ("reqtstamp", "yes") := by
  apply List.count_pos_iff.2
  rcases h with h | h
  · induction ps with
    | nil => exact absurd h (by decide)
    | cons p t ih =>
      obtain ⟨a, b⟩ := p
      simp only [lookupFirst] at h
      split at h
      · rename_i e; subst e h; simp
      · simp [ih h]
  · exact lastValue_mem h

/-- The length of a frame on the wire. -/
theorem frameAt_length {file : List Byte} {plen : Nat} {session : BitVec 32} {ps : List (String × String)}
    {last k : Nat} {x : Data} (at_ : FrameAt file plen session ps last k x) {frame : List Byte}
    (encoded : x.encode shipped = .ret (.ok frame)) :
    frame.length = 8 + (if wantsStamp ps then 16 else 0) + numSize ((lastValue "descriptor" ps).getD "d16") +
      x.payload.length := by
  obtain ⟨rt, n, h1, ⟨d, h2, h3⟩, h4, -⟩ := C62_data_layout shipped x frame encoded
  rw [at_.stamp] at h1
  rw [at_.descriptor] at h2
  cases h1
  cases h2
  rw [h4, width_numSize h3]
  unfold Data.offsetPos yesNo
  split <;> simp_all

/-- **C91** (partial: the text names a descriptor.) Every frame of a file being sent, once encoded, fits the MTU with its
IP and UDP headers. Missing: texts that leave the descriptor to the default (`C91_counterexample`). -/
theorem C91_fits_partial (mtu : Int) (file : List Byte) (session : BitVec 32) (ps : List (String × String))
    (text : DataText ps) (named : lastValue "descriptor" ps ≠ none) (plen : Nat)
    (computed : maxPaylen mtu (render ps) = .ret plen) (last k : Nat) (x : Data)
    (at_ : FrameAt file plen session ps last k x) (frame : List Byte)
    (encoded : x.encode shipped = .ret (.ok frame)) :
    (frame.length + ipUdp : Int) ≤ mtu := by
  have hl := frameAt_length at_ encoded
  rw [C91_value mtu ps text] at computed
  simp only [Out.ret.injEq] at computed
  have hp : x.payload.length ≤ plen := by rw [at_.payload]; simp; omega
  cases hd : lastValue "descriptor" ps with
  | none => exact absurd hd named
  | some v =>
    rw [hd] at hl
    simp only [Option.getD_some] at hl
    have h1 := namedBytes_ge (lastValue_mem hd)
    have h2 : (if wantsStamp ps then 16 else 0) ≤ 16 * ps.count ("reqtstamp", "yes") := by
      split
      · rename_i h; have := wants_count h; omega
      · omega
    unfold ipUdp
    omega

example := fun x at_ frame => C91_fits_partial 81 [1, 2, 3, 4, 5, 6, 7] 9 putText (by decide +kernel) (by decide +kernel) 3
  (by decide +kernel) 2 1 x at_ frame

/-- Room for a timestamp is left exactly if there will be one, with one `reqtstamp` at most. -/
theorem stamp_room {ps : List (String × String)} (stampOnce : ps.countP (·.1 = "reqtstamp") ≤ 1) :
    16 * ps.count ("reqtstamp", "yes") = (if wantsStamp ps then 16 else 0) := by
  by_cases h1 : 1 ≤ ps.count ("reqtstamp", "yes")
  · have := stamp_once (l := ps.map fun p => (p.1, some p.2)) (by rw [List.countP_map]; exact stampOnce)
      (by
        rw [List.count, List.countP_map]
        have e : ps.countP ((fun x => x == ("reqtstamp", some "yes")) ∘ fun p => (p.1, some p.2)) =
            ps.count ("reqtstamp", "yes") := by
          unfold List.count
          apply List.countP_congr
          rintro ⟨a, b⟩ _
          simp
        rw [e]; exact h1)
    have hlast : lastValue "reqtstamp" ps = some "yes" := by
      have := this.1
      rw [named, List.map_map] at this
      simpa [Function.comp_def] using this
    have hcount : ps.count ("reqtstamp", "yes") ≤ 1 := by
      refine Nat.le_trans ?_ stampOnce
      unfold List.count
      apply List.countP_mono_left
      rintro ⟨a, b⟩ _ h
      simp only [beq_iff_eq, Prod.mk.injEq] at h
      simp [h.1]
    rw [if_pos (.inr hlast)]
    omega
  · rw [if_neg]
    · omega
    · intro w
      have := wants_count w
      omega

theorem namedBytes_none {ps : List (String × String)} (h : ∀ p ∈ ps, p.1 ≠ "descriptor") : namedBytes ps = 0 := by
  induction ps with
  | nil => rfl
  | cons p t ih =>
    have := ih fun q hq => h q (by simp [hq])
    simp only [namedBytes, List.map_cons, List.sum_cons, if_neg (h p (by simp))] at this ⊢
    omega

/-- **C91** And the room is used: if the text names one descriptor and one `reqtstamp` at most, a frame with a full
block is exactly as long as the MTU allows. -/
theorem C91_full (mtu : Int) (file : List Byte) (session : BitVec 32) (v : String) (ps : List (String × String))
    (text : DataText (("descriptor", v) :: ps)) (once : ∀ p ∈ ps, p.1 ≠ "descriptor")
    (stampOnce : ps.countP (·.1 = "reqtstamp") ≤ 1) (plen : Nat)
    (computed : maxPaylen mtu (render (("descriptor", v) :: ps)) = .ret plen) (last k : Nat) (x : Data)
    (at_ : FrameAt file plen session (("descriptor", v) :: ps) last k x) (full : (k + 1) * plen ≤ file.length)
    (frame : List Byte) (encoded : x.encode shipped = .ret (.ok frame)) :
    (frame.length + ipUdp : Int) = mtu := by
  have hl := frameAt_length at_ encoded
  rw [C91_value mtu _ text] at computed
  simp only [Out.ret.injEq] at computed
  have hp : x.payload.length = plen := by
    rw [at_.payload, List.length_take, List.length_drop]
    rw [Nat.add_mul, Nat.one_mul] at full
    omega
  have hn : lastValue "descriptor" ps = none := by
    cases h : lastValue "descriptor" ps with
    | none => rfl
    | some w => exact absurd rfl (once _ (lastValue_mem h))
  have hd : lastValue "descriptor" (("descriptor", v) :: ps) = some v := by simp [lastValue, hn]
  have hb : namedBytes (("descriptor", v) :: ps) = numSize v := by
    have : namedBytes ps = 0 := namedBytes_none once
    simp only [namedBytes, List.map_cons, List.sum_cons, if_true] at this ⊢
    omega
  rw [hd] at hl
  simp only [Option.getD_some] at hl
  rw [hb] at computed
  have hs : 16 * (("descriptor", v) :: ps).count ("reqtstamp", "yes") =
      (if wantsStamp (("descriptor", v) :: ps) then 16 else 0) :=
    stamp_room (by rw [List.countP_cons_of_neg (by simp)]; exact stampOnce)
  unfold ipUdp
  omega

example := fun x at_ => C91_full 81 [1, 2, 3, 4, 5, 6, 7] 9 "d16" [("eod", "no"), ("reqtstamp", "no")] (by decide +kernel)
  (by decide +kernel) (by decide +kernel) 3 (by decide +kernel) 2 1 x at_ (by decide)

/-- **C91** Exactly when the room computed is enough: with a text that says at most once whether there is a timestamp,
and a full block in the frame, the frame fits the MTU exactly if the text names a descriptor; otherwise it is two bytes
too long. -/
theorem C91_fits_iff (mtu : Int) (file : List Byte) (session : BitVec 32) (ps : List (String × String))
    (text : DataText ps) (stampOnce : ps.countP (·.1 = "reqtstamp") ≤ 1) (plen : Nat)
    (computed : maxPaylen mtu (render ps) = .ret plen) (last k : Nat) (x : Data)
    (at_ : FrameAt file plen session ps last k x) (full : (k + 1) * plen ≤ file.length)
    (frame : List Byte) (encoded : x.encode shipped = .ret (.ok frame)) :
    ((frame.length + ipUdp : Int) ≤ mtu ↔ ∃ p ∈ ps, p.1 = "descriptor") ∧
    ((∀ p ∈ ps, p.1 ≠ "descriptor") → (frame.length + ipUdp : Int) = mtu + 2) := by
  have over : (∀ p ∈ ps, p.1 ≠ "descriptor") → (frame.length + ipUdp : Int) = mtu + 2 := by
    intro none
    have hl := frameAt_length at_ encoded
    rw [C91_value mtu _ text] at computed
    simp only [Out.ret.injEq] at computed
    have hp : x.payload.length = plen := by
      rw [at_.payload, List.length_take, List.length_drop]
      rw [Nat.add_mul, Nat.one_mul] at full
      omega
    have hn : lastValue "descriptor" ps = .none := by
      cases h : lastValue "descriptor" ps with
      | none => rfl
      | some w => exact absurd rfl (none _ (lastValue_mem h))
    have hs := stamp_room stampOnce
    have e : numSize "d16" = 2 := rfl
    rw [hn] at hl
    simp only [Option.getD_none, e] at hl
    rw [namedBytes_none none] at computed
    unfold ipUdp
    omega
  refine ⟨⟨fun fits => ?_, fun ⟨p, hp, e⟩ => ?_⟩, over⟩
  · apply Classical.byContradiction
    intro h
    have := over fun p hp e => h ⟨p, hp, e⟩
    omega
  · refine C91_fits_partial mtu file session ps text (fun h => ?_) plen computed last k x at_ frame encoded
    have none : ∀ (l : List (String × String)), lastValue "descriptor" l = .none → ∀ q ∈ l, q.1 ≠ "descriptor" := by
      intro l
      induction l with
      | nil => intro _ q hq; cases hq
      | cons a l ih =>
        intro h q hq
        obtain ⟨n, v⟩ := a
        simp only [lastValue] at h
        split at h
        · cases h
        · rename_i hl
          rcases List.mem_cons.1 hq with rfl | hq
          · intro e
            rw [if_pos e] at h
            cases h
          · exact ih hl q hq
    exact none ps h p hp e

example := fun x at_ => C91_fits_iff 81 [1, 2, 3, 4, 5, 6, 7] 9 putText (by decide +kernel) (by decide +kernel) 3
  (by decide +kernel) 2 1 x at_ (by decide)

/-- **C91** fails if the text leaves the descriptor to the default, which takes two bytes that are not reckoned with:
with room for 81 bytes the first frame needs 83. -/
theorem C91_counterexample :
    ∃ s x frame, sendData shipped ⟨fun _ => ⟨1000000000, 0⟩, fun _ => false, fun _ => "success"⟩ 81
        [1, 2, 3, 4, 5, 6, 7] 9 "transfer=file,eod=no" 1 = .ret s ∧ s.sent = [x] ∧
      x.encode shipped = .ret (.ok frame) ∧ frame.length + ipUdp = 83 := by
  have h : ∃ s x, sendData shipped ⟨fun _ => ⟨1000000000, 0⟩, fun _ => false, fun _ => "success"⟩ 81
        [1, 2, 3, 4, 5, 6, 7] 9 "transfer=file,eod=no" 1 = .ret s ∧ s.sent = [x] := ⟨_, _, rfl, rfl⟩
  obtain ⟨s, x, h1, h2⟩ := h
  have text : DataText [("transfer", "file"), ("eod", "no")] := by decide +kernel
  have room : maxPaylen 81 (render [("transfer", "file"), ("eod", "no")]) = .ret (5 : Nat) := by decide +kernel
  have r : render [("transfer", "file"), ("eod", "no")] = "transfer=file,eod=no" := by decide +kernel
  obtain ⟨s', h1', -, -, fr, -⟩ := C90_waits ⟨fun _ => ⟨1000000000, 0⟩, fun _ => false, fun _ => "success"⟩
    (fun i => ⟨show (⟨1000000000, 0⟩ : GoTime).InRange by decide, rfl⟩) 81 [1, 2, 3, 4, 5, 6, 7] (by decide) 9 _ text 5 (by decide) room 1 (by decide)
  rw [r, h1] at h1'
  cases h1'
  have at_ := (fr 0 x (by rw [h2]; rfl)).1
  have hw : HasWidth shipped "descriptor" x.header 2 := ⟨"d16", at_.descriptor, rfl⟩
  have hno : getStr shipped x.header "reqtstamp" = .ret "no" := at_.stamp
  obtain ⟨frame, he, -⟩ := C20_round_trip_partial shipped x Data.zero 2 "no" hw hno
    (by rw [at_.offset]; decide) (fun h => absurd h (by decide)) (by simp)
  refine ⟨s, x, frame, h1, h2, he, ?_⟩
  rw [frameAt_length at_ he, at_.payload]
  decide +kernel

/-- **C91** The descriptor chosen for a file can hold its length, and so every offset in it; none of the narrower ones
can. -/
theorem C91_descriptor (size : Nat) (fits : size < 2 ^ 64) :
    ∃ d w, fileDescriptor (some size) = render [("descriptor", d)] ∧ descWidth d = some w ∧ size < 256 ^ w ∧
      ∀ d' w', descWidth d' = some w' → size < 256 ^ w' → w ≤ w' := by
  have widths : ∀ d' w', descWidth d' = some w' → w' = 2 ∨ w' = 4 ∨ w' = 8 := by
    intro d' w' h
    unfold descWidth at h
    split at h <;> simp_all
  unfold fileDescriptor
  simp only
  by_cases h1 : size ≤ 65535
  · rw [if_pos h1]
    refine ⟨"d16", 2, by decide +kernel, rfl, by omega, fun d' w' h h' => ?_⟩
    rcases widths d' w' h with rfl | rfl | rfl <;> omega
  · rw [if_neg h1]
    by_cases h2 : size ≤ 4294967295
    · rw [if_pos h2]
      refine ⟨"d32", 4, by decide +kernel, rfl, by omega, fun d' w' h h' => ?_⟩
      rcases widths d' w' h with rfl | rfl | rfl <;> omega
    · rw [if_neg h2]
      refine ⟨"d64", 8, by decide +kernel, rfl, by omega, fun d' w' h h' => ?_⟩
      rcases widths d' w' h with rfl | rfl | rfl <;> omega

example : lastValue "descriptor" putText ≠ none := by decide +kernel
example : maxPaylen 1500 "transfer=file, descriptor=d64,reqtstamp=yes" = .ret 1400 ∧
    maxPaylen 1500 "descriptor=d256" = .ret 0 ∧ maxPaylen 1500 "descriptor" = .panic := by decide +kernel
example : fileDescriptor (some 65536) = "descriptor=d32" := by decide

end Saratoga
