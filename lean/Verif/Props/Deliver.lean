import Verif.Props.ClientFit
import Verif.Props.Files
/-!
# C92: a file sent in frames and stored from frames is the same file

Composition of `senddata` (C90), the wire form of data frames (C20) and the storing of pieces (C57), for any order of
arrival, with frames lost, repeated or refused by the disk.
-/
namespace Saratoga

/-- The piece `a` is what some reader got out of the bytes of the frame `x`. -/
def ReadFrom (x : Data) (a : Arrival) : Prop :=
  ∃ (frame : List Byte) (d0 y : Data), x.encode shipped = .ret (.ok frame) ∧ d0.decode shipped frame = .ret (y, none) ∧
    a.off = y.offset ∧ a.data = y.payload

/-- What is known of a frame that is sent. -/
theorem frame_known {E : SendEnv} {file : List Byte} {plen : Nat} {session : BitVec 32} {ps : List (String × String)}
    {last k : Nat} {x : Data} (at_ : FrameAt file plen session ps last k x)
    (time : wantsStamp ps → PosixTime (E.clock k) x.tstamp) {w : Nat}
    (width : descWidth ((lastValue "descriptor" ps).getD "d16") = some w) (small : file.length < 256 ^ w)
    (within : k * plen ≤ file.length) :
    (¬ (wantsStamp ps ∧ w = 2 ∧ x.payload = []) → ∃ frame, x.encode shipped = .ret (.ok frame) ∧
      ∀ d0 : Data, ∃ y, d0.decode shipped frame = .ret (y, none) ∧ y.header = x.header ∧ y.session = x.session ∧
        y.offset = x.offset ∧ y.payload = x.payload) ∧
    (wantsStamp ps ∧ w = 2 ∧ x.payload = [] → ∃ frame, x.encode shipped = .ret (.ok frame) ∧
      ∀ d0 : Data, ∃ y e, d0.decode shipped frame = .ret (y, some e)) := by
  have hw : HasWidth shipped "descriptor" x.header w := ⟨_, at_.descriptor, width⟩
  have rty : yesNo (wantsStamp ps) = "yes" ↔ wantsStamp ps := by unfold yesNo; split <;> simp_all
  constructor
  · intro ne
    have rt := fun d0 => C20_round_trip_partial shipped x d0 w (yesNo (wantsStamp ps)) hw at_.stamp
      (by rw [at_.offset]; omega) (fun h => (time (rty.1 h)).1) (fun h => ne ⟨rty.1 h.1, h.2⟩)
    obtain ⟨frame, h1, -⟩ := rt Data.zero
    refine ⟨frame, h1, fun d0 => ?_⟩
    obtain ⟨f, h1', h2⟩ := rt d0
    rw [h1] at h1'
    cases h1'
    exact ⟨_, h2, rfl, rfl, rfl, rfl⟩
  · rintro ⟨ws, rfl, empty⟩
    have rt := fun d0 => C20_empty_refused shipped x d0 hw (by rw [at_.stamp, rty.2 ws]) (time ws).1 empty
    obtain ⟨frame, -, h1, -⟩ := rt Data.zero
    refine ⟨frame, h1, fun d0 => ?_⟩
    obtain ⟨f, y, h1', h2⟩ := rt d0
    rw [h1] at h1'
    cases h1'
    exact ⟨y, _, h2⟩

/-! ## C92 -/

/-- **C92** Every frame of a file being sent that has bytes in it is accepted by every reader, who finds the session,
the place and the bytes. -/
theorem C92_accepted (E : SendEnv) (env : E.Fine) (mtu : Int) (file : List Byte) (short : file.length < 2 ^ 63)
    (session : BitVec 32) (ps : List (String × String)) (text : DataText ps) (plen : Nat) (room : 0 < plen)
    (computed : maxPaylen mtu (render ps) = .ret plen) (rounds : Nat) (enough : file.length / plen < rounds)
    (s : Sending) (ran : sendData shipped E mtu file session (render ps) rounds = .ret s) (w : Nat)
    (width : descWidth ((lastValue "descriptor" ps).getD "d16") = some w) (small : file.length < 256 ^ w)
    (k : Nat) (x : Data) (nth : s.sent[k]? = some x) (bytes : x.payload ≠ []) :
    ∃ frame, x.encode shipped = .ret (.ok frame) ∧ ∀ d0 : Data, ∃ y, d0.decode shipped frame = .ret (y, none) ∧
      y.session = session ∧ y.offset.toNat = k * plen ∧ y.payload = (file.drop (k * plen)).take plen := by
  obtain ⟨s', h1, -, h3, h4, -⟩ := C90_sends E env mtu file short session ps text plen room computed rounds enough
  rw [ran] at h1
  cases h1
  obtain ⟨at_, time⟩ := h4 k x nth
  have hk : k < s.sent.length := by
    rw [List.getElem?_eq_some_iff] at nth; exact nth.1
  have within : k * plen ≤ file.length :=
    Nat.le_trans (Nat.mul_le_mul_right plen (by omega)) (Nat.div_mul_le_self _ _)
  obtain ⟨frame, he, hd⟩ := (frame_known (E := E) at_ time width small within).1 fun h => bytes h.2.2
  refine ⟨frame, he, fun d0 => ?_⟩
  obtain ⟨y, hy, -, a, b, c⟩ := hd d0
  exact ⟨y, hy, a.trans at_.session, by rw [b]; exact at_.offset, c.trans at_.payload⟩

/-- **C92** However the frames arrive, if every frame with bytes in it is read and stored completely at least once, the
receiver's file is the sender's file, and the ranges received are the one range from 0 to its length. Missing: that the
receiver also learns of the end, which is false for some files (`C92_end_lost_counterexample`). -/
theorem C92_rebuilds_partial (E : SendEnv) (env : E.Fine) (mtu : Int) (file : List Byte) (short : file.length < 2 ^ 63)
    (notEmpty : file ≠ []) (session : BitVec 32) (ps : List (String × String)) (text : DataText ps) (plen : Nat)
    (room : 0 < plen) (computed : maxPaylen mtu (render ps) = .ret plen) (rounds : Nat)
    (enough : file.length / plen < rounds) (s : Sending)
    (ran : sendData shipped E mtu file session (render ps) rounds = .ret s) (w : Nat)
    (width : descWidth ((lastValue "descriptor" ps).getD "d16") = some w) (small : file.length < 256 ^ w)
    (h : Handle) (writable : h.writable = true) (fs : FS) (fresh : fs.node h.loc = some (.file []))
    (arrived : List Arrival) (fromSender : ∀ a ∈ arrived, ∃ x ∈ s.sent, ReadFrom x a)
    (noneLost : ∀ x ∈ s.sent, x.payload ≠ [] → ∃ a ∈ arrived, a.short = none ∧ ReadFrom x a) :
    (storeAll h fs arrived).1.node h.loc = some (.file file) ∧
    (storeAll h fs arrived).2 = [⟨0, file.length⟩] := by
  obtain ⟨s', h1, -, h3, h4, -⟩ := C90_sends E env mtu file short session ps text plen room computed rounds enough
  rw [ran] at h1
  cases h1
  have hdm := Nat.div_add_mod file.length plen
  have hmod := Nat.mod_lt file.length room
  have hlen0 := List.length_pos_iff.2 notEmpty
  -- what a piece read from a frame is
  have piece : ∀ (k : Nat) (x : Data) (a : Arrival), s.sent[k]? = some x → ReadFrom x a →
      a.off.toNat = k * plen ∧ a.data = (file.drop (k * plen)).take plen ∧ k * plen ≤ file.length := by
    rintro k x a nth ⟨frame, d0, y, he, hd, ho, hp⟩
    obtain ⟨at_, time⟩ := h4 k x nth
    have hk : k < s.sent.length := by
      rw [List.getElem?_eq_some_iff] at nth; exact nth.1
    have within : k * plen ≤ file.length :=
      Nat.le_trans (Nat.mul_le_mul_right plen (by omega)) (Nat.div_mul_le_self _ _)
    obtain ⟨k1, k2⟩ := frame_known (E := E) at_ time width small within
    by_cases hne : wantsStamp ps ∧ w = 2 ∧ x.payload = []
    · obtain ⟨f, he', hd'⟩ := k2 hne
      rw [he] at he'
      cases he'
      obtain ⟨y', e, hy⟩ := hd' d0
      rw [hd] at hy
      cases hy
    · obtain ⟨f, he', hd'⟩ := k1 hne
      rw [he] at he'
      cases he'
      obtain ⟨y', hy, -, -, b, c⟩ := hd' d0
      rw [hd] at hy
      cases hy
      exact ⟨by rw [ho, b]; exact at_.offset, by rw [hp, c]; exact at_.payload, within⟩
  have ofs : ∀ a ∈ arrived, a.Of file := by
    intro a ha
    obtain ⟨x, hx, hr⟩ := fromSender a ha
    obtain ⟨k, hk⟩ := List.mem_iff_getElem?.1 hx
    obtain ⟨p1, p2, p3⟩ := piece k x a hk hr
    refine ⟨?_, ?_⟩
    · rw [p1, p2, List.length_take, List.length_drop]; omega
    · intro i hi
      rw [p2, List.length_take, List.length_drop] at hi
      rw [p1, p2, List.getElem?_take_of_lt (by omega), List.getElem?_drop]
  have cover : ∀ i, i < file.length → ∃ a ∈ arrived, a.short = none ∧ a.off.toNat ≤ i ∧
      i < a.off.toNat + a.data.length := by
    intro i hi
    have hk : i / plen < s.sent.length := by
      rw [h3]
      have := Nat.div_le_div_right (c := plen) (Nat.le_of_lt hi)
      omega
    have nth : s.sent[i / plen]? = some s.sent[i / plen] := List.getElem?_eq_getElem hk
    have im := Nat.div_add_mod i plen
    have imod := Nat.mod_lt i room
    rw [Nat.mul_comm] at im
    have pay := (h4 _ _ nth).1.payload
    have ne : s.sent[i / plen].payload ≠ [] := by
      rw [pay]
      intro hnil
      have := congrArg List.length hnil
      rw [List.length_take, List.length_drop, List.length_nil] at this
      omega
    obtain ⟨a, ha, hs, hr⟩ := noneLost _ (List.getElem_mem hk) ne
    obtain ⟨p1, p2, p3⟩ := piece _ _ a nth hr
    refine ⟨a, ha, hs, by omega, ?_⟩
    rw [p1, p2, List.length_take, List.length_drop]
    omega
  have := C57_completes file short notEmpty h writable fs fresh arrived ofs cover
  exact ⟨this.2, this.1⟩

/-- **C92** (counterexample to the end being announced.) With timestamps and a 16 bit descriptor, if the file is a
whole number of blocks, the only frame that marks the end is refused by every reader: the receiver is never told. -/
theorem C92_end_lost_counterexample (E : SendEnv) (env : E.Fine) (mtu : Int) (file : List Byte) (session : BitVec 32)
    (ps : List (String × String)) (text : DataText ps) (stamped : wantsStamp ps)
    (d16 : lastValue "descriptor" ps = some "d16") (small : file.length < 65536) (plen : Nat) (room : 0 < plen)
    (computed : maxPaylen mtu (render ps) = .ret plen) (whole : plen ∣ file.length) (rounds : Nat)
    (enough : file.length / plen < rounds) (s : Sending)
    (ran : sendData shipped E mtu file session (render ps) rounds = .ret s) (x : Data) (sent : x ∈ s.sent)
    (isEnd : getStr shipped x.header "eod" = .ret "yes") :
    ∃ frame, x.encode shipped = .ret (.ok frame) ∧ ∀ d0 : Data, ∃ y e, d0.decode shipped frame = .ret (y, some e) := by
  obtain ⟨s', h1, -, h3, h4, -⟩ :=
    C90_sends E env mtu file (by omega) session ps text plen room computed rounds enough
  rw [ran] at h1
  cases h1
  obtain ⟨k, hk⟩ := List.mem_iff_getElem?.1 sent
  obtain ⟨at_, time⟩ := h4 k x hk
  have hlast : k = file.length / plen := by
    have := at_.eod
    rw [isEnd, yesNo] at this
    by_cases h : k = file.length / plen
    · exact h
    · rw [if_neg h] at this; exact absurd this (by decide)
  have hmul : k * plen = file.length := by rw [hlast]; exact Nat.div_mul_cancel whole
  refine (frame_known (E := E) at_ time (w := 2) (by rw [d16]; rfl) (by omega) (by omega)).2 ⟨stamped, rfl, ?_⟩
  rw [at_.payload, hmul]
  simp

/-- The hypotheses of the counterexample are met: six bytes in blocks of three. -/
example : DataText [("descriptor", "d16"), ("reqtstamp", "yes")] ∧ wantsStamp [("descriptor", "d16"), ("reqtstamp", "yes")] ∧
    maxPaylen 97 (render [("descriptor", "d16"), ("reqtstamp", "yes")]) = .ret 3 := by decide +kernel

/-- Those of the theorem are met by three frames. -/
example : ∃ s : Sending, sendData shipped putEnv 81 [1, 2, 3, 4, 5, 6, 7] 9 (render putText) 5 = .ret s ∧
    ∃ as : List Arrival, (∀ a ∈ as, ∃ x ∈ s.sent, ReadFrom x a) ∧
      (∀ x ∈ s.sent, x.payload ≠ [] → ∃ a ∈ as, a.short = none ∧ ReadFrom x a) := by
  have text : DataText putText := by decide +kernel
  have room : maxPaylen 81 (render putText) = .ret (3 : Nat) := by decide +kernel
  obtain ⟨s, h1, -⟩ := C90_sends putEnv putEnv_fine 81 [1, 2, 3, 4, 5, 6, 7] (by decide) 9 putText text 3 (by decide)
    room 5 (by decide)
  have each : ∀ x ∈ s.sent, x.payload ≠ [] → ∃ a : Arrival, a.short = none ∧ ReadFrom x a := by
    intro x hx ne
    obtain ⟨k, hk⟩ := List.mem_iff_getElem?.1 hx
    obtain ⟨frame, he, hd⟩ := C92_accepted putEnv putEnv_fine 81 _ (by decide) 9 putText text 3 (by decide) room 5
      (by decide) s h1 2 (by decide +kernel) (by decide) k x hk ne
    obtain ⟨y, hy, -⟩ := hd Data.zero
    exact ⟨⟨y.offset, y.payload, none, exampleSort⟩, rfl, frame, Data.zero, y, he, hy, rfl, rfl⟩
  refine ⟨s, h1, ?_⟩
  generalize s.sent = l at each
  induction l with
  | nil => exact ⟨[], by simp, by simp⟩
  | cons x t ih =>
    obtain ⟨as, q1, q2⟩ := ih fun y hy => each y (by simp [hy])
    by_cases ne : x.payload = []
    · refine ⟨as, fun a ha => ?_, fun y hy hn => ?_⟩
      · obtain ⟨y, hy, hr⟩ := q1 a ha; exact ⟨y, by simp [hy], hr⟩
      · rcases List.mem_cons.1 hy with rfl | hy
        · exact absurd ne hn
        · exact q2 y hy hn
    · obtain ⟨a0, s0, r0⟩ := each x (by simp) ne
      refine ⟨a0 :: as, fun a ha => ?_, fun y hy hn => ?_⟩
      · rcases List.mem_cons.1 ha with rfl | ha
        · exact ⟨x, by simp, r0⟩
        · obtain ⟨y, hy, hr⟩ := q1 a ha; exact ⟨y, by simp [hy], hr⟩
      · rcases List.mem_cons.1 hy with rfl | hy
        · exact ⟨a0, by simp, s0, r0⟩
        · obtain ⟨a, ha, hr⟩ := q2 y hy hn; exact ⟨a, by simp [ha], hr⟩

end Saratoga
