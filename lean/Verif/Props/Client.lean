import Verif.Lemmas.Client
/-!
# C90: sending a file (`client/client.go`, senddata)
-/
namespace Saratoga

/-- **C90** Sending a file, of any length, with any fine flag text, over any connection: after one round more than
there are full blocks the sender has returned. It has built that many frames. Frame `k` is the `k`-th block at its
place; only the last is marked as the end; the last and every hundredth ask for a status; stamped frames have the time
of their own round. The payloads in order are the file. What it reports is every complaint of the connection in order
and then `success`. -/
theorem C90_sends (E : SendEnv) (env : E.Fine) (mtu : Int) (file : List Byte) (short : file.length < 2 ^ 63)
    (session : BitVec 32) (ps : List (String × String)) (text : DataText ps) (plen : Nat) (room : 0 < plen)
    (computed : maxPaylen mtu (render ps) = .ret plen) (rounds : Nat) (enough : file.length / plen < rounds) :
    ∃ s, sendData shipped E mtu file session (render ps) rounds = .ret s ∧ s.done = true ∧
      s.sent.length = file.length / plen + 1 ∧
      (∀ k x, s.sent[k]? = some x → FrameAt file plen session ps (file.length / plen) k x ∧
        (wantsStamp ps → PosixTime (E.clock k) x.tstamp)) ∧
      s.sent.flatMap (·.payload) = file ∧
      s.answers = complaints E (file.length / plen + 1) ++ ["success"] := by
  obtain ⟨s0, h0, inv⟩ := sendStart_fine text E file plen session
  obtain ⟨s, h1, -, h2⟩ := sendRounds_fine env short room (n := rounds) inv
  have d := h2 (by omega)
  refine ⟨s, ?_, d.done, d.count, d.frames, ?_, d.answers⟩
  · unfold sendData
    rw [h0, computed]
    simp only [Out.ret_bind]
    rw [if_neg (by omega), Int.toNat_natCast, h1]
  · have blocks : s.sent.map (·.payload) =
        (List.range (file.length / plen + 1)).map fun k => (file.drop (k * plen)).take plen := by
      apply List.ext_getElem?
      intro k
      rw [List.getElem?_map, List.getElem?_map]
      by_cases hk : k < s.sent.length
      · rw [List.getElem?_eq_getElem hk, List.getElem?_range (by rw [← d.count]; exact hk)]
        exact congrArg some (d.frames k _ (List.getElem?_eq_getElem hk)).1.payload
      · rw [List.getElem?_eq_none (by omega), List.getElem?_eq_none (by rw [List.length_range, ← d.count]; omega)]
        rfl
    have hdm := Nat.div_add_mod file.length plen
    have hmod := Nat.mod_lt file.length room
    rw [List.flatMap_def, blocks, ← List.flatMap_def, blocks_join, List.take_of_length_le]
    rw [Nat.add_mul, Nat.mul_comm]; omega

/-- **C90** Before that it goes on: after as many rounds as there are full blocks, or fewer, it has sent one frame in
each and has not returned. -/
theorem C90_waits (E : SendEnv) (env : E.Fine) (mtu : Int) (file : List Byte) (short : file.length < 2 ^ 63)
    (session : BitVec 32) (ps : List (String × String)) (text : DataText ps) (plen : Nat) (room : 0 < plen)
    (computed : maxPaylen mtu (render ps) = .ret plen) (rounds : Nat) (few : rounds ≤ file.length / plen) :
    ∃ s, sendData shipped E mtu file session (render ps) rounds = .ret s ∧ s.done = false ∧ s.sent.length = rounds ∧
      (∀ k x, s.sent[k]? = some x → FrameAt file plen session ps (file.length / plen) k x ∧
        (wantsStamp ps → PosixTime (E.clock k) x.tstamp)) ∧
      s.answers = complaints E rounds := by
  obtain ⟨s0, h0, inv⟩ := sendStart_fine text E file plen session
  obtain ⟨s, h1, h2, -⟩ := sendRounds_fine env short room (n := rounds) inv
  have d := h2 (by omega)
  rw [Nat.zero_add] at d
  refine ⟨s, ?_, d.running, d.count, d.frames, d.answers⟩
  unfold sendData
  rw [h0, computed]
  simp only [Out.ret_bind]
  rw [if_neg (by omega), Int.toNat_natCast, h1]

/-- **C90** If the interface leaves no room at all the sender never returns: it sends empty frames for ever. -/
theorem C90_no_room_endless (E : SendEnv) (env : E.Fine) (mtu : Int) (file : List Byte) (session : BitVec 32)
    (ps : List (String × String)) (text : DataText ps) (computed : maxPaylen mtu (render ps) = .ret 0)
    (rounds : Nat) :
    ∃ s, sendData shipped E mtu file session (render ps) rounds = .ret s ∧ s.done = false ∧ s.sent.length = rounds ∧
      ∀ x ∈ s.sent, x.payload = [] := by
  obtain ⟨s0, h0, inv⟩ := sendStart_fine text E file 0 session
  obtain ⟨q, hq, tq, -⟩ := inv.text
  obtain ⟨s, h1, h2, h3, h4⟩ := sendRounds_zero (n := rounds) (k := 0) (file := file) (session := session) env
    inv.running (BitVec.eq_of_toNat_eq (by simpa using inv.pos)) ⟨q, hq, tq⟩
  have none0 : s0.sent = [] := List.length_eq_zero_iff.1 inv.count
  refine ⟨s, ?_, h2, by rw [h3, none0]; simp, fun x hx => (h4 x hx).resolve_left (by simp [none0])⟩
  unfold sendData
  rw [h0, computed]
  exact h1

/-- **C90** If it leaves less than that the sender panics. -/
theorem C90_negative_panics (E : SendEnv) (mtu : Int) (file : List Byte) (session : BitVec 32)
    (ps : List (String × String)) (text : DataText ps) (k : Int) (negative : k < 0)
    (computed : maxPaylen mtu (render ps) = .ret k) (rounds : Nat) :
    sendData shipped E mtu file session (render ps) rounds = .panic := by
  obtain ⟨s0, h0, -⟩ := sendStart_fine text E file 0 session
  unfold sendData
  rw [h0, computed]
  simp only [Out.ret_bind]
  rw [if_pos negative]

/-- **C90** A text that names a timestamp type, which data frames understand, ends the process before anything is
sent. -/
theorem C90_stamp_type_exits (E : SendEnv) (mtu : Int) (file : List Byte) (session : BitVec 32) (rounds : Nat) :
    sendData shipped E mtu file session "reqtstamp=posix64,descriptor=d16" rounds = .fatal ∧
    ∀ info, (Data.zero.new shipped ⟨1000000000, 0⟩ "reqtstamp=posix64,descriptor=d16" info).verdict = .ok := by
  constructor
  · unfold sendData
    rw [show sendStart shipped "reqtstamp=posix64,descriptor=d16" = .fatal by decide +kernel]
    rfl
  · intro info
    rw [C12_data_partial shipped C12_shipped_basic _ (by decide)]
    decide +kernel

/-- The hypotheses are met: three bytes of room, seven bytes of file, three frames; and a connection that complains. -/
def putText : List (String × String) :=
  [("transfer", "file"), ("eod", "no"), ("descriptor", "d16"), ("reqtstamp", "no")]

example : DataText putText ∧ maxPaylen 81 (render putText) = .ret 3 ∧ maxPaylen 78 (render putText) = .ret 0 ∧
    maxPaylen 70 (render putText) = .ret (-8) ∧ ¬ wantsStamp putText := by decide +kernel

def putEnv : SendEnv := ⟨fun _ => ⟨1000000000, 0⟩, fun _ => false, fun i => if i = 1 then "cantsend" else "success"⟩

example := C90_negative_panics putEnv 70 [1, 2, 3] 9 putText (by decide +kernel) (-8) (by decide) (by decide +kernel) 1

example := C90_no_room_endless putEnv (fun _ => ⟨(by decide : (⟨1000000000, 0⟩ : GoTime).InRange), rfl⟩) 78 [1, 2, 3] 9 putText (by decide +kernel)
  (by decide +kernel) 100

example := C90_waits putEnv (fun _ => ⟨(by decide : (⟨1000000000, 0⟩ : GoTime).InRange), rfl⟩) 81 [1, 2, 3, 4, 5, 6, 7] (by decide) 9 putText
  (by decide +kernel) 3 (by decide) (by decide +kernel) 2 (by decide)

example := C90_sends putEnv (fun _ => ⟨(by decide : (⟨1000000000, 0⟩ : GoTime).InRange), rfl⟩) 81 [1, 2, 3, 4, 5, 6, 7] (by decide) 9 putText
  (by decide +kernel) 3 (by decide) (by decide +kernel) 5 (by decide)

theorem putEnv_fine : putEnv.Fine := fun _ => ⟨show (⟨1000000000, 0⟩ : GoTime).InRange by decide, rfl⟩

example : ∃ s, sendData shipped putEnv 81 [1, 2, 3, 4, 5, 6, 7] 9 (render putText) 5 = .ret s ∧ s.done = true ∧
    s.sent.map (·.payload) = [[1, 2, 3], [4, 5, 6], [7]] ∧ s.answers = ["cantsend", "success"] := ⟨_, rfl, by decide +kernel⟩

end Saratoga
