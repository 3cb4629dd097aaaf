import Verif.Model.Send
import Verif.Model.StatusOut
import Verif.Props.Beacon
import Verif.Props.Data
import Verif.Props.Metadata
import Verif.Props.Request
import Verif.Props.Status
import Verif.Props.Transfers
/-!
# C109: sending a frame
-/
namespace Saratoga

/-- The socket after one more datagram has left it. -/
def UDPSocket.with (s : UDPSocket) (to : UDPAddr) (bytes : List Byte) : UDPSocket :=
  ⟨s.remote, s.sent ++ [(to, bytes)]⟩

/-- The socket is as before, or one more datagram has left it, to `to`, with a beginning of `bytes`. -/
def UDPSocket.OrPart (s s' : UDPSocket) (to : UDPAddr) (bytes : List Byte) : Prop :=
  s' = s ∨ ∃ part, part <+: bytes ∧ s' = s.with to part

theorem writeTo_iff {what : String} {s : UDPSocket} {a : UDPAddr} {buf : List Byte} {os : OsSend}
    {c : Option UDPSocket} :
    (((udpWriteTo (some s) buf (some a) os).1, sendResult what buf (udpWriteTo (some s) buf (some a) os).2) =
      (c, none)) ↔ s.remote = none ∧ os = .took buf.length ∧ c = some (s.with a buf) := by
  unfold udpWriteTo
  cases hr : s.remote with
  | some r => simp [sendResult, hr]
  | none =>
    cases os with
    | fails e => simp [UDPSocket.give, sendResult, hr]
    | took n =>
      by_cases hn : n = buf.length
      · subst hn
        simp [UDPSocket.give, sendResult, UDPSocket.with, hr, eq_comm]
      · simp [UDPSocket.give, sendResult, hr, hn]

theorem write_iff {what : String} {s : UDPSocket} {buf : List Byte} {os : OsSend} {c : Option UDPSocket} :
    (((udpWrite (some s) buf os).1, sendResult what buf (udpWrite (some s) buf os).2) = (c, none)) ↔
      ∃ a, s.remote = some a ∧ os = .took buf.length ∧ c = some (s.with a buf) := by
  unfold udpWrite
  cases hr : s.remote with
  | none => simp [sendResult, hr]
  | some a =>
    cases os with
    | fails e => simp [UDPSocket.give, sendResult, hr]
    | took n =>
      by_cases hn : n = buf.length
      · subst hn
        simp [UDPSocket.give, sendResult, UDPSocket.with, hr, eq_comm]
      · simp [UDPSocket.give, sendResult, hr, hn]

theorem writeTo_part {s : UDPSocket} {a : UDPAddr} {buf : List Byte} {os : OsSend} :
    ∃ s', (udpWriteTo (some s) buf (some a) os).1 = some s' ∧ s.OrPart s' a buf := by
  unfold udpWriteTo
  cases hr : s.remote with
  | some r => exact ⟨s, by simp [hr], .inl rfl⟩
  | none =>
    cases os with
    | fails e => exact ⟨s, by simp [UDPSocket.give, hr], .inl rfl⟩
    | took n =>
      refine ⟨s.with a (buf.take n), by simp [UDPSocket.give, UDPSocket.with, hr], .inr ⟨_, ?_, rfl⟩⟩
      exact List.take_prefix _ _

theorem write_part {s : UDPSocket} {a : UDPAddr} {buf : List Byte} {os : OsSend} (hr : s.remote = some a) :
    ∃ s', (udpWrite (some s) buf os).1 = some s' ∧ s.OrPart s' a buf := by
  unfold udpWrite
  cases os with
  | fails e => exact ⟨s, by simp [UDPSocket.give, hr], .inl rfl⟩
  | took n =>
    refine ⟨s.with a (buf.take n), by simp [UDPSocket.give, UDPSocket.with, hr], .inr ⟨_, ?_, rfl⟩⟩
    exact List.take_prefix _ _

theorem writeTo_dialled {what : String} {s : UDPSocket} {a : Option UDPAddr} {buf : List Byte} {os : OsSend} {r : UDPAddr}
    (h : s.remote = some r) : ∃ e, ((udpWriteTo (some s) buf a os).1,
      sendResult what buf (udpWriteTo (some s) buf a os).2) = (some s, some e) := by
  simp [udpWriteTo, h, sendResult]

/-! ## No error means sent -/

/-- **C109** `Data.Send` reports no error exactly when the frame encodes, the connection is not a dialled one and the
operating system took the frame whole; then exactly this frame has left, to the address given. -/
theorem C109_data (T : Tables) (d : Data) (s : UDPSocket) (a : UDPAddr) (os : OsSend) (c : Option UDPSocket) :
    d.sendTo T (some s) (some a) os = .ret (c, none) ↔
      s.remote = none ∧ ∃ frame, d.encode T = .ret (.ok frame) ∧ os = .took frame.length ∧
        c = some (s.with a frame) := by
  unfold Data.sendTo
  cases he : d.encode T with
  | panic => simp [Out.panic_bind]
  | fatal => simp [Out.fatal_bind]
  | ret r =>
    cases r with
    | error e => simp [Out.ret_bind, pure]
    | ok buf =>
      have := writeTo_iff (what := "Data") (s := s) (a := a) (buf := buf) (os := os) (c := c)
      simp only [Out.ret_bind, pure, Out.ret.injEq, Except.ok.injEq, exists_eq_left']
      exact this

/-- **C109** The same for `Status.Send`. -/
theorem C109_status (T : Tables) (d : Status) (s : UDPSocket) (a : UDPAddr) (os : OsSend) (c : Option UDPSocket) :
    d.sendTo T (some s) (some a) os = .ret (c, none) ↔
      s.remote = none ∧ ∃ frame, d.encode T = .ret (.ok frame) ∧ os = .took frame.length ∧
        c = some (s.with a frame) := by
  unfold Status.sendTo
  cases he : d.encode T with
  | panic => simp [Out.panic_bind]
  | fatal => simp [Out.fatal_bind]
  | ret r =>
    cases r with
    | error e => simp [Out.ret_bind, pure]
    | ok buf =>
      have := writeTo_iff (what := "status") (s := s) (a := a) (buf := buf) (os := os) (c := c)
      simp only [Out.ret_bind, pure, Out.ret.injEq, Except.ok.injEq, exists_eq_left']
      exact this

/-- **C109** The same for `Request.Send`. -/
theorem C109_request (d : Request) (s : UDPSocket) (a : UDPAddr) (os : OsSend) (c : Option UDPSocket) :
    d.sendTo (some s) (some a) os = .ret (c, none) ↔
      s.remote = none ∧ ∃ frame, d.encode = .ret frame ∧ os = .took frame.length ∧
        c = some (s.with a frame) := by
  unfold Request.sendTo
  cases he : d.encode with
  | panic => simp [Out.panic_bind]
  | fatal => simp [Out.fatal_bind]
  | ret buf =>
    have := writeTo_iff (what := "Request") (s := s) (a := a) (buf := buf) (os := os) (c := c)
    simp only [Out.ret_bind, pure, Out.ret.injEq, exists_eq_left']
    exact this

/-- **C109** The same for `MetaData.Send`. -/
theorem C109_metadata (T : Tables) (d : MetaData) (s : UDPSocket) (a : UDPAddr) (os : OsSend) (c : Option UDPSocket) :
    d.sendTo T (some s) (some a) os = .ret (c, none) ↔
      s.remote = none ∧ ∃ frame, d.encode T = .ret frame ∧ os = .took frame.length ∧
        c = some (s.with a frame) := by
  unfold MetaData.sendTo
  cases he : d.encode T with
  | panic => simp [Out.panic_bind]
  | fatal => simp [Out.fatal_bind]
  | ret buf =>
    have := writeTo_iff (what := "MetaData") (s := s) (a := a) (buf := buf) (os := os) (c := c)
    simp only [Out.ret_bind, pure, Out.ret.injEq, exists_eq_left']
    exact this

/-- **C109** `Beacon.Send` reports no error exactly when the beacon encodes, the connection is a dialled one and the
operating system took the frame whole; then exactly this frame has left, to the address dialled. -/
theorem C109_beacon (T : Tables) (b : Beacon) (s : UDPSocket) (os : OsSend) (c : Option UDPSocket) :
    b.sendOn T (some s) os = .ret (c, none) ↔
      ∃ a frame, s.remote = some a ∧ b.encode T = .ret (.ok frame) ∧ os = .took frame.length ∧
        c = some (s.with a frame) := by
  unfold Beacon.sendOn
  cases he : b.encode T with
  | panic => simp [Out.panic_bind]
  | fatal => simp [Out.fatal_bind]
  | ret r =>
    cases r with
    | error e => simp [Out.ret_bind, pure]
    | ok buf =>
      have := write_iff (what := "Beacon") (s := s) (buf := buf) (os := os) (c := c)
      simp only [Out.ret_bind, pure, Out.ret.injEq, Except.ok.injEq]
      refine this.trans ⟨?_, ?_⟩
      · rintro ⟨a, h1, h2, h3⟩
        exact ⟨a, buf, h1, rfl, h2, h3⟩
      · rintro ⟨a, f, h1, rfl, h2, h3⟩
        exact ⟨a, h1, h2, h3⟩

/-- **C109** Whatever `Data.Send` reports, what left before stays as it was, and at most one datagram leaves, with a
beginning of the frame. (A frame that does not encode leaves nothing.) -/
theorem C109_data_at_most (T : Tables) (d : Data) (s : UDPSocket) (a : UDPAddr) (os : OsSend)
    (c : Option UDPSocket) (e : Option Err) (h : d.sendTo T (some s) (some a) os = .ret (c, e)) :
    c = some s ∨ ∃ frame s', d.encode T = .ret (.ok frame) ∧ c = some s' ∧ s.OrPart s' a frame := by
  unfold Data.sendTo at h
  cases he : d.encode T with
  | panic => simp [he, Out.panic_bind] at h
  | fatal => simp [he, Out.fatal_bind] at h
  | ret r =>
    cases r with
    | error e =>
      simp only [he, Out.ret_bind, pure, Out.ret.injEq, Prod.mk.injEq] at h
      exact .inl h.1.symm
    | ok buf =>
      simp only [he, Out.ret_bind, pure, Out.ret.injEq, Prod.mk.injEq] at h
      obtain ⟨s', h1, h2⟩ := writeTo_part (s := s) (a := a) (buf := buf) (os := os)
      exact .inr ⟨buf, s', rfl, h.1.symm.trans h1, h2⟩

/-- **C109** The same for `Status.Send`. -/
theorem C109_status_at_most (T : Tables) (d : Status) (s : UDPSocket) (a : UDPAddr) (os : OsSend)
    (c : Option UDPSocket) (e : Option Err) (h : d.sendTo T (some s) (some a) os = .ret (c, e)) :
    c = some s ∨ ∃ frame s', d.encode T = .ret (.ok frame) ∧ c = some s' ∧ s.OrPart s' a frame := by
  unfold Status.sendTo at h
  cases he : d.encode T with
  | panic => simp [he, Out.panic_bind] at h
  | fatal => simp [he, Out.fatal_bind] at h
  | ret r =>
    cases r with
    | error e =>
      simp only [he, Out.ret_bind, pure, Out.ret.injEq, Prod.mk.injEq] at h
      exact .inl h.1.symm
    | ok buf =>
      simp only [he, Out.ret_bind, pure, Out.ret.injEq, Prod.mk.injEq] at h
      obtain ⟨s', h1, h2⟩ := writeTo_part (s := s) (a := a) (buf := buf) (os := os)
      exact .inr ⟨buf, s', rfl, h.1.symm.trans h1, h2⟩

/-- **C109** The same for `Request.Send`. -/
theorem C109_request_at_most (d : Request) (s : UDPSocket) (a : UDPAddr) (os : OsSend)
    (c : Option UDPSocket) (e : Option Err) (h : d.sendTo (some s) (some a) os = .ret (c, e)) :
    ∃ frame s', d.encode = .ret frame ∧ c = some s' ∧ s.OrPart s' a frame := by
  unfold Request.sendTo at h
  cases he : d.encode with
  | panic => simp [he, Out.panic_bind] at h
  | fatal => simp [he, Out.fatal_bind] at h
  | ret buf =>
    simp only [he, Out.ret_bind, pure, Out.ret.injEq, Prod.mk.injEq] at h
    obtain ⟨s', h1, h2⟩ := writeTo_part (s := s) (a := a) (buf := buf) (os := os)
    exact ⟨buf, s', rfl, h.1.symm.trans h1, h2⟩

/-- **C109** The same for `MetaData.Send`. -/
theorem C109_metadata_at_most (T : Tables) (d : MetaData) (s : UDPSocket) (a : UDPAddr) (os : OsSend)
    (c : Option UDPSocket) (e : Option Err) (h : d.sendTo T (some s) (some a) os = .ret (c, e)) :
    ∃ frame s', d.encode T = .ret frame ∧ c = some s' ∧ s.OrPart s' a frame := by
  unfold MetaData.sendTo at h
  cases he : d.encode T with
  | panic => simp [he, Out.panic_bind] at h
  | fatal => simp [he, Out.fatal_bind] at h
  | ret buf =>
    simp only [he, Out.ret_bind, pure, Out.ret.injEq, Prod.mk.injEq] at h
    obtain ⟨s', h1, h2⟩ := writeTo_part (s := s) (a := a) (buf := buf) (os := os)
    exact ⟨buf, s', rfl, h.1.symm.trans h1, h2⟩

/-- **C109** The same for `Beacon.Send`, which writes to the address dialled; without one nothing leaves. -/
theorem C109_beacon_at_most (T : Tables) (b : Beacon) (s : UDPSocket) (os : OsSend)
    (c : Option UDPSocket) (e : Option Err) (h : b.sendOn T (some s) os = .ret (c, e)) :
    c = some s ∨ ∃ a frame s', s.remote = some a ∧ b.encode T = .ret (.ok frame) ∧ c = some s' ∧
      s.OrPart s' a frame := by
  unfold Beacon.sendOn at h
  cases he : b.encode T with
  | panic => simp [he, Out.panic_bind] at h
  | fatal => simp [he, Out.fatal_bind] at h
  | ret r =>
    cases r with
    | error e =>
      simp only [he, Out.ret_bind, pure, Out.ret.injEq, Prod.mk.injEq] at h
      exact .inl h.1.symm
    | ok buf =>
      simp only [he, Out.ret_bind, pure, Out.ret.injEq, Prod.mk.injEq] at h
      cases hr : s.remote with
      | none => exact .inl (by rw [← h.1]; simp [udpWrite, hr])
      | some a =>
        obtain ⟨s', h1, h2⟩ := write_part (s := s) (a := a) (buf := buf) (os := os) hr
        exact .inr ⟨a, buf, s', rfl, rfl, h.1.symm.trans h1, h2⟩

/-! ## What was sent can be read -/

/-- **C109** A data frame sent without an error from a connection that was not dialled is read back by whoever gets the
datagram, into any variable. -/
theorem C109_data_arrives (T : Tables) (d d0 : Data) (n : Nat) (rt : String)
    (width : HasWidth T "descriptor" d.header n) (stamp : getStr T d.header "reqtstamp" = .ret rt)
    (fits : d.offset.toNat < 256 ^ n) (readable : rt = "yes" → d.tstamp.Wire T)
    (notEmpty : ¬ (rt = "yes" ∧ n = 2 ∧ d.payload = []))
    (s : UDPSocket) (a : UDPAddr) (os : OsSend) (c : Option UDPSocket)
    (sent : d.sendTo T (some s) (some a) os = .ret (c, none)) :
    ∃ bytes, c = some (s.with a bytes) ∧
      d0.decode T bytes = .ret ({ d with tstamp := if rt = "yes" then d.tstamp else d0.tstamp }, none) := by
  obtain ⟨-, frame, he, -, hc⟩ := (C109_data ..).1 sent
  obtain ⟨f, h1, h2⟩ := C20_round_trip_partial T d d0 n rt width stamp fits readable notEmpty
  rw [he] at h1
  cases h1
  exact ⟨frame, hc, h2⟩

/-- **C109** A request with an ASCII name, sent without an error, is read back. -/
theorem C109_request_arrives (r r0 : Request) (noNul : NoNul r.fname) (ascii : Ascii r.fname)
    (fresh : r0.fname = []) (s : UDPSocket) (a : UDPAddr) (os : OsSend) (c : Option UDPSocket)
    (sent : r.sendTo (some s) (some a) os = .ret (c, none)) :
    ∃ bytes, c = some (s.with a bytes) ∧ r0.decode bytes = .ret (r, none) := by
  obtain ⟨-, frame, he, -, hc⟩ := (C109_request ..).1 sent
  obtain ⟨f, h1, h2⟩ := C21_round_trip_partial r r0 noNul ascii fresh
  rw [he] at h1
  cases h1
  exact ⟨frame, hc, h2⟩

/-- **C109** A status frame without a timestamp, sent without an error, is read back. -/
theorem C109_status_arrives (T : Tables) (d d0 : Status) (n : Nat) (rt : String)
    (width : HasWidth T "descriptor" d.header n)
    (stamp : getStr T d.header "reqtstamp" = .ret rt) (noStamp : rt ≠ "yes")
    (fitsP : d.progress.toNat < 256 ^ n) (fitsI : d.inrespto.toNat < 256 ^ n)
    (fitsH : ∀ h ∈ d.holes, EndFits n h.start ∧ EndFits n h.stop) (fresh : d0.holes = [])
    (s : UDPSocket) (a : UDPAddr) (os : OsSend) (c : Option UDPSocket)
    (sent : d.sendTo T (some s) (some a) os = .ret (c, none)) :
    ∃ bytes, c = some (s.with a bytes) ∧ d0.decode T bytes = .ret ({ d with tstamp := d0.tstamp }, none) := by
  obtain ⟨-, frame, he, -, hc⟩ := (C109_status ..).1 sent
  obtain ⟨f, h1, h2⟩ := C25_round_trip_partial T d d0 n rt width stamp noStamp fitsP fitsI fitsH fresh
  rw [he] at h1
  cases h1
  exact ⟨frame, hc, h2⟩

/-- **C109** A metadata frame whose directory entry can be read, sent without an error, is read back. -/
theorem C109_metadata_arrives (T : Tables) (m m0 : MetaData) (de : List Byte)
    (agree : m.checksum.length = 4 * (get T m.header "csumlen").toNat)
    (dir : m.dir.encode T = .ret (.ok de)) (d : DirEnt) (back : m0.dir.decode T de = .ret (d, none))
    (s : UDPSocket) (a : UDPAddr) (os : OsSend) (c : Option UDPSocket)
    (sent : m.sendTo T (some s) (some a) os = .ret (c, none)) :
    ∃ bytes, c = some (s.with a bytes) ∧ m0.decode T bytes = .ret ({ m with dir := d }, none) := by
  obtain ⟨-, frame, he, -, hc⟩ := (C109_metadata ..).1 sent
  obtain ⟨f, h1, h2⟩ := C23_round_trip T m m0 de agree dir d back
  rw [he] at h1
  cases h1
  exact ⟨frame, hc, h2⟩

/-- **C109** A beacon that advertises free space, sent without an error, is read back. -/
theorem C109_beacon_arrives (T : Tables) (b b0 : Beacon) (n : Nat)
    (free : getStr T b.header "freespace" = .ret "yes") (width : HasWidth T "freespaced" b.header n)
    (fits : b.freespace.toNat < 256 ^ n) (s : UDPSocket) (os : OsSend) (c : Option UDPSocket)
    (sent : b.sendOn T (some s) os = .ret (c, none)) :
    ∃ a bytes, s.remote = some a ∧ c = some (s.with a bytes) ∧ b0.decode T bytes = .ret (b, none) := by
  obtain ⟨a, frame, hr, he, -, hc⟩ := (C109_beacon ..).1 sent
  obtain ⟨f, h1, h2⟩ := C26_round_trip T b b0 n free width fits
  rw [he] at h1
  cases h1
  exact ⟨a, frame, hr, hc, h2⟩

/-! ## On the connection of a transfer nothing can be sent -/

/-- **C109** (partial: connections that were not dialled, which no transfer has.) A data frame that encodes is sent
whenever the operating system takes it. See `C109_counterexample`. -/
theorem C109_sends_partial (T : Tables) (d : Data) (frame : List Byte) (enc : d.encode T = .ret (.ok frame))
    (s : UDPSocket) (listening : s.remote = none) (a : UDPAddr) :
    d.sendTo T (some s) (some a) (.took frame.length) = .ret (some (s.with a frame), none) :=
  (C109_data ..).2 ⟨listening, frame, enc, rfl, rfl⟩

/-- The answer a status frame gets from a dialled connection, as `writeStatus` wants it. -/
theorem status_dialled (T : Tables) (d : Status) (s : UDPSocket) {r : UDPAddr} (dialled : s.remote = some r)
    (to : Option UDPAddr) (os : OsSend) : ∃ e, ∀ c e', d.sendTo T (some s) to os = .ret (c, e') →
      c = some s ∧ (e' = none ↔ False) ∧
      (d.send T (some e) = .ret (.error e) ∨ ∃ e1, d.send T (some e) = .ret (.error e1)) := by
  refine ⟨"use of WriteTo with pre-connected connection", fun c e' h => ?_⟩
  unfold Status.sendTo at h
  unfold Status.send
  cases he : d.encode T with
  | panic => simp [he, Out.panic_bind] at h
  | fatal => simp [he, Out.fatal_bind] at h
  | ret x =>
    cases x with
    | error e =>
      simp only [he, Out.ret_bind, pure, Out.ret.injEq, Prod.mk.injEq] at h
      refine ⟨h.1.symm, ?_, .inr ⟨e, by simp [Out.ret_bind, pure]⟩⟩
      rw [← h.2]; simp
    | ok buf =>
      obtain ⟨e, h2⟩ := writeTo_dialled (what := "status") (a := to) (buf := buf) (os := os) dialled
      simp only [he, Out.ret_bind, pure, Out.ret.injEq] at h
      rw [h2] at h
      cases h
      exact ⟨rfl, by simp, .inl (by simp [Out.ret_bind, pure])⟩

/-- **C109** Frames other than beacons are never sent on a dialled connection, whatever the operating system would say:
`Send` reports an error and nothing leaves. -/
theorem C109_dialled (T : Tables) (s : UDPSocket) (r : UDPAddr) (dialled : s.remote = some r)
    (to : Option UDPAddr) (os : OsSend) :
    (∀ (d : Data) c e, d.sendTo T (some s) to os = .ret (c, e) → c = some s ∧ e ≠ none) ∧
    (∀ (d : Status) c e, d.sendTo T (some s) to os = .ret (c, e) → c = some s ∧ e ≠ none) ∧
    (∀ (d : Request) c e, d.sendTo (some s) to os = .ret (c, e) → c = some s ∧ e ≠ none) ∧
    (∀ (d : MetaData) c e, d.sendTo T (some s) to os = .ret (c, e) → c = some s ∧ e ≠ none) := by
  refine ⟨fun d c e h => ?_, fun d c e h => ?_, fun d c e h => ?_, fun d c e h => ?_⟩
  · unfold Data.sendTo at h
    cases he : d.encode T with
    | panic => simp [he, Out.panic_bind] at h
    | fatal => simp [he, Out.fatal_bind] at h
    | ret x =>
      cases x with
      | error e =>
        simp only [he, Out.ret_bind, pure, Out.ret.injEq, Prod.mk.injEq] at h
        exact ⟨h.1.symm, by rw [← h.2]; simp⟩
      | ok buf =>
        obtain ⟨e, h2⟩ := writeTo_dialled (what := "Data") (a := to) (buf := buf) (os := os) dialled
        simp only [he, Out.ret_bind, pure, Out.ret.injEq] at h
        rw [h2] at h
        cases h
        exact ⟨rfl, by simp⟩
  · obtain ⟨_, h1⟩ := status_dialled T d s dialled to os
    obtain ⟨h2, h3, -⟩ := h1 c e h
    exact ⟨h2, fun h => h3.1 h⟩
  · unfold Request.sendTo at h
    cases he : d.encode with
    | panic => simp [he, Out.panic_bind] at h
    | fatal => simp [he, Out.fatal_bind] at h
    | ret buf =>
      obtain ⟨e, h2⟩ := writeTo_dialled (what := "Request") (a := to) (buf := buf) (os := os) dialled
      simp only [he, Out.ret_bind, pure, Out.ret.injEq] at h
      rw [h2] at h
      cases h
      exact ⟨rfl, by simp⟩
  · unfold MetaData.sendTo at h
    cases he : d.encode T with
    | panic => simp [he, Out.panic_bind] at h
    | fatal => simp [he, Out.fatal_bind] at h
    | ret buf =>
      obtain ⟨e, h2⟩ := writeTo_dialled (what := "MetaData") (a := to) (buf := buf) (os := os) dialled
      simp only [he, Out.ret_bind, pure, Out.ret.injEq] at h
      rw [h2] at h
      cases h
      exact ⟨rfl, by simp⟩

theorem statusLoop_never {T : Tables} {clock : Nat → GoTime} {fails : Nat → Option Err} {flags : String}
    {info : Sinfo} (all : ∀ i, (fails i).isSome = true) (n i : Nat) (sent sent' : List (List Byte)) (w : String)
    (h : statusLoop T clock fails flags info (n + 1) i sent = .ret (sent', w)) :
    sent' = sent ∧ w = "badstatus" := by
  rw [statusLoop] at h
  obtain ⟨⟨st, e⟩, -, h⟩ := Out.bind_eq_ret h
  cases e with
  | some e =>
    simp only [pure, Out.ret.injEq, Prod.mk.injEq] at h
    exact ⟨h.1.symm, h.2.symm⟩
  | none =>
    obtain ⟨x, hx, h⟩ := Out.bind_eq_ret h
    cases x with
    | error e =>
      simp only [pure, Out.ret.injEq, Prod.mk.injEq] at h
      exact ⟨h.1.symm, h.2.symm⟩
    | ok frame =>
      unfold Status.send at hx
      obtain ⟨y, -, hx⟩ := Out.bind_eq_ret hx
      cases y with
      | error e => simp [pure] at hx
      | ok b =>
        have := all i
        cases hf : fails i with
        | none => simp [hf] at this
        | some e => simp [hf, pure] at hx

/-- **C109** So the status reports of a transfer never leave the host. Every transfer with a connection has a dialled
one (`NewInitiator` and `NewResponder` dial), whose answer to each `Send` is an error: `WriteStatus` sends nothing,
whatever the transfer, the flags, the MTU and the operating system; and where at least the fixed part fits into a
frame, it says "badstatus". -/
theorem C109_counterexample (T : Tables) (mtu : Int) (clock : Nat → GoTime) (fails : Nat → Option Err)
    (s : UDPSocket) (r : UDPAddr) (dialled : s.remote = some r)
    (answers : ∀ i, ∃ what buf to os, fails i = sendResult what buf (udpWriteTo (some s) buf to os).2)
    (t : Transfer) (sflags : String) (sent : List (List Byte)) (w : String)
    (h : t.writeStatus T mtu clock fails sflags = .ret (sent, w)) :
    sent = [] ∧ ((∀ k, stpaylen mtu sflags = .ret k → 0 ≤ k) → w = "badstatus") := by
  have all : ∀ i, (fails i).isSome = true := by
    intro i
    obtain ⟨what, buf, to, os, h⟩ := answers i
    obtain ⟨e, he⟩ := writeTo_dialled (what := what) (a := to) (buf := buf) (os := os) dialled
    have := congrArg Prod.snd he
    dsimp only at this
    rw [h, this]
    rfl
  have loop : ∀ n fl info, statusLoop T clock fails fl info n 0 [] = .ret (sent, w) →
      sent = [] ∧ (n ≠ 0 → w = "badstatus") := by
    intro n fl info h
    cases n with
    | zero =>
      simp only [statusLoop, Out.ret.injEq, Prod.mk.injEq] at h
      exact ⟨h.1.symm, fun h => absurd rfl h⟩
    | succ n =>
      obtain ⟨h1, h2⟩ := statusLoop_never all n 0 _ _ _ h
      exact ⟨h1, fun _ => h2⟩
  unfold Transfer.writeStatus at h
  split at h
  · simp only [Out.ret.injEq, Prod.mk.injEq] at h
    exact ⟨h.1.symm, fun _ => h.2.symm⟩
  · obtain ⟨k, hk, h⟩ := Out.bind_eq_ret h
    obtain ⟨errf, -, h⟩ := Out.bind_eq_ret h
    dsimp only at h
    generalize (if errf = "success" then ((Holes.getholes t.curfills).length : Int) else 0) = last at h
    split at h
    · obtain ⟨fl, -, h⟩ := Out.bind_eq_ret h
      obtain ⟨h1, h2⟩ := loop _ _ _ h
      exact ⟨h1, fun _ => h2 (by omega)⟩
    · split at h
      · cases h
      · obtain ⟨fl, -, h⟩ := Out.bind_eq_ret h
        obtain ⟨h1, h2⟩ := loop _ _ _ h
        refine ⟨h1, fun fits => h2 ?_⟩
        have := Int.tdiv_nonneg (a := ((Holes.getholes t.curfills).length : Int)) (b := k) (by omega) (fits k hk)
        omega

/-- A listening socket and a dialled one. -/
def listening : UDPSocket := ⟨none, []⟩
def dialledA : UDPSocket := ⟨some hostA, []⟩

example := C109_dialled shipped dialledA hostA rfl (some hostA) (.took 14)

example : getStr shipped 0x20004000#32 "freespace" = .ret "yes" ∧ HasWidth shipped "freespaced" 0x20004000#32 2 ∧
    ∃ c, Beacon.sendOn shipped ⟨0x20004000#32, 4000, [65]⟩ (some dialledA) (.took 7) = .ret (c, none) := by
  refine ⟨?_, ⟨"d16", ?_, rfl⟩, _, rfl⟩ <;> decide +kernel

example : HasWidth shipped "descriptor" 0x24000000#32 2 ∧ getStr shipped 0x24000000#32 "reqtstamp" = .ret "no" ∧
    ∃ c, Status.sendTo shipped ⟨0x24000000#32, 7, Timestamp.zero, 9, 8, [⟨1, 2⟩]⟩ (some listening) (some hostA) (.took 16) =
      .ret (c, none) := by
  refine ⟨⟨"d16", ?_, rfl⟩, ?_, _, rfl⟩ <;> decide +kernel

example : ∃ c, Request.sendTo ⟨0x21000001#32, 7, [104, 105], [1]⟩ (some listening) (some hostA) (.took 12) = .ret (c, none) :=
  ⟨_, rfl⟩

example : HasWidth shipped "descriptor" 0x23400000#32 4 ∧ getStr shipped 0x23400000#32 "reqtstamp" = .ret "no" ∧
    ∃ c, Data.sendTo shipped ⟨0x23400000#32, 7, Timestamp.zero, 65536, [1#8, 2#8]⟩ (some listening) (some hostA) (.took 14) =
      .ret (c, none) := by
  refine ⟨⟨"d32", ?_, rfl⟩, ?_, _, rfl⟩ <;> decide +kernel

/-- The same data frame leaves the one and not the other. -/
example : ∃ frame : List Byte, frame.length = 30 ∧
    Data.encode shipped ⟨dataHeader32, 7, someStamp, 65536, [1#8, 2#8]⟩ = .ret (.ok frame) ∧
    Data.sendTo shipped ⟨dataHeader32, 7, someStamp, 65536, [1#8, 2#8]⟩ (some listening) (some hostA) (.took 30) =
      .ret (some (listening.with hostA frame), none) ∧
    Data.sendTo shipped ⟨dataHeader32, 7, someStamp, 65536, [1#8, 2#8]⟩ (some dialledA) (some hostA) (.took 30) =
      .ret (some dialledA, some "use of WriteTo with pre-connected connection") := ⟨_, rfl, rfl, rfl, rfl⟩

end Saratoga
