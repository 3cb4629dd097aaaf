import Verif.Props.Make
import Verif.Props.Data
import Verif.Props.Timestamp
/-! # C88: the reader of a data frame learns when it was built

Composition of `New` (C76), the wire form of timestamps (C17) and the wire form of data frames (C20). -/
namespace Saratoga

/-- The second since 1970 a timestamp stands for. -/
def Timestamp.second (t : Timestamp) : Int :=
  t.secs.toNat + if t.ttype = "epoch2000_32" then 946684800 else 0

/-- The types that also carry nanoseconds. -/
def nanoTypes : List String := ["posix32_32", "posix64_32"]

/-- A stamp of a clock between 1970 and 2262 that is not of the local type can be written, and stands for
the second of the clock. -/
theorem ClockStamp.reads {clock : GoTime} {t : Timestamp} (st : ClockStamp clock t) (ok : clock.NanoOk)
    (from1970 : 0 ≤ clock.sec) (notLocal : t.ttype ≠ "localinterp") :
    t.Wire shipped ∧ t.second = clock.sec ∧ (t.ttype ∈ nanoTypes → t.nsecs.toNat = clock.nsec) := by
  obtain ⟨type, mem, t0, acc⟩ := st
  have wf : shipped.ts.WF := C09_ts_wf
  have strip : stripSpaces type = type := by
    simp only [tsTypeNames, List.mem_cons, List.not_mem_nil, or_false] at mem
    rcases mem with rfl | rfl | rfl | rfl | rfl | rfl <;> decide +kernel
  have tt : t.ttype = type := by
    have acc' := acc
    obtain ⟨v, hd, _, _, p1, p2, p3, p4, p5⟩ := new_ret acc'
    rw [strip] at p1 p2 p3 p4 p5
    dsimp only at p1 p2 p3 p4 p5
    simp only [tsTypeNames, List.mem_cons, List.not_mem_nil, or_false] at mem
    rcases mem with rfl | rfl | rfl | rfl | rfl | rfl
    · unfold Timestamp.new at acc
      obtain ⟨hh, -, acc⟩ := Out.bind_eq_ret acc
      rw [strip] at acc
      simp only [String.reduceEq, if_false] at acc
      cases acc
      rfl
    · rw [(p1 rfl rfl).2]
    · rw [p2 rfl rfl]
    · rw [(p3 rfl rfl).2]
    · rw [(p4 rfl rfl).2]
    · rw [(p5 rfl rfl).2]
  have hr : type ∈ readableTypes := by
    rw [tt] at notLocal
    simp only [tsTypeNames, List.mem_cons, List.not_mem_nil, or_false] at mem
    rcases mem with rfl | rfl | rfl | rfl | rfl | rfl
    · exact absurd rfl notLocal
    all_goals decide
  refine ⟨new_wire wf (by rw [strip]; exact hr) (fun _ => ⟨ok, fun h => by omega⟩) acc, ?_, ?_⟩
  · unfold Timestamp.second
    rw [tt]
    simp only [readableTypes, List.mem_cons, List.not_mem_nil, or_false] at hr
    have nonneg : ∀ {x : BitVec 64}, x.toInt = clock.sec → (x.toNat : Int) = clock.sec := by
      intro x hx
      rw [toNat_of_toInt (by omega)]
      exact hx
    rcases hr with rfl | rfl | rfl | rfl | rfl
    · have := (C17_seconds shipped t0 t _ clock ok.1 (.inl strip) acc).1
      simp [nonneg this]
    · have := (C17_seconds shipped t0 t _ clock ok.1 (.inr strip) acc).1
      simp [nonneg this]
    · have := (C17_nanoseconds shipped t0 t _ clock ok from1970 (.inl strip) acc).1
      simp [this]
    · have := (C17_nanoseconds shipped t0 t _ clock ok from1970 (.inr strip) acc).1
      simp [this]
    · have := (C17_epoch2000 shipped t0 t _ clock ok.1 strip acc).1
      simp only [this, if_true]
      omega
  · intro hn
    rw [tt] at hn
    simp only [nanoTypes, List.mem_cons, List.not_mem_nil, or_false] at hn
    exact (C17_nanoseconds shipped t0 t _ clock ok from1970 (hn.imp (fun h => by rw [strip, h]) fun h => by rw [strip, h]) acc).2

/-- **C88** (partial: not with the `localinterp` type, not an empty payload with a 16 bit descriptor.) Whoever
decodes a stamped data frame, into any variable, reads the session, offset and payload it was built with and the
second at which it was built. Missing for the full C88: `C88_counterexample`. -/
theorem C88_time_partial (clock : GoTime) (ok : clock.NanoOk) (from1970 : 0 ≤ clock.sec) (text : String)
    (info : Dinfo) (x : Data) (built : Data.zero.new shipped clock text info = .ret (x, none))
    (stamped : stampNumber x.header = 1) (notLocal : x.tstamp.ttype ≠ "localinterp") (n : Nat)
    (width : HasWidth shipped "descriptor" x.header n) (fits : info.offset.toNat < 256 ^ n)
    (notEmpty : ¬ (n = 2 ∧ info.payload = [])) :
    ∃ frame, x.encode shipped = .ret (.ok frame) ∧ ∀ d0 : Data, ∃ y : Data,
      d0.decode shipped frame = .ret (y, none) ∧ y.session = info.session ∧ y.offset = info.offset ∧
      y.payload = info.payload ∧ y.tstamp.second = clock.sec ∧
      (y.tstamp.ttype ∈ nanoTypes → y.tstamp.nsecs.toNat = clock.nsec) := by
  obtain ⟨-, e1, e2, e3⟩ := C11_data_partial shipped C11_shipped_separated.1 clock Data.zero x text info built
  obtain ⟨w, s, ns⟩ := (C76_data_time_partial clock text info x built stamped).reads ok from1970 notLocal
  have hrt : getStr shipped x.header "reqtstamp" = .ret "yes" := by rw [getStr_reqtstamp, if_pos stamped]
  have rt := fun d0 => C20_round_trip_partial shipped x d0 n "yes" width hrt (by rw [e2]; exact fits) (fun _ => w)
    (by rw [e3]; exact fun h => notEmpty h.2)
  obtain ⟨frame, h1, -⟩ := rt Data.zero
  refine ⟨frame, h1, fun d0 => ⟨_, ?_, e1, e2, e3, s, ns⟩⟩
  obtain ⟨frame', h1', h2⟩ := rt d0
  rw [h1] at h1'
  cases h1'
  rw [h2, if_pos rfl]

/-- C88 as stated fails: the stamped frame that ends a file with nothing left to send is built and written, and
no reader accepts it. (Nor does one accept the `localinterp` type: `C19_counterexample`.) -/
theorem C88_counterexample :
    ∃ (x : Data) (frame : List Byte),
      Data.zero.new shipped ⟨1000000000, 0⟩ "descriptor=d16,eod=yes,reqtstamp=yes" ⟨7, 1000, []⟩ = .ret (x, none) ∧
      x.encode shipped = .ret (.ok frame) ∧ ∀ d0 : Data, ∃ y e, d0.decode shipped frame = .ret (y, some e) := by
  have built : ∃ x, Data.zero.new shipped ⟨1000000000, 0⟩ "descriptor=d16,eod=yes,reqtstamp=yes" ⟨7, 1000, []⟩ =
      .ret (x, none) ∧ stampNumber x.header = 1 ∧ getStr shipped x.header "descriptor" = .ret "d16" ∧
      x.tstamp.Wire shipped ∧ x.payload = [] := by
    refine ⟨_, rfl, by decide +kernel, by decide +kernel, by decide +kernel, rfl⟩
  obtain ⟨x, h1, h2, h3, h4, h5⟩ := built
  have refused := fun d0 => C20_empty_refused shipped x d0 ⟨"d16", h3, rfl⟩
    (by rw [getStr_reqtstamp, if_pos h2]) h4 h5
  obtain ⟨frame, -, he, -⟩ := refused Data.zero
  refine ⟨x, frame, h1, he, fun d0 => ?_⟩
  obtain ⟨f, y, he', hd⟩ := refused d0
  rw [he] at he'
  cases he'
  exact ⟨y, _, hd⟩

/-- The hypotheses are met, with nanoseconds. -/
example : ∃ x, Data.zero.new shipped ⟨1000000000, 5⟩ "descriptor=d32,reqtstamp=posix32_32" ⟨7, 5, [1, 2]⟩ =
      .ret (x, none) ∧ stampNumber x.header = 1 ∧ x.tstamp.ttype ≠ "localinterp" ∧
      HasWidth shipped "descriptor" x.header 4 ∧ (⟨1000000000, 5⟩ : GoTime).NanoOk := by
  refine ⟨_, rfl, by decide +kernel, by decide +kernel, ⟨"d32", by decide +kernel, rfl⟩, by decide⟩

/-- **C20, without a timestamp.** What a listener reads from a data frame that carries no timestamp has none: all of it is
zero, and the frame is the one that was sent. -/
theorem C20_unstamped (T : Tables) (d : Data) (n : Nat) (rt : String) (width : HasWidth T "descriptor" d.header n)
    (stamp : getStr T d.header "reqtstamp" = .ret rt) (no : rt ≠ "yes") (fits : d.offset.toNat < 256 ^ n)
    (bare : d.tstamp = ⟨0, 0, 0, [], ""⟩) :
    ∃ frame, d.encode T = .ret (.ok frame) ∧ Data.zero.decode T frame = .ret (d, none) := by
  obtain ⟨frame, h1, h2⟩ := C20_round_trip_partial T d Data.zero n rt width stamp fits (fun h => absurd h no)
    (fun h => no h.1)
  refine ⟨frame, h1, h2.trans ?_⟩
  rw [if_neg no, show Data.zero.tstamp = d.tstamp from bare.symm]

example : HasWidth shipped "descriptor" 0x23400000#32 4 ∧ getStr shipped 0x23400000#32 "reqtstamp" = .ret "no" :=
  ⟨⟨"d32", by decide +kernel, by decide +kernel⟩, by decide +kernel⟩

end Saratoga
