import Verif.Props.Timestamp
/-! # Time stamps keep the order of the times they were made of: C151 -/
namespace Saratoga

/-- One moment is before another. -/
def GoTime.Before (a b : GoTime) : Prop := a.sec < b.sec ∨ (a.sec = b.sec ∧ a.nsec < b.nsec)

/-- One stamp shows an earlier moment than another: fewer seconds, or as many and fewer nanoseconds. -/
def Timestamp.Before (a b : Timestamp) : Prop :=
  a.secs.toNat < b.secs.toNat ∨ (a.secs.toNat = b.secs.toNat ∧ a.nsecs.toNat < b.nsecs.toNat)

/-- The types with seconds only. -/
def wholeSeconds : List String := ["posix32", "posix64", "epoch2000_32"]

/-- The types with nanoseconds. -/
def withNanoseconds : List String := ["posix32_32", "posix64_32"]

theorem secs_nat {t : Timestamp} {s : Int} (h : t.secs.toInt = s) (pos : 0 ≤ s) : (t.secs.toNat : Int) = s := by
  rw [BitVec.toInt_eq_toNat_cond] at h
  split at h <;> omega

/-- **C151** Stamps of seconds only, of times from 1970 on: one is before another exactly if its time is in an earlier
second, and stamps of times in the same second are the same. Any tables. -/
theorem C151_seconds (T : Tables) (t0 t1 x y : Timestamp) (flag : String) (a b : GoTime) (okA : a.Ok) (okB : b.Ok)
    (type : stripSpaces flag ∈ wholeSeconds) (fromA : 0 ≤ a.sec) (fromB : 0 ≤ b.sec)
    (madeA : t0.new T flag a = .ret (x, none)) (madeB : t1.new T flag b = .ret (y, none)) :
    (x.Before y ↔ a.sec < b.sec) ∧ ((x.secs = y.secs ∧ x.nsecs = y.nsecs) ↔ a.sec = b.sec) := by
  have key : ∃ e : Int, ((x.secs.toNat : Int) = a.sec - e ∧ x.nsecs = 0) ∧ ((y.secs.toNat : Int) = b.sec - e ∧ y.nsecs = 0) := by
    simp only [wholeSeconds, List.mem_cons, List.not_mem_nil, or_false] at type
    rcases type with h | h | h
    · obtain ⟨h1, h2⟩ := C17_seconds T t0 x flag a okA (.inl h) madeA
      obtain ⟨h3, h4⟩ := C17_seconds T t1 y flag b okB (.inl h) madeB
      exact ⟨0, ⟨by rw [secs_nat h1 fromA]; omega, h2⟩, by rw [secs_nat h3 fromB]; omega, h4⟩
    · obtain ⟨h1, h2⟩ := C17_seconds T t0 x flag a okA (.inr h) madeA
      obtain ⟨h3, h4⟩ := C17_seconds T t1 y flag b okB (.inr h) madeB
      exact ⟨0, ⟨by rw [secs_nat h1 fromA]; omega, h2⟩, by rw [secs_nat h3 fromB]; omega, h4⟩
    · exact ⟨_, C17_epoch2000 T t0 x flag a okA h madeA, C17_epoch2000 T t1 y flag b okB h madeB⟩
  obtain ⟨e, ⟨x1, x2⟩, y1, y2⟩ := key
  unfold Timestamp.Before
  rw [x2, y2]
  refine ⟨by simp; omega, ?_⟩
  simp only [and_true]
  constructor
  · intro h; rw [h] at x1; omega
  · intro h
    exact BitVec.eq_of_toNat_eq (by omega)

example : ∃ x y, Timestamp.zero.new shipped "posix32" ⟨1000000000, 7⟩ = .ret (x, none) ∧
    Timestamp.zero.new shipped "posix32" ⟨1000000001, 3⟩ = .ret (y, none) ∧ stripSpaces "posix32" ∈ wholeSeconds :=
  ⟨_, _, rfl, rfl, by decide⟩

/-- **C151** Stamps with nanoseconds, of times from 1970 on: one is before another exactly if its time is, and stamps are
the same exactly if their times are. Any tables. -/
theorem C151_nanoseconds (T : Tables) (t0 t1 x y : Timestamp) (flag : String) (a b : GoTime) (okA : a.NanoOk) (okB : b.NanoOk)
    (type : stripSpaces flag ∈ withNanoseconds) (fromA : 0 ≤ a.sec) (fromB : 0 ≤ b.sec)
    (madeA : t0.new T flag a = .ret (x, none)) (madeB : t1.new T flag b = .ret (y, none)) :
    (x.Before y ↔ a.Before b) ∧ ((x.secs = y.secs ∧ x.nsecs = y.nsecs) ↔ a = b) := by
  simp only [withNanoseconds, List.mem_cons, List.not_mem_nil, or_false] at type
  obtain ⟨x1, x2⟩ := C17_nanoseconds T t0 x flag a okA fromA type madeA
  obtain ⟨y1, y2⟩ := C17_nanoseconds T t1 y flag b okB fromB type madeB
  unfold Timestamp.Before GoTime.Before
  refine ⟨by omega, ?_⟩
  constructor
  · rintro ⟨h1, h2⟩
    rw [h1] at x1; rw [h2] at x2
    cases a; cases b
    simp only [GoTime.mk.injEq] at *
    omega
  · rintro rfl
    exact ⟨BitVec.eq_of_toNat_eq (by omega), BitVec.eq_of_toNat_eq (by omega)⟩

/-- **C151** The reader of two stamps sees them in the order of their times: of the types with nanoseconds in exactly that
order, of the others in that of the seconds; a later time never shows as an earlier one. -/
theorem C151_read (T : Tables) (wf : T.ts.WF) (t0 t1 r0 r1 x y : Timestamp) (flag : String) (a b : GoTime) (okA : a.NanoOk)
    (okB : b.NanoOk) (type : stripSpaces flag ∈ wholeSeconds ++ withNanoseconds) (fromA : 0 ≤ a.sec) (fromB : 0 ≤ b.sec)
    (madeA : t0.new T flag a = .ret (x, none)) (madeB : t1.new T flag b = .ret (y, none)) (notLater : ¬ b.Before a) :
    ∃ p q x' y', x.put T = .ret p ∧ y.put T = .ret q ∧ r0.get T p = .ret (x', none) ∧ r1.get T q = .ret (y', none) ∧
      ¬ y'.Before x' := by
  have readable : stripSpaces flag ∈ readableTypes := by
    have : ∀ s ∈ wholeSeconds ++ withNanoseconds, s ∈ readableTypes := by decide
    exact this _ type
  obtain ⟨p, p1, -, p2⟩ := C17_wire_partial T wf t0 r0 x flag a readable (fun _ => ⟨okA, by omega⟩) madeA
  obtain ⟨q, q1, -, q2⟩ := C17_wire_partial T wf t1 r1 y flag b readable (fun _ => ⟨okB, by omega⟩) madeB
  refine ⟨p, q, x, y, p1, q1, p2, q2, fun h => ?_⟩
  rcases List.mem_append.1 type with type | type
  · have := (C151_seconds T t1 t0 y x flag b a okB.1 okA.1 type fromB fromA madeB madeA).1.1 h
    exact notLater (.inl this)
  · exact notLater ((C151_nanoseconds T t1 t0 y x flag b a okB okA type fromB fromA madeB madeA).1.1 h)

/-- Half a second apart: the stamps with nanoseconds differ, those without do not. -/
example : ∃ x y u v, Timestamp.zero.new shipped "posix64_32" ⟨1000000000, 0⟩ = .ret (x, none) ∧
    Timestamp.zero.new shipped "posix64_32" ⟨1000000000, 500000000⟩ = .ret (y, none) ∧ x ≠ y ∧
    Timestamp.zero.new shipped "epoch2000_32" ⟨1000000000, 0⟩ = .ret (u, none) ∧
    Timestamp.zero.new shipped "epoch2000_32" ⟨1000000000, 500000000⟩ = .ret (v, none) ∧ u = v := by
  refine ⟨_, _, _, _, rfl, rfl, ?_, rfl, rfl, rfl⟩
  decide +kernel

example : (⟨1000000000, 500000000⟩ : GoTime).NanoOk := by decide

end Saratoga
