import Verif.Props.Files
import Verif.Props.Report
/-!
# C162: what is reported as missing is what has to be sent again

The receiver stores pieces as they come (`storeAll`: `FileWrite` and `Holes.Add`) and reports with `WriteStatus`; any
reader decodes the report. Whoever then sends pieces of the file again completes it exactly if these pieces have in
them what the report names, and what comes after everything that was received.
-/
namespace Saratoga

/-- Offset `x` is in what was written of some of the pieces. -/
def Brought (as : List Arrival) (x : Int) : Prop :=
  ∃ a ∈ as, (a.off.toNat : Int) ≤ x ∧
    x < a.off.toNat + (match a.short with | none => a.data.length | some n => min n a.data.length : Nat)

instance (as : List Arrival) (x : Int) : Decidable (Brought as x) :=
  inferInstanceAs (Decidable (∃ a ∈ as, _))

theorem brought_received (as : List Arrival) (x : Int) : Brought as x ↔ Received (as.map Arrival.call) x := by
  simp only [Brought, Received, List.mem_map]
  constructor
  · rintro ⟨a, ha, h1, h2⟩
    refine ⟨_, ⟨a, ha, rfl⟩, h1, ?_⟩
    simp only [Arrival.call, Arrival.stored]
    cases hs : a.short <;> simp only [hs, List.length_take] at h2 ⊢ <;> omega
  · rintro ⟨c, ⟨a, ha, rfl⟩, h1, h2⟩
    refine ⟨a, ha, h1, ?_⟩
    simp only [Arrival.call, Arrival.stored] at h2
    cases hs : a.short <;> simp only [hs, List.length_take] at h2 ⊢ <;> omega

theorem brought_append (as bs : List Arrival) (x : Int) : Brought (as ++ bs) x ↔ Brought as x ∨ Brought bs x := by
  simp only [Brought, List.mem_append, or_and_right, exists_or]

theorem brought_inside {F : List Byte} {as : List Arrival} (cut : ∀ a ∈ as, a.Of F) {x : Int} (h : Brought as x) :
    0 ≤ x ∧ x < F.length := by
  obtain ⟨a, ha, h1, h2⟩ := h
  have := (cut a ha).1
  cases hs : a.short <;> simp only [hs] at h2 <;> omega

/-- **C162** After more pieces the file is complete exactly if these bring every offset in the holes that `Getholes`
reports and every offset beyond all that was received. -/
theorem C162_repair_iff (F : List Byte) (size : F.length < 2 ^ 63) (notEmpty : F ≠ []) (h : Handle)
    (writable : h.writable = true) (fs : FS) (fresh : fs.node h.loc = some (.file [])) (as more : List Arrival)
    (cut : ∀ a ∈ as, a.Of F) (cut' : ∀ a ∈ more, a.Of F) :
    ((storeAll h fs (as ++ more)).2 = [⟨0, F.length⟩] ↔
      (∀ x, Covers (Holes.getholes (storeAll h fs as).2) x → Brought more x) ∧
      (∀ x : Int, 0 ≤ x → x < F.length → (∀ y, Brought as y → y < x) → Brought more x)) ∧
    ((storeAll h fs (as ++ more)).2 = [⟨0, F.length⟩] →
      (storeAll h fs (as ++ more)).1.node h.loc = some (.file F)) := by
  have both : ∀ a ∈ as ++ more, a.Of F := fun a ha => (List.mem_append.1 ha).elim (cut a) (cut' a)
  have pos : 0 < F.length := List.length_pos_iff.2 notEmpty
  refine ⟨?_, fun done => (C57_rebuilt F size h writable fs fresh _ both done).1⟩
  rw [(storeAll_inv F size h writable fs fresh _ both).2.1, (storeAll_inv F size h writable fs fresh _ cut).2.1,
    C05_complete_iff _ _ (by omega)]
  have nonneg : ∀ c ∈ as.map Arrival.call, c.start < c.stop → 0 ≤ c.start := by
    intro c hc _
    obtain ⟨a, -, rfl⟩ := List.mem_map.1 hc
    simp only [Arrival.call]; omega
  simp only [← brought_received, brought_append, (C04_holes_exact _ nonneg).2]
  constructor
  · intro all
    constructor
    · rintro x ⟨h0, hno, y, hy, hb⟩
      have := brought_inside cut hb
      exact ((all x).2 ⟨h0, by omega⟩).resolve_left hno
    · intro x h0 h1 beyond
      exact ((all x).2 ⟨h0, h1⟩).resolve_left fun hb => by have := beyond x hb; omega
  · rintro ⟨holes, tail⟩ x
    constructor
    · rintro (hb | hb)
      · exact brought_inside cut hb
      · exact brought_inside cut' hb
    · rintro ⟨h0, h1⟩
      by_cases hb : Brought as x
      · exact .inl hb
      · refine .inr ?_
        by_cases hy : ∃ y, x < y ∧ Brought as y
        · exact holes x ⟨h0, hb, hy⟩
        · refine tail x h0 h1 fun y by_ => ?_
          have : ¬ x < y := fun hlt => hy ⟨y, hlt, by_⟩
          have : y ≠ x := fun e => hb (e ▸ by_)
          omega

/-- Two pieces of a file of five bytes, with a byte missing between them and one at the end. -/
def fiveBytes : List Byte := [1#8, 2#8, 3#8, 4#8, 5#8]

/-- The first two bytes and the fourth. -/
def someOfFive : List Arrival := [⟨3#64, [4#8], none, exampleSort⟩, ⟨0#64, [1#8, 2#8, 3#8], some 2, exampleSort⟩]

/-- What is left of it. -/
def restOfFive : List Arrival := [⟨4#64, [5#8], none, exampleSort⟩, ⟨2#64, [3#8], none, exampleSort⟩]

/-- The hypotheses are met, and the third and the fifth byte are what is asked for and comes. -/
example : (∀ a ∈ someOfFive, a.off.toNat + a.data.length ≤ fiveBytes.length ∧
      ∀ i < a.data.length, a.data[i]? = fiveBytes[a.off.toNat + i]?) ∧
    (∀ a ∈ restOfFive, a.off.toNat + a.data.length ≤ fiveBytes.length ∧
      ∀ i < a.data.length, a.data[i]? = fiveBytes[a.off.toNat + i]?) ∧
    (∀ x ∈ [0, 1, 3], Brought someOfFive x) ∧ ¬ Brought someOfFive 2 ∧ ¬ Brought someOfFive 4 ∧
    Brought restOfFive 2 ∧ Brought restOfFive 4 := by decide

/-- **C162** The same for whoever reads any frame of the receiver's report: the holes in the frame are what has to be
sent again. (Reports without a timestamp, whose numbers fit the descriptor; see C87 for the others.) -/
theorem C162_reported_iff (F : List Byte) (size : F.length < 2 ^ 63) (notEmpty : F ≠ []) (h : Handle)
    (writable : h.writable = true) (fs : FS) (fresh : fs.node h.loc = some (.file [])) (as : List Arrival)
    (cut : ∀ a ∈ as, a.Of F) (mtu : Int) (clock : Nat → GoTime) (fails : Nat → Option Err) (t : Transfer)
    (recorded : t.curfills = (storeAll h fs as).2)
    (ps : List (String × String)) (plain : PlainPairs ps) (allValid : ∀ p ∈ ps, valid shipped p.1 p.2 = true)
    (d : String) (n : Nat) (desc : lastValue "descriptor" ps = some d) (width : descWidth d = some n)
    (noStamp : lastValue "reqtstamp" ps ≠ some "yes") (noBare : ∀ p ∈ ps, p.1 ∉ bareStamps)
    (fits : F.length ≤ 256 ^ n) (fitsP : t.progress.toNat < 256 ^ n) (fitsI : t.inrespto.toNat < 256 ^ n)
    (frames : List (List Byte))
    (ok : t.writeStatus shipped mtu clock fails (render ps) = .ret (frames, "success"))
    (f : List Byte) (sent : f ∈ frames) :
    ∃ st : Status, Status.zero.decode shipped f = .ret (st, none) ∧ st.session = t.session ∧
      ∀ more : List Arrival, (∀ a ∈ more, a.Of F) →
        ((storeAll h fs (as ++ more)).2 = [⟨0, F.length⟩] ↔
          (∀ x, Covers st.holes x → Brought more x) ∧
          (∀ x : Int, 0 ≤ x → x < F.length → (∀ y, Brought as y → y < x) → Brought more x)) := by
  have record := (storeAll_inv F size h writable fs fresh _ cut).2.1
  have nonneg : ∀ c ∈ as.map Arrival.call, c.start < c.stop → 0 ≤ c.start := by
    intro c hc _
    obtain ⟨a, -, rfl⟩ := List.mem_map.1 hc
    simp only [Arrival.call]; omega
  have small : ∀ c ∈ as.map Arrival.call, c.stop ≤ 256 ^ n ∧ c.stop ≤ 2 ^ 63 := by
    intro c hc
    obtain ⟨a, ha, rfl⟩ := List.mem_map.1 hc
    have h1 := (cut a ha).1
    have h2 := a.stored_le
    simp only [Arrival.call]
    have h3 : ((F.length : Nat) : Int) ≤ ((256 ^ n : Nat) : Int) := by exact_mod_cast fits
    rw [Int.natCast_pow] at h3
    constructor
    · exact Int.le_trans (by omega) h3
    · omega
  obtain ⟨st, hd, hs, -, -, -, cov⟩ := C87_learns_partial mtu clock fails t (as.map Arrival.call)
    (recorded.trans record) nonneg ps plain allValid d n desc width noStamp noBare small fitsP fitsI frames ok f sent
  refine ⟨st, hd, hs, fun more cut' => ?_⟩
  rw [(C162_repair_iff F size notEmpty h writable fs fresh as more cut cut').1, record]
  simp only [(C04_holes_exact _ nonneg).2, cov]

theorem someOfFive_cut : ∀ a ∈ someOfFive, a.Of fiveBytes := by
  intro a ha
  simp only [someOfFive, List.mem_cons, List.not_mem_nil, or_false] at ha
  rcases ha with rfl | rfl
  · exact ⟨by decide, show ∀ i, i < 1 → [4#8][i]? = fiveBytes[3 + i]? by decide⟩
  · exact ⟨by decide, show ∀ i, i < 3 → [1#8, 2#8, 3#8][i]? = fiveBytes[0 + i]? by decide⟩

/-- A report of these pieces that is sent in one frame. -/
example (h : Handle) (writable : h.writable = true) (fs : FS) (fresh : fs.node h.loc = some (.file [])) :
    (storeAll h fs someOfFive).2 = [⟨0, 2⟩, ⟨3, 4⟩] ∧
    (match ({ Transfer.zero with conn := some "a", curfills := [⟨0, 2⟩, ⟨3, 4⟩] } : Transfer).writeStatus shipped 1500
        (fun _ => ⟨1000, 0⟩) (fun _ => none) (render okText) with
      | .ret (frames, w) => decide (frames.length = 1 ∧ w = "success")
      | _ => false) = true := by
  refine ⟨?_, by decide +kernel⟩
  rw [(storeAll_inv fiveBytes (by decide) h writable fs fresh _ someOfFive_cut).2.1]
  refine canonical_ext _ _ (C02_canonical _) ⟨by decide, by decide⟩ fun x => ?_
  rw [C01_received_exactly]
  simp [Received, Covers, someOfFive, Arrival.call, Arrival.stored]
  omega

/-- **C162** What is on record stays on record, whatever comes. -/
theorem C162_kept (F : List Byte) (size : F.length < 2 ^ 63) (h : Handle)
    (writable : h.writable = true) (fs : FS) (fresh : fs.node h.loc = some (.file [])) (as more : List Arrival)
    (cut : ∀ a ∈ as, a.Of F) (cut' : ∀ a ∈ more, a.Of F) (x : Int) (on : Covers (storeAll h fs as).2 x) :
    Covers (storeAll h fs (as ++ more)).2 x := by
  have both : ∀ a ∈ as ++ more, a.Of F := fun a ha => (List.mem_append.1 ha).elim (cut a) (cut' a)
  rw [(storeAll_inv F size h writable fs fresh _ both).2.1, C01_received_exactly, ← brought_received, brought_append]
  rw [(storeAll_inv F size h writable fs fresh _ cut).2.1, C01_received_exactly, ← brought_received] at on
  exact .inl on

/-- Every round of pieces brings at least one offset that was not there. -/
def EachBrings (before : List Arrival) : List (List Arrival) → Prop
  | [] => True
  | round :: rest => (∃ x, Brought round x ∧ ¬ Brought before x) ∧ EachBrings (before ++ round) rest

theorem countP_lt {α : Type} {p q : α → Bool} {l : List α} (imp : ∀ x ∈ l, p x = true → q x = true) {x : α} (mem : x ∈ l)
    (hp : p x = false) (hq : q x = true) : l.countP p < l.countP q := by
  induction l with
  | nil => cases mem
  | cons a l ih =>
    have le : l.countP p ≤ l.countP q := List.countP_mono_left fun y hy => imp y (List.mem_cons_of_mem _ hy)
    rw [List.countP_cons, List.countP_cons]
    rcases List.mem_cons.1 mem with rfl | mem
    · rw [hp, hq]; simp; omega
    · have := ih (fun y hy => imp y (List.mem_cons_of_mem _ hy)) mem
      have := imp a (by simp)
      cases hpa : p a <;> simp_all <;> split <;> omega

example : EachBrings [] [someOfFive, restOfFive.take 1, restOfFive] :=
  ⟨⟨1, by decide, by decide⟩, ⟨4, by decide, by decide⟩, ⟨2, by decide, by decide⟩, trivial⟩

/-- **C162** There are at most as many rounds that bring something new as the file has bytes: sending again what is
missing, as long as something of it gets through each time, ends. -/
theorem C162_rounds (F : List Byte) (rounds : List (List Arrival)) (cut : ∀ r ∈ rounds, ∀ a ∈ r, a.Of F)
    (new : EachBrings [] rounds) : rounds.length ≤ F.length := by
  suffices H : ∀ before : List Arrival, EachBrings before rounds →
      rounds.length ≤ (List.range F.length).countP fun x : Nat => decide (¬ Brought before x) by
    refine Nat.le_trans (H [] new) (Nat.le_trans List.countP_le_length (by simp))
  clear new
  induction rounds with
  | nil => intro _ _; exact Nat.zero_le _
  | cons r rest ih =>
    rintro before ⟨⟨x, hx, hno⟩, hrest⟩
    have ins := brought_inside (cut r (by simp)) hx
    have := ih (fun r' hr' => cut r' (List.mem_cons_of_mem _ hr')) (before ++ r) hrest
    have lt := countP_lt (p := fun x : Nat => decide (¬ Brought (before ++ r) x))
      (q := fun x : Nat => decide (¬ Brought before x)) (l := List.range F.length) (x := x.toNat)
      (fun y _ hy => by
        simp only [decide_eq_true_eq, brought_append] at hy ⊢
        exact fun hb => hy (.inl hb))
      (List.mem_range.2 (by omega))
      (by
        have e : ((x.toNat : Nat) : Int) = x := by omega
        simp only [decide_eq_false_iff_not, brought_append, e]
        exact fun hn => hn (.inr hx))
      (by
        have e : ((x.toNat : Nat) : Int) = x := by omega
        simp only [decide_eq_true_eq, e]
        exact hno)
    simp only [List.length_cons]
    omega

end Saratoga
