import Verif.Spec.Rounds
import Verif.Props.Repair
/-!
# C169: sending again what is reported missing ends

The receiver is the code of C57 and C162: it stores what comes and reports what it misses. The sender is anyone who
sends what a report names and what lies beyond it, as long as reports name something; frames of both may be lost.
-/
namespace Saratoga

variable {F : List Byte} {h : Handle} {fs : FS} {sends : Nat → List Piece} {comes : Nat → List Arrival}

theorem comes_brought (as : List Arrival) (x : Nat) : Comes as x ↔ Brought as x := by
  simp only [Comes, Brought]
  constructor <;> rintro ⟨a, ha, h1, h2⟩ <;> refine ⟨a, ha, by omega, ?_⟩ <;>
    cases hs : a.short <;> simp only [hs] at h2 ⊢ <;> omega

theorem mem_soFar {n : Nat} {a : Arrival} : a ∈ soFar comes n ↔ ∃ i < n, a ∈ comes i := by
  simp [soFar]

theorem comes_soFar {n x : Nat} : Comes (soFar comes n) x ↔ ∃ i < n, Comes (comes i) x := by
  constructor
  · rintro ⟨a, ha, hx⟩
    obtain ⟨i, hi, ha⟩ := mem_soFar.1 ha
    exact ⟨i, hi, a, ha, hx⟩
  · rintro ⟨i, hi, a, ha, hx⟩
    exact ⟨a, mem_soFar.2 ⟨i, hi, ha⟩, hx⟩

theorem Rounds.pieces (r : Rounds F h fs sends comes) (n : Nat) : ∀ a ∈ soFar comes n, a.Of F := by
  intro a ha
  obtain ⟨i, -, ha⟩ := mem_soFar.1 ha
  exact r.cut i _ (r.sent i a ha)

/-- What the file of pieces cut from `F` looks like when it is complete. -/
theorem complete_iff (size : F.length < 2 ^ 63) (notEmpty : F ≠ []) (writable : h.writable = true)
    (fresh : fs.node h.loc = some (.file [])) (as : List Arrival) (cut : ∀ a ∈ as, a.Of F) :
    (storeAll h fs as).2 = [⟨0, F.length⟩] ↔ ∀ x < F.length, Comes as x := by
  have pos : 0 < F.length := List.length_pos_iff.2 notEmpty
  rw [(storeAll_inv F size h writable fs fresh _ cut).2.1, C05_complete_iff _ _ (by omega)]
  simp only [← brought_received]
  constructor
  · intro all x hx
    rw [comes_brought]
    exact (all x).2 ⟨by omega, by omega⟩
  · intro all x
    refine ⟨brought_inside cut, fun hx => ?_⟩
    have := (comes_brought as x.toNat).1 (all x.toNat (by omega))
    rwa [show ((x.toNat : Nat) : Int) = x by omega] at this

/-- What is read from a report. -/
theorem report_covers (size : F.length < 2 ^ 63) (writable : h.writable = true) (fresh : fs.node h.loc = some (.file []))
    {as : List Arrival} (cut : ∀ a ∈ as, a.Of F) {st : Status} (reads : ReadsReport (storeAll h fs as).2 F.length st)
    (x : Nat) : Covers st.holes x ↔ ¬ Comes as x ∧ ∃ y > x, Comes as y := by
  obtain ⟨t, mtu, clock, fails, ps, d, n, frames, f, recorded, plain, allValid, desc, width, noStamp, noBare, fits, fitsP,
    fitsI, ok, sent, dec⟩ := reads
  have record := (storeAll_inv F size h writable fs fresh _ cut).2.1
  have nonneg : ∀ c ∈ as.map Arrival.call, c.start < c.stop → 0 ≤ c.start := by
    intro c hc _
    obtain ⟨a, -, rfl⟩ := List.mem_map.1 hc
    simp only [Arrival.call]; omega
  have small : ∀ c ∈ as.map Arrival.call, c.stop ≤ 256 ^ n ∧ c.stop ≤ 2 ^ 63 := by
    intro c hc
    obtain ⟨a, ha, rfl⟩ := List.mem_map.1 hc
    have h1 := (cut a ha).1
    have h2 := a.stored_le
    simp only [Arrival.call]
    have h3 : ((F.length : Nat) : Int) ≤ ((256 ^ n : Nat) : Int) := by exact_mod_cast fits
    rw [Int.natCast_pow] at h3
    constructor
    · exact Int.le_trans (by omega) h3
    · omega
  obtain ⟨st', hd, -, -, -, -, cov⟩ := C87_learns_partial mtu clock fails t (as.map Arrival.call)
    (recorded.trans record) nonneg ps plain allValid d n desc width noStamp noBare small fitsP fitsI frames ok f sent
  rw [dec] at hd
  cases hd
  rw [cov]
  simp only [← brought_received, ← comes_brought]
  constructor
  · rintro ⟨-, hno, y, hy, hb⟩
    refine ⟨hno, y.toNat, by omega, ?_⟩
    rw [comes_brought, show ((y.toNat : Nat) : Int) = y by omega]
    exact hb
  · rintro ⟨hno, y, hy, hb⟩
    exact ⟨by omega, hno, y, by omega, (comes_brought as y).1 hb⟩

/-- What has not come is sent. -/
theorem Rounds.still (r : Rounds F h fs sends comes) (size : F.length < 2 ^ 63) (writable : h.writable = true)
    (fresh : fs.node h.loc = some (.file [])) (i : Nat) {x : Nat} (hx : x < F.length) (no : ¬ Comes (soFar comes i) x) :
    Sends (sends i) x := by
  rcases r.asked i with all | ⟨j, hj, st, reads, holes, tail⟩
  · exact all x hx
  · have no' : ¬ Comes (soFar comes j) x := fun hc => by
      obtain ⟨k, hk, hc⟩ := comes_soFar.1 hc
      exact no (comes_soFar.2 ⟨k, by omega, hc⟩)
    by_cases hy : ∃ y > x, Comes (soFar comes j) y
    · exact holes x ((report_covers size writable fresh (r.pieces j) reads x).2 ⟨no', hy⟩)
    · refine tail x hx fun y hc => ?_
      have : ¬ y > x := fun hgt => hy ⟨y, hgt, hc⟩
      have : y ≠ x := fun e => no' (e ▸ hc)
      omega

/-- **C169** However much is lost: if a byte sent again and again comes once, there is a round from which on the file is
complete on record and on disk. -/
theorem C169_ends (F : List Byte) (size : F.length < 2 ^ 63) (notEmpty : F ≠ []) (h : Handle)
    (writable : h.writable = true) (fs : FS) (fresh : fs.node h.loc = some (.file [])) (sends : Nat → List Piece)
    (comes : Nat → List Arrival) (rounds : Rounds F h fs sends comes) (fair : FairLoss sends comes) :
    ∃ n, ∀ m ≥ n, (storeAll h fs (soFar comes m)).2 = [⟨0, F.length⟩] ∧
      (storeAll h fs (soFar comes m)).1.node h.loc = some (.file F) := by
  have each : ∀ x < F.length, ∃ i, Comes (comes i) x := by
    intro x hx
    by_cases hc : ∃ i, Comes (comes i) x
    · exact hc
    · exact fair x fun n => ⟨n, Nat.le_refl _, rounds.still size writable fresh n hx fun hs => by
        obtain ⟨i, -, hi⟩ := comes_soFar.1 hs
        exact hc ⟨i, hi⟩⟩
  have upto : ∀ k ≤ F.length, ∃ n, ∀ x < k, Comes (soFar comes n) x := by
    intro k
    induction k with
    | zero => exact fun _ => ⟨0, fun x hx => absurd hx (by omega)⟩
    | succ k ih =>
      intro hk
      obtain ⟨n, hn⟩ := ih (by omega)
      obtain ⟨i, hi⟩ := each k (by omega)
      refine ⟨max n (i + 1), fun x hx => ?_⟩
      by_cases e : x = k
      · subst e
        exact comes_soFar.2 ⟨i, by omega, hi⟩
      · obtain ⟨j, hj, hc⟩ := comes_soFar.1 (hn x (by omega))
        exact comes_soFar.2 ⟨j, by omega, hc⟩
  obtain ⟨n, hn⟩ := upto F.length (Nat.le_refl _)
  refine ⟨n, fun m hm => ?_⟩
  have done := (complete_iff size notEmpty writable fresh _ (rounds.pieces m)).2 fun x hx => by
    obtain ⟨j, hj, hc⟩ := comes_soFar.1 (hn x hx)
    exact comes_soFar.2 ⟨j, by omega, hc⟩
  exact ⟨done, (C57_rebuilt F size h writable fs fresh _ (rounds.pieces m) done).1⟩

/-- **C169** It takes no more rounds than the worst byte: if every byte sent in each of `k` rounds comes in one of them,
the file is complete after `k` rounds. -/
theorem C169_within (F : List Byte) (size : F.length < 2 ^ 63) (notEmpty : F ≠ []) (h : Handle)
    (writable : h.writable = true) (fs : FS) (fresh : fs.node h.loc = some (.file [])) (sends : Nat → List Piece)
    (comes : Nat → List Arrival) (rounds : Rounds F h fs sends comes) (k : Nat) (loss : LossBelow k sends comes) :
    (storeAll h fs (soFar comes k)).2 = [⟨0, F.length⟩] ∧
      (storeAll h fs (soFar comes k)).1.node h.loc = some (.file F) := by
  have done := (complete_iff size notEmpty writable fresh _ (rounds.pieces k)).2 fun x hx => by
    by_cases hc : ∃ i < k, Comes (comes i) x
    · exact comes_soFar.2 hc
    · refine comes_soFar.2 (loss x fun i hi => rounds.still size writable fresh i hx fun hs => ?_)
      obtain ⟨j, hj, hs⟩ := comes_soFar.1 hs
      exact hc ⟨j, by omega, hs⟩
  exact ⟨done, (C57_rebuilt F size h writable fs fresh _ (rounds.pieces k) done).1⟩

/-- **C169** The file is complete in the end exactly if each of its bytes comes in some round. -/
theorem C169_ends_iff (F : List Byte) (size : F.length < 2 ^ 63) (notEmpty : F ≠ []) (h : Handle)
    (writable : h.writable = true) (fs : FS) (fresh : fs.node h.loc = some (.file [])) (sends : Nat → List Piece)
    (comes : Nat → List Arrival) (rounds : Rounds F h fs sends comes) :
    (∃ n, (storeAll h fs (soFar comes n)).2 = [⟨0, F.length⟩]) ↔ ∀ x < F.length, ∃ i, Comes (comes i) x := by
  constructor
  · rintro ⟨n, hn⟩ x hx
    obtain ⟨i, -, hi⟩ := comes_soFar.1 ((complete_iff size notEmpty writable fresh _ (rounds.pieces n)).1 hn x hx)
    exact ⟨i, hi⟩
  · intro each
    obtain ⟨n, hn⟩ := C169_ends F size notEmpty h writable fs fresh sends comes rounds
      (fun x often => by
        obtain ⟨i, -, p, hp, h1, h2⟩ := often 0
        exact each x (by have := (rounds.cut i p hp).1; omega))
    exact ⟨n, (hn n (Nat.le_refl _)).1⟩

/-- **C169** And then it is quiet: a report of the complete file names nothing, and nothing lies beyond it. Before that
there is always something to send. -/
theorem C169_quiet (F : List Byte) (size : F.length < 2 ^ 63) (notEmpty : F ≠ []) (h : Handle)
    (writable : h.writable = true) (fs : FS) (fresh : fs.node h.loc = some (.file [])) (sends : Nat → List Piece)
    (comes : Nat → List Arrival) (rounds : Rounds F h fs sends comes) (n : Nat) (st : Status)
    (reads : ReadsReport (storeAll h fs (soFar comes n)).2 F.length st) :
    (storeAll h fs (soFar comes n)).2 = [⟨0, F.length⟩] ↔
      ∀ x < F.length, ¬ Covers st.holes x ∧ ¬ ∀ y, Comes (soFar comes n) y → y < x := by
  rw [complete_iff size notEmpty writable fresh _ (rounds.pieces n)]
  have cov := report_covers size writable fresh (rounds.pieces n) reads
  constructor
  · intro all x hx
    refine ⟨fun hc => ((cov x).1 hc).1 (all x hx), fun beyond => ?_⟩
    have := beyond x (all x hx)
    omega
  · intro none_ x hx
    by_cases hc : Comes (soFar comes n) x
    · exact hc
    · obtain ⟨h1, h2⟩ := none_ x hx
      refine absurd (fun y hy => ?_) h2
      have : ¬ y > x := fun hgt => h1 ((cov x).2 ⟨hc, y, hgt, hy⟩)
      have : y ≠ x := fun e => hc (e ▸ hy)
      omega

/-! ## The hypotheses are met -/

/-- Five bytes in three rounds: all are sent and two pieces come, one of them written in part; then what is missing is
sent twice, and each time one of the two pieces is lost. -/
def fiveSent : Nat → List Piece
  | 0 => [⟨3#64, [4#8]⟩, ⟨0#64, [1#8, 2#8, 3#8]⟩, ⟨4#64, [5#8]⟩]
  | 1 => [⟨4#64, [5#8]⟩, ⟨2#64, [3#8]⟩]
  | 2 => [⟨4#64, [5#8]⟩, ⟨2#64, [3#8]⟩]
  | _ => []

/-- What comes of it. -/
def fiveCome : Nat → List Arrival
  | 0 => someOfFive
  | 1 => restOfFive.take 1
  | 2 => restOfFive.drop 1
  | _ => []

theorem fiveSent_cut : ∀ i, ∀ p ∈ fiveSent i, p.Of fiveBytes := by
  have piece : ∀ p ∈ fiveSent 0 ++ fiveSent 1, p.Of fiveBytes := by
    intro p hp
    simp only [fiveSent, List.cons_append, List.nil_append, List.mem_cons, List.not_mem_nil, or_false] at hp
    rcases hp with rfl | rfl | rfl | rfl | rfl
    · exact ⟨by decide, show ∀ i, i < 1 → [4#8][i]? = fiveBytes[3 + i]? by decide⟩
    · exact ⟨by decide, show ∀ i, i < 3 → [1#8, 2#8, 3#8][i]? = fiveBytes[0 + i]? by decide⟩
    · exact ⟨by decide, show ∀ i, i < 1 → [5#8][i]? = fiveBytes[4 + i]? by decide⟩
    · exact ⟨by decide, show ∀ i, i < 1 → [5#8][i]? = fiveBytes[4 + i]? by decide⟩
    · exact ⟨by decide, show ∀ i, i < 1 → [3#8][i]? = fiveBytes[2 + i]? by decide⟩
  intro i p hp
  match i with
  | 0 => exact piece p (List.mem_append_left _ hp)
  | 1 => exact piece p (List.mem_append_right _ hp)
  | 2 => exact piece p (List.mem_append_right _ hp)
  | _ + 3 => cases hp

theorem fiveSent_all : ∀ i, ∀ a ∈ fiveCome i, ⟨a.off, a.data⟩ ∈ fiveSent i := by
  intro i a ha
  match i with
  | 0 =>
    simp only [fiveCome, someOfFive, List.mem_cons, List.not_mem_nil, or_false] at ha
    rcases ha with rfl | rfl <;> simp [fiveSent]
  | 1 =>
    simp only [fiveCome, restOfFive, List.take, List.mem_cons, List.not_mem_nil, or_false] at ha
    rcases ha with rfl; simp [fiveSent]
  | 2 =>
    simp only [fiveCome, restOfFive, List.drop, List.mem_cons, List.not_mem_nil, or_false] at ha
    rcases ha with rfl; simp [fiveSent]
  | _ + 3 => cases ha

instance (ps : List Piece) (x : Nat) : Decidable (Sends ps x) := inferInstanceAs (Decidable (∃ p ∈ ps, _))
instance (as : List Arrival) (x : Nat) : Decidable (Comes as x) := inferInstanceAs (Decidable (∃ a ∈ as, _))

/-- The report on a record, as one frame that is read. -/
def oneFrame (record : List Hole) : Bool :=
  match ({ Transfer.zero with conn := some "a", curfills := record } : Transfer).writeStatus shipped 1500
      (fun _ => ⟨1000, 0⟩) (fun _ => none) (render okText) with
  | .ret ([f], w) => w = "success" && (match Status.zero.decode shipped f with | .ret (_, none) => true | _ => false)
  | _ => false

theorem oneFrame_reads {record : List Hole} (h : oneFrame record = true) : ∃ st, ReadsReport record 5 st := by
  unfold oneFrame at h
  split at h
  · next f w hw =>
    rw [Bool.and_eq_true] at h
    obtain ⟨h1, h2⟩ := h
    rw [decide_eq_true_eq] at h1
    subst h1
    split at h2
    · next st hd =>
      exact ⟨st, { Transfer.zero with conn := some "a", curfills := record }, _, _, _, okText, "d16", 2, [f], f, rfl, by decide, by decide, by decide, by decide, by decide, by decide,
        by decide, show 0 < 256 ^ 2 by decide, show 0 < 256 ^ 2 by decide, hw, by simp, hd⟩
    · cases h2
  · cases h

theorem fiveRounds (h : Handle) (writable : h.writable = true) (fs : FS) (fresh : fs.node h.loc = some (.file [])) :
    Rounds fiveBytes h fs fiveSent fiveCome := by
  have cut : ∀ n, ∀ a ∈ soFar fiveCome n, a.Of fiveBytes := by
    intro n a ha
    obtain ⟨i, -, ha⟩ := mem_soFar.1 ha
    exact fiveSent_cut i _ (fiveSent_all i a ha)
  have size : fiveBytes.length < 2 ^ 63 := by decide
  refine ⟨fiveSent_cut, fiveSent_all, fun i => ?_⟩
  have one : (storeAll h fs (soFar fiveCome 1)).2 = [⟨0, 2⟩, ⟨3, 4⟩] := by
    rw [(storeAll_inv fiveBytes size h writable fs fresh _ (cut 1)).2.1]
    refine canonical_ext _ _ (C02_canonical _) ⟨by decide, by decide⟩ fun x => ?_
    rw [C01_received_exactly]
    simp [Received, Covers, soFar, fiveCome, someOfFive, Arrival.call, Arrival.stored]
    omega
  have three : ∀ n, (storeAll h fs (soFar fiveCome (n + 3))).2 = [⟨0, 5⟩] := by
    intro n
    refine (complete_iff size (by decide) writable fresh _ (cut (n + 3))).2 fun x hx => ?_
    have : ∀ x < 5, ∃ i < 3, Comes (fiveCome i) x := by decide
    obtain ⟨i, hi, hc⟩ := this x hx
    exact comes_soFar.2 ⟨i, by omega, hc⟩
  have after : ∀ k, Sends (fiveSent k) 2 → Sends (fiveSent k) 4 → ∃ st,
      ReadsReport (storeAll h fs (soFar fiveCome 1)).2 fiveBytes.length st ∧
      (∀ x : Nat, Covers st.holes x → Sends (fiveSent k) x) ∧
      (∀ x < fiveBytes.length, (∀ y, Comes (soFar fiveCome 1) y → y < x) → Sends (fiveSent k) x) := by
    intro k h2 h4
    obtain ⟨st, reads⟩ := oneFrame_reads (record := [⟨0, 2⟩, ⟨3, 4⟩]) (by decide +kernel)
    rw [← one] at reads
    refine ⟨st, reads, fun x hx => ?_, fun x hx beyond => ?_⟩
    · obtain ⟨hno, y, hy, hc⟩ := (report_covers size writable fresh (cut 1) reads x).1 hx
      obtain ⟨a, ha, ha1, ha2⟩ := hc
      have := (cut 1 a ha).1
      have l5 : fiveBytes.length = 5 := rfl
      have hy5 : y < 5 := by cases hs : a.short <;> simp only [hs] at ha2 <;> omega
      have : ∀ x < 4, ¬ Comes (soFar fiveCome 1) x → x = 2 := by decide
      rw [this x (by omega) hno]
      exact h2
    · have := beyond 3 (by decide)
      have l5 : fiveBytes.length = 5 := rfl
      rw [show x = 4 by omega]
      exact h4
  match i with
  | 0 => exact .inl (by decide)
  | 1 => exact .inr ⟨1, by omega, after 1 (by decide) (by decide)⟩
  | 2 => exact .inr ⟨1, by omega, after 2 (by decide) (by decide)⟩
  | n + 3 =>
    obtain ⟨st, reads⟩ := oneFrame_reads (record := [⟨0, 5⟩]) (by decide +kernel)
    rw [← three n] at reads
    have all := (complete_iff size (by decide) writable fresh _ (cut (n + 3))).1 (three n)
    refine .inr ⟨n + 3, Nat.le_refl _, st, reads, fun x hx => ?_, fun x hx beyond => ?_⟩
    · obtain ⟨hno, y, hy, hc⟩ := (report_covers size writable fresh (cut (n + 3)) reads x).1 hx
      obtain ⟨a, ha, ha1, ha2⟩ := hc
      have := (cut _ a ha).1
      exact absurd (all x (by cases hs : a.short <;> simp only [hs] at ha2 <;> omega)) hno
    · have := beyond x (all x hx)
      omega

/-- No byte is lost three times. -/
example : LossBelow 3 fiveSent fiveCome := by
  intro x hs
  obtain ⟨p, hp, -, h2⟩ := hs 1 (by omega)
  have := (fiveSent_cut 1 p hp).1
  have l5 : fiveBytes.length = 5 := rfl
  have : ∀ x < 5, ∃ i < 3, Comes (fiveCome i) x := by decide
  exact this x (by omega)

example : FairLoss fiveSent fiveCome := by
  intro x often
  obtain ⟨i, -, p, hp, -, h2⟩ := often 0
  have := (fiveSent_cut i p hp).1
  have l5 : fiveBytes.length = 5 := rfl
  have : ∀ x < 5, ∃ i < 3, Comes (fiveCome i) x := by decide
  obtain ⟨i, -, hi⟩ := this x (by omega)
  exact ⟨i, hi⟩

/-- After two rounds the third byte is still missing. -/
example : ¬ Comes (soFar fiveCome 2) 2 ∧ Comes (soFar fiveCome 3) 2 := by decide

end Saratoga
