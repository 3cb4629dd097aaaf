import Verif.Props.StatusOut
import Verif.Props.Status
import Verif.Props.Holes
/-! # C87: a status report tells the sender exactly what is missing

Composition of recording (C01, C04), reporting (C48) and the wire (C25). -/
namespace Saratoga

/-! ## Helper lemmas -/

/-- The ends of the reported holes lie between 0 and any bound on what was received. -/
theorem getholes_bounds {hist : List AddCall} (nonneg : ∀ c ∈ hist, c.start < c.stop → 0 ≤ c.start) {B : Int}
    (bound : ∀ c ∈ hist, c.stop ≤ B) :
    ∀ h ∈ Holes.getholes (Holes.run hist), 0 ≤ h.start ∧ h.start < B ∧ 0 ≤ h.stop ∧ h.stop < B := by
  intro h hh
  obtain ⟨can, cov⟩ := C04_holes_exact hist nonneg
  have lt := can.1 h hh
  obtain ⟨h0, -, -⟩ := (cov h.start).1 ⟨h, hh, by omega, lt⟩
  obtain ⟨-, -, y, hy, c, hc, -, h2⟩ := (cov (h.stop - 1)).1 ⟨h, hh, by omega, by omega⟩
  have := bound c hc
  omega

/-- The frames of a report, as the flags and the transfer make them. -/
theorem report_frames {mtu : Int} {clock : Nat → GoTime} {fails : Nat → Option Err} {t : Transfer}
    {ps : List (String × String)} (plain : PlainPairs ps) (allValid : ∀ p ∈ ps, valid shipped p.1 p.2 = true)
    (ne : ps ≠ []) (noBare : ∀ p ∈ ps, p.1 ∉ bareStamps) {frames : List (List Byte)}
    (ok : t.writeStatus shipped mtu clock fails (render ps) = .ret (frames, "success")) :
    ∀ f ∈ frames, ∃ st : Status, st.encode shipped = .ret (.ok f) ∧ st.holes = Holes.getholes t.curfills ∧
      st.session = t.session ∧ st.progress = t.progress ∧ st.inrespto = t.inrespto ∧
      getStr shipped st.header "version" = .ret "v1" ∧ getStr shipped st.header "frametype" = .ret "status" ∧
      ∀ g, g = "descriptor" ∨ g = "reqtstamp" ∨ g = "errcode" ∨ g = "metadatarecvd" →
        (∀ v, lastValue g ps = some v → getStr shipped st.header g = .ret v) ∧
        (lastValue g ps = none → getStr shipped st.header g = getStr shipped 0#32 g) := by
  intro f hf
  obtain ⟨k, -, -, -, h3⟩ := C48_frames shipped (C11_shipped_separated).2.1 (by decide +kernel) (by decide +kernel) mtu clock
    fails t ps plain ne allValid frames ok
  obtain ⟨i, hi⟩ := List.mem_iff_getElem?.1 hf
  obtain ⟨-, st, word, built, enc, sh, ss, sp, si, aw, wy, wn⟩ := h3 i f hi
  have pw : Plain word := by
    by_cases h : (lookupFirst "errcode" ps ≠ "success" ∧ 0 ≤ k ∨
        lookupFirst "errcode" ps = "success" ∧ (Holes.getholes t.curfills).length ≤ k)
    · rw [wy h]; decide
    · rw [wn h]; decide
  have pp : PlainPairs (replacePairs "allholes" word ps) := plain.replace (by decide) pw
  obtain ⟨⟨c1, c2, -⟩, -⟩ := C11_status shipped (C11_shipped_separated).2.1 _ _ _ _ _ built
  have nb := (replaced_facts plain ne pw).2.2.1 noBare
  have fixed : ∀ l : List (String × Option String), lastValue "version" (l.flatMap statusAssigns) = none ∧
      lastValue "frametype" (l.flatMap statusAssigns) = none := by
    intro l
    induction l with
    | nil => exact ⟨rfl, rfl⟩
    | cons p l ih =>
      rw [List.flatMap_cons, lastValue_append, lastValue_append, ih.1, ih.2]
      simp only
      unfold statusAssigns
      split
      · rename_i h
        have h1 : p.1 ≠ "version" := fun e => by rw [e] at h; exact absurd h (by decide)
        have h2 : p.1 ≠ "frametype" := fun e => by rw [e] at h; exact absurd h (by decide)
        simp [lastValue, h1, h2]
      · split <;> exact ⟨rfl, rfl⟩
  refine ⟨st, enc, sh, ss, sp, si, c1 _ (by decide) _ ?_, c1 _ (by decide) _ ?_, fun g hg => ?_⟩
  · simp [lastValue, (fixed _).1]
  · simp [lastValue, (fixed _).2]
  have e1 : lastValue g (("version", "v1") :: ("frametype", "status") ::
        (flagParts (render (replacePairs "allholes" word ps))).flatMap statusAssigns) = lastValue g ps := by
    have := lastValue_statusAssigns (flagParts (render (replacePairs "allholes" word ps))) g
      (by rcases hg with rfl | rfl | rfl | rfl
          · exact .inl (by decide)
          · exact .inr ⟨rfl, nb⟩
          · exact .inl (by decide)
          · exact .inl (by decide))
    rw [show named (flagParts (render (replacePairs "allholes" word ps))) =
      namedValues (render (replacePairs "allholes" word ps)) from rfl, namedValues_render pp (replacePairs_ne ne),
      lastValue_replace_other (by rcases hg with rfl | rfl | rfl | rfl <;> decide)] at this
    simp only [lastValue, this]
    cases lastValue g ps with
    | some v => rfl
    | none => rcases hg with rfl | rfl | rfl | rfl <;> rfl
  have mem : g ∈ statusFields := by rcases hg with rfl | rfl | rfl | rfl <;> decide
  refine ⟨fun v hv => c1 g mem v (e1.trans hv), fun hv => ?_⟩
  have := c2 g mem (e1.trans hv)
  unfold getStr
  rw [this]
  rfl

/-! ## C87 -/

/-- **C87** (partial: reports without a timestamp whose numbers fit the descriptor.) Every frame of a
report that was sent decodes at the other end to the session and the progress of the transfer and to holes
that are exactly the offsets not received below some received offset. Missing for the full C87: reports with
a timestamp, see `C87_stamped_refused`, and splitting many holes over frames, see `C48_counterexample`. -/
theorem C87_learns_partial (mtu : Int) (clock : Nat → GoTime) (fails : Nat → Option Err) (t : Transfer)
    (hist : List AddCall) (recorded : t.curfills = Holes.run hist)
    (nonneg : ∀ c ∈ hist, c.start < c.stop → 0 ≤ c.start)
    (ps : List (String × String)) (plain : PlainPairs ps) (allValid : ∀ p ∈ ps, valid shipped p.1 p.2 = true)
    (d : String) (n : Nat) (desc : lastValue "descriptor" ps = some d) (width : descWidth d = some n)
    (noStamp : lastValue "reqtstamp" ps ≠ some "yes") (noBare : ∀ p ∈ ps, p.1 ∉ bareStamps)
    (fits : ∀ c ∈ hist, c.stop ≤ 256 ^ n ∧ c.stop ≤ 2 ^ 63)
    (fitsP : t.progress.toNat < 256 ^ n) (fitsI : t.inrespto.toNat < 256 ^ n)
    (frames : List (List Byte))
    (ok : t.writeStatus shipped mtu clock fails (render ps) = .ret (frames, "success")) :
    ∀ f ∈ frames, ∃ st : Status, Status.zero.decode shipped f = .ret (st, none) ∧
      st.session = t.session ∧ st.progress = t.progress ∧ st.inrespto = t.inrespto ∧
      Canonical st.holes ∧
      ∀ x, Covers st.holes x ↔ 0 ≤ x ∧ ¬ Received hist x ∧ ∃ y, x < y ∧ Received hist y := by
  intro f hf
  have ne : ps ≠ [] := by rintro rfl; cases desc
  obtain ⟨st, enc, sh, ss, sp, si, -, -, fl⟩ := report_frames plain allValid ne noBare ok f hf
  have hd : getStr shipped st.header "descriptor" = .ret d := (fl _ (.inl rfl)).1 d desc
  have hr : ∃ rt, getStr shipped st.header "reqtstamp" = .ret rt ∧ rt ≠ "yes" := by
    cases hv : lastValue "reqtstamp" ps with
    | some v =>
      refine ⟨v, (fl _ (.inr (.inl rfl))).1 v hv, fun e => ?_⟩
      rw [hv, e] at noStamp
      exact noStamp rfl
    | none =>
      refine ⟨"no", ?_, by decide⟩
      rw [(fl _ (.inr (.inl rfl))).2 hv, getStr_reqtstamp, if_neg (by decide)]
  obtain ⟨rt, hr, hn⟩ := hr
  have hb := getholes_bounds (B := min (256 ^ n) (2 ^ 63)) nonneg
    (fun c hc => by rw [Int.le_min]; exact fits c hc)
  obtain ⟨frame, h4, h5⟩ := C25_round_trip_partial shipped st Status.zero n rt ⟨d, hd, width⟩ hr hn (by rw [sp]; exact fitsP)
    (by rw [si]; exact fitsI) (by
      intro h hh
      rw [sh, recorded] at hh
      obtain ⟨a, b, c, e⟩ := hb h hh
      rw [Int.lt_min] at b e
      exact ⟨⟨a, b⟩, c, e⟩) rfl
  rw [enc] at h4
  cases h4
  refine ⟨_, h5, ss, sp, si, ?_, ?_⟩
  · show Canonical st.holes
    rw [sh, recorded]
    exact (C04_holes_exact hist nonneg).1
  · show ∀ x, Covers st.holes x ↔ _
    rw [sh, recorded]
    exact (C04_holes_exact hist nonneg).2

example : (match ({ Transfer.zero with conn := some "a", curfills := [⟨10, 20⟩] } : Transfer).writeStatus shipped 1500
      (fun _ => ⟨1000, 0⟩) (fun _ => none) (render okText) with
    | .ret (frames, w) => decide (frames.length = 1 ∧ w = "success")
    | _ => false) = true := by decide +kernel

/-- **C87** With a timestamp and 64 bit numbers no frame of any report is accepted by any receiver. -/
theorem C87_stamped_refused (mtu : Int) (clock : Nat → GoTime) (fails : Nat → Option Err) (t : Transfer)
    (ps : List (String × String)) (plain : PlainPairs ps) (allValid : ∀ p ∈ ps, valid shipped p.1 p.2 = true)
    (desc : lastValue "descriptor" ps = some "d64") (stamp : lastValue "reqtstamp" ps = some "yes")
    (noBare : ∀ p ∈ ps, p.1 ∉ bareStamps) (small : t.progress.toNat < 2 ^ 56) (frames : List (List Byte))
    (ok : t.writeStatus shipped mtu clock fails (render ps) = .ret (frames, "success")) :
    ∀ f ∈ frames, ∀ s0 : Status, ∃ x e, s0.decode shipped f = .ret (x, some e) := by
  intro f hf s0
  have ne : ps ≠ [] := by rintro rfl; cases desc
  obtain ⟨st, enc, sh, ss, sp, si, -, -, fl⟩ := report_frames plain allValid ne noBare ok f hf
  have hd := (fl _ (.inl rfl)).1 _ desc
  have hr := (fl _ (.inr (.inl rfl))).1 _ stamp
  rw [getStr_reqtstamp] at hr
  rw [getStr_descriptor] at hd
  have h1 : stampNumber st.header = 1 := by
    by_cases h : stampNumber st.header = 1
    · exact h
    · rw [if_neg h] at hr; exact absurd hr (by decide)
  have h2 : descNumber st.header = 2 := by
    have hlt : descNumber st.header < 4 := Nat.mod_lt _ (by decide)
    generalize descNumber st.header = k at hd hlt
    have : k = 0 ∨ k = 1 ∨ k = 2 ∨ k = 3 := by omega
    rcases this with rfl | rfl | rfl | rfl
    · exact absurd hd (by decide)
    · exact absurd hd (by decide)
    · rfl
    · exact absurd hd (by decide)
  obtain ⟨frame, x, e, h4, h5⟩ := C25_stamped_refused st s0 h2 h1 (by rw [sp]; exact small)
  rw [enc] at h4
  cases h4
  exact ⟨x, e, h5⟩

/-- The flags of a report with a timestamp. -/
def stampedText : List (String × String) := [("descriptor", "d64"), ("errcode", "success"), ("reqtstamp", "yes")]

example : PlainPairs stampedText ∧ (∀ p ∈ stampedText, valid shipped p.1 p.2 = true) ∧
    lastValue "descriptor" stampedText = some "d64" ∧ lastValue "reqtstamp" stampedText = some "yes" ∧
    ∀ p ∈ stampedText, p.1 ∉ bareStamps := by decide +kernel

/-- C87 as stated fails: a report of two holes with a timestamp is sent, and no receiver accepts it. -/
theorem C87_counterexample :
    ∃ f, twoHoles.writeStatus shipped 1500 (fun _ => ⟨1000, 0⟩) (fun _ => none) (render stampedText) =
        .ret ([f], "success") ∧
      ∀ s0 : Status, ∃ x e, s0.decode shipped f = .ret (x, some e) := by
  have sent : ∃ f, twoHoles.writeStatus shipped 1500 (fun _ => ⟨1000, 0⟩) (fun _ => none) (render stampedText) =
        .ret ([f], "success") := ⟨_, rfl⟩
  obtain ⟨f, hf⟩ := sent
  exact ⟨f, hf, C87_stamped_refused 1500 _ _ twoHoles stampedText (by decide) (by decide +kernel) (by decide)
    (by decide) (by decide) (by decide) [f] hf f (by simp)⟩

/-- The history behind `twoHoles`, and what one receiver learns of it. -/
example : let hist : List AddCall := [⟨exampleSort, 10, 20⟩, ⟨exampleSort, 30, 40⟩]
    (∀ c ∈ hist, c.start < c.stop → 0 ≤ c.start) ∧ (∀ c ∈ hist, c.stop ≤ 256 ^ 2 ∧ c.stop ≤ 2 ^ 63) ∧
    Received hist 15 ∧ ¬ Received hist 25 ∧ Received hist 35 := by
  simp [Received]

example : PlainPairs okText ∧ (∀ p ∈ okText, valid shipped p.1 p.2 = true) ∧
    lastValue "descriptor" okText = some "d16" ∧ descWidth "d16" = some 2 ∧
    lastValue "reqtstamp" okText ≠ some "yes" ∧ (∀ p ∈ okText, p.1 ∉ bareStamps) := by decide +kernel

end Saratoga
