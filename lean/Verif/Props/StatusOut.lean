import Verif.Lemmas.StatusOut
import Verif.Props.New
import Verif.Props.FlagText
/-!
# C48, C49: how many holes go into a status frame (`sarwin/sarwin.go`, stpaylen and WriteStatus)
-/
namespace Saratoga

/-! ## C49 -/

/-- **C49** The number computed: an unknown descriptor gives 0; otherwise the descriptor named last
decides, and the number is what fits behind 60 + 8 + 8 bytes, 16 bytes per `reqtstamp=yes` and the two
fixed numbers, divided by the bytes of a hole. -/
theorem C49_value (mtu k : Int) (text : String) (ok : stpaylen mtu text = .ret k) :
    (k = 0 ∧ ∃ v, ("descriptor", some v) ∈ flagParts text ∧ pairSize v = none) ∨
    (∃ v n, lastValue "descriptor" (namedValues text) = some v ∧ pairSize v = some n ∧
      k = (mtu - 76 - 16 * (stampCount text) - n).tdiv n) := stpaylen_ret ok

/-- **C49** A text that names no descriptor panics (division by zero, or a missing value before). -/
theorem C49_no_descriptor (mtu : Int) (text : String)
    (none : ∀ p ∈ flagParts text, p.1 ≠ "descriptor") : stpaylen mtu text = .panic := by
  rw [flagParts_eq] at none
  unfold stpaylen
  generalize strSplit (stripSpaces text) ',' = l at none
  generalize mtu - 60 - 8 - 8 = plen
  induction l generalizing plen with
  | nil => simp [stLoop]
  | cons s rest ih =>
    have hs := none (partOf (strSplit s '=')) (by simp [partsOf])
    have ih := ih (fun p hp => none p (by simp only [partsOf, List.map_cons, List.mem_cons]; exact .inr hp))
    rw [stLoop]
    simp only [first_partOf, if_neg hs]
    split
    · rw [second_partOf]
      cases (partOf (strSplit s '=')).2 with
      | none => rfl
      | some v => simp only [Out.ret_bind]; exact ih _
    · exact ih _

example := C49_no_descriptor 1500 "errcode=success" (by decide +kernel)

/-- What the header of a status frame built from a zero variable says about its length. -/
theorem status_built_length {T : Tables} (sep : Separated T statusFields)
    (unset : getStr T 0#32 "reqtstamp" ≠ .ret "yes") {clock : GoTime} {text : String} {info : Sinfo}
    {s : Status} (built : Status.zero.new T clock text info = .ret (s, none)) {frame : List Byte}
    (enc : s.encode T = .ret (.ok frame)) (noBare : NoBareStamp text) :
    ∃ d h, pairSize d = some h ∧ (h = 4 ∨ h = 8 ∨ h = 16) ∧
      (∀ v, lastValue "descriptor" (namedValues text) = some v → v = d) ∧
      frame.length = 8 + h + h * info.holes.length +
        (if lastValue "reqtstamp" (namedValues text) = some "yes" then 16 else 0) := by
  obtain ⟨⟨c1, c2, -⟩, -, -, -, hh⟩ := C11_status T sep clock Status.zero s text info built
  obtain ⟨rt, d, n, h, g1, g2, -, hp, hc, hl⟩ := status_frame_length enc
  have e1 : ∀ f, f = "descriptor" ∨ f = "reqtstamp" →
      lastValue f (("version", "v1") :: ("frametype", "status") :: (flagParts text).flatMap statusAssigns) =
      lastValue f (namedValues text) := by
    intro f hf
    have := lastValue_statusAssigns (flagParts text) f (hf.imp (fun h => by subst h; decide) fun h => ⟨h, noBare⟩)
    rw [show named (flagParts text) = namedValues text from rfl] at this
    simp only [lastValue, this]
    cases lastValue f (namedValues text) with
    | some v => rfl
    | none => rcases hf with rfl | rfl <;> rfl
  refine ⟨d, h, hp, hc, ?_, ?_⟩
  · intro v hv
    have := c1 "descriptor" (by decide) v (by rw [e1 _ (.inl rfl)]; exact hv)
    rw [g2] at this; cases this; rfl
  · have hz : s.holes = info.holes := by rw [hh]; rfl
    rw [hl, hz]
    have : (rt = "yes") ↔ lastValue "reqtstamp" (namedValues text) = some "yes" := by
      constructor
      · rintro rfl
        cases hv : lastValue "reqtstamp" (namedValues text) with
        | some v =>
          have := c1 "reqtstamp" (by decide) v (by rw [e1 _ (.inr rfl)]; exact hv)
          rw [g1] at this; cases this; rfl
        | none =>
          have := c2 "reqtstamp" (by decide) (by rw [e1 _ (.inr rfl)]; exact hv)
          exfalso
          apply unset
          unfold getStr at g1 ⊢
          rw [this] at g1
          exact g1
      · intro hv
        have := c1 "reqtstamp" (by decide) "yes" (by rw [e1 _ (.inr rfl)]; exact hv)
        rw [g1] at this; cases this; rfl
    simp only [this]

/-- **C49** A status frame with at most the computed number of holes fits the MTU. Not for every flag
text: a bare timestamp type must not be used and there must be room for a frame without holes (see
`C49_bare_counterexample`, `C49_tiny_counterexample`). -/
theorem C49_fits_partial (T : Tables) (sep : Separated T statusFields)
    (unset : getStr T 0#32 "reqtstamp" ≠ .ret "yes") (clock : GoTime) (text : String) (info : Sinfo)
    (s : Status) (built : Status.zero.new T clock text info = .ret (s, none)) (frame : List Byte)
    (enc : s.encode T = .ret (.ok frame)) (mtu k : Int) (ok : stpaylen mtu text = .ret k)
    (few : info.holes.length ≤ k)
    (noBare : NoBareStamp text) (room : 92 + 16 * (stampCount text : Int) ≤ mtu) :
    (frame.length + ipUdp : Int) ≤ mtu := by
  obtain ⟨d, h, hp, hc, hd, hl⟩ := status_built_length sep unset built enc noBare
  have hx : (if lastValue "reqtstamp" (namedValues text) = some "yes" then 16 else 0) ≤
      16 * stampCount text := by
    split
    · rename_i hy
      have := stamp_le (l := flagParts text) hy
      unfold stampCount; omega
    · omega
  generalize (if lastValue "reqtstamp" (namedValues text) = some "yes" then 16 else 0) = x at hl hx
  unfold ipUdp
  rcases C49_value mtu k text ok with ⟨rfl, -⟩ | ⟨v, n, hv, hn, hk⟩
  · have h0 : info.holes.length = 0 := by omega
    rw [h0] at hl
    rcases hc with rfl | rfl | rfl <;> omega
  · have := hd v hv
    subst this
    rw [hp] at hn
    cases hn
    have hnn : 0 ≤ mtu - 76 - 16 * (stampCount text : Int) - (h : Int) := by
      rcases hc with rfl | rfl | rfl <;> omega
    rw [Int.tdiv_eq_ediv_of_nonneg hnn] at hk
    rcases hc with rfl | rfl | rfl <;> omega

/-- **C49** One hole more than the computed number does not fit, whatever the MTU, if the text names
`reqtstamp` at most once and only known descriptors. -/
theorem C49_tight (T : Tables) (sep : Separated T statusFields)
    (unset : getStr T 0#32 "reqtstamp" ≠ .ret "yes") (clock : GoTime) (text : String) (info : Sinfo)
    (s : Status) (built : Status.zero.new T clock text info = .ret (s, none)) (frame : List Byte)
    (enc : s.encode T = .ret (.ok frame)) (mtu k : Int) (ok : stpaylen mtu text = .ret k)
    (more : k < info.holes.length) (noBare : NoBareStamp text) (once : stampMentions text ≤ 1)
    (known : ∀ v, ("descriptor", some v) ∈ flagParts text → pairSize v ≠ none) :
    mtu < (frame.length + ipUdp : Int) := by
  obtain ⟨d, h, hp, hc, hd, hl⟩ := status_built_length sep unset built enc noBare
  have hx : 16 * stampCount text ≤
      (if lastValue "reqtstamp" (namedValues text) = some "yes" then 16 else 0) := by
    by_cases h1 : 1 ≤ stampCount text
    · obtain ⟨a, b⟩ := stamp_once (l := flagParts text) once h1
      rw [if_pos (show lastValue "reqtstamp" (namedValues text) = some "yes" from a)]
      unfold stampCount; omega
    · omega
  generalize (if lastValue "reqtstamp" (namedValues text) = some "yes" then 16 else 0) = x at hl hx
  unfold ipUdp
  rcases C49_value mtu k text ok with ⟨-, v, hv, hn⟩ | ⟨v, n, hv, hn, hk⟩
  · exact absurd hn (known v hv)
  · have := hd v hv
    subst this
    rw [hp] at hn
    cases hn
    by_cases hnn : 0 ≤ mtu - 76 - 16 * (stampCount text : Int) - (h : Int)
    · rw [Int.tdiv_eq_ediv_of_nonneg hnn] at hk
      rcases hc with rfl | rfl | rfl <;> omega
    · have hpos : 0 ≤ (h : Int) * info.holes.length := by
        apply Int.mul_nonneg <;> omega
      have e : ((h * info.holes.length : Nat) : Int) = (h : Int) * info.holes.length := by simp
      omega

/-! ## C48 -/

/-- **C48** What a report that ended in `success` has sent: one frame if the error code is not `success`
or the holes do not exceed the computed number, otherwise their quotient plus one frames. Every frame
carries all the holes, the session and the progress of the transfer, is built at the time of its own round and
was accepted by the connection. So the holes are not shared out. -/
theorem C48_frames (T : Tables) (sep : Separated T statusFields)
    (yes : valid T "allholes" "yes" = true) (no : valid T "allholes" "no" = true) (mtu : Int)
    (clock : Nat → GoTime) (fails : Nat → Option Err) (t : Transfer) (ps : List (String × String))
    (plain : PlainPairs ps) (ne : ps ≠ []) (allValid : ∀ p ∈ ps, valid T p.1 p.2 = true)
    (frames : List (List Byte))
    (ok : t.writeStatus T mtu clock fails (render ps) = .ret (frames, "success")) :
    ∃ k : Int, stpaylen mtu (render ps) = .ret k ∧
      let holes := Holes.getholes t.curfills
      let one := lookupFirst "errcode" ps ≠ "success" ∧ 0 ≤ k ∨
        lookupFirst "errcode" ps = "success" ∧ holes.length ≤ k
      (one → frames.length = 1) ∧
      (¬ one → k ≠ 0 ∧ frames.length = ((holes.length : Int).tdiv k + 1).toNat) ∧
      ∀ i f, frames[i]? = some f → fails i = none ∧ ∃ (st : Status) (word : String),
        Status.zero.new T (clock i) (render (replacePairs "allholes" word ps))
          ⟨t.session, t.progress, t.inrespto, holes⟩ = .ret (st, none) ∧
        st.encode T = .ret (.ok f) ∧ st.holes = holes ∧ st.session = t.session ∧
        st.progress = t.progress ∧ st.inrespto = t.inrespto ∧
        getStr T st.header "allholes" = .ret word ∧ (one → word = "yes") ∧ (¬ one → word = "no") := by
  unfold Transfer.writeStatus at ok
  split at ok
  · simp at ok
  obtain ⟨k, hk, ok⟩ := Out.bind_eq_ret ok
  rw [flagValue_render plain ne _ (stripSpaces_render plain)] at ok
  simp only [Out.ret_bind] at ok
  refine ⟨k, hk, ?_⟩
  have one_iff : (((if lookupFirst "errcode" ps = "success" then
        ((Holes.getholes t.curfills).length : Int) else 0) ≤ k) ↔
      (lookupFirst "errcode" ps ≠ "success" ∧ 0 ≤ k ∨
        lookupFirst "errcode" ps = "success" ∧ (Holes.getholes t.curfills).length ≤ k)) := by
    split <;> simp_all
  generalize (if lookupFirst "errcode" ps = "success" then
    ((Holes.getholes t.curfills).length : Int) else 0) = last at ok one_iff
  have main : ∀ (word : String) (n : Nat), Plain word → valid T "allholes" word = true →
      statusLoop T clock fails (render (replacePairs "allholes" word ps))
        ⟨t.session, t.progress, t.inrespto, Holes.getholes t.curfills⟩ n 0 [] = .ret (frames, "success") →
      frames.length = n ∧ ∀ i f, frames[i]? = some f → fails i = none ∧ ∃ (st : Status),
        Status.zero.new T (clock i) (render (replacePairs "allholes" word ps))
          ⟨t.session, t.progress, t.inrespto, Holes.getholes t.curfills⟩ = .ret (st, none) ∧
        st.encode T = .ret (.ok f) ∧ st.holes = Holes.getholes t.curfills ∧ st.session = t.session ∧
        st.progress = t.progress ∧ st.inrespto = t.inrespto ∧
        getStr T st.header "allholes" = .ret word := by
    intro word n pw vw run
    obtain ⟨new, e1, e2, e3⟩ := statusLoop_success run
    simp only [List.nil_append] at e1
    subst e1
    refine ⟨e2, ?_⟩
    intro i f hf
    have e4 := e3 i f hf
    rw [Nat.zero_add] at e4
    obtain ⟨hok, st, b1, b2⟩ := e4
    obtain ⟨⟨c1, -, -⟩, s1, s2, s3, s4⟩ := C11_status T sep _ _ _ _ _ b1
    refine ⟨hok, st, b1, b2, by rw [s4]; rfl, s1, s2, s3, ?_⟩
    have pp : PlainPairs (replacePairs "allholes" word ps) := plain.replace (by decide) pw
    refine c1 "allholes" (by decide) word ?_
    have := lastValue_statusAssigns (flagParts (render (replacePairs "allholes" word ps))) "allholes"
      (.inl (by decide))
    rw [show named (flagParts (render (replacePairs "allholes" word ps))) =
      namedValues (render (replacePairs "allholes" word ps)) from rfl,
      namedValues_render pp (replacePairs_ne ne), lastValue_replace] at this
    simp only [lastValue, this]
  split at ok
  · rename_i hle
    have h1 := one_iff.1 hle
    rw [replaceFlag_render yes plain ne allValid] at ok
    simp only [Out.ret_bind] at ok
    obtain ⟨m1, m2⟩ := main "yes" 1 (by decide) yes ok
    refine ⟨fun _ => m1, fun h => absurd h1 h, ?_⟩
    intro i f hf
    obtain ⟨hok, st, r1, r2, r3, r4, r5, r6, r7⟩ := m2 i f hf
    exact ⟨hok, st, "yes", r1, r2, r3, r4, r5, r6, r7, fun _ => rfl, fun h => absurd h1 h⟩
  · rename_i hle
    have h1 := fun h => hle (one_iff.2 h)
    split at ok
    · cases ok
    rename_i hk0
    rw [replaceFlag_render no plain ne allValid] at ok
    simp only [Out.ret_bind] at ok
    obtain ⟨m1, m2⟩ := main "no" _ (by decide) no ok
    refine ⟨fun h => absurd h h1, fun _ => ⟨hk0, m1⟩, ?_⟩
    intro i f hf
    obtain ⟨hok, st, r1, r2, r3, r4, r5, r6, r7⟩ := m2 i f hf
    exact ⟨hok, st, "no", r1, r2, r3, r4, r5, r6, r7, fun h => absurd h h1, fun _ => rfl⟩

/-- Facts about the flag text that do not change when `allholes` is replaced. -/
theorem replaced_facts {ps : List (String × String)} (plain : PlainPairs ps) (ne : ps ≠ []) {v : String}
    (pv : Plain v) :
    stampCount (render (replacePairs "allholes" v ps)) = ps.count ("reqtstamp", "yes") ∧
    stampMentions (render (replacePairs "allholes" v ps)) = ps.countP (·.1 = "reqtstamp") ∧
    ((∀ p ∈ ps, p.1 ∉ bareStamps) → NoBareStamp (render (replacePairs "allholes" v ps))) ∧
    ((∀ p ∈ ps, p.1 = "descriptor" → pairSize p.2 ≠ none) →
      ∀ w, ("descriptor", some w) ∈ flagParts (render (replacePairs "allholes" v ps)) →
        pairSize w ≠ none) := by
  have pp : PlainPairs (replacePairs "allholes" v ps) := plain.replace (by decide) pv
  have ef := flagParts_render pp (replacePairs_ne ne)
  refine ⟨?_, ?_, ?_, ?_⟩
  · unfold stampCount
    rw [ef, List.count, List.countP_map]
    rw [count_replace]
    · unfold List.count
      apply List.countP_congr
      intro p _
      obtain ⟨a, b⟩ := p
      simp
    · rintro ⟨a, b⟩ rfl; simp
  · unfold stampMentions
    rw [ef, List.countP_map, count_replace]
    · rfl
    · rintro ⟨a, b⟩ rfl; simp
  · intro h p hp
    rw [ef] at hp
    simp only [List.mem_map] at hp
    obtain ⟨q, hq, rfl⟩ := hp
    rcases mem_replace hq with hq | rfl
    · exact h q hq
    · show "allholes" ∉ bareStamps; decide
  · intro h w hw
    rw [ef] at hw
    simp only [List.mem_map, Prod.mk.injEq, Option.some.injEq] at hw
    obtain ⟨q, hq, e1, e2⟩ := hw
    subst e2
    rcases mem_replace hq with hq | rfl
    · exact h q hq e1
    · simp at e1

/-- **C48** When the holes do not exceed the computed number, one frame is sent; it fits the MTU and
carries every hole once, in order. Missing: several frames (`C48_too_long`, `C48_counterexample`). -/
theorem C48_one_frame_partial (T : Tables) (sep : Separated T statusFields)
    (unset : getStr T 0#32 "reqtstamp" ≠ .ret "yes")
    (yes : valid T "allholes" "yes" = true) (no : valid T "allholes" "no" = true) (mtu : Int)
    (clock : Nat → GoTime) (fails : Nat → Option Err) (t : Transfer) (ps : List (String × String))
    (plain : PlainPairs ps) (ne : ps ≠ []) (allValid : ∀ p ∈ ps, valid T p.1 p.2 = true)
    (noBare : ∀ p ∈ ps, p.1 ∉ bareStamps)
    (room : 92 + 16 * (ps.count ("reqtstamp", "yes") : Int) ≤ mtu)
    (frames : List (List Byte))
    (ok : t.writeStatus T mtu clock fails (render ps) = .ret (frames, "success"))
    (k : Int) (computed : stpaylen mtu (render ps) = .ret k)
    (few : (Holes.getholes t.curfills).length ≤ k) :
    ∃ (f : List Byte) (st : Status), frames = [f] ∧ (f.length + ipUdp : Int) ≤ mtu ∧ st.encode T = .ret (.ok f) ∧
      st.holes = Holes.getholes t.curfills ∧ st.session = t.session ∧
      getStr T st.header "allholes" = .ret "yes" := by
  obtain ⟨k', hk, h1, -, h3⟩ := C48_frames T sep yes no mtu clock fails t ps plain ne allValid frames ok
  rw [computed] at hk
  cases hk
  have one : lookupFirst "errcode" ps ≠ "success" ∧ 0 ≤ k ∨
      lookupFirst "errcode" ps = "success" ∧ (Holes.getholes t.curfills).length ≤ k := by
    by_cases h : lookupFirst "errcode" ps = "success"
    · exact .inr ⟨h, few⟩
    · exact .inl ⟨h, by omega⟩
  have len := h1 one
  match frames, len with
  | [f], _ =>
    obtain ⟨-, st, word, r1, r2, r3, r4, r5, r6, r7, r8, -⟩ := h3 0 f (by simp)
    have hw := r8 one
    subst hw
    obtain ⟨q1, q2, q3, q4⟩ := replaced_facts plain ne (v := "yes") (by decide)
    refine ⟨f, st, rfl, ?_, r2, r3, r4, r7⟩
    exact C49_fits_partial T sep unset _ _ _ st r1 f r2 mtu k
      (by rw [stpaylen_replace plain ne mtu (by decide)]; exact computed) few (q3 noBare)
      (by rw [q1]; exact room)

/-- **C48** When the holes exceed the computed number, every frame sent is too long for the MTU,
whether or not the report is about an error. -/
theorem C48_too_long (T : Tables) (sep : Separated T statusFields)
    (unset : getStr T 0#32 "reqtstamp" ≠ .ret "yes")
    (yes : valid T "allholes" "yes" = true) (no : valid T "allholes" "no" = true) (mtu : Int)
    (clock : Nat → GoTime) (fails : Nat → Option Err) (t : Transfer) (ps : List (String × String))
    (plain : PlainPairs ps) (ne : ps ≠ []) (allValid : ∀ p ∈ ps, valid T p.1 p.2 = true)
    (noBare : ∀ p ∈ ps, p.1 ∉ bareStamps) (once : ps.countP (·.1 = "reqtstamp") ≤ 1)
    (known : ∀ p ∈ ps, p.1 = "descriptor" → pairSize p.2 ≠ none)
    (frames : List (List Byte))
    (ok : t.writeStatus T mtu clock fails (render ps) = .ret (frames, "success"))
    (k : Int) (computed : stpaylen mtu (render ps) = .ret k)
    (many : k < (Holes.getholes t.curfills).length) :
    ∀ f ∈ frames, mtu < (f.length + ipUdp : Int) := by
  obtain ⟨k', hk, h1, -, h3⟩ := C48_frames T sep yes no mtu clock fails t ps plain ne allValid frames ok
  rw [computed] at hk
  cases hk
  intro f hf
  obtain ⟨i, hi⟩ := List.mem_iff_getElem?.1 hf
  obtain ⟨-, st, word, r1, r2, r3, r4, r5, r6, r7, r8, r9⟩ := h3 i f hi
  have pw : word = "yes" ∨ word = "no" := by
    by_cases one : lookupFirst "errcode" ps ≠ "success" ∧ 0 ≤ k ∨
      lookupFirst "errcode" ps = "success" ∧ (Holes.getholes t.curfills).length ≤ k
    · exact .inl (r8 one)
    · exact .inr (r9 one)
  have pw : Plain word := by rcases pw with rfl | rfl <;> decide
  obtain ⟨q1, q2, q3, q4⟩ := replaced_facts plain ne pw
  exact C49_tight T sep unset _ _ _ st r1 f r2 mtu k
    (by rw [stpaylen_replace plain ne mtu pw]; exact computed) many (q3 noBare) (by rw [q2]; exact once)
    (q4 known)

/-- **C48** When the number computed is 0 and there are holes to report, the program panics. -/
theorem C48_no_room_panics (T : Tables) (mtu : Int) (clock : Nat → GoTime) (fails : Nat → Option Err)
    (t : Transfer) (conn : t.conn ≠ none) (ps : List (String × String)) (plain : PlainPairs ps)
    (ne : ps ≠ []) (success : lookupFirst "errcode" ps = "success")
    (computed : stpaylen mtu (render ps) = .ret 0) (holes : Holes.getholes t.curfills ≠ []) :
    t.writeStatus T mtu clock fails (render ps) = .panic := by
  unfold Transfer.writeStatus
  rw [if_neg conn, computed]
  simp only [Out.ret_bind]
  rw [flagValue_render plain ne _ (stripSpaces_render plain)]
  have : 0 < (Holes.getholes t.curfills).length := List.length_pos_iff.2 holes
  simp only [Out.ret_bind, success, if_true]
  rw [if_neg (by omega)]

/-- **C48** Without a connection, or when the connection refuses the first write, no frame is sent and
the answer is never `success` (unless the number of frames came out as zero, `C48_silent_counterexample`). -/
theorem C48_refused (T : Tables) (mtu : Int) (clock : Nat → GoTime) (fails : Nat → Option Err)
    (t : Transfer) (text : String) (bad : t.conn = none ∨ fails 0 ≠ none) (frames : List (List Byte))
    (word : String) (ok : t.writeStatus T mtu clock fails text = .ret (frames, word)) : frames = [] := by
  have loop : ∀ flags info n, fails 0 ≠ none →
      statusLoop T clock fails flags info n 0 [] = .ret (frames, word) → frames = [] := by
    intro flags info n hf run
    cases n with
    | zero => unfold statusLoop at run; cases run; rfl
    | succ n =>
      unfold statusLoop at run
      obtain ⟨⟨st, e⟩, h1, run⟩ := Out.bind_eq_ret run
      cases e with
      | some e => simp only [Out.pure_eq] at run; cases run; rfl
      | none =>
        simp only at run
        obtain ⟨r, h2, run⟩ := Out.bind_eq_ret run
        cases r with
        | error e => simp only [Out.pure_eq] at run; cases run; rfl
        | ok f =>
          exfalso
          unfold Status.send at h2
          obtain ⟨r, h3, h2⟩ := Out.bind_eq_ret h2
          cases r with
          | error e => simp [Out.pure_eq] at h2
          | ok f' =>
            simp only at h2
            split at h2
            · simp [Out.pure_eq] at h2
            · rename_i hn; exact hf hn
  unfold Transfer.writeStatus at ok
  split at ok
  · cases ok; rfl
  · rename_i hc
    have hf := bad.resolve_left hc
    obtain ⟨k, -, ok⟩ := Out.bind_eq_ret ok
    obtain ⟨e, -, ok⟩ := Out.bind_eq_ret ok
    simp only at ok
    generalize (if e = "success" then ((Holes.getholes t.curfills).length : Int) else 0) = last at ok
    split at ok
    · obtain ⟨fl, -, ok⟩ := Out.bind_eq_ret ok
      exact loop _ _ _ hf ok
    · split at ok
      · cases ok
      · obtain ⟨fl, -, ok⟩ := Out.bind_eq_ret ok
        exact loop _ _ _ hf ok

/-! ## Counterexamples -/

/-- A transfer with two ranges received and so two holes. -/
def twoHoles : Transfer := { Transfer.zero with
  conn := some "10.0.0.1:7542", session := 7, progress := 40, curfills := [⟨10, 20⟩, ⟨30, 40⟩] }

def okText : List (String × String) :=
  [("descriptor", "d16"), ("errcode", "success"), ("reqtstamp", "no")]

example : ∃ w, ({ twoHoles with conn := none } : Transfer).writeStatus shipped 1500 (fun _ => ⟨0, 0⟩) (fun _ => none)
    (render okText) = .ret ([], w) := ⟨_, rfl⟩

example := C48_no_room_panics shipped 80 (fun _ => ⟨0, 0⟩) (fun _ => none) twoHoles (by decide) okText (by decide +kernel)
  (by decide) (by decide +kernel) (by decide +kernel) (by decide +kernel)

/-- **C49** A bare timestamp type makes the frame 16 bytes longer, and the computed number does not
know: with an MTU of 100 it computes 5 holes, and the frame with 5 holes needs 116 bytes. -/
theorem C49_bare_counterexample :
    let text := "descriptor=d16,posix32"
    let info : Sinfo := ⟨7, 0, 0, [⟨0, 1⟩, ⟨2, 3⟩, ⟨4, 5⟩, ⟨6, 7⟩, ⟨8, 9⟩]⟩
    stpaylen 100 text = .ret 5 ∧
    ∃ s frame, Status.zero.new shipped ⟨0, 0⟩ text info = .ret (s, none) ∧
      s.encode shipped = .ret (.ok frame) ∧ frame.length + ipUdp = 116 := by
  refine ⟨by decide +kernel, _, _, rfl, rfl, by decide +kernel⟩

/-- **C49** For an MTU between the sizes the division rounds up to 0: no holes may be added, although even
the empty frame is too long. -/
theorem C49_tiny_counterexample :
    stpaylen 79 "descriptor=d16" = .ret 0 ∧
    ∃ s frame, Status.zero.new shipped ⟨0, 0⟩ "descriptor=d16" ⟨7, 0, 0, []⟩ = .ret (s, none) ∧
      s.encode shipped = .ret (.ok frame) ∧ frame.length + ipUdp = 80 := by
  refine ⟨by decide +kernel, _, _, rfl, rfl, by decide +kernel⟩

/-- **C48** Two holes and room for one: three frames, all with both holes, all longer than the MTU. -/
theorem C48_counterexample :
    ∃ f : List Byte, twoHoles.writeStatus shipped 84 (fun _ => ⟨0, 0⟩) (fun _ => none) (render okText) =
        .ret ([f, f, f], "success") ∧
      f.length + ipUdp = 88 ∧ Holes.getholes twoHoles.curfills = [⟨0, 10⟩, ⟨20, 30⟩] := by
  refine ⟨_, rfl, ?_⟩
  decide +kernel

/-- **C48** A negative number of holes: nothing is sent, and the answer is `success`. -/
theorem C48_silent_counterexample :
    twoHoles.writeStatus shipped 76 (fun _ => ⟨0, 0⟩) (fun _ => none) (render okText) =
      .ret ([], "success") := by rfl

/-! ## The hypotheses are met -/

example : Separated shipped statusFields ∧ getStr shipped 0#32 "reqtstamp" ≠ .ret "yes" ∧
    valid shipped "allholes" "yes" = true ∧ valid shipped "allholes" "no" = true ∧
    PlainPairs okText ∧ okText ≠ [] ∧ (∀ p ∈ okText, valid shipped p.1 p.2 = true) ∧
    (∀ p ∈ okText, p.1 ∉ bareStamps) ∧ okText.countP (·.1 = "reqtstamp") ≤ 1 ∧
    (∀ p ∈ okText, p.1 = "descriptor" → pairSize p.2 ≠ none) ∧ lookupFirst "errcode" okText = "success" ∧
    NoBareStamp (render okText) ∧ stampMentions (render okText) ≤ 1 := by decide +kernel

/-- One frame with both holes when there is room. -/
example : ∃ f : List Byte,
    twoHoles.writeStatus shipped 1500 (fun _ => ⟨0, 0⟩) (fun _ => none) (render okText) =
      .ret ([f], "success") ∧ f.length = 20 ∧ stpaylen 1500 (render okText) = .ret 355 := by
  refine ⟨_, rfl, ?_⟩
  decide +kernel

example : stpaylen 76 "descriptor=d16,errcode=success" = .ret (-1) ∧
    stpaylen 80 (render okText) = .ret 0 ∧ stpaylen 1500 "reqtstamp=yes, descriptor=d64" = .ret 87 := by
  decide +kernel

end Saratoga
