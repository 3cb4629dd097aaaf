import Verif.Props.StatusOut
/-!
# Exact conditions: when status frames fit the network
-/
namespace Saratoga

/-- **C49** exactly, where there is room for a frame without holes and the flag text has no bare timestamp type,
names `reqtstamp` at most once and only known descriptors: a status frame fits the MTU if and only if it has no more
holes than computed. -/
theorem C49_fits_iff (T : Tables) (sep : Separated T statusFields)
    (unset : getStr T 0#32 "reqtstamp" ≠ .ret "yes") (clock : GoTime) (text : String) (info : Sinfo)
    (s : Status) (built : Status.zero.new T clock text info = .ret (s, none)) (frame : List Byte)
    (enc : s.encode T = .ret (.ok frame)) (mtu k : Int) (ok : stpaylen mtu text = .ret k)
    (noBare : NoBareStamp text) (room : 92 + 16 * (stampCount text : Int) ≤ mtu)
    (once : stampMentions text ≤ 1) (known : ∀ v, ("descriptor", some v) ∈ flagParts text → pairSize v ≠ none) :
    (frame.length + ipUdp : Int) ≤ mtu ↔ (info.holes.length : Int) ≤ k := by
  refine ⟨fun fits => ?_, fun few => C49_fits_partial T sep unset clock text info s built frame enc mtu k ok few noBare room⟩
  apply Int.not_lt.1
  intro more
  have := C49_tight T sep unset clock text info s built frame enc mtu k ok more noBare once known
  omega

example : ∃ s frame, Status.zero.new shipped ⟨0, 0⟩ (render okText) ⟨7, 5, 6, [⟨1, 2⟩]⟩ = .ret (s, none) ∧
    s.encode shipped = .ret (.ok frame) := ⟨_, _, rfl, rfl⟩

/-- **C48** exactly, under the same conditions: a report that ended in `success` sent at least one frame, and its
frames fit the MTU if and only if the holes do not exceed the number computed; then there is one frame and it carries
every hole once, in order. -/
theorem C48_fits_iff (T : Tables) (sep : Separated T statusFields)
    (unset : getStr T 0#32 "reqtstamp" ≠ .ret "yes")
    (yes : valid T "allholes" "yes" = true) (no : valid T "allholes" "no" = true) (mtu : Int)
    (clock : Nat → GoTime) (fails : Nat → Option Err) (t : Transfer) (ps : List (String × String))
    (plain : PlainPairs ps) (ne : ps ≠ []) (allValid : ∀ p ∈ ps, valid T p.1 p.2 = true)
    (noBare : ∀ p ∈ ps, p.1 ∉ bareStamps)
    (room : 92 + 16 * (ps.count ("reqtstamp", "yes") : Int) ≤ mtu)
    (once : ps.countP (·.1 = "reqtstamp") ≤ 1)
    (known : ∀ p ∈ ps, p.1 = "descriptor" → pairSize p.2 ≠ none)
    (frames : List (List Byte))
    (ok : t.writeStatus T mtu clock fails (render ps) = .ret (frames, "success"))
    (k : Int) (computed : stpaylen mtu (render ps) = .ret k) :
    frames ≠ [] ∧
    ((∀ f ∈ frames, (f.length + ipUdp : Int) ≤ mtu) ↔ ((Holes.getholes t.curfills).length : Int) ≤ k) ∧
    ((∀ f ∈ frames, (f.length + ipUdp : Int) ≤ mtu) → ∃ (f : List Byte) (st : Status), frames = [f] ∧
      st.encode T = .ret (.ok f) ∧ st.holes = Holes.getholes t.curfills) := by
  have pos : 0 ≤ k := by
    obtain ⟨q1, -, -, -⟩ := replaced_facts plain ne (v := "yes") (by decide)
    rcases C49_value mtu k (render (replacePairs "allholes" "yes" ps))
        (by rw [stpaylen_replace plain ne mtu (by decide)]; exact computed) with
      ⟨rfl, -⟩ | ⟨v, n, -, hn, hk⟩
    · omega
    · rw [q1] at hk
      have small : n ≤ 32 := by
        unfold pairSize at hn
        split at hn <;> simp at hn <;> omega
      rw [hk]
      generalize hx : mtu - 76 - 16 * (ps.count ("reqtstamp", "yes") : Int) - (n : Int) = x
      by_cases hneg : 0 ≤ x
      · exact Int.tdiv_nonneg hneg (by omega)
      · have : (-x).tdiv n = 0 := Int.tdiv_eq_zero_of_lt (by omega) (by omega)
        rw [Int.neg_tdiv] at this
        omega
  have some_ : frames ≠ [] := by
    obtain ⟨k', hk', h1, h2, -⟩ := C48_frames T sep yes no mtu clock fails t ps plain ne allValid frames ok
    rw [computed] at hk'
    cases hk'
    intro e
    subst e
    by_cases one : lookupFirst "errcode" ps ≠ "success" ∧ 0 ≤ k ∨
        lookupFirst "errcode" ps = "success" ∧ ((Holes.getholes t.curfills).length : Int) ≤ k
    · exact absurd (h1 one) (by simp)
    · obtain ⟨_, len⟩ := h2 one
      have : 0 ≤ ((Holes.getholes t.curfills).length : Int).tdiv k := Int.tdiv_nonneg (by omega) pos
      simp only [List.length_nil] at len
      omega
  have fits : (∀ f ∈ frames, (f.length + ipUdp : Int) ≤ mtu) → ((Holes.getholes t.curfills).length : Int) ≤ k := by
    intro all
    apply Int.not_lt.1
    intro many
    obtain ⟨f, hf⟩ := List.exists_mem_of_ne_nil frames some_
    have := C48_too_long T sep unset yes no mtu clock fails t ps plain ne allValid noBare once known frames ok k
      computed many f hf
    have := all f hf
    omega
  refine ⟨some_, ⟨fits, fun few => ?_⟩, fun all => ?_⟩
  · obtain ⟨f, st, e, h, _⟩ := C48_one_frame_partial T sep unset yes no mtu clock fails t ps plain ne allValid noBare
      room frames ok k computed few
    intro g hg
    rw [e, List.mem_singleton] at hg
    rw [hg]; exact h
  · obtain ⟨f, st, e, _, enc, hh, _⟩ := C48_one_frame_partial T sep unset yes no mtu clock fails t ps plain ne allValid
      noBare room frames ok k computed (fits all)
    exact ⟨f, st, e, enc, hh⟩

/-- The shipped tables, the flag text of the example in `StatusOut` and an MTU of 1500 meet the conditions. -/
example : Separated shipped statusFields ∧ getStr shipped 0#32 "reqtstamp" ≠ .ret "yes" ∧
    valid shipped "allholes" "yes" = true ∧ valid shipped "allholes" "no" = true ∧
    PlainPairs okText ∧ okText ≠ [] ∧ (∀ p ∈ okText, valid shipped p.1 p.2 = true) ∧
    (∀ p ∈ okText, p.1 ∉ bareStamps) ∧ 92 + 16 * (okText.count ("reqtstamp", "yes") : Int) ≤ 1500 ∧
    okText.countP (·.1 = "reqtstamp") ≤ 1 ∧ (∀ p ∈ okText, p.1 = "descriptor" → pairSize p.2 ≠ none) ∧
    stpaylen 1500 (render okText) = .ret 355 := by decide +kernel

end Saratoga
