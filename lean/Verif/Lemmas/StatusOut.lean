import Verif.Model.StatusOut
import Verif.Spec.StatusOut
import Verif.Lemmas.New
import Verif.Lemmas.Status
import Verif.Lemmas.FlagText
/-! # Helper lemmas about sending status reports -/
namespace Saratoga

theorem pairSize_cases {v : String} {h : Nat} (k : pairSize v = some h) :
    (v = "d16" ∧ h = 4) ∨ (v = "d32" ∧ h = 8) ∨ (v = "d64" ∧ h = 16) ∨ (v = "d128" ∧ h = 32) := by
  unfold pairSize at k
  split at k <;> simp_all

theorem pairSize_none {v : String} (a : v ≠ "d16") (b : v ≠ "d32") (c : v ≠ "d64") (d : v ≠ "d128") :
    pairSize v = none := by
  unfold pairSize
  split <;> simp_all

/-- Parts of a split text. -/
def partsOf (l : List String) : List (String × Option String) := l.map fun p => partOf (strSplit p '=')

theorem flagParts_eq (text : String) :
    flagParts text = partsOf (strSplit (stripSpaces text) ',') := textParts_eq _

def named (l : List (String × Option String)) : List (String × String) :=
  l.map fun p => (p.1, p.2.getD "")

/-- What the loop of `stpaylen` computes. -/
theorem stLoop_ret {l : List String} {h plen k : Int} (ok : stLoop l h plen = .ret k) :
    (k = 0 ∧ ∃ v, ("descriptor", some v) ∈ partsOf l ∧ pairSize v = none) ∨
    (∃ H : Int, H ≠ 0 ∧ k = (plen - 16 * ((partsOf l).count ("reqtstamp", some "yes")) - H).tdiv H ∧
      ((lastValue "descriptor" (named (partsOf l)) = none ∧ H = h) ∨
       ∃ v n, lastValue "descriptor" (named (partsOf l)) = some v ∧ pairSize v = some n ∧ H = (n : Int))) := by
  induction l generalizing h plen with
  | nil =>
    unfold stLoop at ok
    split at ok
    · cases ok
    · rename_i hh
      cases ok
      exact .inr ⟨h, hh, by simp [partsOf], .inl ⟨rfl, rfl⟩⟩
  | cons s rest ih =>
    rw [stLoop] at ok
    simp only [first_partOf] at ok
    have hparts : partsOf (s :: rest) = partOf (strSplit s '=') :: partsOf rest := rfl
    rw [hparts]
    generalize hp : partOf (strSplit s '=') = p at *
    split at ok
    · rename_i hd
      obtain ⟨v, hv, ok⟩ := Out.bind_eq_ret ok
      have hv := second_ret hv
      rw [hp] at hv
      obtain ⟨a, b⟩ := p
      simp only at hd hv
      subst hd hv
      have known : ∀ n : Nat, pairSize v = some n → stLoop rest n plen = .ret k →
          (k = 0 ∧ ∃ w, ("descriptor", some w) ∈ ("descriptor", some v) :: partsOf rest ∧
            pairSize w = none) ∨
          (∃ H : Int, H ≠ 0 ∧ k = (plen - 16 * ((("descriptor", some v) :: partsOf rest).count
              ("reqtstamp", some "yes")) - H).tdiv H ∧
            ((lastValue "descriptor" (named (("descriptor", some v) :: partsOf rest)) = none ∧ H = h) ∨
             ∃ w n, lastValue "descriptor" (named (("descriptor", some v) :: partsOf rest)) = some w ∧
              pairSize w = some n ∧ H = (n : Int))) := by
        intro n hn ok
        rcases ih ok with ⟨k0, w, hw, hn'⟩ | ⟨H, H0, hk, hl⟩
        · exact .inl ⟨k0, w, by simp [hw], hn'⟩
        · refine .inr ⟨H, H0, ?_, .inr ?_⟩
          · rw [List.count_cons_of_ne (by simp)]; exact hk
          · rcases hl with ⟨hl, hH⟩ | ⟨w, m, hl, hm, hH⟩
            · exact ⟨v, n, by simp only [named, List.map_cons, lastValue] at hl ⊢; rw [hl]; simp, hn, hH⟩
            · exact ⟨w, m, by simp only [named, List.map_cons, lastValue] at hl ⊢; rw [hl], hm, hH⟩
      split at ok
      · subst v; exact known 4 rfl ok
      · split at ok
        · subst v; exact known 8 rfl ok
        · split at ok
          · subst v; exact known 16 rfl ok
          · split at ok
            · subst v; exact known 32 rfl ok
            · rename_i h1 h2 h3 h4
              cases ok
              exact .inl ⟨rfl, v, by simp, pairSize_none h1 h2 h3 h4⟩
    · rename_i hd
      have skip : ∀ plen' : Int, plen' = plen - 16 * ([p].count ("reqtstamp", some "yes")) →
          stLoop rest h plen' = .ret k →
          (k = 0 ∧ ∃ w, ("descriptor", some w) ∈ p :: partsOf rest ∧ pairSize w = none) ∨
          (∃ H : Int, H ≠ 0 ∧ k = (plen - 16 * ((p :: partsOf rest).count
              ("reqtstamp", some "yes")) - H).tdiv H ∧
            ((lastValue "descriptor" (named (p :: partsOf rest)) = none ∧ H = h) ∨
             ∃ w n, lastValue "descriptor" (named (p :: partsOf rest)) = some w ∧
              pairSize w = some n ∧ H = (n : Int))) := by
        intro plen' he ok
        rcases ih ok with ⟨k0, w, hw, hn'⟩ | ⟨H, H0, hk, hl⟩
        · exact .inl ⟨k0, w, by simp [hw], hn'⟩
        · refine .inr ⟨H, H0, ?_, ?_⟩
          · rw [hk, he]
            congr 1
            have : (p :: partsOf rest).count ("reqtstamp", some "yes") =
                [p].count ("reqtstamp", some "yes") + (partsOf rest).count ("reqtstamp", some "yes") := by
              rw [← List.count_append]; rfl
            rw [this]; omega
          · rcases hl with ⟨hl, hH⟩ | ⟨w, m, hl, hm, hH⟩
            · refine .inl ⟨?_, hH⟩
              simp only [named, List.map_cons, lastValue] at hl ⊢; rw [hl]; simp [hd]
            · exact .inr ⟨w, m, by simp only [named, List.map_cons, lastValue] at hl ⊢; rw [hl], hm, hH⟩
      split at ok
      · rename_i hr
        obtain ⟨v, hv, ok⟩ := Out.bind_eq_ret ok
        have hv := second_ret hv
        rw [hp] at hv
        obtain ⟨a, b⟩ := p
        simp only at hr hv
        subst hr hv
        refine skip _ ?_ ok
        by_cases hy : v = "yes"
        · subst hy; simp
        · simp [hy]
      · rename_i hr
        refine skip plen ?_ ok
        obtain ⟨a, b⟩ := p
        simp only at hr
        simp [hr]

theorem stpaylen_ret {mtu k : Int} {text : String} (ok : stpaylen mtu text = .ret k) :
    (k = 0 ∧ ∃ v, ("descriptor", some v) ∈ flagParts text ∧ pairSize v = none) ∨
    (∃ v n, lastValue "descriptor" (namedValues text) = some v ∧ pairSize v = some n ∧
      k = (mtu - 76 - 16 * (stampCount text) - n).tdiv n) := by
  unfold stpaylen at ok
  rcases stLoop_ret ok with h | ⟨H, H0, hk, hl⟩
  · exact .inl (by rw [flagParts_eq]; exact h)
  · rcases hl with ⟨-, rfl⟩ | ⟨v, n, hl, hn, rfl⟩
    · exact absurd rfl H0
    · refine .inr ⟨v, n, ?_, hn, ?_⟩
      · unfold namedValues; rw [flagParts_eq]; exact hl
      · unfold stampCount
        rw [flagParts_eq, hk]
        generalize List.count ("reqtstamp", some "yes") (partsOf (strSplit (stripSpaces text) ',')) = c
        have e : mtu - 60 - 8 - 8 - 16 * (c : Int) - (n : Int) = mtu - 76 - 16 * (c : Int) - (n : Int) := by
          omega
        rw [e]

/-- Length of an encoded status frame. -/
theorem status_frame_length {T : Tables} {s : Status} {frame : List Byte}
    (enc : s.encode T = .ret (.ok frame)) :
    ∃ rt d n h, getStr T s.header "reqtstamp" = .ret rt ∧ getStr T s.header "descriptor" = .ret d ∧
      descSize d = some n ∧ pairSize d = some h ∧ (h = 4 ∨ h = 8 ∨ h = 16) ∧
      frame.length = 8 + h + h * s.holes.length + (if rt = "yes" then 16 else 0) := by
  have enc' := enc
  unfold Status.encode at enc
  obtain ⟨rt, h1, enc⟩ := Out.bind_eq_ret enc
  obtain ⟨d, h2, enc⟩ := Out.bind_eq_ret enc
  cases hn : descSize d with
  | none => rw [hn] at enc; cases enc
  | some n =>
    rw [Status.encode_eq h1 h2 hn] at enc'
    have key : ∃ h, pairSize d = some h ∧ h = 2 * n ∧ (h = 4 ∨ h = 8 ∨ h = 16) := by
      unfold descSize at hn
      split at hn
      · rename_i e; subst e; cases hn; exact ⟨4, rfl, rfl, by decide⟩
      · split at hn
        · rename_i e; subst e; cases hn; exact ⟨8, rfl, rfl, by decide⟩
        · split at hn
          · rename_i e; subst e; cases hn; exact ⟨16, rfl, rfl, by decide⟩
          · cases hn
    obtain ⟨h, hp, e2, hc⟩ := key
    have hc' := descSize_cases hn
    have hl : ∀ hs : List Hole, (holesBytes n hs).length = 2 * n * hs.length := by
      intro hs
      induction hs with
      | nil => rfl
      | cons a t ih =>
        simp only [holesBytes, holeBytes, List.flatMap_cons, List.length_append, List.length_cons] at ih ⊢
        rw [ih, numBytes_length hc', numBytes_length hc', Nat.mul_succ]; omega
    refine ⟨rt, d, n, h, h1, h2, hn, hp, hc, ?_⟩
    injection enc' with enc'
    injection enc' with enc'
    rw [← enc']
    simp only [List.length_append, be32_length, numBytes_length hc', hl, mkBytes, List.length_replicate]
    rw [e2]; omega

theorem lastValue_statusAssigns (l : List (String × Option String)) (f : String)
    (hf : f ∈ statusNames ∨ f = "reqtstamp" ∧ ∀ p ∈ l, p.1 ∉ bareStamps) :
    lastValue f (l.flatMap statusAssigns) = lastValue f (named l) := by
  induction l with
  | nil => rfl
  | cons p t ih =>
    have ih := ih (hf.imp id (fun h => ⟨h.1, fun q hq => h.2 q (by simp [hq])⟩))
    obtain ⟨a, b⟩ := p
    simp only [List.flatMap_cons, named, List.map_cons, lastValue] at ih ⊢
    rw [← ih]
    unfold statusAssigns
    split
    · simp only [List.singleton_append, lastValue]
    · split
      · rename_i h1 h2
        rcases hf with hf | ⟨rfl, hf⟩
        · have hne : "reqtstamp" ≠ f := by rintro rfl; simp [statusNames] at hf
          have hne' : a ≠ f := by
            rintro rfl; simp [statusNames] at hf h1; simp_all
          simp [lastValue, hne, hne']
        · exact absurd h2 (hf (a, b) (by simp))
      · rename_i h1 h2
        have hne : a ≠ f := by
          rintro rfl
          rcases hf with hf | ⟨rfl, hf⟩
          · simp [statusNames] at hf h1; simp_all
          · simp at h1
        simp only [List.nil_append, if_neg hne]
        split <;> assumption

theorem lastValue_mem {f v : String} {l : List (String × String)} (h : lastValue f l = some v) :
    (f, v) ∈ l := by
  induction l with
  | nil => cases h
  | cons p t ih =>
    obtain ⟨a, b⟩ := p
    simp only [lastValue] at h
    cases ht : lastValue f t with
    | some w => rw [ht] at h; cases h; simp [ih ht]
    | none =>
      rw [ht] at h
      simp only at h
      split at h
      · rename_i e; cases h; simp [e]
      · cases h

/-- The text's last `reqtstamp` against the number of `reqtstamp=yes`. -/
theorem stamp_le {l : List (String × Option String)} (h : lastValue "reqtstamp" (named l) = some "yes") :
    1 ≤ l.count ("reqtstamp", some "yes") := by
  have hm := lastValue_mem h
  simp only [named, List.mem_map] at hm
  obtain ⟨⟨a, b⟩, hp, he⟩ := hm
  simp only [Prod.mk.injEq] at he
  obtain ⟨rfl, hb⟩ := he
  cases b with
  | none => simp at hb
  | some v => simp at hb; subst hb; exact List.count_pos_iff.2 hp

theorem lastValue_none {f : String} {l : List (String × String)} (h : lastValue f l = none) (v : String) :
    (f, v) ∉ l := by
  induction l with
  | nil => simp
  | cons p t ih =>
    obtain ⟨a, b⟩ := p
    simp only [lastValue] at h
    cases ht : lastValue f t with
    | some w => rw [ht] at h; cases h
    | none =>
      rw [ht] at h
      simp only at h
      split at h
      · cases h
      · rename_i e
        have := ih ht
        simp only [List.mem_cons, Prod.mk.injEq, not_or, not_and]
        exact ⟨fun e' => absurd e'.symm e, this⟩

/-- If `reqtstamp` is named at most once, the last value and the count agree. -/
theorem stamp_once {l : List (String × Option String)} (once : l.countP (·.1 = "reqtstamp") ≤ 1)
    (pos : 1 ≤ l.count ("reqtstamp", some "yes")) :
    lastValue "reqtstamp" (named l) = some "yes" ∧ l.count ("reqtstamp", some "yes") = 1 := by
  induction l with
  | nil => simp at pos
  | cons p t ih =>
    obtain ⟨a, b⟩ := p
    by_cases ha : a = "reqtstamp"
    · subst ha
      simp only [List.countP_cons, decide_true, if_true] at once
      have h0 : t.countP (·.1 = "reqtstamp") = 0 := by omega
      have hnone : ∀ q ∈ t, q.1 ≠ "reqtstamp" := by
        intro q hq; have := List.countP_eq_zero.1 h0 q hq; simpa using this
      have hc : t.count ("reqtstamp", some "yes") = 0 :=
        List.count_eq_zero.2 fun hm => hnone _ hm rfl
      have hl : lastValue "reqtstamp" (named t) = none := by
        cases h : lastValue "reqtstamp" (named t) with
        | none => rfl
        | some v =>
          have := lastValue_mem h
          simp only [named, List.mem_map] at this
          obtain ⟨q, hq, he⟩ := this
          exact absurd (congrArg Prod.fst he) (hnone q hq)
      rw [List.count_cons] at pos ⊢
      rw [hc] at pos ⊢
      split at pos
      · rename_i e
        have e := eq_of_beq e
        cases e
        refine ⟨?_, by simp⟩
        simp only [named, List.map_cons, lastValue] at hl ⊢
        rw [hl]; simp
      · omega
    · have hne : ((a, b) == (("reqtstamp", some "yes") : String × Option String)) = false := by
        simp [ha]
      simp only [List.countP_cons, ha, decide_false] at once
      rw [List.count_cons, hne] at pos ⊢
      simp only [Bool.false_eq_true, if_false, Nat.add_zero] at pos once ⊢
      obtain ⟨h1, h2⟩ := ih once pos
      refine ⟨?_, h2⟩
      simp only [named, List.map_cons, lastValue] at h1 ⊢
      rw [h1]

/-! ## Texts made of pairs -/

theorem partsOf_render {ps : List (String × String)} (h : PlainPairs ps) :
    partsOf (ps.map fun p => p.1 ++ "=" ++ p.2) = ps.map fun p => (p.1, some p.2) := by
  unfold partsOf
  rw [List.map_map]
  apply List.map_congr_left
  intro p hp
  have := h p hp
  simp [strSplit_pair this.1 this.2, partOf]

theorem flagParts_render {ps : List (String × String)} (h : PlainPairs ps) (ne : ps ≠ []) :
    flagParts (render ps) = ps.map fun p => (p.1, some p.2) := by
  rw [flagParts_eq, stripSpaces_render h, strSplit_render h ne, partsOf_render h]

theorem namedValues_render {ps : List (String × String)} (h : PlainPairs ps) (ne : ps ≠ []) :
    namedValues (render ps) = ps := by
  unfold namedValues
  rw [flagParts_render h ne, List.map_map]
  simp [Function.comp_def]

theorem replacePairs_filter (n v : String) (ps : List (String × String)) :
    (replacePairs n v ps).filter (·.1 ≠ n) = ps.filter (·.1 ≠ n) := by
  unfold replacePairs
  split
  · rename_i hm
    clear hm
    induction ps with
    | nil => rfl
    | cons p t ih =>
      simp only [List.map_cons, List.filter_cons]
      by_cases e : p.1 = n
      · simp [e]; simpa using ih
      · simp [e]; simpa using ih
  · simp

theorem stLoop_filter {ps : List (String × String)} (h : PlainPairs ps) (hs plen : Int) :
    stLoop (ps.map fun p => p.1 ++ "=" ++ p.2) hs plen =
      stLoop ((ps.filter (·.1 ≠ "allholes")).map fun p => p.1 ++ "=" ++ p.2) hs plen := by
  induction ps generalizing hs plen with
  | nil => rfl
  | cons p t ih =>
    have hp := h p (by simp)
    have ih := ih (fun q hq => h q (by simp [hq]))
    by_cases e : p.1 = "allholes"
    · rw [List.filter_cons_of_neg (by simp [e]), List.map_cons, stLoop, ← ih]
      simp only [strSplit_pair hp.1 hp.2, first]
      rw [e]
      rw [if_neg (by decide), if_neg (by decide)]
    · rw [List.filter_cons_of_pos (by simp [e]), List.map_cons, List.map_cons, stLoop, stLoop]
      simp only [ih]

theorem stpaylen_replace {ps : List (String × String)} (h : PlainPairs ps) (ne : ps ≠ []) (mtu : Int)
    {v : String} (pv : Plain v) :
    stpaylen mtu (render (replacePairs "allholes" v ps)) = stpaylen mtu (render ps) := by
  have h' : PlainPairs (replacePairs "allholes" v ps) := h.replace (by decide) pv
  unfold stpaylen
  rw [stripSpaces_render h, stripSpaces_render h', strSplit_render h ne,
    strSplit_render h' (replacePairs_ne ne), stLoop_filter h, stLoop_filter h', replacePairs_filter]

theorem count_replace (ps : List (String × String)) (v : String) (P : String × String → Bool)
    (hP : ∀ p, p.1 = "allholes" → P p = false) :
    (replacePairs "allholes" v ps).countP P = ps.countP P := by
  have key : ∀ l : List (String × String), l.countP P = (l.filter (·.1 ≠ "allholes")).countP P := by
    intro l
    induction l with
    | nil => rfl
    | cons p t ih =>
      by_cases e : p.1 = "allholes"
      · rw [List.filter_cons_of_neg (by simp [e]), List.countP_cons_of_neg (by simp [hP p e]), ih]
      · rw [List.filter_cons_of_pos (by simp [e]), List.countP_cons, List.countP_cons, ih]
  rw [key, replacePairs_filter, ← key]

theorem mem_replace {ps : List (String × String)} {v : String} {p : String × String}
    (hp : p ∈ replacePairs "allholes" v ps) : p ∈ ps ∨ p = ("allholes", v) := by
  unfold replacePairs at hp
  split at hp
  · simp only [List.mem_map] at hp
    obtain ⟨q, hq, rfl⟩ := hp
    split
    · exact .inr rfl
    · exact .inl hq
  · simpa using hp

theorem lastValue_replace (n v : String) (ps : List (String × String)) :
    lastValue n (replacePairs n v ps) = some v := by
  unfold replacePairs
  split
  · rename_i hm
    cases h : lastValue n (ps.map fun p => if p.1 = n then (n, v) else p) with
    | some w =>
      have := lastValue_mem h
      simp only [List.mem_map] at this
      obtain ⟨q, -, e⟩ := this
      split at e
      · cases e; rfl
      · subst e; rename_i h; exact absurd rfl h
    | none =>
      simp only [List.mem_map] at hm
      obtain ⟨q, hq, e⟩ := hm
      refine absurd (List.mem_map.2 ⟨q, hq, ?_⟩) (lastValue_none h v)
      exact if_pos e
  · rename_i hm
    clear hm
    induction ps with
    | nil => simp [lastValue]
    | cons p t ih => simp only [List.cons_append, lastValue, ih]

theorem lastValue_replace_other {n f : String} (ne : f ≠ n) (v : String) (ps : List (String × String)) :
    lastValue f (replacePairs n v ps) = lastValue f ps := by
  unfold replacePairs
  split
  · rename_i hm
    clear hm
    induction ps with
    | nil => rfl
    | cons p t ih =>
      simp only [List.map_cons, lastValue, ih]
      by_cases e : p.1 = n
      · simp [e, Ne.symm ne]
      · simp [e]
  · rename_i hm
    clear hm
    induction ps with
    | nil => simp [lastValue, Ne.symm ne]
    | cons p t ih => simp only [List.cons_append, lastValue, ih]

/-- What the frame loop of `WriteStatus` sent when it ended well. -/
theorem statusLoop_success {T : Tables} {clock : Nat → GoTime} {fails : Nat → Option Err}
    {flags : String} {info : Sinfo} {n i : Nat} {sent out : List (List Byte)}
    (ok : statusLoop T clock fails flags info n i sent = .ret (out, "success")) :
    ∃ new, out = sent ++ new ∧ new.length = n ∧ ∀ j f, new[j]? = some f → fails (i + j) = none ∧ ∃ st,
      Status.zero.new T (clock (i + j)) flags info = .ret (st, none) ∧ st.encode T = .ret (.ok f) := by
  induction n generalizing i sent with
  | zero => unfold statusLoop at ok; cases ok; exact ⟨[], by simp⟩
  | succ n ih =>
    unfold statusLoop at ok
    obtain ⟨⟨st, e⟩, h1, ok⟩ := Out.bind_eq_ret ok
    cases e with
    | some e => simp [Out.pure_eq] at ok
    | none =>
      simp only at ok
      obtain ⟨r, h2, ok⟩ := Out.bind_eq_ret ok
      cases r with
      | error e => simp [Out.pure_eq] at ok
      | ok f =>
        simp only at ok
        obtain ⟨-, -, ok⟩ := Out.bind_eq_ret ok
        obtain ⟨-, -, ok⟩ := Out.bind_eq_ret ok
        obtain ⟨new, e1, e2, e3⟩ := ih ok
        refine ⟨f :: new, by simp [e1], by simp [e2], ?_⟩
        intro j g hg
        cases j with
        | zero =>
          simp only [List.getElem?_cons_zero, Option.some.injEq] at hg
          subst hg
          unfold Status.send at h2
          obtain ⟨r, h3, h2⟩ := Out.bind_eq_ret h2
          cases r with
          | error e => simp [Out.pure_eq] at h2
          | ok f' =>
            simp only at h2
            split at h2
            · simp [Out.pure_eq] at h2
            · rename_i hf
              cases h2
              exact ⟨hf, st, h1, h3⟩
        | succ j =>
          rw [List.getElem?_cons_succ] at hg
          rw [Nat.add_succ, ← Nat.succ_add]
          exact e3 j g hg

end Saratoga
