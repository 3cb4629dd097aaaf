import Verif.Lemmas.New
import Verif.Model.Data
import Verif.Model.Status
import Verif.Model.Metadata
import Verif.Model.Beacon
/-! # What each flag loop assigns, and how it ends -/
namespace Saratoga

theorem Data.newStep_assigns {T : Tables} {clock : GoTime} {d d' : Data} {f : List String}
    (ok : Data.newStep T clock d f = .ret (d', none)) :
    setFlags T d.header (dataAssigns (partOf f)) = .ret d'.header := by
  unfold Data.newStep at ok
  simp only [first_partOf] at ok
  split at ok
  · rename_i hn
    have hn' : (partOf f).1 ∈ ["version", "descriptor", "reqstatus", "eod"] := by simpa using hn
    obtain ⟨v, h1, ok⟩ := Out.bind_eq_ret ok
    obtain ⟨h, h2, ok⟩ := Out.bind_eq_ret ok
    cases ok
    simp only [dataAssigns, hn', if_true, second_ret h1, Option.getD_some]
    exact setFlags_one h2
  · rename_i hn
    have hn' : (partOf f).1 ∉ ["version", "descriptor", "reqstatus", "eod"] := by simpa using hn
    split at ok
    · rename_i ht
      obtain ⟨v, h1, ok⟩ := Out.bind_eq_ret ok
      split at ok
      · cases ok
      · cases ok
        simp only [dataAssigns, hn', if_false, ht]
        rfl
    · split at ok
      · rename_i _ ht
        obtain ⟨v, h1, ok⟩ := Out.bind_eq_ret ok
        have hv := second_ret h1
        simp only [dataAssigns, hn', if_false, ht, if_true, hv]
        split at ok
        · rename_i e; subst e
          obtain ⟨h, h2, ok⟩ := Out.bind_eq_ret ok
          cases ok
          rw [ht] at h2
          exact setFlags_one h2
        · rename_i hno
          have hno' : ¬ some v = some "no" := by simp [hno]
          simp only [hno', if_false]
          split at ok
          · obtain ⟨h, h2, ok⟩ := Out.bind_eq_ret ok
            obtain ⟨⟨t, e⟩, h3, ok⟩ := Out.bind_eq_ret ok
            cases ok
            rw [ht] at h2
            exact setFlags_one h2
          · split at ok
            · obtain ⟨h, h2, ok⟩ := Out.bind_eq_ret ok
              obtain ⟨⟨t, e⟩, h3, ok⟩ := Out.bind_eq_ret ok
              cases ok
              rw [ht] at h2
              exact setFlags_one h2
            · cases ok
      · cases ok

theorem Data.newStep_verdict {T : Tables} (bt : BasicTables T) {clock : GoTime} (hc : clock.InRange)
    (d : Data) (f : List String) :
    (Data.newStep T clock d f).verdict = dataVerdict T (partOf f) := by
  obtain ⟨_, _, by', bn, bg⟩ := bt
  unfold Data.newStep
  simp only [first_partOf, second_partOf]
  by_cases hn : (partOf f).1 = "version" ∨ (partOf f).1 = "descriptor" ∨ (partOf f).1 = "reqstatus" ∨
      (partOf f).1 = "eod"
  · have hn' : (partOf f).1 ∈ ["version", "descriptor", "reqstatus", "eod"] := by simpa using hn
    rw [if_pos hn]
    simp only [dataVerdict, hn', if_true, settable]
    cases hv : (partOf f).2 with
    | none => rfl
    | some v =>
      simp only [Out.ret_bind]
      rcases set_verdict (T := T) d.header (partOf f).1 v with ⟨a, h', b⟩ | ⟨a, b⟩ <;>
        simp [a, b, Out.verdict]
  · have hn' : (partOf f).1 ∉ ["version", "descriptor", "reqstatus", "eod"] := by simpa using hn
    rw [if_neg hn]
    simp only [dataVerdict, hn', if_false]
    by_cases ht : (partOf f).1 = "transfer"
    · simp only [ht, if_true]
      cases hv : (partOf f).2 with
      | none => rfl
      | some v =>
        simp only [Out.ret_bind]
        by_cases hb : v = "bundle" <;> simp [hb, Out.verdict]
    · simp only [ht, if_false]
      by_cases hr : (partOf f).1 = "reqtstamp"
      · simp only [hr, if_true]
        cases hv : (partOf f).2 with
        | none => rfl
        | some v =>
          simp only [Out.ret_bind]
          have hyes : ∃ h', set T d.header "reqtstamp" "yes" = .ret h' := by
            rcases set_verdict (T := T) d.header "reqtstamp" "yes" with ⟨_, h', b⟩ | ⟨a, _⟩
            · exact ⟨h', b⟩
            · rw [by'] at a; cases a
          obtain ⟨hy, hyes⟩ := hyes
          by_cases h0 : v = "no"
          · subst h0
            have : ∃ h', set T d.header "reqtstamp" "no" = .ret h' := by
              rcases set_verdict (T := T) d.header "reqtstamp" "no" with ⟨_, h', b⟩ | ⟨a, _⟩
              · exact ⟨h', b⟩
              · rw [bn] at a; cases a
            obtain ⟨h', hs⟩ := this
            simp [hs, Out.verdict]
          · rw [if_neg h0]
            by_cases h1 : v ∈ dataTsNames
            · have h1' : v ∈ tsTypeNames := h1
              obtain ⟨t', hnow⟩ := now_ok (T := T) h1' (bg v h1') hc d.tstamp
              simp [h1, hyes, hnow, Out.verdict, h1']
            · have h1' : v ∉ tsTypeNames := h1
              rw [if_neg h1]
              by_cases h2 : v = "yes"
              · subst h2
                obtain ⟨t', hnow⟩ := now_ok (T := T) (v := "posix32") (by decide)
                  (bg _ (by decide)) hc d.tstamp
                simp [hyes, hnow, Out.verdict]
              · simp [h0, h1', h2, Out.verdict]
      · simp [hr, Out.verdict]

theorem Status.newStep_assigns {T : Tables} {clock : GoTime} {d d' : Status} {f : List String}
    (ok : Status.newStep T clock d f = .ret (d', none)) :
    setFlags T d.header (statusAssigns (partOf f)) = .ret d'.header := by
  unfold Status.newStep at ok
  simp only [first_partOf] at ok
  split at ok
  · rename_i hn
    have hn' : (partOf f).1 ∈ ["descriptor", "stream", "metadatarecvd", "allholes", "reqholes", "errcode",
        "reqtstamp"] := by
      simp only [statusNames, List.mem_cons, List.not_mem_nil, or_false] at hn ⊢
      rcases hn with h | h | h | h | h | h <;> simp [h]
    obtain ⟨v, h1, ok⟩ := Out.bind_eq_ret ok
    obtain ⟨h, h2, ok⟩ := Out.bind_eq_ret ok
    cases ok
    simp only [statusAssigns, hn', if_true, second_ret h1, Option.getD_some]
    exact setFlags_one h2
  · rename_i hn
    split at ok
    · rename_i ht
      obtain ⟨v, h1, ok⟩ := Out.bind_eq_ret ok
      obtain ⟨h, h2, ok⟩ := Out.bind_eq_ret ok
      have hn' : (partOf f).1 ∈ ["descriptor", "stream", "metadatarecvd", "allholes", "reqholes",
          "errcode", "reqtstamp"] := by simp [ht]
      simp only [statusAssigns, hn', if_true, second_ret h1, Option.getD_some]
      split at ok
      · obtain ⟨⟨t, e⟩, h3, ok⟩ := Out.bind_eq_ret ok
        cases ok
        exact setFlags_one h2
      · cases ok
        exact setFlags_one h2
    · rename_i hr
      have hn' : (partOf f).1 ∉ ["descriptor", "stream", "metadatarecvd", "allholes", "reqholes",
          "errcode", "reqtstamp"] := by
        simp only [statusNames, List.mem_cons, List.not_mem_nil, or_false, not_or] at hn ⊢
        simp [hn, hr]
      simp only [statusAssigns, hn', if_false]
      split at ok
      · rename_i hts
        have hts' : (partOf f).1 ∈ ["localinterp", "posix32", "posix64", "posix32_32", "posix64_32"] := hts
        simp only [hts', if_true]
        obtain ⟨⟨t, e⟩, h3, ok⟩ := Out.bind_eq_ret ok
        cases e with
        | some e => cases ok
        | none =>
          obtain ⟨h, h2, ok⟩ := Out.bind_eq_ret ok
          cases ok
          exact setFlags_one h2
      · cases ok

theorem Status.newStep_verdict {T : Tables} (bt : BasicTables T) {clock : GoTime} (hc : clock.InRange)
    (d : Status) (f : List String) :
    (Status.newStep T clock d f).verdict = statusVerdict T (partOf f) := by
  obtain ⟨_, _, by', bn, bg⟩ := bt
  unfold Status.newStep
  simp only [first_partOf, second_partOf]
  by_cases hn : (partOf f).1 ∈ statusNames
  · have hn' : (partOf f).1 ∈ ["descriptor", "stream", "metadatarecvd", "allholes", "reqholes", "errcode",
        "reqtstamp"] := by
      simp only [statusNames, List.mem_cons, List.not_mem_nil, or_false] at hn ⊢
      rcases hn with h | h | h | h | h | h <;> simp [h]
    rw [if_pos hn]
    simp only [statusVerdict, hn', if_true, settable]
    cases hv : (partOf f).2 with
    | none => rfl
    | some v =>
      simp only [Out.ret_bind]
      rcases set_verdict (T := T) d.header (partOf f).1 v with ⟨a, h', b⟩ | ⟨a, b⟩ <;>
        simp [a, b, Out.verdict]
  · rw [if_neg hn]
    by_cases hr : (partOf f).1 = "reqtstamp"
    · have hn' : (partOf f).1 ∈ ["descriptor", "stream", "metadatarecvd", "allholes", "reqholes",
          "errcode", "reqtstamp"] := by simp [hr]
      rw [if_pos hr]
      simp only [statusVerdict, hn', if_true, settable]
      cases hv : (partOf f).2 with
      | none => rfl
      | some v =>
        simp only [Out.ret_bind]
        rcases set_verdict (T := T) d.header (partOf f).1 v with ⟨a, h', b⟩ | ⟨a, b⟩
        · simp only [b, Out.ret_bind, a, if_true]
          by_cases h2 : v = "yes"
          · obtain ⟨t', hnow⟩ := now_ok (T := T) (v := "posix32") (by decide) (bg _ (by decide)) hc d.tstamp
            simp [h2, hnow, Out.verdict]
          · simp [h2, Out.verdict]
        · simp [a, b, Out.verdict]
    · have hn' : (partOf f).1 ∉ ["descriptor", "stream", "metadatarecvd", "allholes", "reqholes",
          "errcode", "reqtstamp"] := by
        simp only [statusNames, List.mem_cons, List.not_mem_nil, or_false, not_or] at hn ⊢
        simp [hn, hr]
      rw [if_neg hr]
      simp only [statusVerdict, hn', if_false]
      by_cases ht : (partOf f).1 ∈ statusTsNames
      · have h1' : (partOf f).1 ∈ tsTypeNames := by
          simp only [statusTsNames, List.mem_cons, List.not_mem_nil, or_false] at ht
          rcases ht with h | h | h | h | h <;> simp [tsTypeNames, h]
        have ht' : (partOf f).1 ∈ ["localinterp", "posix32", "posix64", "posix32_32", "posix64_32"] := ht
        obtain ⟨t', hnow⟩ := now_ok (T := T) h1' (bg _ h1') hc d.tstamp
        rw [if_pos ht]
        rcases set_verdict (T := T) d.header "reqtstamp" "yes" with ⟨_, h', b⟩ | ⟨a, _⟩
        · simp only [hnow, Out.ret_bind, b, Out.pure_eq, Out.verdict, ht', if_true]
        · rw [by'] at a; cases a
      · have ht' : (partOf f).1 ∉ ["localinterp", "posix32", "posix64", "posix32_32", "posix64_32"] := ht
        rw [if_neg ht, if_neg ht']
        rfl

theorem Request.newStep_assigns {T : Tables} {d d' : Request} {f : List String}
    (ok : Request.newStep T d f = .ret (d', none)) :
    setFlags T d.header (requestAssigns (partOf f)) = .ret d'.header := by
  unfold Request.newStep at ok
  simp only [first_partOf] at ok
  split at ok
  · rename_i hn
    have hn' : (partOf f).1 ∈ ["frametype", "version", "descriptor", "stream", "txwilling", "rxwilling",
        "fileordir", "reqtype", "udplite"] := hn
    obtain ⟨v, h1, ok⟩ := Out.bind_eq_ret ok
    obtain ⟨h, h2, ok⟩ := Out.bind_eq_ret ok
    cases ok
    simp only [requestAssigns, hn', if_true, second_ret h1, Option.getD_some]
    exact setFlags_one h2
  · obtain ⟨v, h1, ok⟩ := Out.bind_eq_ret ok
    cases ok

theorem Request.newStep_verdict {T : Tables} (d : Request) (f : List String) :
    (Request.newStep T d f).verdict = requestVerdict T (partOf f) := by
  unfold Request.newStep
  simp only [first_partOf, second_partOf]
  cases hv : (partOf f).2 with
  | none =>
    simp only [requestVerdict, hv, if_true]
    split <;> rfl
  | some v =>
    simp only [requestVerdict, hv, Out.ret_bind, reduceCtorEq, if_false, settable]
    by_cases hn : (partOf f).1 ∈ requestNames
    · have hn' : (partOf f).1 ∈ ["frametype", "version", "descriptor", "stream", "txwilling", "rxwilling",
        "fileordir", "reqtype", "udplite"] := hn
      rw [if_pos hn, if_pos hn']
      rcases set_verdict (T := T) d.header (partOf f).1 v with ⟨a, h', b⟩ | ⟨a, b⟩ <;>
        simp [a, b, Out.verdict]
    · have hn' : (partOf f).1 ∉ ["frametype", "version", "descriptor", "stream", "txwilling", "rxwilling",
        "fileordir", "reqtype", "udplite"] := hn
      rw [if_neg hn, if_neg hn']
      rfl

theorem MetaData.newStep_assigns {T : Tables} {s s' : MetaData × String} {f : List String}
    (ok : MetaData.newStep T s f = .ret (s', none)) :
    setFlags T s.1.header (metadataAssigns (partOf f)) = .ret s'.1.header := by
  unfold MetaData.newStep at ok
  simp only [first_partOf] at ok
  split at ok
  · rename_i hn
    have hne : (partOf f).1 ≠ "csumtype" := by intro e; rw [e] at hn; revert hn; decide
    obtain ⟨v, h1, ok⟩ := Out.bind_eq_ret ok
    obtain ⟨h, h2, ok⟩ := Out.bind_eq_ret ok
    cases ok
    have hn' : (partOf f).1 ∈ ["descriptor", "progress", "transfer", "reliability"] := hn
    simp only [metadataAssigns, hne, if_false, hn', if_true, second_ret h1, Option.getD_some]
    exact setFlags_one h2
  · split at ok
    · rename_i hc
      obtain ⟨v, h1, ok⟩ := Out.bind_eq_ret ok
      obtain ⟨h, h2, ok⟩ := Out.bind_eq_ret ok
      obtain ⟨h', h3, ok⟩ := Out.bind_eq_ret ok
      cases ok
      simp only [metadataAssigns, hc, if_true, second_ret h1, Option.getD_some]
      rw [hc] at h2
      simp [setFlags, h2, h3]
    · cases ok

theorem MetaData.newStep_verdict {T : Tables} (s : MetaData × String) (f : List String) :
    (MetaData.newStep T s f).verdict = metadataVerdict T (partOf f) := by
  unfold MetaData.newStep
  simp only [first_partOf, second_partOf]
  by_cases hn : (partOf f).1 ∈ metadataNames
  · have hn' : (partOf f).1 ∈ ["descriptor", "progress", "transfer", "reliability"] := hn
    rw [if_pos hn]
    simp only [metadataVerdict, hn', if_true, settable]
    cases hv : (partOf f).2 with
    | none => rfl
    | some v =>
      simp only [Out.ret_bind]
      rcases set_verdict (T := T) s.1.header (partOf f).1 v with ⟨a, h', b⟩ | ⟨a, b⟩ <;>
        simp [a, b, Out.verdict]
  · have hn' : (partOf f).1 ∉ ["descriptor", "progress", "transfer", "reliability"] := hn
    rw [if_neg hn]
    simp only [metadataVerdict, hn', if_false]
    by_cases hc : (partOf f).1 = "csumtype"
    · simp only [hc, if_true]
      cases hv : (partOf f).2 with
      | none => rfl
      | some v =>
        simp only [Out.ret_bind]
        rcases set_verdict (T := T) s.1.header "csumtype" v with ⟨a, h', b⟩ | ⟨a, b⟩
        · rcases set_verdict (T := T) h' "csumlen" v with ⟨a', h'', b'⟩ | ⟨a', b'⟩ <;>
            simp [a, b, a', b', Out.verdict]
        · simp [a, b, Out.verdict]
    · simp [hc, Out.verdict]

theorem Beacon.newStep_assigns {T : Tables} {d d' : Beacon} {f : List String}
    (ok : Beacon.newStep T d f = .ret (d', none)) :
    setFlags T d.header (beaconAssigns (partOf f)) = .ret d'.header := by
  unfold Beacon.newStep at ok
  simp only [first_partOf] at ok
  split at ok
  · rename_i hn
    have hne : (partOf f).1 ≠ "freespaced" := by intro e; rw [e] at hn; revert hn; decide
    obtain ⟨v, h1, ok⟩ := Out.bind_eq_ret ok
    obtain ⟨h, h2, ok⟩ := Out.bind_eq_ret ok
    cases ok
    have hn' : (partOf f).1 ∈ ["descriptor", "stream", "txwilling", "rxwilling", "udplite", "freespace"] := hn
    simp only [beaconAssigns, hne, if_false, hn', if_true, second_ret h1, Option.getD_some]
    exact setFlags_one h2
  · split at ok
    · rename_i hc
      obtain ⟨h, h2, ok⟩ := Out.bind_eq_ret ok
      obtain ⟨v, h1, ok⟩ := Out.bind_eq_ret ok
      split at ok
      · obtain ⟨h', h3, ok⟩ := Out.bind_eq_ret ok
        cases ok
        simp only [beaconAssigns, hc, if_true, second_ret h1, Option.getD_some]
        rw [hc] at h3
        simp [setFlags, h2, h3]
      · cases ok
    · obtain ⟨v, h1, ok⟩ := Out.bind_eq_ret ok
      cases ok

theorem Beacon.newStep_verdict {T : Tables} (d : Beacon) (f : List String) :
    (Beacon.newStep T d f).verdict = beaconVerdict T (partOf f) := by
  unfold Beacon.newStep
  simp only [first_partOf, second_partOf]
  by_cases hn : (partOf f).1 ∈ beaconNames
  · have hn' : (partOf f).1 ∈ ["descriptor", "stream", "txwilling", "rxwilling", "udplite", "freespace"] := hn
    have hne : (partOf f).1 ≠ "freespaced" := by intro e; rw [e] at hn; revert hn; decide
    rw [if_pos hn]
    simp only [beaconVerdict, hn', if_true, settable, hne, false_and, if_false]
    cases hv : (partOf f).2 with
    | none => rfl
    | some v =>
      simp only [Out.ret_bind, reduceCtorEq, if_false]
      rcases set_verdict (T := T) d.header (partOf f).1 v with ⟨a, h', b⟩ | ⟨a, b⟩ <;>
        simp [a, b, Out.verdict]
  · have hn' : (partOf f).1 ∉ ["descriptor", "stream", "txwilling", "rxwilling", "udplite", "freespace"] := hn
    rw [if_neg hn]
    simp only [beaconVerdict, hn', if_false]
    by_cases hc : (partOf f).1 = "freespaced"
    · simp only [hc, if_true, true_and]
      rcases set_verdict (T := T) d.header "freespace" "yes" with ⟨a, h', b⟩ | ⟨a, b⟩
      · simp only [b, Out.ret_bind, a, Bool.true_eq_false, if_false]
        cases hv : (partOf f).2 with
        | none => rfl
        | some v =>
          simp only [Out.ret_bind, reduceCtorEq, if_false, settable]
          by_cases h3 : v = "d16" ∨ v = "d32" ∨ v = "d64"
          · have h3' : some v ∈ [some "d16", some "d32", some "d64"] := by simpa using h3
            rw [if_pos h3, if_pos h3']
            rcases set_verdict (T := T) h' "freespaced" v with ⟨a', h'', b'⟩ | ⟨a', b'⟩ <;>
              simp [a', b', Out.verdict]
          · have h3' : some v ∉ [some "d16", some "d32", some "d64"] := by simpa using h3
            rw [if_neg h3, if_neg h3']
            rfl
      · simp only [b, Out.fatal_bind, a, if_true]
        split <;> rfl
    · simp only [hc, if_false, false_and]
      cases hv : (partOf f).2 <;> rfl

end Saratoga
