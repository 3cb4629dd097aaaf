import Verif.Props.Global
import Verif.Lemmas.Settings
/-!
# Properties of the settings commands

C50: the settings stay usable. C51: queries change nothing, settings change one thing. C52: timers stay
sensible.
-/
namespace Saratoga

theorem no_word {args : List String} (nothing : ∀ ws, ¬ Orders args ws) {cmd w : String}
    (h : (wordTable.any fun e => e.1 = cmd ∧ e.2.1 = w) = true) : args ≠ [cmd, w] := by
  rintro rfl
  obtain ⟨⟨c, w', ws⟩, hm, he⟩ := List.any_eq_true.1 h
  simp only [decide_eq_true_eq] at he
  obtain ⟨rfl, rfl⟩ := he
  exact nothing ws (Orders.word hm)

theorem no_number {args : List String} (nothing : ∀ ws, ¬ Orders args ws) {cmd text : String} {n : Int}
    (h : (numberCommands.any fun e => e.1 = cmd) = true) (ha : atoi text = some n) (pos : n ≥ 0) :
    args ≠ [cmd, text] := by
  rintro rfl
  obtain ⟨⟨c, s⟩, hm, he⟩ := List.any_eq_true.1 h
  simp only [decide_eq_true_eq] at he
  subst he
  exact nothing _ (Orders.number hm ((atoi_iff _ _).1 ha) pos)

theorem no_timer {args : List String} (nothing : ∀ ws, ¬ Orders args ws) {t text : String} {n : Int}
    (h : (timerTable.any fun e => e.1 = t) = true) (ha : atoi text = some n) (pos : n ≥ 0) :
    args ≠ ["timeout", t, text] := by
  rintro rfl
  obtain ⟨⟨c, s, d⟩, hm, he⟩ := List.any_eq_true.1 h
  simp only [decide_eq_true_eq] at he
  subst he
  have ht := (atoi_iff _ _).1 ha
  by_cases z : s = .datacounter ∧ n = 0
  · obtain ⟨rfl, rfl⟩ := z
    simp only [timerTable, List.mem_cons, List.not_mem_nil, or_false, Prod.mk.injEq] at hm
    rcases hm with ⟨_, h, _⟩ | ⟨_, h, _⟩ | ⟨_, h, _⟩ | ⟨_, h, _⟩ | ⟨rfl, _, _⟩
    · cases h
    · cases h
    · cases h
    · cases h
    · exact nothing _ (Orders.zeroCounter ht)
  · exact nothing _ (Orders.timer hm ht pos fun h1 h2 => z ⟨h1, h2⟩)

theorem no_off {args : List String} (nothing : ∀ ws, ¬ Orders args ws) {t : String}
    (h : (timerTable.any fun e => e.1 = t) = true) : args ≠ ["timeout", t, "off"] := by
  rintro rfl
  obtain ⟨⟨c, s, d⟩, hm, he⟩ := List.any_eq_true.1 h
  simp only [decide_eq_true_eq] at he
  subst he
  exact nothing _ (Orders.timerOff hm)

/-- **C51.** A command line that asks for something does exactly that: the settings it names take the
values it asks for and everything else stays as it was. -/
theorem C51_effect (H : CmdTable) (c : Cliflags) (args : List String) (ws : List (Setting × SettingVal))
    (asks : Orders args ws) : Assigned c (settingCmd H c args).1 ws := by
  cases asks with
  | word h =>
    simp only [wordTable, List.mem_cons, List.not_mem_nil, or_false, Prod.mk.injEq] at h
    rcases h with ⟨rfl, rfl, rfl⟩ | ⟨rfl, rfl, rfl⟩ | ⟨rfl, rfl, rfl⟩ | ⟨rfl, rfl, rfl⟩ | ⟨rfl, rfl, rfl⟩ |
      ⟨rfl, rfl, rfl⟩ | ⟨rfl, rfl, rfl⟩ | ⟨rfl, rfl, rfl⟩ | ⟨rfl, rfl, rfl⟩ | ⟨rfl, rfl, rfl⟩ |
      ⟨rfl, rfl, rfl⟩ | ⟨rfl, rfl, rfl⟩ | ⟨rfl, rfl, rfl⟩ | ⟨rfl, rfl, rfl⟩ | ⟨rfl, rfl, rfl⟩ |
      ⟨rfl, rfl, rfl⟩ | ⟨rfl, rfl, rfl⟩ | ⟨rfl, rfl, rfl⟩ | ⟨rfl, rfl, rfl⟩ | ⟨rfl, rfl, rfl⟩ |
      ⟨rfl, rfl, rfl⟩ | ⟨rfl, rfl, rfl⟩ | ⟨rfl, rfl, rfl⟩ | ⟨rfl, rfl, rfl⟩ | ⟨rfl, rfl, rfl⟩ |
      ⟨rfl, rfl, rfl⟩ | ⟨rfl, rfl, rfl⟩ | ⟨rfl, rfl, rfl⟩ | ⟨rfl, rfl, rfl⟩ | ⟨rfl, rfl, rfl⟩ | ⟨rfl, rfl, rfl⟩
    all_goals first
      | exact assigned_flag _ _ _
      | exact assigned_stamp _ _
      | exact assigned_zone _ _
      | exact assigned_num c .interval 0 (by omega) (by decide)
  | number h hn pos =>
    rename_i cmd s text n
    have ha := (atoi_iff text n).2 hn
    simp only [numberCommands, List.mem_cons, List.not_mem_nil, or_false, Prod.mk.injEq] at h
    have q : text ≠ "?" := by rintro rfl; revert ha; simp [show atoi "?" = none from rfl]
    have o : text ≠ "off" := by rintro rfl; revert ha; simp [show atoi "off" = none from rfl]
    rcases h with ⟨rfl, rfl⟩ | ⟨rfl, rfl⟩
    · have e : (settingCmd H c ["bcount", text]).1 = c.put .bcount (.num n) := by
        show (cmdBcount H c ["bcount", text]).1 = _
        simp only [cmdBcount, if_neg q, ha, ge_iff_le, if_pos pos]
        rfl
      rw [e]; exact assigned_num c _ n pos (by decide)
    · have e : (settingCmd H c ["interval", text]).1 = c.put .interval (.num n) := by
        show (cmdInterval H c ["interval", text]).1 = _
        simp only [cmdInterval, if_neg q, if_neg o, ha, ge_iff_le, if_pos pos]
        rfl
      rw [e]; exact assigned_num c _ n pos (by decide)
  | timer h hn pos nz =>
    rename_i t s d text n
    have ha := (atoi_iff text n).2 hn
    have e : settingCmd H c ["timeout", t, text] = cmdTimeout H c ["timeout", t, text] := rfl
    have f : (some n).filter (fun x => decide (x ≥ 0)) = some n := by
      simp [Option.filter, pos]
    simp only [timerTable, List.mem_cons, List.not_mem_nil, or_false, Prod.mk.injEq] at h
    rw [e]
    simp only [cmdTimeout, ha, f]
    rcases h with ⟨rfl, rfl, _⟩ | ⟨rfl, rfl, _⟩ | ⟨rfl, rfl, _⟩ | ⟨rfl, rfl, _⟩ | ⟨rfl, rfl, _⟩
    · exact assigned_num c .metadata n pos (by decide)
    · exact assigned_num c .request n pos (by decide)
    · exact assigned_num c .status n pos (by decide)
    · exact assigned_num c .transfer n pos (by decide)
    · have := nz rfl
      simp only [if_neg this]
      exact assigned_num c .datacounter n pos (by decide)
  | zeroCounter h =>
    rename_i text
    have ha := (atoi_iff text 0).2 h
    have e : settingCmd H c ["timeout", "datacounter", text] =
        cmdTimeout H c ["timeout", "datacounter", text] := rfl
    rw [e]
    simp only [cmdTimeout, ha]
    exact assigned_num c .datacounter 100 (by omega) (by decide)
  | timerOff h =>
    simp only [timerTable, List.mem_cons, List.not_mem_nil, or_false, Prod.mk.injEq] at h
    rcases h with ⟨rfl, rfl, rfl⟩ | ⟨rfl, rfl, rfl⟩ | ⟨rfl, rfl, rfl⟩ | ⟨rfl, rfl, rfl⟩ | ⟨rfl, rfl, rfl⟩
    · exact assigned_num c .metadata 60 (by omega) (by decide)
    · exact assigned_num c .request 60 (by omega) (by decide)
    · exact assigned_num c .status 60 (by omega) (by decide)
    · exact assigned_num c .transfer 60 (by omega) (by decide)
    · exact assigned_num c .datacounter 100 (by omega) (by decide)

/-- The two queries that write: they replace a data counter of 0 by 100. -/
def counterQueries : List (List String) := [["timeout"], ["timeout", "datacounter"]]

/-- **C51, the rest.** A command line that asks for nothing (a query, `?`, an unknown or malformed
argument, too many words) leaves all settings as they were, except that the two queries of the data counter
replace 0 by 100. -/
theorem C51_otherwise_exact (H : CmdTable) (c : Cliflags) (args : List String)
    (nothing : ∀ ws, ¬ Orders args ws) :
    (settingCmd H c args).1 =
      if c.timeout.datacounter = 0 ∧ args ∈ counterQueries
      then { c with timeout := { c.timeout with datacounter := 100 } } else c := by
  match args, nothing with
  | [], _ => simp [settingCmd, counterQueries]
  | name :: rest, nothing =>
    have hq : name ≠ "timeout" → ¬ (c.timeout.datacounter = 0 ∧ (name :: rest) ∈ counterQueries) := by
      intro h ⟨_, h2⟩
      simp only [counterQueries, List.mem_cons, List.not_mem_nil, or_false, List.cons.injEq] at h2
      rcases h2 with h2 | h2
      · exact h h2.1
      · exact h h2.1
    simp only [settingCmd]
    cases hh : assoc name settingHandlers with
    | none =>
      rw [if_neg (hq ?_)]
      rintro rfl
      have : (assoc "timeout" settingHandlers).isSome = true := rfl
      rw [hh] at this; cases this
    | some fn =>
      have := mem_of_assoc' hh
      simp only [settingHandlers, List.mem_cons, List.not_mem_nil, or_false, Prod.mk.injEq] at this
      rcases this with ⟨rfl, rfl⟩ | ⟨rfl, rfl⟩ | ⟨rfl, rfl⟩ | ⟨rfl, rfl⟩ | ⟨rfl, rfl⟩ | ⟨rfl, rfl⟩ |
        ⟨rfl, rfl⟩ | ⟨rfl, rfl⟩ | ⟨rfl, rfl⟩ | ⟨rfl, rfl⟩ | ⟨rfl, rfl⟩ | ⟨rfl, rfl⟩
      · rw [if_neg (hq (by decide))]
        match rest with
        | [] => rfl
        | [a] =>
          simp only [cmdBcount]
          repeat' split
          all_goals first
            | rfl
            | (rename_i h; subst h; exact absurd rfl (no_word nothing (by decide +kernel)))
            | (rename_i h; rcases h with rfl | rfl <;> exact absurd rfl (no_word nothing (by decide +kernel)))
            | (rename_i n ha pos; exact absurd rfl (no_number nothing (by decide +kernel) ha pos))
        | _ :: _ :: _ => rfl
      · rw [if_neg (hq (by decide))]
        match rest with
        | [] => rfl
        | [a] =>
          simp only [cmdChecksum]
          repeat' split
          all_goals first
            | rfl
            | (rename_i h; subst h; exact absurd rfl (no_word nothing (by decide +kernel)))
            | (rename_i h; rcases h with rfl | rfl <;> exact absurd rfl (no_word nothing (by decide +kernel)))
            | (rename_i n ha pos; exact absurd rfl (no_number nothing (by decide +kernel) ha pos))
        | _ :: _ :: _ => rfl
      · rw [if_neg (hq (by decide))]
        match rest with
        | [] => rfl
        | [a] =>
          simp only [cmdDescriptor]
          repeat' split
          all_goals first
            | rfl
            | (rename_i h; subst h; exact absurd rfl (no_word nothing (by decide +kernel)))
            | (rename_i h; rcases h with rfl | rfl <;> exact absurd rfl (no_word nothing (by decide +kernel)))
            | (rename_i n ha pos; exact absurd rfl (no_number nothing (by decide +kernel) ha pos))
        | _ :: _ :: _ => rfl
      · rw [if_neg (hq (by decide))]
        match rest with
        | [] => rfl
        | [a] =>
          simp only [cmdFreespace]
          repeat' split
          all_goals first
            | rfl
            | (rename_i h; subst h; exact absurd rfl (no_word nothing (by decide +kernel)))
            | (rename_i h; rcases h with rfl | rfl <;> exact absurd rfl (no_word nothing (by decide +kernel)))
            | (rename_i n ha pos; exact absurd rfl (no_number nothing (by decide +kernel) ha pos))
        | _ :: _ :: _ => rfl
      · rw [if_neg (hq (by decide))]
        match rest with
        | [] => rfl
        | [a] =>
          simp only [cmdInterval]
          repeat' split
          all_goals first
            | rfl
            | (rename_i h; subst h; exact absurd rfl (no_word nothing (by decide +kernel)))
            | (rename_i h; rcases h with rfl | rfl <;> exact absurd rfl (no_word nothing (by decide +kernel)))
            | (rename_i n ha pos; exact absurd rfl (no_number nothing (by decide +kernel) ha pos))
        | _ :: _ :: _ => rfl
      · rw [if_neg (hq (by decide))]
        match rest with
        | [] => rfl
        | [a] =>
          simp only [cmdReqtstamp]
          repeat' split
          all_goals first
            | rfl
            | (rename_i h; subst h; exact absurd rfl (no_word nothing (by decide +kernel)))
            | (rename_i h; rcases h with rfl | rfl <;> exact absurd rfl (no_word nothing (by decide +kernel)))
            | (rename_i n ha pos; exact absurd rfl (no_number nothing (by decide +kernel) ha pos))
        | _ :: _ :: _ => rfl
      · rw [if_neg (hq (by decide))]
        match rest with
        | [] => rfl
        | [a] =>
          simp only [cmdRxwilling]
          repeat' split
          all_goals first
            | rfl
            | (rename_i h; subst h; exact absurd rfl (no_word nothing (by decide +kernel)))
            | (rename_i h; rcases h with rfl | rfl <;> exact absurd rfl (no_word nothing (by decide +kernel)))
            | (rename_i n ha pos; exact absurd rfl (no_number nothing (by decide +kernel) ha pos))
        | _ :: _ :: _ => rfl
      · rw [if_neg (hq (by decide))]
        match rest with
        | [] => rfl
        | [a] =>
          simp only [cmdStream]
          repeat' split
          all_goals first
            | rfl
            | (rename_i h; subst h; exact absurd rfl (no_word nothing (by decide +kernel)))
            | (rename_i h; rcases h with rfl | rfl <;> exact absurd rfl (no_word nothing (by decide +kernel)))
            | (rename_i n ha pos; exact absurd rfl (no_number nothing (by decide +kernel) ha pos))
        | _ :: _ :: _ => rfl
      · match rest with
        | [] =>
          simp only [cmdTimeout]
          by_cases z : c.timeout.datacounter = 0
          · rw [if_pos z, if_pos ⟨z, by decide⟩]
          · rw [if_neg z, if_neg (fun h => z h.1)]
        | [a] =>
          simp only [cmdTimeout]
          by_cases dc : a = "datacounter"
          · subst dc
            by_cases z : c.timeout.datacounter = 0
            · have hr : c.timeout.datacounter = 0 ∧ ["timeout", "datacounter"] ∈ counterQueries :=
                ⟨z, by decide⟩
              rw [if_pos hr, if_pos z]
              rfl
            · have hr : ¬ (c.timeout.datacounter = 0 ∧ ["timeout", "datacounter"] ∈ counterQueries) :=
                fun h => z h.1
              rw [if_neg hr, if_neg z]
              rfl
          · have hr : ¬ (c.timeout.datacounter = 0 ∧ ["timeout", a] ∈ counterQueries) := by
              intro h; simp [counterQueries, dc] at h
            rw [if_neg hr, if_neg dc]
            repeat' split
            all_goals rfl
        | [a, b] =>
          rw [if_neg (fun h => by simp [counterQueries] at h)]
          simp only [cmdTimeout]
          cases hb : (atoi b).filter (fun x => decide (x ≥ 0)) with
          | none =>
            simp only
            by_cases ob : b = "off"
            · subst ob
              rw [if_pos rfl]
              repeat' split
              all_goals first
                | rfl
                | (rename_i h; subst h; exact absurd rfl (no_off nothing (by decide +kernel)))
            · rw [if_neg ob]
          | some n =>
            obtain ⟨ha, hp⟩ := Option.filter_eq_some_iff.1 hb
            have pos : n ≥ 0 := by simpa using hp
            simp only
            by_cases dc : a = "datacounter"
            · subst dc; exact absurd rfl (no_timer nothing (by decide +kernel) ha pos)
            · rw [if_neg dc]
              repeat' split
              all_goals first
                | rfl
                | (rename_i h; subst h; exact absurd rfl (no_timer nothing (by decide +kernel) ha pos))
        | _ :: _ :: _ :: _ =>
          rw [if_neg (fun h => by simp [counterQueries] at h)]
          rfl
      · rw [if_neg (hq (by decide))]
        match rest with
        | [] => rfl
        | [a] =>
          simp only [cmdTimestamp]
          repeat' split
          all_goals first
            | rfl
            | (rename_i h; subst h; exact absurd rfl (no_word nothing (by decide +kernel)))
            | (rename_i h; rcases h with rfl | rfl <;> exact absurd rfl (no_word nothing (by decide +kernel)))
            | (rename_i n ha pos; exact absurd rfl (no_number nothing (by decide +kernel) ha pos))
        | _ :: _ :: _ => rfl
      · rw [if_neg (hq (by decide))]
        match rest with
        | [] => rfl
        | [a] =>
          simp only [cmdTimezone]
          repeat' split
          all_goals first
            | rfl
            | (rename_i h; subst h; exact absurd rfl (no_word nothing (by decide +kernel)))
            | (rename_i h; rcases h with rfl | rfl <;> exact absurd rfl (no_word nothing (by decide +kernel)))
            | (rename_i n ha pos; exact absurd rfl (no_number nothing (by decide +kernel) ha pos))
        | _ :: _ :: _ => rfl
      · rw [if_neg (hq (by decide))]
        match rest with
        | [] => rfl
        | [a] =>
          simp only [cmdTxwilling]
          repeat' split
          all_goals first
            | rfl
            | (rename_i h; subst h; exact absurd rfl (no_word nothing (by decide +kernel)))
            | (rename_i h; rcases h with rfl | rfl <;> exact absurd rfl (no_word nothing (by decide +kernel)))
            | (rename_i n ha pos; exact absurd rfl (no_number nothing (by decide +kernel) ha pos))
        | _ :: _ :: _ => rfl

/-- **C51, queries.** A command without argument leaves all settings as they were, if the data counter is
not 0. Missing: with a data counter of 0 `timeout` sets it to 100, see `C51_counterexample`. -/
theorem C51_query_partial (H : CmdTable) (c : Cliflags) (name : String) (counter : c.timeout.datacounter ≠ 0) :
    (settingCmd H c [name]).1 = c := by
  rw [C51_otherwise_exact H c [name] (by intro ws h; cases h), if_neg (fun h => counter h.1)]

/-- **C51, invalid arguments.** A command line that asks for nothing leaves all settings as they were, if
the data counter is not 0. Missing: the two queries of the data counter when it is 0. -/
theorem C51_invalid_partial (H : CmdTable) (c : Cliflags) (args : List String)
    (nothing : ∀ ws, ¬ Orders args ws) (counter : c.timeout.datacounter ≠ 0) :
    (settingCmd H c args).1 = c := by
  rw [C51_otherwise_exact H c args nothing, if_neg (fun h => counter h.1)]

/-- The settings of the shipped configuration (saratoga/saratoga.json:3-29). -/
def shippedSettings : Cliflags where
  global := [("csumtype", "none"), ("freespace", "yes"), ("txwilling", "yes"), ("rxwilling", "yes"),
    ("stream", "no"), ("reqtstamp", "yes"), ("reqstatus", "no"), ("udplite", "no"), ("descriptor", "d64")]
  v4multicast := "224.0.0.108"
  v6multicast := "ff02::6c"
  port := 7542
  timestamp := "posix64"
  timeout := ⟨55, 56, 57, 58, 3, 100⟩
  timezone := "utc"
  prompt := "saratoga"
  ppad := 3
  sardir := []
  buffersize := 1024
  bcount := 3

example := C51_query_partial [] shippedSettings "checksum" (by decide)

/-- **C51 does not hold as stated.** With a configured data counter of 0 the query `timeout` changes it,
and `timestamp` changes the setting of `reqtstamp` as well as its own. -/
theorem C51_counterexample :
    (∃ c : Cliflags, (settingCmd [] c ["timeout"]).1 ≠ c) ∧
    (∃ c : Cliflags, (settingCmd [] c ["timestamp", "32"]).1.read .timestamp ≠ c.read .timestamp ∧
      (settingCmd [] c ["timestamp", "32"]).1.read (.flag "reqtstamp") ≠ c.read (.flag "reqtstamp")) := by
  refine ⟨⟨{ shippedSettings with timeout := ⟨55, 56, 57, 58, 3, 0⟩ }, by decide⟩,
    ⟨shippedSettings.setFlag "reqtstamp" "no", by decide, by decide⟩⟩

example : Orders ["timeout", "status", "30"] [(.status, .num 30)] :=
  .timer (d := 60) (by decide) (numberText_toString 30 (by omega)) (by omega) (by decide)
example : Orders ["rxwilling", "off"] [(.flag "rxwilling", .opt (some "no"))] := .word (by decide)
example : ((settingCmd [] shippedSettings ["timeout", "status", "30"]).1).timeout = ⟨55, 56, 30, 58, 3, 100⟩ := by
  decide
example : (settingCmd [] shippedSettings ["bcount", "007"]).1.bcount = 7 := by decide
/-- What a command line of two words can ask for. -/
theorem orders_two {a b : String} {ws : List (Setting × SettingVal)} (h : Orders [a, b] ws) :
    (a, b, ws) ∈ wordTable ∨ ∃ s n, (a, s) ∈ numberCommands ∧ NumberText b n ∧ 0 ≤ n := by
  generalize hl : [a, b] = l at h
  cases h with
  | word h => cases hl; exact .inl h
  | number h hn pos => cases hl; exact .inr ⟨_, _, h, hn, pos⟩
  | timer => simp at hl
  | zeroCounter => simp at hl
  | timerOff => simp at hl

/-- Nothing is asked for by a number beyond 64 bits. -/
example : ∀ ws, ¬ Orders ["bcount", "9223372036854775808"] ws := by
  intro ws h
  rcases orders_two h with h | ⟨s, n, _, hn, _⟩
  · revert h; simp [wordTable]
  · exact not_number_of (by decide +kernel) _ hn
example : ∀ ws, ¬ Orders ["descriptor", "d128"] ws := by
  intro ws h
  rcases orders_two h with h | ⟨s, n, h, _⟩
  · revert h; simp [wordTable]
  · revert h; simp [numberCommands]

/-! ## C52 -/

theorem orders_timers {args : List String} {ws : List (Setting × SettingVal)} (h : Orders args ws) :
    ∀ s n, (s, SettingVal.num n) ∈ ws → 0 ≤ n ∧ (s = .datacounter → 0 < n) := by
  intro s n hm
  cases h with
  | word h =>
    have key : ∀ e ∈ wordTable, ∀ x ∈ e.2.2, ∀ s n, x = (s, SettingVal.num n) →
        0 ≤ n ∧ (s = .datacounter → 0 < n) := by
      intro e he x hx
      have : ∀ e ∈ wordTable, ∀ x ∈ e.2.2, (match x.2 with
        | .num n => decide (0 ≤ n ∧ (x.1 = .datacounter → 0 < n)) | _ => true) = true := by decide +kernel
      intro s n h2
      have := this e he x hx
      rw [h2] at this
      exact of_decide_eq_true this
    exact key _ h _ hm s n rfl
  | number h hn pos =>
    rw [List.mem_singleton, Prod.mk.injEq, SettingVal.num.injEq] at hm
    obtain ⟨rfl, rfl⟩ := hm
    refine ⟨pos, ?_⟩
    rintro rfl
    revert h; simp [numberCommands]
  | timer h hn pos nz =>
    rw [List.mem_singleton, Prod.mk.injEq, SettingVal.num.injEq] at hm
    obtain ⟨rfl, rfl⟩ := hm
    refine ⟨pos, fun h => ?_⟩
    have := nz h
    omega
  | zeroCounter h =>
    rw [List.mem_singleton, Prod.mk.injEq, SettingVal.num.injEq] at hm
    obtain ⟨rfl, rfl⟩ := hm
    exact ⟨by omega, fun _ => by omega⟩
  | timerOff h =>
    rw [List.mem_singleton, Prod.mk.injEq, SettingVal.num.injEq] at hm
    obtain ⟨rfl, rfl⟩ := hm
    simp only [timerTable, List.mem_cons, List.not_mem_nil, or_false, Prod.mk.injEq] at h
    rcases h with ⟨_, rfl, rfl⟩ | ⟨_, rfl, rfl⟩ | ⟨_, rfl, rfl⟩ | ⟨_, rfl, rfl⟩ | ⟨_, rfl, rfl⟩ <;>
      exact ⟨by omega, fun _ => by omega⟩

theorem timers_step (H : CmdTable) (c : Cliflags) (ok : TimersOK c) (args : List String) :
    TimersOK (settingCmd H c args).1 := by
  by_cases h : ∃ ws, Orders args ws
  · obtain ⟨ws, h⟩ := h
    obtain ⟨a1, a2, _⟩ := C51_effect H c args ws h
    have key : ∀ s : Setting, ∀ m k : Int, c.read s = .num m → (settingCmd H c args).1.read s = .num k →
        0 ≤ m → (s = .datacounter → 0 < m) → 0 ≤ k ∧ (s = .datacounter → 0 < k) := by
      intro s m k hm hk p q
      by_cases e : ∃ w ∈ ws, w.1 = s
      · obtain ⟨⟨s', v⟩, hw, rfl⟩ := e
        have := a1 _ hw
        rw [hk] at this
        subst this
        exact orders_timers h _ _ hw
      · have := a2 s (fun w hw e' => e ⟨w, hw, e'⟩)
        rw [hk, hm] at this
        cases this
        exact ⟨p, q⟩
    obtain ⟨o1, o2, o3, o4, o5⟩ := ok
    exact ⟨(key .metadata _ _ rfl rfl o1 (by simp)).1, (key .request _ _ rfl rfl o2 (by simp)).1,
      (key .status _ _ rfl rfl o3 (by simp)).1, (key .transfer _ _ rfl rfl o4 (by simp)).1,
      (key .datacounter _ _ rfl rfl (by omega) (fun _ => o5)).2 rfl⟩
  · rw [C51_invalid_partial H c args (fun ws hw => h ⟨ws, hw⟩) (by have := ok.2.2.2.2; omega)]
    exact ok

/-- **C52.** After any sequence of command lines with any words the timers are not negative and the data
counter is positive, if that was so at the start. (The beacon interval and count are unsigned in the
program.) -/
theorem C52_timers (H : CmdTable) (c : Cliflags) (ok : TimersOK c) (lines : List (List String)) :
    TimersOK (settingRun H c lines) := by
  unfold settingRun
  induction lines generalizing c with
  | nil => exact ok
  | cons l ls ih => exact ih _ (timers_step H c ok l)

example : TimersOK shippedSettings := by unfold TimersOK; decide
example : (settingRun [] shippedSettings [["timeout", "datacounter", "0"], ["timeout", "metadata", "-5"],
    ["timeout", "request", "off"], ["interval", "x"], ["bcount", "+12"]]).timeout = ⟨55, 60, 57, 58, 3, 100⟩ := by
  decide

/-- Some timer values, even of 0, can be set back: every timer can be given every value from 0 (the data
counter from 1) to the largest 64 bit number. -/
theorem C52_reachable (H : CmdTable) (c : Cliflags) (t : String) (s : Setting) (d : Int)
    (timer : (t, s, d) ∈ timerTable) (n : Nat) (fits : n < 2 ^ 63) (counter : s = .datacounter → n ≠ 0) :
    (settingCmd H c ["timeout", t, toString n]).1.read s = .num n :=
  (C51_effect H c _ _ (.timer timer (numberText_toString n fits) (by omega)
    (fun h => by have := counter h; omega))).1 _ List.mem_cons_self

/-! ## C50 -/

/-- What a command can do to the flag map. -/
theorem setting_global (H : CmdTable) (c : Cliflags) (args : List String) :
    (settingCmd H c args).1.global = c.global ∨
    ∃ k v, (settingCmd H c args).1.global = mapSet k v c.global ∧ k ∈ globalKeys ∧
      (valid shipped k v = true ∨ k = "txwilling" ∧ args = ["txwilling", v] ∧ (v = "on" ∨ v = "off")) := by
  match args with
  | [] => exact .inl rfl
  | name :: rest =>
    simp only [settingCmd]
    cases hh : assoc name settingHandlers with
    | none => exact .inl rfl
    | some fn =>
      have := mem_of_assoc' hh
      simp only [settingHandlers, List.mem_cons, List.not_mem_nil, or_false, Prod.mk.injEq] at this
      have F : ∀ k v, k ∈ globalKeys → valid shipped k v = true →
          ((c.setFlag k v).global = c.global ∨ ∃ k' v', (c.setFlag k v).global = mapSet k' v' c.global ∧
            k' ∈ globalKeys ∧ (valid shipped k' v' = true ∨
              k' = "txwilling" ∧ name :: rest = ["txwilling", v'] ∧ (v' = "on" ∨ v' = "off"))) :=
        fun k v hk hv => .inr ⟨k, v, rfl, hk, .inl hv⟩
      rcases this with ⟨rfl, rfl⟩ | ⟨rfl, rfl⟩ | ⟨rfl, rfl⟩ | ⟨rfl, rfl⟩ | ⟨rfl, rfl⟩ | ⟨rfl, rfl⟩ |
        ⟨rfl, rfl⟩ | ⟨rfl, rfl⟩ | ⟨rfl, rfl⟩ | ⟨rfl, rfl⟩ | ⟨rfl, rfl⟩ | ⟨rfl, rfl⟩
      · left; match rest with
        | [] => rfl
        | [a] => simp only [cmdBcount]; repeat' split
                 all_goals rfl
        | _ :: _ :: _ => rfl
      · match rest with
        | [] => exact .inl rfl
        | [a] =>
          simp only [cmdChecksum]
          repeat' split
          all_goals first | exact .inl rfl | exact F _ _ (by decide) (by decide +kernel)
        | _ :: _ :: _ => exact .inl rfl
      · match rest with
        | [] => exact .inl rfl
        | [a] =>
          simp only [cmdDescriptor]
          repeat' split
          all_goals first | exact .inl rfl | exact F _ _ (by decide) (by decide +kernel)
        | _ :: _ :: _ => exact .inl rfl
      · match rest with
        | [] => exact .inl rfl
        | [a] =>
          simp only [cmdFreespace]
          repeat' split
          all_goals first | exact .inl rfl | exact F _ _ (by decide) (by decide +kernel)
        | _ :: _ :: _ => exact .inl rfl
      · left; match rest with
        | [] => rfl
        | [a] => simp only [cmdInterval]; repeat' split
                 all_goals rfl
        | _ :: _ :: _ => rfl
      · match rest with
        | [] => exact .inl rfl
        | [a] =>
          simp only [cmdReqtstamp]
          repeat' split
          all_goals first | exact .inl rfl | exact F _ _ (by decide) (by decide +kernel)
        | _ :: _ :: _ => exact .inl rfl
      · match rest with
        | [] => exact .inl rfl
        | [a] =>
          simp only [cmdRxwilling]
          repeat' split
          all_goals first | exact .inl rfl | exact F _ _ (by decide) (by decide +kernel)
        | _ :: _ :: _ => exact .inl rfl
      · match rest with
        | [] => exact .inl rfl
        | [a] =>
          simp only [cmdStream]
          repeat' split
          all_goals first | exact .inl rfl | exact F _ _ (by decide) (by decide +kernel)
        | _ :: _ :: _ => exact .inl rfl
      · left; match rest with
        | [] => simp only [cmdTimeout]
        | [a] => simp only [cmdTimeout]; repeat' split
                 all_goals rfl
        | [a, b] => simp only [cmdTimeout]; repeat' split
                    all_goals rfl
        | _ :: _ :: _ :: _ => rfl
      · match rest with
        | [] => exact .inl rfl
        | [a] =>
          simp only [cmdTimestamp]
          repeat' split
          all_goals first
            | exact .inl rfl
            | exact F "reqtstamp" "yes" (by decide) (by decide +kernel)
            | exact F _ _ (by decide) (by decide +kernel)
        | _ :: _ :: _ => exact .inl rfl
      · left; match rest with
        | [] => rfl
        | [a] => simp only [cmdTimezone]; repeat' split
                 all_goals rfl
        | _ :: _ :: _ => rfl
      · match rest with
        | [] => exact .inl rfl
        | [a] =>
          simp only [cmdTxwilling]
          split
          · exact .inl rfl
          split
          · rename_i h; subst h
            exact .inr ⟨"txwilling", "on", rfl, by decide, .inr ⟨rfl, rfl, .inl rfl⟩⟩
          split
          · rename_i h; subst h
            exact .inr ⟨"txwilling", "off", rfl, by decide, .inr ⟨rfl, rfl, .inr rfl⟩⟩
          split
          · exact F _ _ (by decide) (by decide +kernel)
          · exact .inl rfl
        | _ :: _ :: _ => exact .inl rfl

/-- **C50, without `txwilling on|off`.** After any sequence of command lines with any words, none of which
is `txwilling on` or `txwilling off`, every flag still holds a legal option. By `C14_beacon`, `C14_data`,
`C14_request` and `C14_status` frames can then be built. Missing: the two lines that store an illegal
option, see `C50_counterexample`. -/
theorem C50_keeps_legal_partial (H : CmdTable) (c : Cliflags) (ok : ValidGlobal shipped c.global)
    (lines : List (List String)) (h1 : ["txwilling", "on"] ∉ lines) (h2 : ["txwilling", "off"] ∉ lines) :
    ValidGlobal shipped (settingRun H c lines).global := by
  unfold settingRun
  induction lines generalizing c with
  | nil => exact ok
  | cons l ls ih =>
    simp only [List.mem_cons, not_or] at h1 h2
    refine ih _ ?_ h1.2 h2.2
    rcases setting_global H c l with e | ⟨k, v, e, hk, hv | ⟨rfl, rfl, rfl | rfl⟩⟩
    · rw [e]; exact ok
    · rw [e]; exact ok.set hk hv
    · exact absurd rfl h1.1
    · exact absurd rfl h2.1

/-- **C50, frames.** So after such command lines the next beacon, request, data and status frame can be
built and its header carries the settings. Missing: as for `C50_keeps_legal_partial`. -/
theorem C50_frames_partial (H : CmdTable) (c : Cliflags) (ok : ValidGlobal shipped c.global)
    (lines : List (List String)) (h1 : ["txwilling", "on"] ∉ lines) (h2 : ["txwilling", "off"] ∉ lines)
    (clock : GoTime) (inRange : clock.InRange) (env : DiskEnv) (bs ba : BitVec 64) (wd : env.getwd = none)
    (st : env.statfs = .ok (bs, ba)) (info : Binfo) (small : info.freespace ≠ 0xFFFFFFFFFFFFFFFF#64)
    (ri : Rinfo) (di : Dinfo) (si : Sinfo) :
    let gl := (settingRun H c lines).global
    (∃ x, Beacon.new shipped env Beacon.zero (setglobal shipped "beacon" gl) info = .ret (x, none) ∧
      ∀ f v, f ∈ values shipped "beacon" → (f, v) ∈ gl → getStr shipped x.header f = .ret v) ∧
    (∃ x, Request.zero.new shipped (setglobal shipped "request" gl) ri = .ret (x, none) ∧
      ∀ f v, f ∈ values shipped "request" → (f, v) ∈ gl → getStr shipped x.header f = .ret v) ∧
    (∃ x, Data.zero.new shipped clock (setglobal shipped "data" gl) di = .ret (x, none) ∧
      ∀ f v, f ∈ values shipped "data" → (f, v) ∈ gl → getStr shipped x.header f = .ret v) ∧
    (∃ x, Status.zero.new shipped clock (setglobal shipped "status" gl) si = .ret (x, none) ∧
      ∀ f v, f ∈ values shipped "status" → (f, v) ∈ gl → getStr shipped x.header f = .ret v) := by
  have ok' := C50_keeps_legal_partial H c ok lines h1 h2
  exact ⟨C14_beacon _ ok' env bs ba wd st _ info small, C14_request _ ok' _ ri,
    C14_data _ ok' clock inRange _ di, C14_status _ ok' clock inRange _ si⟩

example : ValidGlobal shipped shippedSettings.global := C14_shipped_defaults
example : (settingRun [] shippedSettings [["txwilling", "capable"], ["rxwilling", "off"], ["checksum", "md5"],
    ["descriptor", "d16"], ["stream", "maybe"]]).global =
    [("csumtype", "md5"), ("freespace", "yes"), ("txwilling", "capable"), ("rxwilling", "no"),
      ("stream", "no"), ("reqtstamp", "yes"), ("reqstatus", "no"), ("udplite", "no"), ("descriptor", "d16")] := by
  decide

/-- The flag map apart from `txwilling` is legal. -/
def LegalButTx (gl : List (String × String)) : Prop :=
  ∃ gl', ValidGlobal shipped gl' ∧ (gl = gl' ∨ ∃ v, gl = mapSet "txwilling" v gl')

theorem mapSet_twice {β : Type} (k : String) (u v : β) (l : List (String × β)) :
    mapSet k v (mapSet k u l) = mapSet k v l := by
  induction l with
  | nil => simp [mapSet]
  | cons p rest ih =>
    obtain ⟨a, b⟩ := p
    simp only [mapSet]
    by_cases h : a = k
    · simp only [if_pos h, mapSet]
    · simp only [if_neg h, mapSet, ih]

theorem mapSet_mapSet {β : Type} {k j : String} (h : k ≠ j) (u v x y : β) (l : List (String × β))
    (hk : (k, x) ∈ l) (hj : (j, y) ∈ l) :
    mapSet k v (mapSet j u l) = mapSet j u (mapSet k v l) := by
  induction l with
  | nil => simp at hk
  | cons p rest ih =>
    obtain ⟨a, b⟩ := p
    simp only [mapSet]
    by_cases h1 : a = j
    · subst h1
      rw [if_pos rfl, if_neg (Ne.symm h)]
      simp only [mapSet, if_neg (Ne.symm h), if_pos]
    · by_cases h2 : a = k
      · subst h2
        rw [if_neg h1, if_pos rfl]
        simp only [mapSet, if_pos, if_neg h1]
      · rw [if_neg h1, if_neg h2]
        simp only [mapSet, if_neg h1, if_neg h2]
        rw [ih]
        · rcases List.mem_cons.1 hk with e | e
          · cases e; exact absurd rfl h2
          · exact e
        · rcases List.mem_cons.1 hj with e | e
          · cases e; exact absurd rfl h1
          · exact e

theorem legalButTx_step (H : CmdTable) (c : Cliflags) (ok : LegalButTx c.global) (l : List String) :
    LegalButTx (settingCmd H c l).1.global := by
  obtain ⟨gl', v', ok⟩ := ok
  rcases setting_global H c l with e | ⟨k, v, e, hk, hv⟩
  · rw [e]; exact ⟨gl', v', ok⟩
  · rw [e]
    rcases ok with h | ⟨u, h⟩
    · rw [h]
      rcases hv with hv | ⟨rfl, _⟩
      · exact ⟨_, v'.set hk hv, .inl rfl⟩
      · exact ⟨_, v', .inr ⟨v, rfl⟩⟩
    · rw [h]
      by_cases e2 : k = "txwilling"
      · subst e2
        rw [mapSet_twice]
        exact ⟨_, v', .inr ⟨v, rfl⟩⟩
      · rcases hv with hv | ⟨h', _⟩
        · obtain ⟨x, hx⟩ := v'.2.2.1 k hk
          obtain ⟨y, hy⟩ := v'.2.2.1 "txwilling" (by decide)
          rw [mapSet_mapSet e2 _ _ x y _ hx hy]
          exact ⟨_, v'.set hk hv, .inr ⟨u, rfl⟩⟩
        · exact absurd h' e2

/-- **C50, all other settings.** Whatever the user types, every flag other than `txwilling` still holds a
legal option. -/
theorem C50_others (H : CmdTable) (c : Cliflags) (ok : ValidGlobal shipped c.global)
    (lines : List (List String)) (k : String) (hk : k ∈ globalKeys) (other : k ≠ "txwilling") :
    ∃ v, assoc k (settingRun H c lines).global = some v ∧ valid shipped k v = true := by
  have key : ∀ (c : Cliflags), LegalButTx c.global → LegalButTx (settingRun H c lines).global := by
    unfold settingRun
    induction lines with
    | nil => exact fun c h => h
    | cons l ls ih => exact fun c h => ih _ (legalButTx_step H c h l)
  obtain ⟨gl', h1, h2⟩ := key c ⟨_, ok, .inl rfl⟩
  obtain ⟨v, hv⟩ := h1.2.2.1 k hk
  refine ⟨v, ?_, h1.2.2.2 _ hv⟩
  rcases h2 with e | ⟨u, e⟩
  · rw [e]; exact assoc_of_mem' h1.1 hv
  · rw [e, assoc_mapSet, if_neg other]; exact assoc_of_mem' h1.1 hv

/-- **C50 does not hold as stated.** After `txwilling on` (or `off`), from any legal settings, the flag map
is not legal any more; with the shipped settings the next beacon command ends the process. -/
theorem C50_counterexample (v : String) (hv : v = "on" ∨ v = "off") :
    (∀ (H : CmdTable) (c : Cliflags), ValidGlobal shipped c.global →
      ¬ ValidGlobal shipped (settingCmd H c ["txwilling", v]).1.global) ∧
    ∀ (env : DiskEnv) (info : Binfo), Beacon.new shipped env Beacon.zero
      (setglobal shipped "beacon" (settingCmd [] shippedSettings ["txwilling", v]).1.global) info = .fatal := by
  constructor
  · intro H c ok bad
    have e : (settingCmd H c ["txwilling", v]).1.global = mapSet "txwilling" v c.global := by
      rcases hv with rfl | rfl <;> rfl
    rw [e] at bad
    have hm : assoc "txwilling" (mapSet "txwilling" v c.global) = some v := by rw [assoc_mapSet, if_pos rfl]
    have := bad.2.2.2 _ (mem_of_assoc' hm)
    rcases hv with rfl | rfl <;> revert this <;> decide +kernel
  · intro env info
    rcases hv with rfl | rfl <;> rfl

end Saratoga
