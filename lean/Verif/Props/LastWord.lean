import Verif.Props.Program
/-! # Property C155: the settings are the last word on each -/
namespace Saratoga

/-! ## Specification -/

/-- What a list of command lines asks for, one assignment after the other. -/
inductive AskFor : List (List String) → List (Setting × SettingVal) → Prop
  | nil : AskFor [] []
  | order {args ws lines rest} : Orders args ws → AskFor lines rest → AskFor (args :: lines) (ws ++ rest)
  | nothing {args lines rest} : (∀ ws, ¬ Orders args ws) → AskFor lines rest → AskFor (args :: lines) rest

/-- The last value given to the setting `s`. -/
def lastGiven (s : Setting) (ws : List (Setting × SettingVal)) : Option SettingVal :=
  ((ws.filter fun w => w.1 = s).getLast?).map Prod.snd

/-- What a setting is if nobody sets it: what it was. Only, a data counter of 0 becomes 100 once it is looked at. -/
def untouched (c : Cliflags) (lines : List (List String)) (s : Setting) : SettingVal :=
  if s = .datacounter ∧ c.timeout.datacounter = 0 ∧ (["timeout"] ∈ lines ∨ ["timeout", "datacounter"] ∈ lines)
  then .num 100 else c.read s

/-- Nobody can tell the settings apart. -/
def SameSettings (c c' : Cliflags) : Prop := (∀ s, c.read s = c'.read s) ∧ c.fixed = c'.fixed

/-! ## Lemmas -/

theorem lastGiven_append (s : Setting) (a b : List (Setting × SettingVal)) :
    lastGiven s (a ++ b) = (lastGiven s b).or (lastGiven s a) := by
  unfold lastGiven
  rw [List.filter_append, List.getLast?_append]
  cases (b.filter fun w => w.1 = s).getLast? <;> rfl

theorem lastGiven_some {s : Setting} {ws : List (Setting × SettingVal)} {v : SettingVal} (h : lastGiven s ws = some v) :
    (s, v) ∈ ws := by
  unfold lastGiven at h
  obtain ⟨w, hw, rfl⟩ := Option.map_eq_some_iff.1 h
  have := List.mem_of_getLast? hw
  obtain ⟨m, e⟩ := List.mem_filter.1 this
  have e : w.1 = s := by simpa using e
  subst e; exact m

theorem lastGiven_none {s : Setting} {ws : List (Setting × SettingVal)} (h : lastGiven s ws = none) :
    ∀ w ∈ ws, w.1 ≠ s := by
  unfold lastGiven at h
  rw [Option.map_eq_none_iff, List.getLast?_eq_none_iff, List.filter_eq_nil_iff] at h
  intro w hw e
  exact h w hw (by simpa using e)

/-- No command line sets the data counter to 0. -/
theorem orders_counter {args : List String} {ws : List (Setting × SettingVal)} (h : Orders args ws) :
    (.datacounter, .num 0) ∉ ws := by
  cases h with
  | word h =>
    intro hm
    have key : ∀ x ∈ wordTable, (Setting.datacounter, SettingVal.num 0) ∉ x.2.2 := by decide
    exact key _ h hm
  | number h t n =>
    intro hm
    simp only [List.mem_singleton, Prod.mk.injEq] at hm
    obtain ⟨rfl, _⟩ := hm
    simp [numberCommands] at h
  | timer h t n nz =>
    intro hm
    simp only [List.mem_singleton, Prod.mk.injEq, SettingVal.num.injEq] at hm
    exact nz hm.1.symm hm.2.symm
  | zeroCounter t => simp
  | timerOff h =>
    intro hm
    simp only [List.mem_singleton, Prod.mk.injEq, SettingVal.num.injEq] at hm
    obtain ⟨rfl, rfl⟩ := hm
    simp [timerTable] at h

theorem orders_no_query {args : List String} {ws : List (Setting × SettingVal)} (h : Orders args ws) :
    args ≠ ["timeout"] ∧ args ≠ ["timeout", "datacounter"] := by
  cases h with
  | word h =>
    refine ⟨by simp, fun e => ?_⟩
    have key : ∀ x ∈ wordTable, x.1 ≠ "timeout" := by decide
    exact key _ h (by simp at e; exact e.1)
  | number h t n =>
    refine ⟨by simp, fun e => ?_⟩
    simp only [List.cons.injEq] at e
    obtain ⟨rfl, _⟩ := e
    simp [numberCommands] at h
  | timer h t n nz => simp
  | zeroCounter t => simp
  | timerOff h => simp

/-! ## The property -/

/-- Every list of command lines asks for something, maybe for nothing. -/
theorem C155_asked : ∀ lines : List (List String), ∃ ws, AskFor lines ws
  | [] => ⟨[], .nil⟩
  | args :: lines => by
    obtain ⟨rest, h⟩ := C155_asked lines
    by_cases o : ∃ ws, Orders args ws
    · obtain ⟨ws, o⟩ := o
      exact ⟨_, .order o h⟩
    · exact ⟨rest, .nothing (fun ws hw => o ⟨ws, hw⟩) h⟩

/-- **C155** After any command lines every setting is the last thing asked of it, and what it was if nothing was; the
rest of the settings is as it was. -/
theorem C155_last_word (H : CmdTable) : ∀ {lines : List (List String)} {ws : List (Setting × SettingVal)},
    AskFor lines ws → ∀ c : Cliflags,
      (∀ s, (settingRun H c lines).read s = (lastGiven s ws).getD (untouched c lines s)) ∧
      (settingRun H c lines).fixed = c.fixed := by
  intro lines ws h
  induction h with
  | nil => intro c; exact ⟨fun s => by simp [settingRun, lastGiven, untouched], rfl⟩
  | @order args ws lines rest o _ ih =>
    intro c
    have step : settingRun H c (args :: lines) = settingRun H (settingCmd H c args).1 lines := rfl
    obtain ⟨a1, a2, a3⟩ := C51_effect H c args ws o
    rw [step]
    obtain ⟨i1, i2⟩ := ih (settingCmd H c args).1
    refine ⟨fun s => ?_, i2.trans a3⟩
    rw [i1 s, lastGiven_append]
    cases hr : lastGiven s rest with
    | some v => rfl
    | none =>
      simp only [Option.none_or, Option.getD_none]
      cases hw : lastGiven s ws with
      | some v =>
        have hv := lastGiven_some hw
        simp only [Option.getD_some]
        have hread : (settingCmd H c args).1.read s = v := a1 _ hv
        unfold untouched
        rw [if_neg]
        · exact hread
        · rintro ⟨rfl, z, _⟩
          have : v = .num 0 := by rw [← hread]; show SettingVal.num _ = _; rw [z]
          exact orders_counter o (this ▸ hv)
      | none =>
        simp only [Option.getD_none]
        have hread := a2 s (lastGiven_none hw)
        unfold untouched
        have q := orders_no_query o
        by_cases e : s = .datacounter
        · subst e
          have hz : (settingCmd H c args).1.timeout.datacounter = c.timeout.datacounter := by
            have := hread
            simpa [Cliflags.read] using this
          rw [hz, hread]
          simp only [List.mem_cons, q.1.symm, q.2.symm, false_or]
        · simp only [e, false_and, if_false]
          exact hread
  | @nothing args lines rest o _ ih =>
    intro c
    have step : settingRun H c (args :: lines) = settingRun H (settingCmd H c args).1 lines := rfl
    have hx := C51_otherwise_exact H c args o
    rw [step]
    obtain ⟨i1, i2⟩ := ih (settingCmd H c args).1
    refine ⟨fun s => ?_, ?_⟩
    · rw [i1 s]
      congr 1
      unfold untouched
      by_cases q : c.timeout.datacounter = 0 ∧ args ∈ counterQueries
      · rw [if_pos q] at hx
        rw [hx]
        have q2 : args = ["timeout"] ∨ args = ["timeout", "datacounter"] := by simpa [counterQueries] using q.2
        by_cases e : s = .datacounter
        · subst e
          rw [if_neg (by simp), if_pos]
          · rfl
          · exact ⟨rfl, q.1, by rcases q2 with rfl | rfl <;> simp⟩
        · rw [if_neg (fun h => e h.1), if_neg (fun h => e h.1)]
          cases s <;> first | rfl | exact absurd rfl e
      · rw [if_neg q] at hx
        rw [hx]
        by_cases z : c.timeout.datacounter = 0
        · have nq : args ∉ counterQueries := fun h => q ⟨z, h⟩
          have n1 : ["timeout"] ≠ args := fun h => nq (by rw [← h]; simp [counterQueries])
          have n2 : ["timeout", "datacounter"] ≠ args := fun h => nq (by rw [← h]; simp [counterQueries])
          simp only [List.mem_cons, n1, n2, false_or]
        · simp only [z, false_and, and_false, if_false]
    · rw [i2, hx]
      split <;> rfl

example := C155_last_word [] (.order (.word (cmd := "checksum") (w := "md5") (ws := [(.flag "csumtype", .opt (some "md5"))])
  (by decide)) .nil) shippedSettings

/-- **C155** So two histories with the same last words leave the same settings, however long they are and in whatever
order the words came. -/
theorem C155_history_independent (H H' : CmdTable) (c : Cliflags) (counter : c.timeout.datacounter ≠ 0)
    {lines lines' : List (List String)} {ws ws' : List (Setting × SettingVal)} (h : AskFor lines ws) (h' : AskFor lines' ws')
    (same : ∀ s, lastGiven s ws = lastGiven s ws') : SameSettings (settingRun H c lines) (settingRun H' c lines') := by
  obtain ⟨a1, a2⟩ := C155_last_word H h c
  obtain ⟨b1, b2⟩ := C155_last_word H' h' c
  refine ⟨fun s => ?_, a2.trans b2.symm⟩
  rw [a1, b1, same]
  congr 1
  unfold untouched
  simp [counter]

example := C155_history_independent [] [] shippedSettings (by decide)
  (.order (.word (cmd := "checksum") (w := "md5") (ws := [(.flag "csumtype", .opt (some "md5"))]) (by decide))
    (.order (.word (cmd := "checksum") (w := "crc32") (ws := [(.flag "csumtype", .opt (some "crc32"))]) (by decide)) .nil))
  (.order (.word (cmd := "checksum") (w := "crc32") (ws := [(.flag "csumtype", .opt (some "crc32"))]) (by decide)) .nil)
  (fun s => by
    by_cases e : Setting.flag "csumtype" = s
    · subst e; decide
    · simp [lastGiven, e])

/-- **C155** Saying it twice is saying it once. -/
theorem C155_twice (H : CmdTable) (c : Cliflags) (args : List String) :
    SameSettings (settingRun H c [args, args]) (settingRun H c [args]) := by
  obtain ⟨ws, h⟩ := C155_asked [args]
  have h2 : ∃ ws2, AskFor [args, args] ws2 ∧ ∀ s, lastGiven s ws2 = lastGiven s ws := by
    cases h with
    | order o r => 
      cases r
      exact ⟨_, .order o (.order o .nil), fun s => by simp only [List.append_nil, lastGiven_append]; cases lastGiven s _ <;> rfl⟩
    | nothing o r => cases r; exact ⟨_, .nothing o (.nothing o .nil), fun _ => rfl⟩
  obtain ⟨ws2, h2, e⟩ := h2
  obtain ⟨a1, a2⟩ := C155_last_word H h c
  obtain ⟨b1, b2⟩ := C155_last_word H h2 c
  refine ⟨fun s => ?_, b2.trans a2.symm⟩
  rw [a1, b1, e]
  unfold untouched
  simp

/-- **C155** Lines that ask for different settings can be given in either order. -/
theorem C155_either_order (H : CmdTable) (c : Cliflags) (a b : List String) (wa wb : List (Setting × SettingVal))
    (ha : Orders a wa) (hb : Orders b wb) (apart : ∀ x ∈ wa, ∀ y ∈ wb, x.1 ≠ y.1) :
    SameSettings (settingRun H c [a, b]) (settingRun H c [b, a]) := by
  obtain ⟨a1, a2⟩ := C155_last_word H (.order ha (.order hb .nil)) c
  obtain ⟨b1, b2⟩ := C155_last_word H (.order hb (.order ha .nil)) c
  refine ⟨fun s => ?_, a2.trans b2.symm⟩
  rw [a1, b1]
  have e : lastGiven s (wa ++ (wb ++ [])) = lastGiven s (wb ++ (wa ++ [])) := by
    simp only [List.append_nil, lastGiven_append]
    cases ea : lastGiven s wa with
    | none => simp
    | some v =>
      cases eb : lastGiven s wb with
      | none => simp
      | some u => exact absurd rfl (apart (s, v) (lastGiven_some ea) (s, u) (lastGiven_some eb))
  rw [e]
  congr 1
  unfold untouched
  have qa := orders_no_query ha
  have qb := orders_no_query hb
  simp [qa.1.symm, qa.2.symm, qb.1.symm, qb.2.symm]

example := C155_either_order [] shippedSettings ["checksum", "md5"] ["timezone", "utc"] [(.flag "csumtype", .opt (some "md5"))]
  [(.timezone, .name "utc")] (.word (by decide)) (.word (by decide)) (by decide)

/-- **C155** In the running program, whatever datagrams come in between: the settings are the last words typed. -/
theorem C155_program {M : Machine} {fs : FS} {c : Cliflags} {es : List Event} {p : Program} (h : Leads M fs c es p)
    {ws : List (Setting × SettingVal)} (asked : AskFor (commandsTyped M es) ws) :
    (∀ s, p.settings.read s = (lastGiven s ws).getD (untouched c (commandsTyped M es) s)) ∧
    p.settings.fixed = c.fixed := by
  rw [C127_settings h]
  exact C155_last_word M.H asked c

/-! ## Examples -/

/-- Four lines, three of them orders; the second `checksum` counts. -/
example : AskFor [["checksum", "md5"], ["timeout"], ["timestamp", "32"], ["checksum", "crc32"]]
    ([(.flag "csumtype", .opt (some "md5"))] ++ ([(.flag "reqtstamp", .opt (some "yes")), (.timestamp, .name "posix32")] ++
      ([(.flag "csumtype", .opt (some "crc32"))] ++ []))) := by
  refine .order (.word (by decide)) (.nothing ?_ (.order (.word (by decide)) (.order (.word (by decide)) .nil)))
  rintro ws ⟨⟩

example :
    let c := settingRun [] shippedSettings [["checksum", "md5"], ["timeout"], ["timestamp", "32"], ["checksum", "crc32"]]
    c.read (.flag "csumtype") = .opt (some "crc32") ∧ c.read .timestamp = .name "posix32" := by decide +kernel

/-- Two orders for different settings. -/
example : Orders ["checksum", "md5"] [(.flag "csumtype", .opt (some "md5"))] ∧
    Orders ["timezone", "utc"] [(.timezone, .name "utc")] := ⟨.word (by decide), .word (by decide)⟩

end Saratoga
