import Verif.Props.LastWord
/-! # Property C160: which changes of the settings the user can take back -/
namespace Saratoga

/-! ## Specification -/

/-- Some command line gives the setting that value. -/
def Settable (s : Setting) (v : SettingVal) : Prop := ∃ args ws, Orders args ws ∧ (s, v) ∈ ws

/-- The values, other than numbers, that command lines give. -/
def settableWords : List (Setting × SettingVal) :=
  let f (k : String) (vs : List String) : List (Setting × SettingVal) := vs.map fun v => (.flag k, .opt (some v))
  f "csumtype" ["none", "crc32", "md5", "sha1"] ++ f "descriptor" ["d16", "d32", "d64"] ++
  f "freespace" ["yes", "no"] ++ f "reqtstamp" ["yes", "no"] ++ f "rxwilling" ["yes", "no", "capable"] ++
  f "stream" ["yes", "no"] ++ f "txwilling" ["on", "off", "capable"] ++
  ["posix32", "posix32_32", "posix64", "posix64_32", "epoch2000_32", "localinterp"].map (fun v => (.timestamp, .name v)) ++
  ["local", "utc"].map (fun v => (.timezone, .name v))

/-- The settings that are numbers. -/
def countedSettings : List Setting := [.bcount, .interval, .metadata, .request, .status, .transfer, .datacounter]

/-- All settings that some command line changes. -/
def changeable : List Setting :=
  ["csumtype", "descriptor", "freespace", "reqtstamp", "rxwilling", "stream", "txwilling"].map .flag ++
  [.timestamp, .timezone] ++ countedSettings

/-! ## Lemmas -/

/-- What an order gives is a word of the list or a number. -/
theorem orders_give {args : List String} {ws : List (Setting × SettingVal)} (h : Orders args ws) {s : Setting}
    {v : SettingVal} (hm : (s, v) ∈ ws) :
    (s, v) ∈ settableWords ∨ ∃ n : Nat, n < 2 ^ 63 ∧ v = .num n ∧ s ∈ countedSettings ∧ (s = .datacounter → n ≠ 0) := by
  cases h with
  | word h =>
    have key : ∀ x ∈ wordTable, ∀ y ∈ x.2.2, y ∈ settableWords ∨ y = (.interval, .num 0) := by decide +kernel
    rcases key _ h _ hm with k | k
    · exact .inl k
    · cases k; exact .inr ⟨0, by decide, rfl, by decide, by decide⟩
  | @number cmd t text n h nt pos =>
    simp only [List.mem_singleton, Prod.mk.injEq] at hm
    obtain ⟨rfl, rfl⟩ := hm
    obtain ⟨ds, _, _, _, _, hi⟩ := nt
    refine .inr ⟨n.toNat, by omega, by rw [Int.toNat_of_nonneg pos], ?_, ?_⟩
    · have key : ∀ x ∈ numberCommands, x.2 ∈ countedSettings := by decide
      exact key _ h
    · have key : ∀ x ∈ numberCommands, x.2 ≠ .datacounter := by decide
      exact fun e => absurd e (key _ h)
  | @timer t s' d text n h nt pos nz =>
    simp only [List.mem_singleton, Prod.mk.injEq] at hm
    obtain ⟨rfl, rfl⟩ := hm
    obtain ⟨ds, _, _, _, _, hi⟩ := nt
    refine .inr ⟨n.toNat, by omega, by rw [Int.toNat_of_nonneg pos], ?_, fun e => ?_⟩
    · have key : ∀ x ∈ timerTable, x.2.1 ∈ countedSettings := by decide
      exact key _ h
    · have := nz e; omega
  | zeroCounter t =>
    simp only [List.mem_singleton, Prod.mk.injEq] at hm
    obtain ⟨rfl, rfl⟩ := hm
    exact .inr ⟨100, by decide, rfl, by decide, by decide⟩
  | @timerOff t s' d h =>
    simp only [List.mem_singleton, Prod.mk.injEq] at hm
    obtain ⟨rfl, rfl⟩ := hm
    have key : ∀ x ∈ timerTable, x.2.1 ∈ countedSettings ∧ (x.2.2 = 60 ∨ x.2.2 = 100) := by decide
    obtain ⟨k1, k2⟩ := key _ h
    rcases k2 with k2 | k2 <;> simp only at k2 <;> subst k2
    · exact .inr ⟨60, by decide, rfl, k1, fun _ => by decide⟩
    · exact .inr ⟨100, by decide, rfl, k1, fun _ => by decide⟩

/-- A setting other than the kind of time stamp can be given each of these values without touching anything else. -/
theorem order_alone {s : Setting} {v : SettingVal}
    (h : (s, v) ∈ settableWords ∨ ∃ n : Nat, n < 2 ^ 63 ∧ v = .num n ∧ s ∈ countedSettings ∧ (s = .datacounter → n ≠ 0))
    (other : s ≠ .timestamp) : ∃ args, Orders args [(s, v)] := by
  rcases h with h | ⟨n, hn, rfl, hs, nz⟩
  · have key : ∀ x ∈ settableWords, x.1 = .timestamp ∨ (wordTable.any fun y => y.2.2 = [x]) = true := by decide +kernel
    rcases key _ h with k | k
    · exact absurd k other
    · obtain ⟨⟨c, w, ws⟩, hm, he⟩ := List.any_eq_true.1 k
      have he : ws = [(s, v)] := by simpa using he
      exact ⟨[c, w], .word (he ▸ hm)⟩
  · have nt := numberText_toString n hn
    simp only [countedSettings, List.mem_cons, List.not_mem_nil, or_false] at hs
    rcases hs with rfl | rfl | rfl | rfl | rfl | rfl | rfl
    · exact ⟨_, .number (cmd := "bcount") (by decide) nt (by omega)⟩
    · exact ⟨_, .number (cmd := "interval") (by decide) nt (by omega)⟩
    · exact ⟨_, .timer (t := "metadata") (d := 60) (by decide) nt (by omega) (by simp)⟩
    · exact ⟨_, .timer (t := "request") (d := 60) (by decide) nt (by omega) (by simp)⟩
    · exact ⟨_, .timer (t := "status") (d := 60) (by decide) nt (by omega) (by simp)⟩
    · exact ⟨_, .timer (t := "transfer") (d := 60) (by decide) nt (by omega) (by simp)⟩
    · exact ⟨_, .timer (t := "datacounter") (d := 100) (by decide) nt (by omega) (fun e => by have := nz e; omega)⟩

/-- The kind of time stamp comes with the wish for time stamps. -/
theorem order_stamp {v : SettingVal} (h : (Setting.timestamp, v) ∈ settableWords) :
    ∃ args, Orders args [(.flag "reqtstamp", .opt (some "yes")), (.timestamp, v)] := by
  have key : ∀ x ∈ settableWords, x.1 = .timestamp →
      (wordTable.any fun y => y.2.2 = [(.flag "reqtstamp", .opt (some "yes")), x]) = true := by decide +kernel
  obtain ⟨⟨c, w, ws⟩, hm, he⟩ := List.any_eq_true.1 (key _ h rfl)
  have he : ws = [(.flag "reqtstamp", .opt (some "yes")), (.timestamp, v)] := by simpa using he
  exact ⟨[c, w], .word (he ▸ hm)⟩

theorem orders_changeable {args : List String} {ws : List (Setting × SettingVal)} (h : Orders args ws) {s : Setting}
    {v : SettingVal} (hm : (s, v) ∈ ws) : s ∈ changeable := by
  rcases orders_give h hm with k | ⟨_, _, _, k, _⟩
  · have key : ∀ x ∈ settableWords, x.1 ∈ changeable := by decide +kernel
    exact key _ k
  · unfold changeable; exact List.mem_append_right _ k

/-- An order for the kind of time stamp is one for time stamps. -/
theorem orders_stamp {args : List String} {ws : List (Setting × SettingVal)} (h : Orders args ws) {v : SettingVal}
    (hm : (Setting.timestamp, v) ∈ ws) : (.flag "reqtstamp", .opt (some "yes")) ∈ ws := by
  cases h with
  | word h =>
    have key : ∀ x ∈ wordTable, (x.2.2.any fun y => y.1 = .timestamp) = true →
        (.flag "reqtstamp", .opt (some "yes")) ∈ x.2.2 := by decide +kernel
    exact key _ h (List.any_eq_true.2 ⟨_, hm, by simp⟩)
  | number h nt pos =>
    simp only [List.mem_singleton, Prod.mk.injEq] at hm
    rw [← hm.1] at h
    revert h; simp [numberCommands]
  | timer h nt pos nz =>
    simp only [List.mem_singleton, Prod.mk.injEq] at hm
    rw [← hm.1] at h
    revert h; simp [timerTable]
  | zeroCounter t => simp at hm
  | timerOff h =>
    simp only [List.mem_singleton, Prod.mk.injEq] at hm
    rw [← hm.1] at h
    revert h; simp [timerTable]

/-- A command line leaves a setting or gives it a value that command lines give. -/
theorem line_read (H : CmdTable) (c : Cliflags) (args : List String) (s : Setting) :
    (settingCmd H c args).1.read s = c.read s ∨
    (Settable s ((settingCmd H c args).1.read s) ∧ s ∈ changeable) := by
  by_cases o : ∃ ws, Orders args ws
  · obtain ⟨ws, o⟩ := o
    obtain ⟨a1, a2, -⟩ := C51_effect H c args ws o
    by_cases hm : ∃ v, (s, v) ∈ ws
    · obtain ⟨v, hm⟩ := hm
      have e : (settingCmd H c args).1.read s = v := a1 _ hm
      rw [e]
      exact .inr ⟨⟨args, ws, o, hm⟩, orders_changeable o hm⟩
    · exact .inl (a2 s fun w hw e => hm ⟨w.2, by rw [← e]; exact hw⟩)
  · rw [C51_otherwise_exact H c args fun ws hw => o ⟨ws, hw⟩]
    split
    · by_cases e : s = .datacounter
      · subst e
        exact .inr ⟨⟨_, _, .timerOff (t := "datacounter") (s := .datacounter) (d := 100) (by decide), by simp [Cliflags.read]⟩, by decide⟩
      · left
        cases s <;> first | rfl | exact absurd rfl e
    · exact .inl rfl

theorem run_read (H : CmdTable) (s : Setting) : ∀ (lines : List (List String)) (c : Cliflags),
    (settingRun H c lines).read s = c.read s ∨ (Settable s ((settingRun H c lines).read s) ∧ s ∈ changeable)
  | [], _ => .inl rfl
  | args :: lines, c => by
    have step : settingRun H c (args :: lines) = settingRun H (settingCmd H c args).1 lines := rfl
    rw [step]
    rcases run_read H s lines (settingCmd H c args).1 with e | h
    · rw [e]; exact line_read H c args s
    · exact .inr h

theorem run_fixed (H : CmdTable) (lines : List (List String)) (c : Cliflags) :
    (settingRun H c lines).fixed = c.fixed := by
  obtain ⟨ws, h⟩ := C155_asked lines
  exact (C155_last_word H h c).2

/-- Once the kind of time stamp was changed, the wish for time stamps is one that can be typed. -/
theorem run_stamp (H : CmdTable) : ∀ (lines : List (List String)) (c : Cliflags),
    (settingRun H c lines).read .timestamp = c.read .timestamp ∨
    Settable (.flag "reqtstamp") ((settingRun H c lines).read (.flag "reqtstamp"))
  | [], _ => .inl rfl
  | args :: lines, c => by
    have step : settingRun H c (args :: lines) = settingRun H (settingCmd H c args).1 lines := rfl
    rw [step]
    rcases run_read H (.flag "reqtstamp") lines (settingCmd H c args).1 with e | h
    · rcases run_stamp H lines (settingCmd H c args).1 with e' | h'
      · rw [e, e']
        by_cases o : ∃ ws, Orders args ws
        · obtain ⟨ws, o⟩ := o
          obtain ⟨a1, a2, -⟩ := C51_effect H c args ws o
          by_cases hm : ∃ v, (Setting.timestamp, v) ∈ ws
          · obtain ⟨v, hm⟩ := hm
            have hr := orders_stamp o hm
            have : (settingCmd H c args).1.read (.flag "reqtstamp") = .opt (some "yes") := a1 _ hr
            rw [this]
            exact .inr ⟨args, ws, o, hr⟩
          · exact .inl (a2 _ fun w hw e => hm ⟨w.2, by rw [← e]; exact hw⟩)
        · rw [C51_otherwise_exact H c args fun ws hw => o ⟨ws, hw⟩]
          left
          split <;> rfl
      · exact .inr h'
    · exact .inr h.1

theorem settingRun_both (H : CmdTable) (c : Cliflags) (a b : List (List String)) :
    settingRun H c (a ++ b) = settingRun H (settingRun H c a) b := by
  unfold settingRun; rw [List.foldl_append]

/-- Settings put back one after the other. -/
theorem put_back (H : CmdTable) (target : Cliflags) : ∀ (l : List Setting) (c : Cliflags),
    (∀ s ∈ l, s ≠ .timestamp ∧ (c.read s = target.read s ∨ Settable s (target.read s))) →
    ∃ back, (∀ s ∈ l, (settingRun H c back).read s = target.read s) ∧
      ∀ s, s ∉ l → (settingRun H c back).read s = c.read s
  | [], c, _ => ⟨[], by simp, fun _ _ => rfl⟩
  | t :: l, c, h => by
    obtain ⟨back, b1, b2⟩ := put_back H target l c fun s hs => h s (List.mem_cons_of_mem _ hs)
    obtain ⟨ht, hv⟩ := h t List.mem_cons_self
    by_cases same : (settingRun H c back).read t = target.read t
    · refine ⟨back, fun s hs => ?_, fun s hs => b2 s fun m => hs (List.mem_cons_of_mem _ m)⟩
      rcases List.mem_cons.1 hs with rfl | hs
      · exact same
      · exact b1 s hs
    · have hset : Settable t (target.read t) := by
        rcases hv with e | e
        · by_cases m : t ∈ l
          · exact absurd (b1 t m) same
          · rw [b2 t m] at same; exact absurd e same
        · exact e
      obtain ⟨args', ws', o', m'⟩ := hset
      obtain ⟨args, o⟩ := order_alone (orders_give o' m') ht
      obtain ⟨a1, a2, -⟩ := C51_effect H (settingRun H c back) args _ o
      have e : settingRun H c (back ++ [args]) = (settingCmd H (settingRun H c back) args).1 := by
        rw [settingRun_both]; rfl
      refine ⟨back ++ [args], ?_, ?_⟩
      · intro s hs
        rw [e]
        by_cases st : t = s
        · subst st; exact a1 _ List.mem_cons_self
        · rw [a2 s (by simpa using st)]
          rcases List.mem_cons.1 hs with rfl | hs
          · exact absurd rfl st
          · exact b1 s hs
      · intro s hs
        rw [e, a2 s (by simpa using fun e => hs (by rw [← e]; exact List.mem_cons_self))]
        exact b2 s fun m => hs (List.mem_cons_of_mem _ m)

/-! ## C160 -/

/-- **C160** The values that can be typed: these words, and the numbers below 2^63; the data counter not 0. -/
theorem C160_settable (s : Setting) (v : SettingVal) : Settable s v ↔
    (s, v) ∈ settableWords ∨
      ∃ n : Nat, n < 2 ^ 63 ∧ v = .num n ∧ s ∈ countedSettings ∧ (s = .datacounter → n ≠ 0) := by
  constructor
  · rintro ⟨args, ws, o, m⟩
    exact orders_give o m
  · intro h
    by_cases e : s = .timestamp
    · subst e
      rcases h with h | ⟨_, _, _, h, _⟩
      · obtain ⟨args, o⟩ := order_stamp h
        exact ⟨args, _, o, by simp⟩
      · exact absurd h (by decide)
    · obtain ⟨args, o⟩ := order_alone h e
      exact ⟨args, _, o, by simp⟩

/-- **C160** What was changed can be taken back exactly if every setting that is different now had a value that can be
typed. -/
theorem C160_undo_iff (H : CmdTable) (c : Cliflags) (lines : List (List String)) :
    (∃ back, SameSettings (settingRun H (settingRun H c lines) back) c) ↔
      ∀ s, (settingRun H c lines).read s ≠ c.read s → Settable s (c.read s) := by
  constructor
  · rintro ⟨back, same, -⟩ s ne
    rcases run_read H s back (settingRun H c lines) with e | h
    · rw [same s] at e; exact absurd e.symm ne
    · rw [same s] at h; exact h.1
  · intro h
    -- first the kind of time stamp
    obtain ⟨first, f1, f2⟩ : ∃ first, (settingRun H (settingRun H c lines) first).read .timestamp = c.read .timestamp ∧
        ∀ s, s ≠ .timestamp →
          (settingRun H (settingRun H c lines) first).read s = (settingRun H c lines).read s ∨
          (s = .flag "reqtstamp" ∧ Settable s (c.read s)) := by
      by_cases e : (settingRun H c lines).read .timestamp = c.read .timestamp
      · exact ⟨[], e, fun s _ => .inl rfl⟩
      · have hs := (C160_settable _ _).1 (h _ e)
        rcases hs with hs | ⟨_, _, _, hs, _⟩
        · obtain ⟨args, o⟩ := order_stamp hs
          obtain ⟨a1, a2, -⟩ := C51_effect H (settingRun H c lines) args _ o
          refine ⟨[args], a1 (.timestamp, c.read .timestamp) (by simp), fun s hs => ?_⟩
          by_cases r : s = .flag "reqtstamp"
          · right
            refine ⟨r, ?_⟩
            subst r
            by_cases same : (settingRun H c lines).read (.flag "reqtstamp") = c.read (.flag "reqtstamp")
            · rcases run_stamp H lines c with e' | h'
              · exact absurd e' e
              · rw [same] at h'; exact h'
            · exact h _ same
          · left
            refine a2 s ?_
            simp only [List.mem_cons, List.not_mem_nil, or_false]
            rintro w (rfl | rfl)
            · exact fun e => r e.symm
            · exact fun e => hs e.symm
        · exact absurd hs (by decide)
    obtain ⟨back, b1, b2⟩ := put_back H c (changeable.filter (· ≠ .timestamp))
      (settingRun H (settingRun H c lines) first) (by
        intro s hs
        have hs : s ≠ .timestamp := by simpa using (List.mem_filter.1 hs).2
        refine ⟨hs, ?_⟩
        rcases f2 s hs with e | ⟨-, e⟩
        · rw [e]
          by_cases same : (settingRun H c lines).read s = c.read s
          · exact .inl same
          · exact .inr (h s same)
        · exact .inr e)
    refine ⟨first ++ back, fun s => ?_, by rw [run_fixed, run_fixed]⟩
    rw [settingRun_both]
    by_cases t : s = .timestamp
    · subst t
      rw [b2 _ (by simp), f1]
    · by_cases m : s ∈ changeable
      · exact b1 s (List.mem_filter.2 ⟨m, by simpa using t⟩)
      · rw [b2 s fun hm => m (List.mem_filter.1 hm).1]
        have r : s ≠ .flag "reqtstamp" := by rintro rfl; exact m (by decide)
        rcases f2 s t with e | ⟨e, -⟩
        · rw [e]
          rcases run_read H s lines c with e' | ⟨-, e'⟩
          · exact e'
          · exact absurd e' m
        · exact absurd e r

/-- **C160** (partial.) If every setting has a value that can be typed, whatever the user does can be taken back.
Missing: settings with another value, as `txwilling` in the shipped configuration, see `C160_counterexample`. -/
theorem C160_undo_partial (H : CmdTable) (c : Cliflags) (typed : ∀ s ∈ changeable, Settable s (c.read s))
    (lines : List (List String)) : ∃ back, SameSettings (settingRun H (settingRun H c lines) back) c := by
  rw [C160_undo_iff]
  intro s ne
  rcases run_read H s lines c with e | ⟨-, m⟩
  · exact absurd e ne
  · exact typed s m

/-- **C160** A setting that was changed once can be typed ever after: what is done from then on can be taken back, as
far as it is concerned. -/
theorem C160_from_then_on (H : CmdTable) (c : Cliflags) (lines : List (List String)) (s : Setting)
    (changed : (settingRun H c lines).read s ≠ c.read s) : Settable s ((settingRun H c lines).read s) := by
  rcases run_read H s lines c with e | ⟨h, -⟩
  · exact absurd e changed
  · exact h

/-- **C160** does not hold of the shipped settings: nothing the user types after `txwilling off` brings back the
settings the program was started with. -/
theorem C160_counterexample (H : CmdTable) :
    ¬ ∃ back, SameSettings (settingRun H (settingRun H shippedSettings [["txwilling", "off"]]) back) shippedSettings := by
  rw [C160_undo_iff]
  intro h
  have := h (.flag "txwilling") (by
    obtain ⟨a1, -, -⟩ := C51_effect H shippedSettings ["txwilling", "off"] [(.flag "txwilling", .opt (some "off"))]
      (.word (by decide))
    have e : (settingRun H shippedSettings [["txwilling", "off"]]).read (.flag "txwilling") = .opt (some "off") :=
      a1 _ List.mem_cons_self
    rw [e]; decide)
  rw [C160_settable] at this
  rcases this with k | ⟨n, _, _, k, _⟩
  · revert k; decide +kernel
  · revert k; decide

/-- **C160** That is the only setting of the shipped configuration that cannot be brought back. -/
theorem C160_shipped (H : CmdTable) (lines : List (List String)) :
    (∃ back, SameSettings (settingRun H (settingRun H shippedSettings lines) back) shippedSettings) ↔
      (settingRun H shippedSettings lines).read (.flag "txwilling") = .opt (some "yes") := by
  rw [C160_undo_iff]
  constructor
  · intro h
    refine Classical.byContradiction fun ne => ?_
    have e : shippedSettings.read (.flag "txwilling") = .opt (some "yes") := by decide
    have := h (.flag "txwilling") (by rw [e]; exact ne)
    rw [C160_settable] at this
    rcases this with k | ⟨n, _, _, k, _⟩
    · revert k; decide +kernel
    · revert k; decide
  · intro e s ne
    rcases run_read H s lines shippedSettings with e' | ⟨-, m⟩
    · exact absurd e' ne
    · have key : ∀ s ∈ changeable, s = .flag "txwilling" ∨ (s, shippedSettings.read s) ∈ settableWords ∨
          s ∈ countedSettings := by decide +kernel
      rcases key s m with rfl | k | k
      · exact absurd e ne
      · exact (C160_settable _ _).2 (.inl k)
      · rw [C160_settable]
        right
        have key2 : ∀ s ∈ countedSettings, ∃ n ∈ [3, 55, 56, 57, 58, 100], shippedSettings.read s = .num (n : Nat) := by
          decide
        obtain ⟨n, hn, hr⟩ := key2 s k
        have key3 : ∀ n ∈ [3, 55, 56, 57, 58, 100], n < 2 ^ 63 ∧ n ≠ 0 := by decide
        exact ⟨n, (key3 n hn).1, hr, k, fun _ => (key3 n hn).2⟩

/-! ## Concrete cases -/

-- three changes and the lines that take them back
example : SameSettings (settingRun [] (settingRun [] shippedSettings
      [["timestamp", "off"], ["checksum", "md5"], ["timeout", "request", "0"], ["timestamp", "32"]])
    [["timestamp", "64"], ["checksum", "none"], ["timeout", "request", "56"]]) shippedSettings := by
  refine ⟨fun s => ?_, rfl⟩
  cases s with
  | flag k =>
    by_cases h : k ∈ shippedSettings.global.map Prod.fst
    · have key : ∀ k ∈ shippedSettings.global.map Prod.fst,
        (settingRun [] (settingRun [] shippedSettings
          [["timestamp", "off"], ["checksum", "md5"], ["timeout", "request", "0"], ["timestamp", "32"]])
          [["timestamp", "64"], ["checksum", "none"], ["timeout", "request", "56"]]).read (.flag k) =
        shippedSettings.read (.flag k) := by decide +kernel
      exact key k h
    · rcases run_read [] (.flag k) [["timestamp", "64"], ["checksum", "none"], ["timeout", "request", "56"]]
        (settingRun [] shippedSettings
          [["timestamp", "off"], ["checksum", "md5"], ["timeout", "request", "0"], ["timestamp", "32"]]) with e | ⟨-, m⟩
      · rw [e]
        rcases run_read [] (.flag k) [["timestamp", "off"], ["checksum", "md5"], ["timeout", "request", "0"],
          ["timestamp", "32"]] shippedSettings with e | ⟨-, m⟩
        · exact e
        · exfalso; apply h; revert m; simp [changeable, countedSettings, shippedSettings]; rintro (rfl|rfl|rfl|rfl|rfl|rfl|rfl) <;> simp
      · exfalso; apply h; revert m; simp [changeable, countedSettings, shippedSettings]; rintro (rfl|rfl|rfl|rfl|rfl|rfl|rfl) <;> simp
  | _ => decide +kernel

/-- The shipped settings with a word for `txwilling` that can be typed. -/
def typedSettings : Cliflags := shippedSettings.setFlag "txwilling" "capable"

-- the hypothesis of `C160_undo_partial` holds of them
example : ∀ s ∈ changeable, Settable s (typedSettings.read s) := by
  intro s m
  rw [C160_settable]
  have key : ∀ s ∈ changeable, (s, typedSettings.read s) ∈ settableWords ∨
      (s ∈ countedSettings ∧ ∃ n ∈ [3, 55, 56, 57, 58, 100], typedSettings.read s = .num (n : Nat)) := by decide +kernel
  rcases key s m with k | ⟨k, n, hn, hr⟩
  · exact .inl k
  · have key3 : ∀ n ∈ [3, 55, 56, 57, 58, 100], n < 2 ^ 63 ∧ n ≠ 0 := by decide
    exact .inr ⟨n, (key3 n hn).1, hr, k, fun _ => (key3 n hn).2⟩

-- a change, as `C160_from_then_on` wants it
example : (settingRun [] shippedSettings [["txwilling", "off"]]).read (.flag "txwilling") ≠
    shippedSettings.read (.flag "txwilling") := by decide +kernel

end Saratoga
