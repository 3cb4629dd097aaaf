import Std.Data.String.ToInt
import Std.Data.String.ToNat
import Verif.Props.Settings
/-!
# C111: asking for a setting tells the setting

Specification: which question asks for which setting, and what it means that the answer tells it.
-/
namespace Saratoga

/-- The questions for one setting each. -/
def queryTable : List (List String × Setting) :=
  [(["checksum"], .flag "csumtype"), (["descriptor"], .flag "descriptor"), (["freespace"], .flag "freespace"),
   (["reqtstamp"], .flag "reqtstamp"), (["rxwilling"], .flag "rxwilling"), (["stream"], .flag "stream"),
   (["txwilling"], .flag "txwilling"), (["timezone"], .timezone), (["bcount"], .bcount), (["interval"], .interval),
   (["timeout", "metadata"], .metadata), (["timeout", "request"], .request), (["timeout", "status"], .status),
   (["timeout", "transfer"], .transfer), (["timeout", "datacounter"], .datacounter)]

/-- The lines printed. -/
def answer (H : CmdTable) (c : Cliflags) (q : List String) : List Shown := (settingCmd H c q).2

/-- The flags are all there and those that are yes or no are yes or no. -/
structure FlagsThere (c : Cliflags) : Prop where
  present : ∀ k ∈ ["csumtype", "descriptor", "rxwilling", "txwilling"], ∃ v, assoc k c.global = some v
  yesNo : ∀ k ∈ ["freespace", "reqtstamp", "stream"], assoc k c.global = some "yes" ∨ assoc k c.global = some "no"

/-- What a question for a setting should do: the answer is the same exactly when the setting is the same. -/
def Tells (H : CmdTable) (q : List String) (s : Setting) : Prop :=
  ∀ c c' : Cliflags, FlagsThere c → FlagsThere c' → (answer H c q = answer H c' q ↔ c.read s = c'.read s)

theorem toString_int_inj {a b : Int} : toString a = toString b ↔ a = b := Int.repr_inj
theorem toString_nat_inj {a b : Nat} : toString a = toString b ↔ a = b := Nat.repr_inj

theorem append_left_inj' {p a b : String} : p ++ a = p ++ b ↔ a = b := by
  rw [← String.toList_inj, String.toList_append, String.toList_append, List.append_cancel_left_eq, String.toList_inj]

theorem append_right_inj' {p a b : String} : a ++ p = b ++ p ↔ a = b := by
  rw [← String.toList_inj, String.toList_append, String.toList_append, List.append_cancel_right_eq, String.toList_inj]

/-- A text that ends in `c` is not one that ends in `d`. -/
theorem last_ne {p q : List Char} {c d : Char} (h : c ≠ d) : p ++ [c] ≠ q ++ [d] := by
  intro e
  have := congrArg List.getLast? e
  simp at this
  exact h this

theorem flag_eq {c c' : Cliflags} {k v v' : String} (h : assoc k c.global = some v) (h' : assoc k c'.global = some v') :
    c.flag k = c'.flag k ↔ c.read (.flag k) = c'.read (.flag k) := by
  simp [Cliflags.flag, Cliflags.read, h, h']

theorem yes_eq {c c' : Cliflags} {k y n : String} (ne : y ≠ n)
    (h : assoc k c.global = some "yes" ∨ assoc k c.global = some "no")
    (h' : assoc k c'.global = some "yes" ∨ assoc k c'.global = some "no") :
    (if c.flag k = "yes" then y else n) = (if c'.flag k = "yes" then y else n) ↔
      c.read (.flag k) = c'.read (.flag k) := by
  rcases h with h | h <;> rcases h' with h' | h' <;> simp [Cliflags.flag, Cliflags.read, h, h', ne, ne.symm]

theorem timerText_inj {name : String} {a b : Int} : timerText name a a = timerText name b b ↔ a = b := by
  have key : ∀ a : Int, name ++ ":No Timeout" ≠ name ++ ":" ++ toString a ++ " sec" := by
    intro a e
    rw [← String.toList_inj] at e
    simp only [String.toList_append] at e
    rw [show ":No Timeout".toList = ":No Timeou".toList ++ ['t'] from rfl,
      show " sec".toList = " se".toList ++ ['c'] from rfl, ← List.append_assoc, ← List.append_assoc] at e
    exact last_ne (by decide) e
  unfold timerText
  split <;> split
  · simp_all
  · rename_i h1 h2
    exact ⟨fun h => absurd h (key b), fun h => absurd (h ▸ h1) h2⟩
  · rename_i h1 h2
    exact ⟨fun h => absurd h.symm (key a), fun h => absurd (h ▸ h2) h1⟩
  · rw [append_right_inj', append_left_inj', toString_int_inj]

/-- **C111** (partial.) Every question but `timeout metadata` tells its setting: the answer is the same exactly when the
setting is. Missing: `timeout metadata`, see `C111_counterexample`. -/
theorem C111_tells_partial (H : CmdTable) (q : List String) (s : Setting) (known : (q, s) ∈ queryTable)
    (other : s ≠ .metadata) : Tells H q s := by
  intro c c' ok ok'
  simp only [queryTable, List.mem_cons, Prod.mk.injEq, List.not_mem_nil, or_false] at known
  rcases known with ⟨rfl, rfl⟩ | ⟨rfl, rfl⟩ | ⟨rfl, rfl⟩ | ⟨rfl, rfl⟩ | ⟨rfl, rfl⟩ | ⟨rfl, rfl⟩ | ⟨rfl, rfl⟩ | ⟨rfl, rfl⟩ |
    ⟨rfl, rfl⟩ | ⟨rfl, rfl⟩ | ⟨rfl, rfl⟩ | ⟨rfl, rfl⟩ | ⟨rfl, rfl⟩ | ⟨rfl, rfl⟩ | ⟨rfl, rfl⟩
  · obtain ⟨v, h⟩ := ok.present "csumtype" (by simp)
    obtain ⟨v', h'⟩ := ok'.present "csumtype" (by simp)
    show [Shown.msg ("Checksum " ++ c.flag "csumtype")] = [Shown.msg ("Checksum " ++ c'.flag "csumtype")] ↔ _
    simp only [List.cons.injEq, Shown.msg.injEq, and_true, append_left_inj']
    exact flag_eq h h'
  · obtain ⟨v, h⟩ := ok.present "descriptor" (by simp)
    obtain ⟨v', h'⟩ := ok'.present "descriptor" (by simp)
    show [Shown.msg ("Descriptor " ++ c.flag "descriptor")] = [Shown.msg ("Descriptor " ++ c'.flag "descriptor")] ↔ _
    simp only [List.cons.injEq, Shown.msg.injEq, and_true, append_left_inj']
    exact flag_eq h h'
  · show [Shown.msg (if c.flag "freespace" = "yes" then _ else _)] =
      [Shown.msg (if c'.flag "freespace" = "yes" then _ else _)] ↔ _
    simp only [List.cons.injEq, Shown.msg.injEq, and_true]
    exact yes_eq (by decide) (ok.yesNo _ (by simp)) (ok'.yesNo _ (by simp))
  · show [Shown.msg (if c.flag "reqtstamp" = "yes" then _ else _)] =
      [Shown.msg (if c'.flag "reqtstamp" = "yes" then _ else _)] ↔ _
    simp only [List.cons.injEq, Shown.msg.injEq, and_true]
    exact yes_eq (by decide) (ok.yesNo _ (by simp)) (ok'.yesNo _ (by simp))
  · obtain ⟨v, h⟩ := ok.present "rxwilling" (by simp)
    obtain ⟨v', h'⟩ := ok'.present "rxwilling" (by simp)
    show [Shown.msg ("Receive Files:" ++ c.flag "rxwilling")] = [Shown.msg ("Receive Files:" ++ c'.flag "rxwilling")] ↔ _
    simp only [List.cons.injEq, Shown.msg.injEq, and_true, append_left_inj']
    exact flag_eq h h'
  · show [Shown.msg (if c.flag "stream" = "yes" then _ else _)] =
      [Shown.msg (if c'.flag "stream" = "yes" then _ else _)] ↔ _
    simp only [List.cons.injEq, Shown.msg.injEq, and_true]
    exact yes_eq (by decide) (ok.yesNo _ (by simp)) (ok'.yesNo _ (by simp))
  · obtain ⟨v, h⟩ := ok.present "txwilling" (by simp)
    obtain ⟨v', h'⟩ := ok'.present "txwilling" (by simp)
    show [Shown.msg ("Transmit Files:" ++ c.flag "txwilling")] = [Shown.msg ("Transmit Files:" ++ c'.flag "txwilling")] ↔ _
    simp only [List.cons.injEq, Shown.msg.injEq, and_true, append_left_inj']
    exact flag_eq h h'
  · show [Shown.msg ("Timezone:" ++ c.timezone)] = [Shown.msg ("Timezone:" ++ c'.timezone)] ↔ _
    simp only [List.cons.injEq, Shown.msg.injEq, and_true, append_left_inj', Cliflags.read, SettingVal.name.injEq]
  · show [Shown.msg (toString c.bcount ++ " Beacons to be sent")] = [Shown.msg (toString c'.bcount ++ _)] ↔ _
    simp only [List.cons.injEq, Shown.msg.injEq, and_true, append_right_inj', toString_nat_inj, Cliflags.read,
      SettingVal.num.injEq, Int.ofNat_inj]
  · show [Shown.msg (if c.timeout.binterval = 0 then "Single Beacon Interation"
        else "Beacons sent every " ++ toString c.timeout.binterval ++ " seconds")] =
      [Shown.msg (if c'.timeout.binterval = 0 then "Single Beacon Interation"
        else "Beacons sent every " ++ toString c'.timeout.binterval ++ " seconds")] ↔ _
    simp only [List.cons.injEq, Shown.msg.injEq, and_true, Cliflags.read, SettingVal.num.injEq, Int.ofNat_inj]
    have key : ∀ a : Nat, "Single Beacon Interation" ≠ "Beacons sent every " ++ toString a ++ " seconds" := by
      intro a e
      rw [← String.toList_inj] at e
      simp only [String.toList_append] at e
      rw [show "Single Beacon Interation".toList = "Single Beacon Interatio".toList ++ ['n'] from rfl,
        show " seconds".toList = " second".toList ++ ['s'] from rfl, ← List.append_assoc] at e
      exact last_ne (by decide) e
    split <;> split
    · simp_all
    · rename_i h1 h2
      exact ⟨fun h => absurd h (key _), fun h => absurd (h ▸ h1) h2⟩
    · rename_i h1 h2
      exact ⟨fun h => absurd h.symm (key _), fun h => absurd (h ▸ h2) h1⟩
    · rw [append_right_inj', append_left_inj', toString_nat_inj]
  · exact absurd rfl other
  · show [Shown.msg (timerText "request" c.timeout.request c.timeout.request)] = [Shown.msg (timerText "request" _ _)] ↔ _
    simp only [List.cons.injEq, Shown.msg.injEq, and_true, Cliflags.read, SettingVal.num.injEq]
    exact timerText_inj
  · show [Shown.msg (timerText "status" c.timeout.status c.timeout.status)] = [Shown.msg (timerText "status" _ _)] ↔ _
    simp only [List.cons.injEq, Shown.msg.injEq, and_true, Cliflags.read, SettingVal.num.injEq]
    exact timerText_inj
  · show [Shown.msg (timerText "transfer" c.timeout.transfer c.timeout.transfer)] =
      [Shown.msg (timerText "transfer" _ _)] ↔ _
    simp only [List.cons.injEq, Shown.msg.injEq, and_true, Cliflags.read, SettingVal.num.injEq]
    exact timerText_inj
  · have e : ∀ c : Cliflags, answer H c ["timeout", "datacounter"] =
        [Shown.msg (if c.timeout.datacounter = 0 then "datacounter:Never"
          else "datacounter:" ++ toString c.timeout.datacounter ++ " frames")] := by
      intro c
      show (cmdTimeout H c ["timeout", "datacounter"]).2 = _
      simp only [cmdTimeout, show ("datacounter" = "?") = False by decide,
        show ("datacounter" = "request") = False by decide, show ("datacounter" = "metadata") = False by decide,
        show ("datacounter" = "status") = False by decide, if_false, if_true]
      split <;> rfl
    rw [e, e]
    simp only [List.cons.injEq, Shown.msg.injEq, and_true, Cliflags.read, SettingVal.num.injEq]
    have key : ∀ a : Int, "datacounter:Never" ≠ "datacounter:" ++ toString a ++ " frames" := by
      intro a e
      rw [← String.toList_inj] at e
      simp only [String.toList_append] at e
      rw [show "datacounter:Never".toList = "datacounter:Neve".toList ++ ['r'] from rfl,
        show " frames".toList = " frame".toList ++ ['s'] from rfl, ← List.append_assoc] at e
      exact last_ne (by decide) e
    split <;> split
    · simp_all
    · rename_i h1 h2
      exact ⟨fun h => absurd h (key _), fun h => absurd (h ▸ h1) h2⟩
    · rename_i h1 h2
      exact ⟨fun h => absurd h.symm (key _), fun h => absurd (h ▸ h2) h1⟩
    · rw [append_right_inj', append_left_inj', toString_int_inj]

example := C111_tells_partial [] ["checksum"] (.flag "csumtype") (by decide) (by decide)

/-- **C111** A flag that is not set is told apart from every setting but the empty one: nothing stands where the
setting would. -/
theorem C111_unset (H : CmdTable) (c : Cliflags) :
    (assoc "csumtype" c.global = none → answer H c ["checksum"] = [.msg "Checksum "]) ∧
    (assoc "descriptor" c.global = none → answer H c ["descriptor"] = [.msg "Descriptor "]) ∧
    (assoc "rxwilling" c.global = none → answer H c ["rxwilling"] = [.msg "Receive Files:"]) ∧
    (assoc "txwilling" c.global = none → answer H c ["txwilling"] = [.msg "Transmit Files:"]) := by
  refine ⟨fun h => ?_, fun h => ?_, fun h => ?_, fun h => ?_⟩
  · show [Shown.msg ("Checksum " ++ c.flag "csumtype")] = _
    rw [Cliflags.flag, h]; rfl
  · show [Shown.msg ("Descriptor " ++ c.flag "descriptor")] = _
    rw [Cliflags.flag, h]; rfl
  · show [Shown.msg ("Receive Files:" ++ c.flag "rxwilling")] = _
    rw [Cliflags.flag, h]; rfl
  · show [Shown.msg ("Transmit Files:" ++ c.flag "txwilling")] = _
    rw [Cliflags.flag, h]; rfl

example : assoc "csumtype" ({ shippedSettings with global := [] } : Cliflags).global = none := rfl

/-- **C111** A timer that was set is shown as set: after `timeout <timer> <number>`, `timeout <timer>` shows that number,
or that there is no timeout if it is 0, for the timers of requests, statuses and transfers. -/
theorem C111_shown (H : CmdTable) (c : Cliflags) (t text : String) (n : Int) (ht : t ∈ ["request", "status", "transfer"])
    (number : NumberText text n) (pos : 0 ≤ n) :
    answer H (settingCmd H c ["timeout", t, text]).1 ["timeout", t] =
      [.msg (if n = 0 then t ++ ":No Timeout" else t ++ ":" ++ toString n ++ " sec")] := by
  have ha := (atoi_iff _ _).2 number
  have f : (some n).filter (· ≥ 0) = some n := by simp [pos]
  simp only [List.mem_cons, List.not_mem_nil, or_false] at ht
  rcases ht with rfl | rfl | rfl
  all_goals
    show (cmdTimeout H (cmdTimeout H c ["timeout", _, text]).1 ["timeout", _]).2 = _
    simp only [cmdTimeout, ha, f, String.reduceEq, if_true, if_false, cmdTimeout.set, timerText]

/-- **C111** `timeout metadata` looks at another timer: with a request timer of 0 it says that there is no timeout for
metadata, whatever that timer is. -/
theorem C111_counterexample (H : CmdTable) :
    (∀ c : Cliflags, c.timeout.request = 0 →
      answer H c ["timeout", "metadata"] = [.msg "metadata:No Timeout"]) ∧
    ¬ Tells H ["timeout", "metadata"] .metadata := by
  have h : ∀ c : Cliflags, c.timeout.request = 0 →
      answer H c ["timeout", "metadata"] = [.msg "metadata:No Timeout"] := by
    intro c hc
    show (cmdTimeout H c ["timeout", "metadata"]).2 = _
    simp only [cmdTimeout, String.reduceEq, if_true, if_false, timerText, hc]
    rfl
  refine ⟨h, fun tells => ?_⟩
  have there : ∀ t : Timeouts, FlagsThere { shippedSettings with timeout := t } := by
    intro t
    refine ⟨?_, ?_⟩
    · intro k hk
      simp only [List.mem_cons, List.not_mem_nil, or_false] at hk
      rcases hk with rfl | rfl | rfl | rfl
      · exact ⟨"none", show assoc "csumtype" shippedSettings.global = _ by decide⟩
      · exact ⟨"d64", show assoc "descriptor" shippedSettings.global = _ by decide⟩
      · exact ⟨"yes", show assoc "rxwilling" shippedSettings.global = _ by decide⟩
      · exact ⟨"yes", show assoc "txwilling" shippedSettings.global = _ by decide⟩
    · intro k hk
      simp only [List.mem_cons, List.not_mem_nil, or_false] at hk
      rcases hk with rfl | rfl | rfl
      · exact .inl (show assoc "freespace" shippedSettings.global = _ by decide)
      · exact .inl (show assoc "reqtstamp" shippedSettings.global = _ by decide)
      · exact .inr (show assoc "stream" shippedSettings.global = _ by decide)
  have := (tells { shippedSettings with timeout := ⟨55, 0, 57, 58, 3, 100⟩ }
    { shippedSettings with timeout := ⟨9, 0, 57, 58, 3, 100⟩ } (there _) (there _)).1 (by rw [h _ rfl, h _ rfl])
  exact absurd this (by decide)

end Saratoga
