import Verif.Props.Help
import Verif.Props.Listing
import Verif.Props.TranCmds
/-!
# C117: a command line that is not understood is answered with the usage

`Orders` (Spec/Settings) says what a line asks a setting to become; the questions are below.
-/
namespace Saratoga

/-- The words behind a settings command that ask a question. -/
def Question (name : String) (words : List String) : Prop :=
  words = [] ∨ words = ["?"] ∨
    (name = "timeout" ∧ ∃ t ∈ ["metadata", "request", "status", "datacounter", "transfer"], words = [t])

/-- The usage, in the error window, and nothing else. Some commands say the word twice, some the line. -/
def SaysUsage (usage : String) (shown : List Shown) : Prop :=
  shown ≠ [] ∧ ∀ s ∈ shown, s = .err ("usage:" ++ usage) ∨ s = .err ("usage:" ++ ("usage:" ++ usage))

theorem prusage_known {H : CmdTable} {name : String} {t : CmdText} (known : assoc name H = some t) :
    prusage H name = "usage:" ++ t.usage := by
  unfold prusage; rw [known]

/-- **C117** (partial: settings commands but `descriptor` with one word and `timeout` with `off`.) A line that asks
neither for a change nor a question is answered with the usage of the command and nothing else. Missing: see
`C117_counterexample`. That the settings stay as they are is C51. -/
theorem C117_settings_partial (H : CmdTable) (c : Cliflags) (name : String) (words : List String) (t : CmdText)
    (known : assoc name H = some t) (setting : name ∈ settingHandlers.map Prod.fst)
    (noOrder : ∀ ws, ¬ Orders (name :: words) ws) (noQuestion : ¬ Question name words)
    (descriptor : name = "descriptor" → words.length ≠ 1) (off : name = "timeout" → ∀ w, words ≠ [w, "off"]) :
    SaysUsage t.usage (settingCmd H c (name :: words)).2 := by
  have hu := prusage_known known
  have q1 : words ≠ [] := fun h => noQuestion (.inl h)
  have q2 : words ≠ ["?"] := fun h => noQuestion (.inr (.inl h))
  have one : SaysUsage t.usage [.err (prusage H name)] := ⟨by simp, by simp [hu]⟩
  have two : SaysUsage t.usage [.err (prusage H name), .err (prusage H name)] := ⟨by simp, by simp [hu]⟩
  have twice : SaysUsage t.usage [.err ("usage:" ++ prusage H name)] := ⟨by simp, by simp [hu]⟩
  simp only [settingHandlers, List.map_cons, List.map_nil, List.mem_cons, List.not_mem_nil, or_false] at setting
  rcases setting with rfl | rfl | rfl | rfl | rfl | rfl | rfl | rfl | rfl | rfl | rfl | rfl
  case inr.inr.inr.inr.inr.inr.inr.inr.inl =>
    change SaysUsage t.usage (cmdTimeout H c ("timeout" :: words)).2
    match words with
    | [] => exact absurd rfl q1
    | [a] =>
      have hq : ∀ t ∈ ["metadata", "request", "status", "datacounter", "transfer"], a ≠ t :=
        fun t ht h => noQuestion (.inr (.inr ⟨rfl, t, ht, by rw [h]⟩))
      simp only [List.mem_cons, List.not_mem_nil, or_false, forall_eq_or_imp, forall_eq] at hq
      obtain ⟨h1, h2, h3, h4, h5⟩ := hq
      simp only [cmdTimeout]
      rw [if_neg (fun h => q2 (by rw [h])), if_neg h2, if_neg h1, if_neg h3, if_neg h4, if_neg h5]
      exact one
    | [a, b] =>
      simp only [cmdTimeout]
      cases hb : (atoi b).filter (fun x => decide (x ≥ 0)) with
      | none =>
        simp only
        rw [if_neg (fun h => off rfl a (by rw [h]))]
        exact one
      | some n =>
        obtain ⟨ha, hp⟩ := Option.filter_eq_some_iff.1 hb
        have pos : n ≥ 0 := by simpa using hp
        simp only
        have no : ∀ x, (timerTable.any fun e => e.1 = x) = true → a ≠ x :=
          fun x hx h => absurd (by rw [h]) (no_timer noOrder hx ha pos)
        rw [if_neg (no _ (by decide +kernel)), if_neg (no _ (by decide +kernel)), if_neg (no _ (by decide +kernel)),
          if_neg (no _ (by decide +kernel)), if_neg (no _ (by decide +kernel))]
        exact one
    | _ :: _ :: _ :: _ => exact one
  case inr.inr.inl =>
    change SaysUsage t.usage (cmdDescriptor H c ("descriptor" :: words)).2
    match words with
    | [] => exact absurd rfl q1
    | [a] => exact absurd rfl (descriptor rfl)
    | _ :: _ :: _ => exact twice
  all_goals
    match words with
    | [] => exact absurd rfl q1
    | [a] =>
      first
        | change SaysUsage t.usage (cmdBcount H c ["bcount", a]).2
        | change SaysUsage t.usage (cmdChecksum H c ["checksum", a]).2
        | change SaysUsage t.usage (cmdFreespace H c ["freespace", a]).2
        | change SaysUsage t.usage (cmdInterval H c ["interval", a]).2
        | change SaysUsage t.usage (cmdReqtstamp H c ["reqtstamp", a]).2
        | change SaysUsage t.usage (cmdRxwilling H c ["rxwilling", a]).2
        | change SaysUsage t.usage (cmdStream H c ["stream", a]).2
        | change SaysUsage t.usage (cmdTimestamp H c ["timestamp", a]).2
        | change SaysUsage t.usage (cmdTimezone H c ["timezone", a]).2
        | change SaysUsage t.usage (cmdTxwilling H c ["txwilling", a]).2
      simp only [cmdBcount, cmdChecksum, cmdFreespace, cmdInterval, cmdReqtstamp, cmdRxwilling, cmdStream, cmdTimestamp,
        cmdTimezone, cmdTxwilling]
      repeat' split
      all_goals first
        | exact one
        | exact two
        | exact twice
        | (rename_i h; subst h; exact absurd rfl q2)
        | (rename_i h; subst h; exact absurd rfl (no_word noOrder (by decide +kernel)))
        | (rename_i h; rcases h with rfl | rfl <;> exact absurd rfl (no_word noOrder (by decide +kernel)))
        | (rename_i n ha pos; exact absurd rfl (no_number noOrder (by decide +kernel) ha pos))
    | _ :: _ :: _ =>
      first
        | exact one
        | exact two
        | exact twice

/-- **C117** (partial: transfer commands but `give`.) With one word that is not `?` (for `tran`: nor a type of transfer),
with more than two, or with two for `tran` and `files`, a transfer command changes nothing and says its usage. Missing:
`give`, see `C117_counterexample`. -/
theorem C117_transfers_partial (name : String) (h : CmdEnv → TranWorld → List String → CmdOut)
    (cmd : (name, h) ∈ tranCommands) (E : CmdEnv) (w : TranWorld) (words : List String) (t : CmdText)
    (known : assoc name E.H = some t) (other : name ≠ "give")
    (wrong : (∃ a, words = [a] ∧ a ≠ "?" ∧
        (name = "tran" → a ∉ ["get", "getrm", "getdir", "put", "putblind", "putrm", "rm", "rmdir"])) ∨
      2 < words.length ∨ (words.length = 2 ∧ (name = "tran" ∨ name = "files"))) :
    h E w (name :: words) = .ret (w, [.line (.err ("usage:" ++ t.usage))], .returned) := by
  have hu := prusage_known known
  simp only [tranCommands, List.mem_cons, List.not_mem_nil, or_false, Prod.mk.injEq] at cmd
  rw [← hu]
  match words, wrong with
  | [], h => simp at h
  | [a], h' =>
    obtain ⟨ha, ht⟩ : a ≠ "?" ∧
        (name = "tran" → a ∉ ["get", "getrm", "getdir", "put", "putblind", "putrm", "rm", "rmdir"]) := by
      rcases h' with ⟨b, hb, h1, h2⟩ | h' | h'
      · cases hb; exact ⟨h1, h2⟩
      · simp at h'
      · simp at h'
    rcases cmd with ⟨rfl, rfl⟩ | ⟨rfl, rfl⟩ | ⟨rfl, rfl⟩ | ⟨rfl, rfl⟩ | ⟨rfl, rfl⟩ | ⟨rfl, rfl⟩ | ⟨rfl, rfl⟩ |
      ⟨rfl, rfl⟩ | ⟨rfl, rfl⟩
    case inr.inr.inr.inr.inr.inl => exact absurd rfl other
    case inr.inr.inr.inr.inr.inr.inr.inl =>
      simp only [cmdTran]
      rw [if_neg ha, if_neg (show a ∉ tTypes from ht rfl)]; rfl
    all_goals
      simp only [cmdGet, cmdGetdir, cmdTake, cmdFetch, cmdPut, cmdPutblind, cmdDelete, cmdSend, cmdFiles, if_neg ha]
      rfl
  | [a, b], h' =>
    have hn : name = "tran" ∨ name = "files" := by
      rcases h' with ⟨b, hb, h1, h2⟩ | h' | h'
      · cases hb
      · simp at h'
      · exact h'.2
    rcases cmd with ⟨rfl, rfl⟩ | ⟨rfl, rfl⟩ | ⟨rfl, rfl⟩ | ⟨rfl, rfl⟩ | ⟨rfl, rfl⟩ | ⟨rfl, rfl⟩ | ⟨rfl, rfl⟩ |
      ⟨rfl, rfl⟩ | ⟨rfl, rfl⟩ <;>
      first
        | exact absurd hn (by decide)
        | rfl
  | _ :: _ :: _ :: _, _ =>
    rcases cmd with ⟨rfl, rfl⟩ | ⟨rfl, rfl⟩ | ⟨rfl, rfl⟩ | ⟨rfl, rfl⟩ | ⟨rfl, rfl⟩ | ⟨rfl, rfl⟩ | ⟨rfl, rfl⟩ |
      ⟨rfl, rfl⟩ | ⟨rfl, rfl⟩ <;>
      first
        | exact absurd rfl other
        | rfl

example (E : CmdEnv) (w : TranWorld) :=
  C117_transfers_partial "put" cmdPut (by simp [tranCommands]) { E with H := [("put", ⟨"send a file", "put <host> <file>"⟩)] } w
    ["a", "b", "c"] ⟨"send a file", "put <host> <file>"⟩ rfl (by decide) (.inr (.inl (by decide)))

/-- **C117** (partial: of `history` and `peers` not with one word, and not `help`.) The other commands say their usage in
the error window and do nothing, when they get words they do not take; `peers` adds its help. Missing: see
`C117_counterexample`. -/
theorem C117_others_partial (V : PeerView) (srt : TextSort) (H : CmdTable) (ps : List Peer) (n : Int) (x : String)
    (words : List String) (usage : String → String) (help : String → String)
    (known : ∀ c ∈ ["history", "home", "exit", "clear", "ls", "peers"], ∃ t, assoc c H = some t ∧ usage c = t.usage ∧
      help c = t.help) :
    (1 < words.length → cmdHistory H (x :: words) = [.err ("usage:" ++ usage "history")]) ∧
    (words ≠ [] → words ≠ ["?"] → cmdHome H (x :: words) = [.err ("usage:" ++ usage "home")]) ∧
    (words ∉ [[], ["?"], ["0"], ["1"]] → cmdExit H n (x :: words) = (n, [.err ("usage:" ++ usage "exit")])) ∧
    cmdLs H (x :: words) = .ret [.err ("usage:" ++ usage "ls")] ∧
    (1 < words.length → cmdPeers V srt H ps (x :: words) =
      [.msg ("peers:" ++ help "peers"), .err ("usage:" ++ usage "peers")]) ∧
    (words ≠ ["?"] → (∃ w ∈ words, w ∉ ["msg", "err", "packet"]) →
      (cmdClear H (x :: words)).getLast? = some (.print (.err ("usage:" ++ usage "clear")))) ∧
    ((∀ w ∈ words, w ∈ ["msg", "err", "packet"]) → ∀ s, ClearAct.print (.err s) ∉ cmdClear H (x :: words)) := by
  have hk : ∀ c ∈ ["history", "home", "exit", "clear", "ls", "peers"], prusage H c = "usage:" ++ usage c := by
    intro c hc
    obtain ⟨t, h1, h2, _⟩ := known c hc
    rw [prusage_known h1, h2]
  have hp : prhelp H "peers" = "peers:" ++ help "peers" := by
    obtain ⟨t, h1, _, h3⟩ := known "peers" (by decide)
    unfold prhelp; rw [h1, h3]; rfl
  have clr : ∀ w, clearable w = true ↔ w ∈ ["msg", "err", "packet"] := by
    intro w; simp [clearable]
  have bad : ∀ l : List String, (∃ w ∈ l, w ∉ ["msg", "err", "packet"]) →
      (clearLoop H l).getLast? = some (.print (.err (prusage H "clear"))) := by
    intro l
    induction l with
    | nil => rintro ⟨w, h, _⟩; cases h
    | cons a l ih =>
      rintro ⟨w, hw, hb⟩
      unfold clearLoop
      split
      · rename_i hc
        have ha := (clr a).1 hc
        have := ih ⟨w, (List.mem_cons.1 hw).resolve_left (by rintro rfl; exact hb ha), hb⟩
        rw [List.getLast?_cons_of_ne_nil (by simp), List.getLast?_cons_of_ne_nil, this]
        intro h; rw [h] at this; cases this
      · rfl
  have good : ∀ l : List String, (∀ w ∈ l, w ∈ ["msg", "err", "packet"]) → ∀ s, ClearAct.print (.err s) ∉ clearLoop H l := by
    intro l
    induction l with
    | nil => intro _ s h; cases h
    | cons a l ih =>
      intro hl s h
      unfold clearLoop at h
      rw [if_pos ((clr a).2 (hl a (by simp)))] at h
      simp only [List.mem_cons, reduceCtorEq, ClearAct.print.injEq, false_or] at h
      exact ih (fun w hw => hl w (by simp [hw])) s h
  rw [← hk "history" (by decide), ← hk "home" (by decide), ← hk "exit" (by decide), ← hk "ls" (by decide),
    ← hk "peers" (by decide), ← hk "clear" (by decide), ← hp]
  refine ⟨?_, ?_, ?_, rfl, ?_, ?_, ?_⟩
  · intro h
    match words, h with
    | _ :: _ :: _, _ => rfl
  · intro h1 h2
    match words with
    | [] => exact absurd rfl h1
    | [a] => simp only [cmdHome]; rw [if_neg (fun h => h2 (by rw [h]))]
    | _ :: _ :: _ => rfl
  · intro h
    simp only [List.mem_cons, List.not_mem_nil, or_false, not_or] at h
    match words with
    | [] => exact absurd rfl h.1
    | [a] =>
      simp only [cmdExit]
      rw [if_neg (fun e => h.2.1 (by rw [e])), if_neg (fun e => h.2.2.1 (by rw [e])), if_neg (fun e => h.2.2.2 (by rw [e]))]
    | _ :: _ :: _ => rfl
  · intro h
    match words, h with
    | _ :: _ :: _, _ => rfl
  · intro h1 h2
    match words with
    | [] => obtain ⟨w, h, _⟩ := h2; cases h
    | [a] =>
      obtain ⟨w, hw, hb⟩ := h2
      have : w = a := by simpa using hw
      subst this
      simp only [cmdClear]
      rw [if_neg (fun e => h1 (by rw [e])), if_neg (fun e => hb ((clr w).1 e))]
      rfl
    | a :: b :: l => exact bad _ h2
  · intro h s
    match words with
    | [] => simp [cmdClear]
    | [a] =>
      have ha := h a (by simp)
      simp only [cmdClear]
      rw [if_neg (by rintro rfl; revert ha; decide), if_pos ((clr a).2 ha)]
      simp
    | a :: b :: l => exact good _ h s

/-- **C117** `descriptor` with a word it does not know says its usage and then, as if it had been set, the descriptor
size; `timeout` with `off` and an unknown timer says nothing, and so does `peers` with a word; `history` with a word does
what it does without; `help` with a word describes `help`, not the command named; and `give` asks for the usage of
`putrm`, which is not a command, so it says "Invalid Command" when there is no entry of that name. -/
theorem C117_counterexample (V : PeerView) (srt : TextSort) (H : CmdTable) (c : Cliflags) (ps : List Peer) (E : CmdEnv)
    (w : TranWorld) (a : String) (question : a ≠ "?") :
    (a ∉ ["auto", "d16", "d32", "d64", "d128"] → (settingCmd H c ["descriptor", a]).2 =
      [.err ("usage:" ++ prusage H "descriptor"), .msg ("Descriptor size is " ++ c.flag "descriptor")]) ∧
    (a ∉ ["metadata", "request", "status", "datacounter", "transfer"] → settingCmd H c ["timeout", a, "off"] = (c, [])) ∧
    cmdPeers V srt H ps ["peers", a] = [] ∧
    cmdHistory H ["history", a] = cmdHistory H ["history"] ∧
    (∀ s ∈ cmdHelp srt H ["help", a], ∃ t, ("help", t) ∈ H ∧ s = .msg ("help - " ++ t.help)) ∧
    (assoc "putrm" E.H = none → cmdGive E w ["give", a] = .ret (w, [.line (.err "Invalid Command")], .returned)) := by
  refine ⟨?_, ?_, ?_, ?_, ?_, ?_⟩
  · intro h
    simp only [List.mem_cons, List.not_mem_nil, or_false, not_or] at h
    change (cmdDescriptor H c ["descriptor", a]).2 = _
    simp only [cmdDescriptor]
    rw [if_neg question, if_neg h.1, if_neg h.2.1, if_neg h.2.2.1, if_neg h.2.2.2.1, if_neg h.2.2.2.2]
    rfl
  · intro h
    simp only [List.mem_cons, List.not_mem_nil, or_false, not_or] at h
    change cmdTimeout H c ["timeout", a, "off"] = _
    simp only [cmdTimeout]
    rw [show (atoi "off").filter (fun x => decide (x ≥ 0)) = none by decide +kernel]
    simp only [if_true]
    rw [if_neg h.1, if_neg h.2.1, if_neg h.2.2.1, if_neg h.2.2.2.1, if_neg h.2.2.2.2]
  · simp only [cmdPeers]; rw [if_neg question]
  · simp only [cmdHistory]; rw [if_neg question]
  · intro s hs
    simp only [cmdHelp, if_neg question, cmdHelp.own, List.mem_map, List.mem_filter, decide_eq_true_eq] at hs
    obtain ⟨⟨k, t⟩, ⟨hm, hk⟩, rfl⟩ := hs
    dsimp only at hk
    subst hk
    exact ⟨t, hm, rfl⟩
  · intro h
    simp only [cmdGive]
    rw [if_neg question]
    unfold usageReply prusage
    rw [h]

/-! ## The hypotheses are met -/

example : SaysUsage "bcount count" (settingCmd [("bcount", ⟨"bcount count", "x"⟩)] shippedSettings ["bcount", "-1"]).2 :=
  C117_settings_partial _ _ _ ["-1"] ⟨"bcount count", "x"⟩ rfl (by decide)
    (by
      intro ws h
      generalize hb : ["bcount", "-1"] = l at h
      cases h with
      | word h =>
        obtain ⟨rfl, rfl⟩ : _ ∧ _ := by simpa [eq_comm] using hb
        simp [wordTable] at h
      | number _ ht pos =>
        obtain ⟨-, rfl⟩ : _ ∧ _ := by simpa [eq_comm] using hb
        have := (atoi_iff _ _).2 ht
        rw [show atoi "-1" = some (-1) by decide +kernel] at this
        cases this; omega
      | _ => simp at hb)
    (by unfold Question; decide) (by decide) (fun h => absurd h (by decide))

end Saratoga
