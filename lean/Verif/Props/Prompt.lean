import Verif.Lemmas.Prompt
/-!
# C54, C72: command lines (`sarwin/sarwin.go`, Run and GetLine)
-/
namespace Saratoga

/-! ## C54 -/

/-- **C54** What a line with at least one word comes to: the first word is looked up, and the handler gets
all the words in order. Missing in the claim: lines of blanks (`C54_counterexample`). -/
theorem C54_runs_partial (commands handlers : List String) (line : String) (w : List Char)
    (ws : List (List Char)) (reads : Reads line.toList (w :: ws)) :
    runLine commands handlers line =
      .ret (if String.ofList w ∈ commands ∧ String.ofList w ∈ handlers then
          .started (String.ofList w) ((w :: ws).map String.ofList)
        else .invalid (String.ofList w) (if String.ofList w ∈ commands then 2 else 1)) := by
  have ne : line ≠ "" := by
    rintro rfl
    have h1 := fields_reads reads
    have h2 : fields "".toList = [] := rfl
    rw [h2] at h1; cases h1
  unfold runLine
  rw [if_neg ne, fields_trim, fields_reads reads]
  simp only [List.map_cons]
  by_cases h1 : String.ofList w ∈ commands
  · by_cases h2 : String.ofList w ∈ handlers <;> simp [h1, h2]
  · simp [h1]

example : runLine shippedCommands cmdHandlers " put  a b" = .ret (.started "put" ["put", "a", "b"]) :=
  C54_runs_partial shippedCommands cmdHandlers " put  a b" "put".toList ["a".toList, "b".toList]
    (.cons (b := " ".toList) (w := "put".toList) (s := "  ".toList) (by decide) (by decide) (by decide) (by decide)
      (.cons (b := []) (w := "a".toList) (s := " ".toList) (by decide) (by decide) (by decide) (by decide)
        (.last (b := []) (w := "b".toList) (e := []) (by decide) (by decide) (by decide))))

/-- **C54** The lines that crash the program are exactly those of blanks, at least one; none ends it. -/
theorem C54_exact (commands handlers : List String) (line : String) :
    (runLine commands handlers line = .panic ↔ line ≠ "" ∧ Blank line.toList) ∧
    runLine commands handlers line ≠ .fatal := by
  obtain ⟨ws, h⟩ := reads_exists line.toList
  match ws, h with
  | [], h =>
    have hb := reads_nil_iff.1 h
    unfold runLine
    rw [fields_trim, fields_nil_iff.2 hb]
    by_cases e : line = ""
    · simp [e]
    · simp [e, hb]
  | w :: ws, h =>
    rw [C54_runs_partial commands handlers line w ws h]
    refine ⟨⟨fun h' => (by cases h'), fun h' => ?_⟩, (by intro h'; cases h')⟩
    have := fields_nil_iff.2 h'.2
    rw [fields_reads h] at this
    cases this

/-- **C54** Every line reads as exactly one list of words. -/
theorem C54_words_unique (l : List Char) : ∃ ws, Reads l ws ∧ ∀ vs, Reads l vs → vs = ws :=
  ⟨fields l, reads_fields l, fun _ h => (fields_reads h).symm⟩

/-- **C54** A blank typed at the shipped prompt panics. -/
theorem C54_counterexample :
    runLine shippedCommands cmdHandlers " " = .panic ∧
    getLine shippedCommands cmdHandlers (promptLine "saratoga" 0 " ") = .panic := by decide +kernel

/-- **C54** Every command of the shipped configuration has a handler, and the other way round. -/
theorem C54_shipped_handled (w : String) : w ∈ shippedCommands ↔ w ∈ cmdHandlers := Iff.rfl

/-- **C54** The line window: a line without colon panics, so does one with only blanks after its first
colon; the words `exit` and `quit` alone end the process; nothing else does. -/
theorem C54_getLine_exact (commands handlers : List String) (line : String) :
    (getLine commands handlers line = .panic ↔
      ':' ∉ line.toList ∨ ∃ p t, line.toList = p ++ ':' :: t ∧ ':' ∉ p ∧ t ≠ [] ∧ Blank t) ∧
    (getLine commands handlers line = .fatal ↔
      ∃ p, ':' ∉ p ∧ (line.toList = p ++ ":exit".toList ∨ line.toList = p ++ ":quit".toList)) := by
  by_cases hc : ':' ∈ line.toList
  · obtain ⟨p, t, e, hp⟩ := List.eq_append_cons_of_mem hc
    have uniq : ∀ q u, line.toList = q ++ ':' :: u → ':' ∉ q → u = t := by
      intro q u h1 h2
      have := afterColon_some (t := u) h2
      rw [← h1, e, afterColon_some hp] at this
      cases this; rfl
    have ha : afterColon line.toList = some t := by rw [e]; exact afterColon_some hp
    have te : String.ofList t = "" ↔ t = [] := by
      constructor
      · intro h; have := congrArg String.toList h; simpa using this
      · rintro rfl; rfl
    have tq : (String.ofList t = "exit" ∨ String.ofList t = "quit") ↔
        ∃ q, ':' ∉ q ∧ (line.toList = q ++ ":exit".toList ∨ line.toList = q ++ ":quit".toList) := by
      constructor
      · intro h
        have h : t = "exit".toList ∨ t = "quit".toList :=
          h.imp (fun h => by rw [← h]; simp) (fun h => by rw [← h]; simp)
        refine ⟨p, hp, h.imp (fun h => ?_) (fun h => ?_)⟩ <;> (rw [e, h]; rfl)
      · rintro ⟨q, hq, h | h⟩
        · left; rw [← uniq q "exit".toList h hq]; simp
        · right; rw [← uniq q "quit".toList h hq]; simp
    rw [← tq]
    have pan : (':' ∉ line.toList ∨ ∃ p t, line.toList = p ++ ':' :: t ∧ ':' ∉ p ∧ t ≠ [] ∧ Blank t) ↔
        t ≠ [] ∧ Blank t := by
      constructor
      · rintro (h | ⟨q, u, h1, h2, h3, h4⟩)
        · exact absurd hc h
        · rw [← uniq q u h1 h2]; exact ⟨h3, h4⟩
      · intro h; exact .inr ⟨p, t, e, hp, h⟩
    rw [pan]
    unfold getLine
    rw [ha]
    simp only
    by_cases h0 : String.ofList t = ""
    · rw [if_pos h0]
      have : t = [] := te.1 h0
      subst this
      simp
    · rw [if_neg h0]
      have t0 : t ≠ [] := fun h => h0 (te.2 h)
      by_cases hq : String.ofList t = "exit" ∨ String.ofList t = "quit"
      · rw [if_pos hq]
        refine ⟨⟨(by intro h; cases h), fun h => ?_⟩, by simp [hq]⟩
        exfalso
        have : t = "exit".toList ∨ t = "quit".toList :=
          hq.imp (fun h => by rw [← h]; simp) (fun h => by rw [← h]; simp)
        rcases this with rfl | rfl
        · exact absurd h.2 (by decide)
        · exact absurd h.2 (by decide)
      · rw [if_neg hq]
        have ex := C54_exact commands handlers (String.ofList t)
        have e2 : (String.ofList t).toList = t := by simp
        rw [e2] at ex
        refine ⟨ex.1.trans ⟨fun h => ⟨t0, h.2⟩, fun h => ⟨h0, h.2⟩⟩, ⟨fun h => absurd h ex.2, fun h => absurd h hq⟩⟩
  · have ha : afterColon line.toList = none := afterColon_none.2 hc
    unfold getLine
    rw [ha]
    refine ⟨⟨fun _ => .inl hc, fun _ => rfl⟩, ⟨(by intro h; cases h), ?_⟩⟩
    rintro ⟨p, -, h | h⟩ <;> exact absurd (by rw [h]; simp) hc

/-! ## C72 -/

/-- **C72** With a prompt that has no colon in it, what is typed is what runs, whatever the number in the
prompt: nothing for an empty line, the end of the process for `exit` and `quit`, otherwise `Run`. Missing:
prompts with a colon (`C72_counterexample`). -/
theorem C72_typed_partial (commands handlers : List String) (prompt : String) (plain : ':' ∉ prompt.toList)
    (n : Nat) (typed : String) :
    getLine commands handlers (promptLine prompt n typed) =
      if typed = "" then .ret .nothing
      else if typed = "exit" ∨ typed = "quit" then .fatal
      else runLine commands handlers typed := by
  have e : (promptLine prompt n typed).toList =
      (prompt ++ "[" ++ toString n ++ "]").toList ++ ':' :: typed.toList := by
    unfold promptLine; simp
  have hn : ':' ∉ (prompt ++ "[" ++ toString n ++ "]").toList := by
    have hd : ':' ∉ (toString n).toList := by
      rw [Nat.toString_eq_ofList_toDigits, String.toList_ofList]
      intro h
      have := Nat.isDigit_of_mem_toDigits (b := 10) (by omega) (by omega) h
      exact absurd this (by decide)
    simp only [String.toList_append, List.mem_append, not_or]
    exact ⟨⟨⟨plain, by decide⟩, hd⟩, by decide⟩
  unfold getLine
  rw [e, afterColon_some hn]
  simp

example := C72_typed_partial shippedCommands cmdHandlers "saratoga" (by decide) 12 "put a b"

/-- **C72** The configuration allows a prompt with a colon; then the end of the prompt is run as a command
every time, and the typed `exit` is not seen. -/
theorem C72_counterexample :
    getLine shippedCommands cmdHandlers (promptLine "node:a" 3 "") = .ret (.invalid "a[3]:" 1) ∧
    getLine shippedCommands cmdHandlers (promptLine "node:a" 3 "exit") = .ret (.invalid "a[3]:exit" 1) := by
  decide +kernel

/-! ## The hypotheses are met -/

example : Reads "  put 10.0.0.1\tfile ".toList ["put".toList, "10.0.0.1".toList, "file".toList] :=
  .cons (b := "  ".toList) (w := "put".toList) (s := " ".toList) (by decide) (by decide) (by decide) (by decide)
    (.cons (b := []) (w := "10.0.0.1".toList) (s := "\t".toList) (by decide) (by decide) (by decide) (by decide)
      (.last (b := []) (w := "file".toList) (e := " ".toList) (by decide) (by decide) (by decide)))
example : getLine shippedCommands cmdHandlers (promptLine "saratoga" 12 " put 10.0.0.1 f ") =
    .ret (.started "put" ["put", "10.0.0.1", "f"]) := by decide +kernel
example : getLine shippedCommands cmdHandlers (promptLine "saratoga" 12 " exit") =
    .ret (.started "exit" ["exit"]) := by decide +kernel
example : ':' ∉ "saratoga".toList := by decide

end Saratoga
