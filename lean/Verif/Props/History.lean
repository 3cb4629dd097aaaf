import Verif.Model.History
import Verif.Props.Console
import Verif.Props.Help
/-!
# C144: the history of commands
-/
namespace Saratoga

theorem press_adds {commands handlers : List String} {c d : Console} {k : ConsoleKey} {rs : List RunEnd}
    (h : c.press commands handlers k = .ret (d, rs)) :
    (c.adds k).map (runLine commands handlers) = rs.map .ret ∧
      ∀ x ∈ c.adds k, x ≠ "" ∧ x ≠ "exit" ∧ x ≠ "quit" := by
  cases k with
  | enter =>
    simp only [Console.press, Console.enter] at h
    obtain ⟨⟨c1, rs1⟩, h1, h2⟩ := Out.bind_eq_ret h
    obtain ⟨r, hr, h1⟩ := Out.bind_eq_ret h1
    cases h2
    unfold getLine at hr
    rw [String.toList_ofList] at hr
    simp only [Console.adds, recorded]
    split at hr
    · cases hr
    · rename_i cs hcs
      rw [hcs]
      dsimp only at hr ⊢
      by_cases he : String.ofList cs = ""
      · rw [if_pos he] at hr ⊢
        cases hr
        rw [if_pos rfl] at h1
        cases h1
        exact ⟨rfl, fun x hx => absurd hx List.not_mem_nil⟩
      · rw [if_neg he] at hr ⊢
        by_cases hq : String.ofList cs = "exit" ∨ String.ofList cs = "quit"
        · rw [if_pos hq] at hr; cases hr
        · rw [if_neg hq] at hr
          rw [if_neg (runLine_something he hr)] at h1
          cases h1
          refine ⟨by simp [hr], fun x hx => ?_⟩
          rw [List.mem_singleton] at hx
          subst hx
          exact ⟨he, fun e => hq (.inl e), fun e => hq (.inr e)⟩
  | char ch => cases h; exact ⟨rfl, fun x hx => absurd hx List.not_mem_nil⟩
  | left => cases h; exact ⟨rfl, fun x hx => absurd hx List.not_mem_nil⟩
  | right => cases h; exact ⟨rfl, fun x hx => absurd hx List.not_mem_nil⟩
  | erase => cases h; exact ⟨rfl, fun x hx => absurd hx List.not_mem_nil⟩
  | up => cases h; exact ⟨rfl, fun x hx => absurd hx List.not_mem_nil⟩
  | down => cases h; exact ⟨rfl, fun x hx => absurd hx List.not_mem_nil⟩

/-- **C144** (partial: what is kept, not what is shown.) Whatever keys are pressed, the history is what it was followed
by exactly the lines that were run, in order: run once more, its entries start what was started. None is empty, `exit` or
`quit`. -/
theorem C144_kept_partial (commands handlers : List String) (keys : List ConsoleKey) :
    ∀ (c d : Console) (before : List String) (rs : List RunEnd), c.run commands handlers keys = .ret (d, rs) →
    ∃ new, c.history commands handlers before keys = before ++ new ∧
      new.map (runLine commands handlers) = rs.map .ret ∧ ∀ x ∈ new, x ≠ "" ∧ x ≠ "exit" ∧ x ≠ "quit" := by
  induction keys with
  | nil =>
    intro c d before rs h
    cases h
    exact ⟨[], by simp [Console.history], rfl, fun x hx => absurd hx List.not_mem_nil⟩
  | cons k ks ih =>
    intro c d before rs h
    obtain ⟨⟨c1, rs1⟩, h1, h2⟩ := Out.bind_eq_ret h
    obtain ⟨⟨c2, rs2⟩, h3, h4⟩ := Out.bind_eq_ret h2
    cases h4
    obtain ⟨a1, a2⟩ := press_adds h1
    obtain ⟨new, e1, e2, e3⟩ := ih c1 _ (before ++ c.adds k) rs2 h3
    refine ⟨c.adds k ++ new, ?_, by simp only [List.map_append, a1, e2], ?_⟩
    · simp only [Console.history, h1, e1, List.append_assoc]
    · intro x hx
      rcases List.mem_append.1 hx with hx | hx
      · exact a2 x hx
      · exact e3 x hx

example : ((Console.start "s" 3 40 5).run shippedCommands cmdHandlers
    (entryKeys "peers" ++ entryKeys "nonsense" ++ [.up, .enter])).returns := by decide +kernel

theorem history_types (commands handlers : List String) {prompt : String} {width height : Nat} {done : List String}
    (room : 0 < height) (before : List String) (rest : List Char) : ∀ typed : String,
    (promptLine prompt done.length typed).toList.length + rest.length < width → ∀ keys,
    (Console.entry prompt width height done typed).history commands handlers before (rest.map .char ++ keys) =
      (Console.entry prompt width height done (typed ++ String.ofList rest)).history commands handlers before keys := by
  induction rest with
  | nil => intro typed _ keys; simp
  | cons ch rest ih =>
    intro typed fits keys
    simp only [List.length_cons] at fits
    have hw := Console.entry_write (done := done) (prompt := prompt) (typed := typed) room ch
      (width := width) (by omega)
    rw [List.map_cons, List.cons_append]
    simp only [Console.history, Console.press, hw, Console.adds, List.append_nil]
    rw [ih (typed.push ch) (by rw [promptLine_push]; simp only [List.length_append, List.length_singleton]; omega) keys]
    rw [show typed.push ch ++ String.ofList rest = typed ++ String.ofList (ch :: rest) by
      apply String.toList_injective; simp]

/-- **C144** Commands typed one after another that fit into the window and can be run are the history, each as typed. -/
theorem C144_session_partial (commands handlers : List String) (prompt : String)
    (plain : ∀ c ∈ prompt.toList, c.utf8Size = 1 ∧ c ≠ ':') (width height : Nat) (room : 0 < height)
    (texts : List String)
    (first : (promptLine prompt 0 "").toList.length < width)
    (fits : ∀ i t, texts[i]? = some t → (promptLine prompt i t).toList.length < width ∧
      (promptLine prompt (i + 1) "").toList.length < width)
    (stays : ∀ t ∈ texts, t ≠ "" ∧ t ≠ "exit" ∧ t ≠ "quit" ∧ (runLine commands handlers t).returns) :
    (Console.start prompt 3 width height).history commands handlers [] (texts.flatMap entryKeys) = texts := by
  rw [Console.start_eq (fun c hc => (plain c hc).1) room first]
  have go : ∀ (texts done before : List String), (∀ i t, texts[i]? = some t →
      (promptLine prompt (done.length + i) t).toList.length < width ∧
      (promptLine prompt (done.length + i + 1) "").toList.length < width) →
      (∀ t ∈ texts, t ≠ "" ∧ t ≠ "exit" ∧ t ≠ "quit" ∧ (runLine commands handlers t).returns) →
      (Console.entry prompt width height done "").history commands handlers before (texts.flatMap entryKeys) =
        before ++ texts := by
    intro texts
    induction texts with
    | nil => intro done before _ _; simp [Console.history]
    | cons t ts ih =>
      intro done before hf ht
      have f0 := hf 0 t rfl
      rw [Nat.add_zero] at f0
      obtain ⟨t1, t2, t3, t4⟩ := ht t List.mem_cons_self
      obtain ⟨r, hr⟩ : ∃ r, runLine commands handlers t = .ret r := by
        cases h : runLine commands handlers t with
        | ret r => exact ⟨r, rfl⟩
        | fatal => rw [h] at t4; exact absurd t4 id
        | panic => rw [h] at t4; exact absurd t4 id
      simp only [List.flatMap_cons, entryKeys, List.append_assoc]
      rw [history_types commands handlers room before t.toList ""
        (by have := f0.1; rw [promptLine_toList] at this ⊢; simp only [List.length_append, List.length_cons, String.toList_empty, List.length_nil] at this ⊢; omega)]
      rw [String.ofList_toList, String.empty_append]
      show Console.history _ _ _ _ (.enter :: ts.flatMap entryKeys) = _
      have he := Console.entry_enter (done := done) (typed := t) (prompt := prompt) (width := width) plain room f0.2 t1 ⟨t2, t3⟩ hr
      have ha : (Console.entry prompt width height done t).adds .enter = [t] := by
        simp only [Console.adds, recorded]
        have e : (promptLine prompt done.length t).toList =
            (prompt ++ "[" ++ toString done.length ++ "]").toList ++ ':' :: t.toList := by
          unfold promptLine; simp
        have hn : ':' ∉ (prompt ++ "[" ++ toString done.length ++ "]").toList := by
          have hd : ':' ∉ (toString done.length).toList := by
            rw [Nat.toString_eq_ofList_toDigits, String.toList_ofList]
            intro h
            have := Nat.isDigit_of_mem_toDigits (b := 10) (by omega) (by omega) h
            exact absurd this (by decide)
          simp only [String.toList_append, List.mem_append, not_or]
          exact ⟨⟨⟨fun h => (plain _ h).2 rfl, by decide⟩, hd⟩, by decide⟩
        rw [Console.entry_line room, e, afterColon_some hn]
        simp only [String.ofList_toList]
        rw [if_neg t1]
      simp only [Console.history, he, ha]
      rw [ih (done ++ [t]) (before ++ [t]) (fun i u hu => by
          have := hf (i + 1) u (by simpa using hu)
          simp only [List.length_append, List.length_singleton]
          rw [show done.length + 1 + i = done.length + (i + 1) by omega]
          exact this) (fun u hu => ht u (List.mem_cons_of_mem _ hu))]
      simp
  have := go texts [] [] (fun i t h => by simpa using fits i t h) stays
  simpa using this

example : (∀ c ∈ "s".toList, c.utf8Size = 1 ∧ c ≠ ':') ∧ (promptLine "s" 0 "").toList.length < 40 ∧
    (promptLine "s" 0 "peers").toList.length < 40 ∧ (runLine shippedCommands cmdHandlers "peers").returns := by decide +kernel

/-- **C144** fails: `history` shows none of it, whatever was typed. -/
theorem C144_counterexample (H : CmdTable) (word : String) :
    cmdHistory H ["history"] = [.msg "History not implemented yet"] ∧
    (word ≠ "?" → cmdHistory H ["history", word] = [.msg "History not implemented yet"]) :=
  ⟨rfl, fun h => by simp only [cmdHistory]; rw [if_neg h]⟩

theorem history_append {commands handlers : List String} : ∀ {keys : List ConsoleKey} {c d : Console} {before : List String}
    {rs : List RunEnd}, c.run commands handlers keys = .ret (d, rs) → ∀ more,
    c.history commands handlers before (keys ++ more) =
      d.history commands handlers (c.history commands handlers before keys) more
  | [], c, d, before, rs, h, more => by cases h; rfl
  | k :: ks, c, d, before, rs, h, more => by
    obtain ⟨⟨c1, rs1⟩, h1, h2⟩ := Out.bind_eq_ret h
    obtain ⟨⟨c2, rs2⟩, h3, h4⟩ := Out.bind_eq_ret h2
    cases h4
    simp only [List.cons_append, Console.history, h1]
    exact history_append h3 more

/-- **C144** (partial: what is kept, not what is shown.) The line whose command ends the program is the last entry, and
the keys pressed after it add nothing. -/
theorem C144_last_partial (commands handlers : List String) (keys more : List ConsoleKey) (c d : Console)
    (before : List String) (rs : List RunEnd) (h : c.run commands handlers keys = .ret (d, rs)) (text : List Char)
    (line : afterColon d.line = some text) (something : String.ofList text ≠ "")
    (ends : ¬ (d.press commands handlers .enter).returns) :
    c.history commands handlers before (keys ++ .enter :: more) =
      c.history commands handlers before keys ++ [String.ofList text] := by
  rw [history_append h]
  have e : d.adds .enter = [String.ofList text] := by
    simp only [Console.adds, recorded, line]
    rw [if_neg something]
  simp only [Console.history, e]
  cases hp : d.press commands handlers .enter with
  | ret v => rw [hp] at ends; exact absurd trivial ends
  | fatal => rfl
  | panic => rfl

/-- `exit` is kept, though the program ends with it; the command typed after it is not. -/
example : (Console.start "s" 3 40 5).history shippedCommands cmdHandlers []
    (entryKeys "peers" ++ entryKeys "exit" ++ entryKeys "peers") = ["peers", "exit"] := by decide +kernel

/-- A line that is not understood is in the history too, and so is one that is run again. -/
example : (Console.start "s" 3 40 5).history shippedCommands cmdHandlers []
    (entryKeys "peers" ++ entryKeys "nonsense" ++ [.up, .enter]) = ["peers", "nonsense", "nonsense"] := by decide +kernel

end Saratoga
