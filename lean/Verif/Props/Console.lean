import Verif.Model.Console
import Verif.Props.Editing
import Verif.Lemmas.Bytes
/-!
# C116: commands one after another
-/
namespace Saratoga

/-! ## Specification -/

/-- The keys for a command: its characters and Enter. -/
def entryKeys (text : String) : List ConsoleKey := text.toList.map .char ++ [.enter]

/-- The window after these commands: their lines, numbered from `n`. -/
def sessionLines (prompt : String) : Nat → List String → List (List Char)
  | _, [] => []
  | n, t :: ts => (promptLine prompt n t).toList :: sessionLines prompt (n + 1) ts

/-! ## Lemmas -/

theorem sessionLines_length (prompt : String) (ts : List String) : ∀ n, (sessionLines prompt n ts).length = ts.length := by
  induction ts with
  | nil => exact fun _ => rfl
  | cons t ts ih => intro n; simp [sessionLines, ih]

theorem sessionLines_append (prompt : String) (ts us : List String) : ∀ n,
    sessionLines prompt n (ts ++ us) = sessionLines prompt n ts ++ sessionLines prompt (n + ts.length) us := by
  induction ts with
  | nil => exact fun _ => rfl
  | cons t ts ih =>
    intro n
    simp only [List.cons_append, sessionLines, ih, List.length_cons]
    rw [show n + 1 + ts.length = n + (ts.length + 1) by omega]

/-- The window with these commands done and this much of the next one typed. -/
def Console.entry (prompt : String) (width height : Nat) (done : List String) (typed : String) : Console where
  prompt := prompt
  ppad := 3
  width := width
  height := height
  lines := sessionLines prompt 0 done ++ [(promptLine prompt done.length typed).toList]
  oy := done.length + 1 - height
  cx := (promptLine prompt done.length typed).toList.length
  cy := done.length - (done.length + 1 - height)
  curline := done.length

variable {prompt : String} {width height : Nat} {done : List String} {typed : String}

theorem Console.entry_length : (Console.entry prompt width height done typed).lines.length = done.length + 1 := by
  simp [Console.entry, sessionLines_length]

theorem Console.entry_row (room : 0 < height) :
    (Console.entry prompt width height done typed).oy + (Console.entry prompt width height done typed).cy = done.length := by
  simp only [Console.entry]; omega

theorem Console.entry_line (room : 0 < height) :
    (Console.entry prompt width height done typed).line = (promptLine prompt done.length typed).toList := by
  rw [Console.line, Console.entry_row room]
  simp only [Console.entry]
  rw [List.getD_eq_getElem?_getD, List.getElem?_append_right (by rw [sessionLines_length]; exact Nat.le_refl _),
    sessionLines_length, Nat.sub_self]
  rfl

theorem Console.entry_draw : (Console.entry prompt width height done typed).draw = Console.entry prompt width height done typed := by
  unfold Console.draw
  rw [Console.entry_length]
  split
  · rfl
  · rfl

theorem promptLine_push (prompt : String) (n : Nat) (typed : String) (ch : Char) :
    (promptLine prompt n (typed.push ch)).toList = (promptLine prompt n typed).toList ++ [ch] := by
  simp [promptLine]

theorem Console.entry_write (room : 0 < height) (ch : Char)
    (fits : (promptLine prompt done.length typed).toList.length + 1 < width) :
    ((Console.entry prompt width height done typed).write ch).draw = Console.entry prompt width height done (typed.push ch) := by
  have e : (Console.entry prompt width height done typed).write ch = Console.entry prompt width height done (typed.push ch) := by
    have hif : (Console.entry prompt width height done typed).cx + 1 < (Console.entry prompt width height done typed).width :=
      fits
    unfold Console.write
    dsimp only
    rw [if_pos hif, Console.entry_row room, Console.entry_line room, Console.entry_length, Nat.sub_self]
    simp only [Console.entry]
    rw [promptLine_push]
    congr 1
    · rw [List.replicate_zero, List.append_nil, List.set_append_right _ _ (by rw [sessionLines_length]; exact Nat.le_refl _),
        sessionLines_length, Nat.sub_self, Nat.add_sub_cancel_left, List.set_append_right _ _ (Nat.le_refl _), Nat.sub_self]
      rfl
    · simp
  rw [e, Console.entry_draw]

theorem Console.run_quiet {commands handlers : List String} {c d : Console} {k : ConsoleKey}
    (h : c.press commands handlers k = .ret (d, [])) (ks : List ConsoleKey) :
    c.run commands handlers (k :: ks) = d.run commands handlers ks := by
  simp only [Console.run, h, bind, Out.bind]
  cases d.run commands handlers ks <;> rfl

theorem Console.run_one {commands handlers : List String} {c d : Console} {k : ConsoleKey} {r : RunEnd}
    (h : c.press commands handlers k = .ret (d, [r])) {ks : List ConsoleKey} {e : Console} {rs : List RunEnd}
    (hr : d.run commands handlers ks = .ret (e, rs)) :
    c.run commands handlers (k :: ks) = .ret (e, r :: rs) := by
  simp only [Console.run, h, hr, bind, Out.bind]
  rfl

theorem Console.entry_types (commands handlers : List String) (room : 0 < height) (rest : List Char) : ∀ typed : String,
    (promptLine prompt done.length typed).toList.length + rest.length < width → ∀ keys,
    (Console.entry prompt width height done typed).run commands handlers (rest.map .char ++ keys) =
      (Console.entry prompt width height done (typed ++ String.ofList rest)).run commands handlers keys := by
  induction rest with
  | nil => intro typed _ keys; simp
  | cons ch rest ih =>
    intro typed fits keys
    simp only [List.length_cons] at fits
    have hw := Console.entry_write (done := done) (prompt := prompt) (typed := typed) room ch
      (width := width) (by omega)
    rw [List.map_cons, List.cons_append, Console.run_quiet (d := .entry prompt width height done (typed.push ch))
      (by rw [Console.press, hw]), ih (typed.push ch) (by rw [promptLine_push]; simp only [List.length_append, List.length_singleton]; omega) keys]
    rw [show typed.push ch ++ String.ofList rest = typed ++ String.ofList (ch :: rest) by
      apply String.toList_injective; simp]

theorem Console.entry_plen (plain : ∀ c ∈ prompt.toList, c.utf8Size = 1) :
    (Console.entry prompt width height done typed).plen = ((promptLine prompt done.length "").toList.length : Int) := by
  have := (promptlen_eq plain done.length 3).1
  simp only [Console.plen, Console.entry]
  omega

theorem Console.tryCursor_in {c : Console} {x y : Nat} (hx : x < c.width) (hy : y < c.height) :
    c.tryCursor x y = { c with cx := x, cy := y } := by
  unfold Console.tryCursor Console.setCursor
  rw [if_neg (by omega)]
  simp

theorem Console.tryCursor_out {c : Console} {x y : Int} (hy : (c.height : Int) ≤ y) : c.tryCursor x y = c := by
  unfold Console.tryCursor Console.setCursor
  rw [if_pos (.inr (.inr (.inr hy)))]
  rfl

/-- What the new prompt does when the cursor is on the last line. -/
theorem Console.reprompt_eq {c : Console} {len : Nat} (row : c.oy + c.cy = c.curline)
    (last : c.lines.length = c.curline + 1) (inside : c.cy < c.height)
    (hlen : promptlen c.prompt (c.curline + 1) c.ppad = len) (fits : len < c.width) :
    c.reprompt =
      let d := Console.draw { c with
        curline := c.curline + 1
        cx := len
        cy := if c.cy + 1 < c.height then c.cy + 1 else c.cy }
      { d with lines := d.lines ++ [(promptLine c.prompt (c.curline + 1) "").toList] } := by
  unfold Console.reprompt
  rw [if_pos row]
  dsimp only
  have h1 : ({ c with curline := c.curline + 1 } : Console).plen = len := hlen
  have h2 : ({ c with curline := c.curline + 1 } : Console).tryCursor
      ({ c with curline := c.curline + 1 } : Console).plen c.cy =
      { c with curline := c.curline + 1, cx := len } := by
    rw [h1]
    exact Console.tryCursor_in (c := { c with curline := c.curline + 1 }) fits inside
  rw [h2]
  have h3 : ({ c with curline := c.curline + 1, cx := len } : Console).down =
      { c with curline := c.curline + 1, cx := len } := by
    unfold Console.down
    rw [if_pos (by dsimp only; omega)]
  rw [h3]
  have h4 : ({ c with curline := c.curline + 1, cx := len } : Console).plen = len := hlen
  rw [h4]
  have h5 : ({ c with curline := c.curline + 1, cx := len } : Console).tryCursor len ((c.cy : Int) + 1) =
      { c with
        curline := c.curline + 1
        cx := len
        cy := if c.cy + 1 < c.height then c.cy + 1 else c.cy } := by
    split
    · next h =>
      exact Console.tryCursor_in (c := { c with curline := c.curline + 1, cx := len }) (y := c.cy + 1) fits h
    · exact Console.tryCursor_out (by dsimp only; omega)
  rw [h5]
  have h6 : ∀ d : Console, d.draw.prompt = d.prompt ∧ d.draw.curline = d.curline := by
    intro d; unfold Console.draw; split <;> exact ⟨rfl, rfl⟩
  rw [(h6 _).1, (h6 _).2]

/-- A new prompt. -/
theorem Console.entry_prompt (plain : ∀ c ∈ prompt.toList, c.utf8Size = 1) (room : 0 < height)
    (fits : (promptLine prompt (done.length + 1) "").toList.length < width) :
    (Console.entry prompt width height done typed).reprompt.draw = Console.entry prompt width height (done ++ [typed]) "" := by
  have hp := (promptlen_eq plain (done.length + 1) 3).1
  rw [show (3 : Int) - 3 = 0 from rfl, Int.add_zero] at hp
  rw [Console.reprompt_eq (c := .entry prompt width height done typed) (Console.entry_row room) Console.entry_length
    (by simp only [Console.entry]; omega) hp fits]
  have hd : ∀ d : Console, d.lines.length = done.length + 1 → d.oy = done.length + 1 - d.height → d.draw = d := by
    intro d h1 h2
    unfold Console.draw
    split
    · rw [h1, ← h2]
    · rfl
  dsimp only
  rw [hd { (Console.entry prompt width height done typed) with
      cx := (promptLine prompt (done.length + 1) "").toList.length
      cy := if (Console.entry prompt width height done typed).cy + 1 < (Console.entry prompt width height done typed).height
        then (Console.entry prompt width height done typed).cy + 1 else (Console.entry prompt width height done typed).cy
      curline := (Console.entry prompt width height done typed).curline + 1 }
    (Console.entry_length (prompt := prompt) (width := width) (height := height) (typed := typed)) rfl]
  have : (if (Console.entry prompt width height done typed).cy + 1 < (Console.entry prompt width height done typed).height
      then (Console.entry prompt width height done typed).cy + 1 else (Console.entry prompt width height done typed).cy) =
      done.length + 1 - (done.length + 1 + 1 - height) := by
    split <;> simp only [Console.entry] at * <;> omega
  rw [this]
  unfold Console.draw
  simp only [Console.entry, List.length_append, sessionLines_length, List.length_singleton, sessionLines_append,
    sessionLines, Nat.zero_add]
  split
  · rfl
  · rw [show done.length + 1 - height = done.length + 1 + 1 - height by omega]

theorem runLine_something {commands handlers : List String} {typed : String} {r : RunEnd} (some_ : typed ≠ "")
    (runs : runLine commands handlers typed = .ret r) : r ≠ .nothing := by
  intro h
  rw [h] at runs
  unfold runLine at runs
  rw [if_neg some_] at runs
  split at runs
  · cases runs
  · split at runs
    · split at runs <;> cases runs
    · cases runs

/-- Enter on a command that is run. -/
theorem Console.entry_enter {commands handlers : List String} (plain : ∀ c ∈ prompt.toList, c.utf8Size = 1 ∧ c ≠ ':')
    (room : 0 < height) (fits : (promptLine prompt (done.length + 1) "").toList.length < width) {r : RunEnd}
    (some_ : typed ≠ "") (stays : typed ≠ "exit" ∧ typed ≠ "quit") (runs : runLine commands handlers typed = .ret r) :
    (Console.entry prompt width height done typed).press commands handlers .enter =
      .ret (Console.entry prompt width height (done ++ [typed]) "", [r]) := by
  have hg : getLine commands handlers (String.ofList (Console.entry prompt width height done typed).line) = .ret r := by
    rw [Console.entry_line room, String.ofList_toList,
      C72_typed_partial commands handlers prompt (fun h => (plain _ h).2 rfl) done.length typed, if_neg some_,
      if_neg (by simp [stays]), runs]
  have hr : r ≠ .nothing := runLine_something some_ runs
  simp only [Console.press, Console.enter, hg, bind, Out.bind, if_neg hr, pure]
  rw [Console.entry_prompt (fun c hc => (plain c hc).1) room fits]

/-- The first prompt. -/
theorem Console.start_eq (plain : ∀ c ∈ prompt.toList, c.utf8Size = 1) (room : 0 < height)
    (fits : (promptLine prompt 0 "").toList.length < width) :
    Console.start prompt 3 width height = Console.entry prompt width height [] "" := by
  have hp := (promptlen_eq plain 0 3).1
  rw [show (3 : Int) - 3 = 0 from rfl, Int.add_zero] at hp
  unfold Console.start
  dsimp only
  have h1 : (Console.mk prompt 3 width height [(promptLine prompt 0 "").toList] 0 0 0 0).plen =
    ((promptLine prompt 0 "").toList.length : Nat) := hp
  rw [h1]
  have h2 := Console.tryCursor_in (c := Console.mk prompt 3 width height [(promptLine prompt 0 "").toList] 0 0 0 0)
    (x := (promptLine prompt 0 "").toList.length) (y := 0) fits room
  rw [show ((0 : Nat) : Int) = 0 from rfl] at h2
  rw [h2]
  unfold Console.draw
  rw [if_neg (by simp only [List.length_singleton]; omega)]
  simp only [Console.entry, sessionLines, List.length_nil, List.nil_append]
  rw [show 0 + 1 - height = 0 by omega]

theorem Console.session {commands handlers : List String} (plain : ∀ c ∈ prompt.toList, c.utf8Size = 1 ∧ c ≠ ':')
    (room : 0 < height) {keys : List ConsoleKey} {e : Console} {last : List RunEnd} (texts : List String) :
    ∀ (done : List String) (_ : ∀ i t, texts[i]? = some t →
      (promptLine prompt (done.length + i) t).toList.length < width ∧
      (promptLine prompt (done.length + i + 1) "").toList.length < width)
    (_ : ∀ t ∈ texts, t ≠ "" ∧ t ≠ "exit" ∧ t ≠ "quit") (rs : List RunEnd)
    (_ : texts.map (runLine commands handlers) = rs.map .ret)
    (_ : (Console.entry prompt width height (done ++ texts) "").run commands handlers keys = .ret (e, last)),
    (Console.entry prompt width height done "").run commands handlers (texts.flatMap entryKeys ++ keys) =
      .ret (e, rs ++ last) := by
  induction texts with
  | nil =>
    intro done _ _ rs hr hk
    rw [List.append_nil] at hk
    cases rs with
    | nil => exact hk
    | cons r rs => cases hr
  | cons t ts ih =>
    intro done hf ht rs hr hk
    cases rs with
    | nil => cases hr
    | cons r rs =>
      simp only [List.map_cons, List.cons.injEq] at hr
      have f0 := hf 0 t rfl
      rw [Nat.add_zero] at f0
      have t0 := ht t (by simp)
      have hi := ih (done ++ [t])
        (fun i u hu => by
          have := hf (i + 1) u (by simpa using hu)
          simp only [List.length_append, List.length_singleton]
          rw [show done.length + 1 + i = done.length + (i + 1) by omega]
          exact this)
        (fun u hu => ht u (by simp [hu])) rs hr.2 (by simpa using hk)
      simp only [List.flatMap_cons, entryKeys, List.append_assoc]
      rw [Console.entry_types commands handlers room t.toList ""
        (by have := f0.1; rw [promptLine_toList] at this ⊢; simp only [List.length_append, List.length_cons, String.toList_empty, List.length_nil] at this ⊢; omega)]
      rw [String.ofList_toList, String.empty_append]
      exact Console.run_one (Console.entry_enter plain room f0.2 t0.1 t0.2 hr.1) hi

/-- **C116** (partial: commands that fit into the window with their prompts and that can be run, and no other keys.)
Commands typed one after another are run in this order, each as typed; each stays in the window behind its prompt, the
prompts are numbered, and the cursor is behind the last one. Missing: commands that do not fit, see
`C116_counterexample`, and moving to earlier lines, see `C116_again`. -/
theorem C116_session_partial (commands handlers : List String) (prompt : String)
    (plain : ∀ c ∈ prompt.toList, c.utf8Size = 1 ∧ c ≠ ':') (width height : Nat) (room : 0 < height)
    (texts : List String)
    (first : (promptLine prompt 0 "").toList.length < width)
    (fits : ∀ i t, texts[i]? = some t → (promptLine prompt i t).toList.length < width ∧
      (promptLine prompt (i + 1) "").toList.length < width)
    (stays : ∀ t ∈ texts, t ≠ "" ∧ t ≠ "exit" ∧ t ≠ "quit") (rs : List RunEnd)
    (runs : texts.map (runLine commands handlers) = rs.map .ret) :
    ∃ c, (Console.start prompt 3 width height).run commands handlers (texts.flatMap entryKeys) = .ret (c, rs) ∧
      c.lines = sessionLines prompt 0 texts ++ [(promptLine prompt texts.length "").toList] ∧
      c.oy + c.cy = texts.length ∧ c.cy < height ∧ c.cx = (promptLine prompt texts.length "").toList.length := by
  refine ⟨Console.entry prompt width height texts "", ?_, rfl, Console.entry_row room, ?_, rfl⟩
  · rw [Console.start_eq (fun c hc => (plain c hc).1) room first]
    have := Console.session (width := width) (keys := []) (last := []) plain room texts []
      (fun i t h => by simpa using fits i t h) stays rs runs rfl
    simpa using this
  · simp only [Console.entry]; omega

/-! ## Editing in this window -/

/-- The key of this window for an editing key. -/
def EditKey.console : EditKey → ConsoleKey
  | .char c => .char c
  | .left => .left
  | .right => .right
  | .erase => .erase

/-- The text left and right of the cursor. -/
def Typed.text (t : Typed) : String := String.ofList (t.before ++ t.after)

/-- The editing keys for a command, and Enter. -/
def editedKeys (keys : List EditKey) : List ConsoleKey := keys.map EditKey.console ++ [.enter]

/-- The window with these commands done and the next one being edited. -/
def Console.editing (prompt : String) (width height : Nat) (done : List String) (t : Typed) : Console :=
  { Console.entry prompt width height done t.text with
    cx := (promptLine prompt done.length (String.ofList t.before)).toList.length }

theorem Console.editing_none : Console.editing prompt width height done ⟨[], []⟩ = Console.entry prompt width height done "" := rfl

theorem Console.set_line {c : Console} {v : EditView} (hl : v.line = c.line) (row : c.oy + c.cy < c.lines.length) :
    c.lines.set (c.oy + c.cy) v.line = c.lines := by
  rw [hl, Console.line, List.getD_eq_getElem?_getD, List.getElem?_eq_getElem row, Option.getD_some]
  exact List.set_getElem_self row

theorem Console.tryCursor_row {c : Console} {v : EditView} (hl : v.line = c.line) (hx : v.cx = c.cx)
    (hw : v.width = c.width) (row : c.oy + c.cy < c.lines.length) (inside : c.cy < c.height) (x : Int) :
    c.tryCursor x c.cy = { c with
      lines := c.lines.set (c.oy + c.cy) (v.setCursor x).line
      cx := (v.setCursor x).cx } := by
  rw [setCursor_line, Console.set_line hl row]
  unfold Console.tryCursor Console.setCursor EditView.setCursor
  by_cases h : x < 0 ∨ (v.width : Int) ≤ x
  · rw [if_pos (by omega), if_pos h, hx]; rfl
  · rw [if_neg (by omega), if_neg h]
    simp

/-- An editing key does to the line the cursor is on what it does to that line alone. -/
theorem Console.press_edit (commands handlers : List String) {c : Console} {v : EditView} (hl : v.line = c.line)
    (hx : v.cx = c.cx) (hw : v.width = c.width) (hg : v.gone = false) (row : c.oy + c.cy < c.lines.length)
    (inside : c.cy < c.height) (drawn : c.draw = c) (k : EditKey) (stays : (v.press c.plen k).gone = false) :
    c.press commands handlers k.console = .ret ({ c with
      lines := c.lines.set (c.oy + c.cy) (v.press c.plen k).line
      cx := (v.press c.plen k).cx }, []) := by
  have hd : ∀ (l : List Char) (x : Nat), Console.draw { c with lines := c.lines.set (c.oy + c.cy) l, cx := x } =
      { c with lines := c.lines.set (c.oy + c.cy) l, cx := x } := by
    intro l x
    unfold Console.draw at drawn ⊢
    dsimp only
    rw [List.length_set]
    split
    · next h =>
      rw [if_pos h] at drawn
      have := congrArg Console.oy drawn
      dsimp only at this
      rw [this]
    · rfl
  have same : c = { c with lines := c.lines.set (c.oy + c.cy) v.line, cx := v.cx } := by
    rw [Console.set_line hl row, hx]
  rw [press_on hg] at stays ⊢
  cases k with
  | char ch =>
    simp only [EditView.write] at stays ⊢
    by_cases h : v.cx + 1 < v.width
    · simp only [if_pos h, EditKey.console, Console.press]
      rw [← hd]
      congr 3
      unfold Console.write
      dsimp only
      rw [if_pos (by rw [← hx, ← hw]; exact h), show c.oy + c.cy + 1 - c.lines.length = 0 by omega, hl, hx]
      simp
    · rw [if_neg h] at stays; cases stays
  | left =>
    simp only [EditKey.console, Console.press]
    rw [← hd]
    congr 3
    unfold Console.left EditView.cursorLeft
    rw [hx]
    split
    · exact same.trans (by rw [hx])
    · rw [← hx]; exact Console.tryCursor_row hl hx hw row inside _
  | right =>
    simp only [EditKey.console, Console.press]
    rw [← hd]
    congr 3
    unfold Console.right EditView.cursorRight
    rw [hx, hl]
    split
    · exact Console.tryCursor_row hl hx hw row inside _
    · exact Console.tryCursor_row hl hx hw row inside _
  | erase =>
    simp only [EditKey.console, Console.press]
    rw [← hd]
    congr 3
    unfold Console.backSpace EditView.backSpace
    rw [hx]
    split
    · exact same.trans (by rw [hx])
    · dsimp only
      congr 1
      rw [hl, Console.line, List.getD_eq_getElem?_getD, List.getElem?_eq_getElem row, Option.getD_some,
        List.modify_eq_set, List.getElem?_eq_getElem row]
      rfl

theorem promptLine_front (prompt : String) (n : Nat) (text : String) :
    (promptLine prompt n text).toList = (promptLine prompt n "").toList ++ text.toList := by
  simp [promptLine_toList]

theorem Console.editing_row (room : 0 < height) {t : Typed} :
    (Console.editing prompt width height done t).oy + (Console.editing prompt width height done t).cy = done.length :=
  Console.entry_row (prompt := prompt) (width := width) (typed := t.text) room

theorem Console.editing_press (commands handlers : List String) (plain : ∀ c ∈ prompt.toList, c.utf8Size = 1)
    (room : 0 < height) {t : Typed} (ascii : ∀ c ∈ t.before ++ t.after, c.utf8Size = 1) (k : EditKey) (ak : k.Ascii)
    (fits : (promptLine prompt done.length "").toList.length + (t.before ++ t.after).length + 1 < width) :
    (Console.editing prompt width height done t).press commands handlers k.console =
        .ret (Console.editing prompt width height done (t.press k), []) ∧
      (∀ c ∈ (t.press k).before ++ (t.press k).after, c.utf8Size = 1) ∧
      ((t.press k).before ++ (t.press k).after).length ≤ (t.before ++ t.after).length + 1 := by
  obtain ⟨hp, hs⟩ := promptlen_eq plain done.length 3
  rw [show (3 : Int) - 3 = 0 from rfl, Int.add_zero] at hp
  have hl : (Console.editing prompt width height done t).line = (promptLine prompt done.length t.text).toList :=
    Console.entry_line (prompt := prompt) (width := width) (typed := t.text) room
  have h0 : Shows (promptLine prompt done.length "").toList
      ⟨(promptLine prompt done.length t.text).toList, (Console.editing prompt width height done t).cx, width, false⟩ t :=
    ⟨by rw [promptLine_front]; simp [Typed.text],
      by simp only [Console.editing]; rw [promptLine_front]; simp, ascii, rfl⟩
  obtain ⟨h1, _, h3⟩ := h0.press hp.symm hs k fits ak
  have hplen : (Console.editing prompt width height done t).plen = promptlen prompt done.length 3 := rfl
  refine ⟨?_, h1.ascii, h3⟩
  rw [Console.press_edit commands handlers (v := ⟨(promptLine prompt done.length t.text).toList,
    (Console.editing prompt width height done t).cx, width, false⟩) hl.symm rfl rfl rfl
    (by rw [Console.editing_row room]; simp [Console.editing, Console.entry, sessionLines_length])
    (by simp only [Console.editing, Console.entry]; omega)
    (by
      have := Console.entry_draw (prompt := prompt) (width := width) (height := height) (done := done) (typed := t.text)
      unfold Console.draw at this ⊢
      split
      · next h =>
        rw [if_pos (show (Console.entry prompt width height done t.text).lines.length >
          (Console.entry prompt width height done t.text).height from h)] at this
        exact congrArg (fun x : Console => { x with cx := (Console.editing prompt width height done t).cx }) this
      · rfl) k (by rw [hplen]; exact h1.here)]
  rw [hplen, h1.line, h1.cursor, Console.editing_row room]
  simp only [Console.editing, Console.entry]
  congr 3
  · rw [List.set_append_right _ _ (by rw [sessionLines_length]; exact Nat.le_refl _), sessionLines_length, Nat.sub_self,
      promptLine_front prompt done.length (t.press k).text]
    simp [Typed.text]
  · rw [promptLine_front prompt done.length (String.ofList (t.press k).before)]; simp

theorem Console.editing_keys (commands handlers : List String) (plain : ∀ c ∈ prompt.toList, c.utf8Size = 1)
    (room : 0 < height) (rest : List ConsoleKey) (ks : List EditKey) : ∀ (t : Typed)
    (_ : ∀ c ∈ t.before ++ t.after, c.utf8Size = 1) (_ : ∀ k ∈ ks, k.Ascii)
    (_ : (promptLine prompt done.length "").toList.length + (t.before ++ t.after).length + ks.length < width),
    (Console.editing prompt width height done t).run commands handlers (ks.map EditKey.console ++ rest) =
      (Console.editing prompt width height done (ks.foldl Typed.press t)).run commands handlers rest := by
  induction ks with
  | nil => intro t _ _ _; rfl
  | cons k ks ih =>
    intro t ht ha hf
    simp only [List.length_cons] at hf
    obtain ⟨h1, h2, h3⟩ := Console.editing_press (done := done) commands handlers plain room ht k (ha k (by simp)) (width := width) (by omega)
    rw [List.map_cons, List.cons_append, Console.run_quiet h1,
      ih _ h2 (fun k hk => ha k (by simp [hk])) (by omega)]
    rfl

theorem Console.editing_enter {commands handlers : List String} (plain : ∀ c ∈ prompt.toList, c.utf8Size = 1 ∧ c ≠ ':')
    (room : 0 < height) (fits : (promptLine prompt (done.length + 1) "").toList.length < width) {r : RunEnd} {t : Typed}
    (some_ : t.text ≠ "") (stays : t.text ≠ "exit" ∧ t.text ≠ "quit")
    (runs : runLine commands handlers t.text = .ret r) :
    (Console.editing prompt width height done t).press commands handlers .enter =
      .ret (Console.entry prompt width height (done ++ [t.text]) "", [r]) := by
  rw [← Console.entry_enter plain room fits some_ stays runs]
  have hl : (Console.editing prompt width height done t).line = (Console.entry prompt width height done t.text).line := rfl
  have hr : (Console.editing prompt width height done t).reprompt = (Console.entry prompt width height done t.text).reprompt := by
    have hp := (promptlen_eq (fun c hc => (plain c hc).1) (done.length + 1) 3).1
    rw [show (3 : Int) - 3 = 0 from rfl, Int.add_zero] at hp
    rw [Console.reprompt_eq (c := .entry prompt width height done t.text) (Console.entry_row room) Console.entry_length
      (by simp only [Console.entry]; omega) hp fits,
      Console.reprompt_eq (c := .editing prompt width height done t) (Console.entry_row (typed := t.text) (width := width) (prompt := prompt) room)
      (Console.entry_length (typed := t.text) (width := width) (height := height) (prompt := prompt))
      (by simp only [Console.editing, Console.entry]; omega) hp fits]
    rfl
  simp only [Console.press, Console.enter, hl, hr]
  have hg : getLine commands handlers (String.ofList (Console.entry prompt width height done t.text).line) = .ret r := by
    rw [Console.entry_line room, String.ofList_toList,
      C72_typed_partial commands handlers prompt (fun h => (plain _ h).2 rfl) done.length t.text, if_neg some_,
      if_neg (by simp [stays]), runs]
  simp only [hg, bind, Out.bind, if_neg (runLine_something some_ runs)]

theorem Console.editing_empty (commands handlers : List String) (plain : ∀ c ∈ prompt.toList, c.utf8Size = 1 ∧ c ≠ ':')
    (room : 0 < height) : (Console.entry prompt width height done "").press commands handlers .enter =
      .ret (Console.entry prompt width height done "", []) := by
  have hg : getLine commands handlers (String.ofList (Console.entry prompt width height done "").line) = .ret .nothing := by
    rw [Console.entry_line room, String.ofList_toList,
      C72_typed_partial commands handlers prompt (fun h => (plain _ h).2 rfl) done.length "", if_pos rfl]
  simp only [Console.press, Console.enter, hg, bind, Out.bind, if_pos, pure, Console.entry_draw]

theorem Typed.text_empty {t : Typed} (h : t.text = "") : t = ⟨[], []⟩ := by
  have := congrArg String.toList h
  simp only [Typed.text, String.toList_ofList, String.toList_empty, List.append_eq_nil_iff] at this
  cases t
  simp_all

theorem Console.edited_session {commands handlers : List String} (plain : ∀ c ∈ prompt.toList, c.utf8Size = 1 ∧ c ≠ ':')
    (room : 0 < height) (longest : Nat) (cmds : List (List EditKey)) :
    ∀ (done : List String)
    (_ : ∀ ks ∈ cmds, ks.length ≤ longest ∧ (∀ k ∈ ks, k.Ascii) ∧
      (typedRun ks).text ≠ "exit" ∧ (typedRun ks).text ≠ "quit")
    (_ : ∀ i, i ≤ cmds.length → (promptLine prompt (done.length + i) "").toList.length + longest < width)
    (rs : List RunEnd)
    (_ : ((cmds.map fun ks => (typedRun ks).text).filter (· ≠ "")).map (runLine commands handlers) = rs.map .ret),
    (Console.entry prompt width height done "").run commands handlers (cmds.flatMap editedKeys) =
      .ret (Console.entry prompt width height (done ++ (cmds.map fun ks => (typedRun ks).text).filter (· ≠ "")) "", rs) := by
  induction cmds with
  | nil =>
    intro done _ _ rs hr
    cases rs with
    | nil => simp [Console.run]
    | cons r rs => cases hr
  | cons ks cmds ih =>
    intro done hk hf rs hr
    obtain ⟨k1, k2, k3⟩ := hk ks (by simp)
    have f0 := hf 0 (by simp)
    have f1 := hf 1 (by simp)
    rw [Nat.add_zero] at f0
    simp only [List.flatMap_cons, editedKeys, List.append_assoc]
    rw [← Console.editing_none, Console.editing_keys commands handlers (fun c hc => (plain c hc).1) room _ ks ⟨[], []⟩
      (by simp) k2 (by simp only [List.append_nil, List.length_nil]; omega)]
    change (Console.editing prompt width height done (typedRun ks)).run commands handlers (.enter :: cmds.flatMap editedKeys) = _
    simp only [List.map_cons] at hr ⊢
    by_cases he : (typedRun ks).text = ""
    · rw [List.filter_cons_of_neg (by simpa using he)] at hr ⊢
      rw [Typed.text_empty he, Console.editing_none, Console.run_quiet (Console.editing_empty commands handlers plain room)]
      exact ih done (fun k h => hk k (by simp [h])) (fun i hi => hf i (by simp only [List.length_cons]; omega)) rs hr
    · rw [List.filter_cons_of_pos (by simpa using he)] at hr ⊢
      cases rs with
      | nil => cases hr
      | cons r rs =>
        simp only [List.map_cons, List.cons.injEq] at hr
        refine Console.run_one (Console.editing_enter plain room (by omega) he k3 hr.1) ?_
        have := ih (done ++ [(typedRun ks).text]) (fun k h => hk k (by simp [h]))
          (fun i hi => by
            have := hf (i + 1) (by simp only [List.length_cons]; omega)
            simp only [List.length_append, List.length_singleton]
            rw [show done.length + 1 + i = done.length + (i + 1) by omega]
            exact this) rs hr.2
        rw [this]
        simp

/-- **C116** (partial: characters of one byte, commands that fit into the window and that can be run.) Commands typed and
edited, with the arrows and erasing, one after another: those that are not empty when Enter is pressed are run in this
order, each as it was edited and wherever the cursor was; empty ones leave no trace. Each command run stays in the window
behind its prompt, the prompts are numbered, and the cursor is behind the last one. Missing: as `C116_session_partial`,
and other characters, see `C110_counterexample`. -/
theorem C116_edited_partial (commands handlers : List String) (prompt : String)
    (plain : ∀ c ∈ prompt.toList, c.utf8Size = 1 ∧ c ≠ ':') (width height : Nat) (room : 0 < height)
    (cmds : List (List EditKey)) (longest : Nat)
    (keys : ∀ ks ∈ cmds, ks.length ≤ longest ∧ ∀ k ∈ ks, k.Ascii)
    (fits : ∀ i, i ≤ cmds.length → (promptLine prompt i "").toList.length + longest < width)
    (texts : List String)
    (are : texts.map String.toList = cmds.map fun ks => (typedRun ks).before ++ (typedRun ks).after)
    (stays : ∀ t ∈ texts, t ≠ "exit" ∧ t ≠ "quit") (rs : List RunEnd)
    (runs : (texts.filter (· ≠ "")).map (runLine commands handlers) = rs.map .ret) :
    ∃ c, (Console.start prompt 3 width height).run commands handlers
        (cmds.flatMap fun ks => ks.map EditKey.console ++ [.enter]) = .ret (c, rs) ∧
      c.lines = sessionLines prompt 0 (texts.filter (· ≠ "")) ++
        [(promptLine prompt (texts.filter (· ≠ "")).length "").toList] ∧
      c.oy + c.cy = (texts.filter (· ≠ "")).length ∧ c.cy < height ∧
      c.cx = (promptLine prompt (texts.filter (· ≠ "")).length "").toList.length := by
  have ht : texts = cmds.map fun ks => (typedRun ks).text := by
    have := congrArg (List.map String.ofList) are
    simpa [Function.comp_def, Typed.text] using this
  subst ht
  refine ⟨Console.entry prompt width height _ "", ?_, rfl, Console.entry_row room, ?_, rfl⟩
  · have f0 := fits 0 (Nat.zero_le _)
    rw [Console.start_eq (fun c hc => (plain c hc).1) room (by omega)]
    have := Console.edited_session (commands := commands) (handlers := handlers) (width := width) plain room longest cmds []
      (fun ks h => ⟨(keys ks h).1, (keys ks h).2, stays _ (List.mem_map.2 ⟨ks, h, rfl⟩)⟩)
      (fun i hi => by simpa using fits i hi) rs runs
    rw [List.nil_append] at this
    exact this
  · simp only [Console.entry]; omega

/-- **C116** After that, the up key and Enter run the last command once more, and no prompt follows: the cursor stays in
the line of that command. -/
theorem C116_again (commands handlers : List String) (prompt : String)
    (plain : ∀ c ∈ prompt.toList, c.utf8Size = 1 ∧ c ≠ ':') (width height : Nat) (room : 1 < height)
    (texts : List String) (t : String)
    (first : (promptLine prompt 0 "").toList.length < width)
    (fits : ∀ i u, (texts ++ [t])[i]? = some u → (promptLine prompt i u).toList.length < width ∧
      (promptLine prompt (i + 1) "").toList.length < width)
    (stays : ∀ u ∈ texts ++ [t], u ≠ "" ∧ u ≠ "exit" ∧ u ≠ "quit") (rs : List RunEnd) (r : RunEnd)
    (runs : (texts ++ [t]).map (runLine commands handlers) = (rs ++ [r]).map .ret) :
    ∃ c, (Console.start prompt 3 width height).run commands handlers
        ((texts ++ [t]).flatMap entryKeys ++ [.up, .enter]) = .ret (c, rs ++ [r, r]) ∧
      c.lines = sessionLines prompt 0 (texts ++ [t]) ++ [(promptLine prompt (texts.length + 1) "").toList] ∧
      c.oy + c.cy = texts.length := by
  have rt : runLine commands handlers t = .ret r := by
    simp only [List.map_append, List.map_cons, List.map_nil] at runs
    have := List.append_inj_right' runs rfl
    simpa using this
  have st := stays t (by simp)
  have fl := (fits texts.length t (by simp)).2
  let c := Console.entry prompt width height (texts ++ [t]) ""
  have hcy : 0 < c.cy := by
    simp only [c, Console.entry, List.length_append, List.length_singleton]; omega
  let d : Console := { c with cy := c.cy - 1 }
  have hu : c.up.draw = d := by
    have : c.up = d := by
      unfold Console.up Console.setCursor
      rw [if_neg (by
        simp only [c, Console.entry, List.length_append, List.length_singleton] at hcy fl ⊢
        omega)]
      dsimp only [d]
      congr 1
      omega
    rw [this]
    have hd := Console.entry_draw (prompt := prompt) (width := width) (height := height) (done := texts ++ [t]) (typed := "")
    unfold Console.draw at hd ⊢
    split
    · next h => rw [if_pos h] at hd; exact congrArg (fun x : Console => { x with cy := c.cy - 1 }) hd
    · rfl
  have hrow : d.oy + d.cy = texts.length := by
    simp only [d, c, Console.entry, List.length_append, List.length_singleton]; omega
  have hl : d.line = (promptLine prompt texts.length t).toList := by
    rw [Console.line, hrow]
    simp only [d, c, Console.entry, sessionLines_append, sessionLines, Nat.zero_add]
    rw [List.getD_eq_getElem?_getD, List.append_assoc, List.getElem?_append_right (by rw [sessionLines_length]; exact Nat.le_refl _),
      sessionLines_length, Nat.sub_self]
    rfl
  have hg : getLine commands handlers (String.ofList d.line) = .ret r := by
    rw [hl, String.ofList_toList,
      C72_typed_partial commands handlers prompt (fun h => (plain _ h).2 rfl) texts.length t, if_neg st.1,
      if_neg (by simp [st.2]), rt]
  have hn : r ≠ .nothing := runLine_something st.1 rt
  have hdd : d.draw = d := by
    have := Console.entry_draw (prompt := prompt) (width := width) (height := height) (done := texts ++ [t]) (typed := "")
    unfold Console.draw at this ⊢
    split
    · next h => rw [if_pos h] at this; exact congrArg (fun x : Console => { x with cy := c.cy - 1 }) this
    · rfl
  have he : d.press commands handlers .enter = .ret (d, [r]) := by
    have hp : d.reprompt = d := by
      unfold Console.reprompt
      rw [if_neg (by
        rw [hrow]
        simp only [d, c, Console.entry, List.length_append, List.length_singleton]; omega)]
    simp only [Console.press, Console.enter, hg, bind, Out.bind, if_neg hn, pure, hp, hdd]
  refine ⟨d, ?_, ?_, hrow⟩
  · rw [Console.start_eq (fun c hc => (plain c hc).1) (by omega) first]
    have := Console.session (width := width) (height := height) (commands := commands) (handlers := handlers)
      (keys := [.up, .enter]) (e := d) (last := [r]) plain (by omega) (texts ++ [t]) []
      (fun i t h => by simpa using fits i t h) stays (rs ++ [r]) runs
      (by
        rw [List.nil_append, Console.run_quiet (d := d) (by rw [Console.press]; exact congrArg (fun x => Out.ret (x, [])) hu)]
        exact Console.run_one he rfl)
    simpa using this
  · simp only [d, c, Console.entry, List.length_append, List.length_singleton]

theorem Console.draw_height (c : Console) : c.draw.height = c.height := by unfold Console.draw; split <;> rfl

theorem Console.draw_last (c : Console) (more : c.draw.height < c.draw.lines.length) :
    c.draw.oy + c.draw.height = c.draw.lines.length := by
  unfold Console.draw at more ⊢
  split
  · next h => dsimp only; omega
  · next h => rw [if_neg h] at more; omega

theorem Console.tryCursor_height (c : Console) (x y : Int) : (c.tryCursor x y).height = c.height := by
  unfold Console.tryCursor Console.setCursor; split <;> rfl

theorem Console.down_height (c : Console) : c.down.height = c.height := by
  unfold Console.down Console.setCursor
  split
  · rfl
  · split
    · next d h => split at h <;> cases h; rfl
    · rfl

theorem Console.reprompt_height (c : Console) : c.reprompt.height = c.height := by
  unfold Console.reprompt
  split
  · simp only [Console.draw_height, Console.tryCursor_height, Console.down_height]
  · rfl

theorem Console.press_shows {commands handlers : List String} {c d : Console} {k : ConsoleKey} {rs : List RunEnd}
    (h : c.press commands handlers k = .ret (d, rs)) :
    d.height = c.height ∧ (d.height < d.lines.length → d.oy + d.height = d.lines.length) := by
  have key : ∀ e : Console, e.draw = d → e.height = c.height →
      d.height = c.height ∧ (d.height < d.lines.length → d.oy + d.height = d.lines.length) := by
    intro e he hh
    subst he
    exact ⟨by rw [Console.draw_height, hh], Console.draw_last e⟩
  cases k with
  | char ch =>
    refine key (c.write ch) (by cases h; rfl) ?_
    unfold Console.write; dsimp only
    split
    · rfl
    · split <;> rfl
  | left =>
    refine key c.left (by cases h; rfl) ?_
    unfold Console.left; split
    · rfl
    · exact Console.tryCursor_height _ _ _
  | right =>
    refine key c.right (by cases h; rfl) ?_
    unfold Console.right; split <;> exact Console.tryCursor_height _ _ _
  | erase =>
    refine key c.backSpace (by cases h; rfl) ?_
    unfold Console.backSpace; split <;> rfl
  | up =>
    refine key c.up (by cases h; rfl) ?_
    unfold Console.up Console.setCursor
    split
    · next d h => split at h <;> cases h; rfl
    · split <;> rfl
  | down => exact key c.down (by cases h; rfl) (Console.down_height c)
  | enter =>
    obtain ⟨⟨e, es⟩, he, h2⟩ := Out.bind_eq_ret h
    refine key e (by cases h2; rfl) ?_
    obtain ⟨r, hr, h3⟩ := Out.bind_eq_ret he
    split at h3
    · cases h3; rfl
    · cases h3; exact Console.reprompt_height c

/-- **C116** Whatever keys are pressed: when the window has more lines than rows, the last lines are shown, so the cursor
is never on a line further back, and no command further back can be edited or run again. -/
theorem C116_out_of_reach (commands handlers : List String) (prompt : String) (ppad : Int) (width height : Nat)
    (keys : List ConsoleKey) (c : Console) (rs : List RunEnd)
    (h : (Console.start prompt ppad width height).run commands handlers keys = .ret (c, rs))
    (more : height < c.lines.length) :
    c.oy + height = c.lines.length ∧ c.lines.length ≤ c.oy + c.cy + height := by
  have all : ∀ (keys : List ConsoleKey) (d c : Console) (rs : List RunEnd),
      (d.height < d.lines.length → d.oy + d.height = d.lines.length) →
      d.run commands handlers keys = .ret (c, rs) →
      c.height = d.height ∧ (c.height < c.lines.length → c.oy + c.height = c.lines.length) := by
    intro keys
    induction keys with
    | nil =>
      intro d c rs hd hr
      cases hr
      exact ⟨rfl, hd⟩
    | cons k ks ih =>
      intro d c rs hd hr
      obtain ⟨⟨e, es⟩, he, h2⟩ := Out.bind_eq_ret hr
      obtain ⟨⟨f, fs⟩, hf, h3⟩ := Out.bind_eq_ret h2
      cases h3
      obtain ⟨p1, p2⟩ := Console.press_shows he
      obtain ⟨q1, q2⟩ := ih e _ fs p2 hf
      exact ⟨q1.trans p1, q2⟩
  obtain ⟨h1, h2⟩ := all keys _ c rs
    (by
      unfold Console.start
      exact Console.draw_last _) h
  have h0 : (Console.start prompt ppad width height).height = height := by
    unfold Console.start
    dsimp only
    rw [Console.draw_height, Console.tryCursor_height]
  rw [h1, h0] at h2
  have := h2 more
  omega

/-- The window with the first line full and this much typed behind it. -/
def Console.over (prompt : String) (width height : Nat) (full o : List Char) : Console where
  prompt := prompt
  ppad := 3
  width := width
  height := height
  lines := full :: if o = [] then [] else [o]
  oy := 0
  cx := o.length
  cy := 1
  curline := 0

theorem Console.over_draw {full o : List Char} (room : 1 < height) :
    (Console.over prompt width height full o).draw = Console.over prompt width height full o := by
  unfold Console.draw
  rw [if_neg]
  simp only [Console.over]
  split <;> simp only [List.length_cons, List.length_nil] <;> omega

theorem Console.over_line {full o : List Char} : (Console.over prompt width height full o).line = o := by
  unfold Console.line Console.over
  by_cases h : o = []
  · rw [if_pos h, h]; rfl
  · rw [if_neg h]; rfl

theorem Console.over_write {full o : List Char} (room : 1 < height) (ch : Char) (fits : o.length + 1 < width) :
    ((Console.over prompt width height full o).write ch).draw = Console.over prompt width height full (o ++ [ch]) := by
  have e : (Console.over prompt width height full o).write ch = Console.over prompt width height full (o ++ [ch]) := by
    have hif : (Console.over prompt width height full o).cx + 1 < (Console.over prompt width height full o).width := fits
    unfold Console.write
    dsimp only
    rw [if_pos hif, Console.over_line]
    have hset : (o ++ List.replicate (o.length + 1 - o.length) '\x00').set o.length ch = o ++ [ch] := by
      rw [Nat.add_sub_cancel_left, List.set_append_right _ _ (Nat.le_refl _), Nat.sub_self]; rfl
    simp only [Console.over, hset, List.length_append, List.length_singleton]
    by_cases h : o = []
    · simp [h]
    · simp [h]
  rw [e, Console.over_draw room]

theorem Console.over_types (commands handlers : List String) {full : List Char} (room : 1 < height) (rest : List Char) :
    ∀ o : List Char, o.length + rest.length < width → ∀ keys,
    (Console.over prompt width height full o).run commands handlers (rest.map .char ++ keys) =
      (Console.over prompt width height full (o ++ rest)).run commands handlers keys := by
  induction rest with
  | nil => intro o _ keys; simp
  | cons ch rest ih =>
    intro o fits keys
    simp only [List.length_cons] at fits
    rw [List.map_cons, List.cons_append, Console.run_quiet (d := .over prompt width height full (o ++ [ch]))
      (by rw [Console.press, Console.over_write room ch (by omega)]),
      ih (o ++ [ch]) (by simp only [List.length_append, List.length_singleton]; omega) keys, List.append_assoc]
    rfl

/-- The character for the last column. -/
theorem Console.entry_fills (room : 1 < height) (ch : Char)
    (fills : (promptLine prompt 0 typed).toList.length + 1 = width) :
    ((Console.entry prompt width height [] typed).write ch).draw =
      Console.over prompt width height (promptLine prompt 0 (typed.push ch)).toList [] := by
  have e : (Console.entry prompt width height [] typed).write ch =
      Console.over prompt width height (promptLine prompt 0 (typed.push ch)).toList [] := by
    have h1 : ¬ (Console.entry prompt width height [] typed).cx + 1 < (Console.entry prompt width height [] typed).width := by
      have : (Console.entry prompt width height [] typed).cx + 1 = (Console.entry prompt width height [] typed).width := fills
      omega
    have h2 : (Console.entry prompt width height [] typed).cy + 1 < (Console.entry prompt width height [] typed).height := by
      simp only [Console.entry, List.length_nil]; omega
    unfold Console.write
    dsimp only
    rw [if_neg h1, if_pos h2, Console.entry_row (by omega), Console.entry_line (by omega), Console.entry_length, Nat.sub_self,
      promptLine_push]
    simp only [Console.entry, Console.over, List.length_nil, sessionLines, List.nil_append, List.replicate_zero,
      List.append_nil, List.set_cons_zero, if_true]
    rw [Nat.add_sub_cancel_left, List.set_append_right _ _ (Nat.le_refl _), Nat.sub_self]
    simp only [List.replicate_succ, List.replicate_zero, List.set_cons_zero]
    congr 1 <;> omega
  rw [e, Console.over_draw room]

/-- **C116** A first command that fills the window up to its last column, or goes on for up to another row without a colon
there, ends the program when Enter is pressed: the cursor is in the next row, where there is no prompt. So it is for
every prompt, every window of at least two rows and every such command. -/
theorem C116_counterexample (commands handlers : List String) (prompt : String)
    (plain : ∀ c ∈ prompt.toList, c.utf8Size = 1) (width height : Nat) (room : 1 < height) (fill over : List Char)
    (some_ : fill ≠ []) (fills : (promptLine prompt 0 "").toList.length + fill.length = width) (less : over.length < width)
    (colon : ':' ∉ over) :
    (Console.start prompt 3 width height).run commands handlers (entryKeys (String.ofList (fill ++ over))) = .panic := by
  have hpos : 0 < fill.length := List.length_pos_iff.2 some_
  rw [Console.start_eq plain (by omega) (by omega)]
  have e := (List.dropLast_concat_getLast some_).symm
  have hlen : fill.dropLast.length + 1 = fill.length := by rw [List.length_dropLast]; omega
  generalize fill.getLast some_ = ch at e
  generalize fill.dropLast = init at e hlen
  subst e
  have hp : ∀ t : String, (promptLine prompt 0 t).toList.length = (promptLine prompt 0 "").toList.length + t.toList.length := by
    intro t
    rw [promptLine_toList, promptLine_toList]
    simp only [List.length_append, List.length_cons, String.toList_empty, List.length_nil]
    omega
  simp only [List.length_append, List.length_singleton] at fills hlen hpos
  rw [entryKeys, String.toList_ofList, List.map_append, List.map_append, List.append_assoc, List.append_assoc,
    Console.entry_types commands handlers (by omega) init "" (by simp only [List.length_nil]; omega), String.empty_append,
    List.map_cons, List.map_nil, List.singleton_append,
    Console.run_quiet (d := .over prompt width height (promptLine prompt 0 ((String.ofList init).push ch)).toList [])
      (by
        rw [Console.press, Console.entry_fills room ch]
        rw [hp, String.toList_ofList]; omega),
    Console.over_types commands handlers room over [] (by simpa using less)]
  have hg : getLine commands handlers (String.ofList over) = .panic :=
    ((C54_getLine_exact commands handlers _).1).2 (.inl (by rw [String.toList_ofList]; exact colon))
  simp only [Console.run, Console.press, Console.enter, List.nil_append, Console.over_line, hg, bind, Out.bind]

/-- A command typed up to the last column, before Enter: with the window not yet full the cursor is on a line that is not
there, afterwards drawing brings it back to the start of its line. -/
theorem Console.entry_full (room : 0 < height) (ch : Char)
    (fills : (promptLine prompt done.length typed).toList.length + 1 = width) :
    ∃ c, ((Console.entry prompt width height done typed).write ch).draw = c ∧
      (done.length < height → c.line = []) ∧
      (height ≤ done.length → c = { Console.entry prompt width height done (typed.push ch) with cx := 0 }) := by
  refine ⟨_, rfl, ?_⟩
  have h1 : ¬ (Console.entry prompt width height done typed).cx + 1 < (Console.entry prompt width height done typed).width := by
    have : (Console.entry prompt width height done typed).cx + 1 = (Console.entry prompt width height done typed).width := fills
    omega
  have hcells : ((promptLine prompt done.length typed).toList ++
      List.replicate ((promptLine prompt done.length typed).toList.length + 1 -
        (promptLine prompt done.length typed).toList.length) '\x00').set (promptLine prompt done.length typed).toList.length ch =
      (promptLine prompt done.length (typed.push ch)).toList := by
    rw [promptLine_push, Nat.add_sub_cancel_left, List.set_append_right _ _ (Nat.le_refl _), Nat.sub_self]
    rfl
  have hlines : ∀ l : List Char, (sessionLines prompt 0 done ++ [(promptLine prompt done.length typed).toList]).set done.length l =
      sessionLines prompt 0 done ++ [l] := by
    intro l
    rw [List.set_append_right _ _ (by rw [sessionLines_length]; exact Nat.le_refl _), sessionLines_length, Nat.sub_self]
    rfl
  have hlen : ∀ l : List Char, (sessionLines prompt 0 done ++ [l]).length = done.length + 1 := by
    intro l; rw [List.length_append, sessionLines_length]; rfl
  unfold Console.write
  dsimp only
  rw [if_neg h1, Console.entry_row room, Console.entry_line room, Console.entry_length, Nat.sub_self, List.replicate_zero,
    List.append_nil]
  by_cases h2 : (Console.entry prompt width height done typed).cy + 1 < (Console.entry prompt width height done typed).height
  · rw [if_pos h2]
    simp only [Console.entry] at h2 ⊢
    rw [hlines, hcells]
    refine ⟨fun _ => ?_, fun h => absurd h (by omega)⟩
    unfold Console.draw
    rw [if_neg (by rw [hlen]; dsimp only; omega)]
    unfold Console.line
    rw [List.getD_eq_getElem?_getD, List.getElem?_eq_none (by rw [hlen]; dsimp only; omega)]
    rfl
  · rw [if_neg h2]
    simp only [Console.entry] at h2 ⊢
    rw [hlines, hcells]
    constructor
    · intro h
      unfold Console.draw
      rw [if_neg (by rw [hlen]; dsimp only; omega)]
      unfold Console.line
      rw [List.getD_eq_getElem?_getD, List.getElem?_eq_none (by rw [hlen]; dsimp only; omega)]
      rfl
    · intro h
      unfold Console.draw
      rw [if_pos (by rw [hlen]; dsimp only; omega)]
      dsimp only
      rw [hlen]

/-- The run of a session is the run of what comes after it, with what the session started in front. -/
theorem Console.session_bind {commands handlers : List String} (plain : ∀ c ∈ prompt.toList, c.utf8Size = 1 ∧ c ≠ ':')
    (room : 0 < height) (texts : List String) {rs : List RunEnd} {keys : List ConsoleKey}
    (fits : ∀ i t, texts[i]? = some t → (promptLine prompt i t).toList.length < width ∧
      (promptLine prompt (i + 1) "").toList.length < width)
    (stays : ∀ t ∈ texts, t ≠ "" ∧ t ≠ "exit" ∧ t ≠ "quit") (runs : texts.map (runLine commands handlers) = rs.map .ret) :
    (Console.entry prompt width height [] "").run commands handlers (texts.flatMap entryKeys ++ keys) =
      (do
        let (e, last) ← (Console.entry prompt width height texts "").run commands handlers keys
        pure (e, rs ++ last)) := by
  have hs := Console.session (width := width) (keys := []) (last := []) plain room texts []
    (fun i t h => by simpa using fits i t h) stays rs runs rfl
  rw [List.append_nil, List.append_nil, List.nil_append] at hs
  generalize Console.entry prompt width height texts "" = mid at hs ⊢
  generalize texts.flatMap entryKeys = ks at hs
  clear fits stays runs
  revert rs
  generalize Console.entry prompt width height [] "" = c
  induction ks generalizing c with
  | nil =>
    intro rs hs
    cases hs
    rw [List.nil_append]
    cases hk : mid.run commands handlers keys <;> simp [bind, Out.bind, pure]
  | cons k ks ih =>
    intro rs hs
    rw [Console.run] at hs
    obtain ⟨⟨d, ra⟩, hp, hs⟩ := Out.bind_eq_ret hs
    obtain ⟨⟨e, rb⟩, hq, hs⟩ := Out.bind_eq_ret hs
    cases hs
    rw [List.cons_append, Console.run, hp]
    simp only [bind, Out.bind]
    have := ih d hq
    simp only [bind, Out.bind] at this
    rw [this]
    cases hk : mid.run commands handlers keys <;> simp [pure]

/-- **C116** What a command does that fills its line up to the last column, after any session: while the window has rows
left, and when it has just been filled, Enter ends the program; once the window scrolls, the command is run like any
other and the next prompt follows. -/
theorem C116_full (commands handlers : List String) (prompt : String)
    (plain : ∀ c ∈ prompt.toList, c.utf8Size = 1 ∧ c ≠ ':') (width height : Nat) (room : 0 < height)
    (texts : List String) (text : String)
    (first : (promptLine prompt 0 "").toList.length < width)
    (fits : ∀ i t, texts[i]? = some t → (promptLine prompt i t).toList.length < width ∧
      (promptLine prompt (i + 1) "").toList.length < width)
    (stays : ∀ t ∈ texts, t ≠ "" ∧ t ≠ "exit" ∧ t ≠ "quit") (rs : List RunEnd)
    (runs : texts.map (runLine commands handlers) = rs.map .ret)
    (fills : (promptLine prompt texts.length text).toList.length = width)
    (next : (promptLine prompt (texts.length + 1) "").toList.length < width)
    (some_ : text ≠ "" ∧ text ≠ "exit" ∧ text ≠ "quit") (r : RunEnd) (run : runLine commands handlers text = .ret r) :
    (texts.length < height →
      (Console.start prompt 3 width height).run commands handlers ((texts ++ [text]).flatMap entryKeys) = .panic) ∧
    (height ≤ texts.length →
      ∃ c, (Console.start prompt 3 width height).run commands handlers ((texts ++ [text]).flatMap entryKeys) =
          .ret (c, rs ++ [r]) ∧
        c.lines = sessionLines prompt 0 (texts ++ [text]) ++ [(promptLine prompt (texts.length + 1) "").toList] ∧
        c.oy + c.cy = texts.length + 1) := by
  rw [Console.start_eq (fun c hc => (plain c hc).1) room first, List.flatMap_append, List.flatMap_cons, List.flatMap_nil,
    List.append_nil, Console.session_bind plain room texts fits stays runs]
  have hne : text.toList ≠ [] := fun h => some_.1 (by rw [← String.ofList_toList (s := text), h])
  have e := (List.dropLast_concat_getLast hne).symm
  generalize text.toList.getLast hne = ch at e
  generalize text.toList.dropLast = init at e
  have hp : ∀ t : String, (promptLine prompt texts.length t).toList.length =
      (promptLine prompt texts.length "").toList.length + t.toList.length := by
    intro t
    rw [promptLine_toList, promptLine_toList]
    simp only [List.length_append, List.length_cons, String.toList_empty, List.length_nil]
    omega
  have hl : text.toList.length = init.length + 1 := by rw [e]; simp
  have ht : (String.ofList init).push ch = text := by
    apply String.toList_injective
    rw [e]; simp
  have hw := hp text
  have hk : (Console.entry prompt width height texts "").run commands handlers (entryKeys text) =
      (Console.entry prompt width height texts (String.ofList init)).run commands handlers [.char ch, .enter] := by
    rw [entryKeys, e, List.map_append, List.append_assoc,
      Console.entry_types commands handlers room init "" (by omega), String.empty_append]
    rfl
  obtain ⟨c, hc, short, long⟩ := Console.entry_full (prompt := prompt) (width := width) (height := height) (done := texts)
    (typed := String.ofList init) room ch (by rw [hp, String.toList_ofList]; omega)
  rw [hk, Console.run_quiet (d := c) (by rw [Console.press, hc])]
  constructor
  · intro h
    have hg : getLine commands handlers (String.ofList c.line) = .panic :=
      ((C54_getLine_exact commands handlers _).1).2 (.inl (by rw [short h]; simp))
    simp only [Console.run, Console.press, Console.enter, hg, bind, Out.bind]
  · intro h
    have hc2 := long h
    rw [ht] at hc2
    have hline : c.line = (promptLine prompt texts.length text).toList := by
      rw [hc2]
      exact Console.entry_line (width := width) (typed := text) room
    have hg : getLine commands handlers (String.ofList c.line) = .ret r := by
      rw [hline, String.ofList_toList,
        C72_typed_partial commands handlers prompt (fun h => (plain _ h).2 rfl) texts.length text, if_neg some_.1,
        if_neg (by simp [some_.2]), run]
    have hr : r ≠ .nothing := runLine_something some_.1 run
    have hn := (promptlen_eq (fun c hc => (plain c hc).1) (texts.length + 1) 3).1
    rw [show (3 : Int) - 3 = 0 from rfl, Int.add_zero] at hn
    have hre : c.reprompt = (Console.entry prompt width height texts text).reprompt := by
      rw [Console.reprompt_eq (c := .entry prompt width height texts text) (Console.entry_row room) Console.entry_length
        (by simp only [Console.entry]; omega) hn next, hc2,
        Console.reprompt_eq (c := { Console.entry prompt width height texts text with cx := 0 })
          (Console.entry_row (prompt := prompt) (width := width) (typed := text) room)
          (Console.entry_length (prompt := prompt) (width := width) (height := height) (typed := text))
        (by simp only [Console.entry]; omega) hn next]
    refine ⟨Console.entry prompt width height (texts ++ [text]) "", ?_, ?_, ?_⟩
    · simp only [Console.run, Console.press, Console.enter, hg, bind, Out.bind, if_neg hr, pure, hre,
        Console.entry_prompt (fun c hc => (plain c hc).1) room next, List.append_nil]
    · simp only [Console.entry, List.length_append, List.length_singleton]
    · rw [Console.entry_row room, List.length_append, List.length_singleton]

/-! ## The hypotheses are met -/

example : runLine shippedCommands cmdHandlers "peers" = .ret (.started "peers" ["peers"]) ∧
    runLine shippedCommands cmdHandlers "beacon off" = .ret (.started "beacon" ["beacon", "off"]) := by decide +kernel

/-- The outcome of a run, to be compared. -/
def consoleOutline (r : Out (Console × List RunEnd)) : Option (List String × Nat × Nat × List RunEnd) :=
  match r with
  | .ret (c, rs) => some (c.lines.map String.ofList, c.oy, c.cy, rs)
  | _ => none

/-- A command edited, an empty one, one put right in the middle, and no way back to the first. -/
example : consoleOutline ((Console.start "saratoga" 3 40 2).run shippedCommands cmdHandlers
    ([[.char 'p', .char 'e', .char 'f', .erase, .char 'e', .char 'r', .char 's'], [.char 'x', .erase, .erase],
      [.char 't', .char 'x', .char 'a', .char 'm', .left, .left, .left, .left, .left, .right, .char 'r', .right, .char 'n'],
      [.char 't', .char 'r', .char 'a', .char 'n']].flatMap
      (fun ks => ks.map EditKey.console ++ [.enter]) ++ [.up, .up, .up, .enter])) =
    some (["saratoga[0]:peers", "saratoga[1]:tran", "saratoga[2]:tran", "saratoga[3]:"], 2, 0,
      [.started "peers" ["peers"], .started "tran" ["tran"], .started "tran" ["tran"],
        .started "tran" ["tran"]]) := by decide +kernel

/-- Three commands in a window of two rows, and the last of them again. -/
example : consoleOutline ((Console.start "saratoga" 3 40 2).run shippedCommands cmdHandlers
    (["peers", "beacon off", "tran"].flatMap entryKeys ++ [.up, .enter])) =
    some (["saratoga[0]:peers", "saratoga[1]:beacon off", "saratoga[2]:tran", "saratoga[3]:"], 2, 0,
      [.started "peers" ["peers"], .started "beacon" ["beacon", "off"], .started "tran" ["tran"],
        .started "tran" ["tran"]]) := by decide +kernel

/-- A command up to the last column as the third one: in a window of three rows it is the end, in one of two it is run. -/
example : consoleOutline ((Console.start "saratoga" 3 17 3).run shippedCommands cmdHandlers
      (["tran", "help", "peers"].flatMap entryKeys)) = none ∧
    consoleOutline ((Console.start "saratoga" 3 17 2).run shippedCommands cmdHandlers
      (["tran", "help", "peers"].flatMap entryKeys)) =
    some (["saratoga[0]:tran", "saratoga[1]:help", "saratoga[2]:peers", "saratoga[3]:"], 2, 1,
      [.started "tran" ["tran"], .started "help" ["help"], .started "peers" ["peers"]]) ∧
    (promptLine "saratoga" 2 "peers").toList.length = 17 := by decide +kernel

end Saratoga
