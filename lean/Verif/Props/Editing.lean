import Verif.Model.Editing
import Verif.Props.Prompt
/-!
# C110: editing the command line
-/
namespace Saratoga

/-! ## Specification: a line editor that overwrites -/

/-- What is left and right of the cursor. -/
structure Typed where
  before : List Char
  after : List Char

/-- A typed character takes the place of the one after the cursor; the arrows move; erase removes the one before. -/
def Typed.press (t : Typed) : EditKey → Typed
  | .char c => ⟨t.before ++ [c], t.after.tail⟩
  | .left => match t.before.getLast? with
    | none => t
    | some c => ⟨t.before.dropLast, c :: t.after⟩
  | .right => match t.after with
    | [] => t
    | c :: cs => ⟨t.before ++ [c], cs⟩
  | .erase => ⟨t.before.dropLast, t.after⟩

def typedRun (keys : List EditKey) : Typed := keys.foldl Typed.press ⟨[], []⟩

/-- A character of one byte. -/
def EditKey.Ascii : EditKey → Prop
  | .char c => c.utf8Size = 1
  | _ => True

/-! ## Lemmas -/

theorem goLen_append (a b : List Char) : goLen (a ++ b) = goLen a + goLen b := by simp [goLen]

theorem length_le_goLen : ∀ l : List Char, l.length ≤ goLen l
  | [] => Nat.le_refl _
  | c :: l => by
    have := length_le_goLen l
    have := Char.utf8Size_pos c
    simp only [goLen, List.map_cons, List.sum_cons, List.length_cons] at *
    omega

theorem goLen_ascii : ∀ {l : List Char}, (∀ c ∈ l, c.utf8Size = 1) → goLen l = l.length
  | [], _ => rfl
  | c :: l, h => by
    have := goLen_ascii (l := l) fun c hc => h c (by simp [hc])
    have := h c (by simp)
    simp only [goLen, List.map_cons, List.sum_cons, List.length_cons] at *
    omega

theorem promptLine_toList (prompt : String) (n : Nat) (typed : String) :
    (promptLine prompt n typed).toList = prompt.toList ++ '[' :: (toString n).toList ++ ']' :: ':' :: typed.toList := by
  simp [promptLine]

theorem promptlen_ge (prompt : String) (n : Nat) (ppad : Int) (pad : 3 ≤ ppad) :
    ((promptLine prompt n "").toList.length : Int) ≤ promptlen prompt n ppad := by
  have h1 := length_le_goLen prompt.toList
  have h2 := length_le_goLen (toString n).toList
  rw [promptLine_toList]
  simp only [promptlen, List.length_append, List.length_cons, List.length_nil, String.toList_empty]
  omega

theorem setCursor_line (v : EditView) (x : Int) : (v.setCursor x).line = v.line := by
  unfold EditView.setCursor; split <;> rfl

theorem setCursor_width (v : EditView) (x : Int) : (v.setCursor x).width = v.width := by
  unfold EditView.setCursor; split <;> rfl

theorem setCursor_cx (v : EditView) (x : Int) : (v.setCursor x).cx = v.cx ∨ ((v.setCursor x).cx : Int) = x := by
  unfold EditView.setCursor
  split
  · exact .inl rfl
  · right
    dsimp only
    omega

theorem setCursor_in (v : EditView) {x : Nat} (h : x < v.width) : v.setCursor x = { v with cx := x } := by
  unfold EditView.setCursor
  rw [if_neg (by omega)]
  simp

/-- A key while the cursor is in the line. -/
theorem press_on {plen : Int} {v : EditView} (h : v.gone = false) (k : EditKey) :
    v.press plen k = match k with
      | .char c => v.write c
      | .left => v.cursorLeft plen
      | .right => v.cursorRight
      | .erase => v.backSpace plen := by
  unfold EditView.press
  rw [if_neg (by rw [h]; simp)]
  cases k <;> rfl

/-! ## The prompt stays -/

/-- The prompt is there and the cursor is behind it. -/
def EditView.Behind (shown : List Char) (v : EditView) : Prop := shown <+: v.line ∧ shown.length ≤ v.cx

theorem Behind.press {shown : List Char} {plen : Int} (hp : (shown.length : Int) ≤ plen) {v : EditView}
    (h : v.Behind shown) (k : EditKey) : (v.press plen k).Behind shown := by
  rcases Bool.eq_false_or_eq_true v.gone with hg | hgone
  · unfold EditView.press; rw [if_pos hg]; exact h
  rw [press_on hgone]
  obtain ⟨⟨rest, hr⟩, hc⟩ := h
  have hl : v.line.length = shown.length + rest.length := by rw [← hr]; simp
  have hg := length_le_goLen v.line
  cases k with
  | char c =>
    have hpre : shown <+: (v.line ++ List.replicate (v.cx + 1 - v.line.length) '\x00').set v.cx c := by
      rw [← hr, List.append_assoc, List.set_append_right _ _ hc]
      exact List.prefix_append _ _
    simp only [EditView.write]
    split
    · exact ⟨hpre, by dsimp only; omega⟩
    · exact ⟨hpre, hc⟩
  | left =>
    simp only [EditView.cursorLeft]
    split
    · exact ⟨⟨rest, hr⟩, hc⟩
    · refine ⟨by rw [setCursor_line]; exact ⟨rest, hr⟩, ?_⟩
      rcases setCursor_cx v ((v.cx : Int) - 1) with h | h <;> omega
  | right =>
    simp only [EditView.cursorRight]
    split
    · refine ⟨by rw [setCursor_line]; exact ⟨rest, hr⟩, ?_⟩
      rcases setCursor_cx v (goLen v.line) with h | h <;> omega
    · refine ⟨by rw [setCursor_line]; exact ⟨rest, hr⟩, ?_⟩
      rcases setCursor_cx v ((v.cx : Int) + 1) with h | h <;> omega
  | erase =>
    simp only [EditView.backSpace]
    split
    · exact ⟨⟨rest, hr⟩, hc⟩
    · refine ⟨?_, by dsimp only; omega⟩
      dsimp only
      rw [← hr, List.eraseIdx_append_of_length_le (by omega)]
      exact List.prefix_append _ _

/-- **C110** With a padding of at least three, no sequence of keys, of any characters and in a window of any width the
prompt fits into, changes the prompt while the cursor is in its line, and so Enter finds its colon there. For the cursor
leaving the line see C116. -/
theorem C110_prompt_stays (prompt : String) (n : Nat) (ppad : Int) (pad : 3 ≤ ppad) (width cx : Nat)
    (room : promptlen prompt n ppad < width) (keys : List EditKey) :
    ∃ text, (editRun prompt n ppad width cx keys).line = (promptLine prompt n "").toList ++ text := by
  have hp := promptlen_ge prompt n ppad pad
  have h0 : (EditView.fresh prompt n ppad width cx).Behind (promptLine prompt n "").toList := by
    refine ⟨by rw [EditView.fresh, setCursor_line]; exact List.prefix_refl _, ?_⟩
    unfold EditView.fresh EditView.setCursor
    rw [if_neg (by dsimp only; omega)]
    dsimp only
    omega
  have : ∀ (ks : List EditKey) (v : EditView), v.Behind (promptLine prompt n "").toList →
      (ks.foldl (EditView.press (promptlen prompt n ppad)) v).Behind (promptLine prompt n "").toList := by
    intro ks
    induction ks with
    | nil => exact fun v h => h
    | cons k ks ih => exact fun v h => ih _ (Behind.press hp h k)
  obtain ⟨⟨text, ht⟩, -⟩ := this keys _ h0
  exact ⟨text, ht.symm⟩

/-! ## The text is what was typed -/

/-- The view shows what the specification has. -/
structure Shows (shown : List Char) (v : EditView) (t : Typed) : Prop where
  line : v.line = shown ++ (t.before ++ t.after)
  cursor : v.cx = shown.length + t.before.length
  ascii : ∀ c ∈ t.before ++ t.after, c.utf8Size = 1
  here : v.gone = false

theorem Shows.press {shown : List Char} {plen : Int} (hp : (shown.length : Int) = plen)
    (plain : ∀ c ∈ shown, c.utf8Size = 1) {v : EditView} {t : Typed} (h : Shows shown v t) (k : EditKey)
    (room : shown.length + (t.before ++ t.after).length + 1 < v.width) (ak : k.Ascii) :
    Shows shown (v.press plen k) (t.press k) ∧ (v.press plen k).width = v.width ∧
      ((t.press k).before ++ (t.press k).after).length ≤ (t.before ++ t.after).length + 1 := by
  obtain ⟨hline, hcur, hasc, hgone⟩ := h
  rw [press_on hgone]
  have hg : goLen v.line = v.line.length := by
    refine goLen_ascii fun c hc => ?_
    rw [hline, List.mem_append] at hc
    exact hc.elim (plain c) (hasc c)
  have hlen : v.line.length = shown.length + (t.before.length + t.after.length) := by rw [hline]; simp
  rw [List.length_append] at room
  cases k with
  | char c =>
    simp only [EditView.write, Typed.press]
    have e : (v.line ++ List.replicate (v.cx + 1 - v.line.length) '\x00').set v.cx c =
        shown ++ ((t.before ++ [c]) ++ t.after.tail) := by
      rw [hline, hcur, List.append_assoc, List.set_append_right _ _ (by omega), List.append_assoc,
        List.set_append_right _ _ (by omega)]
      congr 1
      rw [show shown.length + t.before.length - shown.length - t.before.length = 0 by omega, List.append_assoc]
      congr 1
      cases t.after with
      | nil => simp
      | cons a as =>
        rw [show shown.length + t.before.length + 1 - (shown ++ (t.before ++ a :: as)).length = 0 by simp; omega]
        simp
    rw [if_pos (by omega)]
    refine ⟨⟨?_, ?_, ?_, hgone⟩, rfl, ?_⟩
    · exact e
    · simp only [List.length_append, List.length_cons, List.length_nil]
      omega
    · intro x hx
      simp only [List.mem_append, List.mem_singleton] at hx
      rcases hx with (hx | rfl) | hx
      · exact hasc x (by simp [hx])
      · exact ak
      · exact hasc x (List.mem_append.2 (.inr (List.mem_of_mem_tail hx)))
    · simp only [List.length_append, List.length_cons, List.length_nil, List.length_tail]
      omega
  | left =>
    simp only [EditView.cursorLeft, Typed.press]
    cases hb : t.before.getLast? with
    | none =>
      rw [List.getLast?_eq_none_iff] at hb
      rw [if_pos (by rw [hcur, hb, ← hp]; simp)]
      exact ⟨⟨hline, hcur, hasc, hgone⟩, rfl, by simp⟩
    | some c =>
      have hne : t.before ≠ [] := by
        intro h
        simp [h] at hb
      have hd : t.before.dropLast ++ [c] = t.before := by
        rw [List.getLast?_eq_some_getLast hne] at hb
        cases hb
        exact List.dropLast_concat_getLast hne
      have hpos : 0 < t.before.length := List.length_pos_iff.2 hne
      rw [if_neg (by omega)]
      have s := setCursor_in v (x := v.cx - 1) (by omega)
      rw [show ((v.cx : Int) - 1) = ((v.cx - 1 : Nat) : Int) by omega, s]
      have hd' : t.before.dropLast ++ c :: t.after = t.before ++ t.after := by
        conv => rhs; rw [← hd]
        simp
      refine ⟨⟨?_, ?_, ?_, hgone⟩, rfl, ?_⟩
      · dsimp only; rw [hline, hd']
      · simp only [List.length_dropLast]; omega
      · dsimp only; rw [hd']; exact hasc
      · dsimp only; rw [hd']; omega
  | right =>
    simp only [EditView.cursorRight, Typed.press, hg]
    cases ha : t.after with
    | nil =>
      rw [ha] at hlen
      simp only [List.length_nil] at hlen
      rw [if_pos (by omega), setCursor_in v (by omega)]
      refine ⟨⟨hline, ?_, hasc, hgone⟩, rfl, by simp [ha]⟩
      dsimp only; omega
    | cons c cs =>
      rw [ha] at hlen hline hasc
      simp only [List.length_cons] at hlen
      have e : (if (v.cx : Int) ≥ (v.line.length : Int) - 1 then v.setCursor v.line.length
          else v.setCursor ((v.cx : Int) + 1)) = { v with cx := v.cx + 1 } := by
        split
        · rw [setCursor_in v (by omega), show v.line.length = v.cx + 1 by omega]
        · rw [show ((v.cx : Int) + 1) = ((v.cx + 1 : Nat) : Int) by omega, setCursor_in v (by omega)]
      rw [e]
      refine ⟨⟨?_, ?_, ?_, hgone⟩, rfl, by simp⟩
      · dsimp only; rw [hline]; simp
      · simp only [List.length_append, List.length_cons, List.length_nil]; omega
      · dsimp only; simpa using hasc
  | erase =>
    simp only [EditView.backSpace, Typed.press]
    by_cases hb : t.before = []
    · rw [if_pos (by rw [hcur, hb, ← hp]; simp)]
      refine ⟨⟨?_, ?_, ?_, hgone⟩, rfl, ?_⟩
      · rw [hline, hb]; rfl
      · rw [hcur, hb]; rfl
      · rw [hb] at hasc ⊢; exact hasc
      · simp [hb]
    · have hpos : 0 < t.before.length := List.length_pos_iff.2 hb
      rw [if_neg (by omega)]
      refine ⟨⟨?_, ?_, ?_, hgone⟩, rfl, ?_⟩
      · dsimp only
        rw [hline, List.eraseIdx_append_of_length_le (by omega), List.eraseIdx_append_of_lt_length (by omega),
          List.eraseIdx_eq_dropLast (by omega)]
      · simp only [List.length_dropLast]; omega
      · intro x hx
        rw [List.mem_append] at hx
        exact hasc x (List.mem_append.2 (hx.imp (fun h => List.dropLast_subset _ h) id))
      · simp only [List.length_append, List.length_dropLast]; omega

theorem utf8Size_digits (n : Nat) : ∀ c ∈ (toString n).toList, c.utf8Size = 1 := by
  intro c hc
  rw [Nat.toString_eq_ofList_toDigits, String.toList_ofList] at hc
  have h := Nat.isDigit_of_mem_toDigits (b := 10) (by omega) (by omega) hc
  simp only [Char.isDigit, Bool.and_eq_true, decide_eq_true_eq] at h
  have : c.val ≤ 127 := UInt32.le_trans h.2 (by decide)
  simp only [Char.utf8Size]
  exact if_pos this

theorem promptlen_eq {prompt : String} (plain : ∀ c ∈ prompt.toList, c.utf8Size = 1) (n : Nat) (k : Int) :
    promptlen prompt n k = (promptLine prompt n "").toList.length + (k - 3) ∧
      ∀ c ∈ (promptLine prompt n "").toList, c.utf8Size = 1 := by
  rw [promptLine_toList]
  refine ⟨?_, ?_⟩
  · rw [promptlen, goLen_ascii plain, goLen_ascii (utf8Size_digits n)]
    simp only [List.length_append, List.length_cons, List.length_nil, String.toList_empty]
    omega
  · intro c hc
    simp only [List.mem_append, List.mem_cons, String.toList_empty, List.not_mem_nil, or_false] at hc
    rcases hc with (hc | rfl | hc) | rfl | rfl
    · exact plain c hc
    · decide
    · exact utf8Size_digits n c hc
    · decide
    · decide

/-- **C110** (partial: characters of one byte, a padding of three as shipped, and a line that stays inside the window.)
Typing, moving and erasing in the command window does what a line editor that overwrites does: the line is the prompt
and the text as edited. Missing: other characters, see `C110_counterexample`. -/
theorem C110_edits_partial (prompt : String) (plain : ∀ c ∈ prompt.toList, c.utf8Size = 1) (n width cx : Nat)
    (keys : List EditKey) (ascii : ∀ k ∈ keys, k.Ascii)
    (room : (promptLine prompt n "").toList.length + keys.length < width) :
    (editRun prompt n 3 width cx keys).line =
      (promptLine prompt n (String.ofList ((typedRun keys).before ++ (typedRun keys).after))).toList := by
  obtain ⟨hp, hs⟩ := promptlen_eq plain n 3
  rw [show (3 : Int) - 3 = 0 from rfl, Int.add_zero] at hp
  have all : ∀ (ks : List EditKey) (v : EditView) (t : Typed), Shows (promptLine prompt n "").toList v t →
      (promptLine prompt n "").toList.length + (t.before ++ t.after).length + ks.length < v.width →
      (∀ k ∈ ks, k.Ascii) →
      Shows (promptLine prompt n "").toList (ks.foldl (EditView.press (promptlen prompt n 3)) v)
        (ks.foldl Typed.press t) := by
    intro ks
    induction ks with
    | nil => exact fun v t h _ _ => h
    | cons k ks ih =>
      intro v t h hr ha
      simp only [List.length_cons] at hr
      obtain ⟨h1, h2, h3⟩ := h.press hp.symm hs k (by omega) (ha k (by simp))
      exact ih _ _ h1 (by rw [h2]; omega) fun k hk => ha k (by simp [hk])
  have h0 : Shows (promptLine prompt n "").toList (EditView.fresh prompt n 3 width cx) ⟨[], []⟩ := by
    unfold EditView.fresh
    rw [hp, setCursor_in _ (by dsimp only; omega)]
    exact ⟨by simp, by simp, by simp, rfl⟩
  have w0 : (EditView.fresh prompt n 3 width cx).width = width := by
    unfold EditView.fresh; rw [setCursor_width]
  have := (all keys _ _ h0 (by rw [w0]; simpa using room) ascii).line
  rw [editRun, this, promptLine_toList, promptLine_toList]
  simp [typedRun]

/-- **C110** (partial, as `C110_edits_partial`.) So the command that Enter runs is the text as edited. -/
theorem C110_command_partial (commands handlers : List String) (prompt : String)
    (plain : ∀ c ∈ prompt.toList, c.utf8Size = 1 ∧ c ≠ ':') (n width cx : Nat)
    (keys : List EditKey) (ascii : ∀ k ∈ keys, k.Ascii)
    (room : (promptLine prompt n "").toList.length + keys.length < width)
    (typed : String) (is : typed.toList = (typedRun keys).before ++ (typedRun keys).after) :
    getLine commands handlers (String.ofList (editRun prompt n 3 width cx keys).line) =
      if typed = "" then .ret .nothing
      else if typed = "exit" ∨ typed = "quit" then .fatal
      else runLine commands handlers typed := by
  rw [C110_edits_partial prompt (fun c hc => (plain c hc).1) n width cx keys ascii room, ← is,
    String.ofList_toList, String.ofList_toList]
  exact C72_typed_partial commands handlers prompt (fun h => (plain _ h).2 rfl) n typed

/-- **C110** With a character of more than one byte the right arrow goes too far: after it, the right arrow and another
character the line has an empty cell in between, for every such character. With a padding of two (the padding is
configured), the first character typed takes the place of the colon, and Enter ends the program, for every prompt
without colons. -/
theorem C110_counterexample :
    (∀ (prompt : String) (_ : ∀ c ∈ prompt.toList, c.utf8Size = 1) (n width cx : Nat) (c d : Char),
      1 < c.utf8Size → (promptLine prompt n "").toList.length + 3 < width →
      (editRun prompt n 3 width cx [.char c, .right, .char d]).line =
        (promptLine prompt n "").toList ++ [c, '\x00', d]) ∧
    (∀ (commands handlers : List String) (prompt : String) (_ : ∀ c ∈ prompt.toList, c.utf8Size = 1 ∧ c ≠ ':')
      (n width cx : Nat) (c : Char), c ≠ ':' → (promptLine prompt n "").toList.length < width →
      getLine commands handlers (String.ofList (editRun prompt n 2 width cx [.char c]).line) = .panic) := by
  refine ⟨?_, ?_⟩
  · intro prompt plain n width cx c d hc hw
    obtain ⟨hp, hs⟩ := promptlen_eq plain n 3
    rw [show (3 : Int) - 3 = 0 from rfl, Int.add_zero] at hp
    generalize hsh : (promptLine prompt n "").toList = shown at *
    unfold editRun EditView.fresh
    rw [hp, hsh, setCursor_in _ (by dsimp only; omega)]
    have e1 : EditView.press (shown.length : Int) ⟨shown, shown.length, width, false⟩ (.char c) =
        ⟨shown ++ [c], shown.length + 1, width, false⟩ := by
      rw [press_on rfl]
      unfold EditView.write
      dsimp only
      rw [if_pos (by omega)]
      simp
    have hg : goLen (shown ++ [c]) = shown.length + c.utf8Size := by
      rw [goLen_append, goLen_ascii hs]; simp [goLen]
    have e2 : EditView.press (shown.length : Int) ⟨shown ++ [c], shown.length + 1, width, false⟩ .right =
        ⟨shown ++ [c], shown.length + 2, width, false⟩ := by
      rw [press_on rfl]
      unfold EditView.cursorRight
      dsimp only
      rw [hg]
      split
      · rw [show shown.length + c.utf8Size = shown.length + 2 by omega, setCursor_in _ (by dsimp only; omega)]
      · rw [show (((shown.length + 1 : Nat) : Int) + 1) = ((shown.length + 2 : Nat) : Int) by omega,
          setCursor_in _ (by dsimp only; omega)]
    simp only [List.foldl_cons, List.foldl_nil]
    rw [e1, e2, press_on rfl]
    simp only [EditView.write]
    rw [if_pos (by omega)]
    dsimp only
    rw [List.length_append, List.length_singleton, show shown.length + 2 + 1 - (shown.length + 1) = 2 by omega,
      List.append_assoc, List.set_append_right _ _ (by omega), show shown.length + 2 - shown.length = 2 by omega]
    rfl
  · intro commands handlers prompt plain n width cx c hc hw
    obtain ⟨hp, hs⟩ := promptlen_eq (fun c hc => (plain c hc).1) n 2
    have hl : (promptLine prompt n "").toList = (prompt.toList ++ '[' :: (toString n).toList ++ [']']) ++ [':'] := by
      rw [promptLine_toList]; simp
    have hno : ':' ∉ prompt.toList ++ '[' :: (toString n).toList ++ [']'] := by
      have hd : ':' ∉ (toString n).toList := by
        rw [Nat.toString_eq_ofList_toDigits, String.toList_ofList]
        intro h
        have := Nat.isDigit_of_mem_toDigits (b := 10) (by omega) (by omega) h
        exact absurd this (by decide)
      simp only [List.mem_append, List.mem_cons, List.not_mem_nil, or_false]
      rintro ((h | h | h) | h)
      · exact (plain _ h).2 rfl
      · exact absurd h (by decide)
      · exact hd h
      · exact absurd h (by decide)
    generalize prompt.toList ++ '[' :: (toString n).toList ++ [']'] = body at *
    have hlen : (promptLine prompt n "").toList.length = body.length + 1 := by rw [hl]; simp
    have hpos : promptlen prompt n 2 = (body.length : Nat) := by rw [hp, hlen]; omega
    refine ((C54_getLine_exact commands handlers _).1).2 (.inl ?_)
    rw [String.toList_ofList]
    unfold editRun EditView.fresh
    rw [hpos, setCursor_in _ (by dsimp only; omega)]
    simp only [List.foldl_cons, List.foldl_nil]
    rw [press_on rfl]
    simp only [EditView.write]
    rw [apply_ite EditView.line, ite_self]
    rw [hl, List.append_assoc, List.set_append_right _ _ (by omega), Nat.sub_self]
    simp only [List.cons_append, List.set_cons_zero, List.nil_append]
    rw [List.length_append, List.length_singleton, Nat.sub_self]
    simp only [List.replicate_zero, List.mem_append, List.mem_singleton]
    rintro (h | h)
    · exact hno h
    · exact hc h.symm

/-! ## The hypotheses are met -/

/-- `hepl`, twice left, `lp`: overwritten to `help`; the shipped prompt in a window of eighty columns. -/
def helpKeys : List EditKey :=
  [.char 'h', .char 'e', .char 'p', .char 'l', .left, .left, .char 'l', .char 'p']

example := C110_prompt_stays "saratoga" 0 3 (by decide) 80 0 (by decide +kernel) helpKeys

example : (typedRun helpKeys).before ++ (typedRun helpKeys).after = "help".toList := by decide
example : (editRun "saratoga" 0 3 80 0 helpKeys).line = "saratoga[0]:help".toList := by decide +kernel
example : (∀ c ∈ "saratoga".toList, c.utf8Size = 1 ∧ c ≠ ':') ∧
    (promptLine "saratoga" 0 "").toList.length + helpKeys.length < 80 := by decide +kernel
example : (1 : Nat) < 'é'.utf8Size := by decide

end Saratoga
