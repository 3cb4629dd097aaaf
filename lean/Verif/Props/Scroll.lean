import Verif.Model.Scroll
/-!
# C112 to C115: moving, scrolling and clearing in the windows
-/
namespace Saratoga

/-- The row the cursor is on. -/
def Pane.row (p : Pane) : Nat := p.oy + p.cy

/-- The rows on the screen. -/
def Pane.Shows (p : Pane) (r : Nat) : Prop := p.oy ≤ r ∧ r < p.oy + p.height ∧ r < p.rows

/-- A key that moves. -/
def PaneAct.Moves (a : PaneAct) : Prop := a = .up ∨ a = .down ∨ a = .last

/-! ## Lemmas -/

theorem Pane.setRow_some {p : Pane} {y : Nat} (h : y < p.height) : p.setRow y = some { p with cy := y } := by
  unfold Pane.setRow
  rw [if_neg (by omega)]
  simp

theorem Pane.setRow_none {p : Pane} {y : Int} (h : y < 0 ∨ (p.height : Int) ≤ y) : p.setRow y = none := by
  unfold Pane.setRow
  rw [if_pos h]

theorem Pane.setOrigin_nat (p : Pane) (y : Nat) : p.setOrigin y = { p with oy := y } := by
  unfold Pane.setOrigin
  rw [if_neg (by omega)]
  simp

/-- What `CursorDown` does. -/
theorem Pane.down_eq (p : Pane) :
    p.down = if p.row + 1 = p.lines then p
      else if p.cy + 1 < p.height then { p with cy := p.cy + 1 } else { p with oy := p.oy + 1 } := by
  unfold Pane.down Pane.row
  by_cases h : p.oy + p.cy + 1 = p.lines
  · rw [if_pos (by omega), if_pos h]
  · rw [if_neg (by omega), if_neg h]
    by_cases hc : p.cy + 1 < p.height
    · rw [if_pos hc, show ((p.cy : Int) + 1) = ((p.cy + 1 : Nat) : Int) by omega, Pane.setRow_some hc]
    · rw [if_neg hc, Pane.setRow_none (by omega)]
      exact p.setOrigin_nat (p.oy + 1)

/-- What `CursorUp` does with the cursor inside the window. -/
theorem Pane.up_eq {p : Pane} (h : p.cy < p.height) :
    p.up = if 0 < p.cy then { p with cy := p.cy - 1 } else { p with oy := p.oy - 1 } := by
  unfold Pane.up
  by_cases hc : 0 < p.cy
  · rw [if_pos hc, show ((p.cy : Int) - 1) = ((p.cy - 1 : Nat) : Int) by omega, Pane.setRow_some (by omega)]
  · rw [if_neg hc, Pane.setRow_none (by omega)]
    by_cases ho : p.oy > 0
    · rw [show ((p.oy : Int) - 1) = ((p.oy - 1 : Nat) : Int) by omega]
      exact (if_pos ho).trans (p.setOrigin_nat (p.oy - 1))
    · exact (if_neg ho).trans (by rw [show p.oy - 1 = p.oy by omega])

/-- What `gotolastrow` does in a window that is not empty. -/
theorem Pane.last_eq {p : Pane} (hl : 0 < p.lines) (hh : 0 < p.height) :
    p.last = if p.row + 1 = p.lines then p
      else if p.lines ≤ p.height then { p with cy := p.lines - 1 }
      else { p with oy := p.lines - p.height - 1, cy := p.height - 1 } := by
  unfold Pane.last Pane.row
  by_cases h : p.oy + p.cy + 1 = p.lines
  · rw [if_pos (by omega), if_pos h]
  · rw [if_neg (by omega), if_neg h]
    by_cases hc : p.lines ≤ p.height
    · rw [if_pos hc, show ((p.lines : Int) - 1) = ((p.lines - 1 : Nat) : Int) by omega, Pane.setRow_some (by omega)]
    · rw [if_neg hc, Pane.setRow_none (by omega),
        show ((p.lines : Int) - p.height - 1) = ((p.lines - p.height - 1 : Nat) : Int) by omega, Pane.setOrigin_nat,
        show ((p.height : Int) - 1) = ((p.height - 1 : Nat) : Int) by omega]
      dsimp only
      rw [Pane.setRow_some (by dsimp only; omega)]
      rfl

theorem Pane.clear_eq {p : Pane} (hh : 0 < p.height) : p.clear = { p with lines := 0, rows := 0, cy := 0 } := by
  unfold Pane.clear
  dsimp only
  have := Pane.setRow_some (p := { p with lines := 0, rows := 0 }) (y := 0) hh
  rw [show ((0 : Nat) : Int) = 0 from rfl] at this
  rw [this]
  rfl

/-- The cursor is on a line and what is above the window is not more than has to be. -/
structure Pane.OnLine (p : Pane) : Prop where
  text : p.oy + p.cy < p.lines
  filled : p.oy = 0 ∨ p.oy + p.height ≤ p.lines

/-- What holds between an event and the drawing after it. -/
structure Pane.Sound (p : Pane) : Prop where
  cursor : p.cy < p.height
  one : 0 < p.lines
  wrapped : p.lines ≤ p.rows
  place : (p.auto = true ∧ p.height < p.rows) ∨ p.OnLine

theorem Pane.Sound.draw {p : Pane} (h : p.Sound) :
    p.draw.Sound ∧ p.draw.row < p.rows ∧ p.draw.rows = p.rows := by
  obtain ⟨h1, h2, h3, h4⟩ := h
  unfold Pane.draw
  split
  · next hd =>
    exact ⟨⟨h1, h2, h3, .inl hd⟩, by simp only [Pane.row]; omega, rfl⟩
  · next hd =>
    rcases h4 with h | h
    · exact absurd h hd
    · exact ⟨⟨h1, h2, h3, .inr h⟩, Nat.lt_of_lt_of_le h.text h3, rfl⟩

theorem Pane.Sound.step {p : Pane} (h : p.Sound) {a : PaneAct} (keeps : a ≠ .clear)
    (rows : ∀ l r, a = .print l r → l ≤ r) : (p.step a).Sound ∧ (p.step a).row < (p.step a).rows := by
  have fin : ∀ q : Pane, q.Sound → q.draw.Sound ∧ q.draw.row < q.draw.rows := by
    intro q hq
    have := hq.draw
    exact ⟨this.1, by rw [this.2.2]; exact this.2.1⟩
  unfold Pane.step
  refine fin _ ?_
  obtain ⟨h1, h2, h3, h4⟩ := h
  cases a with
  | up =>
    rw [Pane.act, Pane.up_eq h1]
    split
    · exact ⟨by dsimp only; omega, h2, h3, h4.imp id fun h => ⟨by have := h.text; dsimp only; omega, h.filled⟩⟩
    · exact ⟨h1, h2, h3, h4.imp id fun h =>
        ⟨by have := h.text; dsimp only; omega, by have := h.filled; dsimp only; omega⟩⟩
  | down =>
    rw [Pane.act, Pane.down_eq, Pane.row]
    split
    · exact ⟨h1, h2, h3, h4⟩
    · split
      · exact ⟨by dsimp only; omega, h2, h3, h4.imp id fun h => ⟨by have := h.text; dsimp only; omega, h.filled⟩⟩
      · exact ⟨h1, h2, h3, h4.imp id fun h =>
          ⟨by have := h.text; dsimp only; omega, by have := h.text; dsimp only; omega⟩⟩
  | last =>
    rw [Pane.act, Pane.last_eq h2 (by omega), Pane.row]
    split
    · exact ⟨h1, h2, h3, h4⟩
    · split
      · refine ⟨by dsimp only; omega, h2, h3, h4.imp id fun h => ⟨?_, h.filled⟩⟩
        have := h.text
        have := h.filled
        dsimp only; omega
      · exact ⟨by dsimp only; omega, h2, h3, .inr ⟨by dsimp only; omega, by dsimp only; omega⟩⟩
  | print l r =>
    have := rows l r rfl
    rw [Pane.act]
    refine ⟨h1, by dsimp only; omega, by dsimp only; omega, ?_⟩
    refine h4.imp (fun h => ⟨h.1, by dsimp only; omega⟩) fun h => ⟨?_, ?_⟩
    · have := h.text; dsimp only; omega
    · have := h.filled; dsimp only; omega
  | clear => exact absurd rfl keeps

theorem Pane.step_auto (p : Pane) (a : PaneAct) : (p.step a).auto = p.auto ∧ (p.step a).height = p.height := by
  have hd : ∀ q : Pane, q.draw.auto = q.auto ∧ q.draw.height = q.height := by
    intro q; unfold Pane.draw; split <;> exact ⟨rfl, rfl⟩
  have hr : ∀ (q q' : Pane) (y : Int), q.setRow y = some q' → q'.auto = q.auto ∧ q'.height = q.height := by
    intro q q' y h
    unfold Pane.setRow at h
    split at h
    · cases h
    · cases h; exact ⟨rfl, rfl⟩
  have ho : ∀ (q : Pane) (y : Int), (q.setOrigin y).auto = q.auto ∧ (q.setOrigin y).height = q.height := by
    intro q y; unfold Pane.setOrigin; split <;> exact ⟨rfl, rfl⟩
  have hg : ∀ (q : Pane) (y : Int), ((q.setRow y).getD q).auto = q.auto ∧ ((q.setRow y).getD q).height = q.height := by
    intro q y
    cases h : q.setRow y with
    | none => exact ⟨rfl, rfl⟩
    | some q' => exact hr _ _ _ h
  unfold Pane.step
  rw [(hd _).1, (hd _).2]
  cases a with
  | up =>
    simp only [Pane.act, Pane.up]
    split
    · exact hr _ _ _ ‹_›
    · split
      · exact ho _ _
      · exact ⟨rfl, rfl⟩
  | down =>
    simp only [Pane.act, Pane.down]
    split
    · exact ⟨rfl, rfl⟩
    · split
      · exact hr _ _ _ ‹_›
      · exact ho _ _
  | last =>
    simp only [Pane.act, Pane.last]
    split
    · exact ⟨rfl, rfl⟩
    · split
      · exact hr _ _ _ ‹_›
      · exact ⟨(hg _ _).1.trans (ho _ _).1, (hg _ _).2.trans (ho _ _).2⟩
  | print l r => exact ⟨rfl, rfl⟩
  | clear =>
    simp only [Pane.act, Pane.clear]
    exact hg _ _

theorem Pane.run_auto (acts : List PaneAct) : ∀ p : Pane, (p.run acts).auto = p.auto ∧ (p.run acts).height = p.height := by
  induction acts with
  | nil => exact fun p => ⟨rfl, rfl⟩
  | cons a as ih =>
    intro p
    have := ih (p.step a)
    exact ⟨this.1.trans (p.step_auto a).1, this.2.trans (p.step_auto a).2⟩

theorem Pane.Sound.run {acts : List PaneAct} (keeps : PaneAct.clear ∉ acts)
    (rows : ∀ l r, PaneAct.print l r ∈ acts → l ≤ r) :
    ∀ {p : Pane}, p.Sound → p.row < p.rows → (p.run acts).Sound ∧ (p.run acts).row < (p.run acts).rows := by
  induction acts with
  | nil => exact fun h hr => ⟨h, hr⟩
  | cons a as ih =>
    intro p h _
    have hs := h.step (a := a) (fun e => keeps (by simp [e])) (fun l r e => rows l r (by simp [e]))
    exact ih (fun hm => keeps (by simp [hm])) (fun l r hm => rows l r (by simp [hm])) (p := p.step a) hs.1 hs.2

/-- A window into which something was printed, and what happened since. -/
theorem Pane.sound_used {lines rows height : Nat} {auto : Bool} (one : 0 < lines) (room : 0 < height)
    (wrapped : lines ≤ rows) {acts : List PaneAct} (keeps : PaneAct.clear ∉ acts)
    (print : ∀ l r, PaneAct.print l r ∈ acts → l ≤ r) {p : Pane}
    (used : p = ((Pane.new height auto).step (.print lines rows)).run acts) : p.Sound ∧ p.row < p.rows := by
  have h0 : Pane.Sound ⟨0 + lines, 0 + rows, height, auto, 0, 0⟩ :=
    ⟨room, by dsimp only; omega, by dsimp only; omega, .inr ⟨by dsimp only; omega, .inl rfl⟩⟩
  have hd := h0.draw
  rw [used]
  exact Pane.Sound.run keeps print hd.1 (Nat.lt_of_lt_of_eq hd.2.1 hd.2.2.symm)

/-! ## C112 -/

/-- **C112** (partial: from a window with text in it, without `clear`.) Whatever is printed and whichever keys are
pressed, the cursor stays inside the window and on a row with text. Missing: empty windows and `clear`, see
`C112_counterexample`. -/
theorem C112_on_text_partial (lines rows height : Nat) (auto : Bool) (one : 0 < lines) (room : 0 < height)
    (wrapped : lines ≤ rows) (acts : List PaneAct) (keeps : PaneAct.clear ∉ acts)
    (print : ∀ l r, PaneAct.print l r ∈ acts → l ≤ r) (p : Pane)
    (used : p = ((Pane.new height auto).step (.print lines rows)).run acts) : p.cy < p.height ∧ p.row < p.rows :=
  have h := Pane.sound_used one room wrapped keeps print used
  ⟨h.1.cursor, h.2⟩

example := C112_on_text_partial 30 31 10 false (by decide) (by decide) (by decide)
  [.up, .up, .print 3 4, .last, .down] (by simp) (by simp) _ rfl

/-- **C112** With the cursor on a line, a key moves it by one row, down up to the last line and up to the first one,
before the window is drawn. -/
theorem C112_moves (p : Pane) (cursor : p.cy < p.height) (text : p.row < p.lines) :
    p.down.row = min (p.row + 1) (p.lines - 1) ∧ p.up.row = p.row - 1 := by
  unfold Pane.row at text
  constructor
  · rw [Pane.down_eq]
    unfold Pane.row
    split
    · omega
    · split <;> dsimp only <;> omega
  · rw [Pane.up_eq cursor]
    unfold Pane.row
    split <;> dsimp only <;> omega

example := C112_moves ⟨33, 35, 10, false, 20, 9⟩ (by decide) (by decide)

theorem Pane.draw_low {p : Pane} (h : p.rows ≤ p.height) : p.draw = p := by
  unfold Pane.draw
  rw [if_neg (by omega)]

theorem Pane.downs_empty {height : Nat} {auto : Bool} (n : Nat) : ∀ oy cy, cy < height →
    (Pane.run ⟨0, 0, height, auto, oy, cy⟩ (List.replicate n .down)).row = oy + cy + n := by
  induction n with
  | zero => exact fun oy cy _ => rfl
  | succ n ih =>
    intro oy cy hc
    rw [List.replicate_succ]
    change (Pane.run (Pane.step ⟨0, 0, height, auto, oy, cy⟩ .down) _).row = _
    rw [Pane.step, Pane.act, Pane.down_eq, if_neg (by simp [Pane.row])]
    dsimp only
    split
    · rw [Pane.draw_low (Nat.zero_le _), ih _ _ (by omega)]; omega
    · rw [Pane.draw_low (Nat.zero_le _), ih _ _ hc]; omega

/-- **C112** In an empty window, as at the start and after `clear`, every press of the down key moves the cursor one row
further away from where text will be, without end. -/
theorem C112_counterexample (p : Pane) (cursor : p.cy < p.height) (n : Nat) :
    ((Pane.new p.height p.auto).run (List.replicate n .down)).row = n ∧
      (p.run (.clear :: List.replicate n .down)).row = p.oy + n := by
  refine ⟨?_, ?_⟩
  · rw [Pane.new, Pane.downs_empty n 0 0 (by omega)]; omega
  · change (Pane.run (p.clear.draw) _).row = _
    rw [Pane.clear_eq (by omega), Pane.draw_low (Nat.zero_le _), Pane.downs_empty n p.oy 0 (by omega)]; omega

example := C112_counterexample ⟨33, 35, 10, false, 20, 9⟩ (by decide) 5

/-! ## C113 -/

theorem Pane.draw_texts (q : Pane) : q.draw.lines = q.lines ∧ q.draw.rows = q.rows := by
  unfold Pane.draw; split <;> exact ⟨rfl, rfl⟩

/-- Keys print nothing. -/
theorem Pane.step_texts (p : Pane) {a : PaneAct} (moves : a.Moves) :
    (p.step a).lines = p.lines ∧ (p.step a).rows = p.rows := by
  have hr : ∀ (q q' : Pane) (y : Int), q.setRow y = some q' → q'.lines = q.lines ∧ q'.rows = q.rows := by
    intro q q' y h
    unfold Pane.setRow at h
    split at h
    · cases h
    · cases h; exact ⟨rfl, rfl⟩
  have ho : ∀ (q : Pane) (y : Int), (q.setOrigin y).lines = q.lines ∧ (q.setOrigin y).rows = q.rows := by
    intro q y; unfold Pane.setOrigin; split <;> exact ⟨rfl, rfl⟩
  have hg : ∀ (q : Pane) (y : Int), ((q.setRow y).getD q).lines = q.lines ∧ ((q.setRow y).getD q).rows = q.rows := by
    intro q y
    cases h : q.setRow y with
    | none => exact ⟨rfl, rfl⟩
    | some q' => exact hr _ _ _ h
  unfold Pane.step
  rw [(Pane.draw_texts _).1, (Pane.draw_texts _).2]
  rcases moves with rfl | rfl | rfl
  · simp only [Pane.act, Pane.up]
    split
    · exact hr _ _ _ ‹_›
    · split
      · exact ho _ _
      · exact ⟨rfl, rfl⟩
  · simp only [Pane.act, Pane.down]
    split
    · exact ⟨rfl, rfl⟩
    · split
      · exact hr _ _ _ ‹_›
      · exact ho _ _
  · simp only [Pane.act, Pane.last]
    split
    · exact ⟨rfl, rfl⟩
    · split
      · exact hr _ _ _ ‹_›
      · exact ⟨(hg _ _).1.trans (ho _ _).1, (hg _ _).2.trans (ho _ _).2⟩

theorem Pane.run_texts {keys : List PaneAct} (moves : ∀ a ∈ keys, a.Moves) :
    ∀ p : Pane, (p.run keys).lines = p.lines ∧ (p.run keys).rows = p.rows := by
  induction keys with
  | nil => exact fun p => ⟨rfl, rfl⟩
  | cons a as ih =>
    intro p
    have := ih (fun b hb => moves b (by simp [hb])) (p.step a)
    have hs := p.step_texts (moves a (by simp))
    exact ⟨this.1.trans hs.1, this.2.trans hs.2⟩

theorem Pane.Sound.onLine {p : Pane} (h : p.Sound) (na : p.auto = false) : p.OnLine := by
  rcases h.place with hp | hp
  · rw [na] at hp; cases hp.1
  · exact hp

theorem Pane.draw_still {p : Pane} (na : p.auto = false) : p.draw = p := by
  unfold Pane.draw
  rw [if_neg (by rw [na]; simp)]

/-- Repeating an arrow key in the packet window. -/
theorem Pane.repeat_key {p : Pane} (h : p.Sound) (na : p.auto = false) (n : Nat) :
    (p.run (List.replicate n .up)).row = p.row - n ∧
      (p.run (List.replicate n .down)).row = min (p.row + n) (p.lines - 1) := by
  have un : p.up.draw = p.up := Pane.draw_still (by
    rw [Pane.up_eq h.cursor]; split <;> exact na)
  have dn : p.down.draw = p.down := Pane.draw_still (by
    rw [Pane.down_eq]; split <;> (try split) <;> exact na)
  induction n generalizing p with
  | zero =>
    have := (h.onLine na).text
    exact ⟨rfl, by simp only [Pane.run, List.replicate_zero, List.foldl_nil, Pane.row]; omega⟩
  | succ n ih =>
    have ht := (h.onLine na).text
    have hm := C112_moves p h.cursor ht
    have su := h.step (a := .up) (by simp) (by simp)
    have sd := h.step (a := .down) (by simp) (by simp)
    have au := (p.step_auto .up).1.trans na
    have ad := (p.step_auto .down).1.trans na
    have gu : ∀ {q : Pane}, q.Sound → q.auto = false → q.up.draw = q.up := by
      intro q hq hn
      exact Pane.draw_still (by rw [Pane.up_eq hq.cursor]; split <;> exact hn)
    have gd : ∀ {q : Pane}, q.auto = false → q.down.draw = q.down := by
      intro q hn
      exact Pane.draw_still (by rw [Pane.down_eq]; split <;> (try split) <;> exact hn)
    constructor
    · have := (ih su.1 au (gu su.1 au) (gd au)).1
      change ((p.step .up).run (List.replicate n .up)).row = _
      rw [this, show (p.step .up) = p.up from un, hm.2]; omega
    · have := (ih sd.1 ad (gu sd.1 ad) (gd ad)).2
      change ((p.step .down).run (List.replicate n .down)).row = _
      rw [this, (p.step_texts (.inr (.inl rfl))).1, show (p.step .down) = p.down from dn, hm.1]
      omega

/-- **C113** (partial: the packet window, which does not scroll by itself, up to the number of lines.) From every use of
the window, every row up to the last line can be brought onto the screen with one of the arrow keys alone. Missing: the
other windows and what wide lines add, see `C113_counterexample` and `C113_wide`. -/
theorem C113_back_partial (lines rows height : Nat) (one : 0 < lines) (room : 0 < height)
    (wrapped : lines ≤ rows) (acts : List PaneAct) (keeps : PaneAct.clear ∉ acts)
    (print : ∀ l r, PaneAct.print l r ∈ acts → l ≤ r) (p : Pane)
    (used : p = ((Pane.new height false).step (.print lines rows)).run acts) (r : Nat) (line : r < p.lines) :
    ∃ n a, (a = .up ∨ a = .down) ∧ (p.run (List.replicate n a)).row = r ∧ (p.run (List.replicate n a)).Shows r := by
  have h := (Pane.sound_used one room wrapped keeps print used).1
  have na : p.auto = false := by
    rw [used, (Pane.run_auto acts _).1, (Pane.step_auto _ _).1]; rfl
  have seen : ∀ n a, (a = PaneAct.up ∨ a = .down) → (p.run (List.replicate n a)).row = r →
      (p.run (List.replicate n a)).Shows r := by
    intro n a ha hr
    have hs := (Pane.Sound.run (acts := List.replicate n a)
      (by intro hm; have := List.eq_of_mem_replicate hm; rcases ha with rfl | rfl <;> cases this)
      (by intro l r hm; have := List.eq_of_mem_replicate hm; rcases ha with rfl | rfl <;> cases this)
      h (Nat.lt_of_lt_of_le (h.onLine na).text h.wrapped))
    have := hs.1.cursor
    have hrow := hs.2
    rw [hr] at hrow
    unfold Pane.row at hr
    exact ⟨by omega, by omega, hrow⟩
  have hk := Pane.repeat_key h na
  by_cases hr : r ≤ p.row
  · have e : (p.run (List.replicate (p.row - r) .up)).row = r := by rw [(hk _).1]; omega
    exact ⟨_, .up, .inl rfl, e, seen _ _ (.inl rfl) e⟩
  · have e : (p.run (List.replicate (r - p.row) .down)).row = r := by rw [(hk _).2]; omega
    exact ⟨_, .down, .inr rfl, e, seen _ _ (.inr rfl) e⟩

example := C113_back_partial 30 31 10 (by decide) (by decide) (by decide)
  [.up, .up, .print 3 4, .last, .down] (by simp) (by simp) _ rfl 4 (by decide +kernel)

/-- **C113** A window that scrolls by itself (all but the packet window) always shows its last rows: whichever keys are
pressed, a row that has left it is not shown again. -/
theorem C113_counterexample (p : Pane) (auto : p.auto = true) (full : p.height < p.rows) (keys : List PaneAct)
    (moves : ∀ a ∈ keys, a.Moves) (pressed : keys ≠ []) (r : Nat) :
    (p.run keys).Shows r ↔ p.rows - p.height ≤ r ∧ r < p.rows := by
  have e := (List.dropLast_concat_getLast pressed).symm
  generalize keys.dropLast = ks at e
  generalize keys.getLast pressed = a at e
  subst e
  rw [Pane.run, List.foldl_append]
  change ((p.run ks).step a).Shows r ↔ _
  generalize hq : p.run ks = q
  have hr : q.rows = p.rows := by
    rw [← hq]; exact (Pane.run_texts (fun b hb => moves b (by simp [hb])) p).2
  have hh : q.height = p.height := by rw [← hq]; exact (Pane.run_auto ks p).2
  have ha : q.auto = true := by rw [← hq, (Pane.run_auto ks p).1]; exact auto
  have ht := q.step_texts (moves a (by simp))
  have hs := q.step_auto a
  have ho : (q.step a).oy = p.rows - p.height := by
    unfold Pane.step at ht hs ⊢
    generalize q.act a = v at ht hs ⊢
    have h1 := (Pane.draw_texts v).2.symm.trans (ht.2.trans hr)
    have hv : v.draw.auto = v.auto ∧ v.draw.height = v.height := by
      unfold Pane.draw; split <;> exact ⟨rfl, rfl⟩
    have h2 := hv.1.symm.trans (hs.1.trans ha)
    have h3 := hv.2.symm.trans (hs.2.trans hh)
    unfold Pane.draw
    rw [if_pos ⟨h2, by omega⟩]
    dsimp only
    omega
  unfold Pane.Shows
  rw [ho, ht.2, hs.2, hr, hh]
  omega

example := C113_counterexample ⟨33, 35, 10, true, 20, 9⟩ rfl (by decide) [.up, .up] (by simp [PaneAct.Moves]) (by simp) 12

/-- **C113** In the packet window the rows behind the number of lines, which there are if lines are wider than the window,
are never shown unless the window is high enough without scrolling. -/
theorem C113_wide (lines rows height : Nat) (one : 0 < lines) (room : 0 < height)
    (wrapped : lines ≤ rows) (acts : List PaneAct) (keeps : PaneAct.clear ∉ acts)
    (print : ∀ l r, PaneAct.print l r ∈ acts → l ≤ r) (p : Pane)
    (used : p = ((Pane.new height false).step (.print lines rows)).run acts) (r : Nat) (shown : p.Shows r) :
    r < p.lines ∨ r < height := by
  have h := (Pane.sound_used one room wrapped keeps print used).1
  have hs : p.auto = false ∧ p.height = height := by
    rw [used, (Pane.run_auto acts _).1, (Pane.step_auto _ _).1, (Pane.run_auto acts _).2, (Pane.step_auto _ _).2]
    exact ⟨rfl, rfl⟩
  have := (h.onLine hs.1).filled
  unfold Pane.Shows at shown
  omega

example := C113_wide 30 31 10 (by decide) (by decide) (by decide)
  [.up, .up, .print 3 4, .last, .down] (by simp) (by simp) _ rfl 25 (by unfold Pane.Shows; decide +kernel)

/-! ## C114 -/

theorem Pane.prints {height : Nat} {auto : Bool} {oy : Nat} (prints : List (Nat × Nat)) : ∀ lines rows,
    rows + (prints.map (·.2)).sum ≤ height →
    Pane.run ⟨lines, rows, height, auto, oy, 0⟩ (prints.map fun x => .print x.1 x.2) =
      ⟨lines + (prints.map (·.1)).sum, rows + (prints.map (·.2)).sum, height, auto, oy, 0⟩ := by
  induction prints with
  | nil => exact fun _ _ _ => rfl
  | cons x xs ih =>
    intro lines rows h
    simp only [List.map_cons, List.sum_cons] at h ⊢
    change Pane.run (Pane.draw ⟨lines + x.1, rows + x.2, height, auto, oy, 0⟩) _ = _
    rw [Pane.draw_low (by dsimp only; omega), ih _ _ (by omega), Nat.add_assoc, Nat.add_assoc]

/-- **C114** (partial: if the window had not been scrolled before.) After `clear` all that is printed is shown as long as
the window has room for it. Missing: windows that had been scrolled, see `C114_counterexample`. -/
theorem C114_cleared_partial (p : Pane) (cursor : p.cy < p.height) (prints : List (Nat × Nat))
    (top : p.oy = 0) (fits : (prints.map (·.2)).sum ≤ p.height) (r : Nat) :
    (p.run (.clear :: prints.map fun x => .print x.1 x.2)).Shows r ↔ r < (prints.map (·.2)).sum := by
  change (Pane.run (p.clear.draw) _).Shows r ↔ _
  rw [Pane.clear_eq (by omega), Pane.draw_low (Nat.zero_le _), Pane.prints _ _ _ (by omega), Nat.zero_add, Nat.zero_add]
  simp only [Pane.Shows]
  omega

example := C114_cleared_partial ⟨3, 5, 10, true, 0, 2⟩ (by decide) [(2, 3), (1, 1)] rfl (by decide) 3

/-- **C114** `clear` leaves the window scrolled as it was. Of what is printed afterwards the rows up to the first row
shown before are not seen, as long as the window has room for all. So if the window had been scrolled by its height,
nothing printed is seen until it is full again. -/
theorem C114_counterexample (p : Pane) (cursor : p.cy < p.height) (prints : List (Nat × Nat))
    (fits : (prints.map (·.2)).sum ≤ p.height) :
    (∀ r, (p.run (.clear :: prints.map fun x => .print x.1 x.2)).Shows r ↔
      p.oy ≤ r ∧ r < (prints.map (·.2)).sum) ∧
    (p.height ≤ p.oy → ∀ r, ¬ (p.run (.clear :: prints.map fun x => .print x.1 x.2)).Shows r) := by
  change (∀ r, (Pane.run (p.clear.draw) _).Shows r ↔ _) ∧ (_ → ∀ r, ¬ (Pane.run (p.clear.draw) _).Shows r)
  rw [Pane.clear_eq (by omega), Pane.draw_low (Nat.zero_le _), Pane.prints _ _ _ (by omega), Nat.zero_add, Nat.zero_add]
  simp only [Pane.Shows]
  exact ⟨fun r => by omega, fun h r => by omega⟩

example := C114_counterexample ⟨33, 35, 10, true, 25, 9⟩ (by decide) [(2, 3), (1, 1)] (by decide)

/-! ## C115 -/

theorem Pane.draw_draw (p : Pane) : p.draw.draw = p.draw := by
  unfold Pane.draw
  split <;> rfl

theorem Pane.run_drawn (acts : List PaneAct) : ∀ {p : Pane}, p.draw = p → (p.run acts).draw = p.run acts := by
  induction acts with
  | nil => exact fun h => h
  | cons a as ih => exact fun _ => ih (Pane.draw_draw _)

/-- Without wide lines there are as many rows as lines. -/
theorem Pane.run_narrow {acts : List PaneAct} (narrow : ∀ l r, PaneAct.print l r ∈ acts → l = r) :
    ∀ {p : Pane}, p.lines = p.rows → (p.run acts).lines = (p.run acts).rows := by
  induction acts with
  | nil => exact fun h => h
  | cons a as ih =>
    intro p h
    refine ih (fun l r hm => narrow l r (by simp [hm])) (p := p.step a) ?_
    by_cases hm : a.Moves
    · rw [(p.step_texts hm).1, (p.step_texts hm).2, h]
    · cases a with
      | up => exact absurd (.inl rfl) hm
      | down => exact absurd (.inr (.inl rfl)) hm
      | last => exact absurd (.inr (.inr rfl)) hm
      | print l r =>
        have := narrow l r (by simp)
        rw [Pane.step, (Pane.draw_texts _).1, (Pane.draw_texts _).2]
        simp only [Pane.act]
        omega
      | clear =>
        rw [Pane.step, (Pane.draw_texts _).1, (Pane.draw_texts _).2]
        simp only [Pane.act, Pane.clear, Pane.setRow]
        split <;> rfl

/-- **C115** (partial: a window that scrolls by itself, without lines wider than the window and without `clear`.)
Switching to a window puts the cursor on its last row, and that row is shown. Missing: the packet window, see
`C115_counterexample`. -/
theorem C115_last_partial (lines height : Nat) (one : 0 < lines) (room : 0 < height)
    (acts : List PaneAct) (keeps : PaneAct.clear ∉ acts)
    (narrow : ∀ l r, PaneAct.print l r ∈ acts → l = r) (p : Pane)
    (used : p = ((Pane.new height true).step (.print lines lines)).run acts) :
    (p.step .last).row = p.rows - 1 ∧ (p.step .last).Shows (p.rows - 1) := by
  have h := (Pane.sound_used one room (Nat.le_refl _) keeps (fun l r h => Nat.le_of_eq (narrow l r h)) used).1
  have hd : p.draw = p := by rw [used]; exact Pane.run_drawn _ (Pane.draw_draw _)
  have hn : p.lines = p.rows := by
    rw [used]
    refine Pane.run_narrow narrow ?_
    rw [Pane.step, (Pane.draw_texts _).1, (Pane.draw_texts _).2]
    rfl
  have ha : p.auto = true := by
    rw [used, (Pane.run_auto acts _).1, (Pane.step_auto _ _).1]; rfl
  obtain ⟨h1, h2, h3, h4⟩ := h
  suffices hs : (p.step .last).oy + (p.step .last).cy = p.rows - 1 ∧ (p.step .last).cy < p.height by
    refine ⟨hs.1, ?_⟩
    unfold Pane.Shows
    rw [(p.step_auto .last).2, (p.step_texts (.inr (.inr rfl))).2]
    omega
  rw [Pane.step, Pane.act, Pane.last_eq h2 (by omega)]
  by_cases hf : p.height < p.rows
  · have ho : p.oy = p.rows - p.height := by
      unfold Pane.draw at hd
      rw [if_pos ⟨ha, hf⟩] at hd
      exact (congrArg Pane.oy hd).symm
    split
    · next hr =>
      unfold Pane.row at hr
      rw [hd]; omega
    · rw [if_neg (by omega), Pane.draw, if_pos ⟨ha, hf⟩]
      dsimp only
      omega
  · have hp : p.oy = 0 := by
      rcases h4 with h4 | h4
      · exact absurd h4.2 hf
      · have := h4.filled; omega
    split
    · next hr =>
      unfold Pane.row at hr
      rw [hd]; omega
    · rw [if_pos (by omega), Pane.draw_low (by dsimp only; omega)]
      dsimp only
      omega

example := C115_last_partial 30 10 (by decide) (by decide) [.up, .print 3 3, .down] (by simp) (by simp) _ rfl

/-- **C115** In the packet window, once it has more lines than fit, the cursor is put on the last row but one, and the
last row is not shown, unless the cursor is already there. After `clear` of a window that had been scrolled, the cursor
is put behind the text, as far as the window had been scrolled. -/
theorem C115_counterexample :
    (∀ p : Pane, p.cy < p.height → p.auto = false → p.height < p.lines → p.row + 1 ≠ p.lines →
      (p.step .last).row = p.lines - 2 ∧ ¬ (p.step .last).Shows (p.lines - 1)) ∧
    (∀ (p : Pane) (n : Nat), p.cy < p.height → 1 < n → n ≤ p.height → p.oy + 1 ≠ n →
      (p.run [.clear, .print n n, .last]).row = p.oy + n - 1) := by
  refine ⟨?_, ?_⟩
  · intro p cursor packet more elsewhere
    have e : p.step .last = { p with oy := p.lines - p.height - 1, cy := p.height - 1 } := by
      rw [Pane.step, Pane.act, Pane.last_eq (by omega) (by omega), if_neg elsewhere, if_neg (by omega)]
      exact Pane.draw_still packet
    rw [e]
    simp only [Pane.row, Pane.Shows]
    omega
  · intro p n cursor one fits elsewhere
    have e := Pane.prints (height := p.height) (auto := p.auto) (oy := p.oy) [(n, n)] 0 0 (by simpa using fits)
    simp only [List.map_cons, List.map_nil, List.sum_cons, List.sum_nil, Nat.zero_add, Nat.add_zero] at e
    change (((p.clear.draw).run [.print n n]).step .last).row = _
    rw [Pane.clear_eq (by omega), Pane.draw_low (Nat.zero_le _), e, Pane.step, Pane.act,
      Pane.last_eq (by dsimp only; omega) (by dsimp only; omega)]
    simp only [Pane.row]
    rw [if_neg (by omega), if_pos fits, Pane.draw_low fits]
    dsimp only
    omega

/-! ## The hypotheses are met -/

/-- Thirty lines, one of them two rows wide, in a window of ten rows; ten times up, then some more lines. -/
def exampleActs : List PaneAct := List.replicate 10 .up ++ [.print 3 4, .last, .up, .down]

example : PaneAct.clear ∉ exampleActs ∧ ∀ l r, PaneAct.print l r ∈ exampleActs → l ≤ r := by
  simp [exampleActs]
example : ((Pane.new 10 false).step (.print 30 31)).run exampleActs = ⟨33, 35, 10, false, 22, 9⟩ := by decide +kernel
example : ((Pane.new 10 true).step (.print 30 31)).run exampleActs = ⟨33, 35, 10, true, 25, 9⟩ := by decide +kernel
/-- Thirty lines in the message window, cleared: five more lines are not seen. -/
example : (((Pane.new 10 true).step (.print 30 30)).run [.clear, .print 5 5]).oy = 20 := by decide

end Saratoga
