import Verif.Model.Screen
import Verif.Spec.Screen
/-! # Properties C101 to C104: windows, colours, printing, layout -/
namespace Saratoga

/-! ## C104 -/

/-- The rectangle contains the cell. -/
def Rect.Has (r : Rect) (x y : Int) : Prop := r.x0 ≤ x ∧ x ≤ r.x1 ∧ r.y0 ≤ y ∧ y ≤ r.y1

/-- **C104** The layout succeeds exactly on screens of at least twelve columns and twelve rows. -/
theorem C104_size (maxx maxy : Nat) : layoutOk maxx maxy = true ↔ 12 ≤ maxx ∧ 12 ≤ maxy := by
  simp only [layoutOk, windowNames, List.all_cons, List.all_nil, windowRect, Rect.ok, Bool.and_true, Bool.and_eq_true,
    decide_eq_true_eq]
  omega

/-- **C104** On such a screen every cell belongs to exactly one of the windows for commands, errors and messages, these
lie on the screen, and the packet window lies strictly inside the message window. -/
theorem C104_tiles (maxx maxy : Nat) (hx : 12 ≤ maxx) (hy : 12 ≤ maxy) :
    ∃ cmd err msg packet, windowRect maxx maxy "cmd" = some cmd ∧ windowRect maxx maxy "err" = some err ∧
      windowRect maxx maxy "msg" = some msg ∧ windowRect maxx maxy "packet" = some packet ∧
      (∀ x y : Int, (0 ≤ x ∧ x < maxx ∧ 0 ≤ y ∧ y < maxy) ↔ (cmd.Has x y ∨ err.Has x y ∨ msg.Has x y)) ∧
      (∀ x y : Int, ¬(cmd.Has x y ∧ err.Has x y) ∧ ¬(cmd.Has x y ∧ msg.Has x y) ∧ ¬(err.Has x y ∧ msg.Has x y)) ∧
      ∀ x y : Int, packet.Has x y → msg.Has (x - 1) (y - 1) ∧ msg.Has (x + 1) (y + 1) := by
  refine ⟨_, _, _, _, rfl, rfl, rfl, rfl, ?_, ?_, ?_⟩
  · intro x y; simp only [Rect.Has]; omega
  · intro x y; simp only [Rect.Has]; omega
  · intro x y; simp only [Rect.Has]; omega

example : layoutOk 80 24 = true ∧ layoutOk 80 11 = false := by decide

/-! ## C101 -/

/-- Every cell of the window belongs to a window above it. -/
def Screen.Hidden (maxx maxy : Nat) (s : Screen) (w : String) : Prop :=
  ∃ v r q, [w, v].Sublist s.order ∧ windowRect maxx maxy w = some r ∧ windowRect maxx maxy v = some q ∧
    ∀ x y, r.Has x y → q.Has x y

/-- All orders of the four windows. -/
def windowOrders : List (List String) :=
  [["cmd", "err", "packet", "msg"], ["cmd", "err", "msg", "packet"], ["cmd", "packet", "err", "msg"],
   ["cmd", "packet", "msg", "err"], ["cmd", "msg", "err", "packet"], ["cmd", "msg", "packet", "err"],
   ["err", "cmd", "packet", "msg"], ["err", "cmd", "msg", "packet"], ["err", "packet", "cmd", "msg"],
   ["err", "packet", "msg", "cmd"], ["err", "msg", "cmd", "packet"], ["err", "msg", "packet", "cmd"],
   ["packet", "cmd", "err", "msg"], ["packet", "cmd", "msg", "err"], ["packet", "err", "cmd", "msg"],
   ["packet", "err", "msg", "cmd"], ["packet", "msg", "cmd", "err"], ["packet", "msg", "err", "cmd"],
   ["msg", "cmd", "err", "packet"], ["msg", "cmd", "packet", "err"], ["msg", "err", "cmd", "packet"],
   ["msg", "err", "packet", "cmd"], ["msg", "packet", "cmd", "err"], ["msg", "packet", "err", "cmd"]]

/-- The packet window is above the message window exactly if it is to be shown. -/
def Screen.Good (s : Screen) : Prop :=
  s.current ∈ windowNames ∧ s.order ∈ windowOrders ∧
  (if s.showpacket then ["msg", "packet"].isSublist s.order else ["packet", "msg"].isSublist s.order) = true

instance (s : Screen) : Decidable s.Good := by unfold Screen.Good; infer_instance

theorem good_step_all : ∀ c ∈ windowNames, ∀ o ∈ windowOrders, ∀ b : Bool, (Screen.mk c o b).Good →
    ((Screen.mk c o b).step .rotate).Good ∧ ((Screen.mk c o b).step .packet).Good := by
  decide +kernel

theorem good_step (s : Screen) (h : s.Good) (k : WindowKey) : (s.step k).Good := by
  obtain ⟨c, o, b⟩ := s
  have := good_step_all c h.1 o h.2.1 b h
  cases k with
  | rotate => exact this.1
  | packet => exact this.2
  | clear w => exact h

theorem good_run (keys : List WindowKey) (s : Screen) (h : s.Good) : (s.run keys).Good := by
  induction keys generalizing s with
  | nil => exact h
  | cons k rest ih => exact ih _ (good_step s h k)

theorem good_init : Screen.init.Good := by decide

theorem hidden_iff {maxx maxy : Nat} (hx : 12 ≤ maxx) (hy : 12 ≤ maxy) {s : Screen} (h : s.Good) (w : String) :
    s.Hidden maxx maxy w ↔ w = "packet" ∧ s.showpacket = false := by
  obtain ⟨c, o, b⟩ := s
  obtain ⟨h1, h2, h3⟩ := h
  have only : ∀ w v r q, windowRect maxx maxy w = some r → windowRect maxx maxy v = some q →
      (∀ x y, r.Has x y → q.Has x y) → (w = "packet" ∧ v = "msg") ∨ w = v := by
    intro w v r q hw hv inside
    have corner := inside r.x0 r.y0
    have corner2 := inside r.x1 r.y1
    unfold windowRect at hw hv
    simp only [Rect.Has] at corner corner2
    split at hw <;> split at hv <;> cases hw <;> cases hv <;>
      first | exact .inr rfl | exact .inl ⟨rfl, rfl⟩ | (exfalso; simp only at corner corner2; omega)
  have dup : ∀ o ∈ windowOrders, o.Nodup := by decide +kernel
  have both : ∀ o ∈ windowOrders, ["msg", "packet"].isSublist o = true → ["packet", "msg"].isSublist o = false := by
    decide +kernel
  constructor
  · rintro ⟨v, r, q, sub, hw, hv, inside⟩
    rcases only w v r q hw hv inside with ⟨rfl, rfl⟩ | rfl
    · refine ⟨rfl, ?_⟩
      cases b with
      | false => rfl
      | true =>
        have h4 : ["msg", "packet"].isSublist o = true := h3
        have h5 := both o h2 h4
        have h6 := List.isSublist_iff_sublist.2 sub
        rw [h5] at h6; cases h6
    · exact absurd (sub.nodup (dup o h2)) (by simp)
  · rintro ⟨rfl, hb⟩
    cases hb
    have h4 : ["packet", "msg"].isSublist o = true := h3
    refine ⟨"msg", _, _, List.isSublist_iff_sublist.1 h4, rfl, rfl, ?_⟩
    intro x y
    simp only [Rect.Has]
    omega

/-- How often the key for the packet window was pressed. -/
def packetKeys (keys : List WindowKey) : Nat := keys.countP fun k => match k with | .packet => true | _ => false

theorem showpacket_run (keys : List WindowKey) (s : Screen) :
    (s.run keys).showpacket = (s.showpacket ^^ (packetKeys keys % 2 == 1)) := by
  induction keys generalizing s with
  | nil => simp [Screen.run, packetKeys]
  | cons k rest ih =>
    rw [Screen.run, ih]
    cases k with
    | rotate =>
      have : (s.step .rotate).showpacket = s.showpacket := by
        show (s.setCurrent _).showpacket = _
        unfold Screen.setCurrent; split <;> rfl
      rw [this]; rfl
    | clear w => rfl
    | packet =>
      show (!s.showpacket ^^ _) = _
      have : packetKeys (.packet :: rest) = packetKeys rest + 1 := by
        unfold packetKeys; rw [List.countP_cons_of_pos rfl]
      rw [this]
      rcases Nat.mod_two_eq_zero_or_one (packetKeys rest) with h | h
      · rw [h, Nat.add_mod, h]; cases s.showpacket <;> rfl
      · rw [h, Nat.add_mod, h]; cases s.showpacket <;> rfl

/-- **C101** Whatever keys are pressed, the packet window can be seen exactly after an odd number of presses of its key,
and the other windows always. -/
theorem C101_visible (maxx maxy : Nat) (fits : layoutOk maxx maxy = true) (keys : List WindowKey) (w : String) :
    (Screen.init.run keys).Hidden maxx maxy w ↔ w = "packet" ∧ packetKeys keys % 2 = 0 := by
  obtain ⟨hx, hy⟩ := (C104_size maxx maxy).1 fits
  rw [hidden_iff hx hy (good_run keys _ good_init), showpacket_run]
  show w = "packet" ∧ (false ^^ (packetKeys keys % 2 == 1)) = false ↔ _
  rcases Nat.mod_two_eq_zero_or_one (packetKeys keys) with h | h <;> simp [h]

/-- The windows one is in while rotating `n` times. -/
def Screen.tour (s : Screen) : Nat → List String
  | 0 => []
  | n + 1 => s.current :: (s.step .rotate).tour n

/-- **C101** In any state, as many rotations as there are windows to see visit each of them once and lead back; a user
in a packet window that is not shown is out of it after one. -/
theorem C101_cycle (keys : List WindowKey) :
    let s := Screen.init.run keys
    (s.showpacket = true → (s.tour 4).Perm ["cmd", "err", "msg", "packet"] ∧
      (s.run (List.replicate 4 .rotate)).current = s.current) ∧
    (s.showpacket = false → s.current ≠ "packet" → (s.tour 3).Perm ["cmd", "err", "msg"] ∧
      (s.run (List.replicate 3 .rotate)).current = s.current) ∧
    (s.showpacket = false → s.current = "packet" → (s.step .rotate).current = "err") := by
  intro s
  have h := good_run keys _ good_init
  have all : ∀ c ∈ windowNames, ∀ o ∈ windowOrders, ∀ b : Bool,
      ((b = true → ((Screen.mk c o b).tour 4).isPerm ["cmd", "err", "msg", "packet"] = true ∧
        ((Screen.mk c o b).run [.rotate, .rotate, .rotate, .rotate]).current = c) ∧
      (b = false → c ≠ "packet" → ((Screen.mk c o b).tour 3).isPerm ["cmd", "err", "msg"] = true ∧
        ((Screen.mk c o b).run [.rotate, .rotate, .rotate]).current = c) ∧
      (b = false → c = "packet" → ((Screen.mk c o b).step .rotate).current = "err")) := by
    decide +kernel
  have h' := all s.current h.1 s.order h.2.1 s.showpacket
  exact ⟨fun e => ⟨List.isPerm_iff.1 (h'.1 e).1, (h'.1 e).2⟩,
    fun e n => ⟨List.isPerm_iff.1 (h'.2.1 e n).1, (h'.2.1 e n).2⟩, h'.2.2⟩

/-- **C101** (partial.) The user's window can be seen unless it is the packet window. Missing: the packet window, see
`C101_counterexample`. -/
theorem C101_current_partial (maxx maxy : Nat) (fits : layoutOk maxx maxy = true) (keys : List WindowKey)
    (other : (Screen.init.run keys).current ≠ "packet") :
    ¬(Screen.init.run keys).Hidden maxx maxy (Screen.init.run keys).current := by
  rw [C101_visible maxx maxy fits keys]
  exact fun h => other h.1

/-- **C101** The user's window need not be one they can see: two rotations into the packet window, and its key again. -/
theorem C101_counterexample (maxx maxy : Nat) (fits : layoutOk maxx maxy = true) :
    ∃ keys, (Screen.init.run keys).Hidden maxx maxy (Screen.init.run keys).current := by
  refine ⟨[.packet, .rotate, .rotate, .packet], ?_⟩
  rw [C101_visible maxx maxy fits]
  decide

/-! ## C103 -/

/-- The texts of the prints. -/
def printed : List PrintStep → List String
  | [] => []
  | .print t :: rest => t :: printed rest
  | .show _ :: rest => printed rest

theorem eraseIdx_perm {α : Type} : ∀ {l : List α} {i : Nat} {a : α}, l[i]? = some a → l.Perm (a :: l.eraseIdx i)
  | b :: l, 0, a, h => by cases h; exact .refl _
  | b :: l, i + 1, a, h => ((eraseIdx_perm (l := l) h).cons b).trans (.swap ..)

/-- **C103** Whatever the order in which the main loop takes them, every text printed is waiting or was shown once and
whole; nothing else is shown. -/
theorem C103_once (steps : List PrintStep) :
    let p := Printer.run ⟨[], []⟩ steps
    (p.shown ++ p.pending).Perm (printed steps) := by
  have inv : ∀ (steps : List PrintStep) (p : Printer),
      ((p.run steps).shown ++ (p.run steps).pending).Perm (p.shown ++ p.pending ++ printed steps) := by
    intro steps
    induction steps with
    | nil => intro p; simp [printed, Printer.run]
    | cons s rest ih =>
      intro p
      refine (ih (p.step s)).trans ?_
      cases s with
      | print t => simp [printed, Printer.step]
      | «show» i =>
        show ((p.step (.show i)).shown ++ (p.step (.show i)).pending ++ printed rest).Perm
          (p.shown ++ p.pending ++ printed rest)
        refine List.Perm.append_right _ ?_
        unfold Printer.step
        cases h : p.pending[i]? with
        | none => simp only [h]; exact .refl _
        | some t =>
          simp only [h]
          rw [List.append_assoc]
          exact List.Perm.append_left _ (eraseIdx_perm h).symm
  intro p
  have := inv steps ⟨[], []⟩
  simpa using this

/-- **C103** (partial.) If each text is shown before the next is printed, the order is kept. Missing: texts printed one
after the other, see `C103_counterexample`. -/
theorem C103_order_partial (texts : List String) :
    Printer.run ⟨[], []⟩ (texts.flatMap fun t => [.print t, .show 0]) = ⟨[], texts⟩ := by
  have inv : ∀ (texts shown : List String),
      Printer.run ⟨[], shown⟩ (texts.flatMap fun t => [.print t, .show 0]) = ⟨[], shown ++ texts⟩ := by
    intro texts
    induction texts with
    | nil => intro shown; simp [Printer.run]
    | cons t rest ih =>
      intro shown
      rw [List.flatMap_cons]
      show Printer.run ⟨[], shown ++ [t]⟩ (rest.flatMap fun t => [.print t, .show 0]) = _
      rw [ih]; simp
  simpa using inv texts []

/-- **C103** Two texts printed one after the other can be shown in the other order, whatever they are: the prompt before
the answer to the command. -/
theorem C103_counterexample (a b : String) :
    (Printer.run ⟨[], []⟩ [.print a, .print b, .show 1, .show 0]) = ⟨[], [b, a]⟩ := rfl

/-! ## C102 -/

/-- The eight colours in the order of their numbers. -/
def baseColours : List String := ["black", "red", "green", "yellow", "blue", "magenta", "cyan", "white"]

/-- The look a colour name stands for: fore and background by number; the letter before the foreground is `u` for
underlined and `i` for inverted, the letter before the background `b` for bright. As the program has it, colours without
a letter are bold and bright backgrounds are underlined. -/
def lookOf (p : String) (i : Nat) (q : String) (j : Nat) : Look :=
  { fg := some i, bg := some j, bold := p = "" ∨ q = "", underline := p = "u" ∨ q = "b", reverse := p = "i" }

/-- The known names. -/
def colourName (p : String) (i : Nat) (q : String) (j : Nat) : String :=
  p ++ baseColours[i]! ++ "_" ++ q ++ baseColours[j]!

theorem setcolour_looks : ∀ p ∈ ["", "u", "i"], ∀ i ∈ List.range 8, ∀ q ∈ ["", "b"], ∀ j ∈ List.range 8,
    Term.blank.write (setcolour (colourName p i q j)) = ⟨.plain, lookOf p i q j, []⟩ ∧
    colourName p i q j ≠ "" := by
  decide +kernel

theorem write_append (t : Term) (a b : String) : t.write (a ++ b) = (t.write a).write b := by
  unfold Term.write; rw [String.toList_append, List.foldl_append]

theorem write_plain (l : Look) (d : List (Char × Look)) (text : String) (plain : '\x1b' ∉ text.toList) :
    Term.write ⟨.plain, l, d⟩ text = ⟨.plain, l, d ++ text.toList.map fun c => (c, l)⟩ := by
  unfold Term.write
  generalize text.toList = cs at plain
  induction cs generalizing d with
  | nil => simp
  | cons c cs ih =>
    rw [List.foldl_cons]
    have hc : c ≠ '\x1b' := fun h => plain (h ▸ List.mem_cons_self ..)
    have : Term.put ⟨.plain, l, d⟩ c = ⟨.plain, l, d ++ [(c, l)]⟩ := by simp [Term.put, hc]
    rw [this, ih _ fun h => plain (List.mem_cons_of_mem _ h)]
    simp

theorem write_off (l : Look) (d : List (Char × Look)) :
    Term.write ⟨.plain, l, d⟩ (setcolour "off") = ⟨.plain, .default, d⟩ := by
  have : (setcolour "off").toList = ['\x1b', '[', '0', 'm'] := by decide
  unfold Term.write
  rw [this]
  rfl

/-- **C102** (partial.) Text without escapes of its own, printed in a known colour, is shown in that colour, all of it,
and afterwards the terminal is as before. Missing: text with escapes. -/
theorem C102_shown_partial (p q : String) (i j : Nat) (hp : p ∈ ["", "u", "i"]) (hq : q ∈ ["", "b"]) (hi : i < 8)
    (hj : j < 8) (text : String) (plain : '\x1b' ∉ text.toList) :
    Term.blank.write (colouredText (colourName p i q j) text) =
      ⟨.plain, .default, text.toList.map fun c => (c, lookOf p i q j)⟩ := by
  obtain ⟨h, ne⟩ := setcolour_looks p hp i (List.mem_range.2 hi) q hq j (List.mem_range.2 hj)
  unfold colouredText
  rw [if_pos ne, write_append, write_append, h, write_plain _ _ _ plain, write_off]
  rfl

theorem split_ne {c : Char} (l : List Char) : splitChars c l ≠ [] := by
  cases l with
  | nil => simp [splitChars]
  | cons y l => unfold splitChars; split; simp; split <;> simp

theorem split_one {c : Char} : ∀ {l f : List Char}, splitChars c l = [f] → l = f
  | [], f, h => by cases h; rfl
  | x :: l, f, h => by
    unfold splitChars at h
    split at h
    · simp at h; exact absurd h.2 (split_ne l)
    · cases hs : splitChars c l with
      | nil => exact absurd hs (split_ne l)
      | cons g gs =>
        rw [hs] at h
        simp at h
        obtain ⟨rfl, rfl⟩ := h
        rw [← split_one hs]

theorem split_two {c : Char} : ∀ {l f b : List Char}, splitChars c l = [f, b] → l = f ++ c :: b
  | [], f, b, h => by simp [splitChars] at h
  | x :: l, f, b, h => by
    unfold splitChars at h
    split at h
    · rename_i hx
      simp at h
      obtain ⟨rfl, h⟩ := h
      rw [split_one h, hx]; rfl
    · cases hs : splitChars c l with
      | nil => exact absurd hs (split_ne l)
      | cons g gs =>
        rw [hs] at h
        simp at h
        obtain ⟨rfl, rfl⟩ := h
        rw [split_two hs]; rfl

/-- The known foregrounds and backgrounds. -/
def fgNames : List String := baseColours ++ baseColours.map ("u" ++ ·) ++ baseColours.map ("i" ++ ·)
def bgNames : List String := baseColours ++ baseColours.map ("b" ++ ·)

theorem assoc_keys {α : Type} : ∀ (k : String) (m : List (String × α)), (assoc k m).isSome = true → k ∈ m.map Prod.fst
  | k, [], h => by simp [assoc] at h
  | k, (a, b) :: m, h => by
    unfold assoc at h
    split at h
    · rename_i e; simp_all
    · exact List.mem_cons_of_mem _ (assoc_keys k m h)

/-- **C102** A name without background stands for a black one; every name that is not known is shown as white on bright
red. -/
theorem C102_others :
    (∀ f ∈ fgNames, setcolour f = setcolour (f ++ "_black")) ∧
    ∀ colour : String, colour ∉ ["", "none", "off"] → colour ∉ fgNames →
      (∀ f ∈ fgNames, ∀ b ∈ bgNames, colour ≠ f ++ "_" ++ b) → setcolour colour = setcolour "white_bred" := by
  refine ⟨by decide +kernel, ?_⟩
  intro colour h0 h1 h2
  have alarm : setcolour "white_bred" = colourSequence (assoc "white" fgTable) (assoc "bred" bgTable) := by decide +kernel
  rw [alarm]
  simp only [List.mem_cons, List.not_mem_nil, or_false, not_or] at h0
  unfold setcolour
  rw [if_neg (by simp [h0]), if_neg h0.2.2]
  have hf : ∀ f, (assoc f fgTable).isSome = true → f ∈ fgNames := by
    intro f h
    exact (show fgTable.map Prod.fst = fgNames by decide +kernel) ▸ assoc_keys f _ h
  have hb : ∀ f, (assoc f bgTable).isSome = true → f ∈ bgNames := by
    intro f h
    exact (show bgTable.map Prod.fst = bgNames by decide +kernel) ▸ assoc_keys f _ h
  unfold strSplit
  dsimp only
  match hs : splitChars '_' colour.toList with
  | [] => exact absurd hs (split_ne _)
  | [f] =>
    have e : colour = String.ofList f := by rw [← split_one hs]; simp
    simp only [List.map_cons, List.map_nil]
    rw [if_neg fun h => h1 (e ▸ hf _ h)]
  | [f, b] =>
    have e : colour = String.ofList f ++ "_" ++ String.ofList b := by
      rw [← String.toList_inj, split_two hs]; simp
    simp only [List.map_cons, List.map_nil]
    rw [if_neg fun h => h2 _ (hf _ h.1) _ (hb _ h.2) e]
  | _ :: _ :: _ :: _ => rfl

/-- **C102** With the colour `none`, `off` or no colour, text is shown as the terminal shows it, escapes of its own
apart; a line ends the same way in every colour, with a line end that is not coloured. -/
theorem C102_plain (text : String) (plain : '\x1b' ∉ text.toList) :
    (∀ colour ∈ ["", "none", "off"], Term.blank.write (colouredText colour text) =
      ⟨.plain, .default, text.toList.map fun c => (c, .default)⟩) ∧
    ∀ p ∈ ["", "u", "i"], ∀ q ∈ ["", "b"], ∀ i j, i < 8 → j < 8 →
      Term.blank.write (colouredLine (colourName p i q j) text) =
        ⟨.plain, .default, (text.toList.map fun c => (c, lookOf p i q j)) ++ [('\n', .default)]⟩ := by
  refine ⟨?_, ?_⟩
  · intro colour hc
    simp only [List.mem_cons, List.not_mem_nil, or_false] at hc
    have none_ : setcolour "none" = "" := by decide +kernel
    have empty : setcolour "" = "" := by decide +kernel
    have start : ∀ s, Term.blank.write s = Term.write ⟨.plain, .default, []⟩ s := fun _ => rfl
    unfold colouredText
    rcases hc with rfl | rfl | rfl
    · rw [empty, if_neg (by simp), String.append_empty, String.empty_append, start, write_plain _ _ _ plain]; rfl
    · rw [none_, if_pos (by decide), String.empty_append, write_append, start, write_plain _ _ _ plain, write_off]; rfl
    · rw [if_pos (by decide), write_append, write_append, start, write_off, write_plain _ _ _ plain, write_off]; rfl
  · intro p hp q hq i j hi hj
    unfold colouredLine
    rw [write_append, C102_shown_partial p q i j hp hq hi hj text plain, write_plain _ _ _ (by decide)]
    rfl

/-- **C102** Different colours can look alike: red on bright black, which the program uses, is underlined red on black.
And text with an escape, such as a file name from the network, is not shown in the colour asked for. -/
theorem C102_counterexample :
    lookOf "" 1 "b" 0 = lookOf "u" 1 "" 0 ∧
    Term.blank.write (colouredText "green_black" "a\x1b[31mb") =
      ⟨.plain, .default, [('a', ⟨some 2, some 0, true, false, false⟩), ('b', ⟨some 1, some 0, true, false, false⟩)]⟩ := by
  refine ⟨by decide, by decide +kernel⟩

example : Term.blank.write (colouredText "green_black" "ok") =
    ⟨.plain, .default, [('o', ⟨some 2, some 0, true, false, false⟩), ('k', ⟨some 2, some 0, true, false, false⟩)]⟩ :=
  C102_shown_partial "" "" 2 0 (by decide) (by decide) (by decide) (by decide) "ok" (by decide)

end Saratoga
