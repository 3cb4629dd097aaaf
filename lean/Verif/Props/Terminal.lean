import Verif.Model.Terminal
import Verif.Props.Console
import Verif.Props.Screen
import Verif.Props.Scroll
/-!
# C125: a key acts on the window the user is in
-/
namespace Saratoga

/-! ## Lemmas -/

theorem Console.draw_draw (c : Console) : c.draw.draw = c.draw := by
  by_cases h : c.lines.length > c.height
  · have e : c.draw = { c with oy := c.lines.length - c.height } := if_pos h
    rw [e]
    unfold Console.draw
    rw [if_pos h]
  · have e : c.draw = c := if_neg h
    rw [e, e]

theorem Terminal.draw_draw (t : Terminal) : t.draw.draw = t.draw := by
  simp only [Terminal.draw, Console.draw_draw, Pane.draw_draw]

/-- After an event: all windows drawn, and the screen as `C101` has it. -/
structure Terminal.Settled (t : Terminal) : Prop where
  drawn : t.draw = t
  good : t.screen.Good

theorem Terminal.last_screen (t : Terminal) (w : String) : (t.last w).1.screen = t.screen := by
  unfold Terminal.last; split <;> rfl

theorem Terminal.down_screen (t : Terminal) : t.down.screen = t.screen := by
  unfold Terminal.down; split <;> rfl

theorem Terminal.up_screen (t : Terminal) : t.up.screen = t.screen := by
  unfold Terminal.up; split <;> rfl

theorem Terminal.inCmd_screen (t : Terminal) (f : Console → Console) : (t.inCmd f).screen = t.screen := by
  unfold Terminal.inCmd; split <;> rfl

theorem Terminal.switch_screen (t : Terminal) : t.switch.1.screen = t.screen.step .rotate := Terminal.last_screen _ _

theorem pressed_all (k : BoundKey) : pressed (keybindings fun _ => none).1 k = some (match k with
    | .ctrlSpace => .switchView
    | .arrowDown => .cursorDown
    | .arrowUp => .cursorUp
    | .arrowLeft => .cursorLeft
    | .arrowRight => .cursorRight
    | .ctrlP => .showPacket
    | .ctrlC => .quit
    | .enter => .getLine
    | .backspace => .backSpace
    | .backspace2 => .backSpace
    | .delete => .backSpace) := by
  cases k <;> rfl

theorem act_good {commands handlers : List String} {t u : Terminal} {a : KeyAction} {rs : List RunEnd} {notes : List String}
    (h : t.act commands handlers a = .ret (.on u rs notes)) (g : t.screen.Good) : u.screen.Good := by
  cases a with
  | switchView =>
    have : u = t.switch.1 := by
      simp only [Terminal.act, Out.ret.injEq, TermEnd.on.injEq] at h
      exact h.1.symm
    rw [this, Terminal.switch_screen]
    exact good_step _ g _
  | cursorDown => cases h; rw [Terminal.down_screen]; exact g
  | cursorUp => cases h; rw [Terminal.up_screen]; exact g
  | cursorLeft => cases h; rw [Terminal.inCmd_screen]; exact g
  | cursorRight => cases h; rw [Terminal.inCmd_screen]; exact g
  | showPacket => cases h; exact good_step _ g _
  | quit => cases h
  | getLine =>
    simp only [Terminal.act] at h
    split at h
    · obtain ⟨⟨c, rs'⟩, _, h2⟩ := Out.bind_eq_ret h
      cases h2; exact g
    · cases h; rw [Terminal.down_screen]; exact g
  | backSpace => cases h; rw [Terminal.inCmd_screen]; exact g

theorem press_key {commands handlers : List String} {t u : Terminal} {k : BoundKey} {a : KeyAction} {rs : List RunEnd}
    {notes : List String} (ha : pressed (keybindings fun _ => none).1 k = some a)
    (h : t.press commands handlers (.key k) = .ret (.on u rs notes)) :
    ∃ v, t.act commands handlers a = .ret (.on v rs notes) ∧ u = v.draw := by
  simp only [Terminal.press, ha] at h
  obtain ⟨e, he, h2⟩ := Out.bind_eq_ret h
  cases e with
  | quit => cases h2
  | on v rs' notes' => cases h2; exact ⟨v, he, rfl⟩

theorem step_settled {commands handlers : List String} {t u : Terminal} {e : TermEvent} {rs : List RunEnd}
    {notes : List String} (h : t.step commands handlers e = .ret (.on u rs notes)) (s : t.Settled) : u.Settled := by
  have key : ∀ v : Terminal, v.draw = u → v.screen.Good → u.Settled := by
    intro v hv g
    subst hv
    exact ⟨Terminal.draw_draw v, g⟩
  unfold Terminal.step at h
  split at h
  · next k =>
    cases k with
    | key k =>
      obtain ⟨v, h1, h2⟩ := press_key (pressed_all k) h
      exact key v h2.symm (act_good h1 s.good)
    | char c =>
      cases h
      exact key _ rfl (by rw [Terminal.inCmd_screen]; exact s.good)
  all_goals
    cases h
    exact key _ rfl s.good

theorem run_settled {commands handlers : List String} (es : List TermEvent) : ∀ {t u : Terminal} {rs : List RunEnd}
    {notes : List String}, t.run commands handlers es = .ret (.on u rs notes) → t.Settled → u.Settled := by
  induction es with
  | nil => intro t u rs notes h s; cases h; exact s
  | cons e es ih =>
    intro t u rs notes h s
    obtain ⟨x, hx, h2⟩ := Out.bind_eq_ret h
    cases x with
    | quit => cases h2
    | on v rs' notes' =>
      obtain ⟨y, hy, h3⟩ := Out.bind_eq_ret h2
      cases y with
      | quit => cases h3
      | on w rs'' notes'' =>
        cases h3
        exact ih hy (step_settled hx s)

theorem start_settled (prompt : String) (ppad : Int) (width a b c d : Nat) :
    (Terminal.start prompt ppad width a b c d).Settled := by
  refine ⟨?_, good_init⟩
  simp only [Terminal.draw, Terminal.start, Console.start, Console.draw_draw]
  congr 1

/-! ## The property -/

/-- What the user sees of one window: the command window, or one of the others. -/
def Terminal.window (t : Terminal) (w : String) : Option (Console ⊕ Pane) :=
  if w = "cmd" then some (.inl t.cmd)
  else if w = "msg" then some (.inr t.msg)
  else if w = "err" then some (.inr t.err)
  else if w = "packet" then some (.inr t.packet)
  else none

theorem window_eq {t u : Terminal} {w : String} (h1 : w = "cmd" → t.cmd = u.cmd) (h2 : w = "msg" → t.msg = u.msg)
    (h3 : w = "err" → t.err = u.err) (h4 : w = "packet" → t.packet = u.packet) : t.window w = u.window w := by
  unfold Terminal.window
  split
  · next h => rw [h1 h]
  · split
    · next h => rw [h2 h]
    · split
      · next h => rw [h3 h]
      · split
        · next h => rw [h4 h]
        · rfl

theorem Terminal.Settled.cmd {t : Terminal} (s : t.Settled) : t.cmd.draw = t.cmd := congrArg Terminal.cmd s.drawn
theorem Terminal.Settled.msg {t : Terminal} (s : t.Settled) : t.msg.draw = t.msg := congrArg Terminal.msg s.drawn
theorem Terminal.Settled.err {t : Terminal} (s : t.Settled) : t.err.draw = t.err := congrArg Terminal.err s.drawn
theorem Terminal.Settled.packet {t : Terminal} (s : t.Settled) : t.packet.draw = t.packet := congrArg Terminal.packet s.drawn

theorem down_window {t : Terminal} (s : t.Settled) {w : String} (other : w ≠ t.screen.current) :
    t.down.draw.window w = t.window w := by
  apply window_eq <;> intro hw <;> subst hw <;> unfold Terminal.down <;> split <;>
    first
      | (next h => exact absurd h.symm other)
      | exact s.cmd
      | exact s.msg
      | exact s.err
      | exact s.packet

theorem up_window {t : Terminal} (s : t.Settled) {w : String} (other : w ≠ t.screen.current) :
    t.up.draw.window w = t.window w := by
  apply window_eq <;> intro hw <;> subst hw <;> unfold Terminal.up <;> split <;>
    first
      | (next h => exact absurd h.symm other)
      | exact s.cmd
      | exact s.msg
      | exact s.err
      | exact s.packet

theorem inCmd_window {t : Terminal} (s : t.Settled) {w : String} (other : w ≠ t.screen.current) (f : Console → Console) :
    (t.inCmd f).draw.window w = t.window w := by
  apply window_eq <;> intro hw <;> subst hw <;> unfold Terminal.inCmd <;> split <;>
    first
      | (next h => exact absurd h.symm other)
      | exact s.cmd
      | exact s.msg
      | exact s.err
      | exact s.packet

theorem same_window {t u : Terminal} (s : t.Settled) (w : String) (h1 : u.cmd = t.cmd) (h2 : u.msg = t.msg)
    (h3 : u.err = t.err) (h4 : u.packet = t.packet) : u.draw.window w = t.window w := by
  apply window_eq <;> intro _ <;> simp only [Terminal.draw, h1, h2, h3, h4]
  · exact s.cmd
  · exact s.msg
  · exact s.err
  · exact s.packet

/-- **C125** (partial: every key but Ctrl-Space.) Whatever has happened, a key leaves every window the user is not in as
it was, and the user stays in their window. Missing: Ctrl-Space, see `C125_counterexample`. -/
theorem C125_only_here_partial (commands handlers : List String) (prompt : String) (ppad : Int) (width a b c d : Nat)
    (events : List TermEvent) (t : Terminal) (rs : List RunEnd) (notes : List String)
    (reached : (Terminal.start prompt ppad width a b c d).run commands handlers events = .ret (.on t rs notes))
    (k : TermKey) (stays : k ≠ .key .ctrlSpace) (u : Terminal) (rs' : List RunEnd) (notes' : List String)
    (h : t.press commands handlers k = .ret (.on u rs' notes')) :
    u.screen.current = t.screen.current ∧ (∀ w, w ≠ t.screen.current → u.window w = t.window w) ∧ notes' = [] := by
  have s := run_settled events reached (start_settled prompt ppad width a b c d)
  cases k with
  | char ch =>
    cases h
    exact ⟨congrArg Screen.current (Terminal.inCmd_screen t _), fun w hw => inCmd_window s hw _, rfl⟩
  | key k =>
    obtain ⟨v, h1, h2⟩ := press_key (pressed_all k) h
    subst h2
    cases k with
    | ctrlSpace => exact absurd rfl stays
    | arrowDown => cases h1; exact ⟨congrArg Screen.current (Terminal.down_screen t), fun w hw => down_window s hw, rfl⟩
    | arrowUp => cases h1; exact ⟨congrArg Screen.current (Terminal.up_screen t), fun w hw => up_window s hw, rfl⟩
    | arrowLeft => cases h1; exact ⟨congrArg Screen.current (Terminal.inCmd_screen t _), fun w hw => inCmd_window s hw _, rfl⟩
    | arrowRight => cases h1; exact ⟨congrArg Screen.current (Terminal.inCmd_screen t _), fun w hw => inCmd_window s hw _, rfl⟩
    | ctrlP => cases h1; exact ⟨rfl, fun w _ => same_window s w rfl rfl rfl rfl, rfl⟩
    | ctrlC => cases h1
    | enter =>
      simp only [Terminal.act] at h1
      split at h1
      · next hc =>
        obtain ⟨⟨e, es⟩, _, h3⟩ := Out.bind_eq_ret h1
        cases h3
        refine ⟨rfl, fun w hw => ?_, rfl⟩
        rw [hc] at hw
        exact window_eq (fun h => absurd h hw) (fun _ => s.msg) (fun _ => s.err) (fun _ => s.packet)
      · cases h1; exact ⟨congrArg Screen.current (Terminal.down_screen t), fun w hw => down_window s hw, rfl⟩
    | backspace => cases h1; exact ⟨congrArg Screen.current (Terminal.inCmd_screen t _), fun w hw => inCmd_window s hw _, rfl⟩
    | backspace2 => cases h1; exact ⟨congrArg Screen.current (Terminal.inCmd_screen t _), fun w hw => inCmd_window s hw _, rfl⟩
    | delete => cases h1; exact ⟨congrArg Screen.current (Terminal.inCmd_screen t _), fun w hw => inCmd_window s hw _, rfl⟩

/-- The keys that do nothing outside the command window. -/
def TermKey.editing : TermKey → Bool
  | .char _ | .key .arrowLeft | .key .arrowRight | .key .backspace | .key .backspace2 | .key .delete => true
  | _ => false

/-- **C125** Outside the command window, characters, the arrows left and right and the erasing keys change nothing in any
window, and Enter is the arrow down; neither starts a command. -/
theorem C125_elsewhere (commands handlers : List String) (prompt : String) (ppad : Int) (width a b c d : Nat)
    (events : List TermEvent) (t : Terminal) (rs : List RunEnd) (notes : List String)
    (reached : (Terminal.start prompt ppad width a b c d).run commands handlers events = .ret (.on t rs notes))
    (outside : t.screen.current ≠ "cmd") :
    (∀ k : TermKey, k.editing = true → t.press commands handlers k = .ret (.on t [] [])) ∧
    t.press commands handlers (.key .enter) = t.press commands handlers (.key .arrowDown) ∧
    ∃ u, t.press commands handlers (.key .arrowDown) = .ret (.on u [] []) := by
  have s := run_settled events reached (start_settled prompt ppad width a b c d)
  have hi : ∀ f, (t.inCmd f).draw = t := by
    intro f
    rw [Terminal.inCmd, if_neg outside]
    exact s.drawn
  refine ⟨?_, ?_, ?_⟩
  · intro k hk
    cases k with
    | char ch => simp only [Terminal.press, TermEnd.draw, hi]
    | key k =>
      cases k with
      | arrowLeft | arrowRight | backspace | backspace2 | delete =>
        simp only [Terminal.press, pressed_all, Terminal.act, bind, Out.bind, pure, TermEnd.draw, hi]
      | _ => cases hk
  · simp only [Terminal.press, pressed_all, Terminal.act, if_neg outside]
  · exact ⟨t.down.draw, rfl⟩

/-- **C125** The text of the other windows is never changed by a key: their lines are those printed. -/
theorem C125_text (commands handlers : List String) (t : Terminal) (k : TermKey) (u : Terminal) (rs : List RunEnd)
    (notes : List String) (h : t.press commands handlers k = .ret (.on u rs notes)) :
    u.msg.lines = t.msg.lines ∧ u.err.lines = t.err.lines ∧ u.packet.lines = t.packet.lines ∧
    (k ≠ .key .enter → t.screen.current ≠ "cmd" → u.cmd.lines = t.cmd.lines) := by
  have hd : ∀ p : Pane, p.draw.lines = p.lines := by intro p; unfold Pane.draw; split <;> rfl
  have hc : ∀ p : Console, p.draw.lines = p.lines := by intro p; unfold Console.draw; split <;> rfl
  have ho : ∀ (p : Pane) (y : Int), (p.setOrigin y).lines = p.lines := by
    intro p y; unfold Pane.setOrigin; split <;> rfl
  have hr : ∀ (p q : Pane) (y : Int), p.setRow y = some q → q.lines = p.lines := by
    intro p q y h; unfold Pane.setRow at h; split at h <;> cases h; rfl
  have h1 : ∀ p : Pane, p.down.lines = p.lines := by
    intro p; unfold Pane.down; split
    · rfl
    · split
      · next h => exact hr _ _ _ h
      · exact ho _ _
  have h2 : ∀ p : Pane, p.up.lines = p.lines := by
    intro p; unfold Pane.up; split
    · next h => exact hr _ _ _ h
    · split
      · exact ho _ _
      · rfl
  have h3 : ∀ p : Pane, p.last.lines = p.lines := by
    intro p; unfold Pane.last; split
    · rfl
    · split
      · next h => exact hr _ _ _ h
      · dsimp only
        cases e : (p.setOrigin (p.lines - p.height - 1)).setRow (p.height - 1) with
        | none => exact ho _ _
        | some q => exact (hr _ _ _ e).trans (ho _ _)
  have hs : ∀ (c e : Console) (x y : Int), c.setCursor x y = some e → e.lines = c.lines := by
    intro c e x y h; unfold Console.setCursor at h; split at h <;> cases h; rfl
  have ht : ∀ (c : Console) (x y : Int), (c.tryCursor x y).lines = c.lines := by
    intro c x y; unfold Console.tryCursor Console.setCursor; split <;> rfl
  have h4 : ∀ c : Console, c.last.lines = c.lines := by
    intro c; unfold Console.last; split
    · rfl
    · split
      · next h => exact hs _ _ _ _ h
      · dsimp only
        rw [ht]; split <;> rfl
  have hin : ∀ f, (t.inCmd f).msg = t.msg ∧ (t.inCmd f).err = t.err ∧ (t.inCmd f).packet = t.packet ∧
      (t.screen.current ≠ "cmd" → (t.inCmd f).cmd = t.cmd) := by
    intro f
    unfold Terminal.inCmd
    split
    · next h => exact ⟨rfl, rfl, rfl, fun n => absurd h n⟩
    · exact ⟨rfl, rfl, rfl, fun _ => rfl⟩
  have hdown : t.down.msg.lines = t.msg.lines ∧ t.down.err.lines = t.err.lines ∧ t.down.packet.lines = t.packet.lines ∧
      (t.screen.current ≠ "cmd" → t.down.cmd.lines = t.cmd.lines) := by
    unfold Terminal.down
    split
    · next h => exact ⟨rfl, rfl, rfl, fun n => absurd h n⟩
    · exact ⟨h1 _, rfl, rfl, fun _ => rfl⟩
    · exact ⟨rfl, h1 _, rfl, fun _ => rfl⟩
    · exact ⟨rfl, rfl, h1 _, fun _ => rfl⟩
    · exact ⟨rfl, rfl, rfl, fun _ => rfl⟩
  have hup : t.up.msg.lines = t.msg.lines ∧ t.up.err.lines = t.err.lines ∧ t.up.packet.lines = t.packet.lines ∧
      (t.screen.current ≠ "cmd" → t.up.cmd.lines = t.cmd.lines) := by
    unfold Terminal.up
    split
    · next h => exact ⟨rfl, rfl, rfl, fun n => absurd h n⟩
    · exact ⟨h2 _, rfl, rfl, fun _ => rfl⟩
    · exact ⟨rfl, h2 _, rfl, fun _ => rfl⟩
    · exact ⟨rfl, rfl, h2 _, fun _ => rfl⟩
    · exact ⟨rfl, rfl, rfl, fun _ => rfl⟩
  have hlast : ∀ (t : Terminal) (w : String), (t.last w).1.msg.lines = t.msg.lines ∧ (t.last w).1.err.lines = t.err.lines ∧
      (t.last w).1.packet.lines = t.packet.lines ∧ (t.last w).1.cmd.lines = t.cmd.lines := by
    intro t w
    unfold Terminal.last
    split
    · exact ⟨rfl, rfl, rfl, h4 _⟩
    · exact ⟨h3 _, rfl, rfl, rfl⟩
    · exact ⟨rfl, h3 _, rfl, rfl⟩
    · exact ⟨rfl, rfl, h3 _, rfl⟩
    · exact ⟨rfl, rfl, rfl, rfl⟩
  have key : ∀ v : Terminal, v.draw = u → (v.msg.lines = t.msg.lines ∧ v.err.lines = t.err.lines ∧
      v.packet.lines = t.packet.lines ∧ (t.screen.current ≠ "cmd" → v.cmd.lines = t.cmd.lines)) →
      u.msg.lines = t.msg.lines ∧ u.err.lines = t.err.lines ∧ u.packet.lines = t.packet.lines ∧
      (k ≠ .key .enter → t.screen.current ≠ "cmd" → u.cmd.lines = t.cmd.lines) := by
    intro v hv hh
    subst hv
    simp only [Terminal.draw, hd, hc]
    exact ⟨hh.1, hh.2.1, hh.2.2.1, fun _ => hh.2.2.2⟩
  have inKey : ∀ f, (t.inCmd f).draw = u → u.msg.lines = t.msg.lines ∧ u.err.lines = t.err.lines ∧
      u.packet.lines = t.packet.lines ∧ (k ≠ .key .enter → t.screen.current ≠ "cmd" → u.cmd.lines = t.cmd.lines) := by
    intro f hf
    obtain ⟨i1, i2, i3, i4⟩ := hin f
    exact key _ hf ⟨by rw [i1], by rw [i2], by rw [i3], fun n => by rw [i4 n]⟩
  cases k with
  | char ch => cases h; exact inKey _ rfl
  | key k =>
    obtain ⟨v, g1, g2⟩ := press_key (pressed_all k) h
    cases k with
    | ctrlSpace =>
      cases g1
      obtain ⟨i1, i2, i3, i4⟩ := hlast { t with screen := t.screen.step .rotate }
        (if t.screen.showpacket then "packet" else nextWindow t.screen.showpacket t.screen.current)
      exact key _ g2.symm ⟨i1, i2, i3, fun _ => i4⟩
    | arrowDown => cases g1; exact key _ g2.symm hdown
    | arrowUp => cases g1; exact key _ g2.symm hup
    | ctrlP => cases g1; exact key _ g2.symm ⟨rfl, rfl, rfl, fun _ => rfl⟩
    | ctrlC => cases g1
    | enter =>
      simp only [Terminal.act] at g1
      split at g1
      · next hcur =>
        obtain ⟨⟨e, es⟩, _, g3⟩ := Out.bind_eq_ret g1
        cases g3
        exact key _ g2.symm ⟨rfl, rfl, rfl, fun n => absurd hcur n⟩
      · cases g1; exact key _ g2.symm hdown
    | arrowLeft | arrowRight | backspace | backspace2 | delete => cases g1; exact inKey _ g2.symm

/-- **C125** Ctrl-C ends the program in every window and state, and no other key does; `exit` and `quit` end it in another
way (`C72_typed_partial`). -/
theorem C125_quit (commands handlers : List String) (t : Terminal) (k : TermKey) :
    t.press commands handlers k = .ret .quit ↔ k = .key .ctrlC := by
  constructor
  · intro h
    cases k with
    | char ch => cases h
    | key k =>
      simp only [Terminal.press, pressed_all] at h
      obtain ⟨e, he, h2⟩ := Out.bind_eq_ret h
      have hq : e = .quit := by cases e <;> cases h2; rfl
      subst hq
      cases k with
      | ctrlC => rfl
      | enter =>
        simp only [Terminal.act] at he
        split at he
        · obtain ⟨⟨x, xs⟩, _, h3⟩ := Out.bind_eq_ret he
          cases h3
        · cases he
      | _ => cases he
  · rintro rfl; rfl

/-! ## The command window among the others -/

/-- What the command window gets of an event. -/
def TermEvent.forCmd : TermEvent → Option ConsoleKey
  | .press (.char c) => some (.char c)
  | .press (.key .arrowLeft) => some .left
  | .press (.key .arrowRight) => some .right
  | .press (.key .arrowUp) => some .up
  | .press (.key .arrowDown) => some .down
  | .press (.key .enter) => some .enter
  | .press (.key .backspace) | .press (.key .backspace2) | .press (.key .delete) => some .erase
  | _ => none

theorem cmd_step {commands handlers : List String} {t u : Terminal} {e : TermEvent} {rs : List RunEnd}
    {notes : List String} (s : t.Settled) (here : t.screen.current = "cmd") (stays : e ≠ .press (.key .ctrlSpace))
    (h : t.step commands handlers e = .ret (.on u rs notes)) :
    u.screen.current = "cmd" ∧ notes = [] ∧ match e.forCmd with
      | some k => t.cmd.press commands handlers k = .ret (u.cmd, rs)
      | none => u.cmd = t.cmd ∧ rs = [] := by
  have hi : ∀ f, t.inCmd f = { t with cmd := f t.cmd } := fun f => if_pos here
  have hdn : t.down = { t with cmd := t.cmd.down } := by simp only [Terminal.down, here]
  have hup : t.up = { t with cmd := t.cmd.up } := by simp only [Terminal.up, here]
  unfold Terminal.step at h
  split at h
  · next k =>
    cases k with
    | char c =>
      simp only [Terminal.press, hi] at h
      cases h
      exact ⟨here, rfl, rfl⟩
    | key k =>
      obtain ⟨v, h1, h2⟩ := press_key (pressed_all k) h
      subst h2
      cases k with
      | ctrlSpace => exact absurd rfl stays
      | ctrlC => cases h1
      | ctrlP => cases h1; exact ⟨here, rfl, s.cmd, rfl⟩
      | arrowDown => simp only [Terminal.act, hdn] at h1; cases h1; exact ⟨here, rfl, rfl⟩
      | arrowUp => simp only [Terminal.act, hup] at h1; cases h1; exact ⟨here, rfl, rfl⟩
      | arrowLeft | arrowRight | backspace | backspace2 | delete =>
        simp only [Terminal.act, hi] at h1; cases h1; exact ⟨here, rfl, rfl⟩
      | enter =>
        simp only [Terminal.act, if_pos here] at h1
        obtain ⟨⟨c, xs⟩, hc, h3⟩ := Out.bind_eq_ret h1
        cases h3
        refine ⟨here, rfl, ?_⟩
        show (t.cmd.enter commands handlers >>= fun x => Out.ret (x.1.draw, x.2)) = _
        rw [hc]
        rfl
  all_goals
    cases h
    exact ⟨here, rfl, s.cmd, rfl⟩

/-- **C125** While the user stays in the command window, what it shows and what is run depends on the keys for it alone,
whatever is printed to the other windows or cleared in them in between, and whether the packets are shown or not. -/
theorem C125_commands (commands handlers : List String) (prompt : String) (ppad : Int) (width a b c d : Nat)
    (events : List TermEvent) (stays : TermEvent.press (.key .ctrlSpace) ∉ events) (t : Terminal) (rs : List RunEnd)
    (notes : List String)
    (reached : (Terminal.start prompt ppad width a b c d).run commands handlers events = .ret (.on t rs notes)) :
    (Console.start prompt ppad width a).run commands handlers (events.filterMap TermEvent.forCmd) = .ret (t.cmd, rs) ∧
      t.screen.current = "cmd" ∧ notes = [] := by
  have all : ∀ (es : List TermEvent) (t u : Terminal) (rs : List RunEnd) (notes : List String), t.Settled →
      t.screen.current = "cmd" → TermEvent.press (.key .ctrlSpace) ∉ es →
      t.run commands handlers es = .ret (.on u rs notes) →
      t.cmd.run commands handlers (es.filterMap TermEvent.forCmd) = .ret (u.cmd, rs) ∧ u.screen.current = "cmd" ∧ notes = [] := by
    intro es
    induction es with
    | nil => intro t u rs notes _ here _ h; cases h; exact ⟨rfl, here, rfl⟩
    | cons e es ih =>
      intro t u rs notes s here st h
      obtain ⟨x, hx, h2⟩ := Out.bind_eq_ret h
      cases x with
      | quit => cases h2
      | on v rs' notes' =>
        obtain ⟨y, hy, h3⟩ := Out.bind_eq_ret h2
        cases y with
        | quit => cases h3
        | on _ rs'' notes'' =>
          cases h3
          obtain ⟨h4, h5, h6⟩ := cmd_step s here (fun h => st (by simp [h])) hx
          obtain ⟨i1, i2, i3⟩ := ih v _ rs'' notes'' (step_settled hx s) h4 (fun h => st (by simp [h])) hy
          refine ⟨?_, i2, by rw [h5, i3]; rfl⟩
          cases hf : e.forCmd with
          | none =>
            rw [hf] at h6
            rw [List.filterMap_cons_none hf, ← h6.1, i1, h6.2]
            rfl
          | some k =>
            rw [hf] at h6
            rw [List.filterMap_cons_some hf]
            simp only [Console.run, h6, i1, bind, Out.bind]
            rfl
  exact all events _ t rs notes (start_settled prompt ppad width a b c d) rfl stays reached

example := C125_commands shippedCommands cmdHandlers "saratoga" 3 40 4 10 4 10 [] (by simp) _ _ _ rfl

/-! ## Ctrl-Space -/

/-- **C125** Ctrl-Space is not silent: every time, a line about the cursor is printed to the error window, and the number
it calls `ox` is the row, not the column. While the packets are shown, the cursor of the packet window is moved instead
of that of the window the user goes to, which is left as it was. -/
theorem C125_counterexample (commands handlers : List String) (prompt : String) (ppad : Int) (width a b c d : Nat)
    (events : List TermEvent) (t : Terminal) (rs : List RunEnd) (notes : List String)
    (reached : (Terminal.start prompt ppad width a b c d).run commands handlers events = .ret (.on t rs notes)) :
    ∃ u note, t.press commands handlers (.key .ctrlSpace) = .ret (.on u [] [note]) ∧
      (∃ oy rest, note = "gotolastrow ox=" ++ toString oy ++ " oy=" ++ toString (oy : Nat) ++ rest) ∧
      (t.screen.showpacket = true → u.packet = t.packet.step .last ∧ ∀ w, w ≠ "packet" → u.window w = t.window w) ∧
      (t.screen.showpacket = false → (u.screen.current = "msg" → u.msg = t.msg.step .last) ∧
        (u.screen.current = "err" → u.err = t.err.step .last)) := by
  have s := run_settled events reached (start_settled prompt ppad width a b c d)
  have hp : ∀ t : Terminal, t.press commands handlers (.key .ctrlSpace) =
      .ret (.on t.switch.1.draw [] t.switch.2) := fun _ => rfl
  rw [hp]
  have text : ∀ oy cx cy n : Nat, ∃ o rest, lastRowText oy cx cy n =
      "gotolastrow ox=" ++ toString o ++ " oy=" ++ toString (o : Nat) ++ rest := by
    intro oy cx cy n
    refine ⟨oy, " cx=" ++ toString cx ++ " cy=" ++ toString cy ++ " blines=" ++ toString n ++ "\n", ?_⟩
    apply String.toList_injective
    unfold lastRowText
    simp only [String.toList_append, List.append_assoc]
  obtain ⟨g1, g2, _⟩ := s.good
  have all : ∀ w ∈ ["cmd", "msg", "err"], ∀ o ∈ windowOrders, w ∈ o := by decide +kernel
  have o1 := all "cmd" (by simp) t.screen.order g2
  have o2 := all "msg" (by simp) t.screen.order g2
  have o3 := all "err" (by simp) t.screen.order g2
  have hc : ∀ w, nextWindow t.screen.showpacket t.screen.current = w → w ∈ t.screen.order →
      t.switch.1.draw.screen.current = w := by
    intro w hw ho
    show t.switch.1.screen.current = w
    rw [Terminal.switch_screen]
    show (t.screen.setCurrent _).current = w
    rw [hw, Screen.setCurrent, if_pos ho]
  rcases Bool.eq_false_or_eq_true t.screen.showpacket with hs | hs
  · have e : t.switch = Terminal.last { t with screen := t.screen.step .rotate } "packet" := by
      simp only [Terminal.switch, if_pos hs]
    rw [e]
    simp only [Terminal.last]
    refine ⟨_, _, rfl, text _ _ _ _, ?_, fun h => by rw [hs] at h; cases h⟩
    intro _
    refine ⟨rfl, fun w hw => ?_⟩
    exact window_eq (fun _ => s.cmd) (fun _ => s.msg) (fun _ => s.err) (fun h => absurd h hw)
  · have e : ∀ w, nextWindow t.screen.showpacket t.screen.current = w →
        t.switch = Terminal.last { t with screen := t.screen.step .rotate } w := by
      intro w hw
      simp only [Terminal.switch, if_neg (show ¬ t.screen.showpacket = true by rw [hs]; exact Bool.false_ne_true), hw]
    simp only [windowNames, List.mem_cons, List.not_mem_nil, or_false] at g1
    rcases g1 with g | g | g | g
    · have n : nextWindow t.screen.showpacket t.screen.current = "msg" := by simp only [g, nextWindow]
      have c := hc _ n o2
      rw [e _ n] at c ⊢
      refine ⟨_, _, rfl, ?_, fun h => (by rw [hs] at h; cases h), fun _ => ⟨fun _ => ?_, fun h => ?_⟩⟩
      · exact text _ _ _ _
      · simp only [Terminal.last]; rfl
      · rw [c] at h; exact absurd h (by decide)
    · have n : nextWindow t.screen.showpacket t.screen.current = "cmd" := by simp only [g, nextWindow]
      have c := hc _ n o1
      rw [e _ n] at c ⊢
      refine ⟨_, _, rfl, ?_, fun h => (by rw [hs] at h; cases h), fun _ => ⟨fun h => ?_, fun h => ?_⟩⟩
      · exact text _ _ _ _
      · rw [c] at h; exact absurd h (by decide)
      · rw [c] at h; exact absurd h (by decide)
    · have n : nextWindow t.screen.showpacket t.screen.current = "err" := by simp only [g, nextWindow]
      have c := hc _ n o3
      rw [e _ n] at c ⊢
      refine ⟨_, _, rfl, ?_, fun h => (by rw [hs] at h; cases h), fun _ => ⟨fun h => ?_, fun _ => ?_⟩⟩
      · exact text _ _ _ _
      · rw [c] at h; exact absurd h (by decide)
      · simp only [Terminal.last]; rfl
    · have n : nextWindow t.screen.showpacket t.screen.current = "err" := by simp only [g, nextWindow, hs]; rfl
      have c := hc _ n o3
      rw [e _ n] at c ⊢
      refine ⟨_, _, rfl, ?_, fun h => (by rw [hs] at h; cases h), fun _ => ⟨fun h => ?_, fun _ => ?_⟩⟩
      · exact text _ _ _ _
      · rw [c] at h; exact absurd h (by decide)
      · simp only [Terminal.last]; rfl

theorem switch_cmd {t : Terminal} (s : t.Settled) (bottom : t.cmd.oy + t.cmd.cy + 1 = t.cmd.lines.length) :
    t.switch.1.draw.cmd = t.cmd := by
  have h : ∀ (t : Terminal) (w : String), t.cmd.oy + t.cmd.cy + 1 = t.cmd.lines.length → (t.last w).1.cmd = t.cmd := by
    intro t w hb
    unfold Terminal.last
    split
    · dsimp only
      unfold Console.last
      rw [if_pos (by omega)]
    all_goals rfl
  show t.switch.1.cmd.draw = t.cmd
  have e : t.switch.1.cmd = t.cmd := h { t with screen := t.screen.step .rotate } _ bottom
  rw [e]
  exact s.cmd

/-- **C125** However often the user goes to the next window, the command window stays as it was if the cursor was on its
last line; nothing is run, and there is a line in the error window for each time. -/
theorem C125_round (commands handlers : List String) (prompt : String) (ppad : Int) (width a b c d : Nat)
    (events : List TermEvent) (t : Terminal) (rs : List RunEnd) (notes : List String)
    (reached : (Terminal.start prompt ppad width a b c d).run commands handlers events = .ret (.on t rs notes))
    (bottom : t.cmd.oy + t.cmd.cy + 1 = t.cmd.lines.length) (n : Nat) :
    ∃ u notes', t.run commands handlers (List.replicate n (.press (.key .ctrlSpace))) = .ret (.on u [] notes') ∧
      u.cmd = t.cmd ∧ notes'.length = n ∧ u.screen = t.screen.run (List.replicate n .rotate) := by
  have s := run_settled events reached (start_settled prompt ppad width a b c d)
  have one : ∀ t : Terminal, t.Settled → t.switch.2.length = 1 := by
    intro t s
    have hl : ∀ (t : Terminal), ∀ w ∈ windowNames, (t.last w).2.length = 1 := by
      intro t w hw
      simp only [windowNames, List.mem_cons, List.not_mem_nil, or_false] at hw
      rcases hw with rfl | rfl | rfl | rfl <;> simp only [Terminal.last, List.length_singleton]
    have hn : ∀ b : Bool, ∀ w ∈ windowNames, nextWindow b w ∈ windowNames := by decide +kernel
    unfold Terminal.switch
    apply hl
    split
    · decide
    · exact hn _ _ s.good.1
  clear reached
  induction n generalizing t with
  | zero => exact ⟨t, [], rfl, rfl, rfl, rfl⟩
  | succ n ih =>
    have hp : t.step commands handlers (.press (.key .ctrlSpace)) = .ret (.on t.switch.1.draw [] t.switch.2) := rfl
    have hs := step_settled hp s
    have hc := switch_cmd s bottom
    obtain ⟨u, ns, h1, h2, h3, h4⟩ := ih t.switch.1.draw (by rw [hc]; exact bottom) hs
    refine ⟨u, t.switch.2 ++ ns, ?_, h2.trans hc, ?_, ?_⟩
    · rw [List.replicate_succ, Terminal.run]
      simp only [hp, h1, bind, Out.bind]
      rfl
    · rw [List.length_append, one t s, h3, Nat.add_comm]
    · rw [h4]
      show (t.switch.1.screen).run _ = _
      rw [Terminal.switch_screen, List.replicate_succ]
      rfl

/-- Going to the last row of the command window. -/
theorem console_last (c : Console) (drawn : c.draw = c) (inside : c.cx < c.width) (rows : 0 < c.height) (text : c.lines ≠ [])
    (top : c.lines.length ≤ c.height → c.oy = 0) :
    c.last.draw.oy + c.last.draw.cy + 1 = c.lines.length ∧ c.last.draw.cx = c.cx ∧ c.last.draw.lines = c.lines := by
  have pos := List.length_pos_iff.2 text
  by_cases h1 : (c.oy : Int) + c.cy = c.lines.length - 1
  · have : c.last = c := if_pos h1
    rw [this, drawn]
    exact ⟨by omega, rfl, rfl⟩
  · by_cases h2 : c.lines.length ≤ c.height
    · have hs : c.setCursor c.cx (c.lines.length - 1) =
          some { c with cx := ((c.cx : Int)).toNat, cy := ((c.lines.length : Int) - 1).toNat } := by
        unfold Console.setCursor
        rw [if_neg (by omega)]
      have : c.last = { c with cx := ((c.cx : Int)).toNat, cy := ((c.lines.length : Int) - 1).toNat } := by
        unfold Console.last
        rw [if_neg h1, hs]
      have hd : c.last.draw = c.last := by
        unfold Console.draw
        rw [this]
        exact if_neg (by show ¬ c.lines.length > c.height; omega)
      rw [hd, this]
      have := top h2
      exact ⟨by simp only; omega, by simp, rfl⟩
    · have hs : c.setCursor c.cx (c.lines.length - 1) = none := by
        unfold Console.setCursor
        rw [if_pos (by omega)]
      have hl : c.last = { c with oy := ((c.lines.length : Int) - c.height - 1).toNat, cx := ((c.cx : Int)).toNat,
                                  cy := ((c.height : Int) - 1).toNat } := by
        unfold Console.last
        rw [if_neg h1, hs]
        simp only
        rw [if_neg (show ¬ (c.lines.length : Int) - c.height - 1 < 0 by omega)]
        unfold Console.tryCursor Console.setCursor
        rw [if_neg (by simp only; omega)]
        rfl
      have hd : c.last.draw = { c.last with oy := c.lines.length - c.height } := by
        unfold Console.draw
        rw [hl]
        exact if_pos (by show c.lines.length > c.height; omega)
      rw [hd, hl]
      exact ⟨by simp only; omega, by simp, rfl⟩

/-- **C125** Back in the command window, its cursor is on the last line, where the prompt is, in the column it was in: so
what is typed next goes to the prompt. (In a window with room for all lines, which has not been scrolled.) -/
theorem C125_back (commands handlers : List String) (prompt : String) (ppad : Int) (width a b c d : Nat)
    (events : List TermEvent) (t : Terminal) (rs : List RunEnd) (notes : List String)
    (reached : (Terminal.start prompt ppad width a b c d).run commands handlers events = .ret (.on t rs notes))
    (hidden : t.screen.showpacket = false) (inside : t.cmd.cx < t.cmd.width) (rows : 0 < t.cmd.height)
    (text : t.cmd.lines ≠ []) (top : t.cmd.lines.length ≤ t.cmd.height → t.cmd.oy = 0)
    (u : Terminal) (rs' : List RunEnd) (notes' : List String)
    (pressed : t.press commands handlers (.key .ctrlSpace) = .ret (.on u rs' notes')) (here : u.screen.current = "cmd") :
    u.cmd.oy + u.cmd.cy + 1 = u.cmd.lines.length ∧ u.cmd.cx = t.cmd.cx ∧ u.cmd.lines = t.cmd.lines := by
  have s := run_settled events reached (start_settled prompt ppad width a b c d)
  have hp : t.press commands handlers (.key .ctrlSpace) = .ret (.on t.switch.1.draw [] t.switch.2) := rfl
  rw [hp] at pressed
  cases pressed
  have hn : nextWindow t.screen.showpacket t.screen.current = "cmd" := by
    have h : t.switch.1.screen.current = "cmd" := here
    rw [Terminal.switch_screen] at h
    obtain ⟨g1, g2, _⟩ := s.good
    have all : ∀ w ∈ ["cmd", "msg", "err"], ∀ o ∈ windowOrders, w ∈ o := by decide +kernel
    have nx : ∀ w ∈ windowNames, nextWindow false w ∈ ["cmd", "msg", "err"] := by decide +kernel
    have ho := all _ (nx _ g1) _ g2
    have h : (t.screen.setCurrent (nextWindow t.screen.showpacket t.screen.current)).current = "cmd" := h
    rw [hidden] at h ⊢
    rwa [Screen.setCurrent, if_pos ho] at h
  have e : t.switch.1 = { t with screen := t.screen.step .rotate, cmd := t.cmd.last } := by
    simp only [Terminal.switch, if_neg (show ¬ t.screen.showpacket = true by rw [hidden]; exact Bool.false_ne_true), hn,
      Terminal.last]
  show t.switch.1.cmd.draw.oy + t.switch.1.cmd.draw.cy + 1 = t.switch.1.cmd.draw.lines.length ∧
    t.switch.1.cmd.draw.cx = t.cmd.cx ∧ t.switch.1.cmd.draw.lines = t.cmd.lines
  rw [e]
  obtain ⟨h1, h2, h3⟩ := console_last t.cmd s.cmd inside rows text top
  exact ⟨by show t.cmd.last.draw.oy + t.cmd.last.draw.cy + 1 = t.cmd.last.draw.lines.length; rw [h3]; exact h1, h2, h3⟩

/-! ## The windows for output -/

/-- What an event means for the window `w`, if it is printing to it or clearing it. -/
def TermEvent.forPane (w : String) : TermEvent → Option PaneAct
  | .press _ => none
  | .msg l r => if w = "msg" then some (.print l r) else none
  | .err l r => if w = "err" then some (.print l r) else none
  | .packet l r => if w = "packet" then some (.print l r) else none
  | .clear v => if v = w then some .clear else none

/-- Printing and clearing, not keys. -/
def PaneAct.output : PaneAct → Bool
  | .print _ _ | .clear => true
  | _ => false

/-- A window after an event: this output, or nothing or one key. -/
def Pane.After (p q : Pane) : Option PaneAct → Prop
  | some a => q = p.step a
  | none => q = p ∨ ∃ a : PaneAct, a.output = false ∧ q = p.step a

theorem after_same {p q : Pane} (d : p.draw = p) (h : q = p) : Pane.After p q.draw none := by
  subst h; exact .inl d

theorem act_panes {commands handlers : List String} {t u : Terminal} {a : KeyAction} {rs : List RunEnd} {notes : List String}
    (h : t.act commands handlers a = .ret (.on u rs notes)) (s : t.Settled) :
    Pane.After t.msg u.draw.msg none ∧ Pane.After t.err u.draw.err none ∧ Pane.After t.packet u.draw.packet none := by
  have same : ∀ v : Terminal, v.msg = t.msg → v.err = t.err → v.packet = t.packet →
      Pane.After t.msg v.draw.msg none ∧ Pane.After t.err v.draw.err none ∧ Pane.After t.packet v.draw.packet none :=
    fun v h1 h2 h3 => ⟨after_same s.msg h1, after_same s.err h2, after_same s.packet h3⟩
  have down : Pane.After t.msg t.down.draw.msg none ∧ Pane.After t.err t.down.draw.err none ∧
      Pane.After t.packet t.down.draw.packet none := by
    unfold Terminal.down
    split
    · exact same _ rfl rfl rfl
    · exact ⟨.inr ⟨.down, rfl, rfl⟩, after_same s.err rfl, after_same s.packet rfl⟩
    · exact ⟨after_same s.msg rfl, .inr ⟨.down, rfl, rfl⟩, after_same s.packet rfl⟩
    · exact ⟨after_same s.msg rfl, after_same s.err rfl, .inr ⟨.down, rfl, rfl⟩⟩
    · exact same _ rfl rfl rfl
  have up : Pane.After t.msg t.up.draw.msg none ∧ Pane.After t.err t.up.draw.err none ∧
      Pane.After t.packet t.up.draw.packet none := by
    unfold Terminal.up
    split
    · exact same _ rfl rfl rfl
    · exact ⟨.inr ⟨.up, rfl, rfl⟩, after_same s.err rfl, after_same s.packet rfl⟩
    · exact ⟨after_same s.msg rfl, .inr ⟨.up, rfl, rfl⟩, after_same s.packet rfl⟩
    · exact ⟨after_same s.msg rfl, after_same s.err rfl, .inr ⟨.up, rfl, rfl⟩⟩
    · exact same _ rfl rfl rfl
  have inCmd : ∀ f, Pane.After t.msg (t.inCmd f).draw.msg none ∧ Pane.After t.err (t.inCmd f).draw.err none ∧
      Pane.After t.packet (t.inCmd f).draw.packet none := by
    intro f
    unfold Terminal.inCmd
    split <;> exact same _ rfl rfl rfl
  cases a with
  | switchView =>
    have : u = t.switch.1 := by
      simp only [Terminal.act, Out.ret.injEq, TermEnd.on.injEq] at h
      exact h.1.symm
    rw [this]
    unfold Terminal.switch
    generalize (if t.screen.showpacket = true then "packet" else nextWindow t.screen.showpacket t.screen.current) = w
    simp only
    unfold Terminal.last
    split
    · exact same _ rfl rfl rfl
    · exact ⟨.inr ⟨.last, rfl, rfl⟩, after_same s.err rfl, after_same s.packet rfl⟩
    · exact ⟨after_same s.msg rfl, .inr ⟨.last, rfl, rfl⟩, after_same s.packet rfl⟩
    · exact ⟨after_same s.msg rfl, after_same s.err rfl, .inr ⟨.last, rfl, rfl⟩⟩
    · exact same _ rfl rfl rfl
  | cursorDown => cases h; exact down
  | cursorUp => cases h; exact up
  | cursorLeft => cases h; exact inCmd _
  | cursorRight => cases h; exact inCmd _
  | showPacket => cases h; exact same _ rfl rfl rfl
  | quit => cases h
  | getLine =>
    simp only [Terminal.act] at h
    split at h
    · obtain ⟨⟨c, rs'⟩, _, h2⟩ := Out.bind_eq_ret h
      cases h2; exact same _ rfl rfl rfl
    · cases h; exact down
  | backSpace => cases h; exact inCmd _

theorem step_panes {commands handlers : List String} {t u : Terminal} {e : TermEvent} {rs : List RunEnd}
    {notes : List String} (h : t.step commands handlers e = .ret (.on u rs notes)) (s : t.Settled) :
    Pane.After t.msg u.msg (e.forPane "msg") ∧ Pane.After t.err u.err (e.forPane "err") ∧
      Pane.After t.packet u.packet (e.forPane "packet") := by
  unfold Terminal.step at h
  split at h
  · next k =>
    cases k with
    | key k =>
      obtain ⟨v, h1, h2⟩ := press_key (pressed_all k) h
      rw [h2]
      exact act_panes h1 s
    | char c =>
      cases h
      have e : ∀ f, (t.inCmd f).msg = t.msg ∧ (t.inCmd f).err = t.err ∧ (t.inCmd f).packet = t.packet := by
        intro f
        unfold Terminal.inCmd
        split <;> exact ⟨rfl, rfl, rfl⟩
      exact ⟨after_same s.msg (e _).1, after_same s.err (e _).2.1, after_same s.packet (e _).2.2⟩
  · cases h; exact ⟨rfl, .inl s.err, .inl s.packet⟩
  · cases h; exact ⟨.inl s.msg, rfl, .inl s.packet⟩
  · cases h; exact ⟨.inl s.msg, .inl s.err, rfl⟩
  · cases h; exact ⟨rfl, .inl s.err, .inl s.packet⟩
  · cases h; exact ⟨.inl s.msg, rfl, .inl s.packet⟩
  · cases h; exact ⟨.inl s.msg, .inl s.err, rfl⟩
  · next w h1 h2 h3 =>
    cases h
    have f : ∀ v, w ≠ v → (TermEvent.clear w).forPane v = none := fun v hv => if_neg hv
    rw [f "msg" h1, f "err" h2, f "packet" h3]
    exact ⟨.inl s.msg, .inl s.err, .inl s.packet⟩

/-- **C125** The windows for output are those of C112 to C115: each goes through what is printed to it and cleared in it,
in order, with keys in between; those for messages and errors scroll by themselves and that for packets does not. -/
theorem C125_panes (commands handlers : List String) (prompt : String) (ppad : Int) (width a b c d : Nat)
    (events : List TermEvent) (t : Terminal) (rs : List RunEnd) (notes : List String)
    (reached : (Terminal.start prompt ppad width a b c d).run commands handlers events = .ret (.on t rs notes)) :
    (∃ acts, t.msg = (Pane.new b true).run acts ∧ acts.filter PaneAct.output = events.filterMap (TermEvent.forPane "msg")) ∧
    (∃ acts, t.err = (Pane.new c true).run acts ∧ acts.filter PaneAct.output = events.filterMap (TermEvent.forPane "err")) ∧
    (∃ acts, t.packet = (Pane.new d false).run acts ∧
      acts.filter PaneAct.output = events.filterMap (TermEvent.forPane "packet")) := by
  have out : ∀ {w e a}, TermEvent.forPane w e = some a → a.output = true := by
    intro w e a h
    cases e with
    | press k => cases h
    | _ =>
      simp only [TermEvent.forPane, Option.ite_none_right_eq_some, Option.some.injEq] at h
      rw [← h.2]; rfl
  have one : ∀ {p q r : Pane} {w : String} {e : TermEvent} {es : List TermEvent}, Pane.After p q (e.forPane w) →
      (∃ acts, r = q.run acts ∧ acts.filter PaneAct.output = es.filterMap (TermEvent.forPane w)) →
      ∃ acts, r = p.run acts ∧ acts.filter PaneAct.output = (e :: es).filterMap (TermEvent.forPane w) := by
    intro p q r w e es h
    rintro ⟨acts, h1, h2⟩
    cases hf : e.forPane w with
    | some x =>
      rw [hf] at h
      have h : q = p.step x := h
      refine ⟨x :: acts, by rw [h1, h]; rfl, ?_⟩
      rw [List.filter_cons_of_pos (out hf), List.filterMap_cons_some hf, h2]
    | none =>
      rw [hf] at h
      rw [List.filterMap_cons_none hf]
      rcases h with h | ⟨x, hx, h⟩
      · exact ⟨acts, by rw [h1, h], h2⟩
      · exact ⟨x :: acts, by rw [h1, h]; rfl, by rw [List.filter_cons_of_neg (by rw [hx]; simp), h2]⟩
  have all : ∀ (es : List TermEvent) (t u : Terminal) (rs : List RunEnd) (notes : List String), t.Settled →
      t.run commands handlers es = .ret (.on u rs notes) →
      (∃ acts, u.msg = t.msg.run acts ∧ acts.filter PaneAct.output = es.filterMap (TermEvent.forPane "msg")) ∧
      (∃ acts, u.err = t.err.run acts ∧ acts.filter PaneAct.output = es.filterMap (TermEvent.forPane "err")) ∧
      (∃ acts, u.packet = t.packet.run acts ∧ acts.filter PaneAct.output = es.filterMap (TermEvent.forPane "packet")) := by
    intro es
    induction es with
    | nil => intro t u rs notes _ h; cases h; exact ⟨⟨[], rfl, rfl⟩, ⟨[], rfl, rfl⟩, ⟨[], rfl, rfl⟩⟩
    | cons e es ih =>
      intro t u rs notes s h
      obtain ⟨x, hx, h2⟩ := Out.bind_eq_ret h
      cases x with
      | quit => cases h2
      | on v rs' notes' =>
        obtain ⟨y, hy, h3⟩ := Out.bind_eq_ret h2
        cases y with
        | quit => cases h3
        | on _ rs'' notes'' =>
          cases h3
          obtain ⟨s1, s2, s3⟩ := step_panes hx s
          obtain ⟨i1, i2, i3⟩ := ih v _ rs'' notes'' (step_settled hx s) hy
          exact ⟨one s1 i1, one s2 i2, one s3 i3⟩
  exact all events _ t rs notes (start_settled prompt ppad width a b c d) reached

/-! ## Examples -/

/-- The cursor left the last line with the arrow; after a round through the windows it is there again. -/
example : (match (Terminal.start "saratoga" 3 40 4 10 4 10).run shippedCommands cmdHandlers
    [.press (.char 'p'), .press (.char 'e'), .press (.char 'e'), .press (.char 'r'), .press (.char 's'), .press (.key .enter),
      .press (.key .arrowUp), .press (.key .ctrlSpace), .press (.key .ctrlSpace), .press (.key .ctrlSpace)] with
    | .ret (.on t _ _) => some (t.screen.current, t.cmd.oy, t.cmd.cy, t.cmd.lines.length)
    | _ => none) = some ("cmd", 0, 1, 2) := by decide +kernel

/-- What is compared: the current window, the lines of the command window, the cursor rows, what was run and printed. -/
def terminalOutline (r : Out TermEnd) : Option (List String × List (Nat × Nat) × List RunEnd) :=
  match r with
  | .ret (.on t rs notes) =>
    some (t.screen.current :: t.cmd.lines.map String.ofList ++ notes,
      [(t.msg.oy, t.msg.cy), (t.err.oy, t.err.cy), (t.packet.oy, t.packet.cy)], rs)
  | _ => none

/-- A command while messages arrive; then in the message window keys that do nothing, and Enter. -/
example : terminalOutline ((Terminal.start "saratoga" 3 40 4 10 4 10).run shippedCommands cmdHandlers
    [.press (.char 'p'), .msg 3 3, .press (.char 'e'), .press (.char 'e'), .err 1 1, .press (.char 'r'),
      .press (.char 's'), .press (.key .enter), .press (.key .ctrlSpace), .press (.char 'x'), .press (.key .backspace),
      .press (.key .arrowUp), .press (.key .arrowUp), .press (.key .enter)]) =
    some (["msg", "saratoga[0]:peers", "saratoga[1]:", "gotolastrow ox=0 oy=0 cx=0 cy=0 blines=3\n"],
      [(0, 1), (0, 0), (0, 0)], [.started "peers" ["peers"]]) := by decide +kernel

/-- With the packets shown, going to the message window moves the cursor of the packet window. -/
example : terminalOutline ((Terminal.start "saratoga" 3 40 4 10 4 10).run shippedCommands cmdHandlers
    [.msg 3 3, .packet 5 5, .press (.key .ctrlP), .press (.key .ctrlSpace)]) =
    some (["msg", "saratoga[0]:", "gotolastrow ox=0 oy=0 cx=0 cy=0 blines=5\n"], [(0, 0), (0, 0), (0, 4)], []) := by decide +kernel

end Saratoga
