import Verif.Lemmas.Network
import Verif.Props.Console
import Verif.Spec.Desk
import Verif.Props.Program
import Verif.Props.Terminal
/-!
# C136: the program at its keyboard
-/
namespace Saratoga

/-! ## Lemmas -/

/-- A key that is Enter in the command window. -/
def Terminal.enters (t : Terminal) (k : TermKey) : Prop := k = .key .enter ∧ t.screen.current = "cmd"

/-- What a key does to the windows, and what it starts. -/
theorem press_cases (commands handlers : List String) (t : Terminal) (k : TermKey) :
    (k = .key .ctrlC ∧ t.press commands handlers k = .ret .quit) ∨
    (∃ u notes, t.press commands handlers k = .ret (.on u [] notes)) ∨
    (t.enters k ∧ ((∃ u r, t.press commands handlers k = .ret (.on u [r] []) ∧
        getLine commands handlers (String.ofList t.cmd.line) = .ret r) ∨
      (¬ (t.press commands handlers k).returns ∧
        ¬ (getLine commands handlers (String.ofList t.cmd.line)).returns))) := by
  cases k with
  | char c => exact .inr (.inl ⟨_, _, rfl⟩)
  | key k =>
    have hp : ∀ a, pressed (keybindings fun _ => none).1 k = some a →
        t.press commands handlers (.key k) = (do let e ← t.act commands handlers a; pure e.draw) := by
      intro a ha
      simp only [Terminal.press, ha]
    have hk := hp _ (pressed_all k)
    cases k with
    | ctrlC => exact .inl ⟨rfl, rfl⟩
    | enter =>
      rw [hk]
      simp only [Terminal.act]
      by_cases hc : t.screen.current = "cmd"
      · rw [if_pos hc]
        unfold Console.enter
        cases hg : getLine commands handlers (String.ofList t.cmd.line) with
        | fatal => exact .inr (.inr ⟨⟨rfl, hc⟩, .inr ⟨id, id⟩⟩)
        | panic => exact .inr (.inr ⟨⟨rfl, hc⟩, .inr ⟨id, id⟩⟩)
        | ret r =>
          by_cases hr : r = .nothing
          · subst hr
            exact .inr (.inl ⟨_, _, rfl⟩)
          · refine .inr (.inr ⟨⟨rfl, hc⟩, .inl ⟨{ t with cmd := t.cmd.reprompt }.draw, r, ?_, rfl⟩⟩)
            simp only [Out.ret_bind, if_neg hr]
            rfl
      · rw [if_neg hc]
        exact .inr (.inl ⟨_, _, rfl⟩)
    | ctrlSpace =>
      rw [hk]
      exact .inr (.inl ⟨t.switch.1.draw, t.switch.2, rfl⟩)
    | _ => exact .inr (.inl ⟨_, _, hk⟩)

/-- The windows for output do not matter to the others. -/
theorem press_alike {commands handlers : List String} {t v u : Terminal} {k : TermKey} {rs : List RunEnd} {notes : List String}
    (cmd : v.cmd = t.cmd) (screen : v.screen = t.screen)
    (h : t.press commands handlers k = .ret (.on u rs notes)) :
    ∃ w notes', v.press commands handlers k = .ret (.on w rs notes') ∧ w.cmd = u.cmd ∧ w.screen = u.screen := by
  have inCmd : ∀ f, (v.inCmd f).draw.cmd = (t.inCmd f).draw.cmd ∧ (v.inCmd f).draw.screen = (t.inCmd f).draw.screen := by
    intro f
    unfold Terminal.inCmd
    rw [screen]
    split <;> simp only [Terminal.draw, cmd, screen, and_self]
  have down : v.down.draw.cmd = t.down.draw.cmd ∧ v.down.draw.screen = t.down.draw.screen := by
    unfold Terminal.down
    rw [screen]
    split <;> simp only [Terminal.draw, cmd, screen, and_self]
  have up : v.up.draw.cmd = t.up.draw.cmd ∧ v.up.draw.screen = t.up.draw.screen := by
    unfold Terminal.up
    rw [screen]
    split <;> simp only [Terminal.draw, cmd, screen, and_self]
  cases k with
  | char c => cases h; exact ⟨_, _, rfl, inCmd _⟩
  | key k =>
    obtain ⟨x, h1, h2⟩ := press_key (pressed_all k) h
    subst h2
    have lift : ∀ {a w notes'}, pressed (keybindings fun _ => none).1 k = some a →
        v.act commands handlers a = .ret (.on w rs notes') →
        v.press commands handlers (.key k) = .ret (.on w.draw rs notes') := by
      intro a w notes' ha hw
      simp only [Terminal.press, ha, hw, Out.ret_bind]
      rfl
    cases k with
    | ctrlC => cases h1
    | ctrlP =>
      cases h1
      exact ⟨_, _, rfl, by simp only [Terminal.draw, cmd], by simp only [Terminal.draw, screen]⟩
    | arrowDown => cases h1; exact ⟨_, _, lift rfl rfl, down⟩
    | arrowUp => cases h1; exact ⟨_, _, lift rfl rfl, up⟩
    | arrowLeft | arrowRight | backspace | backspace2 | delete => cases h1; exact ⟨_, _, lift rfl rfl, inCmd _⟩
    | ctrlSpace =>
      have : x = t.switch.1 ∧ rs = [] := by
        simp only [Terminal.act, Out.ret.injEq, TermEnd.on.injEq] at h1
        exact ⟨h1.1.symm, h1.2.1.symm⟩
      obtain ⟨rfl, rfl⟩ := this
      refine ⟨v.switch.1.draw, v.switch.2, rfl, ?_, ?_⟩
      · show v.switch.1.cmd.draw = t.switch.1.cmd.draw
        congr 1
        unfold Terminal.switch
        rw [screen]
        generalize (if t.screen.showpacket = true then "packet" else nextWindow t.screen.showpacket t.screen.current) = w
        simp only
        unfold Terminal.last
        split <;> simp only [cmd]
      · show v.switch.1.screen = t.switch.1.screen
        rw [Terminal.switch_screen, Terminal.switch_screen, screen]
    | enter =>
      simp only [Terminal.act] at h1
      split at h1
      · next hc =>
        obtain ⟨⟨c, rs'⟩, he, h3⟩ := Out.bind_eq_ret h1
        cases h3
        refine ⟨_, _, lift (a := .getLine) (w := { v with cmd := c }) (notes' := []) rfl ?_, rfl, screen⟩
        simp only [Terminal.act, screen, if_pos hc, cmd, he, Out.ret_bind]
        rfl
      · next hc =>
        cases h1
        refine ⟨_, _, lift (a := .getLine) (w := v.down) (notes' := []) rfl ?_, down⟩
        simp only [Terminal.act, screen, if_neg hc]

/-- Running what a line came to is entering the line. -/
theorem started_enter {M : Machine} {o : Replies} {p : Program} {line : String} {r : RunEnd}
    (h : getLine (M.H.map Prod.fst) cmdHandlers line = .ret r) : p.started M o r = p.enter M o line := by
  unfold Program.enter
  rw [h]
  cases r <;> rfl

theorem desk_append {M : Machine} (es : List DeskEvent) : ∀ {d d' : Desk} {fs : List DeskEvent},
    d.run M (es ++ fs) = some d' ↔ ∃ m, d.run M es = some m ∧ m.run M fs = some d' := by
  induction es with
  | nil => intro d d' fs; exact ⟨fun h => ⟨d, rfl, h⟩, fun ⟨m, h1, h2⟩ => by cases h1; exact h2⟩
  | cons e es ih =>
    intro d d' fs
    simp only [List.cons_append, Desk.run]
    cases d.step M e with
    | none => simp
    | some x => exact ih

/-- Induction along an execution, with the events so far. -/
theorem desk_induction {M : Machine} {P : List DeskEvent → Desk → Prop}
    (step : ∀ es d e d', P es d → d.step M e = some d' → P (es ++ [e]) d') :
    ∀ (es : List DeskEvent) {pre : List DeskEvent} {d d' : Desk}, P pre d → d.run M es = some d' → P (pre ++ es) d' := by
  intro es
  induction es with
  | nil => intro pre d d' hp h; cases h; simpa using hp
  | cons e es ih =>
    intro pre d d' hp h
    unfold Desk.run at h
    cases hs : d.step M e with
    | none => rw [hs] at h; cases h
    | some x =>
      rw [hs] at h
      have := ih (step _ _ _ _ hp hs) h
      simpa using this

/-- The steps there are. -/
theorem desk_step_cases {M : Machine} {d d' : Desk} {e : DeskEvent} (h : d.step M e = some d') :
    (∃ o, e = .press (.key .ctrlC) o ∧ d.prog.net.main ≠ .ended ∧ d.left = false ∧ d' = { d with left := true }) ∨
    (∃ k o u notes, e = .press k o ∧ k ≠ .key .ctrlC ∧ d.prog.net.main ≠ .ended ∧ d.left = false ∧
      d.term.press (M.H.map Prod.fst) cmdHandlers k = .ret (.on u [] notes) ∧ d' = { d with term := u }) ∨
    (∃ k o u r, e = .press k o ∧ k ≠ .key .ctrlC ∧ d.prog.net.main ≠ .ended ∧ d.left = false ∧
      d.term.press (M.H.map Prod.fst) cmdHandlers k = .ret (.on u [r] []) ∧
      getLine (M.H.map Prod.fst) cmdHandlers (String.ofList d.term.cmd.line) = .ret r ∧
      d' = ⟨u, d.prog.enter M o (String.ofList d.term.cmd.line), false, d.ran ++ [r]⟩) ∨
    (∃ k o, e = .press k o ∧ d.prog.net.main ≠ .ended ∧
      ¬ (getLine (M.H.map Prod.fst) cmdHandlers (String.ofList d.term.cmd.line)).returns ∧
      d' = { d with prog := d.prog.end_ }) ∨
    (∃ a p, e = .net a ∧ (a = .userQuit → d.left = true) ∧ d.prog.step M (.net a) = some p ∧ d' = { d with prog := p }) ∨
    (∃ x u, e = .output x ∧ (∀ k, x ≠ .press k) ∧ d.prog.net.main ≠ .ended ∧ d.left = false ∧
      d.term.step (M.H.map Prod.fst) cmdHandlers x = .ret (.on u [] []) ∧ u.cmd = d.term.cmd.draw ∧
      u.screen = d.term.screen ∧ d' = { d with term := u }) := by
  cases e with
  | press k o =>
    simp only [Desk.step] at h
    split at h
    · cases h
    · next hn =>
      have hm : d.prog.net.main ≠ .ended := fun e => hn (.inl e)
      have hl : d.left = false := by
        cases hl : d.left with
        | false => rfl
        | true => exact absurd (Or.inr hl) hn
      rcases press_cases (M.H.map Prod.fst) cmdHandlers d.term k with ⟨rfl, hp⟩ | ⟨u, notes, hp⟩ |
        ⟨⟨rfl, _⟩, ⟨u, r, hp, hg⟩ | ⟨hp, hg⟩⟩
      · rw [hp] at h; cases h; exact .inl ⟨o, rfl, hm, hl, rfl⟩
      · rw [hp] at h
        simp only [List.foldl_nil, List.append_nil] at h
        cases h
        refine .inr (.inl ⟨k, o, u, notes, rfl, ?_, hm, hl, hp, rfl⟩)
        rintro rfl
        rw [(C125_quit _ _ d.term (.key .ctrlC)).2 rfl] at hp
        cases hp
      · rw [hp] at h
        simp only [List.foldl_cons, List.foldl_nil, started_enter hg] at h
        cases h
        exact .inr (.inr (.inl ⟨_, o, u, r, rfl, by simp, hm, hl, hp, hg, by rw [hl]⟩))
      · refine .inr (.inr (.inr (.inl ⟨_, o, rfl, hm, hg, ?_⟩)))
        cases hx : d.term.press (M.H.map Prod.fst) cmdHandlers (.key .enter) with
        | ret y => rw [hx] at hp; exact absurd trivial hp
        | fatal => rw [hx] at h; cases h; rfl
        | panic => rw [hx] at h; cases h; rfl
  | net a =>
    have key : (a = .userQuit → d.left = true) ∧
        (d.prog.step M (.net a)).map (fun p => { d with prog := p }) = some d' := by
      cases a with
      | userQuit =>
        simp only [Desk.step] at h
        split at h
        · next hl => exact ⟨fun _ => hl, h⟩
        · cases h
      | _ => exact ⟨by simp, h⟩
    obtain ⟨p, hp, rfl⟩ := Option.map_eq_some_iff.1 key.2
    exact .inr (.inr (.inr (.inr (.inl ⟨a, p, rfl, key.1, hp, rfl⟩))))
  | output x =>
    have hx : ∀ k, x ≠ .press k := by rintro k rfl; cases h
    have h : (if d.prog.net.main = .ended ∨ d.left = true then none
        else match d.term.step (M.H.map Prod.fst) cmdHandlers x with
          | .ret (.on t _ _) => some { d with term := t }
          | _ => none) = some d' := by
      cases x with
      | press k => cases h
      | _ => exact h
    split at h
    · cases h
    · next hn =>
      have hm : d.prog.net.main ≠ .ended := fun e => hn (.inl e)
      have hl : d.left = false := by
        cases hl : d.left with
        | false => rfl
        | true => exact absurd (Or.inr hl) hn
      have out : ∃ u, d.term.step (M.H.map Prod.fst) cmdHandlers x = .ret (.on u [] []) ∧ u.cmd = d.term.cmd.draw ∧
          u.screen = d.term.screen := by
        unfold Terminal.step
        split
        · exact absurd rfl (hx _)
        all_goals exact ⟨_, rfl, rfl, rfl⟩
      obtain ⟨u, hu, h1, h2⟩ := out
      rw [hu] at h
      cases h
      exact .inr (.inr (.inr (.inr (.inr ⟨x, u, rfl, hx, hm, hl, hu, h1, h2, rfl⟩))))


theorem terminal_snoc {commands handlers : List String} (es : List TermEvent) : ∀ {t u v : Terminal} {e : TermEvent}
    {rs rs' : List RunEnd} {notes notes' : List String}, t.run commands handlers es = .ret (.on u rs notes) →
    u.step commands handlers e = .ret (.on v rs' notes') →
    t.run commands handlers (es ++ [e]) = .ret (.on v (rs ++ rs') (notes ++ notes')) := by
  induction es with
  | nil =>
    intro t u v e rs rs' notes notes' h h2
    cases h
    show (t.step commands handlers e >>= _) = _
    rw [h2]
    simp [Terminal.run, Out.ret_bind, pure]
  | cons x es ih =>
    intro t u v e rs rs' notes notes' h h2
    obtain ⟨y, hy, h3⟩ := Out.bind_eq_ret h
    cases y with
    | quit => cases h3
    | on t1 r1 n1 =>
      obtain ⟨z, hz, h4⟩ := Out.bind_eq_ret h3
      cases z with
      | quit => cases h4
      | on t2 r2 n2 =>
        cases h4
        rw [List.cons_append]
        show (t.step commands handlers x >>= _) = _
        rw [hy]
        simp only [Out.ret_bind, ih hz h2, List.append_assoc]
        rfl

/-- A process that has ended stays so. -/
theorem ended_stays {M : Machine} {p p' : Program} {e : Event} (h : p.step M e = some p') (he : p.Ended) : p'.Ended := by
  have he : p.net.main = .ended := he
  rcases program_step_cases h with ⟨a, w, rfl, hk, h1, rfl⟩ | ⟨line, o, rfl, hm, rfl⟩
  · show w.main = .ended
    rcases step_cases h1 with ⟨d, rfl, hm, _, rfl⟩ | ⟨g, rfl, hm, _, rfl⟩ | ⟨g, clock, f, addr, rfl, hm, hl, rfl⟩ |
      ⟨g, s, addr, rfl, hm, hl, rfl⟩ | ⟨g, rfl, hm, _, rfl⟩ | ⟨rfl, hm, rfl⟩ | ⟨rfl, hm, rfl⟩ | ⟨f, rfl, hm, rfl⟩
    all_goals first | exact absurd he hm | rfl | (rw [he] at hm; cases hm)
  · exact absurd he hm

theorem desk_ended_stays {M : Machine} {d d' : Desk} {e : DeskEvent} (h : d.step M e = some d') (he : d.prog.Ended) :
    d'.prog.Ended := by
  rcases desk_step_cases h with ⟨o, _, hm, _⟩ | ⟨k, o, u, n, _, _, hm, _⟩ | ⟨k, o, u, r, _, _, hm, _⟩ |
    ⟨k, o, _, hm, _⟩ | ⟨a, p, _, _, hp, rfl⟩ | ⟨x, u, _, _, hm, _⟩
  all_goals first | exact absurd he hm | exact ended_stays hp he

theorem netEvents_append (es fs : List Event) : netEvents (es ++ fs) = netEvents es ++ netEvents fs := List.filterMap_append

theorem Leads.snoc {M : Machine} {fs : FS} {c : Cliflags} {es : List Event} {p p' : Program} {e : Event}
    (h : Leads M fs c es p) (hs : p.step M e = some p') : Leads M fs c (es ++ [e]) p' := by
  have all : ∀ (es : List Event) (q : Program), q.run M es = some p → q.run M (es ++ [e]) = some p' := by
    intro es
    induction es with
    | nil => intro q hq; cases hq; show (p.step M e).bind _ = _; rw [hs]; rfl
    | cons x es ih =>
      intro q hq
      simp only [List.cons_append, Program.run] at hq ⊢
      cases hx : q.step M x with
      | none => rw [hx] at hq; cases hq
      | some y => rw [hx] at hq; exact ih y hq
  exact all es _ h

/-- With the shipped tables a program that runs has handled no request. -/
theorem running_unasked {S : Setup} (hT : S.T = shipped) {fs : FS} {w : World} (h : Reachable S fs w)
    (running : w.main ≠ .ended) : ¬ AskedFor w := by
  have key : w.main = .ended ∨ ¬ AskedFor w := by
    suffices x : Reachable S fs w ∧ (w.main = .ended ∨ ¬ AskedFor w) from x.2
    refine reachable_induction (P := fun w => Reachable S fs w ∧ (w.main = .ended ∨ ¬ AskedFor w))
      ⟨⟨[], rfl⟩, .inr (by rintro ⟨y, hy, _⟩; cases hy)⟩ ?_ h
    rintro w a w' ⟨hr, ih⟩ hs
    refine ⟨hr.step hs, ?_⟩
    rcases step_cases hs with ⟨d', rfl, hm, _, rfl⟩ | ⟨g, rfl, hm, _, rfl⟩ | ⟨g, clock, f, addr, rfl, hm, hl, rfl⟩ |
      ⟨g, s, addr, rfl, hm, hl, rfl⟩ | ⟨g, rfl, hm, _, rfl⟩ | ⟨rfl, hm, rfl⟩ | ⟨rfl, hm, rfl⟩ | ⟨f, rfl, hm, rfl⟩
    · have ih := ih.resolve_left hm
      rcases onRecv_cases S w d' with ⟨_, h⟩ | ⟨hf, h⟩ | ⟨f', hf, h⟩ | ⟨s, hf, h⟩ <;> rw [h]
      · exact .inl rfl
      all_goals exact .inr ih
    · exact .inr (ih.resolve_left hm)
    · have ih := ih.resolve_left (by rw [hm]; simp)
      by_cases hd : Deadly f
      · exact .inl ((C65_ends_iff_partial S hT fs w _ hr g clock f addr hl hs).1 hd)
      · refine .inr ?_
        rintro ⟨y, hy, r, hyr⟩
        rw [(onRx_logs S w g clock f addr).2.2.1] at hy
        rcases List.mem_append.1 hy with hy | hy
        · exact ih ⟨y, hy, r, hyr⟩
        · cases List.mem_singleton.1 hy
          simp only at hyr
          subst hyr
          exact hd trivial
    · have ih := ih.resolve_left (by rw [hm]; simp)
      refine .inr ?_
      rintro ⟨y, hy, r, hyr⟩
      rw [(onTx_logs S w g s addr).2.2.1] at hy
      exact ih ⟨y, hy, r, hyr⟩
    · exact .inl rfl
    · exact .inl rfl
    · exact .inl rfl
    · exact .inr (ih.resolve_left hm)
  exact key.resolve_left running

/-! ## C136 -/

/-- **C136, the program of the windows.** An execution at the keyboard is one of the program: what happened on the
network side is the same, and the commands are those the keys started. -/
theorem C136_program {M : Machine} {prompt : String} {ppad : Int} {width r1 r2 r3 r4 : Nat} {fs : FS} {c : Cliflags}
    {es : List DeskEvent} {d : Desk} (h : (Desk.start prompt ppad width r1 r2 r3 r4 fs c).run M es = some d) :
    ∃ ps, Leads M fs c ps d.prog ∧ netEvents ps = netActions es ∧ commandsTyped M ps = wordsStarted d.ran := by
  refine desk_induction (P := fun es d => ∃ ps, Leads M fs c ps d.prog ∧ netEvents ps = netActions es ∧
    commandsTyped M ps = wordsStarted d.ran) ?_ es (pre := [])
    (d := Desk.start prompt ppad width r1 r2 r3 r4 fs c) ⟨[], rfl, rfl, rfl⟩ h
  rintro es d e d' ⟨ps, i1, i2, i3⟩ hs
  have nets : ∀ a, netActions (es ++ [a]) = netActions es ++ netActions [a] := fun a => List.filterMap_append
  rcases desk_step_cases hs with ⟨o, rfl, hm, _, rfl⟩ | ⟨k, o, u, n, rfl, _, hm, _, hp, rfl⟩ |
    ⟨k, o, u, r, rfl, _, hm, _, hp, hg, rfl⟩ | ⟨k, o, rfl, hm, hg, rfl⟩ | ⟨a, p, rfl, _, hp, rfl⟩ |
    ⟨x, u, rfl, _, hm, _, hu, _, _, rfl⟩
  · exact ⟨ps, i1, by rw [nets, i2]; simp [netActions], i3⟩
  · exact ⟨ps, i1, by rw [nets, i2]; simp [netActions], i3⟩
  · refine ⟨ps ++ [.typed (String.ofList d.term.cmd.line) o], i1.snoc
      (show d.prog.step M (.typed _ o) = some _ from if_neg hm), ?_, ?_⟩
    · rw [nets, netEvents_append, i2]; simp [netActions, netEvents]
    · rw [commandsTyped_append, i3]
      simp only [wordsStarted, List.filterMap_append]
      congr 1
      simp only [commandsTyped, hg]
      cases r <;> rfl
  · refine ⟨ps ++ [.typed (String.ofList d.term.cmd.line) o], i1.snoc (?_ : _ = some d.prog.end_), ?_, ?_⟩
    · simp only [Program.step, if_neg hm, Program.enter]
      cases hx : getLine (M.H.map Prod.fst) cmdHandlers (String.ofList d.term.cmd.line) with
      | ret r => rw [hx] at hg; exact absurd trivial hg
      | fatal => rfl
      | panic => rfl
    · rw [nets, netEvents_append, i2]; simp [netActions, netEvents]
    · rw [commandsTyped_append, i3]
      have : commandsTyped M [.typed (String.ofList d.term.cmd.line) o] = [] := by
        simp only [commandsTyped]
        cases hx : getLine (M.H.map Prod.fst) cmdHandlers (String.ofList d.term.cmd.line) with
        | ret r => rw [hx] at hg; exact absurd trivial hg
        | fatal => rfl
        | panic => rfl
      rw [this, List.append_nil]
  · refine ⟨ps ++ [.net a], i1.snoc hp, ?_, ?_⟩
    · rw [nets, netEvents_append, i2]; simp [netActions, netEvents]
    · rw [commandsTyped_append, i3]
      exact List.append_nil _
  · exact ⟨ps, i1, by rw [nets, i2]; simp [netActions], i3⟩

example : ∃ d, (Desk.start "saratoga" 3 40 4 10 4 10 exampleFS shippedSettings).run exampleMachine
    [.press (.key .enter) calmReplies, .net (.recv ⟨.v4, ⟨0, 0⟩, [0x20, 0, 0, 0, 104, 105, 33, 33], someone⟩)] = some d :=
  ⟨_, rfl⟩

/-- **C136, the windows of the program.** While the process runs, the windows are as after the same output and keys
without a program behind them, and what was run is what they started. -/
theorem C136_windows {M : Machine} {prompt : String} {ppad : Int} {width r1 r2 r3 r4 : Nat} {fs : FS} {c : Cliflags}
    {es : List DeskEvent} {d : Desk} (h : (Desk.start prompt ppad width r1 r2 r3 r4 fs c).run M es = some d)
    (running : ¬ d.prog.Ended) :
    ∃ notes, (Terminal.start prompt ppad width r1 r2 r3 r4).run (M.H.map Prod.fst) cmdHandlers (windowEvents es) =
      .ret (.on d.term d.ran notes) := by
  have key : d.prog.Ended ∨ ∃ notes, (Terminal.start prompt ppad width r1 r2 r3 r4).run (M.H.map Prod.fst) cmdHandlers
      (windowEvents es) = .ret (.on d.term d.ran notes) := by
    refine desk_induction (P := fun es d => d.prog.Ended ∨ ∃ notes,
      (Terminal.start prompt ppad width r1 r2 r3 r4).run (M.H.map Prod.fst) cmdHandlers (windowEvents es) =
        .ret (.on d.term d.ran notes)) ?_ es (pre := []) (.inr ⟨[], rfl⟩) h
    rintro es d e d' ih hs
    rcases ih with ih | ⟨notes, ih⟩
    · exact .inl (desk_ended_stays hs ih)
    have wins : ∀ a, windowEvents (es ++ [a]) = windowEvents es ++ windowEvents [a] := fun a => List.filterMap_append
    rcases desk_step_cases hs with ⟨o, rfl, hm, _, rfl⟩ | ⟨k, o, u, n, rfl, hk, hm, _, hp, rfl⟩ |
      ⟨k, o, u, r, rfl, hk, hm, _, hp, hg, rfl⟩ | ⟨k, o, rfl, hm, hg, rfl⟩ | ⟨a, p, rfl, _, hp, rfl⟩ |
      ⟨x, u, rfl, _, hm, _, hu, _, _, rfl⟩
    · exact .inr ⟨notes, by rw [wins]; simpa [windowEvents] using ih⟩
    · refine .inr ⟨notes ++ n, ?_⟩
      have := terminal_snoc _ (e := .press k) ih hp
      rw [wins]
      simpa [windowEvents, hk] using this
    · refine .inr ⟨notes ++ [], ?_⟩
      have := terminal_snoc _ (e := .press k) ih hp
      rw [wins]
      simpa [windowEvents, hk] using this
    · exact .inl rfl
    · exact .inr ⟨notes, by rw [wins]; simpa [windowEvents] using ih⟩
    · refine .inr ⟨notes ++ [], ?_⟩
      have := terminal_snoc _ ih hu
      rw [wins]
      simpa [windowEvents] using this
  exact key.resolve_left running


theorem desk_settled {M : Machine} {prompt : String} {ppad : Int} {width r1 r2 r3 r4 : Nat} {fs : FS} {c : Cliflags}
    {es : List DeskEvent} {d : Desk} (h : (Desk.start prompt ppad width r1 r2 r3 r4 fs c).run M es = some d)
    (running : ¬ d.prog.Ended) : d.term.Settled := by
  obtain ⟨notes, hn⟩ := C136_windows h running
  exact run_settled _ hn (start_settled prompt ppad width r1 r2 r3 r4)

/-- The keys but Ctrl-C, as events of the windows. -/
def plainKeys (ks : List TermKey) : List TermEvent := (ks.filter (· ≠ .key .ctrlC)).map .press

theorem keys_snoc (es : List DeskEvent) (e : DeskEvent) : keysPressed (es ++ [e]) = keysPressed es ++ keysPressed [e] :=
  List.filterMap_append

/-- The command window and what it starts depend on the keys alone. -/
theorem keys_alone {M : Machine} {prompt : String} {ppad : Int} {width r1 r2 r3 r4 : Nat} {fs : FS} {c : Cliflags}
    {es : List DeskEvent} {d : Desk} (h : (Desk.start prompt ppad width r1 r2 r3 r4 fs c).run M es = some d)
    (running : ¬ d.prog.Ended) :
    (∃ u notes, (Terminal.start prompt ppad width r1 0 0 0).run (M.H.map Prod.fst) cmdHandlers
      (plainKeys ((keysPressed es).map Prod.fst)) = .ret (.on u d.ran notes) ∧ u.cmd = d.term.cmd ∧
      u.screen = d.term.screen) ∧ (d.left = true ↔ .key .ctrlC ∈ (keysPressed es).map Prod.fst) := by
  have key : (Desk.start prompt ppad width r1 r2 r3 r4 fs c).run M es = some d ∧ (d.prog.Ended ∨
      (∃ u notes, (Terminal.start prompt ppad width r1 0 0 0).run (M.H.map Prod.fst) cmdHandlers
        (plainKeys ((keysPressed es).map Prod.fst)) = .ret (.on u d.ran notes) ∧ u.cmd = d.term.cmd ∧
        u.screen = d.term.screen) ∧ (d.left = true ↔ .key .ctrlC ∈ (keysPressed es).map Prod.fst)) := by
    refine desk_induction (P := fun es d => (Desk.start prompt ppad width r1 r2 r3 r4 fs c).run M es = some d ∧
      (d.prog.Ended ∨ (∃ u notes, (Terminal.start prompt ppad width r1 0 0 0).run (M.H.map Prod.fst) cmdHandlers
        (plainKeys ((keysPressed es).map Prod.fst)) = .ret (.on u d.ran notes) ∧ u.cmd = d.term.cmd ∧
        u.screen = d.term.screen) ∧ (d.left = true ↔ .key .ctrlC ∈ (keysPressed es).map Prod.fst))) ?_ es (pre := [])
      (d := Desk.start prompt ppad width r1 r2 r3 r4 fs c)
      ⟨rfl, .inr ⟨⟨_, [], rfl, rfl, rfl⟩, by simp [keysPressed, Desk.start]⟩⟩ h
    rintro es d e d' ⟨hr, ih⟩ hs
    refine ⟨desk_append es |>.2 ⟨d, hr, by show (d.step M e).bind _ = _; rw [hs]; rfl⟩, ?_⟩
    by_cases he : d.prog.Ended
    · exact .inl (desk_ended_stays hs he)
    obtain ⟨⟨v, notes, hv, v1, v2⟩, hl⟩ := ih.resolve_left he
    have typed : ∀ {k : TermKey} {o : Replies} {u : Terminal} {rs : List RunEnd} {n : List String}, k ≠ .key .ctrlC →
        d.term.press (M.H.map Prod.fst) cmdHandlers k = .ret (.on u rs n) →
        ∃ w n', (Terminal.start prompt ppad width r1 0 0 0).run (M.H.map Prod.fst) cmdHandlers
          (plainKeys ((keysPressed (es ++ [.press k o])).map Prod.fst)) = .ret (.on w (d.ran ++ rs) n') ∧
          w.cmd = u.cmd ∧ w.screen = u.screen := by
      intro k o u rs n hk hp
      obtain ⟨w, n', hw, w1, w2⟩ := press_alike v1 v2 hp
      refine ⟨w, notes ++ n', ?_, w1, w2⟩
      have := terminal_snoc _ (e := .press k) hv hw
      rw [keys_snoc]
      simpa [plainKeys, keysPressed, hk] using this
    have same : ∀ a, keysPressed [a] = [] → (keysPressed (es ++ [a])).map Prod.fst = (keysPressed es).map Prod.fst := by
      intro a ha
      rw [keys_snoc, ha, List.append_nil]
    rcases desk_step_cases hs with ⟨o, rfl, hm, _, rfl⟩ | ⟨k, o, u, n, rfl, hk, hm, hl', hp, rfl⟩ |
      ⟨k, o, u, r, rfl, hk, hm, hl', hp, hg, rfl⟩ | ⟨k, o, rfl, hm, hg, rfl⟩ | ⟨a, p, rfl, _, hp, rfl⟩ |
      ⟨x, u, rfl, _, hm, _, hu, u1, u2, rfl⟩
    · refine .inr ⟨⟨v, notes, ?_, v1, v2⟩, ?_⟩
      · rw [keys_snoc]
        simpa [plainKeys, keysPressed] using hv
      · simp [keys_snoc, keysPressed]
    · obtain ⟨w, n', h1, h2, h3⟩ := typed (o := o) hk hp
      rw [List.append_nil] at h1
      refine .inr ⟨⟨w, n', h1, h2, h3⟩, ?_⟩
      show d.left = true ↔ _
      rw [hl, keys_snoc]
      simp [keysPressed, Ne.symm hk]
    · obtain ⟨w, n', h1, h2, h3⟩ := typed (o := o) hk hp
      refine .inr ⟨⟨w, n', h1, h2, h3⟩, ?_⟩
      show false = true ↔ _
      rw [← hl', hl, keys_snoc]
      simp [keysPressed, Ne.symm hk]
    · exact .inl rfl
    · rw [same _ rfl]
      exact .inr ⟨⟨v, notes, hv, v1, v2⟩, hl⟩
    · rw [same _ rfl]
      refine .inr ⟨⟨v, notes, hv, ?_, ?_⟩, hl⟩
      · rw [v1]
        exact ((desk_settled hr he).cmd.symm).trans u1.symm
      · exact v2.trans u2.symm
  exact key.2.resolve_left running

/-- **C136, nobody but the user types.** Two executions with the same keys, whatever the peers send, whatever is printed
and whatever happens to the files: while both run, the command window, the window the user is in, the commands run, the
settings and the exit level are the same. -/
theorem C136_keys_alone {M : Machine} {prompt : String} {ppad : Int} {width rows : Nat} {c : Cliflags}
    {r2 r3 r4 : Nat} {fs : FS} {es : List DeskEvent} {d : Desk}
    {r2' r3' r4' : Nat} {fs' : FS} {es' : List DeskEvent} {d' : Desk}
    (one : (Desk.start prompt ppad width rows r2 r3 r4 fs c).run M es = some d) (running : ¬ d.prog.Ended)
    (other : (Desk.start prompt ppad width rows r2' r3' r4' fs' c).run M es' = some d') (running' : ¬ d'.prog.Ended)
    (same : (keysPressed es).map Prod.fst = (keysPressed es').map Prod.fst) :
    d.term.cmd = d'.term.cmd ∧ d.term.screen = d'.term.screen ∧ d.ran = d'.ran ∧ d.left = d'.left ∧
    d.prog.settings = d'.prog.settings ∧ d.prog.cexit = d'.prog.cexit := by
  obtain ⟨⟨u, n, hu, u1, u2⟩, hl⟩ := keys_alone one running
  obtain ⟨⟨u', n', hu', u1', u2'⟩, hl'⟩ := keys_alone other running'
  rw [same] at hu hl
  rw [hu] at hu'
  simp only [Out.ret.injEq, TermEnd.on.injEq] at hu'
  obtain ⟨rfl, hran, _⟩ := hu'
  obtain ⟨ps, p1, _, p3⟩ := C136_program one
  obtain ⟨ps', p1', _, p3'⟩ := C136_program other
  refine ⟨u1.symm.trans u1', u2.symm.trans u2', hran, ?_, ?_, ?_⟩
  · rw [Bool.eq_iff_iff, hl, hl']
  · rw [C127_settings p1, C127_settings p1', p3, p3', hran]
  · rw [C127_exit_level p1 running, C127_exit_level p1' running', p3, p3', hran]

/-! ### The rest of what commands keep -/

/-- The program with another network side, but its files. -/
def Program.on (p : Program) (n : World) : Program := { p with net := { n with fs := p.net.fs } }

theorem command_on {M : Machine} {o : Replies} {p p' : Program} {cmd : String} {args : List String} (n : World)
    (h : p.command M o cmd args = .ret p') : (p.on n).command M o cmd args = .ret (p'.on n) := by
  unfold Program.command at h ⊢
  cases hs : assoc cmd settingHandlers with
  | some fn => rw [hs] at h; cases h; rfl
  | none =>
    rw [hs] at h
    simp only at h ⊢
    cases ht : assoc cmd tranCommands with
    | some fn =>
      rw [ht] at h
      simp only at h ⊢
      obtain ⟨⟨w, rs, m⟩, h1, h⟩ := Out.bind_eq_ret h
      cases h
      have : (p.on n).tranWorld = p.tranWorld := rfl
      rw [this, show (p.on n).settings = p.settings from rfl, h1]
      rfl
    | none =>
      rw [ht] at h
      simp only at h ⊢
      split at h
      · next hc =>
        rw [if_pos hc]
        obtain ⟨⟨ts, m⟩, h1, h⟩ := Out.bind_eq_ret h
        cases h
        rw [show (p.on n).table = p.table from rfl, h1]
        rfl
      · next hc =>
        rw [if_neg hc]
        split at h
        · next hc =>
          rw [if_pos hc]
          obtain ⟨⟨b, m⟩, h1, h⟩ := Out.bind_eq_ret h
          cases h
          rw [show (p.on n).settings = p.settings from rfl, show (p.on n).beacon = p.beacon from rfl, h1]
          rfl
        · next hc =>
          rw [if_neg hc]
          split at h
          · next hc => rw [if_pos hc]; cases h; rfl
          · next hc => rw [if_neg hc]; cases h; rfl

theorem enter_on {M : Machine} {o : Replies} {p : Program} {line : String} (n : World)
    (running : ¬ (p.enter M o line).Ended) : (p.on n).enter M o line = (p.enter M o line).on n := by
  rcases enter_cases M o p line with ⟨e, hret, hn⟩ | ⟨cmd, args, hg, p', hc, e⟩ | ⟨e, hx⟩
  · rw [e]
    rcases enter_cases M o (p.on n) line with ⟨e, _⟩ | ⟨cmd, args, hg, _⟩ | ⟨_, h | ⟨cmd, args, hg, _⟩⟩
    · exact e
    · exact absurd hg (hn _ _)
    · exact absurd hret h
    · exact absurd hg (hn _ _)
  · rw [e]
    unfold Program.enter
    rw [hg]
    simp only
    rw [command_on n hc]
  · rw [e] at running
    exact absurd rfl running

/-- Without a peer, output or other programs: the same keys alone. -/
def keysOnly (es : List DeskEvent) : List DeskEvent := (keysPressed es).map fun k => .press k.1 k.2

theorem desk_alone {M : Machine} (hT : M.S.T = shipped) {prompt : String} {ppad : Int} {width r1 r2 r3 r4 : Nat} {fs : FS}
    {c : Cliflags} {es : List DeskEvent} {d : Desk}
    (h : (Desk.start prompt ppad width r1 r2 r3 r4 fs c).run M es = some d) (running : ¬ d.prog.Ended)
    (files : ∀ f, DeskEvent.net (.files f) ∉ es) :
    ∃ u, (Desk.start prompt ppad width r1 0 0 0 fs c).run M (keysOnly es) =
      some ⟨u, d.prog.on (World.init fs), d.left, d.ran⟩ ∧ u.cmd = d.term.cmd ∧ u.screen = d.term.screen := by
  have key : (Desk.start prompt ppad width r1 r2 r3 r4 fs c).run M es = some d ∧ (d.prog.Ended ∨
      ((∀ f, DeskEvent.net (.files f) ∉ es) →
      ∃ u, (Desk.start prompt ppad width r1 0 0 0 fs c).run M (keysOnly es) =
        some ⟨u, d.prog.on (World.init fs), d.left, d.ran⟩ ∧ u.cmd = d.term.cmd ∧ u.screen = d.term.screen)) := by
    refine desk_induction (P := fun es d => (Desk.start prompt ppad width r1 r2 r3 r4 fs c).run M es = some d ∧
      (d.prog.Ended ∨ ((∀ f, DeskEvent.net (.files f) ∉ es) →
      ∃ u, (Desk.start prompt ppad width r1 0 0 0 fs c).run M (keysOnly es) =
        some ⟨u, d.prog.on (World.init fs), d.left, d.ran⟩ ∧ u.cmd = d.term.cmd ∧ u.screen = d.term.screen)))
      ?_ es (pre := []) (d := Desk.start prompt ppad width r1 r2 r3 r4 fs c) ⟨rfl, .inr fun _ => ⟨_, rfl, rfl, rfl⟩⟩ h
    rintro es d e d' ⟨hr, ih⟩ hs
    have hr' : (Desk.start prompt ppad width r1 r2 r3 r4 fs c).run M (es ++ [e]) = some d' :=
      desk_append es |>.2 ⟨d, hr, by show (d.step M e).bind _ = _; rw [hs]; rfl⟩
    refine ⟨hr', ?_⟩
    by_cases he : d.prog.Ended
    · exact .inl (desk_ended_stays hs he)
    by_cases he' : d'.prog.Ended
    · exact .inl he'
    refine .inr fun files => ?_
    obtain ⟨v, hv, v1, v2⟩ := ih.resolve_left he fun f hf => files f (List.mem_append_left _ hf)
    have keys : ∀ a, keysOnly (es ++ [a]) = keysOnly es ++ keysOnly [a] := by
      intro a; unfold keysOnly; rw [keys_snoc, List.map_append]
    have on : ∀ {k : TermKey} {o : Replies} {x : Desk},
        (⟨v, d.prog.on (World.init fs), d.left, d.ran⟩ : Desk).step M (.press k o) = some x →
        (Desk.start prompt ppad width r1 0 0 0 fs c).run M (keysOnly (es ++ [.press k o])) = some x := by
      intro k o x hx
      rw [keys]
      refine (desk_append _).2 ⟨_, hv, ?_⟩
      show (Desk.step M _ (.press k o)).bind _ = _
      rw [hx]; rfl
    have select : ¬ ((d.prog.on (World.init fs)).net.main = .ended ∨ d.left = true) ↔ d.left = false := by
      simp [Program.on, World.init]
    rcases desk_step_cases hs with ⟨o, rfl, hm, hl, rfl⟩ | ⟨k, o, u, n, rfl, hk, hm, hl, hp, rfl⟩ |
      ⟨k, o, u, r, rfl, hk, hm, hl, hp, hg, rfl⟩ | ⟨k, o, rfl, hm, hg, rfl⟩ | ⟨a, p, rfl, _, hp, rfl⟩ |
      ⟨x, u, rfl, _, hm, _, hu, u1, u2, rfl⟩
    · refine ⟨v, on ?_, v1, v2⟩
      simp only [Desk.step]
      rw [if_neg (select.2 hl), (C125_quit _ _ v _).2 rfl]
    · obtain ⟨w, n', hw, w1, w2⟩ := press_alike v1 v2 hp
      refine ⟨w, on ?_, w1, w2⟩
      simp only [Desk.step]
      rw [if_neg (select.2 hl), hw]
      simp
    · obtain ⟨w, n', hw, w1, w2⟩ := press_alike v1 v2 hp
      refine ⟨w, on ?_, w1, w2⟩
      simp only [Desk.step]
      rw [if_neg (select.2 hl), hw]
      simp only [List.foldl_cons, List.foldl_nil, started_enter hg, hl]
      rw [enter_on _ he']
    · exact absurd rfl he'
    · have e1 : keysOnly (es ++ [.net a]) = keysOnly es := by rw [keys]; simp [keysOnly, keysPressed]
      rw [e1]
      refine ⟨v, ?_, v1, v2⟩
      rw [hv]
      congr 2
      obtain ⟨ps, p1, _⟩ := C136_program hr'
      have no := running_unasked hT (C127_network p1) he'
      obtain ⟨⟨s1, s2, s3, s4, s5⟩, hf⟩ := (C127_apart hp).1 a rfl
      have hf := (hf fun f e => files f (by rw [e]; simp)).resolve_right no
      unfold Program.on
      simp only [← hf, ← s1, ← s2, ← s3, ← s4, ← s5]
    · have e1 : keysOnly (es ++ [.output x]) = keysOnly es := by rw [keys]; simp [keysOnly, keysPressed]
      rw [e1]
      exact ⟨v, hv, v1.trans (((desk_settled hr he).cmd.symm).trans u1.symm), v2.trans u2.symm⟩
  exact key.2.resolve_left running files

/-- **C136, peers change nothing of the user's.** With the shipped tables and the same answers of the system, and when
no other program touches the files: also the table of transfers, the session numbers, the beacons and the files are the
same, whatever the peers send. -/
theorem C136_peers_apart {M : Machine} (hT : M.S.T = shipped) {prompt : String} {ppad : Int} {width rows : Nat}
    {c : Cliflags} {fs : FS} {r2 r3 r4 : Nat} {es : List DeskEvent} {d : Desk}
    {r2' r3' r4' : Nat} {es' : List DeskEvent} {d' : Desk}
    (one : (Desk.start prompt ppad width rows r2 r3 r4 fs c).run M es = some d) (running : ¬ d.prog.Ended)
    (other : (Desk.start prompt ppad width rows r2' r3' r4' fs c).run M es' = some d') (running' : ¬ d'.prog.Ended)
    (same : keysPressed es = keysPressed es') (files : ∀ f, DeskEvent.net (.files f) ∉ es)
    (files' : ∀ f, DeskEvent.net (.files f) ∉ es') :
    SameCommands d.prog d'.prog ∧ d.prog.net.fs = d'.prog.net.fs := by
  obtain ⟨u, hu, _⟩ := desk_alone hT one running files
  obtain ⟨u', hu', _⟩ := desk_alone hT other running' files'
  rw [show keysOnly es = keysOnly es' by unfold keysOnly; rw [same], hu'] at hu
  simp only [Option.some.injEq, Desk.mk.injEq] at hu
  have e := hu.2.1.symm
  refine ⟨⟨?_, ?_, ?_, ?_, ?_⟩, ?_⟩
  · have := congrArg Program.settings e; exact this
  · have := congrArg Program.table e; exact this
  · have := congrArg Program.sessionid e; exact this
  · have := congrArg Program.beacon e; exact this
  · have := congrArg Program.cexit e; exact this
  · exact congrArg (fun p => p.net.fs) e


/-- **C136, a session at the keyboard.** Commands typed one after another, which fit into the window and can be run, are
run as typed and in this order, and the settings are what they make of the first ones, whatever arrives and is printed
in between. -/
theorem C136_session {M : Machine} {prompt : String} (plain : ∀ c ∈ prompt.toList, c.utf8Size = 1 ∧ c ≠ ':')
    {width rows r2 r3 r4 : Nat} (room : 0 < rows) {fs : FS} {c : Cliflags} {texts : List String}
    (first : (promptLine prompt 0 "").toList.length < width)
    (fits : ∀ i t, texts[i]? = some t → (promptLine prompt i t).toList.length < width ∧
      (promptLine prompt (i + 1) "").toList.length < width)
    (stays : ∀ t ∈ texts, t ≠ "" ∧ t ≠ "exit" ∧ t ≠ "quit") {rs : List RunEnd}
    (runs : texts.map (runLine (M.H.map Prod.fst) cmdHandlers) = rs.map .ret)
    {es : List DeskEvent} {d : Desk} (h : (Desk.start prompt 3 width rows r2 r3 r4 fs c).run M es = some d)
    (running : ¬ d.prog.Ended) (keys : (keysPressed es).map Prod.fst = texts.flatMap typing) :
    d.ran = rs ∧ d.prog.settings = settingRun M.H c (wordsStarted rs) ∧
    d.term.cmd.lines = sessionLines prompt 0 texts ++ [(promptLine prompt texts.length "").toList] := by
  obtain ⟨⟨u, n, hu, u1, _⟩, _⟩ := keys_alone h running
  rw [keys] at hu
  have noctrl : ∀ k ∈ texts.flatMap typing, k ≠ .key .ctrlC ∧ k ≠ .key .ctrlSpace := by
    intro k hk
    obtain ⟨t, _, hk⟩ := List.mem_flatMap.1 hk
    rcases List.mem_append.1 hk with hk | hk
    · obtain ⟨ch, _, rfl⟩ := List.mem_map.1 hk
      exact ⟨by simp, by simp⟩
    · rw [List.mem_singleton.1 hk]
      exact ⟨by simp, by simp⟩
  have e1 : plainKeys (texts.flatMap typing) = (texts.flatMap typing).map .press := by
    unfold plainKeys
    rw [List.filter_eq_self.2]
    intro k hk
    simpa using (noctrl k hk).1
  have e2 : ((texts.flatMap typing).map TermEvent.press).filterMap TermEvent.forCmd = texts.flatMap entryKeys := by
    clear keys noctrl e1 hu fits stays runs
    have chars : ∀ l : List Char, (l.map TermKey.char).filterMap (TermEvent.forCmd ∘ TermEvent.press) =
        l.map ConsoleKey.char := by
      intro l
      induction l with
      | nil => rfl
      | cons a l ih => simp only [List.map_cons, List.filterMap_cons, Function.comp, TermEvent.forCmd] at ih ⊢; rw [ih]
    rw [List.filterMap_map]
    induction texts with
    | nil => rfl
    | cons t ts ih =>
      simp only [List.flatMap_cons, List.filterMap_append, ih, typing, entryKeys, chars]
      rfl
  rw [e1] at hu
  have hc := (C125_commands _ _ prompt 3 width rows 0 0 0 _ (by
    intro hm
    obtain ⟨k, hk, he⟩ := List.mem_map.1 hm
    cases he
    exact (noctrl _ hk).2 rfl) u d.ran n hu).1
  rw [e2] at hc
  obtain ⟨con, hcon, lines, _⟩ := C116_session_partial (M.H.map Prod.fst) cmdHandlers prompt plain width rows room texts first
    fits stays rs runs
  rw [hcon] at hc
  simp only [Out.ret.injEq, Prod.mk.injEq] at hc
  obtain ⟨hc1, hran⟩ := hc
  obtain ⟨ps, p1, _, p3⟩ := C136_program h
  refine ⟨hran.symm, ?_, ?_⟩
  · rw [C127_settings p1, p3, ← hran]
  · rw [← u1, ← hc1, lines]

/-- **C136, Ctrl-C.** With the shipped tables, in every state of a running process: Ctrl-C is taken; after it no key is,
nothing more is run, and the main loop can always take it and end the process. -/
theorem C136_interrupt {M : Machine} (hT : M.S.T = shipped) {prompt : String} {ppad : Int} {width r1 r2 r3 r4 : Nat}
    {fs : FS} {c : Cliflags} {es : List DeskEvent} {d : Desk}
    (h : (Desk.start prompt ppad width r1 r2 r3 r4 fs c).run M es = some d) (running : ¬ d.prog.Ended) :
    (d.left = false → ∀ o, d.step M (.press (.key .ctrlC) o) = some { d with left := true }) ∧
    (d.left = true → (∃ d', d.step M (.net .userQuit) = some d' ∧ d'.prog.Ended) ∧
      (∀ k o, d.step M (.press k o) = none) ∧
      ∀ es' d', d.run M es' = some d' → d'.left = true ∧ d'.ran = d.ran ∧ SameCommands d.prog d'.prog) := by
  refine ⟨fun hl o => ?_, fun hl => ⟨?_, ?_, ?_⟩⟩
  · simp only [Desk.step]
    rw [if_neg (fun e => e.elim running (by rw [hl]; exact nofun)), (C125_quit _ _ d.term _).2 rfl]
  · obtain ⟨ps, p1, _⟩ := C136_program h
    have hm := (unasked (C127_network p1) (running_unasked hT (C127_network p1) running)).2.resolve_right running
    refine ⟨{ d with prog := { d.prog with net := { d.prog.net with main := .ended } } }, ?_, rfl⟩
    simp only [Desk.step, if_pos hl, Program.step, World.step, hm, Option.map]
  · intro k o
    exact if_pos (.inr hl)
  · intro es' d' hr
    refine desk_induction (P := fun _ x => x.left = true ∧ x.ran = d.ran ∧ SameCommands d.prog x.prog) ?_ es' (pre := [])
      ⟨hl, rfl, rfl, rfl, rfl, rfl, rfl⟩ hr
    rintro _ x e y ⟨i1, i2, i3⟩ hs
    rcases desk_step_cases hs with ⟨o, _, _, hf, _⟩ | ⟨k, o, u, n, _, _, _, hf, _⟩ | ⟨k, o, u, r, _, _, _, hf, _⟩ |
      ⟨k, o, rfl, hm, _, rfl⟩ | ⟨a, p, rfl, _, hp, rfl⟩ | ⟨z, u, _, _, _, hf, _⟩
    all_goals first | (rw [i1] at hf; cases hf) | skip
    · exact ⟨i1, i2, i3⟩
    · obtain ⟨⟨s1, s2, s3, s4, s5⟩, _⟩ := (C127_apart hp).1 a rfl
      obtain ⟨t1, t2, t3, t4, t5⟩ := i3
      exact ⟨i1, i2, t1.trans s1, t2.trans s2, t3.trans s3, t4.trans s4, t5.trans s5⟩


/-! ## Examples -/

/-- A beacon comes in and is printed while a command is typed. -/
def deskEvents : List DeskEvent :=
  ((typing "timeout request 5").take 6).map (.press · calmReplies) ++
  [.net (.recv ⟨.v4, ⟨0, 0⟩, [0x20, 0, 0, 0, 104, 105, 33, 33], someone⟩), .output (.msg 3 4)] ++
  ((typing "timeout request 5").drop 6).map (.press · calmReplies) ++ [.net (.takeRx .v4 ⟨5, 0⟩), .output (.packet 2 2)]

example : ((Desk.start "saratoga" 3 40 4 10 4 10 exampleFS shippedSettings).run exampleMachine deskEvents).map (fun d =>
    (d.prog.settings.timeout.request, d.ran, d.prog.net.peers.length, d.term.cmd.lines.map String.ofList)) =
    some (5, [.started "timeout" ["timeout", "request", "5"]], 1, ["saratoga[0]:timeout request 5", "saratoga[1]:"]) := by
  decide +kernel

/-- Ctrl-C, a beacon, and the process ends. -/
example : ((Desk.start "saratoga" 3 40 4 10 4 10 exampleFS shippedSettings).run exampleMachine
    (deskEvents ++ [.press (.key .ctrlC) calmReplies, .net (.recv ⟨.v6, ⟨0, 0⟩, [0x20, 0, 0, 0, 104, 105, 33, 33], someone⟩),
      .net .userQuit])).map (fun d => (d.left, d.prog.net.main == .ended)) = some (true, true) := by
  decide +kernel

example : keysPressed deskEvents = (typing "timeout request 5").map (·, calmReplies) ∧
    (windowEvents deskEvents).length = 20 ∧ (netActions deskEvents).length = 2 := ⟨rfl, rfl, rfl⟩

end Saratoga
