import Verif.Props.BeaconCmd
import Verif.Props.MainLists
import Verif.Props.Prompt
import Verif.Props.TranCmds
import Verif.Spec.Program
/-! # Lemmas about the whole program -/
namespace Saratoga

/-- A transfer command leaves everything as it is, or comes down to one call of `NewInitiator`. -/
theorem tranCommand_shape {name : String} {h : CmdEnv → TranWorld → List String → CmdOut}
    (cmd : (name, h) ∈ tranCommands) (E : CmdEnv) (w : TranWorld) (args : List String) :
    (∃ rs n, h E w args = .ret (w, rs, n)) ∨
    ∃ a f u, ∃ k : TranWorld × Except Err Transfer → List CmdReply × Next,
      args.tail = [a, f] ∧ E.address a = .ok u ∧
      h E w args = (E.initiate w name u f >>= fun r => .ret (r.1, (k r).1, (k r).2)) := by
  have fetch : ∀ nm listed, (∃ rs n, cmdFetch nm listed E w args = .ret (w, rs, n)) ∨
      ∃ a f u, ∃ k : TranWorld × Except Err Transfer → List CmdReply × Next,
      args.tail = [a, f] ∧ E.address a = .ok u ∧
      cmdFetch nm listed E w args = (E.initiate w nm u f >>= fun r => .ret (r.1, (k r).1, (k r).2)) := by
    intro nm listed
    unfold cmdFetch
    split
    · exact .inl ⟨_, _, rfl⟩
    · split <;> exact .inl ⟨_, _, rfl⟩
    · split
      · exact .inl ⟨_, _, rfl⟩
      · rename_i u hu
        refine .inr ⟨_, _, u, fun r => match r.2 with | .error _ => (refusal E.H nm, .returned) | .ok _ => ([], .returned),
          rfl, hu, ?_⟩
        congr 1
        funext r
        obtain ⟨w1, r⟩ := r
        cases r <;> rfl
    · exact .inl ⟨_, _, rfl⟩
  have send : ∀ nm listed ref, (∃ rs n, cmdSend nm listed ref E w args = .ret (w, rs, n)) ∨
      ∃ a f u, ∃ k : TranWorld × Except Err Transfer → List CmdReply × Next,
      args.tail = [a, f] ∧ E.address a = .ok u ∧
      cmdSend nm listed ref E w args = (E.initiate w nm u f >>= fun r => .ret (r.1, (k r).1, (k r).2)) := by
    intro nm listed ref
    unfold cmdSend
    split
    · exact .inl ⟨_, _, rfl⟩
    · split <;> exact .inl ⟨_, _, rfl⟩
    · split
      · exact .inl ⟨_, _, rfl⟩
      · rename_i u hu
        refine .inr ⟨_, _, u, fun r => match r.2 with | .error _ => (refusal E.H ref, .returned) | .ok t => ([], .doing t),
          rfl, hu, ?_⟩
        congr 1
        funext r
        obtain ⟨w1, r⟩ := r
        cases r <;> rfl
    · exact .inl ⟨_, _, rfl⟩
  simp only [tranCommands, List.mem_cons, List.not_mem_nil, or_false, Prod.mk.injEq] at cmd
  rcases cmd with ⟨rfl, rfl⟩ | ⟨rfl, rfl⟩ | ⟨rfl, rfl⟩ | ⟨rfl, rfl⟩ | ⟨rfl, rfl⟩ | ⟨rfl, rfl⟩ | ⟨rfl, rfl⟩ |
    ⟨rfl, rfl⟩ | ⟨rfl, rfl⟩
  · unfold cmdGet
    split
    · exact .inl ⟨_, _, rfl⟩
    · split <;> exact .inl ⟨_, _, rfl⟩
    · split
      · exact .inl ⟨_, _, rfl⟩
      · rename_i u hu
        exact .inr ⟨_, _, u, fun _ => ([], .returned), rfl, hu, rfl⟩
    · exact .inl ⟨_, _, rfl⟩
  · exact fetch _ _
  · exact fetch _ _
  · exact send _ _ _
  · exact send _ _ _
  · unfold cmdGive
    split
    · exact .inl ⟨_, _, rfl⟩
    · split <;> exact .inl ⟨_, _, rfl⟩
    · split
      · exact .inl ⟨_, _, rfl⟩
      · rename_i a f _ u hu
        refine .inr ⟨_, _, u, fun r => match r.2 with
          | .error _ => ([badAddress a, usageReply E.H "putblind", usageReply E.H "putrm"], .returned)
          | .ok t => ([], .doing t), rfl, hu, ?_⟩
        congr 1
        funext r
        obtain ⟨w1, r⟩ := r
        cases r <;> rfl
    · exact .inl ⟨_, _, rfl⟩
  · exact send _ _ _
  · unfold cmdTran
    split
    · exact .inl ⟨_, _, rfl⟩
    · split
      · exact .inl ⟨_, _, rfl⟩
      · split <;> exact .inl ⟨_, _, rfl⟩
    · exact .inl ⟨_, _, rfl⟩
  · unfold cmdFiles
    split
    · exact .inl ⟨_, _, rfl⟩
    · split <;> exact .inl ⟨_, _, rfl⟩
    · exact .inl ⟨_, _, rfl⟩

theorem mem_of_assoc {β : Type} {k : String} {v : β} : ∀ {l : List (String × β)}, assoc k l = some v → (k, v) ∈ l
  | (a, b) :: rest, h => by
    unfold assoc at h
    split at h
    · rename_i e; cases h; subst e; exact List.mem_cons_self
    · exact List.mem_cons_of_mem _ (mem_of_assoc h)

/-- What a command that comes back has done. -/
structure CommandDone (M : Machine) (o : Replies) (p p' : Program) (cmd : String) (args : List String) : Prop where
  settings : p'.settings = (settingCmd M.H p.settings (cmd :: args)).1
  net : p'.net = { p.net with fs := p'.net.fs }
  table : (p'.table.Sublist p.table ∧ p'.sessionid = p.sessionid ∧ p'.net.fs = p.net.fs) ∨
    ∃ u f t w, addInitiator (M.tranEnv o) p.settings p.tranWorld cmd u f = .ret (w, t) ∧
      scanTransfers (M.tranEnv o) p.net.fs cmd u f p.table = .clear ∧
      p'.table = w.transfers ∧ p'.sessionid = w.sessionid ∧ p'.net.fs = w.fs

theorem command_done {M : Machine} {o : Replies} {p p' : Program} {cmd : String} {args : List String}
    (h : p.command M o cmd (cmd :: args) = .ret p') : CommandDone M o p p' cmd args := by
  unfold Program.command at h
  cases hs : assoc cmd settingHandlers with
  | some fn =>
    rw [hs] at h
    simp only [Out.ret.injEq] at h
    subst h
    refine ⟨?_, rfl, .inl ⟨List.Sublist.refl _, rfl, rfl⟩⟩
    simp only [settingCmd, hs]
  | none =>
    rw [hs] at h
    have st : (settingCmd M.H p.settings (cmd :: args)).1 = p.settings := by simp only [settingCmd, hs]
    simp only at h
    cases ht : assoc cmd tranCommands with
    | some fn =>
      rw [ht] at h
      simp only at h
      obtain ⟨⟨w, rs, n⟩, h1, h⟩ := Out.bind_eq_ret h
      simp only [Out.ret.injEq] at h
      subst h
      rcases tranCommand_shape (mem_of_assoc ht) ⟨M.H, M.tranEnv o, p.settings⟩ p.tranWorld (cmd :: args) with
        ⟨rs', n', h2⟩ | ⟨a, f, u, k, _, hu, h2⟩
      · rw [h2] at h1
        cases h1
        exact ⟨st.symm, rfl, .inl ⟨List.Sublist.refl _, rfl, rfl⟩⟩
      · rw [h2] at h1
        obtain ⟨⟨w1, r⟩, h3, h1⟩ := Out.bind_eq_ret h1
        cases h1
        refine ⟨st.symm, rfl, ?_⟩
        rcases newInitiator_ret h3 with ⟨a1, a2, a3, _⟩ | ⟨a1, t, _, a2⟩
        · exact .inl ⟨a1, a2, a3⟩
        · exact .inr ⟨u, utf8 f, t, _, a2, a1, rfl, rfl, rfl⟩
    | none =>
      rw [ht] at h
      simp only at h
      split at h
      · obtain ⟨⟨ts, u⟩, h1, h⟩ := Out.bind_eq_ret h
        simp only [Out.ret.injEq] at h
        subst h
        exact ⟨st.symm, rfl, .inl ⟨rmtran_sublist h1, rfl, rfl⟩⟩
      · split at h
        · obtain ⟨⟨b, u⟩, h1, h⟩ := Out.bind_eq_ret h
          simp only [Out.ret.injEq] at h
          subst h
          exact ⟨st.symm, rfl, .inl ⟨List.Sublist.refl _, rfl, rfl⟩⟩
        · split at h <;>
          · simp only [Out.ret.injEq] at h
            subst h
            exact ⟨st.symm, rfl, .inl ⟨List.Sublist.refl _, rfl, rfl⟩⟩

/-- The words of a command start with its name. -/
theorem started_words {commands handlers : List String} {line cmd : String} {ws : List String}
    (h : getLine commands handlers line = .ret (.started cmd ws)) : ∃ args, ws = cmd :: args := by
  unfold getLine at h
  split at h
  · cases h
  · simp only at h
    split at h
    · cases h
    · split at h
      · cases h
      · unfold runLine at h
        split at h
        · cases h
        · split at h
          · cases h
          · split at h
            · split at h
              · cases h; exact ⟨_, rfl⟩
              · cases h
            · cases h

/-- What a line can do: nothing, run a command to its end, or end the process. -/
theorem enter_cases (M : Machine) (o : Replies) (p : Program) (line : String) :
    (p.enter M o line = p ∧ (getLine (M.H.map Prod.fst) cmdHandlers line).returns ∧
      ∀ cmd ws, getLine (M.H.map Prod.fst) cmdHandlers line ≠ .ret (.started cmd ws)) ∨
    (∃ cmd args, getLine (M.H.map Prod.fst) cmdHandlers line = .ret (.started cmd (cmd :: args)) ∧
      ∃ p', p.command M o cmd (cmd :: args) = .ret p' ∧ p.enter M o line = p') ∨
    (p.enter M o line = p.end_ ∧ (¬ (getLine (M.H.map Prod.fst) cmdHandlers line).returns ∨
      ∃ cmd args, getLine (M.H.map Prod.fst) cmdHandlers line = .ret (.started cmd (cmd :: args)) ∧
        ¬ (p.command M o cmd (cmd :: args)).returns)) := by
  unfold Program.enter
  cases hg : getLine (M.H.map Prod.fst) cmdHandlers line with
  | fatal => exact .inr (.inr ⟨rfl, .inl id⟩)
  | panic => exact .inr (.inr ⟨rfl, .inl id⟩)
  | ret r =>
    cases r with
    | nothing => exact .inl ⟨rfl, trivial, by simp⟩
    | invalid w n => exact .inl ⟨rfl, trivial, by simp⟩
    | started cmd ws =>
      obtain ⟨args, rfl⟩ := started_words hg
      cases hc : p.command M o cmd (cmd :: args) with
      | ret p' => exact .inr (.inl ⟨cmd, args, rfl, p', hc, by simp only [hc]⟩)
      | fatal => exact .inr (.inr ⟨by simp only [hc], .inr ⟨cmd, args, rfl, by rw [hc]; exact id⟩⟩)
      | panic => exact .inr (.inr ⟨by simp only [hc], .inr ⟨cmd, args, rfl, by rw [hc]; exact id⟩⟩)

/-- The two kinds of steps. -/
theorem program_step_cases {M : Machine} {p p' : Program} {e : Event} (h : p.step M e = some p') :
    (∃ a w, e = .net a ∧ a ≠ .kill ∧ p.net.step M.S a = some w ∧ p' = { p with net := w }) ∨
    (∃ line o, e = .typed line o ∧ p.net.main ≠ .ended ∧ p' = p.enter M o line) := by
  cases e with
  | typed line o =>
    simp only [Program.step] at h
    split at h
    · cases h
    · rename_i hm; cases h; exact .inr ⟨line, o, rfl, hm, rfl⟩
  | net a =>
    by_cases hk : a = .kill
    · subst hk; simp only [Program.step] at h; cases h
    · have : p.step M (.net a) = (p.net.step M.S a).map fun w => { p with net := w } := by
        cases a <;> first | rfl | exact absurd rfl hk
      rw [this] at h
      obtain ⟨w, h1, h2⟩ := Option.map_eq_some_iff.1 h
      exact .inl ⟨a, w, rfl, hk, h1, h2.symm⟩

/-- Induction over executions with a view of the events so far. -/
theorem program_induction {M : Machine} {P : List Event → Program → Prop}
    (step : ∀ es p e p', P es p → p.step M e = some p' → P (es ++ [e]) p') :
    ∀ (es : List Event) {pre : List Event} {p p' : Program}, P pre p → p.run M es = some p' → P (pre ++ es) p'
  | [], pre, p, p', h, hr => by cases hr; rw [List.append_nil]; exact h
  | e :: es, pre, p, p', h, hr => by
    unfold Program.run at hr
    cases h1 : p.step M e with
    | none => rw [h1] at hr; cases hr
    | some p1 =>
      rw [h1] at hr
      have := program_induction step es (step _ _ _ _ h h1) hr
      rwa [List.append_assoc] at this

theorem leads_induction {M : Machine} {fs : FS} {c : Cliflags} {P : List Event → Program → Prop}
    (init : P [] (Program.init fs c)) (step : ∀ es p e p', P es p → p.step M e = some p' → P (es ++ [e]) p')
    {es : List Event} {p : Program} (h : Leads M fs c es p) : P es p :=
  program_induction step es (pre := []) init h

theorem commandsTyped_append (M : Machine) (es fs : List Event) :
    commandsTyped M (es ++ fs) = commandsTyped M es ++ commandsTyped M fs := by
  induction es with
  | nil => rfl
  | cons e es ih =>
    cases e with
    | net a => exact ih
    | typed line o =>
      rw [List.cons_append]
      simp only [commandsTyped]
      split
      · rw [ih]; rfl
      · exact ih

end Saratoga
