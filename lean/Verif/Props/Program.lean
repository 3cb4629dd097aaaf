import Verif.Lemmas.Program
import Verif.Props.Cliflags
import Verif.Props.Startup
/-!
# C127: the program as a whole
-/
namespace Saratoga

/-- **C127, the network side.** Whatever is typed meanwhile, the network side goes through a run of its own: what is
said about its executions (C41, C43, C44, C65, C66, C99) holds while commands run. -/
theorem C127_network {M : Machine} {fs : FS} {c : Cliflags} {es : List Event} {p : Program}
    (h : Leads M fs c es p) : Reachable M.S fs p.net := by
  refine leads_induction (P := fun _ p => Reachable M.S fs p.net) ⟨[], rfl⟩ ?_ h
  intro es p e p' ih hs
  rcases program_step_cases hs with ⟨a, w, rfl, _, h1, rfl⟩ | ⟨line, o, rfl, hm, rfl⟩
  · exact ih.step h1
  · rcases enter_cases M o p line with ⟨e, _⟩ | ⟨cmd, args, _, p', hc, e⟩ | ⟨e, _⟩
    · rw [e]; exact ih
    · rw [e]
      have := (command_done hc).net
      refine ih.step (a := .files p'.net.fs) ?_
      simp only [World.step, if_pos hm]
      rw [← this]
    · rw [e]
      refine ih.step (a := .kill) ?_
      simp only [World.step, if_pos hm]
      rfl

theorem command_exit {M : Machine} {o : Replies} {p p' : Program} {cmd : String} {args : List String}
    (h : p.command M o cmd (cmd :: args) = .ret p') : p'.cexit = (exitAsked (cmd :: args)).getD p.cexit := by
  have other : cmd ≠ "exit" → cmd ≠ "quit" → exitAsked (cmd :: args) = none := by
    intro h1 h2
    unfold exitAsked
    split <;> simp_all
  have no : ∀ {β : Type} {l : List (String × β)} {v : β}, assoc "exit" l = none → assoc "quit" l = none →
      assoc cmd l = some v → cmd ≠ "exit" ∧ cmd ≠ "quit" := by
    intro β l v h1 h2 h3
    exact ⟨fun e => (by rw [e, h1] at h3; cases h3), fun e => (by rw [e, h2] at h3; cases h3)⟩
  unfold Program.command at h
  cases hs : assoc cmd settingHandlers with
  | some fn =>
    rw [hs] at h
    simp only [Out.ret.injEq] at h
    subst h
    obtain ⟨h1, h2⟩ := no rfl rfl hs
    rw [other h1 h2]; rfl
  | none =>
    rw [hs] at h
    simp only at h
    cases ht : assoc cmd tranCommands with
    | some fn =>
      rw [ht] at h
      simp only at h
      obtain ⟨⟨w, rs, n⟩, -, h⟩ := Out.bind_eq_ret h
      simp only [Out.ret.injEq] at h
      subst h
      obtain ⟨h1, h2⟩ := no rfl rfl ht
      rw [other h1 h2]; rfl
    | none =>
      rw [ht] at h
      simp only at h
      split at h
      · rename_i hc
        obtain ⟨⟨ts, u⟩, -, h⟩ := Out.bind_eq_ret h
        simp only [Out.ret.injEq] at h
        subst h
        rw [other (by rw [hc]; decide) (by rw [hc]; decide)]; rfl
      · split at h
        · rename_i hc
          obtain ⟨⟨b, u⟩, -, h⟩ := Out.bind_eq_ret h
          simp only [Out.ret.injEq] at h
          subst h
          rw [other (by rw [hc]; decide) (by rw [hc]; decide)]; rfl
        · split at h
          · rename_i hc
            simp only [Out.ret.injEq] at h
            subst h
            show (cmdExit M.H p.cexit (cmd :: args)).1 = _
            match args with
            | [] => simp [cmdExit, exitAsked, hc]
            | [a] =>
              simp only [cmdExit, exitAsked, if_pos hc]
              by_cases h0 : a = "?"
              · subst h0; rfl
              · rw [if_neg h0]
                split
                · rfl
                · split <;> rfl
            | _ :: _ :: _ => rfl
          · rename_i hc
            simp only [Out.ret.injEq] at h
            subst h
            rw [other (fun e => hc (.inl e)) (fun e => hc (.inr e))]; rfl

/-- **C127, the exit level.** It is what was asked for last, and -1 if nothing was. (The program goes on all the same,
see `C127_ends_iff`.) -/
theorem C127_exit_level {M : Machine} {fs : FS} {c : Cliflags} {es : List Event} {p : Program}
    (h : Leads M fs c es p) (running : ¬ p.Ended) : p.cexit = lastExit (commandsTyped M es) := by
  have key : p.Ended ∨ p.cexit = lastExit (commandsTyped M es) := by
    refine leads_induction (P := fun es p => p.Ended ∨ p.cexit = lastExit (commandsTyped M es)) (.inr rfl) ?_ h
    intro es p e p' ih hs
    rcases program_step_cases hs with ⟨a, w, rfl, hk, h1, rfl⟩ | ⟨line, o, rfl, hm, rfl⟩
    · rcases ih with ih | ih
      · left
        show w.main = .ended
        have ih : p.net.main = .ended := ih
        rcases step_cases h1 with ⟨d, rfl, hm, _, rfl⟩ | ⟨g, rfl, hm, _, rfl⟩ | ⟨g, clock, f, addr, rfl, hm, hl, rfl⟩ |
          ⟨g, s, addr, rfl, hm, hl, rfl⟩ | ⟨g, rfl, hm, _, rfl⟩ | ⟨rfl, hm, rfl⟩ | ⟨rfl, hm, rfl⟩ | ⟨f, rfl, hm, rfl⟩
        all_goals first | exact absurd ih hm | rfl | (rw [ih] at hm; cases hm)
      · right
        rw [commandsTyped_append]
        simpa [commandsTyped] using ih
    · rcases ih with ih | ih
      · exact absurd ih hm
      · rcases enter_cases M o p line with ⟨e, _, hn⟩ | ⟨cmd, args, hg, p', hc, e⟩ | ⟨e, -⟩
        · right
          have : commandsTyped M [.typed line o] = [] := by
            unfold commandsTyped
            split
            · rename_i hg; exact absurd hg (hn _ _)
            · rfl
          rw [e, commandsTyped_append, ih, this, List.append_nil]
        · right
          rw [e, commandsTyped_append, command_exit hc, ih]
          simp only [commandsTyped, hg, lastExit, List.filterMap_append]
          cases ha : exitAsked (cmd :: args) with
          | none => simp [ha]
          | some n => simp [ha]
        · left
          rw [e]; rfl
  exact key.resolve_left running

/-- **C127, the settings.** At every moment the settings are what the commands typed so far, in their order, make of
the settings read at the start: no datagram ever changes them. -/
theorem C127_settings {M : Machine} {fs : FS} {c : Cliflags} {es : List Event} {p : Program}
    (h : Leads M fs c es p) : p.settings = settingRun M.H c (commandsTyped M es) := by
  refine leads_induction (P := fun es p => p.settings = settingRun M.H c (commandsTyped M es)) rfl ?_ h
  intro es p e p' ih hs
  rw [commandsTyped_append]
  unfold settingRun at ih ⊢
  rw [List.foldl_append, ← ih]
  rcases program_step_cases hs with ⟨a, w, rfl, _, h1, rfl⟩ | ⟨line, o, rfl, hm, rfl⟩
  · rfl
  · simp only [commandsTyped]
    rcases enter_cases M o p line with ⟨e, _, hn⟩ | ⟨cmd, args, hg, p', hc, e⟩ | ⟨e, hn | ⟨cmd, args, hg, hc⟩⟩
    · rw [e]
      split
      · rename_i hg; exact absurd hg (hn _ _)
      · rfl
    · rw [e, hg]
      exact (command_done hc).settings
    · rw [e]
      split
      · rename_i hg; rw [hg] at hn; exact absurd trivial hn
      · rfl
    · rw [e, hg]
      show p.settings = (settingCmd M.H p.settings (cmd :: args)).1
      cases hs : assoc cmd settingHandlers with
      | none => simp only [settingCmd, hs]
      | some fn =>
        exfalso; apply hc
        unfold Program.command
        rw [hs]; trivial

/-- So timers stay proper and every flag but `txwilling` stays legal, whatever is typed and received. -/
theorem C127_settings_proper {M : Machine} {fs : FS} {c : Cliflags} {es : List Event} {p : Program}
    (h : Leads M fs c es p) (timers : TimersOK c) (legal : ValidGlobal shipped c.global) :
    TimersOK p.settings ∧ ∀ k ∈ globalKeys, k ≠ "txwilling" →
      ∃ v, assoc k p.settings.global = some v ∧ valid shipped k v = true := by
  rw [C127_settings h]
  exact ⟨C52_timers M.H c timers _, fun k hk ht => C50_others M.H c legal _ k hk ht⟩

example : TimersOK shippedSettings ∧ ValidGlobal shipped shippedSettings.global := ⟨by unfold TimersOK; decide, C14_shipped_defaults⟩

/-- On the network side the files change only when a request is handled. -/
theorem step_files {S : Setup} {w w' : World} {a : Action} (h : w.step S a = some w') (other : ∀ f, a ≠ .files f) :
    w'.fs = w.fs ∨ AskedFor w' := by
  rcases step_cases h with ⟨d, rfl, _, hr, rfl⟩ | ⟨g, rfl, _, hr, rfl⟩ | ⟨g, clock, f, addr, rfl, hm, hr, rfl⟩ |
      ⟨g, s, addr, rfl, hm, hr, rfl⟩ | ⟨g, rfl, hm, hr, rfl⟩ | ⟨rfl, hm, rfl⟩ | ⟨rfl, hm, rfl⟩ | ⟨f, rfl, _⟩
  · left
    rcases onRecv_cases S w d with ⟨_, h⟩ | ⟨hf, h⟩ | ⟨f', hf, h⟩ | ⟨s, hf, h⟩ <;> rw [h] <;> rfl
  · exact .inl rfl
  · have hh := (onRx_logs S w g clock f addr).2.2.1
    cases f with
    | request r => exact .inr ⟨_, by rw [hh]; exact List.mem_append_right _ (List.mem_singleton.2 rfl), r, rfl⟩
    | beacon b => left; unfold World.onRx World.orEnd; simp only; split <;> rfl
    | data b => left; unfold World.onRx World.orEnd; simp only; split <;> rfl
    | metadata b => left; unfold World.onRx World.orEnd; simp only; split <;> rfl
    | status b => left; unfold World.onRx World.orEnd; simp only; split <;> rfl
  · exact .inl (onTx_logs S w g s addr).2.2.2.2.2.2.2
  · exact .inl rfl
  · exact .inl rfl
  · exact .inl rfl
  · exact absurd rfl (other f)

/-- **C127, the two sides apart.** A step of the network side touches nothing the commands keep, and no file unless
it is the step that stands for other programs or a request has been handled. A command touches nothing the network
side keeps. -/
theorem C127_apart {M : Machine} {p p' : Program} {e : Event} (h : p.step M e = some p') :
    (∀ a, e = .net a → SameCommands p p' ∧
      ((∀ f, a ≠ .files f) → p'.net.fs = p.net.fs ∨ AskedFor p'.net)) ∧
    (∀ line o, e = .typed line o → SameNet p.net p'.net) := by
  rcases program_step_cases h with ⟨a, w, rfl, _, h1, rfl⟩ | ⟨line, o, rfl, hm, rfl⟩
  · refine ⟨fun b hb => ?_, by simp⟩
    cases hb
    exact ⟨⟨rfl, rfl, rfl, rfl, rfl⟩, step_files h1⟩
  · refine ⟨by simp, fun _ _ _ => ?_⟩
    rcases enter_cases M o p line with ⟨e, _⟩ | ⟨cmd, args, _, p', hc, e⟩ | ⟨e, _⟩
    · rw [e]; exact ⟨rfl, rfl, rfl, rfl, rfl, rfl, rfl⟩
    · rw [e, (command_done hc).net]; exact ⟨rfl, rfl, rfl, rfl, rfl, rfl, rfl⟩
    · rw [e]; exact ⟨rfl, rfl, rfl, rfl, rfl, rfl, rfl⟩

/-- **C127, lines are always taken.** While the process runs a line can be entered, even when the main loop hangs. -/
theorem C127_responsive (M : Machine) (p : Program) (running : ¬ p.Ended) (line : String) (o : Replies) :
    ∃ p', p.step M (.typed line o) = some p' := 
  ⟨p.enter M o line, if_neg running⟩

example (fs : FS) : ¬ (Program.init fs shippedSettings).Ended := by simp [Program.Ended, Program.init, World.init]

/-- **C127, the table of transfers.** Never two transfers of one file with one peer, whatever peers send and whatever
happens to the files. -/
theorem C127_one_per_file {M : Machine} {fs : FS} {c : Cliflags} {es : List Event} {p : Program}
    (h : Leads M fs c es p) : OnePerFile M.str p.table := by
  refine leads_induction (P := fun _ p => OnePerFile M.str p.table) List.Pairwise.nil ?_ h
  intro es p e p' ih hs
  rcases program_step_cases hs with ⟨a, w, rfl, _, h1, rfl⟩ | ⟨line, o, rfl, hm, rfl⟩
  · exact ih
  · rcases enter_cases M o p line with ⟨e, _⟩ | ⟨cmd, args, _, p', hc, e⟩ | ⟨e, _⟩
    · rw [e]; exact ih
    · rw [e]
      rcases (command_done hc).table with ⟨h1, _⟩ | ⟨u, f, t, w, h1, h2, h3, _⟩
      · exact List.Pairwise.sublist h1 ih
      · rw [h3]
        obtain ⟨e1, _, _, e4, e5, _⟩ := addInitiator_ret h1
        have hcl := scan_clear _ _ _ _ _ _ h2
        rw [e1]
        refine List.pairwise_append.2 ⟨ih, List.pairwise_singleton _ _, ?_⟩
        intro a hm b hb
        rw [List.mem_singleton] at hb
        subst hb
        rintro ⟨f1, f2⟩
        exact (hcl a hm).2 ⟨by rw [f1, e4], by rw [← e5]; exact f2.symm⟩
    · rw [e]; exact ih

/-- **C127, session numbers.** They are pairwise different as long as no more than `2^32 - pid` commands have been
typed. -/
theorem C127_sessions {M : Machine} {fs : FS} {c : Cliflags} {es : List Event} {p : Program}
    (h : Leads M fs c es p) (few : (commandsTyped M es).length ≤ 2 ^ 32 - M.pid.toNat) :
    p.table.Pairwise fun a b => a.session ≠ b.session := by
  have key : ∃ n ≤ (commandsTyped M es).length, p.sessionid = sessAfter M.pid n ∧ ∃ idx : List Nat,
      p.table.map (·.session) = idx.map (fun i => sessAfter M.pid (i + 1)) ∧
        idx.Pairwise (· < ·) ∧ ∀ i ∈ idx, i < n := by
    refine leads_induction (P := fun es p => ∃ n ≤ (commandsTyped M es).length, p.sessionid = sessAfter M.pid n ∧
      ∃ idx : List Nat, p.table.map (·.session) = idx.map (fun i => sessAfter M.pid (i + 1)) ∧
        idx.Pairwise (· < ·) ∧ ∀ i ∈ idx, i < n)
      ⟨0, Nat.le_refl _, rfl, [], rfl, List.Pairwise.nil, by simp⟩ ?_ h
    intro es p e p' ⟨n, hn, hid, idx, i1, i2, i3⟩ hs
    have old : n ≤ (commandsTyped M (es ++ [e])).length := by
      rw [commandsTyped_append, List.length_append]; omega
    rcases program_step_cases hs with ⟨a, w, rfl, _, h1, rfl⟩ | ⟨line, o, rfl, hm, rfl⟩
    · exact ⟨n, old, hid, idx, i1, i2, i3⟩
    · rcases enter_cases M o p line with ⟨e, _⟩ | ⟨cmd, args, hg, p', hc, e⟩ | ⟨e, _⟩
      · rw [e]; exact ⟨n, old, hid, idx, i1, i2, i3⟩
      · rw [e]
        rcases (command_done hc).table with ⟨h1, h2, _⟩ | ⟨u, f, t, w, h1, h2, h3, h4, _⟩
        · have sub := h1.map (·.session)
          rw [i1] at sub
          obtain ⟨idx', s1, s2⟩ := List.sublist_map_iff.1 sub
          exact ⟨n, old, h2.trans hid, idx', s2, i2.sublist s1, fun i hi => i3 i (s1.mem hi)⟩
        · obtain ⟨e1, e2, e3, _⟩ := addInitiator_ret h1
          have hs : newSession (M.tranEnv o).pid p.tranWorld.sessionid = sessAfter M.pid (n + 1) := by
            show newSession M.pid p.sessionid = _
            rw [hid]; rfl
          refine ⟨n + 1, ?_, by rw [h4, e2, hs], idx ++ [n], ?_, ?_, ?_⟩
          · rw [commandsTyped_append, List.length_append]
            simp only [commandsTyped, hg, List.length_singleton]
            omega
          · rw [h3, e1, List.map_append, List.map_append]
            show p.table.map (·.session) ++ _ = _
            rw [i1]; simp [e3, hs]
          · refine List.pairwise_append.2 ⟨i2, List.pairwise_singleton _ _, ?_⟩
            intro a ha b hb; rw [List.mem_singleton] at hb; subst hb; exact i3 a ha
          · intro i hi
            rcases List.mem_append.1 hi with hi | hi
            · have := i3 i hi; omega
            · rw [List.mem_singleton] at hi; omega
      · rw [e]; exact ⟨n, old, hid, idx, i1, i2, i3⟩
  obtain ⟨n, hn, _, idx, i1, i2, i3⟩ := key
  have hp := M.pid.isLt
  have : (p.table.map (·.session)).Pairwise (· ≠ ·) := by
    rw [i1, List.pairwise_map]
    refine i2.imp_of_mem ?_
    intro a b ha hb hab heq
    have ha := i3 a ha
    have hb := i3 b hb
    have h1 := sessSeq_toNat M.pid a
    rw [heq, sessSeq_toNat] at h1
    rw [Nat.mod_eq_of_lt (by omega : a < 2 ^ 32 - M.pid.toNat),
      Nat.mod_eq_of_lt (by omega : b < 2 ^ 32 - M.pid.toNat)] at h1
    omega
  exact List.pairwise_map.1 this

example : (2 : Nat) ≤ 2 ^ 32 - (41#32).toNat := by decide

/-! ## Which events end the process -/

/-- What can end the process, for the shipped tables. -/
def Ends (M : Machine) (p : Program) : Event → Prop
  | .net (.recv d) => ¬ ListenSafe M.S.mtu d.bytes
  | .net (.takeRx fam _) => ∃ f a, p.net.listener fam = .sendRx f a ∧ Deadly f
  | .net (.takeQuit _) => True
  | .net .userQuit => True
  | .net _ => False
  | .typed line o => FatalLine line ∨
      ∃ cmd ws, getLine (M.H.map Prod.fst) cmdHandlers line = .ret (.started cmd ws) ∧
        ¬ (p.command M o cmd ws).returns

/-- A reply a listener holds out came from a datagram. -/
theorem pending_reply {S : Setup} {fs : FS} {w : World} (h : Reachable S fs w) {fam : Fam} {s : Status}
    {a : UDPAddr} (hl : w.listener fam = .sendTx s a) :
    ∃ d : Datagram, listenFrame S.T d.clock S.mtu d.bytes = .ret (.tx s) := by
  revert fam s a
  refine reachable_induction (P := fun w => ∀ {fam s a}, w.listener fam = .sendTx s a →
    ∃ d : Datagram, listenFrame S.T d.clock S.mtu d.bytes = .ret (.tx s)) ?_ ?_ h
  · intro fam s a hl; cases hl
  · intro w b w' ih hs fam s a hl
    have keep : ∀ {st : LState} {g : Fam} {w1 : World}, w1.listener = (w.setListener g st).listener →
        (∀ s a, st ≠ .sendTx s a) → w1.listener fam = .sendTx s a → w.listener fam = .sendTx s a := by
      intro st g w1 e hne hl
      rw [e] at hl
      by_cases hg : fam = g
      · subst hg; rw [setListener_self] at hl; exact absurd hl (hne _ _)
      · rwa [setListener_other _ _ hg] at hl
    rcases step_cases hs with ⟨d, rfl, _, hr, rfl⟩ | ⟨g, rfl, _, hr, rfl⟩ | ⟨g, clock, f', addr, rfl, hm, hr, rfl⟩ |
      ⟨g, s, addr, rfl, hm, hr, rfl⟩ | ⟨g, rfl, hm, hr, rfl⟩ | ⟨rfl, hm, rfl⟩ | ⟨rfl, hm, rfl⟩ | ⟨f, rfl, hm, rfl⟩
    · rcases onRecv_cases S w d with ⟨_, h⟩ | ⟨hf, h⟩ | ⟨f', hf, h⟩ | ⟨s', hf, h⟩
      · rw [h] at hl; exact ih hl
      · rw [h] at hl; exact ih hl
      · rw [h] at hl
        exact ih (keep (st := .sendRx f' d.source) (g := d.fam) rfl (by simp) hl)
      · rw [h] at hl
        by_cases hg : fam = d.fam
        · subst hg
          simp only [setListener_self] at hl
          cases hl
          exact ⟨d, hf⟩
        · simp only [setListener_other _ _ hg] at hl
          exact ih hl
    · exact ih (keep (st := .sendQuit) (g := g) rfl (by simp) hl)
    · exact ih (keep (onRx_logs S w g clock f' addr).1 (by simp) hl)
    · exact ih (keep (onTx_logs S w g _ addr).1 (by simp) hl)
    · exact ih (keep (st := .gone) (g := g) rfl (by simp) hl)
    · exact ih hl
    · exact ih hl
    · exact ih hl

/-- A reply of the listener can be printed. -/
theorem reply_prints {clock : GoTime} {mtu : Nat} {dg : List Byte} {st : Status}
    (h : listenFrame shipped clock mtu dg = .ret (.tx st)) : st.shortPrint shipped = .ret () := by
  have key : ∀ s p, st.Refuses shipped s p → st.shortPrint shipped = .ret () := by
    intro s p hr
    have hz : getStr shipped st.header "reqtstamp" = .ret "no" := by
      have : getStr shipped st.header "reqtstamp" = getStr shipped 0 "reqtstamp" := by
        unfold getStr; rw [hr.unstamped]
      rw [this]; decide +kernel
    unfold Status.shortPrint
    rw [hz, hr.errcode]
    rfl
  obtain ⟨_, _, ⟨_, hr, _⟩ | ⟨_, _, _, _, s, p, hr, _⟩⟩ := C42_reply clock mtu dg st h
  · exact key _ _ hr
  · exact key _ _ hr

/-- **C127, the end.** With the shipped tables, exactly these events end the process, in any state that can be
reached: a datagram outside `ListenSafe`, a deadly frame taken by the main loop, the end of a listener or of the
interface, a fatal line, and a command that does not come back. -/
theorem C127_ends_iff {M : Machine} (hT : M.S.T = shipped) {fs : FS} {c : Cliflags} {es : List Event} {p p' : Program}
    (reach : Leads M fs c es p) {e : Event} (h : p.step M e = some p') : p'.Ended ↔ Ends M p e := by
  have hr := C127_network reach
  rcases program_step_cases h with ⟨a, w, rfl, hk, h1, rfl⟩ | ⟨line, o, rfl, hm, rfl⟩
  · show w.main = .ended ↔ _
    rcases step_cases h1 with ⟨d, rfl, hm, _, rfl⟩ | ⟨g, rfl, hm, _, rfl⟩ | ⟨g, clock, f, addr, rfl, hm, hl, rfl⟩ |
      ⟨g, s, addr, rfl, hm, hl, rfl⟩ | ⟨g, rfl, hm, _, rfl⟩ | ⟨rfl, hm, rfl⟩ | ⟨rfl, hm, rfl⟩ | ⟨f, rfl, hm, rfl⟩
    · show _ ↔ ¬ ListenSafe _ _
      rw [← C42_returns_iff_partial d.clock]
      rcases onRecv_cases M.S p.net d with ⟨hn, h⟩ | ⟨hf, h⟩ | ⟨f', hf, h⟩ | ⟨s, hf, h⟩ <;> rw [h]
      · rw [hT] at hn; exact ⟨fun _ => hn, fun _ => rfl⟩
      all_goals
        rw [hT] at hf
        rw [hf]
        exact ⟨fun h => absurd h hm, fun h => absurd trivial h⟩
    · exact ⟨fun h => absurd h hm, fun h => h.elim⟩
    · obtain ⟨a1, a2⟩ := C65_ends_iff_partial M.S hT fs p.net _ hr g clock f addr hl h1
      show _ ↔ ∃ f a, p.net.listener g = .sendRx f a ∧ Deadly f
      constructor
      · intro he
        refine ⟨f, addr, hl, ?_⟩
        by_cases hd : Deadly f
        · exact hd
        · rw [a2 hd] at he; cases he
      · rintro ⟨f', a', hl', hd⟩
        rw [hl] at hl'
        cases hl'
        exact a1 hd
    · refine ⟨fun he => ?_, fun h => h.elim⟩
      obtain ⟨d, hd⟩ := pending_reply hr hl
      rw [hT] at hd
      have hp := reply_prints hd
      unfold World.onTx World.orEnd at he
      rw [hT] at he
      simp only [hp] at he
      exact absurd he (by show p.net.main ≠ _; rw [hm]; simp)
    · exact ⟨fun _ => trivial, fun _ => rfl⟩
    · exact ⟨fun _ => trivial, fun _ => rfl⟩
    · exact absurd rfl hk
    · exact ⟨fun h => absurd h hm, fun h => h.elim⟩
  · have line_ends : ¬ (getLine (M.H.map Prod.fst) cmdHandlers line).returns ↔ FatalLine line := by
      obtain ⟨e1, e2⟩ := C54_getLine_exact (M.H.map Prod.fst) cmdHandlers line
      unfold FatalLine
      rw [← or_assoc, ← e1, ← e2]
      cases getLine (M.H.map Prod.fst) cmdHandlers line <;> simp [Out.returns]
    show (p.enter M o line).Ended ↔ FatalLine line ∨ _
    rw [← line_ends]
    rcases enter_cases M o p line with ⟨e, hret, hn⟩ | ⟨cmd, args, hg, p', hc, e⟩ | ⟨e, hx⟩ <;> rw [e]
    · refine ⟨fun h => absurd h hm, ?_⟩
      rintro (h | ⟨cmd, ws, hg, _⟩)
      · exact absurd hret h
      · exact absurd hg (hn _ _)
    · have : p'.net.main = p.net.main := by rw [(command_done hc).net]
      refine ⟨fun h => absurd (this.symm.trans h) hm, ?_⟩
      rw [hg]
      rintro (h | ⟨cmd', ws, hg', hb⟩)
      · exact absurd trivial h
      · cases hg'
        rw [hc] at hb
        exact absurd trivial hb
    · refine ⟨fun _ => ?_, fun _ => rfl⟩
      rcases hx with h | ⟨cmd, args, hg, hc⟩
      · exact .inl h
      · exact .inr ⟨cmd, _, hg, hc⟩

/-! ## A program nobody harms goes on -/

/-- Events that do no harm by themselves: datagrams the listener survives and that say nothing deadly; lines that are
not fatal and do not order `txwilling on` or `off`, while every dial succeeds and the system answers questions about
files. -/
def Harmless (M : Machine) : Event → Prop
  | .net (.recv d) => ListenSafe M.S.mtu d.bytes ∧ ∀ f, Says shipped d.bytes f → ¬ Deadly f
  | .net (.readError _) => False
  | .net .userQuit => False
  | .net _ => True
  | .typed line o => ¬ FatalLine line ∧ (∀ a, ∃ t, o.remote a = .ok t) ∧ (∀ n, (o.file.fileMeta n).returns) ∧
      ∀ ws ∈ commandsTyped M [.typed line o], ws ≠ ["txwilling", "on"] ∧ ws ≠ ["txwilling", "off"]

/-- With legal settings, connected transfers, dials that succeed and a system that answers, every command comes
back. -/
theorem command_returns {M : Machine} (hT : M.S.T = shipped) {o : Replies} {p : Program}
    (legal : ValidGlobal shipped p.settings.global) (conns : ∀ t ∈ p.table, t.conn ≠ none)
    (answers : ∀ n, (o.file.fileMeta n).returns) (cmd : String) (args : List String) :
    (p.command M o cmd args).returns := by
  unfold Program.command
  cases hs : assoc cmd settingHandlers with
  | some fn => trivial
  | none =>
    simp only
    cases ht : assoc cmd tranCommands with
    | some fn =>
      simp only
      rcases tranCommand_shape (mem_of_assoc ht) ⟨M.H, M.tranEnv o, p.settings⟩ p.tranWorld args with
        ⟨rs', n', h2⟩ | ⟨a, f, u, k, _, hu, h2⟩
      · rw [h2]; trivial
      · rw [h2]
        have : (CmdEnv.initiate ⟨M.H, M.tranEnv o, p.settings⟩ p.tranWorld cmd u f).returns := by
          unfold CmdEnv.initiate newInitiator
          cases scanTransfers (M.tranEnv o) p.tranWorld.fs cmd u (utf8 f) p.tranWorld.transfers with
          | noConnection i => trivial
          | fileExists => trivial
          | inProgress => trivial
          | clear =>
            simp only
            unfold addInitiator
            have ha := answers (utf8 f)
            have he : (M.tranEnv o).file = o.file := rfl
            rw [he]
            cases hf : o.file.fileMeta (utf8 f) with
            | fatal => rw [hf] at ha; exact ha.elim
            | panic => rw [hf] at ha; exact ha.elim
            | ret fm =>
              cases hc : p.settings.copy with
              | error x =>
                exfalso
                have := (C16_fails_iff p.settings).1 ⟨x, hc⟩
                obtain ⟨v, hv⟩ := legal.2.2.1 "txwilling" (by decide)
                rw [this] at hv; cases hv
              | ok fl => simp only [Out.ret_bind, hc]; trivial
        cases hi : CmdEnv.initiate ⟨M.H, M.tranEnv o, p.settings⟩ p.tranWorld cmd u f with
        | ret r => trivial
        | fatal => rw [hi] at this; exact this.elim
        | panic => rw [hi] at this; exact this.elim
    | none =>
      simp only
      split
      · have : (cmdRmtran M.str p.table args).returns := by
          unfold cmdRmtran
          split
          · trivial
          · trivial
          · split
            · trivial
            · rename_i addr _ _ session _
              obtain ⟨r, h1, h2⟩ := matchTran_iff p.table addr session conns
              rw [h1]
              simp only [Out.ret_bind]
              cases r with
              | none => trivial
              | some i =>
                obtain ⟨⟨t, ht, _⟩, _⟩ := (h2 i).1 rfl
                simp only [ht]; trivial
          · trivial
        cases hi : cmdRmtran M.str p.table args with
        | ret r => trivial
        | fatal => rw [hi] at this; exact this.elim
        | panic => rw [hi] at this; exact this.elim
      · split
        · obtain ⟨b, acts, h1, _⟩ := C85_returns (E := M.beaconEnv o) hT legal p.beacon args
          rw [h1]; trivial
        · split <;> trivial

/-- **C127, a program nobody harms goes on.** With the shipped tables and legal settings, an execution of any length
and in any order all of whose events are harmless never ends the process. -/
theorem C127_goes_on {M : Machine} (hT : M.S.T = shipped) {fs : FS} {c : Cliflags}
    (legal : ValidGlobal shipped c.global) {es : List Event} {p : Program} (h : Leads M fs c es p)
    (harmless : ∀ e ∈ es, Harmless M e) : ¬ p.Ended := by
  have key : (∀ e ∈ es, Harmless M e) → Leads M fs c es p ∧ ¬ p.Ended ∧ (∀ t ∈ p.table, t.conn ≠ none) ∧
      (∀ fam, p.net.listener fam ≠ .sendQuit) ∧
      (∀ d ∈ p.net.read, ∀ f, Says shipped d.bytes f → ¬ Deadly f) := by
    refine leads_induction (P := fun es p => (∀ e ∈ es, Harmless M e) → Leads M fs c es p ∧ ¬ p.Ended ∧
      (∀ t ∈ p.table, t.conn ≠ none) ∧ (∀ fam, p.net.listener fam ≠ .sendQuit) ∧
      (∀ d ∈ p.net.read, ∀ f, Says shipped d.bytes f → ¬ Deadly f))
      (fun _ => ⟨rfl, (by intro h; cases h), (by intro t ht; cases ht), (by intro f h; cases h),
        (by intro d hd; cases hd)⟩) ?_ h
    intro es p e p' ih hs hh
    obtain ⟨i1, i2, i3, i4, i5⟩ := ih fun x hx => hh x (List.mem_append_left _ hx)
    have he : Harmless M e := hh e (List.mem_append_right _ (List.mem_singleton.2 rfl))
    have lead : Leads M fs c (es ++ [e]) p' := by
      unfold Leads at i1 ⊢
      have app : ∀ (es : List Event) (q : Program), q.run M es = some p → q.run M (es ++ [e]) = some p' := by
        intro es
        induction es with
        | nil => intro q hq; cases hq; show (p.step M e).bind _ = _; rw [hs]; rfl
        | cons x xs ihx =>
          intro q hq
          show (q.step M x).bind _ = _
          have hq : (q.step M x).bind (fun q => q.run M xs) = some p := hq
          cases hx : q.step M x with
          | none => rw [hx] at hq; cases hq
          | some q1 => rw [hx] at hq; exact ihx q1 hq
      exact app es _ i1
    have still : ¬ p'.Ended := by
      rw [C127_ends_iff hT i1 hs]
      rcases program_step_cases hs with ⟨a, w, rfl, hk, h1, rfl⟩ | ⟨line, o, rfl, hm, rfl⟩
      · cases a with
        | recv d => exact fun h => h he.1
        | readError g => exact he.elim
        | takeRx g clock =>
          rintro ⟨f, a, hl, hd⟩
          obtain ⟨d, hd1, _, _, hd2⟩ := pending_from (C127_network i1) hl
          have := C42_delivers _ _ _ _ _ hd2
          rw [hT] at this
          exact i5 d hd1 f this.2.2 hd
        | takeTx g => exact id
        | takeQuit g =>
          intro _
          simp only [World.step] at h1
          split at h1
          · rename_i hl; exact i4 g hl
          · cases h1
        | userQuit => exact he.elim
        | kill => exact id
        | files f => exact id
      · obtain ⟨e1, e2, e3, e4⟩ := he
        rintro (h | ⟨cmd, ws, hg, hb⟩)
        · exact e1 h
        · refine hb (command_returns hT ?_ i3 e3 cmd ws)
          rw [C127_settings i1]
          have no : ∀ v, v = "on" ∨ v = "off" → ["txwilling", v] ∉ commandsTyped M es := by
            intro v hv hmem
            have : ∀ es : List Event, (∀ e ∈ es, Harmless M e) → ["txwilling", v] ∉ commandsTyped M es := by
              intro es
              induction es with
              | nil => intro _ h; cases h
              | cons x xs ihx =>
                intro hall hm
                rw [show x :: xs = [x] ++ xs from rfl, commandsTyped_append] at hm
                rcases List.mem_append.1 hm with hm | hm
                · cases x with
                  | net a => cases hm
                  | typed l o' =>
                    have := (hall _ List.mem_cons_self).2.2.2 _ hm
                    rcases hv with rfl | rfl
                    · exact this.1 rfl
                    · exact this.2 rfl
                · exact ihx (fun y hy => hall y (List.mem_cons_of_mem _ hy)) hm
            exact this es (fun x hx => hh x (List.mem_append_left _ hx)) hmem
          exact C50_keeps_legal_partial M.H c legal _ (no _ (.inl rfl)) (no _ (.inr rfl))
    refine ⟨lead, still, ?_⟩
    rcases program_step_cases hs with ⟨a, w, rfl, hk, h1, rfl⟩ | ⟨line, o, rfl, hm, rfl⟩
    · refine ⟨i3, ?_⟩
      have set_ne : ∀ g (st : LState), st ≠ .sendQuit → ∀ fam, (p.net.setListener g st).listener fam ≠ .sendQuit := by
        intro g st hne fam
        by_cases hg : fam = g
        · subst hg; rw [setListener_self]; exact hne
        · rw [setListener_other _ _ hg]; exact i4 fam
      rcases step_cases h1 with ⟨d, rfl, hm, _, rfl⟩ | ⟨g, rfl, hm, _, rfl⟩ | ⟨g, clock, f, addr, rfl, hm, hl, rfl⟩ |
        ⟨g, s, addr, rfl, hm, hl, rfl⟩ | ⟨g, rfl, hm, _, rfl⟩ | ⟨rfl, hm, rfl⟩ | ⟨rfl, hm, rfl⟩ | ⟨f, rfl, hm, rfl⟩
      · have read : ∀ x ∈ p.net.read ++ [d], ∀ f, Says shipped x.bytes f → ¬ Deadly f := by
          intro x hx
          rcases List.mem_append.1 hx with hx | hx
          · exact i5 x hx
          · rw [List.mem_singleton] at hx; subst hx; exact he.2
        rcases onRecv_cases M.S p.net d with ⟨_, h⟩ | ⟨hf, h⟩ | ⟨f', hf, h⟩ | ⟨s, hf, h⟩
        · simp only [h]; exact ⟨i4, i5⟩
        · simp only [h]; exact ⟨i4, read⟩
        · simp only [h]; exact ⟨set_ne _ _ (by simp), read⟩
        · simp only [h]; exact ⟨set_ne _ _ (by simp), read⟩
      · exact he.elim
      · obtain ⟨l1, l2, _⟩ := onRx_logs M.S p.net g clock f addr
        simp only [l1, l2]
        exact ⟨set_ne _ _ (by simp), i5⟩
      · obtain ⟨l1, l2, _⟩ := onTx_logs M.S p.net g s addr
        simp only [l1, l2]
        exact ⟨set_ne _ _ (by simp), i5⟩
      · exact ⟨set_ne _ _ (by simp), i5⟩
      · exact ⟨i4, i5⟩
      · exact ⟨i4, i5⟩
      · exact ⟨i4, i5⟩
    · obtain ⟨_, hap⟩ := C127_apart hs
      obtain ⟨s1, _, _, s4, _⟩ := hap line o rfl
      rw [← s1, ← s4]
      refine ⟨?_, i4, i5⟩
      rcases enter_cases M o p line with ⟨e, _⟩ | ⟨cmd, args, hg, p', hc, e⟩ | ⟨e, _⟩ <;> rw [e]
      · exact i3
      · rcases (command_done hc).table with ⟨h1, _⟩ | ⟨u, f, t, w, h1, h2, h3, _⟩
        · exact fun t ht => i3 t (h1.mem ht)
        · obtain ⟨e1, _, _, _, _, _, _, _, e9⟩ := addInitiator_ret h1
          rw [h3, e1]
          intro x hx
          rcases List.mem_append.1 hx with hx | hx
          · exact i3 x hx
          · rw [List.mem_singleton] at hx
            subst hx
            obtain ⟨a, ha⟩ := he.2.1 u
            rw [e9 a ha]; simp
      · exact i3
  exact (key harmless).2.1

/-- A machine with the shipped tables and three commands. -/
def exampleMachine : Machine :=
  ⟨shippedSetup, [("put", ⟨"put a file", "put <host> <file>"⟩), ("timeout", ⟨"timers", "timeout …"⟩),
    ("rmtran", ⟨"remove", "rmtran …"⟩)], 41, fun a => a.zone⟩

/-- A network that works and a system that finds no file. -/
def calmReplies : Replies :=
  ⟨exampleEnv.resolve, fun a => .ok a.zone, fun _ => .ok "here", exampleEnv.file, ⟨none, .ok (4096, 1000)⟩,
    fun _ _ => none⟩

/-- A beacon comes in while commands are typed. -/
def exampleEvents : List Event :=
  [.net (.recv ⟨.v4, ⟨0, 0⟩, [0x20, 0, 0, 0, 104, 105, 33, 33], someone⟩), .typed "saratoga[0]:timeout request 5" calmReplies,
   .net (.takeRx .v4 ⟨5, 0⟩), .typed "saratoga[1]: put 1.1.1.1 f" calmReplies, .net (.files exampleFS),
   .typed "saratoga[2]:put 2.2.2.2 f" calmReplies, .typed "saratoga[3]:put 1.1.1.1 f" calmReplies, .typed "saratoga[4]:bogus" calmReplies]

example : ((Program.init exampleFS shippedSettings).run exampleMachine exampleEvents).map (fun p =>
    (p.settings.timeout.request, p.table.map (fun t => (t.session, t.conn)), p.net.peers.length)) =
    some (5, [(42, some "1.1.1.1:7542"), (43, some "2.2.2.2:7542")], 1) := by
  decide +kernel

example : commandsTyped exampleMachine exampleEvents =
    [["timeout", "request", "5"], ["put", "1.1.1.1", "f"], ["put", "2.2.2.2", "f"], ["put", "1.1.1.1", "f"]] := by
  decide +kernel

/-- The line `:exit` is fatal, a prompt with nothing behind it is not. -/
example : FatalLine "saratoga[1]:exit" ∧ ¬ FatalLine "saratoga[1]:" := by
  constructor
  · exact .inr (.inr ⟨"saratoga[1]".toList, by decide, .inl (by decide)⟩)
  · obtain ⟨e1, e2⟩ := C54_getLine_exact [] [] "saratoga[1]:"
    unfold FatalLine
    rw [← or_assoc, ← e1, ← e2]
    have : getLine [] [] "saratoga[1]:" = .ret .nothing := by decide +kernel
    rw [this]; simp

/-- The beacon of the example is harmless. -/
example : Harmless exampleMachine (.net (.recv ⟨.v4, ⟨0, 0⟩, [0x20, 0, 0, 0, 104, 105, 33, 33], someone⟩)) := by
  refine ⟨(C42_returns_iff_partial ⟨0, 0⟩ 1500 _).1 (by decide +kernel), ?_⟩
  intro f hf hd
  have : Says shipped [0x20, 0, 0, 0, 104, 105, 33, 33] (.beacon ⟨0x20000000#32, 0, [104, 105, 33, 33]⟩) := by
    have h := C42_delivers shipped ⟨0, 0⟩ 1500 [0x20, 0, 0, 0, 104, 105, 33, 33] (.beacon ⟨0x20000000#32, 0, [104, 105, 33, 33]⟩)
      (by decide +kernel)
    exact h.2.2
  rw [hf.unique this] at hd
  exact hd

end Saratoga
