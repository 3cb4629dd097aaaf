import Verif.Props.BeaconCmd
import Verif.Props.Keys
import Verif.Props.Program

/-! Properties C83, C84, C124 and C127: what the commands typed so far have left behind. -/

namespace Saratoga

/-! ## C84 -/

/-- **C84** A word that is no address gets no beacon: it is named, and the usage of the command said, in the error window;
what the command keeps of hosts and groups stays as it was. -/
theorem C84_no_address (E : BeaconEnv) (c : Cliflags) (b : BeaconState) (cmd w : String) (t : CmdText)
    (known : assoc "beacon" E.H = some t) (word : w ∉ ["?", "off", "v4", "v6"]) (e : Err)
    (bad : udpAddress E.resolve w = .error e) :
    ∃ b', cmdBeacon E c b [cmd, w] =
        .ret (b', [.show (.err ("Invalid IP Address:" ++ w)), .show (.err ("usage:" ++ t.usage))]) ∧
      b'.hosts = b.hosts ∧ b'.v4mcast = b.v4mcast ∧ b'.v6mcast = b.v6mcast := by
  simp only [List.mem_cons, List.not_mem_nil, or_false, not_or] at word
  obtain ⟨h1, h2, h3, h4⟩ := word
  refine ⟨{ b with flags := setglobal E.T "beacon" c.global, interval := c.timeout.binterval, count := c.bcount },
    ?_, rfl, rfl, rfl⟩
  simp only [cmdBeacon, if_neg h1, if_neg h2, if_neg h3, if_neg h4, bad, badBeaconAddress, prusage, known]

example : ∃ e, udpAddress (fun _ => .error "no such host") "nowhere" = .error e := ⟨_, rfl⟩

/-! ## C83 -/

theorem command_beacon {M : Machine} {o : Replies} {p p' : Program} {cmd : String} {args : List String}
    (h : p.command M o cmd (cmd :: args) = .ret p') :
    (p'.beacon.v4mcast = true ↔ p.beacon.v4mcast = true ∨ (cmd :: args) = ["beacon", "v4"]) ∧
    (p'.beacon.v6mcast = true ↔ p.beacon.v6mcast = true ∨ (cmd :: args) = ["beacon", "v6"]) ∧
    (p.beacon.hosts = [] → p'.beacon.hosts = []) := by
  have other : ∀ {q : Program}, cmd ≠ "beacon" → q.beacon = p.beacon →
      (q.beacon.v4mcast = true ↔ p.beacon.v4mcast = true ∨ (cmd :: args) = ["beacon", "v4"]) ∧
      (q.beacon.v6mcast = true ↔ p.beacon.v6mcast = true ∨ (cmd :: args) = ["beacon", "v6"]) ∧
      (p.beacon.hosts = [] → q.beacon.hosts = []) := by
    intro q hn e
    rw [e]
    simp [hn]
  have no : ∀ {β : Type} {l : List (String × β)} {v : β}, assoc "beacon" l = none → assoc cmd l = some v →
      cmd ≠ "beacon" := by
    intro β l v h1 h3 e
    rw [e, h1] at h3; cases h3
  unfold Program.command at h
  cases hs : assoc cmd settingHandlers with
  | some fn =>
    rw [hs] at h
    simp only [Out.ret.injEq] at h
    subst h
    exact other (no rfl hs) rfl
  | none =>
    rw [hs] at h
    simp only at h
    cases ht : assoc cmd tranCommands with
    | some fn =>
      rw [ht] at h
      simp only at h
      obtain ⟨⟨w, rs, n⟩, -, h⟩ := Out.bind_eq_ret h
      simp only [Out.ret.injEq] at h
      subst h
      exact other (no rfl ht) rfl
    | none =>
      rw [ht] at h
      simp only at h
      split at h
      · rename_i hc
        obtain ⟨⟨ts, u⟩, -, h⟩ := Out.bind_eq_ret h
        simp only [Out.ret.injEq] at h
        subst h
        exact other (by rw [hc]; decide) rfl
      · split at h
        · rename_i hc
          obtain ⟨⟨b, u⟩, hb, h⟩ := Out.bind_eq_ret h
          simp only [Out.ret.injEq] at h
          subst h
          have := cmdBeacon_state hb
          simpa [hc] using this
        · rename_i hc
          split at h
          · simp only [Out.ret.injEq] at h
            subst h
            exact other hc rfl
          · simp only [Out.ret.injEq] at h
            subst h
            exact other hc rfl

theorem net_ended_stays {S : Setup} {w w' : World} {a : Action} (h : w.step S a = some w') (ended : w.main = .ended) :
    w'.main = .ended := by
  rcases step_cases h with ⟨d, rfl, hm, _, rfl⟩ | ⟨g, rfl, hm, _, rfl⟩ | ⟨g, clock, f, addr, rfl, hm, hl, rfl⟩ |
    ⟨g, s, addr, rfl, hm, hl, rfl⟩ | ⟨g, rfl, hm, _, rfl⟩ | ⟨rfl, hm, rfl⟩ | ⟨rfl, hm, rfl⟩ | ⟨f, rfl, hm, rfl⟩
  all_goals first | exact absurd ended hm | rfl | (rw [ended] at hm; cases hm)

/-- **C83** In the running program, whatever else was typed and received: multicast beacons are listed for the groups for
which `beacon v4` or `beacon v6` was ever typed, and no host is. -/
theorem C83_running_partial {M : Machine} {fs : FS} {c : Cliflags} {es : List Event} {p : Program}
    (h : Leads M fs c es p) (running : ¬ p.Ended) :
    (p.beacon.v4mcast = true ↔ ["beacon", "v4"] ∈ commandsTyped M es) ∧
    (p.beacon.v6mcast = true ↔ ["beacon", "v6"] ∈ commandsTyped M es) ∧ p.beacon.hosts = [] := by
  refine Or.resolve_left (a := p.Ended) ?_ running
  refine leads_induction (P := fun es p => p.Ended ∨
    ((p.beacon.v4mcast = true ↔ ["beacon", "v4"] ∈ commandsTyped M es) ∧
     (p.beacon.v6mcast = true ↔ ["beacon", "v6"] ∈ commandsTyped M es) ∧ p.beacon.hosts = [])) ?_ ?_ h
  · right
    refine ⟨?_, ?_, rfl⟩ <;> simp [Program.init, BeaconState.init, commandsTyped]
  intro es p e p' ih hs
  rcases program_step_cases hs with ⟨a, w, rfl, hk, h1, rfl⟩ | ⟨line, o, rfl, hm, rfl⟩
  · rcases ih with ih | ih
    · exact .inl (net_ended_stays h1 ih)
    · right
      rw [commandsTyped_append]
      simpa [commandsTyped] using ih
  · rcases ih with ih | ih
    · exact absurd ih hm
    · rcases enter_cases M o p line with ⟨e, _, hn⟩ | ⟨cmd, args, hg, p', hc, e⟩ | ⟨e, -⟩
      · right
        have : commandsTyped M [.typed line o] = [] := by
          unfold commandsTyped
          split
          · rename_i hg; exact absurd hg (hn _ _)
          · rfl
        rw [e, commandsTyped_append, this, List.append_nil]
        exact ih
      · right
        obtain ⟨k1, k2, k3⟩ := command_beacon hc
        rw [e, commandsTyped_append, k1, k2, ih.1, ih.2.1]
        have : commandsTyped M [.typed line o] = [cmd :: args] := by
          simp only [commandsTyped, hg]
        rw [this]
        simp only [List.mem_append, List.mem_singleton]
        exact ⟨or_congr Iff.rfl eq_comm, or_congr Iff.rfl eq_comm, k3 ih.2.2⟩
      · left
        rw [e]; rfl

/-! ## C124 -/

/-- **C124** Every transfer in the table of a running program was begun by its own user, and its text says so. -/
theorem C124_all_begun_here {M : Machine} {fs : FS} {c : Cliflags} {es : List Event} {p : Program}
    (h : Leads M fs c es p) (str : UDPAddr → String) :
    ∀ t ∈ p.table, t.printText str =
      utf8 "Initiator" ++ utf8 "|" ++ utf8 t.ttype ++ utf8 "|" ++ utf8 (str t.peer) ++ utf8 "|" ++ t.filename := by
  have key : ∀ t ∈ p.table, t.direction = true := by
    refine leads_induction (P := fun _ p => ∀ t ∈ p.table, t.direction = true) (fun t ht => by cases ht) ?_ h
    intro es p e p' ih hs
    rcases program_step_cases hs with ⟨a, w, rfl, _, h1, rfl⟩ | ⟨line, o, rfl, hm, rfl⟩
    · exact ih
    · rcases enter_cases M o p line with ⟨e, _⟩ | ⟨cmd, args, _, p', hc, e⟩ | ⟨e, _⟩
      · rw [e]; exact ih
      · rw [e]
        rcases (command_done hc).table with ⟨h1, _⟩ | ⟨u, f, t, w, h1, h2, h3, _⟩
        · exact fun t ht => ih t (h1.subset ht)
        · rw [h3]
          obtain ⟨e1, _, _, e4, e5, _, ed, _⟩ := addInitiator_ret h1
          rw [e1]
          intro t ht
          rcases List.mem_append.1 ht with ht | ht
          · exact ih t ht
          · cases List.mem_singleton.1 ht; exact ed
      · rw [e]; exact ih
  intro t ht
  unfold Transfer.printText directionName
  rw [key t ht]; rfl

/-- A run with a `beacon v4` and two puts among its lines. -/
example : ((Program.init exampleFS shippedSettings).run
      { exampleMachine with H := ("beacon", ⟨"send beacons", "beacon [off] [v4|v6|<ip>...]"⟩) :: exampleMachine.H }
      (exampleEvents ++ [.typed "saratoga[5]:beacon v4" calmReplies])).map (fun p =>
    (p.beacon.v4mcast, p.beacon.v6mcast, p.table.map (·.direction))) = some (true, false, [true, true]) := by
  decide +kernel

end Saratoga
