import Verif.Props.Arrivals
import Verif.Props.Busy
import Verif.Props.OneFile
import Verif.Props.Willing
import Verif.Spec.Wanted
/-! # Property C172: every transfer was asked for by a line of its own -/
namespace Saratoga

/-! ## Lemmas -/

theorem asksOf_append (M : Machine) (es fs : List Event) : asksOf M (es ++ fs) = asksOf M es ++ asksOf M fs := by
  induction es with
  | nil => rfl
  | cons e es ih => cases e <;> simp [asksOf, ih]

theorem arrivalsOf_append (es fs : List Event) : arrivalsOf (es ++ fs) = arrivalsOf es ++ arrivalsOf fs := by
  induction es with
  | nil => rfl
  | cons e es ih =>
    cases e with
    | typed line o => exact ih
    | net a => cases a <;> simp [arrivalsOf, ih]

/-- What was read arrived, each datagram once. -/
theorem read_arrived {M : Machine} {fs : FS} {c : Cliflags} {es : List Event} {p : Program} (h : Leads M fs c es p) :
    p.net.read.Sublist (arrivalsOf es) := by
  refine leads_induction (P := fun es p => p.net.read.Sublist (arrivalsOf es)) (List.Sublist.refl _) ?_ h
  intro es p e p' ih hs
  rw [arrivalsOf_append]
  have same : p'.net.read = p.net.read → p'.net.read.Sublist (arrivalsOf es ++ arrivalsOf [e]) := fun e => by
    rw [e]; exact ih.trans (List.sublist_append_left _ _)
  rcases program_step_cases hs with ⟨a, w, rfl, _, hw, rfl⟩ | ⟨line, o, rfl, _, rfl⟩
  · rcases step_cases hw with ⟨d, rfl, _, hr, rfl⟩ | ⟨g, rfl, _, hr, rfl⟩ | ⟨g, clock, f, addr, rfl, hm, hr, rfl⟩ |
      ⟨g, s, addr, rfl, hm, hr, rfl⟩ | ⟨g, rfl, hm, hr, rfl⟩ | ⟨rfl, hm, rfl⟩ | ⟨rfl, hm, rfl⟩ | ⟨f, rfl, _, rfl⟩
    · rcases onRecv_cases M.S p.net d with ⟨_, h⟩ | ⟨_, h⟩ | ⟨_, _, h⟩ | ⟨_, _, h⟩
      · exact same (by rw [h])
      all_goals
        rw [h]
        exact ih.append (List.Sublist.refl _)
    · exact same rfl
    · exact same (onRx_logs M.S p.net g clock f addr).2.1
    · exact same (onTx_logs M.S p.net g s addr).2.1
    · exact same rfl
    · exact same rfl
    · exact same rfl
    · exact same rfl
  · exact same ((C127_apart hs).2 line o rfl).2.2.2.1.symm

/-- `tran` and `files` start nothing. -/
theorem listing_starts_nothing {name : String} {h : CmdEnv → TranWorld → List String → CmdOut}
    (cmd : (name, h) ∈ tranCommands) (not : name ∉ transferWords) (E : CmdEnv) (w : TranWorld) (args : List String) :
    ∃ rs n, h E w args = .ret (w, rs, n) := by
  simp only [tranCommands, List.mem_cons, List.not_mem_nil, or_false, Prod.mk.injEq] at cmd
  rcases cmd with ⟨rfl, rfl⟩ | ⟨rfl, rfl⟩ | ⟨rfl, rfl⟩ | ⟨rfl, rfl⟩ | ⟨rfl, rfl⟩ | ⟨rfl, rfl⟩ | ⟨rfl, rfl⟩ |
    ⟨rfl, rfl⟩ | ⟨rfl, rfl⟩
  all_goals first
    | exact absurd (by decide) not
    | skip
  · unfold cmdTran
    split
    · exact ⟨_, _, rfl⟩
    · split
      · exact ⟨_, _, rfl⟩
      · split <;> exact ⟨_, _, rfl⟩
    · exact ⟨_, _, rfl⟩
  · unfold cmdFiles
    split
    · exact ⟨_, _, rfl⟩
    · split <;> exact ⟨_, _, rfl⟩
    · exact ⟨_, _, rfl⟩

/-- What a line does to the table and to the files. -/
theorem enter_asks (M : Machine) (o : Replies) (p : Program) (line : String) :
    ((p.enter M o line).table.Sublist p.table ∧ (p.enter M o line).net.fs = p.net.fs) ∨
    ∃ a t, lineAsks M line o = some a ∧ (p.enter M o line).table = p.table ++ [t] ∧
      (⟨t.ttype, t.filename, t.peer⟩ : Wanted) = a ∧
      (p.enter M o line).net.fs = (fileOpen M.S.sardir p.net.fs a.file a.word).1 := by
  rcases enter_cases M o p line with ⟨e, _⟩ | ⟨cmd, args, hg, p1, hc, e⟩ | ⟨e, _⟩
  · rw [e]; exact .inl ⟨List.Sublist.refl _, rfl⟩
  · rw [e]
    unfold Program.command at hc
    split at hc
    · cases hc; exact .inl ⟨List.Sublist.refl _, rfl⟩
    · split at hc
      · rename_i fn ht
        obtain ⟨⟨w, rs, n⟩, h1, hc⟩ := Out.bind_eq_ret hc
        simp only [Out.ret.injEq] at hc
        subst hc
        by_cases hw : cmd ∈ transferWords
        · rcases tranCommand_shape (mem_of_assoc ht) ⟨M.H, M.tranEnv o, p.settings⟩ p.tranWorld (cmd :: args) with
            ⟨rs', n', h2⟩ | ⟨a, f, u, k, hargs, hu, h2⟩
          · rw [h2] at h1
            cases h1
            exact .inl ⟨List.Sublist.refl _, rfl⟩
          · rw [h2] at h1
            obtain ⟨⟨w1, r⟩, h3, h1⟩ := Out.bind_eq_ret h1
            cases h1
            rcases newInitiator_ret h3 with ⟨a1, _, a3, _⟩ | ⟨_, t, _, a2⟩
            · exact .inl ⟨a1, a3⟩
            · have hfs : w1.fs = (fileOpen M.S.sardir p.net.fs (utf8 f) cmd).1 := by
                unfold addInitiator at a2
                obtain ⟨fm, _, a2⟩ := Out.bind_eq_ret a2
                cases hcc : p.settings.copy with
                | error e => simp only [hcc] at a2; cases a2
                | ok flags =>
                  simp only [hcc, Out.ret.injEq, Prod.mk.injEq] at a2
                  rw [← a2.1]; rfl
              have hargs : args = [a, f] := hargs
              subst hargs
              have hu : udpAddress o.resolve a = .ok u := hu
              obtain ⟨b1, _, _, b2, b3, b4, _⟩ := addInitiator_ret a2
              refine .inr ⟨⟨cmd, utf8 f, u⟩, t, ?_, b1, by rw [b2, b3, b4], hfs⟩
              unfold lineAsks
              simp only [hg, hw, if_true, hu]
        · obtain ⟨rs', n', h2⟩ := listing_starts_nothing (mem_of_assoc ht) hw ⟨M.H, M.tranEnv o, p.settings⟩ p.tranWorld
            (cmd :: args)
          rw [h2] at h1
          cases h1
          exact .inl ⟨List.Sublist.refl _, rfl⟩
      · split at hc
        · obtain ⟨⟨ts, u⟩, h1, hc⟩ := Out.bind_eq_ret hc
          cases hc; exact .inl ⟨rmtran_sublist h1, rfl⟩
        · split at hc
          · obtain ⟨⟨ts, u⟩, h1, hc⟩ := Out.bind_eq_ret hc
            cases hc; exact .inl ⟨List.Sublist.refl _, rfl⟩
          · split at hc <;> cases hc <;> exact .inl ⟨List.Sublist.refl _, rfl⟩
  · rw [e]; exact .inl ⟨List.Sublist.refl _, rfl⟩

theorem disk_put_length (fs : FS) (l : Loc) (n : Node) : (fs.put l n).nodes.length ≤ fs.nodes.length + 1 := by
  simp only [FS.put, List.length_cons]
  have := List.length_filter_le (fun e : Loc × Node => decide (e.1 ≠ l)) fs.nodes
  omega

theorem fileOpen_length (sardir : List Byte) (fs : FS) (fname : List Byte) (word : String) :
    (fileOpen sardir fs fname word).1.nodes.length ≤
      fs.nodes.length + if word = "get" ∨ word = "getdir" ∨ word = "take" then 1 else 0 := by
  unfold fileOpen
  simp only
  split
  · rename_i ht
    rw [if_pos (show word = "get" ∨ word = "getdir" ∨ word = "take" by rcases ht with h | h <;> simp [h])]
    split
    · exact Nat.le_add_right _ _
    · have hc := (create_effect fs (fullName sardir fname)).1
      generalize fs.create (fullName sardir fname) = r at hc ⊢
      obtain ⟨fs', r⟩ := r
      have : fs'.nodes.length ≤ fs.nodes.length + 1 := by
        rcases hc with h | ⟨l, _, h⟩
        · rw [show fs' = fs from h]; omega
        · rw [show fs' = fs.put l (.file []) from h]; exact disk_put_length _ _ _
      cases r <;> exact this
  · split
    · rename_i hd
      rw [if_pos (show word = "get" ∨ word = "getdir" ∨ word = "take" by simp [hd])]
      split
      · exact Nat.le_add_right _ _
      · have hc := mkdir_effect fs (fullName sardir fname)
        generalize fs.mkdir (fullName sardir fname) = r at hc ⊢
        obtain ⟨fs', r⟩ := r
        have : fs'.nodes.length ≤ fs.nodes.length + 1 := by
          rcases hc with h | ⟨l, _, _, h⟩
          · rw [show fs' = fs from h]; omega
          · rw [show fs' = fs.put l .dir from h]; exact disk_put_length _ _ _
        cases r with
        | some e => exact this
        | none =>
          have hcd : (fs'.chdir (fullName sardir fname)).1.nodes = fs'.nodes := by
            unfold FS.chdir
            split
            · rfl
            · split
              · rfl
              · split <;> rfl
          simp only
          generalize fs'.chdir (fullName sardir fname) = q at hcd ⊢
          obtain ⟨fs2, q⟩ := q
          have hcd : fs2.nodes = fs'.nodes := hcd
          rw [← hcd] at this
          cases q <;> exact this
    · split
      · split
        · exact Nat.le_add_right _ _
        · split <;> exact Nat.le_add_right _ _
      · split <;> exact Nat.le_add_right _ _

/-! ## The property -/

/-- **C172** In every execution: the transfers in the table, in the order they stand there, are among those the lines entered
asked for, each by a line of its own, with its command, its file and its peer. No datagram puts one there. -/
theorem C172_asked {M : Machine} {fs : FS} {c : Cliflags} {es : List Event} {p : Program} (h : Leads M fs c es p) :
    (p.table.map fun t => (⟨t.ttype, t.filename, t.peer⟩ : Wanted)).Sublist (asksOf M es) := by
  refine leads_induction (P := fun es p =>
    (p.table.map fun t => (⟨t.ttype, t.filename, t.peer⟩ : Wanted)).Sublist (asksOf M es)) (List.Sublist.refl _) ?_ h
  intro es p e p' ih hs
  rw [asksOf_append]
  rcases program_step_cases hs with ⟨a, w, rfl, _, _, rfl⟩ | ⟨line, o, rfl, _, rfl⟩
  · simpa [asksOf] using ih
  · rcases enter_asks M o p line with ⟨h1, _⟩ | ⟨a, t, h1, h2, h3, _⟩
    · exact ((h1.map _).trans ih).trans (List.sublist_append_left _ _)
    · rw [h2, List.map_append]
      refine ih.append ?_
      simp [asksOf, h1, h3]

/-- **C172** So there are never more transfers than lines that asked for one. -/
theorem C172_table {M : Machine} {fs : FS} {c : Cliflags} {es : List Event} {p : Program} (h : Leads M fs c es p) :
    p.table.length ≤ (asksOf M es).length := by
  simpa using (C172_asked h).length_le

/-- **C172** Nor does the disk fill by itself. With the shipped tables, if no other program touches the files, there is at most
one thing more for each line that asked for a file to be fetched, whatever was received. -/
theorem C172_disk {M : Machine} (tables : M.S.T = shipped) {fs : FS} {c : Cliflags} {es : List Event} {p : Program}
    (h : Leads M fs c es p) (alone : ∀ f, .net (.files f) ∉ es) :
    p.net.fs.nodes.length ≤ fs.nodes.length + ((asksOf M es).filter Wanted.fetches).length := by
  revert alone
  refine leads_induction (P := fun es p => (∀ f, .net (.files f) ∉ es) →
    p.net.fs.nodes.length ≤ fs.nodes.length + ((asksOf M es).filter Wanted.fetches).length)
    (fun _ => Nat.le_add_right _ _) ?_ h
  intro es p e p' ih hs alone
  have ih := ih fun f hf => alone f (List.mem_append_left _ hf)
  rw [asksOf_append, List.filter_append, List.length_append]
  rcases program_step_cases hs with ⟨a, w, rfl, _, hw, rfl⟩ | ⟨line, o, rfl, _, rfl⟩
  · show w.fs.nodes.length ≤ _
    rw [step_keeps_files tables hw fun f hf => alone f (by simp [hf])]
    omega
  · rcases enter_asks M o p line with ⟨_, h1⟩ | ⟨a, t, h1, _, _, h2⟩
    · rw [h1]; omega
    · rw [h2]
      have := fileOpen_length M.S.sardir p.net.fs a.file a.word
      have hf : (if a.word = "get" ∨ a.word = "getdir" ∨ a.word = "take" then 1 else 0) =
          ((asksOf M [.typed line o]).filter Wanted.fetches).length := by
        simp only [asksOf, h1, Option.toList_some, List.append_nil, List.filter_cons, List.filter_nil]
        by_cases g : a.word = "get" ∨ a.word = "getdir" ∨ a.word = "take"
        · rw [if_pos g, if_pos (show a.fetches = true by simpa [Wanted.fetches, or_assoc] using g)]; rfl
        · rw [if_neg g, if_neg (show ¬ a.fetches = true by simpa [Wanted.fetches, or_assoc] using g)]; rfl
      omega

/-- **C172** All that a running program keeps, with the shipped tables: a transfer for a line that asked for it, a peer for a
datagram that arrived, and nothing else. -/
theorem C172_kept {M : Machine} (tables : M.S.T = shipped) {fs : FS} {c : Cliflags} {es : List Event} {p : Program}
    (h : Leads M fs c es p) (running : ¬ p.Ended) :
    p.table.length ≤ (asksOf M es).length ∧ p.net.peers.length ≤ (arrivalsOf es).length ∧ p.net.transfers = [] := by
  have b := C138_bound_partial M.S fs p.net (C127_network h)
  have := (read_arrived h).length_le
  exact ⟨C172_table h, by omega, (C163_nothing_partial M tables fs c es p h running).1⟩

/-- **C172** The same while commands run at the same time: there are never more transfers than lines that name a command
starting one, not counting those whose commands have done nothing yet. -/
theorem C172_at_once {M : Machine} {fs : FS} {c : Cliflags} {es : List BusyEvent} {b : Busy} (h : BusyLeads M fs c es b) :
    b.prog.table.length + (b.queue.map Queued.line).countP (namesTransfer M) ≤ (typedLines es).countP (namesTransfer M) := by
  obtain ⟨ps, h1, _, h2, _⟩ := C145_serial h
  rw [← h2.countP_eq, List.countP_append]
  have bound : ∀ ps : List Event, (asksOf M ps).length ≤ ((linesOf ps).map Prod.fst).countP (namesTransfer M) := by
    intro ps
    induction ps with
    | nil => exact Nat.le_refl _
    | cons e ps ih =>
      cases e with
      | net a => exact ih
      | typed line o =>
        simp only [asksOf, linesOf, List.map_cons, List.countP_cons, List.length_append]
        have : (lineAsks M line o).toList.length ≤ if namesTransfer M line = true then 1 else 0 := by
          unfold lineAsks namesTransfer
          split
          · split
            · rename_i hw
              rw [if_pos (by simpa using hw)]
              split <;> simp
            · exact Nat.zero_le _
          · exact Nat.zero_le _
        omega
  have := C172_table h1
  have := bound ps
  omega

/-! ## Example -/

/-- A beacon arrives, a transfer is asked for, the beacon is handled, a second transfer with another peer is asked for, then
one with no address. -/
def wantedEvents : List Event :=
  [.net (.recv ⟨.v4, ⟨0, 0⟩, [0x20, 0, 0, 0, 104, 105, 33, 33], someone⟩),
   .typed "saratoga[0]:get 1.1.1.1 f" calmReplies, .net (.takeRx .v4 ⟨0, 0⟩),
   .typed "saratoga[1]:get 1.1.1.2 g" calmReplies, .typed "saratoga[2]:get nobody g" calmReplies]

/-- There are two transfers, one peer and one file more than before, as many as the bounds allow. -/
example : fetchMachine.S.T = shipped ∧ (∀ f, .net (.files f) ∉ wantedEvents) ∧
    (asksOf fetchMachine wantedEvents).map (fun a => (a.word, a.file)) = [("get", utf8 "f"), ("get", utf8 "g")] ∧
    ((asksOf fetchMachine wantedEvents).filter Wanted.fetches).length = 2 ∧ (arrivalsOf wantedEvents).length = 1 ∧
    ((Program.init exFS shippedSettings).run fetchMachine wantedEvents).map
      (fun p => (p.table.length, p.net.peers.length, p.net.fs.nodes.length, decide (p.net.main = .ended))) =
      some (2, 1, exFS.nodes.length + 1, false) := by
  refine ⟨rfl, by simp [wantedEvents], by decide +kernel, by decide +kernel, rfl, by decide +kernel⟩

/-- Two lines, the first of which is carried out second and the other not yet. -/
example : ((Busy.init exFS shippedSettings).run fetchMachine
      [.typed "saratoga[0]:get 1.1.1.1 f", .typed "saratoga[1]:get 1.1.1.2 g", .begin 1 calmReplies]).map
      (fun b => (b.prog.table.length, b.queue.map Queued.line)) = some (1, ["saratoga[0]:get 1.1.1.1 f"]) ∧
    (["saratoga[0]:get 1.1.1.1 f", "saratoga[1]:get 1.1.1.2 g"]).countP (namesTransfer fetchMachine) = 2 := by
  decide +kernel

end Saratoga
