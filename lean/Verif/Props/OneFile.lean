import Verif.Props.PrintText
import Verif.Props.Program
import Verif.Lemmas.Network
/-! # Property C154: which files the running program changes -/
namespace Saratoga

/-! ## Specification -/

/-- The line is `get`, `getdir` or `take` with an address and the name of the file at `m`: the shared directory of the
program, a slash and the name lead there. -/
def Fetches (M : Machine) (p : Program) (line : String) (m : Loc) : Prop :=
  ∃ cmd ∈ ["get", "getdir", "take"], ∃ a f,
    getLine (M.H.map Prod.fst) cmdHandlers line = .ret (.started cmd [cmd, a, f]) ∧
    p.net.fs.locate (fullName M.S.sardir (utf8 f)) = some m

/-! ## Lemmas -/

/-- Opening a file changes a place only for the three types that fetch, and only the place its name leads to. -/
theorem fileOpen_changes {sardir : List Byte} {fs : FS} {fname : List Byte} {ttype : String} {m : Loc}
    (changed : (fileOpen sardir fs fname ttype).1.node m ≠ fs.node m) :
    ttype ∈ ["get", "getdir", "take"] ∧ fs.locate (fullName sardir fname) = some m ∧
    ((fileOpen sardir fs fname ttype).1.node m = some (.file []) ∨
     (fileOpen sardir fs fname ttype).1.node m = some .dir) := by
  unfold fileOpen at changed ⊢
  simp only at changed ⊢
  split at changed
  · rename_i ht
    rw [if_pos ht]
    split at changed
    · exact absurd rfl changed
    · rename_i he
      rw [if_neg he]
      have hc := (create_effect fs (fullName sardir fname)).1
      generalize fs.create (fullName sardir fname) = r at hc changed ⊢
      obtain ⟨fs', r⟩ := r
      have hn : fs'.node m ≠ fs.node m := by cases r <;> exact changed
      have goal : fs.locate (fullName sardir fname) = some m ∧ fs'.node m = some (.file []) := by
        rcases hc with h | ⟨l, hl, h⟩
        · exact absurd (by rw [show fs' = fs from h]) hn
        · have h : fs' = fs.put l (.file []) := h
          by_cases e : m = l
          · subst e; exact ⟨hl, by rw [h, node_put_self]⟩
          · exact absurd (by rw [h, node_put_other _ _ _ _ e]) hn
      refine ⟨by rcases ht with rfl | rfl <;> simp, goal.1, Or.inl ?_⟩
      cases r <;> exact goal.2
  · rename_i ht
    rw [if_neg ht]
    split at changed
    · rename_i hd
      rw [if_pos hd]
      split at changed
      · exact absurd rfl changed
      · rename_i he
        rw [if_neg he]
        have hc := mkdir_effect fs (fullName sardir fname)
        generalize fs.mkdir (fullName sardir fname) = r at hc changed ⊢
        obtain ⟨fs', r⟩ := r
        have key : fs'.node m ≠ fs.node m →
            fs.locate (fullName sardir fname) = some m ∧ fs'.node m = some .dir := by
          intro hn
          rcases hc with h | ⟨l, hl, _, h⟩
          · exact absurd (by rw [show fs' = fs from h]) hn
          · have h : fs' = fs.put l .dir := h
            by_cases e : m = l
            · subst e; exact ⟨hl, by rw [h, node_put_self]⟩
            · exact absurd (by rw [h, node_put_other _ _ _ _ e]) hn
        cases r with
        | some e =>
          obtain ⟨h1, h2⟩ := key changed
          exact ⟨by rw [hd]; simp, h1, Or.inr h2⟩
        | none =>
          simp only at changed ⊢
          have hcd := chdir_node fs' (fullName sardir fname) m
          generalize fs'.chdir (fullName sardir fname) = q at hcd changed ⊢
          obtain ⟨fs2, q⟩ := q
          have hcd : fs2.node m = fs'.node m := hcd
          have hn : fs2.node m ≠ fs.node m := by cases q <;> exact changed
          obtain ⟨h1, h2⟩ := key (by rw [← hcd]; exact hn)
          refine ⟨by rw [hd]; simp, h1, Or.inr ?_⟩
          cases q <;> exact hcd.trans h2
    · rename_i hd
      rw [if_neg hd]
      split at changed
      · split at changed
        · exact absurd rfl changed
        · split at changed <;> exact absurd rfl changed
      · split at changed <;> exact absurd rfl changed

/-- Of the network side, with the shipped tables, nothing changes the files but other programs. -/
theorem step_keeps_files {S : Setup} (tables : S.T = shipped) {w w' : World} {a : Action} (h : w.step S a = some w')
    (other : ∀ f, a ≠ .files f) : w'.fs = w.fs := by
  rcases step_cases h with ⟨d, rfl, _, hr, rfl⟩ | ⟨g, rfl, _, hr, rfl⟩ | ⟨g, clock, f, addr, rfl, hm, hr, rfl⟩ |
      ⟨g, s, addr, rfl, hm, hr, rfl⟩ | ⟨g, rfl, hm, hr, rfl⟩ | ⟨rfl, hm, rfl⟩ | ⟨rfl, hm, rfl⟩ | ⟨f, rfl, _⟩
  · rcases onRecv_cases S w d with ⟨_, h⟩ | ⟨hf, h⟩ | ⟨f', hf, h⟩ | ⟨s, hf, h⟩ <;> rw [h] <;> rfl
  · rfl
  · cases f with
    | request r =>
      unfold World.onRx
      simp only [tables, C40_counterexample]
      rfl
    | beacon b => unfold World.onRx World.orEnd; simp only; split <;> rfl
    | data b => unfold World.onRx World.orEnd; simp only; split <;> rfl
    | metadata b => unfold World.onRx World.orEnd; simp only; split <;> rfl
    | status b => unfold World.onRx World.orEnd; simp only; split <;> rfl
  · exact (onTx_logs S w g s addr).2.2.2.2.2.2.2
  · rfl
  · rfl
  · rfl
  · exact absurd rfl (other f)

/-! ## The property -/

/-- **C154** A line changes a place only if it is `get`, `getdir` or `take` and names what is there, in the shared
directory; then there is an empty file or a directory. Any tables, any state. -/
theorem C154_line {M : Machine} {p p' : Program} {line : String} {o : Replies}
    (h : p.step M (.typed line o) = some p') (m : Loc) (changed : p'.net.fs.node m ≠ p.net.fs.node m) :
    Fetches M p line m ∧ (p'.net.fs.node m = some (.file []) ∨ p'.net.fs.node m = some .dir) := by
  rcases program_step_cases h with ⟨a, w, e, _⟩ | ⟨line', o', e, _, rfl⟩
  · cases e
  cases e
  rcases enter_cases M o p line with ⟨e, _⟩ | ⟨cmd, args, hg, p1, hc, e⟩ | ⟨e, _⟩
  · rw [e] at changed; exact absurd rfl changed
  · rw [e] at changed ⊢
    unfold Program.command at hc
    split at hc
    · cases hc; exact absurd rfl changed
    · split at hc
      · rename_i fn ht
        obtain ⟨⟨w, rs, n⟩, h1, hc⟩ := Out.bind_eq_ret hc
        simp only [Out.ret.injEq] at hc
        subst hc
        rcases tranCommand_shape (mem_of_assoc ht) ⟨M.H, M.tranEnv o, p.settings⟩ p.tranWorld (cmd :: args) with
          ⟨rs', n', h2⟩ | ⟨a, f, u, k, hargs, hu, h2⟩
        · rw [h2] at h1
          cases h1
          exact absurd rfl changed
        · rw [h2] at h1
          obtain ⟨⟨w1, r⟩, h3, h1⟩ := Out.bind_eq_ret h1
          cases h1
          rcases newInitiator_ret h3 with ⟨_, _, a3, _⟩ | ⟨_, t, _, a2⟩
          · exact absurd (by show w1.fs.node m = _; rw [a3]; rfl) changed
          · have hfs : w1.fs = (fileOpen M.S.sardir p.net.fs (utf8 f) cmd).1 := by
              unfold addInitiator at a2
              obtain ⟨fm, _, a2⟩ := Out.bind_eq_ret a2
              cases hcc : p.settings.copy with
              | error e => simp only [hcc] at a2; cases a2
              | ok flags =>
                simp only [hcc, Out.ret.injEq, Prod.mk.injEq] at a2
                rw [← a2.1]; rfl
            have hp : (p.withTran w1).net.fs = (fileOpen M.S.sardir p.net.fs (utf8 f) cmd).1 := hfs
            rw [hp] at changed ⊢
            obtain ⟨c1, c2, c3⟩ := fileOpen_changes changed
            have hargs : args = [a, f] := hargs
            subst hargs
            exact ⟨⟨cmd, c1, a, f, hg, c2⟩, c3⟩
      · split at hc
        · obtain ⟨⟨ts, u⟩, h1, hc⟩ := Out.bind_eq_ret hc
          cases hc; exact absurd rfl changed
        · split at hc
          · obtain ⟨⟨ts, u⟩, h1, hc⟩ := Out.bind_eq_ret hc
            cases hc; exact absurd rfl changed
          · split at hc <;> cases hc <;> exact absurd rfl changed
  · rw [e] at changed; exact absurd rfl changed

/-- **C154** In every execution, with the shipped tables and files nobody else touches: a place is as it was at the
start unless one of the lines entered was to fetch what is there. No datagram changes a file, and no other command. -/
theorem C154_execution {M : Machine} (tables : M.S.T = shipped) {fs : FS} {c : Cliflags} {es : List Event}
    {p : Program} (h : Leads M fs c es p) (alone : ∀ f, .net (.files f) ∉ es) (m : Loc)
    (changed : p.net.fs.node m ≠ fs.node m) :
    ∃ before line o after p0, es = before ++ .typed line o :: after ∧ Leads M fs c before p0 ∧
      Fetches M p0 line m := by
  have key : Leads M fs c es p ∧ ((∀ f, .net (.files f) ∉ es) → p.net.fs.node m ≠ fs.node m →
      ∃ before line o after p0, es = before ++ .typed line o :: after ∧ Leads M fs c before p0 ∧
      Fetches M p0 line m) := by
    refine leads_induction (P := fun es p => Leads M fs c es p ∧ ((∀ f, .net (.files f) ∉ es) →
      p.net.fs.node m ≠ fs.node m → ∃ before line o after p0, es = before ++ .typed line o :: after ∧
        Leads M fs c before p0 ∧ Fetches M p0 line m)) ⟨rfl, fun _ h => absurd rfl h⟩ ?_ h
    rintro es p e p' ⟨i1, i2⟩ hs
    refine ⟨program_run_append hs _ _ i1, fun alone changed => ?_⟩
    by_cases same : p'.net.fs.node m = p.net.fs.node m
    · obtain ⟨before, line, o, after, p0, h1, h2⟩ := i2 (fun f hf => alone f (List.mem_append_left _ hf))
        (by rw [← same]; exact changed)
      exact ⟨before, line, o, after ++ [e], p0, by rw [h1]; simp, h2⟩
    · cases e with
      | typed line o => exact ⟨es, line, o, [], p, rfl, i1, (C154_line hs m same).1⟩
      | net a =>
        exfalso
        rcases program_step_cases hs with ⟨a', w, e, _, hw, rfl⟩ | ⟨line', o', e, _⟩
        · cases e
          refine same ?_
          show w.fs.node m = p.net.fs.node m
          rw [step_keeps_files tables hw]
          rintro f rfl
          exact alone f (List.mem_append_right _ (List.mem_singleton.2 rfl))
        · cases e
  exact key.2 alone changed

/-- **C154** So nothing ever vanishes from the disk. -/
theorem C154_nothing_vanishes {M : Machine} (tables : M.S.T = shipped) {fs : FS} {c : Cliflags} {es : List Event}
    {p : Program} (h : Leads M fs c es p) (alone : ∀ f, .net (.files f) ∉ es) (m : Loc) (there : fs.node m ≠ none) :
    p.net.fs.node m ≠ none := by
  refine leads_induction (P := fun es p => (∀ f, .net (.files f) ∉ es) → p.net.fs.node m ≠ none)
    (fun _ => there) ?_ h alone
  intro es p e p' ih hs alone
  have ih := ih fun f hf => alone f (List.mem_append_left _ hf)
  by_cases same : p'.net.fs.node m = p.net.fs.node m
  · rw [same]; exact ih
  · cases e with
    | typed line o => rcases (C154_line hs m same).2 with h | h <;> rw [h] <;> exact fun h => nomatch h
    | net a =>
      exfalso
      rcases program_step_cases hs with ⟨a', w, e, _, hw, rfl⟩ | ⟨line', o', e, _⟩
      · cases e
        refine same ?_
        show w.fs.node m = p.net.fs.node m
        rw [step_keeps_files tables hw]
        rintro f rfl
        exact alone f (List.mem_append_right _ (List.mem_singleton.2 rfl))
      · cases e

/-- **C154** With a name that never climbs above its start, what changes lies below the shared directory. -/
theorem C154_inside {M : Machine} {p : Program} {line : String} {m d : Loc} (h : Fetches M p line m)
    (hne : M.S.sardir ≠ []) (hd : p.net.fs.locate M.S.sardir = some d)
    (below : ∀ cmd a f, getLine (M.H.map Prod.fst) cmdHandlers line = .ret (.started cmd [cmd, a, f]) →
      StaysBelow (splitSlash (utf8 f))) : d <+: m := by
  obtain ⟨cmd, _, a, f, hg, hl⟩ := h
  rw [locate_fullName p.net.fs M.S.sardir (utf8 f) hne, hd] at hl
  exact (walk_below p.net.fs d _ (below cmd a f hg) m hl).1

/-! ## Examples -/

/-- The program of the other examples, told what `get` is, sharing the directory of the file examples. -/
def fetchMachine : Machine :=
  { exampleMachine with S := { shippedSetup with sardir := exDir }, H := [("get", ⟨"get a file", "get <host> <file>"⟩)] }

example : (Program.init exFS shippedSettings).net.fs.node [[0x64#8], [0x66#8]] ≠
    ((((Program.init exFS shippedSettings).step fetchMachine (.typed "saratoga[0]:get 1.1.1.1 f" calmReplies)).map
      fun p => p.net.fs.node [[0x64#8], [0x66#8]]).getD none) := by decide +kernel

def fetchLines : List Event := [.typed "saratoga[0]:get 1.1.1.1 f" calmReplies]

example : ∀ f, .net (.files f) ∉ fetchLines := by simp [fetchLines]

/-- The hypotheses are met, and a place does change: the two bytes of the file are gone. -/
example : fetchMachine.S.T = shipped ∧
    ((Program.init exFS shippedSettings).run fetchMachine fetchLines).map
      (fun p => p.net.fs.node [[0x64#8], [0x66#8]]) = some (some (.file [])) ∧
    exFS.node [[0x64#8], [0x66#8]] = some (.file [7#8, 8#8]) := by
  refine ⟨rfl, by decide +kernel, by decide +kernel⟩

/-- **C63** The name handed to the system is the directory, a slash and the name given, as text; and the names with a
meaning of their own are "." and "..". -/
theorem C63_full_name (sardir fname : String) :
    fullName (utf8 sardir) (utf8 fname) = utf8 (sardir ++ "/" ++ fname) ∧
    utf8 "." = [dot] ∧ utf8 ".." = [dot, dot] ∧ splitSlash (utf8 "a/b") = [utf8 "a", utf8 "b"] := by
  refine ⟨?_, by decide +kernel, by decide +kernel, by decide +kernel⟩
  have : utf8 "/" = [slash] := by decide +kernel
  rw [utf8_append, utf8_append, this]
  rfl

end Saratoga
