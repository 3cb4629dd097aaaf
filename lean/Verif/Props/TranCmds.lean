import Verif.Model.TranCmds
import Verif.Lemmas.Transfers
import Verif.Props.Transfers
/-!
# C53, C73, C74: the transfer commands (`sarwin/sarwin.go`)
-/
namespace Saratoga

/-! ## C53 -/

/-- **C53** Once a handler has started `Do`, it never ends: under no schedule. -/
theorem C53_never_ends (schedule : List Bool) (e : Option Err) :
    (Doing.start.run schedule).handler ≠ .ended e := by
  have inv : ∀ (bs : List Bool) (s : Doing), s.chan = [] → (∀ e, s.handler ≠ .ended e) →
      ∀ e, (s.run bs).handler ≠ .ended e := by
    intro bs
    induction bs with
    | nil => intro s _ h e; exact h e
    | cons b bs ih =>
      intro s hc hn
      have key : ((s.step b).getD s).chan = [] ∧ ∀ e, ((s.step b).getD s).handler ≠ .ended e := by
        obtain ⟨h, d, c⟩ := s
        simp only at hc hn
        subst hc
        cases b
        · cases d with
          | receiving n => cases n <;> simpa [Doing.step] using hn
          | _ => simpa [Doing.step] using hn
        · cases h with
          | ended e => exact absurd rfl (hn e)
          | _ => simp [Doing.step]
      exact ih _ key.1 key.2
  exact inv schedule _ rfl (by intro e h; cases h) e

/-- **C53** Given the processor often enough, both goroutines stand still for ever: the handler at its
channel, `Do` at the nil channel. -/
theorem C53_deadlock (schedule : List Bool) :
    let s := Doing.start.run ([true, false] ++ schedule)
    s.handler = .receiving ∧ s.doer = .receiving true ∧ s.step true = none ∧ s.step false = none := by
  have key : ∀ bs : List Bool, (⟨.receiving, .receiving true, []⟩ : Doing).run bs =
      ⟨.receiving, .receiving true, []⟩ := by
    intro bs
    induction bs with
    | nil => rfl
    | cons b bs ih => cases b <;> exact ih
  have e : Doing.start.run ([true, false] ++ schedule) = ⟨.receiving, .receiving true, []⟩ := key schedule
  intro s
  have hs : s = ⟨.receiving, .receiving true, []⟩ := e
  rw [hs]
  exact ⟨rfl, rfl, rfl, rfl⟩

/-- The commands that start `Do`. -/
def doCommands : List String := ["put", "putblind", "give", "delete"]

/-- **C53** A command line for one of the four sending commands with an address that resolves and a file
for which a transfer can be started ends in that wait. (So the claim fails whenever there is something to
do.) -/
theorem C53_counterexample (name : String) (sends : name ∈ doCommands) (E : CmdEnv) (w w' : TranWorld)
    (a f : String) (u : UDPAddr) (t : Transfer) (good : E.address a = .ok u)
    (started : E.initiate w name u f = .ret (w', .ok t)) :
    ∃ h, (name, h) ∈ tranCommands ∧ h E w [name, a, f] = .ret (w', [], .doing t) ∧ t ∈ w'.transfers := by
  have ht : t ∈ w'.transfers := by
    rcases newInitiator_ret started with ⟨-, -, -, e, h⟩ | ⟨-, t', h, h1⟩
    · cases h
    · cases h
      rw [(addInitiator_ret h1).1]; simp
  simp only [doCommands, List.mem_cons, List.not_mem_nil, or_false] at sends
  rcases sends with rfl | rfl | rfl | rfl
  · exact ⟨cmdPut, by simp [tranCommands], by simp [cmdPut, cmdSend, good, started], ht⟩
  · exact ⟨cmdPutblind, by simp [tranCommands], by simp [cmdPutblind, cmdSend, good, started], ht⟩
  · exact ⟨cmdGive, by simp [tranCommands], by simp [cmdGive, good, started], ht⟩
  · exact ⟨cmdDelete, by simp [tranCommands], by simp [cmdDelete, cmdSend, good, started], ht⟩

/-- **C53** All other uses return: the fetching commands always, the sending commands unless the line has
exactly two arguments, the address resolves and the transfer can be started. -/
theorem C53_returns_partial (name : String) (h : CmdEnv → TranWorld → List String → CmdOut)
    (cmd : (name, h) ∈ tranCommands) (E : CmdEnv) (w w' : TranWorld) (args : List String)
    (replies : List CmdReply) (n : Next) (ran : h E w args = .ret (w', replies, n)) :
    n = .returned ∨ (name ∈ doCommands ∧ ∃ a f u t, args.tail = [a, f] ∧ E.address a = .ok u ∧
      E.initiate w name u f = .ret (w', .ok t) ∧ n = .doing t ∧ replies = []) := by
  have fetch : ∀ nm listed, cmdFetch nm listed E w args = .ret (w', replies, n) → n = .returned := by
    intro nm listed ran
    unfold cmdFetch at ran
    split at ran
    · cases ran; rfl
    · split at ran <;> (cases ran; rfl)
    · split at ran
      · cases ran; rfl
      · obtain ⟨⟨w1, r⟩, -, ran⟩ := Out.bind_eq_ret ran
        cases r <;> (cases ran; rfl)
    · cases ran; rfl
  have send : ∀ nm listed ref, nm ∈ doCommands → cmdSend nm listed ref E w args = .ret (w', replies, n) →
      n = .returned ∨ (nm ∈ doCommands ∧ ∃ a f u t, args.tail = [a, f] ∧ E.address a = .ok u ∧
        E.initiate w nm u f = .ret (w', .ok t) ∧ n = .doing t ∧ replies = []) := by
    intro nm listed ref hm ran
    unfold cmdSend at ran
    split at ran
    · cases ran; exact .inl rfl
    · split at ran <;> (cases ran; exact .inl rfl)
    · split at ran
      · cases ran; exact .inl rfl
      · rename_i u hu
        obtain ⟨⟨w1, r⟩, h1, ran⟩ := Out.bind_eq_ret ran
        cases r with
        | error e => cases ran; exact .inl rfl
        | ok t => cases ran; exact .inr ⟨hm, _, _, u, t, rfl, hu, h1, rfl, rfl⟩
    · cases ran; exact .inl rfl
  simp only [tranCommands, List.mem_cons, List.not_mem_nil, or_false, Prod.mk.injEq] at cmd
  rcases cmd with ⟨rfl, rfl⟩ | ⟨rfl, rfl⟩ | ⟨rfl, rfl⟩ | ⟨rfl, rfl⟩ | ⟨rfl, rfl⟩ | ⟨rfl, rfl⟩ | ⟨rfl, rfl⟩ |
    ⟨rfl, rfl⟩ | ⟨rfl, rfl⟩
  · left
    unfold cmdGet at ran
    split at ran
    · cases ran; rfl
    · split at ran <;> (cases ran; rfl)
    · split at ran
      · cases ran; rfl
      · obtain ⟨⟨w1, r⟩, -, ran⟩ := Out.bind_eq_ret ran
        cases ran; rfl
    · cases ran; rfl
  · exact .inl (fetch _ _ ran)
  · exact .inl (fetch _ _ ran)
  · exact send _ _ _ (by decide) ran
  · exact send _ _ _ (by decide) ran
  · unfold cmdGive at ran
    split at ran
    · cases ran; exact .inl rfl
    · split at ran <;> (cases ran; exact .inl rfl)
    · split at ran
      · cases ran; exact .inl rfl
      · rename_i u hu
        obtain ⟨⟨w1, r⟩, h1, ran⟩ := Out.bind_eq_ret ran
        cases r with
        | error e => cases ran; exact .inl rfl
        | ok t => cases ran; exact .inr ⟨by decide, _, _, u, t, rfl, hu, h1, rfl, rfl⟩
    · cases ran; exact .inl rfl
  · exact send _ _ _ (by decide) ran
  · left
    unfold cmdTran at ran
    split at ran
    · cases ran; rfl
    · split at ran
      · cases ran; rfl
      · split at ran <;> (cases ran; rfl)
    · cases ran; rfl
  · left
    unfold cmdFiles at ran
    split at ran
    · cases ran; rfl
    · split at ran <;> (cases ran; rfl)
    · cases ran; rfl

/-! ## C73 -/

/-- The answer shows exactly the transfers of the table that satisfy `P`, in the order of the table, or says
that there is none. -/
def Lists (r : CmdReply) (ts : List Transfer) (P : Transfer → Bool) : Prop :=
  (r = .table (ts.filter P) ∧ ts.filter P ≠ []) ∨ ((∃ s, r = .noneOf s) ∧ ts.filter P = [])

theorem info_lists (ts : List Transfer) (ty : String) :
    Lists (info ts ty) ts (fun t => ty = "" ∨ t.ttype = ty) := by
  unfold info Lists
  simp only
  split
  · rename_i h; exact .inl ⟨rfl, by rw [← List.length_pos_iff]; exact h⟩
  · rename_i h; exact .inr ⟨⟨ty, rfl⟩, List.eq_nil_of_length_eq_zero (by omega)⟩

/-- **C73** `get`, `getdir`, `put` and `putblind` alone list the transfers they have started. Missing:
`take`, `give`, `delete` (`C73_counterexample`). -/
theorem C73_lists_partial (name : String) (h : CmdEnv → TranWorld → List String → CmdOut)
    (cmd : (name, h) ∈ tranCommands) (known : name ∈ ["get", "getdir", "put", "putblind"]) (E : CmdEnv)
    (w : TranWorld) :
    ∃ r, h E w [name] = .ret (w, [r], .returned) ∧ Lists r w.transfers (·.ttype = name) := by
  have key : ∀ nm, nm ≠ "" → Lists (info w.transfers nm) w.transfers (·.ttype = nm) := by
    intro nm hnm
    have := info_lists w.transfers nm
    simpa [hnm] using this
  simp only [tranCommands, List.mem_cons, List.not_mem_nil, or_false, Prod.mk.injEq] at cmd
  rcases cmd with ⟨rfl, rfl⟩ | ⟨rfl, rfl⟩ | ⟨rfl, rfl⟩ | ⟨rfl, rfl⟩ | ⟨rfl, rfl⟩ | ⟨rfl, rfl⟩ | ⟨rfl, rfl⟩ |
    ⟨rfl, rfl⟩ | ⟨rfl, rfl⟩ <;>
    first
      | exact ⟨_, rfl, key _ (by decide)⟩
      | exact absurd known (by decide)

example := C73_lists_partial "put" cmdPut (by simp [tranCommands]) (by decide)

/-- **C73** `tran` and `files` alone list every transfer. -/
theorem C73_all (name : String) (h : CmdEnv → TranWorld → List String → CmdOut)
    (cmd : (name, h) ∈ tranCommands) (known : name = "tran" ∨ name = "files") (E : CmdEnv) (w : TranWorld) :
    ∃ r, h E w [name] = .ret (w, [r], .returned) ∧ Lists r w.transfers (fun _ => true) := by
  have key := info_lists w.transfers ""
  simp only [true_or, decide_true] at key
  simp only [tranCommands, List.mem_cons, List.not_mem_nil, or_false, Prod.mk.injEq] at cmd
  rcases known with rfl | rfl
  · simp at cmd; subst cmd; exact ⟨_, rfl, key⟩
  · simp at cmd; subst cmd; exact ⟨_, rfl, key⟩

example := C73_all "tran" cmdTran (by simp [tranCommands]) (by decide)

/-- **C73** `tran` with a type lists the transfers of that type, if it is one of the eight types of the
protocol; any other word but `?` gets the usage text. -/
theorem C73_tran_type (h : CmdEnv → TranWorld → List String → CmdOut) (cmd : ("tran", h) ∈ tranCommands)
    (E : CmdEnv) (w : TranWorld) (a : String) (notHelp : a ≠ "?") :
    (a ∈ ["get", "getrm", "getdir", "put", "putblind", "putrm", "rm", "rmdir"] →
      ∃ r, h E w ["tran", a] = .ret (w, [r], .returned) ∧ Lists r w.transfers (fun t => t.ttype = a)) ∧
    (a ∉ ["get", "getrm", "getdir", "put", "putblind", "putrm", "rm", "rmdir"] →
      h E w ["tran", a] = .ret (w, [usageReply E.H "tran"], .returned)) := by
  simp only [tranCommands, List.mem_cons, List.not_mem_nil, or_false, Prod.mk.injEq] at cmd
  simp at cmd
  subst cmd
  constructor
  · intro ha
    have ne : a ≠ "" := by rintro rfl; exact absurd ha (by decide)
    have key := info_lists w.transfers a
    simp only [ne, false_or] at key
    refine ⟨_, ?_, key⟩
    simp only [cmdTran, if_neg notHelp]
    exact if_pos ha
  · intro ha
    simp only [cmdTran, if_neg notHelp]
    exact if_neg ha

example (E : CmdEnv) (w : TranWorld) := C73_tran_type cmdTran (by simp [tranCommands]) E w "put" (by decide)

/-- The types with which the seven commands start transfers. -/
def startTypes : List String := ["get", "getdir", "take", "put", "putblind", "give", "delete"]

/-- **C73** The commands only ever put transfers of their own name in the table. -/
theorem C73_types (name : String) (h : CmdEnv → TranWorld → List String → CmdOut)
    (cmd : (name, h) ∈ tranCommands) (E : CmdEnv) (w w' : TranWorld) (args : List String)
    (replies : List CmdReply) (n : Next) (ran : h E w args = .ret (w', replies, n)) :
    ∀ t ∈ w'.transfers, t ∈ w.transfers ∨ (t.ttype = name ∧ name ∈ startTypes) := by
  have init : ∀ nm, nm ∈ startTypes → ∀ u f r, E.initiate w nm u f = .ret (w', r) →
      ∀ t ∈ w'.transfers, t ∈ w.transfers ∨ (t.ttype = nm ∧ nm ∈ startTypes) := by
    intro nm hnm u f r hr t ht
    rcases newInitiator_ret hr with ⟨hs, -, -, -⟩ | ⟨-, t', -, h1⟩
    · exact .inl (hs.subset ht)
    · have h1 := addInitiator_ret h1
      rw [h1.1] at ht
      simp only [List.mem_append, List.mem_singleton] at ht
      rcases ht with ht | rfl
      · exact .inl ht
      · exact .inr ⟨h1.2.2.2.2.2.1, hnm⟩
  have same : w' = w → ∀ t ∈ w'.transfers, t ∈ w.transfers ∨ (t.ttype = name ∧ name ∈ startTypes) := by
    rintro rfl t ht; exact .inl ht
  have fetch : ∀ nm listed, nm = name → nm ∈ startTypes → cmdFetch nm listed E w args = .ret (w', replies, n) →
      ∀ t ∈ w'.transfers, t ∈ w.transfers ∨ (t.ttype = name ∧ name ∈ startTypes) := by
    rintro nm listed rfl hm ran
    unfold cmdFetch at ran
    split at ran
    · cases ran; exact same rfl
    · split at ran <;> (cases ran; exact same rfl)
    · split at ran
      · cases ran; exact same rfl
      · obtain ⟨⟨w1, r⟩, h1, ran⟩ := Out.bind_eq_ret ran
        cases r <;> (cases ran; exact init _ hm _ _ _ h1)
    · cases ran; exact same rfl
  have send : ∀ nm listed ref, nm = name → nm ∈ startTypes →
      cmdSend nm listed ref E w args = .ret (w', replies, n) →
      ∀ t ∈ w'.transfers, t ∈ w.transfers ∨ (t.ttype = name ∧ name ∈ startTypes) := by
    rintro nm listed ref rfl hm ran
    unfold cmdSend at ran
    split at ran
    · cases ran; exact same rfl
    · split at ran <;> (cases ran; exact same rfl)
    · split at ran
      · cases ran; exact same rfl
      · obtain ⟨⟨w1, r⟩, h1, ran⟩ := Out.bind_eq_ret ran
        cases r <;> (cases ran; exact init _ hm _ _ _ h1)
    · cases ran; exact same rfl
  simp only [tranCommands, List.mem_cons, List.not_mem_nil, or_false, Prod.mk.injEq] at cmd
  rcases cmd with ⟨rfl, rfl⟩ | ⟨rfl, rfl⟩ | ⟨rfl, rfl⟩ | ⟨rfl, rfl⟩ | ⟨rfl, rfl⟩ | ⟨rfl, rfl⟩ | ⟨rfl, rfl⟩ |
    ⟨rfl, rfl⟩ | ⟨rfl, rfl⟩
  · unfold cmdGet at ran
    split at ran
    · cases ran; exact same rfl
    · split at ran <;> (cases ran; exact same rfl)
    · split at ran
      · cases ran; exact same rfl
      · obtain ⟨⟨w1, r⟩, h1, ran⟩ := Out.bind_eq_ret ran
        cases ran; exact init _ (by decide) _ _ _ h1
    · cases ran; exact same rfl
  · exact fetch _ _ rfl (by decide) ran
  · exact fetch _ _ rfl (by decide) ran
  · exact send _ _ _ rfl (by decide) ran
  · exact send _ _ _ rfl (by decide) ran
  · unfold cmdGive at ran
    split at ran
    · cases ran; exact same rfl
    · split at ran <;> (cases ran; exact same rfl)
    · split at ran
      · cases ran; exact same rfl
      · obtain ⟨⟨w1, r⟩, h1, ran⟩ := Out.bind_eq_ret ran
        cases r <;> (cases ran; exact init _ (by decide) _ _ _ h1)
    · cases ran; exact same rfl
  · exact send _ _ _ rfl (by decide) ran
  · unfold cmdTran at ran
    split at ran
    · cases ran; exact same rfl
    · split at ran
      · cases ran; exact same rfl
      · split at ran <;> (cases ran; exact same rfl)
    · cases ran; exact same rfl
  · unfold cmdFiles at ran
    split at ran
    · cases ran; exact same rfl
    · split at ran <;> (cases ran; exact same rfl)
    · cases ran; exact same rfl

/-- **C73** `take`, `give` and `delete` alone never list anything: in a table made by the commands they
always answer that there is none, however many of their transfers are open. -/
theorem C73_counterexample (name : String) (h : CmdEnv → TranWorld → List String → CmdOut)
    (cmd : (name, h) ∈ tranCommands) (blind : name ∈ ["take", "give", "delete"]) (E : CmdEnv) (w : TranWorld)
    (made : ∀ t ∈ w.transfers, t.ttype ∈ startTypes) :
    ∃ s, h E w [name] = .ret (w, [.noneOf s], .returned) := by
  have key : ∀ ty, ty ∉ startTypes → ty ≠ "" → info w.transfers ty = .noneOf ty := by
    intro ty hty h0
    unfold info
    have : w.transfers.filter (fun t => ty = "" ∨ t.ttype = ty) = [] := by
      rw [List.filter_eq_nil_iff]
      intro t ht
      have := made t ht
      simp only [h0, false_or, decide_eq_true_eq]
      rintro rfl
      exact hty this
    rw [this]; rfl
  simp only [tranCommands, List.mem_cons, List.not_mem_nil, or_false, Prod.mk.injEq] at cmd
  rcases cmd with ⟨rfl, rfl⟩ | ⟨rfl, rfl⟩ | ⟨rfl, rfl⟩ | ⟨rfl, rfl⟩ | ⟨rfl, rfl⟩ | ⟨rfl, rfl⟩ | ⟨rfl, rfl⟩ |
    ⟨rfl, rfl⟩ | ⟨rfl, rfl⟩ <;>
    first
      | exact absurd blind (by decide)
      | exact ⟨"getrm", by show Out.ret _ = _; rw [key "getrm" (by decide) (by decide)]⟩
      | exact ⟨"putrm", by show Out.ret _ = _; rw [key "putrm" (by decide) (by decide)]⟩
      | exact ⟨"rm", by show Out.ret _ = _; rw [key "rm" (by decide) (by decide)]⟩

example (E : CmdEnv) (fs : FS) := C73_counterexample "take" cmdTake (by simp [tranCommands]) (by decide) E (TranWorld.start fs)
  (by simp [TranWorld.start])

/-! ## C74 -/

/-- **C74** `getdir`, `take`, `put`, `putblind` and `delete` with an address that is none say so and change
nothing. Missing: `get` and `give` (`C74_counterexample`). -/
theorem C74_reported_partial (name : String) (h : CmdEnv → TranWorld → List String → CmdOut)
    (cmd : (name, h) ∈ tranCommands) (known : name ∈ ["getdir", "take", "put", "putblind", "delete"])
    (E : CmdEnv) (w : TranWorld) (a f : String) (e : Err) (bad : E.address a = .error e) :
    ∃ replies, h E w [name, a, f] = .ret (w, replies, .returned) ∧ badAddress a ∈ replies := by
  simp only [tranCommands, List.mem_cons, List.not_mem_nil, or_false, Prod.mk.injEq] at cmd
  rcases cmd with ⟨rfl, rfl⟩ | ⟨rfl, rfl⟩ | ⟨rfl, rfl⟩ | ⟨rfl, rfl⟩ | ⟨rfl, rfl⟩ | ⟨rfl, rfl⟩ | ⟨rfl, rfl⟩ |
    ⟨rfl, rfl⟩ | ⟨rfl, rfl⟩ <;>
    first
      | exact absurd known (by decide)
      | (refine ⟨_, by simp only [cmdGetdir, cmdTake, cmdFetch, bad]; rfl, ?_⟩; simp; done)
      | (refine ⟨_, by simp only [cmdPut, cmdPutblind, cmdDelete, cmdSend, bad]; rfl, ?_⟩; simp; done)

/-- **C74** And they say so only then: with a good address the reply is another one. -/
theorem C74_only_then_partial (name : String) (h : CmdEnv → TranWorld → List String → CmdOut)
    (cmd : (name, h) ∈ tranCommands) (known : name ∈ ["getdir", "take", "put", "putblind", "delete"])
    (E : CmdEnv) (w w' : TranWorld) (a f : String) (u : UDPAddr) (good : E.address a = .ok u)
    (replies : List CmdReply) (n : Next)
    (ran : h E w [name, a, f] = .ret (w', replies, n)) : badAddress a ∉ replies := by
  have texts : ∀ cf, prusage E.H cf ≠ "Invalid IP Address:" ++ a := by
    intro cf e
    have e := congrArg String.toList e
    unfold prusage at e
    split at e
    · simp [String.toList_append] at e
    · simp [String.toList_append] at e
  have key : ∀ cf, badAddress a ∉ refusal E.H cf := by
    intro cf hm
    simp only [refusal, badAddress, usageReply, List.mem_cons, List.not_mem_nil, or_false, CmdReply.line.injEq,
      Shown.err.injEq] at hm
    rcases hm with hm | hm
    · cases hm
    · exact texts cf hm.symm
  have fetch : ∀ name listed, cmdFetch name listed E w [name, a, f] = .ret (w', replies, n) →
      badAddress a ∉ replies := by
    intro name listed hr
    simp only [cmdFetch, good] at hr
    obtain ⟨⟨w1, r⟩, _, hr⟩ := Out.bind_eq_ret hr
    cases r with
    | error e => cases hr; exact key _
    | ok t => cases hr; simp
  have send : ∀ name listed refused, cmdSend name listed refused E w [name, a, f] = .ret (w', replies, n) →
      badAddress a ∉ replies := by
    intro name listed refused hr
    simp only [cmdSend, good] at hr
    obtain ⟨⟨w1, r⟩, _, hr⟩ := Out.bind_eq_ret hr
    cases r with
    | error e => cases hr; exact key _
    | ok t => cases hr; simp
  simp only [tranCommands, List.mem_cons, List.not_mem_nil, or_false, Prod.mk.injEq] at cmd
  rcases cmd with ⟨rfl, rfl⟩ | ⟨rfl, rfl⟩ | ⟨rfl, rfl⟩ | ⟨rfl, rfl⟩ | ⟨rfl, rfl⟩ | ⟨rfl, rfl⟩ | ⟨rfl, rfl⟩ |
    ⟨rfl, rfl⟩ | ⟨rfl, rfl⟩ <;>
    first
      | exact absurd known (by decide)
      | exact fetch _ _ ran
      | exact send _ _ _ ran

/-- **C74** `get` says nothing about a bad address, nor about a transfer it cannot start; `give` calls the
address invalid exactly when it is valid and the transfer cannot be started. -/
theorem C74_counterexample (E : CmdEnv) (w : TranWorld) (a f : String) :
    (∀ e, E.address a = .error e → cmdGet E w ["get", a, f] = .ret (w, [], .returned)) ∧
    (∀ u w' e, E.address a = .ok u → E.initiate w "get" u f = .ret (w', .error e) →
      cmdGet E w ["get", a, f] = .ret (w', [], .returned)) ∧
    (∀ e, E.address a = .error e → ∃ replies, cmdGive E w ["give", a, f] = .ret (w, replies, .returned) ∧
      badAddress a ∉ replies) ∧
    (∀ u w' e, E.address a = .ok u → E.initiate w "give" u f = .ret (w', .error e) →
      ∃ replies, cmdGive E w ["give", a, f] = .ret (w', replies, .returned) ∧ badAddress a ∈ replies) := by
  refine ⟨?_, ?_, ?_, ?_⟩
  · intro e bad; simp [cmdGet, bad]
  · intro u w' e good no; simp [cmdGet, good, no]
  · intro e bad
    refine ⟨_, by simp only [cmdGive, bad]; rfl, ?_⟩
    have ne : ∀ c, badAddress a ≠ usageReply E.H c := by
      intro c h
      have h1 : "Invalid IP Address:" ++ a = prusage E.H c := by
        simpa [badAddress, usageReply] using h
      have h2 := congrArg (fun s => s.toList.take 9) h1
      unfold prusage at h2
      split at h2
      · simp at h2
      · simp at h2
    simp [ne]
  · intro u w' e good no
    refine ⟨_, by simp only [cmdGive, good, no, Out.ret_bind]; rfl, ?_⟩
    simp

/-! ## Cases -/

def exampleCmds : CmdEnv := ⟨[], { exampleEnv with dial := fun a => if a.zone = "9.9.9.9:7542" then .error "" else .ok a.zone },
  shippedSettings⟩

example : ("put" ∈ doCommands) ∧ ∃ u, exampleCmds.address "1.1.1.1" = .ok u ∧
    (match exampleCmds.initiate (TranWorld.start exampleFS) "put" u "f" with
      | .ret (_, .ok _) => true
      | _ => false) = true := ⟨by decide, _, rfl, by decide +kernel⟩

/-- What the examples look at: types and peers in the table, number of lines printed, still waiting. -/
def cmdOutline (r : CmdOut) : Option (List (String × String) × Nat × Bool) :=
  match r with
  | .ret (w, rs, n) => some (w.transfers.map fun t => (t.ttype, t.peer.zone), rs.length, n != .returned)
  | _ => none

/-- `put a f` waits for ever, `take a f` returns, both with a transfer in the table. -/
example : cmdOutline (cmdPut exampleCmds (TranWorld.start exampleFS) ["put", "1.1.1.1", "f"]) =
    some ([("put", "1.1.1.1:7542")], 0, true) := by decide +kernel
example : cmdOutline (cmdTake exampleCmds (TranWorld.start exampleFS) ["take", "1.1.1.1", "f"]) =
    some ([("take", "1.1.1.1:7542")], 0, false) := by decide +kernel
/-- The peer cannot be reached: the handler prints nothing itself, and this waits for ever too. -/
example : cmdOutline (cmdPut exampleCmds (TranWorld.start exampleFS) ["put", "9.9.9.9", "f"]) =
    some ([("put", "9.9.9.9:7542")], 0, true) := by decide +kernel
/-- The same transfer a second time: two lines of help, for a command there is none of. -/
example : (match cmdPut exampleCmds (TranWorld.start exampleFS) ["put", "1.1.1.1", "f"] with
    | .ret (w, _, _) => cmdOutline (cmdPut exampleCmds w ["put", "1.1.1.1", "f"])
    | _ => none) = some ([("put", "1.1.1.1:7542")], 2, false) := by decide +kernel
/-- `take` after `take a f`: none. -/
example : (match cmdTake exampleCmds (TranWorld.start exampleFS) ["take", "1.1.1.1", "f"] with
    | .ret (w, _, _) => match cmdTake exampleCmds w ["take"] with
      | .ret (_, rs, _) => some rs
      | _ => none
    | _ => none) = some [.noneOf "getrm"] := by decide +kernel
/-- `put` after `put a f` and `get b g`: the first one. -/
example : (match cmdPut exampleCmds (TranWorld.start exampleFS) ["put", "1.1.1.1", "f"] with
    | .ret (w, _, _) => match cmdGet exampleCmds w ["get", "2.2.2.2", "g"] with
      | .ret (w, _, _) => match cmdPut exampleCmds w ["put"] with
        | .ret (_, [.table rows], _) => some (w.transfers.map (·.ttype), rows.map (·.ttype))
        | _ => none
      | _ => none
    | _ => none) = some (["put", "get"], ["put"]) := by decide +kernel

end Saratoga
