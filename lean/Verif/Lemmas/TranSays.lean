import Verif.Lemmas.Transfers
import Verif.Model.TranSays
/-! Lemmas on what the transfer commands print. -/
namespace Saratoga

theorem badAddress_ne_usage (a : String) (H : CmdTable) (cf : String) : badAddress a ≠ usageReply H cf := by
  intro h
  simp only [badAddress, usageReply, CmdReply.line.injEq, Shown.err.injEq] at h
  unfold prusage at h
  split at h
  · have := congrArg (fun s => s.toList.head?) h
    simp [String.toList_append] at this
  · have := congrArg (fun s => (s.toList.drop 8).head?) h
    simp [String.toList_append] at this

theorem badAddress_ne_msg (a s : String) : badAddress a ≠ .line (.msg s) := by simp [badAddress]

theorem badAddress_ne_info (a : String) (ts : List Transfer) (ty : String) : badAddress a ≠ info ts ty := by
  unfold info; simp only; split <;> simp [badAddress]

theorem badAddress_inj {a b : String} (h : badAddress a = badAddress b) : a = b := by
  simp only [badAddress, CmdReply.line.injEq, Shown.err.injEq] at h
  have := congrArg String.toList h
  simp only [String.toList_append, List.append_cancel_left_eq] at this
  exact String.toList_injective this

theorem badAddress_not_help (a : String) (H : CmdTable) (cf : String) : badAddress a ∉ helpReply H cf := by
  simp [helpReply, helpLines, badAddress]

theorem mem_noteIf {b : Bool} {n m : Note} : m ∈ noteIf b n ↔ b = true ∧ m = n := by
  unfold noteIf; split <;> simp_all

theorem initiateNotes_ne_nil (env : TranEnv) (w : TranWorld) (ty : String) (p : UDPAddr) (f : List Byte) :
    initiateNotes env w ty p f ≠ [] := by
  unfold initiateNotes; split <;> simp

theorem added_mem {env : TranEnv} {w : TranWorld} {ty ty' : String} {p p' : UDPAddr} {f f' : List Byte} :
    Note.added ty' p' f' ∈ initiateNotes env w ty p f ↔
      scanTransfers env w.fs ty p f w.transfers = .clear ∧ ty' = ty ∧ p' = p ∧ f' = f := by
  unfold initiateNotes
  split <;> simp_all [mem_noteIf]

theorem scan_noConnection {env : TranEnv} {fs : FS} {ty : String} {p : UDPAddr} {f : List Byte} {i : Transfer} :
    ∀ {ts : List Transfer}, scanTransfers env fs ty p f ts = .noConnection i → i ∈ ts ∧ i.conn = none
  | [], h => by cases h
  | t :: ts, h => by
    unfold scanTransfers at h
    split at h
    · cases h; exact ⟨.head _, ‹_›⟩
    · split at h
      · cases h
      · split at h
        · cases h
        · have := scan_noConnection h; exact ⟨.tail _ this.1, this.2⟩

theorem scan_fileExists {env : TranEnv} {fs : FS} {ty : String} {p : UDPAddr} {f : List Byte} :
    ∀ {ts : List Transfer}, scanTransfers env fs ty p f ts = .fileExists →
      fileExists env.sardir fs f = true ∧ (ty = "get" ∨ ty = "getdelete" ∨ ty = "getdir")
  | [], h => by cases h
  | t :: ts, h => by
    unfold scanTransfers at h
    split at h
    · cases h
    · split at h
      · assumption
      · split at h
        · cases h
        · exact scan_fileExists h

theorem scan_inProgress {env : TranEnv} {fs : FS} {ty : String} {p : UDPAddr} {f : List Byte} :
    ∀ {ts : List Transfer}, scanTransfers env fs ty p f ts = .inProgress →
      ∃ t ∈ ts, t.filename = f ∧ env.str t.peer = env.str p
  | [], h => by cases h
  | t :: ts, h => by
    unfold scanTransfers at h
    split at h
    · cases h
    · split at h
      · cases h
      · split at h
        · rename_i h'; exact ⟨t, .head _, h'.1.symm, h'.2.symm⟩
        · obtain ⟨t, h1, h2⟩ := scan_inProgress h; exact ⟨t, .tail _ h1, h2⟩

/-- The seven commands on a host and a file. -/
theorem start_three {name : String} {h : CmdEnv → TranWorld → List String → CmdOut} (cmd : (name, h) ∈ tranCommands)
    (hn : name ≠ "tran" ∧ name ≠ "files") {E : CmdEnv} {w w' : TranWorld} {c a f : String} {rs : List CmdReply}
    {n : Next} (ran : h E w [c, a, f] = .ret (w', rs, n)) :
    ((∃ e, E.address a = .error e) ∧ w' = w ∧ n = .returned ∧
      rs = (if name = "get" then [] else if name = "give" then [usageReply E.H "putblind", usageReply E.H "putrm"]
        else if name = "getdir" ∨ name = "take" then [badAddress a] else [badAddress a, usageReply E.H name])) ∨
    ∃ u r, E.address a = .ok u ∧ E.initiate w name u f = .ret (w', r) ∧
      rs = (match r with
        | .ok _ => []
        | .error _ =>
          if name = "get" then []
          else if name = "give" then [badAddress a, usageReply E.H "putblind", usageReply E.H "putrm"]
          else refusal E.H (if name = "put" then "getrm" else name)) ∧
      (∀ e, r = .error e → n = .returned) := by
  simp only [tranCommands, List.mem_cons, List.not_mem_nil, or_false, Prod.mk.injEq] at cmd
  rcases cmd with ⟨rfl, rfl⟩ | ⟨rfl, rfl⟩ | ⟨rfl, rfl⟩ | ⟨rfl, rfl⟩ | ⟨rfl, rfl⟩ | ⟨rfl, rfl⟩ | ⟨rfl, rfl⟩ |
    ⟨rfl, rfl⟩ | ⟨rfl, rfl⟩
  case inr.inr.inr.inr.inr.inr.inr.inl => exact absurd rfl hn.1
  case inr.inr.inr.inr.inr.inr.inr.inr => exact absurd rfl hn.2
  all_goals
    simp only [cmdGet, cmdGetdir, cmdTake, cmdFetch, cmdPut, cmdPutblind, cmdDelete, cmdSend, cmdGive] at ran
    split at ran
    · rename_i e he
      cases ran
      exact .inl ⟨⟨e, he⟩, rfl, rfl, by simp⟩
    · rename_i u hu
      obtain ⟨⟨w1, r⟩, h1, ran⟩ := Out.bind_eq_ret ran
      cases r <;> (cases ran; exact .inr ⟨u, _, hu, h1, by simp, by simp⟩)

/-- The other lines of the nine commands print exactly one of: list, help, usage; nothing changes. -/
theorem other_lines {name : String} {h : CmdEnv → TranWorld → List String → CmdOut} (cmd : (name, h) ∈ tranCommands)
    {E : CmdEnv} {w w' : TranWorld} {args : List String} {rs : List CmdReply} {n : Next}
    (hn : (name = "tran" ∨ name = "files") ∨ ∀ c a f, args ≠ [c, a, f])
    (ran : h E w args = .ret (w', rs, n)) :
    w' = w ∧ n = .returned ∧
      ((∃ ty, rs = [info w.transfers ty]) ∨ (∃ cf, rs = helpReply E.H cf) ∨ ∃ cf, rs = [usageReply E.H cf]) := by
  simp only [tranCommands, List.mem_cons, List.not_mem_nil, or_false, Prod.mk.injEq] at cmd
  rcases cmd with ⟨rfl, rfl⟩ | ⟨rfl, rfl⟩ | ⟨rfl, rfl⟩ | ⟨rfl, rfl⟩ | ⟨rfl, rfl⟩ | ⟨rfl, rfl⟩ | ⟨rfl, rfl⟩ |
    ⟨rfl, rfl⟩ | ⟨rfl, rfl⟩
  case inr.inr.inr.inr.inr.inr.inr.inl =>
    unfold cmdTran at ran
    split at ran
    · cases ran; exact ⟨rfl, rfl, .inl ⟨_, rfl⟩⟩
    · split at ran
      · cases ran; exact ⟨rfl, rfl, .inr (.inl ⟨_, rfl⟩)⟩
      · split at ran
        · cases ran; exact ⟨rfl, rfl, .inl ⟨_, rfl⟩⟩
        · cases ran; exact ⟨rfl, rfl, .inr (.inr ⟨_, rfl⟩)⟩
    · cases ran; exact ⟨rfl, rfl, .inr (.inr ⟨_, rfl⟩)⟩
  case inr.inr.inr.inr.inr.inr.inr.inr =>
    unfold cmdFiles at ran
    split at ran
    · cases ran; exact ⟨rfl, rfl, .inl ⟨_, rfl⟩⟩
    · split at ran
      · cases ran; exact ⟨rfl, rfl, .inr (.inl ⟨_, rfl⟩)⟩
      · cases ran; exact ⟨rfl, rfl, .inr (.inr ⟨_, rfl⟩)⟩
    · cases ran; exact ⟨rfl, rfl, .inr (.inr ⟨_, rfl⟩)⟩
  all_goals
    have hn : ∀ c a f, args ≠ [c, a, f] := by
      rcases hn with hn | hn
      · exact absurd hn (by decide)
      · exact hn
    try simp only [cmdGetdir, cmdTake, cmdPut, cmdPutblind, cmdDelete] at ran
    first | unfold cmdGet at ran | unfold cmdFetch at ran | unfold cmdSend at ran | unfold cmdGive at ran
    split at ran
    · cases ran; exact ⟨rfl, rfl, .inl ⟨_, rfl⟩⟩
    · split at ran
      · cases ran; exact ⟨rfl, rfl, .inr (.inl ⟨_, rfl⟩)⟩
      · cases ran; exact ⟨rfl, rfl, .inr (.inr ⟨_, rfl⟩)⟩
    · exact absurd rfl (hn _ _ _)
    · cases ran; exact ⟨rfl, rfl, .inr (.inr ⟨_, rfl⟩)⟩

end Saratoga
