import Verif.Lemmas.Opened
import Verif.Props.Transfers
import Verif.Props.BeaconCmd
import Verif.Props.Client
import Verif.Model.Dial
/-! # C156: what is opened is closed again -/
namespace Saratoga

/-- **C156, answering a request.** A `NewResponder` that fails has closed whatever it opened; one that succeeds leaves
open what the new transfer holds and nothing else. -/
theorem C156_responder (T : Tables) (env : TranEnv) (c : Cliflags) (ts ts' : List Transfer) (r : Request)
    (peer : String) (e : Option Err) (io : List IoAct) (l : List Resource)
    (h : newResponderIo T env c ts r peer = .ret (ts', e, io)) :
    newResponder T env c ts r peer = .ret (ts', e) ∧ ClosesOpen l io ∧
      ((e ≠ none ∧ ts' = ts ∧ openAfter l io = l) ∨
        (e = none ∧ ∃ t, ts' = ts ++ [t] ∧ openAfter l io = t.holds.reverse ++ l)) := by
  refine ⟨?_, ?_⟩
  · rw [← newResponderIo_same, h]; rfl
  rcases newResponderIo_ret h with ⟨x, rfl, hts, hio⟩ | ⟨he, t, hts, rfl⟩
  · refine ⟨?_, .inl ⟨by simp, hts, ?_⟩⟩
    · rcases hio with rfl | ⟨tc, rfl⟩ <;> simp [ClosesOpen]
    · rcases hio with rfl | ⟨tc, rfl⟩ <;> simp [openAfter]
  · exact ⟨closesOpen_opens _ _, .inr ⟨he, t, hts, openAfter_opens _ _⟩⟩

theorem ioOnly_acts (acts : List BeaconAct) (rest : List BeaconIo) :
    BeaconIo.ioOnly (acts.map .act ++ rest) = BeaconIo.ioOnly rest ∧
      BeaconIo.actOnly (acts.map .act ++ rest) = acts ++ BeaconIo.actOnly rest := by
  induction acts with
  | nil => exact ⟨rfl, rfl⟩
  | cons a as ih => exact ⟨ih.1, congrArg (a :: ·) ih.2⟩

/-- **C156, beacons.** Sending beacons to an address leaves open exactly what was open before, however it ends, and
a beacon goes out only while the connection is open: what comes before the opening and after the closing is nothing. -/
theorem C156_beacons (E : BeaconEnv) (b : BeaconState) (addr : UDPAddr) (acts : List BeaconIo) (l : List Resource)
    (h : sendBeaconsIo E b addr = .ret acts) :
    sendBeacons E b addr = .ret (BeaconIo.actOnly acts) ∧ ClosesOpen l (BeaconIo.ioOnly acts) ∧
      openAfter l (BeaconIo.ioOnly acts) = l ∧
      ((BeaconIo.ioOnly acts = [] ∧ sends (BeaconIo.actOnly acts) = []) ∨
        ∃ r during, acts = .io (.opens r) :: during ++ [.io (.closes r)] ∧ BeaconIo.ioOnly during = []) := by
  obtain ⟨as, h1, h⟩ := Out.bind_eq_ret h
  cases hd : E.dial addr with
  | error e =>
    rw [hd] at h
    simp only [Out.ret.injEq] at h
    subst h
    have a := ioOnly_acts as []
    rw [List.append_nil] at a
    rw [a.1, a.2, h1]
    unfold sendBeacons at h1
    rw [hd] at h1
    simp only [Out.ret.injEq] at h1
    subst h1
    exact ⟨rfl, trivial, rfl, .inl ⟨rfl, rfl⟩⟩
  | ok a =>
    rw [hd] at h
    simp only [Out.ret.injEq] at h
    subst h
    have a := ioOnly_acts as [.io (.closes (.conn (E.str addr)))]
    simp only [List.cons_append, BeaconIo.ioOnly, BeaconIo.actOnly, a.1, a.2, List.append_nil]
    refine ⟨h1, by simp [ClosesOpen], by simp [openAfter], .inr ⟨_, _, rfl, ?_⟩⟩
    have a := ioOnly_acts as []
    rw [List.append_nil] at a
    exact a.1

example : (sendBeaconsIo calmBeacons (BeaconState.load calmBeacons shippedSettings BeaconState.init)
    ⟨[1, 1, 1, 1], 7542, ""⟩).returns := by decide +kernel

/-- **C156, putting a file.** When `cput` reports, it has closed everything it opened, once; while it waits, its file
and its connection are open. The word is the one of `cput`. -/
theorem C156_put (p : PutStart) (fp : Handle) (conn : String) (numbers : String → Bool) (events : List PutEvent)
    (word : Option String) (io : List IoAct) (l : List Resource)
    (h : cputIo p fp conn numbers events = .ret (word, io)) :
    cput p numbers events = .ret word ∧ ClosesOpen l io ∧
      openAfter l io = (if word = none then [.conn conn, .file fp] else []) ++ l := by
  obtain ⟨⟨w, io1⟩, h1, h⟩ := Out.bind_eq_ret h
  have key : p.word = .ret w ∧ ((w ≠ none ∧ ClosesOpen l io1 ∧ openAfter l io1 = l) ∨
      (w = none ∧ io1 = [.opens (.file fp), .opens (.conn conn)])) := by
    unfold PutStart.io at h1
    unfold PutStart.word
    simp only at h1
    by_cases a1 : (!p.opened) = true
    · rw [if_pos a1] at h1 ⊢; cases h1; simp [ClosesOpen, openAfter]
    rw [if_neg a1] at h1 ⊢
    by_cases a2 : (!p.seeked) = true
    · rw [if_pos a2] at h1 ⊢; cases h1; simp [ClosesOpen, openAfter]
    rw [if_neg a2] at h1 ⊢
    by_cases a3 : (!p.resolved) = true
    · rw [if_pos a3] at h1 ⊢; cases h1; simp [ClosesOpen, openAfter]
    rw [if_neg a3] at h1 ⊢
    by_cases a4 : (!p.dialled) = true
    · rw [if_pos a4] at h1; cases h1
    rw [if_neg a4] at h1 ⊢
    by_cases a5 : (!p.request) = true
    · rw [if_pos a5] at h1 ⊢; cases h1; simp [ClosesOpen, openAfter]
    rw [if_neg a5] at h1 ⊢
    by_cases a6 : p.requestSent ≠ "success"
    · rw [if_pos a6] at h1 ⊢; cases h1; simp [ClosesOpen, openAfter]
    rw [if_neg a6] at h1 ⊢
    by_cases a7 : (!p.metadata) = true
    · rw [if_pos a7] at h1 ⊢; cases h1; simp [ClosesOpen, openAfter]
    rw [if_neg a7] at h1 ⊢
    by_cases a8 : p.metadataSent ≠ "success"
    · rw [if_pos a8] at h1 ⊢; cases h1; simp [ClosesOpen, openAfter]
    rw [if_neg a8] at h1 ⊢
    cases h1; simp
  obtain ⟨hw, key⟩ := key
  unfold cput
  rw [hw]
  cases w with
  | some w =>
    simp only [Out.ret.injEq, Prod.mk.injEq] at h
    obtain ⟨rfl, rfl⟩ := h
    rcases key with ⟨_, k⟩ | ⟨k, _⟩
    · exact ⟨rfl, by simpa using k⟩
    · cases k
  | none =>
    rcases key with ⟨k, _⟩ | ⟨_, rfl⟩
    · exact absurd rfl k
    simp only at h
    cases hl : putLoop numbers events with
    | none =>
      rw [hl] at h
      simp only [Out.ret.injEq, Prod.mk.injEq] at h
      obtain ⟨rfl, rfl⟩ := h
      refine ⟨?_, by simp [ClosesOpen], by simp [openAfter]⟩
      rfl
    | some w =>
      rw [hl] at h
      simp only [Out.ret.injEq, Prod.mk.injEq] at h
      obtain ⟨rfl, rfl⟩ := h
      refine ⟨?_, by simp [ClosesOpen], by simp [openAfter]⟩
      rfl

example : ∃ io, cputIo ⟨true, true, true, true, true, "success", true, "success"⟩ ⟨[1], [[1]], false⟩ "a" (fun _ => false)
    [.data "cantsend"] = .ret (some "cantsend", io) := ⟨_, rfl⟩

/-- **C156, putting a file blindly.** `cputblind` always reports, success exactly if the file was opened and rewound, the
peer dialled and the metadata made and sent, and has then closed everything it opened. -/
theorem C156_putblind (p : PutStart) (fp : Handle) (conn : String) (l : List Resource) :
    ClosesOpen l (cputblindIo p fp conn).2 ∧ openAfter l (cputblindIo p fp conn).2 = l ∧
      ((cputblindIo p fp conn).1 = "success" ↔
        p.opened ∧ p.seeked ∧ p.resolved ∧ p.dialled ∧ p.metadata ∧ p.metadataSent = "success") := by
  unfold cputblindIo
  obtain ⟨o, s, r, d, _, _, m, ms⟩ := p
  simp only
  cases o <;> cases s <;> cases r <;> cases d <;> cases m <;> simp [ClosesOpen, openAfter]
  split <;> simp_all [ClosesOpen, openAfter]

/-- **C156, what a blind put reports.** It is the word of `dialPutblind` (C119), the first thing that went wrong. -/
theorem C156_putblind_word (L : NetLib) (remote : String) (port : Int) (p : PutStart) (fp : Handle) (conn : String)
    (resolved : p.resolved = (resolveUDP L (clientDial L remote port)).isSome) :
    (cputblindIo p fp conn).1 = (dialPutblind L remote port p).1 := by
  unfold cputblindIo dialPutblind
  cases h : resolveUDP L (clientDial L remote port) <;> rw [h] at resolved
  all_goals
    simp only [Option.isSome_none, Option.isSome_some] at resolved
    rw [resolved]
    cases p.opened <;> cases p.seeked <;> cases p.dialled <;> cases p.metadata <;>
      by_cases h : p.metadataSent = "success" <;> simp [h]

theorem holds_sublist {a b : List Transfer} (h : a.Sublist b) :
    (a.flatMap Transfer.holds).Sublist (b.flatMap Transfer.holds) := by
  induction h with
  | slnil => exact List.Sublist.refl _
  | cons t _ ih => exact List.Sublist.trans ih (List.sublist_append_right _ _)
  | cons_cons t _ ih => exact List.Sublist.append (List.Sublist.refl _) ih

/-- **C156, the table (partial).** Whatever is done to the table: nothing is closed that is not open, and the
connections and files of the transfers in the table are open, each as often as it is held. What is missing is the
other direction, that what is open is held by a transfer (`C156_counterexample`, `C156_leak`). -/
theorem C156_table_partial (T : Tables) (ops : List (TranEnv × TranOp)) (fs : FS) (w : TranWorld)
    (io : List IoAct) (h : (TranWorld.start fs).runIo T ops = .ret (w, io)) :
    (TranWorld.start fs).run T ops = .ret w ∧ ClosesOpen [] io ∧
      ∀ r, (w.transfers.flatMap Transfer.holds).count r ≤ (openAfter [] io).count r := by
  refine ⟨by rw [← runIo_same, h]; rfl, ?_⟩
  have key : ∀ (ops : List (TranEnv × TranOp)) (w0 : TranWorld) (l : List Resource) (io : List IoAct) (w : TranWorld),
      (∀ r, (w0.transfers.flatMap Transfer.holds).count r ≤ l.count r) → w0.runIo T ops = .ret (w, io) →
      ClosesOpen l io ∧ ∀ r, (w.transfers.flatMap Transfer.holds).count r ≤ (openAfter l io).count r := by
    intro ops
    induction ops with
    | nil => intro w0 l io w hl h; cases h; exact ⟨trivial, hl⟩
    | cons e es ih =>
      intro w0 l io w hl h
      obtain ⟨env, op⟩ := e
      obtain ⟨⟨w1, io1⟩, h1, h⟩ := Out.bind_eq_ret h
      obtain ⟨⟨w2, io2⟩, h2, h⟩ := Out.bind_eq_ret h
      simp only [Out.ret.injEq, Prod.mk.injEq] at h
      obtain ⟨rfl, rfl⟩ := h
      obtain ⟨c1, s1⟩ := stepIo_open h1 l
      have hl1 : ∀ r, (w1.transfers.flatMap Transfer.holds).count r ≤ (openAfter l io1).count r := by
        intro r
        rcases s1 with ⟨s1, sub⟩ | ⟨t, ht, s1⟩
        · rw [s1]
          refine Nat.le_trans ?_ (hl r)
          exact (holds_sublist sub).count_le r
        · rw [s1, ht]
          simp only [List.flatMap_append, List.flatMap_cons, List.flatMap_nil, List.append_nil, List.count_append,
            List.count_reverse]
          have := hl r
          omega
      obtain ⟨c2, s2⟩ := ih w1 _ io2 w2 hl1 h2
      rw [closesOpen_append, openAfter_append]
      exact ⟨⟨c1, c2⟩, s2⟩
  exact key ops _ [] io w (fun r => by simp [TranWorld.start]) h

example : ((TranWorld.start exampleFS).runIo shipped [(exampleEnv, .initiate shippedSettings "put" hostA [1])]).returns := by
  decide +kernel

/-- **C156, the table, exactly.** Nothing a transfer has opened is ever closed: what is open after a history stays
open whatever follows. -/
theorem C156_never_closed (T : Tables) (ops : List (TranEnv × TranOp)) (w w' : TranWorld) (io : List IoAct)
    (l : List Resource) (h : w.runIo T ops = .ret (w', io)) :
    ∃ new, openAfter l io = new ++ l := by
  induction ops generalizing w l io with
  | nil => cases h; exact ⟨[], rfl⟩
  | cons e es ih =>
    obtain ⟨env, op⟩ := e
    obtain ⟨⟨w1, io1⟩, h1, h⟩ := Out.bind_eq_ret h
    obtain ⟨⟨w2, io2⟩, h2, h⟩ := Out.bind_eq_ret h
    simp only [Out.ret.injEq, Prod.mk.injEq] at h
    obtain ⟨rfl, rfl⟩ := h
    obtain ⟨new, hn⟩ := ih w1 io2 (openAfter l io1) h2
    rw [openAfter_append, hn]
    rcases (stepIo_open h1 l).2 with ⟨s1, _⟩ | ⟨t, _, s1⟩
    · exact ⟨new, by rw [s1]⟩
    · exact ⟨new ++ t.holds.reverse, by rw [s1, List.append_assoc]⟩

/-- What the examples look at: who is in the table, and what is open. -/
def openOutline (r : Out (TranWorld × List IoAct)) : Option (List (Option String) × List Resource) :=
  match r with
  | .ret (w, io) => some (w.transfers.map (·.conn), openAfter [] io)
  | _ => none

/-- **C156 fails for transfers.** A file is fetched from a, and the transfer removed again with `rmtran`: the table
is empty, the connection and the file are open. -/
theorem C156_counterexample : openOutline ((TranWorld.start exampleFS).runIo shipped
    [(exampleEnv, .initiate shippedSettings "get" hostA [1]), (exampleEnv, .rmtran ["rmtran", "get", "a", "42"])]) =
    some ([], [.file ⟨[slash, 0x64#8, slash, 1], [[0x64#8], [1]], true⟩, .conn "a"]) := by decide +kernel

/-- **C156 fails without bound.** For every number there is a history after which the table is empty and that many
connections are open: a program that goes on fetching and removing runs out of them. -/
theorem C156_leak (n : Nat) : ∃ (ops : List (TranEnv × TranOp)) (w : TranWorld) (io : List IoAct),
    (TranWorld.start exampleFS).runIo shipped ops = .ret (w, io) ∧ w.transfers = [] ∧
      (openAfter [] io).count (.conn "a") = n := by
  have key : ∀ (n : Nat) (w0 : TranWorld) (l : List Resource), w0.transfers = [] →
      ∃ (ops : List (TranEnv × TranOp)) (w : TranWorld) (io : List IoAct),
        w0.runIo shipped ops = .ret (w, io) ∧ w.transfers = [] ∧
          (openAfter l io).count (.conn "a") = l.count (.conn "a") + n := by
    intro n
    induction n with
    | zero => intro w0 l h; exact ⟨[], w0, [], rfl, h, rfl⟩
    | succ n ih =>
      intro w0 l h0
      obtain ⟨w1, t, ha⟩ : ∃ w1 t, addInitiator exampleEnv shippedSettings w0 "put" hostA [1] = .ret (w1, t) :=
        ⟨_, _, rfl⟩
      have hn : newInitiator exampleEnv shippedSettings w0 "put" hostA [1] = .ret (w1, .ok t) := by
        unfold newInitiator
        rw [h0]
        show (addInitiator exampleEnv shippedSettings w0 "put" hostA [1] >>= _) = _
        rw [ha]; rfl
      have e1 := addInitiator_ret ha
      rw [h0] at e1
      have hio : newInitiatorIo exampleEnv w0 "put" hostA [1] = t.holds.map .opens := by
        unfold newInitiatorIo
        rw [h0]
        exact addInitiator_holds ha
      have hr : (t.remove exampleEnv.str w1.transfers).1 = [] := by
        rw [e1.1, remove_eq]
        have : (lookup exampleEnv.str ([] ++ [t]) t.direction t.session (exampleEnv.str t.peer)).isSome = true := by
          simp [lookup]
        rw [if_pos this]
        rfl
      have hcount : (openAfter l (t.holds.map .opens)).count (.conn "a") = l.count (.conn "a") + 1 := by
        rw [openAfter_opens, List.count_append, List.count_reverse]
        have hconn : t.conn = some "a" := e1.2.2.2.2.2.2.2.2 "a" rfl
        unfold Transfer.holds
        rw [hconn]
        cases t.fp <;> simp <;> omega
      obtain ⟨ops, w, io, h1, h2, h3⟩ := ih { w1 with transfers := [] } (openAfter l (t.holds.map .opens)) rfl
      refine ⟨(exampleEnv, .initiate shippedSettings "put" hostA [1]) :: (exampleEnv, .remove t) :: ops, w,
        t.holds.map .opens ++ ([] ++ io), ?_, h2, ?_⟩
      · simp only [TranWorld.runIo, TranWorld.stepIo, hn, Out.ret_bind, hio, hr, h1]
      · rw [openAfter_append, List.nil_append, h3, hcount]; omega
  obtain ⟨ops, w, io, h1, h2, h3⟩ := key n (TranWorld.start exampleFS) [] rfl
  exact ⟨ops, w, io, h1, h2, by simpa using h3⟩

/-- Two files are put to a and b: both connections are open, and both transfers are in the table. -/
example : openOutline ((TranWorld.start exampleFS).runIo shipped
    [(exampleEnv, .initiate shippedSettings "put" hostA [1]), (exampleEnv, .initiate shippedSettings "put" hostB [1]),
     (exampleEnv, .initiate shippedSettings "put" hostA [1])]) =
    some ([some "a", some "b"], [.conn "b", .conn "a"]) := by decide +kernel

/-- A put whose metadata cannot be sent has opened and closed a file and a connection. -/
example : cputIo ⟨true, true, true, true, true, "success", true, "cantsend"⟩ ⟨[1], [[1]], false⟩ "a" (fun _ => false) [] =
    .ret (some "cantsend", [.opens (.file ⟨[1], [[1]], false⟩), .opens (.conn "a"), .closes (.conn "a"), .closes (.file ⟨[1], [[1]], false⟩)]) :=
  rfl

/-- A request whose answer cannot be built (with the field `fileordir`, which the shipped tables lack): the connection opened for it is closed. -/
example : (match newResponderIo
      { shipped with flags := ("fileordir", ⟨1, 13, [("file", 0), ("directory", 1)]⟩) :: shipped.flags } exampleEnv
      shippedSettings [] ⟨0x22000000#32, 7, [1], []⟩ "b" with
    | .ret (ts, e, io) => decide (ts = [] ∧ e ≠ none ∧ io = [.opens (.conn "b"), .closes (.conn "b")])
    | _ => false) = true := by decide +kernel

end Saratoga
