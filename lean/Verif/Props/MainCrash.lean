import Verif.Props.MainLoop
/-!
# C41, C65 and the lists the main loop keeps
-/
namespace Saratoga

/-! ## C41 -/

/-- Whatever the handler comes back with, it carries a reply and at most one new transfer. -/
def Answered (trans : List RxTran) (x : Out TranEnd) : Prop :=
  ∀ e, x = .ret e → (∃ st, e.sent = some st) ∧ (e.transfers = trans ∨ ∃ t, e.transfers = trans ++ [t])

theorem Answered.bind {trans : List RxTran} {α} {x : Out α} {f : α → Out TranEnd}
    (h : ∀ v, Answered trans (f v)) : Answered trans (x >>= f) := by
  intro e he
  obtain ⟨v, _, he⟩ := Out.bind_eq_ret he
  exact h v e he

theorem Answered.ite {trans : List RxTran} {c : Prop} [Decidable c] {x y : Out TranEnd}
    (hx : Answered trans x) (hy : Answered trans y) : Answered trans (if c then x else y) := by
  split
  · exact hx
  · exact hy

theorem answered_answer {T : Tables} (ht : TranTables T) (clock : GoTime) (fs : FS) (trans : List RxTran)
    (code : String) (hc : code ∈ tranCodes) (text : String) (htext : text = "errcode=" ++ code) (result : Bool) :
    Answered trans (answerWith T clock fs trans text result) := by
  intro e h
  obtain ⟨st, _, h1⟩ := answerWith_eq ht clock fs trans code hc result
  rw [htext, h1] at h; cases h
  exact ⟨⟨st, rfl⟩, Or.inl rfl⟩

theorem answered_start {T : Tables} (ht : TranTables T) (clock : GoTime) (fs : FS) (trans : List RxTran)
    (r : Request) (ttype : String) (source : UDPAddr) :
    Answered trans (startTran T clock fs trans r ttype source) := by
  intro e h
  unfold startTran at h
  obtain ⟨⟨ts, _⟩, _, h⟩ := Out.bind_eq_ret h
  obtain ⟨st, _, h1⟩ := answerWith_eq ht clock fs
    (trans ++ [⟨source, r.session, ttype, r.fname, "epoch_2000_32", ts, "none", 0, 0, []⟩]) "success" (by decide) true
  rw [show ("errcode=success" : String) = "errcode=" ++ "success" from rfl] at h
  simp only at h
  rw [h1] at h; cases h
  exact ⟨⟨st, rfl⟩, Or.inr ⟨_, rfl⟩⟩

/-- A request that is handled to the end gets an answer. -/
theorem addRxTran_answers {T : Tables} (ht : TranTables T) (clock : GoTime) (sardir : List Byte) (fs : FS)
    (trans : List RxTran) (r : Request) (source : UDPAddr) :
    Answered trans (addRxTran T clock sardir fs trans r source) := by
  unfold addRxTran
  refine Answered.bind fun rt => ?_
  refine Answered.bind fun v => ?_
  refine Answered.ite (answered_answer ht _ _ _ "badrequest" (by decide) _ rfl _) ?_
  refine Answered.bind fun v => ?_
  refine Answered.ite (answered_answer ht _ _ _ "badrequest" (by decide) _ rfl _) ?_
  refine Answered.bind fun v => ?_
  refine Answered.ite (answered_answer ht _ _ _ "badrequest" (by decide) _ rfl _) ?_
  refine Answered.bind fun v => ?_
  refine Answered.ite (answered_answer ht _ _ _ "cantreceive" (by decide) _ rfl _) ?_
  refine Answered.bind fun v => ?_
  refine Answered.ite (answered_answer ht _ _ _ "cantsend" (by decide) _ rfl _) ?_
  refine Answered.ite ?_ (Answered.ite ?_ (Answered.ite ?_ ?_))
  · exact Answered.ite (answered_answer ht _ _ _ "cantreceive" (by decide) _ rfl _)
      (Answered.ite (answered_answer ht _ _ _ "filenotfound" (by decide) _ rfl _) (answered_start ht _ _ _ _ _ _))
  · refine Answered.ite (answered_answer ht _ _ _ "filenotfound" (by decide) _ rfl _) ?_
    split
    · exact answered_answer ht _ _ _ "didnotdelete" (by decide) _ rfl _
    · exact answered_answer ht _ _ _ "success" (by decide) _ rfl _
  · exact Answered.ite (answered_answer ht _ _ _ "cantsend" (by decide) _ rfl _)
      (Answered.ite (answered_answer ht _ _ _ "fileinuse" (by decide) _ rfl _) (answered_start ht _ _ _ _ _ _))
  · exact answered_answer ht _ _ _ "badrequest" (by decide) _ rfl _

/-- **C41** fails, with any tables the handler can work with: whatever the request, after it the main
loop never handles anything again. Either the process has ended, or the main loop waits at its own reply
queue, and in every continuation it goes on waiting, handling no packet and taking no reply, until the
process ends. -/
theorem C41_every_request (S : Setup) (ht : TranTables S.T) (w w' : World) (fam : Fam) (clock : GoTime)
    (r : Request) (a : UDPAddr) (offered : w.listener fam = .sendRx (.request r) a)
    (h : w.step S (.takeRx fam clock) = some w') :
    ∀ more w'', w'.run S more = some w'' →
      w''.main ≠ .select ∧ w''.handled = w'.handled ∧ w''.taken = w'.taken := by
  have blocked : w'.main ≠ .select := by
    rcases step_cases h with ⟨d, he, _⟩ | ⟨g, he, _⟩ | ⟨g, clock', f, addr, he, hm, hl, rfl⟩ |
      ⟨g, s, addr, he, _⟩ | ⟨g, he, _⟩ | ⟨he, _⟩ | ⟨he, _⟩ | ⟨_, he, _⟩
    all_goals first | (cases he; done) | skip
    cases he
    rw [offered] at hl
    cases hl
    unfold World.onRx World.orEnd
    simp only
    cases hx : addRxTran S.T clock S.sardir w.fs w.transfers r a with
    | fatal =>
      have hx' : addRxTran S.T clock S.sardir (w.setListener fam .reading).fs
        (w.setListener fam .reading).transfers r a = .fatal := hx
      rw [hx']; simp
    | panic =>
      have hx' : addRxTran S.T clock S.sardir (w.setListener fam .reading).fs
        (w.setListener fam .reading).transfers r a = .panic := hx
      rw [hx']; simp
    | ret e =>
      have hx' : addRxTran S.T clock S.sardir (w.setListener fam .reading).fs
        (w.setListener fam .reading).transfers r a = .ret e := hx
      rw [hx']
      obtain ⟨⟨st, hst⟩, _⟩ := addRxTran_answers ht _ _ _ _ _ _ _ hx
      simp only [hst]
      simp
  intro more w'' hr
  refine run_induction (P := fun v => v.main ≠ .select ∧ v.handled = w'.handled ∧ v.taken = w'.taken)
    ?_ more ⟨blocked, rfl, rfl⟩ hr
  intro v b v' ⟨h1, h2, h3⟩ hs
  rcases step_cases hs with ⟨d, rfl, _, hl, rfl⟩ | ⟨g, rfl, _, hl, rfl⟩ | ⟨g, clock, f, addr, rfl, hm, hl, rfl⟩ |
      ⟨g, s, addr, rfl, hm, hl, rfl⟩ | ⟨g, rfl, hm, hl, rfl⟩ | ⟨rfl, hm, rfl⟩ |
      ⟨rfl, hm, rfl⟩ | ⟨fs1, rfl, hm, rfl⟩
  · rcases onRecv_cases S v d with ⟨_, h⟩ | ⟨hf, h⟩ | ⟨f, hf, h⟩ | ⟨s, hf, h⟩ <;> rw [h]
    · exact ⟨by simp, h2, h3⟩
    · exact ⟨h1, h2, h3⟩
    · exact ⟨h1, h2, h3⟩
    · exact ⟨h1, h2, h3⟩
  · exact ⟨h1, h2, h3⟩
  · exact absurd hm h1
  · exact absurd hm h1
  · exact absurd hm h1
  · exact absurd hm h1
  · exact ⟨by simp, h2, h3⟩
  · exact ⟨h1, h2, h3⟩

/-- The tables of `patched`. -/
def patchedSetup : Setup := ⟨patched, fun _ => "peer", 1500, [slash, 0x64#8]⟩

/-- A request for the file "f". -/
def someRequest : List Byte := [0x21, 0x0F, 0, 0x01, 0, 0, 0, 5, 0x66, 0]

example : ∃ w r w', (World.init tranFS).run patchedSetup [.recv ⟨.v4, ⟨0, 0⟩, someRequest, someone⟩] = some w ∧
    w.listener .v4 = .sendRx (.request r) someone ∧ w.step patchedSetup (.takeRx .v4 ⟨5, 0⟩) = some w' :=
  ⟨_, _, _, rfl, rfl, rfl⟩

/-- **C41** fails: an execution in which the process has not ended, the main loop stands at its reply
queue, a beacon is waiting, and in no continuation does the main loop ever handle a further packet. -/
theorem C41_counterexample : ∃ (acts : List Action) (w : World) (r : Reply) (b : Beacon) (a : UDPAddr),
    (World.init tranFS).run patchedSetup acts = some w ∧ w.main = .sending r ∧
    w.listener .v4 = .sendRx (.beacon b) a ∧
    ∀ more w', w.run patchedSetup more = some w' → w'.main ≠ .select ∧ w'.handled = w.handled := by
  obtain ⟨w0, h0, hl⟩ : ∃ w0, (World.init tranFS).run patchedSetup
      [.recv ⟨.v4, ⟨0, 0⟩, someRequest, someone⟩] = some w0 ∧
      w0.listener .v4 = .sendRx (.request ⟨0x210F0001#32, 5, [0x66#8], []⟩) someone :=
    ⟨_, rfl, by decide +kernel⟩
  obtain ⟨w1, h1, hm1⟩ : ∃ w1, (World.init tranFS).run patchedSetup
      [.recv ⟨.v4, ⟨0, 0⟩, someRequest, someone⟩, .takeRx .v4 ⟨1000000000, 0⟩] = some w1 ∧
      w1.main = .sending ⟨.v4, ⟨0x24000000#32, 0, Timestamp.zero, 0, 0, []⟩, someone⟩ :=
    ⟨_, rfl, by decide +kernel⟩
  obtain ⟨w2, h2, hm2, hl2⟩ : ∃ w2, (World.init tranFS).run patchedSetup
      ([.recv ⟨.v4, ⟨0, 0⟩, someRequest, someone⟩, .takeRx .v4 ⟨1000000000, 0⟩] ++
       [.recv ⟨.v4, ⟨0, 0⟩, [0x20, 0, 0, 0, 104, 105, 33, 33], someone⟩]) = some w2 ∧
      w2.main = .sending ⟨.v4, ⟨0x24000000#32, 0, Timestamp.zero, 0, 0, []⟩, someone⟩ ∧
      w2.listener .v4 = .sendRx (.beacon ⟨0x20000000#32, 0, [104, 105, 33, 33]⟩) someone :=
    ⟨_, rfl, by decide +kernel, by decide +kernel⟩
  have hstep : w0.step patchedSetup (.takeRx .v4 ⟨1000000000, 0⟩) = some w1 := by
    have : (World.init tranFS).run patchedSetup
      ([.recv ⟨.v4, ⟨0, 0⟩, someRequest, someone⟩] ++ [.takeRx .v4 ⟨1000000000, 0⟩]) = some w1 := h1
    rw [run_append, h0] at this
    cases hx : w0.step patchedSetup (.takeRx .v4 ⟨1000000000, 0⟩) with
    | none => simp [World.run, hx] at this
    | some v => simp [World.run, hx] at this; rw [this]
  have key := C41_every_request patchedSetup patched_tables w0 w1 .v4 _ _ _ hl hstep
  have h12 : w1.run patchedSetup [.recv ⟨.v4, ⟨0, 0⟩, [0x20, 0, 0, 0, 104, 105, 33, 33], someone⟩] = some w2 := by
    rw [run_append, h1] at h2
    exact h2
  refine ⟨_, w2, _, _, _, h2, hm2, hl2, ?_⟩
  intro more w' hr
  have ha := key _ w' (by rw [run_append, h12]; exact hr)
  have hb := key _ w2 h12
  exact ⟨ha.1, by rw [ha.2.1, hb.2.1]⟩

/-- The files as the last step that changes them from outside left them. -/
def filesLeft (fs : FS) : List Action → FS
  | [] => fs
  | .files g :: rest => filesLeft g rest
  | _ :: rest => filesLeft fs rest

theorem filesLeft_snoc (fs : FS) (as : List Action) (a : Action) :
    filesLeft fs (as ++ [a]) = filesLeft (filesLeft fs as) [a] := by
  induction as generalizing fs with
  | nil => rfl
  | cons x xs ih => cases x <;> exact ih _

/-- **C41** what holds: as long as no request has been handled the main loop does not block on its own
queue, the transfer table is as at the start, and the files are as at the start or as somebody else left them. -/
theorem C41_without_requests_partial (S : Setup) (fs : FS) (acts : List Action) (w : World)
    (h : (World.init fs).run S acts = some w) (noreq : ¬ AskedFor w) :
    (w.main = .select ∨ w.main = .ended) ∧ w.fs = filesLeft fs acts ∧ w.transfers = [] := by
  revert noreq
  refine run_induction_log (P := fun as w => ¬ AskedFor w →
    (w.main = .select ∨ w.main = .ended) ∧ w.fs = filesLeft fs as ∧ w.transfers = []) ?_ acts (pre := []) ?_ h
  rotate_left
  · intro _; exact ⟨Or.inl rfl, rfl, rfl⟩
  · intro as w a w' ih hs noreq
    rw [filesLeft_snoc]
    rcases step_cases hs with ⟨d, rfl, _, hl, rfl⟩ | ⟨g, rfl, _, hl, rfl⟩ | ⟨g, clock, f, addr, rfl, hm, hl, rfl⟩ |
      ⟨g, s, addr, rfl, hm, hl, rfl⟩ | ⟨g, rfl, hm, hl, rfl⟩ | ⟨rfl, hm, rfl⟩ |
      ⟨rfl, hm, rfl⟩ | ⟨fs1, rfl, hm, rfl⟩
    · have noreq' : ¬ AskedFor w := by
        intro hx; apply noreq
        rcases onRecv_cases S w d with ⟨_, h⟩ | ⟨hf, h⟩ | ⟨f, hf, h⟩ | ⟨s, hf, h⟩ <;> (rw [h]; exact hx)
      obtain ⟨i1, i2, i3⟩ := ih noreq'
      rcases onRecv_cases S w d with ⟨_, h⟩ | ⟨hf, h⟩ | ⟨f, hf, h⟩ | ⟨s, hf, h⟩ <;> rw [h]
      · exact ⟨Or.inr rfl, i2, i3⟩
      · exact ⟨i1, i2, i3⟩
      · exact ⟨i1, i2, i3⟩
      · exact ⟨i1, i2, i3⟩
    · exact ih noreq
    · have hh := (onRx_logs S w g clock f addr).2.2.1
      have noreq' : ¬ AskedFor w := by
        rintro ⟨x, hx, r, hr⟩
        exact noreq ⟨x, by rw [hh]; exact List.mem_append_left _ hx, r, hr⟩
      obtain ⟨i1, i2, i3⟩ := ih noreq'
      cases f with
      | request r => exact absurd ⟨⟨g, .request r, addr, clock⟩, by rw [hh]; simp, r, rfl⟩ noreq
      | beacon b =>
        unfold World.onRx World.orEnd; simp only
        split
        · exact ⟨Or.inl hm, i2, i3⟩
        · exact ⟨Or.inr rfl, i2, i3⟩
        · exact ⟨Or.inr rfl, i2, i3⟩
      | data b =>
        unfold World.onRx World.orEnd; simp only
        split
        · exact ⟨Or.inl hm, i2, i3⟩
        · exact ⟨Or.inr rfl, i2, i3⟩
        · exact ⟨Or.inr rfl, i2, i3⟩
      | metadata b =>
        unfold World.onRx World.orEnd; simp only
        split
        · exact ⟨Or.inl hm, i2, i3⟩
        · exact ⟨Or.inr rfl, i2, i3⟩
        · exact ⟨Or.inr rfl, i2, i3⟩
      | status b =>
        unfold World.onRx World.orEnd; simp only
        split
        · exact ⟨Or.inl hm, i2, i3⟩
        · exact ⟨Or.inr rfl, i2, i3⟩
        · exact ⟨Or.inr rfl, i2, i3⟩
    · obtain ⟨_, _, h3, _, _, _, h7, h8⟩ := onTx_logs S w g s addr
      have noreq' : ¬ AskedFor w := by
        intro hx; apply noreq; unfold AskedFor; rw [h3]; exact hx
      obtain ⟨i1, i2, i3⟩ := ih noreq'
      refine ⟨?_, by rw [h8, i2]; rfl, by rw [h7, i3]⟩
      unfold World.onTx World.orEnd; simp only
      split
      · exact Or.inl hm
      · exact Or.inr rfl
      · exact Or.inr rfl
    · obtain ⟨i1, i2, i3⟩ := ih noreq
      exact ⟨Or.inr rfl, i2, i3⟩
    · obtain ⟨i1, i2, i3⟩ := ih noreq
      exact ⟨Or.inr rfl, i2, i3⟩
    · obtain ⟨i1, i2, i3⟩ := ih noreq
      exact ⟨Or.inr rfl, i2, i3⟩
    · obtain ⟨i1, i2, i3⟩ := ih noreq
      exact ⟨i1, rfl, i3⟩

example : ∃ w, (World.init tranFS).run patchedSetup [.recv ⟨.v4, ⟨0, 0⟩, [0x20, 0, 0, 0, 104, 105, 33, 33], someone⟩] = some w ∧
    ¬ AskedFor w := ⟨_, rfl, fun ⟨_, h, _⟩ => by cases h⟩

/-- **C41** And then it is never stuck: a main loop at its `select` takes whatever a listener holds out. -/
theorem C41_takes_partial (S : Setup) (w : World) (fam : Fam) (clock : GoTime) (f : Frame) (a : UDPAddr)
    (ready : w.main = .select) (offered : w.listener fam = .sendRx f a) :
    ∃ w', w.step S (.takeRx fam clock) = some w' ∧ w'.listener fam = .reading := by
  refine ⟨w.onRx S fam clock f a, ?_, ?_⟩
  · simp only [World.step, ready, offered]
  · rw [(onRx_logs S w fam clock f a).1, setListener_self]

example : ∃ w f, (World.init tranFS).run patchedSetup [.recv ⟨.v4, ⟨0, 0⟩, someRequest, someone⟩] = some w ∧
    w.main = .select ∧ w.listener .v4 = .sendRx f someone := ⟨_, _, rfl, rfl, rfl⟩

end Saratoga
