import Verif.Spec.MainLoop
import Verif.Props.Listen
import Verif.Props.Peers
import Verif.Props.Trans
namespace Saratoga

theorem run_append (S : Setup) (w : World) (as bs : List Action) :
    w.run S (as ++ bs) = (w.run S as).bind fun w => w.run S bs := by
  induction as generalizing w with
  | nil => rfl
  | cons a as ih =>
    show (w.step S a).bind (fun w => w.run S (as ++ bs)) = ((w.step S a).bind fun w => w.run S as).bind _
    cases w.step S a with
    | none => rfl
    | some w1 => exact ih w1

/-- Induction over executions. -/
theorem run_induction {S : Setup} {P : World → Prop} (step : ∀ w a w', P w → w.step S a = some w' → P w') :
    ∀ (acts : List Action) {w w' : World}, P w → w.run S acts = some w' → P w'
  | [], w, w', h, hr => by cases hr; exact h
  | a :: as, w, w', h, hr => by
    unfold World.run at hr
    cases h1 : w.step S a with
    | none => rw [h1] at hr; cases hr
    | some w1 =>
      rw [h1] at hr
      exact run_induction step as (step _ _ _ h h1) hr

/-- Induction over executions that also looks at the steps taken. -/
theorem run_induction_log {S : Setup} {P : List Action → World → Prop}
    (step : ∀ as w a w', P as w → w.step S a = some w' → P (as ++ [a]) w') :
    ∀ (acts : List Action) {pre : List Action} {w w' : World}, P pre w → w.run S acts = some w' → P (pre ++ acts) w'
  | [], pre, w, w', h, hr => by cases hr; rw [List.append_nil]; exact h
  | a :: as, pre, w, w', h, hr => by
    unfold World.run at hr
    cases h1 : w.step S a with
    | none => rw [h1] at hr; cases hr
    | some w1 =>
      rw [h1] at hr
      have := run_induction_log step as (step _ _ _ _ h h1) hr
      rwa [List.append_assoc] at this

theorem reachable_induction {S : Setup} {fs : FS} {P : World → Prop} (init : P (World.init fs))
    (step : ∀ w a w', P w → w.step S a = some w' → P w') {w : World} (h : Reachable S fs w) : P w := by
  obtain ⟨acts, h⟩ := h
  exact run_induction step acts init h

theorem Reachable.step {S : Setup} {fs : FS} {w w' : World} {a : Action} (h : Reachable S fs w)
    (hs : w.step S a = some w') : Reachable S fs w' := by
  obtain ⟨acts, h⟩ := h
  refine ⟨acts ++ [a], ?_⟩
  rw [run_append, h]
  show (w.step S a).bind _ = _
  rw [hs]; rfl

/-- What `onRx` does to listeners and logs. -/
theorem onRx_logs (S : Setup) (w : World) (fam : Fam) (clock : GoTime) (f : Frame) (a : UDPAddr) :
    (w.onRx S fam clock f a).listener = (w.setListener fam .reading).listener ∧
    (w.onRx S fam clock f a).read = w.read ∧
    (w.onRx S fam clock f a).handled = w.handled ++ [⟨fam, f, a, clock⟩] ∧
    (w.onRx S fam clock f a).taken = w.taken ∧
    (w.onRx S fam clock f a).wire = w.wire := by
  unfold World.onRx World.orEnd
  cases f with
  | beacon b => simp only; split <;> exact ⟨rfl, rfl, rfl, rfl, rfl⟩
  | data b => simp only; split <;> exact ⟨rfl, rfl, rfl, rfl, rfl⟩
  | metadata b => simp only; split <;> exact ⟨rfl, rfl, rfl, rfl, rfl⟩
  | status b => simp only; split <;> exact ⟨rfl, rfl, rfl, rfl, rfl⟩
  | request b =>
    simp only
    split
    · split <;> exact ⟨rfl, rfl, rfl, rfl, rfl⟩
    · exact ⟨rfl, rfl, rfl, rfl, rfl⟩
    · exact ⟨rfl, rfl, rfl, rfl, rfl⟩

theorem onTx_logs (S : Setup) (w : World) (fam : Fam) (s : Status) (a : UDPAddr) :
    (w.onTx S fam s a).listener = (w.setListener fam .reading).listener ∧
    (w.onTx S fam s a).read = w.read ∧
    (w.onTx S fam s a).handled = w.handled ∧
    (w.onTx S fam s a).taken = w.taken ++ [⟨fam, s, a⟩] ∧
    (w.onTx S fam s a).wire = w.wire ∧
    (w.onTx S fam s a).peers = w.peers ∧
    (w.onTx S fam s a).transfers = w.transfers ∧
    (w.onTx S fam s a).fs = w.fs := by
  unfold World.onTx World.orEnd
  simp only
  split <;> exact ⟨rfl, rfl, rfl, rfl, rfl, rfl, rfl, rfl⟩

/-- The steps, one by one. -/
theorem step_cases {S : Setup} {w w' : World} {a : Action} (h : w.step S a = some w') :
    (∃ d, a = .recv d ∧ w.main ≠ .ended ∧ w.listener d.fam = .reading ∧ w' = w.onRecv S d) ∨
    (∃ fam, a = .readError fam ∧ w.main ≠ .ended ∧ w.listener fam = .reading ∧
      w' = w.setListener fam .sendQuit) ∨
    (∃ fam clock f addr, a = .takeRx fam clock ∧ w.main = .select ∧ w.listener fam = .sendRx f addr ∧
      w' = w.onRx S fam clock f addr) ∨
    (∃ fam s addr, a = .takeTx fam ∧ w.main = .select ∧ w.listener fam = .sendTx s addr ∧
      w' = w.onTx S fam s addr) ∨
    (∃ fam, a = .takeQuit fam ∧ w.main = .select ∧ w.listener fam = .sendQuit ∧
      w' = { w.setListener fam .gone with main := .ended }) ∨
    (a = .userQuit ∧ w.main = .select ∧ w' = { w with main := .ended }) ∨
    (a = .kill ∧ w.main ≠ .ended ∧ w' = { w with main := .ended }) ∨
    (∃ fs, a = .files fs ∧ w.main ≠ .ended ∧ w' = { w with fs := fs }) := by
  cases a with
  | recv d =>
    simp only [World.step] at h
    split at h
    · rename_i hc; cases h; exact Or.inl ⟨d, rfl, hc.1, hc.2, rfl⟩
    · cases h
  | readError fam =>
    simp only [World.step] at h
    split at h
    · rename_i hc; cases h; exact Or.inr (Or.inl ⟨fam, rfl, hc.1, hc.2, rfl⟩)
    · cases h
  | takeRx fam clock =>
    simp only [World.step] at h
    split at h
    · rename_i f addr hm hl; cases h; exact Or.inr (Or.inr (Or.inl ⟨fam, clock, f, addr, rfl, hm, hl, rfl⟩))
    · cases h
  | takeTx fam =>
    simp only [World.step] at h
    split at h
    · rename_i f addr hm hl; cases h; exact Or.inr (Or.inr (Or.inr (Or.inl ⟨fam, f, addr, rfl, hm, hl, rfl⟩)))
    · cases h
  | takeQuit fam =>
    simp only [World.step] at h
    split at h
    · rename_i hm hl; cases h; exact Or.inr (Or.inr (Or.inr (Or.inr (Or.inl ⟨fam, rfl, hm, hl, rfl⟩))))
    · cases h
  | userQuit =>
    simp only [World.step] at h
    split at h
    · rename_i hm; cases h; exact Or.inr (Or.inr (Or.inr (Or.inr (Or.inr (Or.inl ⟨rfl, hm, rfl⟩)))))
    · cases h
  | kill =>
    simp only [World.step] at h
    split at h
    · rename_i hm; cases h; exact Or.inr (Or.inr (Or.inr (Or.inr (Or.inr (Or.inr (Or.inl ⟨rfl, hm, rfl⟩))))))
    · cases h
  | files fs =>
    simp only [World.step] at h
    split at h
    · rename_i hm; cases h; exact Or.inr (Or.inr (Or.inr (Or.inr (Or.inr (Or.inr (Or.inr ⟨fs, rfl, hm, rfl⟩))))))
    · cases h

/-- What reading a datagram does. -/
theorem onRecv_cases (S : Setup) (w : World) (d : Datagram) :
    (¬ (listenFrame S.T d.clock S.mtu d.bytes).returns ∧ w.onRecv S d = { w with main := .ended }) ∨
    (listenFrame S.T d.clock S.mtu d.bytes = .ret .drop ∧ w.onRecv S d = { w with read := w.read ++ [d] }) ∨
    (∃ f, listenFrame S.T d.clock S.mtu d.bytes = .ret (.rx f) ∧
      w.onRecv S d = { w.setListener d.fam (.sendRx f d.source) with read := w.read ++ [d] }) ∨
    (∃ s, listenFrame S.T d.clock S.mtu d.bytes = .ret (.tx s) ∧
      w.onRecv S d = { w.setListener d.fam (.sendTx s d.source) with read := w.read ++ [d] }) := by
  unfold World.onRecv World.orEnd
  cases h : listenFrame S.T d.clock S.mtu d.bytes with
  | fatal => exact Or.inl ⟨fun h => h, rfl⟩
  | panic => exact Or.inl ⟨fun h => h, rfl⟩
  | ret act =>
    cases act with
    | drop => exact Or.inr (Or.inl ⟨rfl, rfl⟩)
    | rx f => exact Or.inr (Or.inr (Or.inl ⟨f, rfl, rfl⟩))
    | tx s => exact Or.inr (Or.inr (Or.inr ⟨s, rfl, rfl⟩))

theorem setListener_self (w : World) (fam : Fam) (st : LState) : (w.setListener fam st).listener fam = st := by
  simp [World.setListener]

theorem setListener_other (w : World) {fam g : Fam} (st : LState) (h : g ≠ fam) :
    (w.setListener fam st).listener g = w.listener g := by
  simp [World.setListener, h]

end Saratoga
