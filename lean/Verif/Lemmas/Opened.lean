import Verif.Spec.Opened
import Verif.Lemmas.Transfers
/-! # Lemmas for C156 -/
namespace Saratoga

theorem openAfter_append (a b : List IoAct) (l : List Resource) :
    openAfter l (a ++ b) = openAfter (openAfter l a) b := by
  induction a generalizing l with
  | nil => rfl
  | cons x xs ih => cases x <;> exact ih _

theorem closesOpen_append (a b : List IoAct) (l : List Resource) :
    ClosesOpen l (a ++ b) ↔ ClosesOpen l a ∧ ClosesOpen (openAfter l a) b := by
  induction a generalizing l with
  | nil => simp [ClosesOpen, openAfter]
  | cons x xs ih =>
    cases x with
    | opens r => exact ih _
    | closes r => simp only [List.cons_append, ClosesOpen, openAfter, ih, and_assoc]

/-- What a new initiator holds is what was opened for it. -/
theorem addInitiator_holds {env : TranEnv} {c : Cliflags} {w w' : TranWorld} {ttype : String} {peer : UDPAddr}
    {fname : List Byte} {t : Transfer} (h : addInitiator env c w ttype peer fname = .ret (w', t)) :
    addInitiatorIo env w.fs ttype peer fname = t.holds.map .opens := by
  unfold addInitiator at h
  unfold addInitiatorIo
  generalize fileOpen env.sardir w.fs fname ttype = q at h ⊢
  obtain ⟨fm, _, h⟩ := Out.bind_eq_ret h
  cases hc : c.copy with
  | error e => rw [hc] at h; cases h
  | ok fl =>
    rw [hc] at h
    simp only [Out.ret.injEq, Prod.mk.injEq] at h
    obtain ⟨rfl, rfl⟩ := h
    unfold Transfer.holds
    obtain ⟨fs', e | _ | h⟩ := q <;> cases env.dial peer <;> rfl

theorem openAfter_opens (rs l : List Resource) : openAfter l (rs.map .opens) = rs.reverse ++ l := by
  induction rs generalizing l with
  | nil => rfl
  | cons r rs ih => simp [openAfter, ih]

theorem closesOpen_opens (rs l : List Resource) : ClosesOpen l (rs.map .opens) := by
  induction rs generalizing l with
  | nil => trivial
  | cons r rs ih => exact ih _

/-- The acts of `NewResponder` do not change what it does. -/
theorem newResponderIo_same (T : Tables) (env : TranEnv) (c : Cliflags) (ts : List Transfer) (r : Request)
    (peer : String) :
    (newResponderIo T env c ts r peer >>= fun x => .ret (x.1, x.2.1)) = newResponder T env c ts r peer := by
  unfold newResponderIo newResponder
  have bind_assoc : ∀ {α β γ : Type} (m : Out α) (f : α → Out β) (g : β → Out γ),
      ((m >>= f) >>= g) = (m >>= fun x => f x >>= g) := by
    intro α β γ m f g; cases m <;> rfl
  split
  · rfl
  · cases env.resolve peer with
    | error e => rfl
    | ok udpaddr =>
      dsimp only
      cases env.dial udpaddr with
      | error e => rfl
      | ok tc =>
        simp only [bind_assoc]
        congr 1; funext _
        congr 1; funext _
        congr 1; funext _
        congr 1; funext _
        congr 1; funext _
        congr 1; funext _
        congr 1; funext fl
        rcases fl with e | ⟨flags, fm⟩
        · rfl
        · simp only [bind_assoc]
          congr 1; funext de
          obtain ⟨d, _ | e⟩ := de
          · cases c.copy <;> rfl
          · rfl

/-- How a `NewResponder` that returns has left its connection. -/
theorem newResponderIo_ret {T : Tables} {env : TranEnv} {c : Cliflags} {ts ts' : List Transfer} {r : Request}
    {peer : String} {e : Option Err} {io : List IoAct}
    (h : newResponderIo T env c ts r peer = .ret (ts', e, io)) :
    (∃ x, e = some x ∧ ts' = ts ∧ (io = [] ∨ ∃ tc, io = [.opens (.conn tc), .closes (.conn tc)])) ∨
    (e = none ∧ ∃ t, ts' = ts ++ [t] ∧ io = t.holds.map .opens) := by
  have triv : ∀ {x : Err}, (Out.ret (ts, some x, []) : Out (List Transfer × Option Err × List IoAct)) =
      .ret (ts', e, io) → (∃ x, e = some x ∧ ts' = ts ∧ (io = [] ∨ ∃ tc, io = [.opens (.conn tc), .closes (.conn tc)])) := by
    intro x h; cases h; exact ⟨x, rfl, rfl, .inl rfl⟩
  have shut : ∀ {x : Err} {tc : String}, (Out.ret (ts, some x, [.opens (.conn tc), .closes (.conn tc)]) :
      Out (List Transfer × Option Err × List IoAct)) = .ret (ts', e, io) →
      (∃ x, e = some x ∧ ts' = ts ∧ (io = [] ∨ ∃ tc, io = [.opens (.conn tc), .closes (.conn tc)])) := by
    intro x tc h; cases h; exact ⟨x, rfl, rfl, .inr ⟨tc, rfl⟩⟩
  unfold newResponderIo at h
  split at h
  · exact .inl (triv h)
  · split at h
    · exact .inl (triv h)
    · split at h
      · exact .inl (triv h)
      · obtain ⟨_, _, h⟩ := Out.bind_eq_ret h
        obtain ⟨_, _, h⟩ := Out.bind_eq_ret h
        obtain ⟨_, _, h⟩ := Out.bind_eq_ret h
        obtain ⟨_, _, h⟩ := Out.bind_eq_ret h
        obtain ⟨_, _, h⟩ := Out.bind_eq_ret h
        obtain ⟨_, _, h⟩ := Out.bind_eq_ret h
        obtain ⟨fl, hfl, h⟩ := Out.bind_eq_ret h
        split at h
        · exact .inl (shut h)
        · obtain ⟨⟨d, e1⟩, hd, h⟩ := Out.bind_eq_ret h
          cases e1 with
          | some x => exact .inl (shut h)
          | none =>
            cases hcc : c.copy with
            | error _ => simp only [hcc] at h; exact .inl (shut h)
            | ok cf =>
              simp only [hcc, Out.ret.injEq, Prod.mk.injEq] at h
              obtain ⟨rfl, rfl, rfl⟩ := h
              exact .inr ⟨rfl, _, rfl, rfl⟩

/-- One use of the table: what it adds to what is open, and that the table holds no more than is open. -/
theorem stepIo_open {T : Tables} {env : TranEnv} {w w' : TranWorld} {op : TranOp} {io : List IoAct}
    (h : w.stepIo T env op = .ret (w', io)) (l : List Resource) :
    ClosesOpen l io ∧
    ((openAfter l io = l ∧ w'.transfers.Sublist w.transfers) ∨
      ∃ t, w'.transfers = w.transfers ++ [t] ∧ openAfter l io = t.holds.reverse ++ l) := by
  cases op with
  | initiate c ttype peer fname =>
    obtain ⟨⟨w1, r⟩, h1, h⟩ := Out.bind_eq_ret h
    simp only [Out.ret.injEq, Prod.mk.injEq] at h
    obtain ⟨rfl, rfl⟩ := h
    rcases newInitiator_ret h1 with ⟨hs, _, _, e, he⟩ | ⟨hs, t, ht, ha⟩
    · have : newInitiatorIo env w ttype peer fname = [] := by
        unfold newInitiatorIo
        cases hsc : scanTransfers env w.fs ttype peer fname w.transfers with
        | clear =>
          unfold newInitiator at h1
          rw [hsc] at h1
          obtain ⟨⟨w2, t⟩, h2, h1⟩ := Out.bind_eq_ret h1
          simp only [Out.ret.injEq, Prod.mk.injEq] at h1
          rw [← h1.2] at he
          cases he
        | noConnection i => rfl
        | fileExists => rfl
        | inProgress => rfl
      rw [this]
      exact ⟨trivial, .inl ⟨rfl, hs⟩⟩
    · have : newInitiatorIo env w ttype peer fname = t.holds.map .opens := by
        unfold newInitiatorIo
        rw [hs]
        exact addInitiator_holds ha
      rw [this]
      exact ⟨closesOpen_opens _ _, .inr ⟨t, (addInitiator_ret ha).1, openAfter_opens _ _⟩⟩
  | respond c r peer =>
    obtain ⟨⟨ts, e, io1⟩, h1, h⟩ := Out.bind_eq_ret h
    simp only [Out.ret.injEq, Prod.mk.injEq] at h
    obtain ⟨rfl, rfl⟩ := h
    rcases newResponderIo_ret h1 with ⟨x, _, hts, hio⟩ | ⟨_, t, hts, hio⟩
    · subst hts
      refine ⟨?_, .inl ⟨?_, List.Sublist.refl _⟩⟩
      · rcases hio with rfl | ⟨tc, rfl⟩
        · trivial
        · simp [ClosesOpen]
      · rcases hio with rfl | ⟨tc, rfl⟩
        · rfl
        · simp [openAfter]
    · subst hts; subst hio
      exact ⟨closesOpen_opens _ _, .inr ⟨t, rfl, openAfter_opens _ _⟩⟩
  | remove t =>
    simp only [TranWorld.stepIo, Out.ret.injEq, Prod.mk.injEq] at h
    obtain ⟨rfl, rfl⟩ := h
    exact ⟨trivial, .inl ⟨rfl, remove_sublist _ _ _⟩⟩
  | rmtran args =>
    obtain ⟨⟨ts, u⟩, h1, h⟩ := Out.bind_eq_ret h
    simp only [Out.ret.injEq, Prod.mk.injEq] at h
    obtain ⟨rfl, rfl⟩ := h
    exact ⟨trivial, .inl ⟨rfl, rmtran_sublist h1⟩⟩

/-- A history with its acts is that history. -/
theorem stepIo_same {T : Tables} {env : TranEnv} {w : TranWorld} {op : TranOp} :
    (w.stepIo T env op >>= fun x => .ret x.1) = w.step T env op := by
  cases op with
  | initiate c ttype peer fname =>
    simp only [TranWorld.stepIo, TranWorld.step]
    cases newInitiator env c w ttype peer fname <;> rfl
  | respond c r peer =>
    simp only [TranWorld.stepIo, TranWorld.step, ← newResponderIo_same]
    cases newResponderIo T env c w.transfers r peer <;> rfl
  | remove t => rfl
  | rmtran args =>
    simp only [TranWorld.stepIo, TranWorld.step]
    cases cmdRmtran env.str w.transfers args <;> rfl

theorem runIo_same (T : Tables) (w : TranWorld) (ops : List (TranEnv × TranOp)) :
    (w.runIo T ops >>= fun x => .ret x.1) = w.run T ops := by
  induction ops generalizing w with
  | nil => rfl
  | cons e es ih =>
    obtain ⟨env, op⟩ := e
    have := stepIo_same (T := T) (env := env) (w := w) (op := op)
    simp only [TranWorld.runIo, TranWorld.run]
    rw [← this]
    cases h : w.stepIo T env op with
    | fatal => rfl
    | panic => rfl
    | ret x =>
      obtain ⟨w1, io⟩ := x
      have h2 := ih w1
      show _ = w1.run T es
      rw [← h2]
      show ((do let (w, more) ← w1.runIo T es; Out.ret (w, io ++ more)) >>= fun x => Out.ret x.1) = _
      cases w1.runIo T es <;> rfl

end Saratoga
