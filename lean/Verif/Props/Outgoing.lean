import Verif.Spec.Outgoing
import Verif.Props.Network
/-!
# C170: what a program sends is decided by its user

Two executions of any two networks in which the same lines are entered at a machine put the same packets of this machine
on the wire, whatever arrives there in either.
-/
namespace Saratoga

/-! ## Helper lemmas -/

/-- A program with these settings and this state of the beacon command. -/
def userOnly (s : Cliflags × BeaconState) : Program := { Program.init ⟨[], [], fun _ _ => false⟩ s.1 with beacon := s.2 }

/-- The settings and the state of the beacon command after a line. -/
def userStep (M : Machine) (s : Cliflags × BeaconState) (l : String × Replies) : Cliflags × BeaconState :=
  let p := (userOnly s).enter M l.2 l.1
  (p.settings, p.beacon)

/-- What the lines put on the wire. -/
def userSends (M : Machine) : Cliflags × BeaconState → List (String × Replies) → List (UDPAddr × List Byte)
  | _, [] => []
  | s, l :: ls => (userOnly s).emits M l.2 l.1 ++ userSends M (userStep M s l) ls

theorem end_user (p : Program) : p.end_.settings = p.settings ∧ p.end_.beacon = p.beacon := ⟨rfl, rfl⟩

/-- What a line does to the settings and the beacon command does not depend on the rest. -/
theorem enter_user (M : Machine) (o : Replies) (line : String) (p q : Program) (hs : p.settings = q.settings)
    (hb : p.beacon = q.beacon) :
    (p.enter M o line).settings = (q.enter M o line).settings ∧ (p.enter M o line).beacon = (q.enter M o line).beacon := by
  unfold Program.enter
  cases hg : getLine (M.H.map Prod.fst) cmdHandlers line with
  | fatal => exact ⟨hs, hb⟩
  | panic => exact ⟨hs, hb⟩
  | ret r =>
    cases r with
    | started cmd args =>
      dsimp only
      unfold Program.command
      cases h1 : assoc cmd settingHandlers with
      | some h => dsimp only; exact ⟨by rw [hs], hb⟩
      | none =>
        dsimp only
        cases h2 : assoc cmd tranCommands with
        | some h =>
          dsimp only
          have key : ∀ (p : Program) (x : Out (TranWorld × List CmdReply × Next)),
              (match (x.bind fun y => .ret (p.withTran y.1) : Out Program) with
                | .ret p' => p' | .fatal => p.end_ | .panic => p.end_).settings = p.settings ∧
              (match (x.bind fun y => .ret (p.withTran y.1) : Out Program) with
                | .ret p' => p' | .fatal => p.end_ | .panic => p.end_).beacon = p.beacon := by
            intro p x
            cases x <;> exact ⟨rfl, rfl⟩
          have kp := key p (h ⟨M.H, M.tranEnv o, p.settings⟩ p.tranWorld args)
          have kq := key q (h ⟨M.H, M.tranEnv o, q.settings⟩ q.tranWorld args)
          exact ⟨kp.1.trans (hs.trans kq.1.symm), kp.2.trans (hb.trans kq.2.symm)⟩
        | none =>
          dsimp only
          by_cases c1 : cmd = "rmtran"
          · rw [if_pos c1, if_pos c1]
            cases cmdRmtran M.str p.table args <;> cases cmdRmtran M.str q.table args <;> exact ⟨hs, hb⟩
          · rw [if_neg c1, if_neg c1]
            by_cases c2 : cmd = "beacon"
            · rw [if_pos c2, if_pos c2, hs, hb]
              cases cmdBeacon (M.beaconEnv o) q.settings q.beacon args <;> first | exact ⟨hs, hb⟩ | exact ⟨rfl, rfl⟩
            · rw [if_neg c2, if_neg c2]
              by_cases c3 : cmd = "exit" ∨ cmd = "quit"
              · rw [if_pos c3, if_pos c3]; exact ⟨hs, hb⟩
              · rw [if_neg c3, if_neg c3]; exact ⟨hs, hb⟩
    | _ => exact ⟨hs, hb⟩

/-- What a line puts on the wire does not depend on the rest. -/
theorem emits_user (M : Machine) (o : Replies) (line : String) (p q : Program) (hs : p.settings = q.settings)
    (hb : p.beacon = q.beacon) : p.emits M o line = q.emits M o line := by
  unfold Program.emits
  rw [hs, hb]

theorem net_step_user {M : Machine} {p q : Program} {a : Action} (h : p.step M (.net a) = some q) :
    q.settings = p.settings ∧ q.beacon = p.beacon := by
  cases a with
  | kill => cases h
  | _ =>
    obtain ⟨w, -, rfl⟩ := Option.map_eq_some_iff.1 h
    exact ⟨rfl, rfl⟩

variable {N : Type} [DecidableEq N]

theorem sent_filter (P : Plant N) (w : Network N) (m n : N) (line : String) (o : Replies) (source : UDPAddr → UDPAddr) :
    ((w.sent P m line o source).filter fun d => d.sender = n).map (fun d => (d.dest, d.bytes)) =
      if m = n then (w.node m).emits (P.machine m) o line else [] := by
  unfold Network.sent
  generalize (w.node m).emits (P.machine m) o line = l
  by_cases h : m = n
  · subst h
    rw [if_pos rfl]
    induction l with
    | nil => rfl
    | cons x l ih => rw [List.map_cons, List.filter_cons_of_pos (by simp), List.map_cons, ih]
  · rw [if_neg h]
    induction l with
    | nil => rfl
    | cons x l ih => rw [List.map_cons, List.filter_cons_of_neg (by simpa using h), ih]

/-- The packets of a machine, told from the lines entered at it. -/
theorem packets_from {P : Plant N} (n : N) (es : List (NetEvent N)) : ∀ {w w' : Network N}, w.run P es = some w' →
    packetsFrom n w' = packetsFrom n w ++
      userSends (P.machine n) ((w.node n).settings, (w.node n).beacon) (linesAt n es) := by
  induction es with
  | nil =>
    intro w w' h
    cases h
    simp [linesAt, userSends]
  | cons e es ih =>
    intro w w' h
    obtain ⟨w1, hs, hr⟩ := Option.bind_eq_some_iff.1 h
    rw [ih hr]
    -- a step without a line at this machine
    have quiet : w1.air = w.air → ((w1.node n).settings = (w.node n).settings ∧ (w1.node n).beacon = (w.node n).beacon) →
        linesAt n (e :: es) = linesAt n es →
        packetsFrom n w1 ++ userSends (P.machine n) ((w1.node n).settings, (w1.node n).beacon) (linesAt n es) =
        packetsFrom n w ++ userSends (P.machine n) ((w.node n).settings, (w.node n).beacon) (linesAt n (e :: es)) := by
      rintro ha ⟨h1, h2⟩ hl
      rw [hl, h1, h2, packetsFrom, packetsFrom, ha]
    have other : ∀ (m : N) (a : Action) (p : Program), (w.node m).step (P.machine m) (.net a) = some p →
        ((w.set m p).node n).settings = (w.node n).settings ∧ ((w.set m p).node n).beacon = (w.node n).beacon := by
      intro m a p hp
      by_cases hm : n = m
      · subst hm
        rw [set_self]
        exact net_step_user hp
      · rw [set_other _ _ hm]
        exact ⟨rfl, rfl⟩
    rcases net_step_cases hs with ⟨m, line, o, source, p, rfl, hp, rfl⟩ | ⟨m, k, fam, clock, d, p, rfl, -, -, hp, rfl⟩ |
      ⟨m, a, p, rfl, -, hp, rfl⟩
    · have hpk : packetsFrom n { w.set m p with air := w.air ++ w.sent P m line o source } =
          packetsFrom n w ++ if m = n then (w.node m).emits (P.machine m) o line else [] := by
        rw [packetsFrom, packetsFrom, List.filter_append, List.map_append, sent_filter]
      rw [hpk]
      by_cases hm : m = n
      · subst hm
        have hq : p = (w.node m).enter (P.machine m) o line := by
          unfold Program.step at hp
          dsimp only at hp
          split at hp
          · cases hp
          · exact (Option.some.inj hp).symm
        have he := enter_user (P.machine m) o line (w.node m) (userOnly ((w.node m).settings, (w.node m).beacon)) rfl rfl
        simp only [linesAt, if_pos, userSends, List.append_assoc]
        rw [emits_user (P.machine m) o line (w.node m) (userOnly ((w.node m).settings, (w.node m).beacon)) rfl rfl]
        have hn : ({ w.set m p with air := w.air ++ w.sent P m line o source } : Network N).node m = p := set_self _ _ _
        rw [hn, hq, he.1, he.2]
        rfl
      · have hn : ({ w.set m p with air := w.air ++ w.sent P m line o source } : Network N).node n = w.node n :=
          set_other _ _ (fun h => hm h.symm)
        rw [if_neg hm, List.append_nil, hn]
        simp only [linesAt, if_neg hm]
    · exact quiet rfl (other m _ p hp) rfl
    · exact quiet rfl (other m _ p hp) rfl

theorem userSends_append (M : Machine) (ls more : List (String × Replies)) : ∀ s,
    ∃ t, userSends M s (ls ++ more) = userSends M s ls ++ userSends M t more := by
  induction ls with
  | nil => exact fun s => ⟨s, rfl⟩
  | cons l ls ih =>
    intro s
    obtain ⟨t, ht⟩ := ih (userStep M s l)
    exact ⟨t, by simp only [List.cons_append, userSends, ht, List.append_assoc]⟩

/-! ## C170 -/

/-- **C170** In any two executions of any two networks: if the lines entered at a machine of the one are the first ones
entered at such a machine of the other, then what the first has sent is the first of what the second has sent. Nothing
else matters: neither other machines, nor datagrams, files, time or loss. -/
theorem C170_first {N N' : Type} [DecidableEq N] [DecidableEq N'] {P : Plant N} {P' : Plant N'} {fs : N → FS} {fs' : N' → FS}
    {c : N → Cliflags} {c' : N' → Cliflags} {es : List (NetEvent N)} {es' : List (NetEvent N')} {w : Network N}
    {w' : Network N'} (one : NetLeads P fs c es w) (other : NetLeads P' fs' c' es' w') (n : N) (n' : N')
    (machine : P.machine n = P'.machine n') (settings : c n = c' n') (lines : linesAt n es <+: linesAt n' es') :
    packetsFrom n w <+: packetsFrom n' w' := by
  obtain ⟨more, hm⟩ := lines
  have h1 := packets_from n es one
  have h2 := packets_from n' es' other
  have e1 : packetsFrom n (Network.init fs c) = [] := rfl
  have e2 : packetsFrom n' (Network.init fs' c') = [] := rfl
  rw [e1, List.nil_append] at h1
  rw [e2, List.nil_append, ← hm] at h2
  obtain ⟨t, ht⟩ := userSends_append (P'.machine n') (linesAt n es) more
    (((Network.init fs' c').node n').settings, ((Network.init fs' c').node n').beacon)
  rw [ht] at h2
  rw [h1, h2, machine]
  simp only [Network.init, Program.init, settings]
  exact List.prefix_append _ _

/-- **C170** The same lines, the same packets. -/
theorem C170_same {N N' : Type} [DecidableEq N] [DecidableEq N'] {P : Plant N} {P' : Plant N'} {fs : N → FS} {fs' : N' → FS}
    {c : N → Cliflags} {c' : N' → Cliflags} {es : List (NetEvent N)} {es' : List (NetEvent N')} {w : Network N}
    {w' : Network N'} (one : NetLeads P fs c es w) (other : NetLeads P' fs' c' es' w') (n : N) (n' : N')
    (machine : P.machine n = P'.machine n') (settings : c n = c' n') (lines : linesAt n es = linesAt n' es') :
    packetsFrom n w = packetsFrom n' w' := by
  have h1 := C170_first one other n n' machine settings (lines ▸ List.prefix_refl _)
  have h2 := C170_first other one n' n machine.symm settings.symm (lines ▸ List.prefix_refl _)
  exact h1.eq_of_length (Nat.le_antisymm h1.length_le h2.length_le)

/-- **C170** A machine where no beacon command is entered sends nothing, whatever is sent to it. -/
theorem C170_silent {P : Plant N} {fs : N → FS} {c : N → Cliflags} {es : List (NetEvent N)} {w : Network N}
    (h : NetLeads P fs c es w) (n : N)
    (none_ : ∀ l ∈ linesAt n es, ∀ args,
      getLine ((P.machine n).H.map Prod.fst) cmdHandlers l.1 ≠ .ret (.started "beacon" args)) :
    packetsFrom n w = [] := by
  rw [packets_from n es h, show packetsFrom n (Network.init fs c) = [] from rfl, List.nil_append]
  generalize (((Network.init fs c).node n).settings, ((Network.init fs c).node n).beacon) = s
  generalize linesAt n es = ls at none_ ⊢
  induction ls generalizing s with
  | nil => rfl
  | cons l ls ih =>
    rw [userSends, ih _ (fun l hl => none_ l (by simp [hl])), List.append_nil]
    have hl := none_ l (by simp)
    unfold Program.emits
    split
    · next cmd args hg =>
      split
      · next hc => subst hc; exact absurd hg (hl args)
      · rfl
    · rfl

/-! ## A concrete case -/

/-- Machine 1 of the traffic above sends the same three beacons when it is alone in the world, has other files and its
user enters the lines without a pause. -/
example : linesAt 1 exampleTraffic = linesAt 1 (exampleTraffic.take 3) ∧
    (∃ w w', NetLeads examplePlant (fun _ => exampleFS) (fun _ => shippedSettings) exampleTraffic w ∧
      NetLeads examplePlant (fun _ => ⟨[], [], fun _ _ => false⟩) (fun _ => shippedSettings) (exampleTraffic.take 3) w' ∧
      (packetsFrom 1 w).length = 3 ∧ (packetsFrom 2 w).length = 0 ∧ packetsFrom 1 w' = packetsFrom 1 w) := by
  refine ⟨rfl, ?_⟩
  have h : (((Network.init (fun _ => exampleFS) (fun _ => shippedSettings)).run examplePlant exampleTraffic).map
      (fun w => ((packetsFrom 1 w).length, (packetsFrom 2 w).length))) = some (3, 0) := by decide +kernel
  have h' : ((Network.init (fun _ => ⟨[], [], fun _ _ => false⟩) (fun _ => shippedSettings)).run examplePlant
      (exampleTraffic.take 3)).isSome = true := by decide +kernel
  obtain ⟨w, hw, he⟩ := Option.map_eq_some_iff.1 h
  obtain ⟨w', hw'⟩ := Option.isSome_iff_exists.1 h'
  simp only [Prod.mk.injEq] at he
  exact ⟨w, w', hw, hw', he.1, he.2, C170_same hw' hw 1 1 rfl rfl rfl⟩

end Saratoga
