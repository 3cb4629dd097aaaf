import Verif.Model.BeaconLock
import Verif.Props.BeaconCmd
/-!
# Properties of beacon commands at the same time

C107: `beacon off` should stop the sending; it waits for its end instead.
-/
namespace Saratoga

/-- The acts to come of the call that has the lock. -/
def BeaconWorld.left (w : BeaconWorld) : List BeaconAct :=
  match w.owner with
  | none => []
  | some k =>
    match w.pc k with
    | .out => []
    | .acting rest => rest

theorem beaconRun_snoc (ls : List (BeaconEnv × Cliflags × List String)) {b b1 b2 : BeaconState}
    {acts more : List BeaconAct} (e : BeaconEnv × Cliflags × List String) (h1 : beaconRun b ls = .ret (b1, acts))
    (h2 : cmdBeacon e.1 e.2.1 b1 e.2.2 = .ret (b2, more)) :
    beaconRun b (ls ++ [e]) = .ret (b2, acts ++ more) := by
  induction ls generalizing b acts with
  | nil =>
    cases h1
    obtain ⟨E, c, args⟩ := e
    have h2 : cmdBeacon E c b1 args = .ret (b2, more) := h2
    show (cmdBeacon E c b1 args >>= _) = _
    rw [h2]
    show Out.ret (b2, more ++ []) = _
    simp
  | cons l ls ih =>
    obtain ⟨E, c, args⟩ := l
    unfold beaconRun at h1
    obtain ⟨⟨b3, a3⟩, h3, h1⟩ := Out.bind_eq_ret h1
    obtain ⟨⟨b4, a4⟩, h4, h1⟩ := Out.bind_eq_ret h1
    cases h1
    show (cmdBeacon E c b args >>= _) = _
    rw [h3]
    show (beaconRun b3 (ls ++ [e]) >>= _) = _
    rw [ih h4]
    show Out.ret (b2, a3 ++ (a4 ++ more)) = _
    simp

structure BeaconInv (w : BeaconWorld) : Prop where
  alone : ∀ k, w.owner ≠ some k → w.pc k = .out
  inside : ∀ k, w.owner = some k → w.pc k ≠ .out
  whole : beaconRun .init w.calls = .ret (w.state, w.trace ++ w.left)
  prior : ∀ ls e, w.calls = ls ++ [e] → ∀ b acts, beaconRun .init ls = .ret (b, acts) → acts <+: w.trace

theorem beacon_step {w w' : BeaconWorld} {t : BeaconTurn} (I : BeaconInv w) (h : w.step t = .ret w') :
    BeaconInv w' := by
  simp only [BeaconWorld.step] at h
  cases hc : w.pc t.k with
  | out =>
    rw [hc] at h
    cases ho : w.owner with
    | some o => rw [ho] at h; cases h; exact I
    | none =>
      rw [ho] at h
      obtain ⟨⟨b, acts⟩, h1, h⟩ := Out.bind_eq_ret h
      cases h
      refine ⟨?_, ?_, ?_, ?_⟩
      · intro j hj
        show (if j = t.k then _ else w.pc j) = _
        rw [if_neg fun e => hj (by rw [e])]
        exact I.alone j (by rw [ho]; exact fun h => by cases h)
      · intro j hj
        have hj : t.k = j := Option.some.inj hj
        show (if j = t.k then _ else w.pc j) ≠ _
        rw [if_pos hj.symm]
        exact fun h => by cases h
      · have := I.whole
        have l0 : w.left = [] := by simp [BeaconWorld.left, ho]
        rw [l0, List.append_nil] at this
        have := beaconRun_snoc w.calls (t.env, t.settings, t.args) this h1
        simpa [BeaconWorld.left] using this
      · intro ls e hls b' acts' hr
        have hls : w.calls ++ [(t.env, t.settings, t.args)] = ls ++ [e] := hls
        have : w.calls = ls := (List.append_inj' hls rfl).1
        have hw := I.whole
        have l0 : w.left = [] := by simp [BeaconWorld.left, ho]
        rw [l0, List.append_nil, this, hr] at hw
        cases hw
        exact List.prefix_refl _
  | acting rest =>
    have own : w.owner = some t.k := by
      refine Classical.byContradiction fun n => ?_
      have := I.alone t.k n
      rw [hc] at this; cases this
    rw [hc] at h
    cases rest with
    | cons a rest =>
      cases h
      refine ⟨?_, ?_, ?_, fun ls e hls b acts hr => (I.prior ls e hls b acts hr).trans (List.prefix_append _ _)⟩
      · intro j hj
        show (if j = t.k then _ else w.pc j) = _
        rw [if_neg fun e => hj (by rw [e]; exact own)]
        exact I.alone j hj
      · intro j hj
        show (if j = t.k then _ else w.pc j) ≠ _
        split
        · exact fun h => by cases h
        · exact I.inside j hj
      · have := I.whole
        simpa [BeaconWorld.left, own, hc] using this
    | nil =>
      cases h
      refine ⟨?_, ?_, ?_, I.prior⟩
      · intro j _
        show (if j = t.k then _ else w.pc j) = _
        split
        · rfl
        · rename_i e
          exact I.alone j (by rw [own]; exact fun h => e (Option.some.inj h).symm)
      · intro j hj; cases hj
      · have := I.whole
        simpa [BeaconWorld.left, own, hc] using this

theorem beacon_run {w w' : BeaconWorld} (ts : List BeaconTurn) (I : BeaconInv w) (h : w.run ts = .ret w') :
    BeaconInv w' := by
  induction ts generalizing w with
  | nil => cases h; exact I
  | cons t ts ih =>
    obtain ⟨w1, h1, h⟩ := Out.bind_eq_ret h
    exact ih (beacon_step I h1) h

theorem beacon_init : BeaconInv .init where
  alone _ _ := rfl
  inside _ h := by cases h
  whole := rfl
  prior ls e h := by cases ls <;> cases h

/-- **C107** However beacon commands mix, each does all it does without another in between: what was done is what the
calls do one after the other, in the order they got the lock, but for acts to come of the one that has it. -/
theorem C107_whole (ts : List BeaconTurn) (w : BeaconWorld) (h : BeaconWorld.init.run ts = .ret w) :
    ∃ left, beaconRun .init w.calls = .ret (w.state, w.trace ++ left) ∧ (w.owner = none → left = []) := by
  refine ⟨w.left, (beacon_run ts beacon_init h).whole, fun ho => ?_⟩
  unfold BeaconWorld.left; rw [ho]

theorem beaconRun_split (xs : List (BeaconEnv × Cliflags × List String)) (e : BeaconEnv × Cliflags × List String)
    (ys : List (BeaconEnv × Cliflags × List String)) {b b' : BeaconState} {acts : List BeaconAct}
    (h : beaconRun b (xs ++ e :: ys) = .ret (b', acts)) :
    ∃ b1 b2 pre mid post, beaconRun b xs = .ret (b1, pre) ∧ cmdBeacon e.1 e.2.1 b1 e.2.2 = .ret (b2, mid) ∧
      beaconRun b2 ys = .ret (b', post) ∧ acts = pre ++ mid ++ post := by
  induction xs generalizing b acts with
  | nil =>
    obtain ⟨E, c, args⟩ := e
    simp only [List.nil_append] at h
    unfold beaconRun at h
    obtain ⟨⟨b3, a3⟩, h3, h⟩ := Out.bind_eq_ret h
    obtain ⟨⟨b4, a4⟩, h4, h⟩ := Out.bind_eq_ret h
    cases h
    exact ⟨b, b3, [], a3, a4, rfl, h3, h4, by simp⟩
  | cons l xs ih =>
    obtain ⟨E, c, args⟩ := l
    simp only [List.cons_append] at h
    unfold beaconRun at h
    obtain ⟨⟨b3, a3⟩, h3, h⟩ := Out.bind_eq_ret h
    obtain ⟨⟨b4, a4⟩, h4, h⟩ := Out.bind_eq_ret h
    cases h
    obtain ⟨b1, b2, pre, mid, post, g1, g2, g3, rfl⟩ := ih h4
    refine ⟨b1, b2, a3 ++ pre, mid, post, ?_, g2, g3, by simp⟩
    show (cmdBeacon E c b args >>= _) = _
    rw [h3]
    show (beaconRun b3 xs >>= _) = _
    rw [g1]; rfl

/-- **C107** (partial.) As long as only `beacon off` commands got the lock, nothing is sent. Missing: a `beacon off` given while beacons are sent, see
`C107_counterexample`. -/
theorem C107_off_first_partial (ts : List BeaconTurn) (w : BeaconWorld) (h : BeaconWorld.init.run ts = .ret w)
    (only : ∀ e ∈ w.calls, ∃ cmd rest, e.2.2 = cmd :: "off" :: rest) : sends w.trace = [] := by
  obtain ⟨left, h1, _⟩ := C107_whole ts w h
  have none_sent : ∀ (ls : List (BeaconEnv × Cliflags × List String)) (b b' : BeaconState) (acts : List BeaconAct),
      (∀ e ∈ ls, ∃ cmd rest, e.2.2 = cmd :: "off" :: rest) → beaconRun b ls = .ret (b', acts) → sends acts = [] := by
    intro ls
    induction ls with
    | nil => intro b b' acts _ h; cases h; rfl
    | cons l ls ih =>
      intro b b' acts ok h
      obtain ⟨E, c, args⟩ := l
      unfold beaconRun at h
      obtain ⟨⟨b3, a3⟩, h3, h⟩ := Out.bind_eq_ret h
      obtain ⟨⟨b4, a4⟩, h4, h⟩ := Out.bind_eq_ret h
      cases h
      obtain ⟨cmd, rest, rfl⟩ : ∃ cmd rest, args = cmd :: "off" :: rest := ok _ List.mem_cons_self
      obtain ⟨b5, a5, h5, h6⟩ := C84_off E c b cmd rest
      rw [h5] at h3
      cases h3
      rw [sends_append, h6, ih b3 b' a4 (fun e he => ok e (List.mem_cons_of_mem _ he)) h4]
      rfl
  have := none_sent _ _ _ _ only h1
  rw [sends_append] at this
  exact (List.append_eq_nil_iff.1 this).1

example := C107_off_first_partial [⟨0, calmBeacons, shippedSettings, ["beacon", "off"]⟩] _ rfl
  (by intro e h; exact ⟨"beacon", [], by simp_all [BeaconWorld.init]⟩)

/-- **C107** `beacon off` stops nothing: whenever it takes effect after a `beacon` to some address, all the frames of
that command have been sent, whatever the schedule. -/
theorem C107_counterexample (ts : List BeaconTurn) (w : BeaconWorld) (h : BeaconWorld.init.run ts = .ret w)
    (before between after : List (BeaconEnv × Cliflags × List String)) {E E' : BeaconEnv} {c c' : Cliflags}
    (cmd word : String) (order : w.calls = before ++ (E, c, [cmd, word]) :: (between ++
      (E', c', ["beacon", "off"]) :: after))
    (works : E.Works) (ok : ValidGlobal shipped c.global) (name : word ≠ "?" ∧ word ≠ "off") {addr : UDPAddr}
    (target : meant E c word = some addr) :
    ∃ frame, (List.replicate c.bcount (addr, frame)).Sublist (sends w.trace) := by
  obtain ⟨bs, ba, st⟩ := works.disk
  have I := beacon_run ts beacon_init h
  obtain ⟨ls, e, hls⟩ : ∃ ls e, between ++ (E', c', ["beacon", "off"]) :: after = ls ++ [e] :=
    ⟨_, _, (List.dropLast_concat_getLast (by simp)).symm⟩
  have hcalls : w.calls = (before ++ (E, c, [cmd, word]) :: ls) ++ [e] := by rw [order, hls]; simp
  have hw := I.whole
  rw [hcalls] at hw
  obtain ⟨b1, _, pre, _, _, g1, _⟩ := beaconRun_split _ e [] hw
  obtain ⟨more, hm⟩ := I.prior _ _ hcalls _ _ g1
  obtain ⟨b2, b3, pre', mid, post, _, g2, _, rfl⟩ := beaconRun_split _ _ _ g1
  obtain ⟨b', acts, frame, h1, h2, _, _⟩ := C82_sends works ok b2 cmd word name target st
  rw [h1] at g2
  cases g2
  refine ⟨frame, ?_⟩
  rw [← hm, ← h2]
  simp only [sends_append, List.append_assoc]
  exact (List.sublist_append_left _ _).trans (List.sublist_append_right _ _)

/-- The example: `beacon 1.1.1.1` gets the lock; `beacon off` is typed at once, and waits through all of it. -/
def offSchedule : List BeaconTurn :=
  ⟨0, calmBeacons, shippedSettings, ["beacon", "1.1.1.1"]⟩ ::
    (List.replicate 9 [⟨1, calmBeacons, shippedSettings, ["beacon", "off"]⟩,
      ⟨0, calmBeacons, shippedSettings, ["beacon", "1.1.1.1"]⟩]).flatten ++
    [⟨1, calmBeacons, shippedSettings, ["beacon", "off"]⟩]

example : (BeaconWorld.init.run offSchedule).returns := by decide +kernel

example : (match BeaconWorld.init.run offSchedule with
    | .ret w => (w.calls.map fun e => e.2.2) == [["beacon", "1.1.1.1"], ["beacon", "off"]] &&
      (sends w.trace).length == 3 && w.owner == some 1
    | _ => false) = true := by decide +kernel

/-- The lock is held for `bcount` times the interval: for as long as one likes. -/
theorem C107_held {E : BeaconEnv} (works : E.Works) {c : Cliflags} (ok : ValidGlobal shipped c.global)
    (b : BeaconState) (cmd word : String) (name : word ≠ "?" ∧ word ≠ "off") {addr : UDPAddr}
    (target : meant E c word = some addr) (short : c.timeout.binterval ≤ 9223372036) :
    ∃ b' acts, cmdBeacon E c b [cmd, word] = .ret (b', acts) ∧
      (sleeps acts).sum = c.bcount * c.timeout.binterval * 1000000000 := by
  obtain ⟨bs, ba, st⟩ := works.disk
  obtain ⟨b', acts, frame, h1, _, h3, _⟩ := C82_sends works ok b cmd word name target st
  refine ⟨b', acts, h1, ?_⟩
  rw [h3, C82_interval_partial _ short]
  have : ∀ (n : Nat) (x : Int), (List.replicate n x).sum = n * x := by
    intro n x
    induction n with
    | zero => simp
    | succ n ih => rw [List.replicate_succ, List.sum_cons, ih]; push_cast; rw [Int.add_mul]; omega
  rw [this, Int.mul_assoc]

example := C107_held (E := calmBeacons) ⟨rfl, rfl, ⟨_, _, rfl⟩, fun _ => ⟨_, rfl⟩, fun _ _ => rfl⟩
  (c := shippedSettings) C14_shipped_defaults .init "beacon" "1.1.1.1" (by decide)
  (addr := ⟨utf8 "1.1.1.1:7542", 7542, ""⟩) (by decide +kernel) (by decide)

end Saratoga
