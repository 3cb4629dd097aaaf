import Verif.Spec.Forever
import Verif.Props.Unseen
/-! # C165: everything read is handled in the end -/
namespace Saratoga

theorem Forever.reaches {S : Setup} {fs : FS} {at_ : Nat → World} {does : Nat → Action}
    (run : Forever S fs at_ does) (i : Nat) : Reachable S fs (at_ i) := by
  induction i with
  | zero => rw [run.start]; exact ⟨[], rfl⟩
  | succ i ih => exact ih.step (run.goes i)

/-- A process that goes on for ever has not ended. -/
theorem Forever.runs {S : Setup} {fs : FS} {at_ : Nat → World} {does : Nat → Action}
    (run : Forever S fs at_ does) (i : Nat) : (at_ i).main ≠ .ended := by
  intro hm
  rcases step_cases (run.goes i) with ⟨_, _, h, _⟩ | ⟨_, _, h, _⟩ | ⟨_, _, _, _, _, h, _⟩ | ⟨_, _, _, _, h, _⟩ |
    ⟨_, _, h, _⟩ | ⟨_, h, _⟩ | ⟨_, h, _⟩ | ⟨_, _, h, _⟩ <;> simp_all

/-- With the shipped tables it always comes back to its `select`. -/
theorem Forever.selects {S : Setup} (hT : S.T = shipped) {fs : FS} {at_ : Nat → World} {does : Nat → Action}
    (run : Forever S fs at_ does) (i : Nat) : (at_ i).main = .select :=
  (unasked (run.reaches i) (running_unasked hT (run.reaches i) (run.runs i))).2.resolve_right (run.runs i)

/-- What a listener holds out it goes on holding out until it is taken. -/
theorem offer_stays {S : Setup} {w w' : World} {a : Action} {fam : Fam} (h : w.step S a = some w')
    (offers : w.listener fam ≠ .reading) (left : ¬ a.Takes fam) : w'.listener fam = w.listener fam := by
  have other : ∀ {g : Fam}, w.listener g = .reading → fam ≠ g := fun hg e => offers (e ▸ hg)
  rcases step_cases h with ⟨d, rfl, _, hl, rfl⟩ | ⟨g, rfl, _, hl, rfl⟩ | ⟨g, clock, f, addr, rfl, _, hl, rfl⟩ |
    ⟨g, s, addr, rfl, _, hl, rfl⟩ | ⟨g, rfl, _, hl, rfl⟩ | ⟨rfl, _, rfl⟩ | ⟨rfl, _, rfl⟩ | ⟨f, rfl, _, rfl⟩
  · rcases onRecv_cases S w d with ⟨_, e⟩ | ⟨_, e⟩ | ⟨f, _, e⟩ | ⟨s, _, e⟩ <;> rw [e]
    · exact setListener_other _ _ (other hl)
    · exact setListener_other _ _ (other hl)
  · exact setListener_other _ _ (other hl)
  · rw [(onRx_logs S w g clock f addr).1]
    exact setListener_other _ _ fun e => left (e ▸ .inl ⟨clock, rfl⟩)
  · rw [(onTx_logs S w g s addr).1]
    exact setListener_other _ _ fun e => left (e ▸ .inr (.inl rfl))
  · exact setListener_other _ _ fun e => left (e ▸ .inr (.inr rfl))
  all_goals rfl

/-- An offer is taken while it stands, if the main loop always comes back to its `select`. -/
theorem offer_taken {S : Setup} {fs : FS} {at_ : Nat → World} {does : Nat → Action} (run : Forever S fs at_ does)
    (fair : Fair at_ does) (selects : ∀ i, (at_ i).main = .select) {fam : Fam} {i : Nat} (offers : (at_ i).Offers fam) :
    ∃ j, i ≤ j ∧ (does j).Takes fam ∧ (at_ j).listener fam = (at_ i).listener fam := by
  apply Classical.byContradiction
  intro none
  have stays : ∀ n, (at_ (i + n)).listener fam = (at_ i).listener fam := by
    intro n
    induction n with
    | zero => rfl
    | succ n ih =>
      have := offer_stays (run.goes (i + n)) (fam := fam) (by rw [ih]; exact offers.1)
        fun t => none ⟨i + n, by omega, t, ih⟩
      rw [← ih, ← this]; rfl
  have stays' : ∀ j, i ≤ j → (at_ j).listener fam = (at_ i).listener fam := fun j hj => by
    have := stays (j - i)
    rwa [show i + (j - i) = j by omega] at this
  obtain ⟨j, hj, t⟩ := fair fam i fun j hj => ⟨selects j, by unfold World.Offers; rw [stays' j hj]; exact offers⟩
  exact none ⟨j, hj, t, stays' j hj⟩

/-- **C165, packets.** With the shipped tables, in every execution that goes on for ever, every packet a listener holds
out is handled by the main loop, and the listener goes back to reading. -/
theorem C165_packet (S : Setup) (hT : S.T = shipped) (fs : FS) (at_ : Nat → World) (does : Nat → Action)
    (run : Forever S fs at_ does) (fair : Fair at_ does) (i : Nat) (fam : Fam) (f : Frame) (a : UDPAddr)
    (offered : (at_ i).listener fam = .sendRx f a) :
    ∃ j, i ≤ j ∧ ∃ clock, (at_ (j + 1)).handled = (at_ j).handled ++ [⟨fam, f, a, clock⟩] ∧
      (at_ (j + 1)).listener fam = .reading := by
  obtain ⟨j, hj, t, e⟩ := offer_taken run fair (run.selects hT) (fam := fam) (i := i)
    (by unfold World.Offers; rw [offered]; exact ⟨by simp, by simp⟩)
  rw [offered] at e
  have h := run.goes j
  refine ⟨j, hj, ?_⟩
  rcases t with ⟨clock, ht⟩ | ht | ht <;> rw [ht] at h
  · rw [World.step, run.selects hT j, e] at h
    simp only [Option.some.injEq] at h
    obtain ⟨h1, _, h3, _⟩ := onRx_logs S (at_ j) fam clock f a
    rw [h] at h1 h3
    exact ⟨clock, h3, by rw [h1, setListener_self]⟩
  · rw [World.step, run.selects hT j, e] at h; cases h
  · rw [World.step, run.selects hT j, e] at h; cases h

/-- **C165, replies.** So is every reply. -/
theorem C165_reply (S : Setup) (hT : S.T = shipped) (fs : FS) (at_ : Nat → World) (does : Nat → Action)
    (run : Forever S fs at_ does) (fair : Fair at_ does) (i : Nat) (fam : Fam) (s : Status) (a : UDPAddr)
    (offered : (at_ i).listener fam = .sendTx s a) :
    ∃ j, i ≤ j ∧ (at_ (j + 1)).taken = (at_ j).taken ++ [⟨fam, s, a⟩] ∧ (at_ (j + 1)).listener fam = .reading := by
  obtain ⟨j, hj, t, e⟩ := offer_taken run fair (run.selects hT) (fam := fam) (i := i)
    (by unfold World.Offers; rw [offered]; exact ⟨by simp, by simp⟩)
  rw [offered] at e
  have h := run.goes j
  refine ⟨j, hj, ?_⟩
  rcases t with ⟨clock, ht⟩ | ht | ht <;> rw [ht] at h
  · rw [World.step, run.selects hT j, e] at h; cases h
  · rw [World.step, run.selects hT j, e] at h
    simp only [Option.some.injEq] at h
    obtain ⟨h1, _, _, h4, _⟩ := onTx_logs S (at_ j) fam s a
    rw [h] at h1 h4
    exact ⟨h4, by rw [h1, setListener_self]⟩
  · rw [World.step, run.selects hT j, e] at h; cases h

theorem gone_ended {S : Setup} {fs : FS} {w : World} (h : Reachable S fs w) (fam : Fam) (g : w.listener fam = .gone) :
    w.main = .ended := by
  revert fam
  refine reachable_induction (P := fun w => ∀ fam, w.listener fam = .gone → w.main = .ended) (by intro f h; cases h) ?_ h
  intro w a w' ih hs fam hg
  have set : ∀ (g : Fam) (st : LState), st ≠ .gone → (w.setListener g st).listener fam = .gone → w.main = .ended := by
    intro g st hst h
    by_cases e : fam = g
    · subst e; rw [setListener_self] at h; exact absurd h hst
    · rw [setListener_other _ _ e] at h; exact ih fam h
  rcases step_cases hs with ⟨d, rfl, hm, hl, rfl⟩ | ⟨g, rfl, hm, hl, rfl⟩ | ⟨g, clock, f, addr, rfl, hm, hl, rfl⟩ |
    ⟨g, s, addr, rfl, hm, hl, rfl⟩ | ⟨g, rfl, hm, hl, rfl⟩ | ⟨rfl, hm, rfl⟩ | ⟨rfl, hm, rfl⟩ | ⟨f, rfl, hm, rfl⟩
  · rcases onRecv_cases S w d with ⟨_, e⟩ | ⟨_, e⟩ | ⟨f, _, e⟩ | ⟨s, _, e⟩ <;> rw [e] at hg ⊢
    · exact ih fam hg
    · exact set d.fam _ (by simp) hg
    · exact set d.fam _ (by simp) hg
  · exact set g _ (by simp) hg
  · rw [(onRx_logs S w g clock f addr).1] at hg
    exact absurd (set g _ (by simp) hg) (by rw [hm]; simp)
  · rw [(onTx_logs S w g s addr).1] at hg
    exact absurd (set g _ (by simp) hg) (by rw [hm]; simp)
  · rfl
  · rfl
  · rfl
  · exact ih fam hg

/-- **C165, reading.** Each listener comes back to reading again and again. -/
theorem C165_reads_on (S : Setup) (hT : S.T = shipped) (fs : FS) (at_ : Nat → World) (does : Nat → Action)
    (run : Forever S fs at_ does) (fair : Fair at_ does) (i : Nat) (fam : Fam) :
    ∃ j, i ≤ j ∧ (at_ j).listener fam = .reading := by
  cases h : (at_ i).listener fam with
  | reading => exact ⟨i, Nat.le_refl _, h⟩
  | sendRx f a =>
    obtain ⟨j, hj, _, _, e⟩ := C165_packet S hT fs at_ does run fair i fam f a h
    exact ⟨j + 1, by omega, e⟩
  | sendTx s a =>
    obtain ⟨j, hj, _, e⟩ := C165_reply S hT fs at_ does run fair i fam s a h
    exact ⟨j + 1, by omega, e⟩
  | gone => exact absurd (gone_ended (run.reaches i) fam h) (run.runs i)
  | sendQuit =>
    obtain ⟨j, hj, t, e⟩ := offer_taken run fair (run.selects hT) (fam := fam) (i := i)
      (by unfold World.Offers; rw [h]; exact ⟨by simp, by simp⟩)
    rw [h] at e
    have hs := run.goes j
    rcases t with ⟨clock, ht⟩ | ht | ht <;> rw [ht] at hs <;> rw [World.step, run.selects hT j, e] at hs
    · cases hs
    · cases hs
    · simp only [Option.some.injEq] at hs
      exact absurd (show (at_ (j + 1)).main = .ended by rw [← hs]) (run.runs (j + 1))

theorem carryAll_mem {S : Setup} {ds : List Datagram} {fs : List (Frame × UDPAddr)} (h : CarryAll S ds fs)
    {d : Datagram} {f : Frame} (hd : d ∈ ds) (says : Carries1 S d f) : (f, d.source) ∈ fs := by
  induction h with
  | nil => cases hd
  | skip d' none _ ih =>
    rcases List.mem_append.1 hd with hd | hd
    · exact ih hd
    · cases List.mem_singleton.1 hd; exact absurd says (none f)
  | take d' f' says' _ ih =>
    rcases List.mem_append.1 hd with hd | hd
    · exact List.mem_append_left _ (ih hd)
    · cases List.mem_singleton.1 hd
      rw [says.2.2.unique says'.2.2]
      exact List.mem_append_right _ (List.mem_singleton.2 rfl)

theorem read_grows {S : Setup} {fs : FS} {at_ : Nat → World} {does : Nat → Action} (run : Forever S fs at_ does)
    {i j : Nat} (hij : i ≤ j) : (at_ i).read <+: (at_ j).read := by
  obtain ⟨n, rfl⟩ := Nat.le.dest hij
  induction n with
  | zero => exact List.prefix_refl _
  | succ n ih =>
    refine (ih (by omega)).trans ?_
    have h := run.goes (i + n)
    rw [show i + (n + 1) = i + n + 1 by omega]
    generalize at_ (i + n) = w at h ⊢
    generalize at_ (i + n + 1) = w' at h ⊢
    rcases step_cases h with ⟨d, _, hm, hl, rfl⟩ | ⟨g, _, hm, hl, rfl⟩ | ⟨g, clock, f, addr, _, hm, hl, rfl⟩ |
      ⟨g, s, addr, _, hm, hl, rfl⟩ | ⟨g, _, hm, hl, rfl⟩ | ⟨_, hm, rfl⟩ | ⟨_, hm, rfl⟩ | ⟨f, _, hm, rfl⟩
    · rcases onRecv_cases S w d with ⟨_, e⟩ | ⟨_, e⟩ | ⟨f, _, e⟩ | ⟨s, _, e⟩ <;> rw [e]
      · exact List.prefix_refl _
      all_goals exact List.prefix_append _ _
    · exact List.prefix_refl _
    · rw [(onRx_logs S w g clock f addr).2.1]; exact List.prefix_refl _
    · rw [(onTx_logs S w g s addr).2.1]; exact List.prefix_refl _
    all_goals exact List.prefix_refl _

/-- **C165, catching up.** Again and again the main loop has handled exactly what was read so far. -/
theorem C165_caught_up (S : Setup) (hT : S.T = shipped) (fs : FS) (at_ : Nat → World) (does : Nat → Action)
    (run : Forever S fs at_ does) (fair : Fair at_ does) (i : Nat) (fam : Fam) :
    ∃ j, i ≤ j ∧ (at_ i).read <+: (at_ j).read ∧
      CarryAll S ((at_ j).read.filter (·.fam = fam)) ((at_ j).handledFrom fam) := by
  obtain ⟨j, hj, e⟩ := C165_reads_on S hT fs at_ does run fair i fam
  refine ⟨j, hj, read_grows run hj, ?_⟩
  have h := C43_in_order S fs (at_ j) (run.reaches j) fam
  rwa [show (at_ j).offered fam = [] by unfold World.offered; rw [e], List.append_nil] at h

/-- **C165** Every frame in a datagram that was read is handled in the end, as coming from its sender. -/
theorem C165_datagram (S : Setup) (hT : S.T = shipped) (fs : FS) (at_ : Nat → World) (does : Nat → Action)
    (run : Forever S fs at_ does) (fair : Fair at_ does) (i : Nat) (d : Datagram) (read : d ∈ (at_ i).read) (f : Frame)
    (carries : Carries1 S d f) :
    ∃ j, i ≤ j ∧ ∃ h ∈ (at_ j).handled, h.fam = d.fam ∧ h.frame = f ∧ h.source = d.source := by
  obtain ⟨j, hj, hp, hc⟩ := C165_caught_up S hT fs at_ does run fair i d.fam
  have := carryAll_mem hc (d := d) (List.mem_filter.2 ⟨hp.subset read, by simp⟩) carries
  unfold World.handledFrom at this
  obtain ⟨h, hh, e⟩ := List.mem_map.1 this
  obtain ⟨h1, h2⟩ := List.mem_filter.1 hh
  simp only [Prod.mk.injEq] at e
  exact ⟨j, hj, h, h1, by simpa using h2, e.1, e.2⟩

/-- **C165, the end of it.** So an execution goes on for ever only if no request is ever read: each one ends the
process sooner or later. -/
theorem C165_no_request (S : Setup) (hT : S.T = shipped) (fs : FS) (at_ : Nat → World) (does : Nat → Action)
    (run : Forever S fs at_ does) (fair : Fair at_ does) (i : Nat) (d : Datagram) (read : d ∈ (at_ i).read)
    (r : Request) : ¬ Carries1 S d (.request r) := by
  intro carries
  obtain ⟨j, _, h, hh, _, e, _⟩ := C165_datagram S hT fs at_ does run fair i d read _ carries
  exact running_unasked hT (run.reaches j) (run.runs j) ⟨h, hh, r, e⟩

theorem handled_grows {S : Setup} {fs : FS} {at_ : Nat → World} {does : Nat → Action} (run : Forever S fs at_ does)
    {i j : Nat} (hij : i ≤ j) {x : Handled} (hx : x ∈ (at_ i).handled) : x ∈ (at_ j).handled := by
  obtain ⟨n, rfl⟩ := Nat.le.dest hij
  induction n with
  | zero => exact hx
  | succ n ih => exact handled_stays (run.goes (i + n)) (ih (by omega))

theorem sighted {hs : List Handled} {h : Handled} (hh : h ∈ hs) {b : Beacon} (e : h.frame = .beacon b) :
    ⟨h.source, b, h.clock⟩ ∈ sightings hs := by
  induction hs with
  | nil => cases hh
  | cons x hs ih =>
    rcases List.mem_cons.1 hh with rfl | hh'
    · obtain ⟨fam, f, a, t⟩ := h
      simp only at e
      subst e
      exact List.mem_cons_self
    · obtain ⟨fam, f, a, t⟩ := x
      cases f with
      | beacon _ => exact List.mem_cons_of_mem _ (ih hh')
      | _ => exact ih hh'

/-- **C165, peers.** The sender of every beacon that was read is on the list of peers in the end, and stays there. -/
theorem C165_peer (S : Setup) (hT : S.T = shipped) (fs : FS) (at_ : Nat → World) (does : Nat → Action)
    (run : Forever S fs at_ does) (fair : Fair at_ does) (i : Nat) (d : Datagram) (read : d ∈ (at_ i).read) (b : Beacon)
    (carries : Carries1 S d (.beacon b)) :
    ∃ j, i ≤ j ∧ ∀ k, j ≤ k → S.ipText d.source.ip ∈ (at_ k).peers.map Peer.addr := by
  obtain ⟨j, hj, h, hh, _, e, hs⟩ := C165_datagram S hT fs at_ does run fair i d read _ carries
  refine ⟨j, hj, fun k hk => ?_⟩
  rw [(C66_entries S (by rw [hT]; exact shipped_peerTables) (by rw [hT]; exact shipped_shows) fs (at_ k)
    (run.reaches k)).1, firstSeen_mem]
  refine List.mem_map.2 ⟨_, sighted (handled_grows run hk hh) e, ?_⟩
  unfold Sighting.addr
  rw [hs]

/-- Every finite execution that has not ended can go on for ever. -/
theorem forever_of_run {S : Setup} {fs : FS} {acts : List Action} {w : World}
    (h : (World.init fs).run S acts = some w) (running : w.main ≠ .ended) :
    ∃ at_ does, Forever S fs at_ does ∧ (∀ j, acts.length ≤ j → at_ j = w) ∧
      ∀ i, i ≤ acts.length → (World.init fs).run S (acts.take i) = some (at_ i) := by
  have last : ∀ j, acts.length ≤ j → ((World.init fs).run S (acts.take j)).getD w = w := by
    intro j hj
    rw [List.take_of_length_le hj, h]; rfl
  refine ⟨fun i => ((World.init fs).run S (acts.take i)).getD w, fun i => (acts[i]?).getD (.files w.fs),
    ⟨by simp [World.run], fun i => ?_⟩, last, fun i hi => ?_⟩
  rotate_left
  · have split : (World.init fs).run S (acts.take i ++ acts.drop i) = some w := by
      rw [List.take_append_drop]; exact h
    rw [run_append] at split
    cases h1 : (World.init fs).run S (acts.take i) with
    | none => rw [h1] at split; cases split
    | some v => simp only [h1, Option.getD_some]
  by_cases hi : i < acts.length
  · have ht : acts.take (i + 1) = acts.take i ++ [acts[i]] := by
      rw [List.take_add_one, List.getElem?_eq_getElem hi]; rfl
    have split : (World.init fs).run S (acts.take (i + 1) ++ acts.drop (i + 1)) = some w := by
      rw [List.take_append_drop]; exact h
    rw [run_append] at split
    cases h1 : (World.init fs).run S (acts.take (i + 1)) with
    | none => rw [h1] at split; cases split
    | some v =>
      have h1' := h1
      rw [ht, run_append] at h1
      cases h2 : (World.init fs).run S (acts.take i) with
      | none => rw [h2] at h1; cases h1
      | some u =>
        rw [h2] at h1
        simp only [Option.bind_some, World.run] at h1
        simp only [h1', h2, Option.getD_some, List.getElem?_eq_getElem hi]
        cases h3 : u.step S acts[i] with
        | none => rw [h3] at h1; cases h1
        | some x => rw [h3] at h1; exact h1
  · simp only [last i (by omega), last (i + 1) (by omega), List.getElem?_eq_none (Nat.le_of_not_lt hi),
      Option.getD_none, World.step]
    rw [if_pos running]

/-- A beacon is read and handled, and then nothing more happens. -/
example : ∃ at_ does, Forever shippedSetup tranFS at_ does ∧ Fair at_ does ∧
    (∃ f, (at_ 1).listener .v4 = .sendRx f someone) ∧
    ⟨.v4, ⟨0, 0⟩, [0x20, 0, 0, 0, 104, 105, 33, 33], someone⟩ ∈ (at_ 1).read := by
  obtain ⟨w, h, hm, h4, h6⟩ : ∃ w, (World.init tranFS).run shippedSetup
      [.recv ⟨.v4, ⟨0, 0⟩, [0x20, 0, 0, 0, 104, 105, 33, 33], someone⟩, .takeRx .v4 ⟨5, 0⟩] = some w ∧
      w.main = .select ∧ w.listener .v4 = .reading ∧ w.listener .v6 = .reading := ⟨_, rfl, rfl, rfl, rfl⟩
  obtain ⟨at_, does, run, last, first⟩ := forever_of_run h (by rw [hm]; simp)
  obtain ⟨u, f, hu, hl, hr⟩ : ∃ u f, (World.init tranFS).run shippedSetup
      [.recv ⟨.v4, ⟨0, 0⟩, [0x20, 0, 0, 0, 104, 105, 33, 33], someone⟩] = some u ∧ u.listener .v4 = .sendRx f someone ∧
      u.read = [⟨.v4, ⟨0, 0⟩, [0x20, 0, 0, 0, 104, 105, 33, 33], someone⟩] := ⟨_, _, rfl, rfl, rfl⟩
  have e : at_ 1 = u := by
    have := first 1 (by simp)
    rw [show ∀ a b : Action, [a, b].take 1 = [a] from fun _ _ => rfl, hu] at this
    exact (Option.some.inj this).symm
  refine ⟨at_, does, run, fun fam i always => ?_, ⟨f, by rw [e]; exact hl⟩, by rw [e, hr]; exact List.mem_singleton.2 rfl⟩
  have := (always (i + 2) (by omega)).2.1
  rw [last (i + 2) (by simp)] at this
  cases fam
  · exact absurd h4 this
  · exact absurd h6 this

/-- With tables under which a request is answered it is otherwise (C41): in a fair execution a beacon is held out for
ever. -/
theorem C165_other_tables : ∃ at_ does f, Forever patchedSetup tranFS at_ does ∧ Fair at_ does ∧
    ∀ i, 3 ≤ i → (at_ i).listener .v4 = .sendRx f someone ∧ (at_ i).handled = (at_ 3).handled := by
  obtain ⟨w, f, h, hm, hl⟩ : ∃ w f, (World.init tranFS).run patchedSetup
      ([.recv ⟨.v4, ⟨0, 0⟩, someRequest, someone⟩, .takeRx .v4 ⟨1000000000, 0⟩] ++
       [.recv ⟨.v4, ⟨0, 0⟩, [0x20, 0, 0, 0, 104, 105, 33, 33], someone⟩]) = some w ∧
      w.main = .sending ⟨.v4, ⟨0x24000000#32, 0, Timestamp.zero, 0, 0, []⟩, someone⟩ ∧
      w.listener .v4 = .sendRx f someone :=
    ⟨_, .beacon ⟨0x20000000#32, 0, [104, 105, 33, 33]⟩, rfl, by decide +kernel, by decide +kernel⟩
  obtain ⟨at_, does, run, last, _⟩ := forever_of_run h (by rw [hm]; simp)
  refine ⟨at_, does, f, run, fun fam i always => ?_, fun i hi => ?_⟩
  · have := (always (i + 3) (by omega)).1
    rw [last (i + 3) (by simp), hm] at this
    cases this
  · rw [last i (by simpa using hi), last 3 (by simp)]
    exact ⟨hl, rfl⟩

/-! ## What `select` has to promise -/

private def flood : Datagram := ⟨.v4, ⟨0, 0⟩, [0x23, 0, 0, 0, 0, 0, 0, 5, 0, 7, 0x41, 0x42], someone⟩
private def ignored : Datagram := ⟨.v6, ⟨0, 0⟩, [0x20, 0, 0, 0, 104, 105, 33, 33], someone⟩

/-- The main loop always takes what the first listener has, and that has always something. -/
private def oneSided (w : World) : Action :=
  if w.listener .v6 = .reading then .recv ignored
  else if w.listener .v4 = .reading then .recv flood else .takeRx .v4 ⟨0, 0⟩

private def oneSidedAt : Nat → World
  | 0 => World.init tranFS
  | n + 1 => ((oneSidedAt n).step shippedSetup (oneSided (oneSidedAt n))).getD (oneSidedAt n)

/-- **C165** The promise of `select` is needed: there is an execution in which the main loop handles packet after packet from
one listener, while the other one holds out a beacon for ever. -/
theorem C165_promise_needed : ∃ at_ does f, Forever shippedSetup tranFS at_ does ∧ ¬ Fair at_ does ∧
    (∀ i, 1 ≤ i → (at_ i).main = .select ∧ (at_ i).listener .v6 = .sendRx f someone) ∧
    (∀ i, ∃ j, i ≤ j ∧ does j = .takeRx .v4 ⟨0, 0⟩) ∧ ∀ i, ∀ h ∈ (at_ i).handled, h.fam = .v4 := by
  obtain ⟨g, hg, hgp⟩ : ∃ g, listenFrame shipped flood.clock 1500 flood.bytes = .ret (.rx (.data g)) ∧
      g.shortPrint shipped = .ret () := ⟨⟨0x23000000#32, 5, Timestamp.zero, 7, [0x41, 0x42]⟩, by decide +kernel, rfl⟩
  obtain ⟨f, hf⟩ : ∃ f, listenFrame shipped ignored.clock 1500 ignored.bytes = .ret (.rx f) :=
    ⟨.beacon ⟨0x20000000#32, 0, [104, 105, 33, 33]⟩, by decide +kernel⟩
  let Inv : World → Prop := fun w => w.main = .select ∧ w.listener .v6 = .sendRx f someone ∧
    (w.listener .v4 = .reading ∨ w.listener .v4 = .sendRx (.data g) someone) ∧ ∀ h ∈ w.handled, h.fam = .v4
  have first : (oneSidedAt 0).step shippedSetup (oneSided (oneSidedAt 0)) =
      some ({ (World.init tranFS).setListener .v6 (.sendRx f someone) with read := [ignored] }) := by
    show (World.init tranFS).step shippedSetup (.recv ignored) = _
    simp only [World.step]
    rw [if_pos ⟨(fun h => by cases h), rfl⟩]
    rcases onRecv_cases shippedSetup (World.init tranFS) ignored with ⟨h, _⟩ | ⟨h, _⟩ | ⟨f', h, e⟩ | ⟨s, h, _⟩
    · exact absurd (show (listenFrame shipped ignored.clock 1500 ignored.bytes).returns by rw [hf]; trivial) h
    · rw [show listenFrame shippedSetup.T ignored.clock shippedSetup.mtu ignored.bytes = _ from hf] at h; cases h
    · rw [show listenFrame shippedSetup.T ignored.clock shippedSetup.mtu ignored.bytes = _ from hf] at h
      cases h
      rw [e]; rfl
    · rw [show listenFrame shippedSetup.T ignored.clock shippedSetup.mtu ignored.bytes = _ from hf] at h; cases h
  have step : ∀ w, Inv w → ∃ w', w.step shippedSetup (oneSided w) = some w' ∧ Inv w' ∧
      (w.listener .v4 = .reading → w'.listener .v4 = .sendRx (.data g) someone) := by
    rintro w ⟨h1, h2, h3, h4⟩
    have n6 : w.listener .v6 ≠ .reading := by rw [h2]; simp
    rcases h3 with h3 | h3
    · refine ⟨{ w.setListener .v4 (.sendRx (.data g) someone) with read := w.read ++ [flood] }, ?_, ?_, fun _ => rfl⟩
      · simp only [oneSided, if_neg n6, if_pos h3, World.step]
        rw [if_pos ⟨by rw [h1]; simp, h3⟩]
        rcases onRecv_cases shippedSetup w flood with ⟨h, _⟩ | ⟨h, _⟩ | ⟨f', h, e⟩ | ⟨s, h, _⟩
        · exact absurd (show (listenFrame shipped flood.clock 1500 flood.bytes).returns by rw [hg]; trivial) h
        · rw [show listenFrame shippedSetup.T flood.clock shippedSetup.mtu flood.bytes = _ from hg] at h; cases h
        · rw [show listenFrame shippedSetup.T flood.clock shippedSetup.mtu flood.bytes = _ from hg] at h
          cases h
          rw [e]; rfl
        · rw [show listenFrame shippedSetup.T flood.clock shippedSetup.mtu flood.bytes = _ from hg] at h; cases h
      · exact ⟨h1, h2, .inr rfl, h4⟩
    · have n4 : w.listener .v4 ≠ .reading := by rw [h3]; simp
      refine ⟨{ w.setListener .v4 .reading with handled := w.handled ++ [⟨.v4, .data g, someone, ⟨0, 0⟩⟩] }, ?_, ?_,
        fun h => absurd h n4⟩
      · rw [show oneSided w = .takeRx .v4 ⟨0, 0⟩ by unfold oneSided; rw [if_neg n6, if_neg n4]]
        simp only [World.step, h1, h3, World.onRx]
        rw [show g.shortPrint shippedSetup.T = .ret () from hgp]
        rfl
      · refine ⟨h1, h2, .inl rfl, fun h hh => ?_⟩
        rcases List.mem_append.1 hh with hh | hh
        · exact h4 h hh
        · rw [List.mem_singleton.1 hh]
  have inv : ∀ n, Inv (oneSidedAt (n + 1)) := by
    intro n
    induction n with
    | zero =>
      show Inv (Option.getD _ _)
      rw [first]
      exact ⟨rfl, rfl, .inl rfl, fun h hh => by cases hh⟩
    | succ n ih =>
      obtain ⟨w', h1, h2, _⟩ := step _ ih
      show Inv (Option.getD _ _)
      rw [h1]
      exact h2
  have run : Forever shippedSetup tranFS oneSidedAt fun n => oneSided (oneSidedAt n) := by
    refine ⟨rfl, fun i => ?_⟩
    cases i with
    | zero =>
      show _ = some (Option.getD _ _)
      rw [first]; rfl
    | succ i =>
      obtain ⟨w', h1, _⟩ := step _ (inv i)
      show _ = some (Option.getD _ _)
      rw [h1]; rfl
  have n6 : ∀ n, (oneSidedAt (n + 1)).listener .v6 ≠ .reading := fun n => by rw [(inv n).2.1]; simp
  have never : ∀ i, 1 ≤ i → ¬ (oneSided (oneSidedAt i)).Takes .v6 := by
    intro i hi
    obtain ⟨n, rfl⟩ : ∃ n, i = n + 1 := ⟨i - 1, by omega⟩
    unfold oneSided Action.Takes
    rw [if_neg (n6 n)]
    split <;> simp
  refine ⟨oneSidedAt, fun n => oneSided (oneSidedAt n), f, run, fun fair => ?_, fun i hi => ?_, fun i => ?_, fun i => ?_⟩
  · obtain ⟨j, hj, h⟩ := fair .v6 1 fun j hj => by
      obtain ⟨n, rfl⟩ : ∃ n, j = n + 1 := ⟨j - 1, by omega⟩
      exact ⟨(inv n).1, by unfold World.Offers; rw [(inv n).2.1]; simp⟩
    exact never j hj h
  · obtain ⟨n, rfl⟩ : ∃ n, i = n + 1 := ⟨i - 1, by omega⟩
    exact ⟨(inv n).1, (inv n).2.1⟩
  · have takes : ∀ n, (oneSidedAt (n + 1)).listener .v4 = .sendRx (.data g) someone →
        oneSided (oneSidedAt (n + 1)) = .takeRx .v4 ⟨0, 0⟩ := fun n h => by
      unfold oneSided
      rw [if_neg (n6 n), if_neg (by rw [h]; simp)]
    rcases (inv i).2.2.1 with h | h
    · obtain ⟨w', h1, _, h2⟩ := step _ (inv i)
      have e : oneSidedAt (i + 2) = w' := by
        show Option.getD _ _ = _
        rw [h1]; rfl
      exact ⟨i + 2, by omega, takes (i + 1) (by rw [e]; exact h2 h)⟩
    · exact ⟨i + 1, by omega, takes i h⟩
  · cases i with
    | zero => intro h hh; cases hh
    | succ i => exact (inv i).2.2.2

end Saratoga
