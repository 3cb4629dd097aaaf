import Verif.Lemmas.MainLoop
/-!
# C41, C43, C44: the program as a whole

Statements about every execution: any number of datagrams on both sockets, any order in which listeners
and main loop proceed.
-/
namespace Saratoga

/-! ## C43 -/

/-- **C43** In every state of every execution, for each socket: the packets handled, followed by the one
the listener is holding out if any, are exactly the frames carried by the datagrams read from that
socket, in their order. Nothing is lost, invented, repeated or reordered. -/
theorem C43_in_order (S : Setup) (fs : FS) (w : World) (h : Reachable S fs w) (fam : Fam) :
    CarryAll S (w.read.filter (·.fam = fam)) (w.handledFrom fam ++ w.offered fam) := by
  revert fam
  refine reachable_induction (P := fun w => ∀ fam, CarryAll S (w.read.filter (·.fam = fam))
    (w.handledFrom fam ++ w.offered fam)) ?_ ?_ h
  · intro fam; exact CarryAll.nil
  · intro w a w' ih hs fam
    have same : ∀ w' : World, w'.read = w.read → w'.handled = w.handled →
        w'.offered fam = w.offered fam → CarryAll S (w'.read.filter (·.fam = fam))
          (w'.handledFrom fam ++ w'.offered fam) := by
      intro w' h1 h2 h3
      unfold World.handledFrom
      rw [h1, h2, h3]
      exact ih fam
    rcases step_cases hs with ⟨d, rfl, _, hl, rfl⟩ | ⟨g, rfl, _, hl, rfl⟩ | ⟨g, clock, f, addr, rfl, hm, hl, rfl⟩ |
      ⟨g, s, addr, rfl, hm, hl, rfl⟩ | ⟨g, rfl, hm, hl, rfl⟩ | ⟨rfl, hm, rfl⟩ |
      ⟨rfl, hm, rfl⟩ | ⟨fs1, rfl, hm, rfl⟩
    · have hoff : w.offered d.fam = [] := by unfold World.offered; rw [hl]
      rcases onRecv_cases S w d with ⟨_, h⟩ | ⟨hf, h⟩ | ⟨f, hf, h⟩ | ⟨s, hf, h⟩
      · rw [h]; exact same _ rfl rfl rfl
      all_goals
        have alive : (listenFrame S.T d.clock S.mtu d.bytes).returns := by rw [hf]; trivial
        by_cases hg : d.fam = fam
        · subst hg
          rw [h]
          have ihd := ih d.fam
          rw [hoff, List.append_nil] at ihd
          simp only [List.filter_append, List.filter_cons, decide_true, if_true, List.filter_nil]
          first
          | (have hno : ∀ f, ¬ Carries1 S d f := by
               rintro f ⟨h1, h2, h3⟩
               have := C42_delivered S.T d.clock S.mtu d.bytes f h1 h2 h3 alive
               rw [hf] at this; cases this
             have := CarryAll.skip d hno ihd
             have ho : (World.handledFrom { w with read := w.read ++ [d] } d.fam ++
               World.offered { w with read := w.read ++ [d] } d.fam) = w.handledFrom d.fam := by
               show w.handledFrom d.fam ++ w.offered d.fam = _
               rw [hoff, List.append_nil]
             rw [ho]
             exact this)
          | (have hno : ∀ f, ¬ Carries1 S d f := by
               rintro f ⟨h1, h2, h3⟩
               have := C42_delivered S.T d.clock S.mtu d.bytes f h1 h2 h3 alive
               rw [hf] at this; cases this
             have := CarryAll.skip d hno ihd
             have ho : ∀ s, (World.handledFrom { w.setListener d.fam (.sendTx s d.source) with read := w.read ++ [d] } d.fam ++
               World.offered { w.setListener d.fam (.sendTx s d.source) with read := w.read ++ [d] } d.fam) = w.handledFrom d.fam := by
               intro s
               unfold World.offered
               simp only [setListener_self]
               exact List.append_nil _
             rw [ho]
             exact this)
          | (have := CarryAll.take d f (C42_delivers _ _ _ _ _ hf) ihd
             have ho : (World.handledFrom { w.setListener d.fam (.sendRx f d.source) with read := w.read ++ [d] } d.fam ++
               World.offered { w.setListener d.fam (.sendRx f d.source) with read := w.read ++ [d] } d.fam) =
                 w.handledFrom d.fam ++ [(f, d.source)] := by
               unfold World.offered
               simp only [setListener_self]
               rfl
             rw [ho]
             exact this)
        · rw [h]
          have hfil : (w.read ++ [d]).filter (·.fam = fam) = w.read.filter (·.fam = fam) := by
            simp [List.filter_append, hg]
          have hne : fam ≠ d.fam := fun e => hg e.symm
          show CarryAll S ((w.read ++ [d]).filter (·.fam = fam)) _
          rw [hfil]
          have ihf := ih fam
          unfold World.offered at ihf ⊢
          first
          | exact ihf
          | (simp only [setListener_other _ _ hne]; exact ihf)
    · by_cases hg : g = fam
      · subst hg
        refine same _ rfl rfl ?_
        unfold World.offered
        rw [setListener_self, hl]
      · refine same _ rfl rfl ?_
        unfold World.offered
        rw [setListener_other _ _ (fun e => hg e.symm)]
    · obtain ⟨h1, h2, h3, _, _⟩ := onRx_logs S w g clock f addr
      by_cases hg : g = fam
      · subst hg
        have ihg := ih g
        have e1 : World.offered w g = [(f, addr)] := by unfold World.offered; rw [hl]
        have e2 : World.offered (w.onRx S g clock f addr) g = [] := by
          unfold World.offered; rw [h1, setListener_self]
        rw [e1] at ihg
        rw [e2, h2]
        unfold World.handledFrom at ihg ⊢
        rw [h3, List.filter_append, List.map_append]
        simpa using ihg
      · have e2 : World.offered (w.onRx S g clock f addr) fam = World.offered w fam := by
          unfold World.offered; rw [h1, setListener_other _ _ (fun e => hg e.symm)]
        have := ih fam
        rw [e2, h2]
        unfold World.handledFrom at this ⊢
        rw [h3, List.filter_append]
        simpa [hg] using this
    · obtain ⟨h1, h2, h3, _⟩ := onTx_logs S w g s addr
      refine same _ h2 h3 ?_
      unfold World.offered
      rw [h1]
      by_cases hg : g = fam
      · subst hg; rw [setListener_self, hl]
      · rw [setListener_other _ _ (fun e => hg e.symm)]
    · refine same _ rfl rfl ?_
      unfold World.offered
      by_cases hg : g = fam
      · subst hg; simp only [setListener_self, hl]
      · simp only [setListener_other _ _ (fun e => hg e.symm)]
    · exact same _ rfl rfl rfl
    · exact same _ rfl rfl rfl
    · exact same _ rfl rfl rfl

/-- The same bytes say one thing. -/
theorem Says.unique {T : Tables} {b : List Byte} {f g : Frame} (h1 : Says T b f) (h2 : Says T b g) : f = g := by
  cases f <;> cases g <;>
    (obtain ⟨a, b⟩ := h1; obtain ⟨c, d⟩ := h2; rw [a] at c; first | (simp at c; done) | (rw [b] at d; cases d; rfl))

/-- **C43** The frames carried by datagrams are determined by them. -/
theorem C43_determined (S : Setup) (ds : List Datagram) (fs gs : List (Frame × UDPAddr))
    (h1 : CarryAll S ds fs) (h2 : CarryAll S ds gs) : fs = gs := by
  induction h1 generalizing gs with
  | nil =>
    generalize hd : ([] : List Datagram) = ds at h2
    cases h2 with
    | nil => rfl
    | skip d => simp at hd
    | take d => simp at hd
  | @skip ds fs d hno h ih =>
    generalize hd : ds ++ [d] = ds' at h2
    cases h2 with
    | nil => simp at hd
    | skip d' hno' h' =>
      obtain ⟨rfl, hh⟩ := List.append_inj' hd rfl
      exact ih _ h'
    | take d' f' says' h' =>
      obtain ⟨rfl, hh⟩ := List.append_inj' hd rfl
      cases hh
      exact absurd says' (hno f')
  | @take ds fs d f says h ih =>
    generalize hd : ds ++ [d] = ds' at h2
    cases h2 with
    | nil => simp at hd
    | skip d' hno' h' =>
      obtain ⟨rfl, hh⟩ := List.append_inj' hd rfl
      cases hh
      exact absurd says (hno' f)
    | take d' f' says' h' =>
      obtain ⟨rfl, hh⟩ := List.append_inj' hd rfl
      cases hh
      rw [ih _ h', Says.unique says.2.2 says'.2.2]

/-! ## C44 -/

/-- **C44** fails in the strongest way: no execution ever puts a reply on the wire. -/
theorem C44_never_sent (S : Setup) (fs : FS) (w : World) (h : Reachable S fs w) : w.wire = [] := by
  refine reachable_induction (P := fun w => w.wire = []) rfl ?_ h
  intro w a w' ih hs
  rcases step_cases hs with ⟨d, rfl, _, hl, rfl⟩ | ⟨g, rfl, _, hl, rfl⟩ | ⟨g, clock, f, addr, rfl, hm, hl, rfl⟩ |
      ⟨g, s, addr, rfl, hm, hl, rfl⟩ | ⟨g, rfl, hm, hl, rfl⟩ | ⟨rfl, hm, rfl⟩ |
      ⟨rfl, hm, rfl⟩ | ⟨fs1, rfl, hm, rfl⟩
  · rcases onRecv_cases S w d with ⟨_, h⟩ | ⟨hf, h⟩ | ⟨f, hf, h⟩ | ⟨s, hf, h⟩ <;> (rw [h]; exact ih)
  · exact ih
  · rw [(onRx_logs S w g clock f addr).2.2.2.2]; exact ih
  · rw [(onTx_logs S w g s addr).2.2.2.2.1]; exact ih
  · exact ih
  · exact ih
  · exact ih
  · exact ih

/-- A setup with the shipped tables. -/
def shippedSetup : Setup := ⟨shipped, fun _ => "peer", 1500, [slash, 0x64#8]⟩

/-- A host that sends. -/
def someone : UDPAddr := ⟨[10#8, 0#8, 0#8, 1#8], 7542, ""⟩

example (S : Setup) : CarryAll S [⟨.v4, ⟨0, 0⟩, [1], someone⟩] [] :=
  .skip (ds := []) _ (fun f h => by have := h.1.1; simp at this) .nil

example (fs : FS) : ∃ w, (World.init fs).run shippedSetup
    [.recv ⟨.v4, ⟨0, 0⟩, [0x20, 0, 0, 0, 104, 105, 33, 33], someone⟩] = some w ∧ w.read.length = 1 := ⟨_, rfl, rfl⟩

/-- **C44** fails: a version 0 datagram is answered, the main loop takes the reply, and however the
execution goes on the reply is never on the wire. -/
theorem C44_counterexample : ∃ (acts : List Action) (w : World) (r : Reply),
    (World.init tranFS).run shippedSetup acts = some w ∧ r ∈ w.taken ∧
    ∀ more w', w.run shippedSetup more = some w' → r ∉ w'.wire := by
  obtain ⟨w, hw, ht⟩ : ∃ w, (World.init tranFS).run shippedSetup
      [.recv ⟨.v4, ⟨0, 0⟩, [0, 0, 0, 0, 0, 0, 0, 0], someone⟩, .takeTx .v4] = some w ∧
      w.taken = [⟨.v4, ⟨0x2400000A#32, 0, Timestamp.zero, 0, 0, []⟩, someone⟩] := ⟨_, rfl, by decide +kernel⟩
  refine ⟨_, w, _, hw, by rw [ht]; exact List.mem_singleton.2 rfl, ?_⟩
  intro more w' h
  have : Reachable shippedSetup tranFS w' := ⟨_, by rw [run_append, hw]; exact h⟩
  rw [C44_never_sent _ _ _ this]
  exact List.not_mem_nil

/-- The replies the listener queues for datagrams, with where they are to go. -/
def queuedFor (S : Setup) (ds : List Datagram) : List (Status × UDPAddr) :=
  ds.filterMap fun d =>
    match listenFrame S.T d.clock S.mtu d.bytes with
    | .ret (.tx s) => some (s, d.source)
    | _ => none

/-- The reply a listener is holding out to the main loop. -/
def World.waitingReply (w : World) (fam : Fam) : List (Status × UDPAddr) :=
  match w.listener fam with
  | .sendTx s a => [(s, a)]
  | _ => []

/-- **C44** what holds: the replies queued by a listener reach the main loop, each once and in order.
Missing: the main loop only prints them, and its own replies reach nobody. -/
theorem C44_taken_partial (S : Setup) (fs : FS) (w : World) (h : Reachable S fs w) (fam : Fam) :
    ((w.taken.filter (·.fam = fam)).map fun r => (r.status, r.dest)) ++ w.waitingReply fam =
      queuedFor S (w.read.filter (·.fam = fam)) := by
  revert fam
  refine reachable_induction (P := fun w => ∀ fam, ((w.taken.filter (·.fam = fam)).map fun r => (r.status, r.dest))
    ++ w.waitingReply fam = queuedFor S (w.read.filter (·.fam = fam))) ?_ ?_ h
  · intro fam; rfl
  · intro w a w' ih hs fam
    have same : ∀ w' : World, w'.read = w.read → w'.taken = w.taken →
        w'.waitingReply fam = w.waitingReply fam →
        ((w'.taken.filter (·.fam = fam)).map fun r => (r.status, r.dest)) ++ w'.waitingReply fam =
          queuedFor S (w'.read.filter (·.fam = fam)) := by
      intro w' h1 h2 h3
      rw [h1, h2, h3]
      exact ih fam
    have wait : ∀ (w' : World) (g : Fam) (st : LState), w'.listener = (w.setListener g st).listener →
        (∀ s a, w.listener g ≠ .sendTx s a) → (∀ s a, st ≠ .sendTx s a) →
        w'.waitingReply fam = w.waitingReply fam := by
      intro w' g st h1 h2 h3
      unfold World.waitingReply
      rw [h1]
      by_cases hg : g = fam
      · subst hg
        rw [setListener_self]
        cases hx : w.listener g with
        | sendTx s a => exact absurd hx (h2 s a)
        | _ => cases st <;> first | rfl | exact absurd rfl (h3 _ _)
      · rw [setListener_other _ _ (fun e => hg e.symm)]
    rcases step_cases hs with ⟨d, rfl, _, hl, rfl⟩ | ⟨g, rfl, _, hl, rfl⟩ | ⟨g, clock, f, addr, rfl, hm, hl, rfl⟩ |
      ⟨g, s, addr, rfl, hm, hl, rfl⟩ | ⟨g, rfl, hm, hl, rfl⟩ | ⟨rfl, hm, rfl⟩ |
      ⟨rfl, hm, rfl⟩ | ⟨fs1, rfl, hm, rfl⟩
    · have hw0 : w.waitingReply d.fam = [] := by unfold World.waitingReply; rw [hl]
      have reads : ∀ w' : World, w'.read = w.read ++ [d] → w'.taken = w.taken →
          w'.waitingReply fam = (if d.fam = fam then queuedFor S [d] else w.waitingReply fam) →
          ((w'.taken.filter (·.fam = fam)).map fun r => (r.status, r.dest)) ++ w'.waitingReply fam =
            queuedFor S (w'.read.filter (·.fam = fam)) := by
        intro w' h1 h2 h3
        rw [h1, h2, h3, List.filter_append]
        have hap : ∀ x y, queuedFor S (x ++ y) = queuedFor S x ++ queuedFor S y := by
          intro x y; unfold queuedFor; rw [List.filterMap_append]
        rw [hap, ← ih fam]
        by_cases hg : d.fam = fam
        · subst hg
          rw [hw0, if_pos rfl, List.append_nil]
          simp
        · rw [if_neg hg]
          have : List.filter (fun x => decide (x.fam = fam)) [d] = [] := by simp [hg]
          rw [this]
          simp [queuedFor]
      rcases onRecv_cases S w d with ⟨_, h⟩ | ⟨hf, h⟩ | ⟨f, hf, h⟩ | ⟨s, hf, h⟩
      · rw [h]; exact same _ rfl rfl rfl
      · rw [h]
        refine reads _ rfl rfl ?_
        show w.waitingReply fam = _
        split
        · rename_i hg; subst hg; rw [hw0]; simp [queuedFor, hf]
        · rfl
      · rw [h]
        refine reads _ rfl rfl ?_
        split
        · rename_i hg; subst hg
          unfold World.waitingReply
          simp only [setListener_self]
          simp [queuedFor, hf]
        · rename_i hg
          unfold World.waitingReply
          simp only [setListener_other _ _ (fun e => hg e.symm)]
      · rw [h]
        refine reads _ rfl rfl ?_
        split
        · rename_i hg; subst hg
          unfold World.waitingReply
          simp only [setListener_self]
          simp [queuedFor, hf]
        · rename_i hg
          unfold World.waitingReply
          simp only [setListener_other _ _ (fun e => hg e.symm)]
    · exact same _ rfl rfl (wait _ g _ rfl (by rw [hl]; intros; simp) (by intros; simp))
    · obtain ⟨h1, h2, h3, h4, _⟩ := onRx_logs S w g clock f addr
      exact same _ h2 h4 (wait _ g _ h1 (by rw [hl]; intros; simp) (by intros; simp))
    · obtain ⟨h1, h2, h3, h4, _⟩ := onTx_logs S w g s addr
      rw [h2, h4, List.filter_append]
      have ihf := ih fam
      by_cases hg : g = fam
      · subst hg
        have e1 : w.waitingReply g = [(s, addr)] := by unfold World.waitingReply; rw [hl]
        have e2 : World.waitingReply (w.onTx S g s addr) g = [] := by
          unfold World.waitingReply; rw [h1, setListener_self]
        rw [e1] at ihf
        rw [e2, ← ihf]
        simp
      · have e2 : World.waitingReply (w.onTx S g s addr) fam = w.waitingReply fam := by
          unfold World.waitingReply; rw [h1, setListener_other _ _ (fun e => hg e.symm)]
        rw [e2, ← ihf]
        simp [hg]
    · exact same _ rfl rfl (wait _ g .gone rfl (by rw [hl]; intros; simp) (by intros; simp))
    · exact same _ rfl rfl rfl
    · exact same _ rfl rfl rfl
    · exact same _ rfl rfl rfl

example : ((World.init ⟨[], [], fun _ _ => false⟩).run shippedSetup
    [.recv ⟨.v4, ⟨0, 0⟩, [0x10, 0, 0, 0, 104, 105, 33, 33], someone⟩]).map (fun w => (w.waitingReply .v4).length) = some 1 := by
  decide +kernel

end Saratoga
