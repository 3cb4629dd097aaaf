import Verif.Props.Desk
/-!
# C137, C138: what the main loop makes of data for a transfer, and how long the peer list gets
-/
namespace Saratoga

/-! ## C137 -/

/-- A main loop that is not at its `select` never gets there again: it handles nothing more, and lists and files stay
as they are but for what others do to the files. -/
theorem stuck_stays {S : Setup} {w : World} (stuck : w.main ≠ .select) (more : List Action) {w' : World}
    (h : w.run S more = some w') :
    w'.main ≠ .select ∧ w'.handled = w.handled ∧ w'.transfers = w.transfers ∧ w'.peers = w.peers ∧
      w'.fs = filesLeft w.fs more := by
  have key := run_induction_log (S := S) (P := fun as v => v.main ≠ .select ∧ v.handled = w.handled ∧
    v.transfers = w.transfers ∧ v.peers = w.peers ∧ v.fs = filesLeft w.fs as) ?_ more (pre := [])
    ⟨stuck, rfl, rfl, rfl, rfl⟩ h
  · exact key
  intro as v b v' ⟨h1, h2, h3, h4, h5⟩ hs
  rw [filesLeft_snoc]
  rcases step_cases hs with ⟨d, rfl, _, hl, rfl⟩ | ⟨g, rfl, _, hl, rfl⟩ | ⟨g, clock, f, addr, rfl, hm, hl, rfl⟩ |
      ⟨g, s, addr, rfl, hm, hl, rfl⟩ | ⟨g, rfl, hm, hl, rfl⟩ | ⟨rfl, hm, rfl⟩ |
      ⟨rfl, hm, rfl⟩ | ⟨fs1, rfl, hm, rfl⟩
  · rcases onRecv_cases S v d with ⟨_, h⟩ | ⟨hf, h⟩ | ⟨f, hf, h⟩ | ⟨s, hf, h⟩ <;> rw [h]
    · exact ⟨by simp, h2, h3, h4, h5⟩
    · exact ⟨h1, h2, h3, h4, h5⟩
    · exact ⟨h1, h2, h3, h4, h5⟩
    · exact ⟨h1, h2, h3, h4, h5⟩
  · exact ⟨h1, h2, h3, h4, h5⟩
  · exact absurd hm h1
  · exact absurd hm h1
  · exact absurd hm h1
  · exact absurd hm h1
  · exact ⟨by simp, h2, h3, h4, h5⟩
  · exact ⟨h1, h2, h3, h4, rfl⟩

/-- A request that was handled leaves the main loop away from its `select`. -/
theorem request_sticks {S : Setup} (ht : TranTables S.T) {w w' : World} {fam : Fam} {clock : GoTime} {r : Request}
    {a : UDPAddr} (offered : w.listener fam = .sendRx (.request r) a)
    (h : w.step S (.takeRx fam clock) = some w') : w'.main ≠ .select :=
  (C41_every_request S ht w w' fam clock r a offered h [] w' rfl).1

/-- The frame is one of those that carry a transfer on. -/
def Frame.Carries : Frame → Prop
  | .data _ => True
  | .metadata _ => True
  | .status _ => True
  | _ => False

/-- **C137** fails: whatever the tables and the state, a data, metadata or status frame that the main loop takes changes
no file, no transfer and no peer, and puts nothing on the wire; at most it ends the process. -/
theorem C137_only_printed (S : Setup) (w w' : World) (fam : Fam) (clock : GoTime) (f : Frame) (a : UDPAddr)
    (carries : f.Carries) (offered : w.listener fam = .sendRx f a) (h : w.step S (.takeRx fam clock) = some w') :
    w'.fs = w.fs ∧ w'.transfers = w.transfers ∧ w'.peers = w.peers ∧ w'.taken = w.taken ∧ w'.wire = w.wire ∧
      (w'.main = .select ∨ w'.main = .ended) := by
  rcases step_cases h with ⟨d, he, _⟩ | ⟨g, he, _⟩ | ⟨g, clock', f', addr, he, hm, hl, rfl⟩ |
      ⟨g, s, addr, he, _⟩ | ⟨g, he, _⟩ | ⟨he, _⟩ | ⟨he, _⟩ | ⟨_, he, _⟩
  all_goals first | (cases he; done) | skip
  cases he
  rw [offered] at hl
  cases hl
  unfold World.onRx World.orEnd
  cases f with
  | beacon b => exact carries.elim
  | request r => exact carries.elim
  | data d => simp only; split <;> exact ⟨rfl, rfl, rfl, rfl, rfl, by first | exact .inl hm | exact .inr rfl⟩
  | metadata m => simp only; split <;> exact ⟨rfl, rfl, rfl, rfl, rfl, by first | exact .inl hm | exact .inr rfl⟩
  | status s => simp only; split <;> exact ⟨rfl, rfl, rfl, rfl, rfl, by first | exact .inl hm | exact .inr rfl⟩

theorem transfers_stick {S : Setup} (ht : TranTables S.T) {fs : FS} {w : World} (reach : Reachable S fs w)
    (has : w.transfers ≠ []) : w.main ≠ .select := by
  revert has
  refine reachable_induction (P := fun w => w.transfers ≠ [] → w.main ≠ .select) (fun h => absurd rfl h) ?_ reach
  intro w b w' ih hs has
  by_cases old : w.transfers = []
  · rcases step_cases hs with ⟨d, rfl, _, hr, rfl⟩ | ⟨g, rfl, _, hr, rfl⟩ | ⟨g, clock, f, a, rfl, hm, hr, rfl⟩ |
      ⟨g, s, addr, rfl, hm, hr, rfl⟩ | ⟨g, rfl, hm, hr, rfl⟩ | ⟨rfl, hm, rfl⟩ |
      ⟨rfl, hm, rfl⟩ | ⟨fs1, rfl, hm, rfl⟩
    · rcases onRecv_cases S w d with ⟨_, h⟩ | ⟨hf, h⟩ | ⟨f, hf, h⟩ | ⟨s, hf, h⟩ <;>
        (rw [h] at has; exact absurd old has)
    · exact absurd old has
    · cases f with
      | request r => exact request_sticks ht hr hs
      | beacon x =>
        refine absurd (Eq.trans ?_ old) has
        unfold World.onRx World.orEnd; simp only; split <;> rfl
      | data x => exact absurd ((C137_only_printed S w _ g clock (.data x) a trivial hr hs).2.1.trans old) has
      | metadata x => exact absurd ((C137_only_printed S w _ g clock (.metadata x) a trivial hr hs).2.1.trans old) has
      | status x => exact absurd ((C137_only_printed S w _ g clock (.status x) a trivial hr hs).2.1.trans old) has
    · obtain ⟨_, _, _, _, _, _, h7, _⟩ := onTx_logs S w g s addr
      exact absurd (h7.trans old) has
    · exact absurd old has
    · exact absurd old has
    · exact absurd old has
    · exact absurd old has
  · exact (stuck_stays (ih old) [b] (by show (w.step S b).bind _ = _; rw [hs]; rfl)).1

/-- **C137** fails even for tables with which requests are answered: as soon as there is a transfer in the table the
main loop takes no frame any more, in no continuation whatever, so no data, metadata or status frame is ever handled
while a transfer is there to which it could belong; and the files only change as others change them. -/
theorem C137_never_taken (S : Setup) (ht : TranTables S.T) (fs : FS) (w : World) (reach : Reachable S fs w)
    (has : w.transfers ≠ []) (more : List Action) (w' : World) (h : w.run S more = some w') :
    (∀ fam clock, w'.step S (.takeRx fam clock) = none) ∧ w'.handled = w.handled ∧ w'.transfers = w.transfers ∧
      w'.fs = filesLeft w.fs more := by
  obtain ⟨h1, h2, h3, _, h5⟩ := stuck_stays (transfers_stick ht reach has) more h
  refine ⟨fun fam clock => ?_, h2, h3, h5⟩
  cases hx : w'.step S (.takeRx fam clock) with
  | none => rfl
  | some v =>
    rcases step_cases hx with ⟨d, he, _⟩ | ⟨g, he, _⟩ | ⟨g, clock', f, addr, he, hm, hl, _⟩ |
      ⟨g, s, addr, he, _⟩ | ⟨g, he, _⟩ | ⟨he, _⟩ | ⟨he, _⟩ | ⟨_, he, _⟩
    all_goals first | (cases he; done) | skip
    exact absurd hm h1

/-- **C137** what is left: with the shipped tables a running program has no transfer at all, and its files are as at the
start or as others left them, whatever data was received. -/
theorem C137_files_partial (S : Setup) (hT : S.T = shipped) (fs : FS) (acts : List Action) (w : World)
    (h : (World.init fs).run S acts = some w) (running : w.main ≠ .ended) :
    w.transfers = [] ∧ w.fs = filesLeft fs acts := by
  obtain ⟨_, h2, h3⟩ := C41_without_requests_partial S fs acts w h (running_unasked hT ⟨acts, h⟩ running)
  exact ⟨h3, h2⟩

/-- A request to put the file "g" into place. -/
def putRequest : List Byte := [0x21, 0x0F, 0, 0x02, 0, 0, 0, 5, 0x67, 0]

example : ∃ w, (World.init tranFS).run patchedSetup
    [.recv ⟨.v4, ⟨0, 0⟩, putRequest, someone⟩, .takeRx .v4 ⟨0, 0⟩] = some w ∧ w.transfers ≠ [] :=
  ⟨_, rfl, by decide +kernel⟩

/-- Data for the transfer of that request. -/
def putData : List Byte := [0x23, 0, 0, 0, 0, 0, 0, 5, 0, 0, 0x41, 0x42]

example : ∃ w, (World.init tranFS).run shippedSetup
    [.recv ⟨.v4, ⟨0, 0⟩, putData, someone⟩, .takeRx .v4 ⟨0, 0⟩] = some w ∧ w.main ≠ .ended :=
  ⟨_, rfl, by decide +kernel⟩

/-- **C137** fails: with tables that let requests be answered, a request to put a file is accepted and its transfer is in
the table; the first data of its session is read from the same peer and waits; and in no continuation is it handled, nor
does the file ever appear unless somebody else makes it. -/
theorem C137_counterexample : ∃ (acts : List Action) (w : World) (t : RxTran) (d : Data),
    (World.init tranFS).run patchedSetup acts = some w ∧ w.transfers = [t] ∧ t.ttype = "put" ∧ t.fname = [0x67#8] ∧
    t.peer = someone ∧ w.listener .v4 = .sendRx (.data d) someone ∧ d.session = t.session ∧ d.offset = 0 ∧
    d.payload = [0x41#8, 0x42#8] ∧
    ∀ more w', w.run patchedSetup more = some w' →
      (∀ fam clock, w'.step patchedSetup (.takeRx fam clock) = none) ∧ w'.fs = filesLeft tranFS more := by
  obtain ⟨w, t, d, h, ht, hl, hfs, h1, h2, h3, h4, h5, h6⟩ : ∃ w t d, (World.init tranFS).run patchedSetup
      [.recv ⟨.v4, ⟨0, 0⟩, putRequest, someone⟩, .takeRx .v4 ⟨1000000000, 0⟩,
       .recv ⟨.v4, ⟨0, 0⟩, putData, someone⟩] = some w ∧ w.transfers = [t] ∧
      w.listener .v4 = .sendRx (.data d) someone ∧ w.fs = tranFS ∧
      t.ttype = "put" ∧ t.fname = [0x67#8] ∧ t.peer = someone ∧ d.session = t.session ∧ d.offset = 0 ∧
      d.payload = [0x41#8, 0x42#8] :=
    ⟨_, _, _, rfl, rfl, rfl, rfl, by decide +kernel, by decide +kernel, by decide +kernel, by decide +kernel,
      by decide +kernel, by decide +kernel⟩
  refine ⟨_, w, t, d, h, ht, h1, h2, h3, hl, h4, h5, h6, fun more w' hr => ?_⟩
  obtain ⟨k1, _, _, k4⟩ := C137_never_taken patchedSetup patched_tables tranFS w ⟨_, h⟩ (by rw [ht]; simp) more w' hr
  rw [hfs] at k4
  exact ⟨k1, k4⟩

/-- Data received under the shipped tables: read, handled, and nothing else. -/
example : ∃ w, (World.init tranFS).run shippedSetup
    [.recv ⟨.v4, ⟨0, 0⟩, putData, someone⟩, .takeRx .v4 ⟨0, 0⟩] = some w ∧ w.main = .select ∧ w.handled.length = 1 :=
  ⟨_, rfl, by decide +kernel, by decide +kernel⟩

/-! ## C138 -/

/-- A peer list only gets longer at its end, by at most one, and its addresses stay. -/
theorem newPeer_keeps {T : Tables} {ipText : List Byte → String} {clock : GoTime} {peers : List Peer} {b : Beacon}
    {src : Option UDPAddr} {r : List Peer × Bool} (h : newPeer T ipText clock peers b src = .ret r) :
    r.1.map Peer.addr = peers.map Peer.addr ∨ ∃ a, r.1.map Peer.addr = peers.map Peer.addr ++ [a] := by
  unfold newPeer at h
  cases src with
  | none => cases h; exact .inl rfl
  | some a =>
    simp only at h
    cases hf : findPeer (ipText a.ip) peers 0 with
    | none =>
      rw [hf] at h
      simp only [appendPeer] at h
      obtain ⟨p, _, h⟩ := Out.bind_eq_ret h
      cases h
      exact .inr ⟨p.addr, by simp⟩
    | some i =>
      rw [hf] at h
      simp only [updatePeer] at h
      cases hi : peers[i]? with
      | none => rw [hi] at h; cases h
      | some p =>
        rw [hi] at h
        simp only at h
        obtain ⟨dd, _, h⟩ := Out.bind_eq_ret h
        split at h
        · obtain ⟨p', hp, h⟩ := Out.bind_eq_ret h
          cases h
          refine .inl ?_
          have e : p'.addr = p.addr := by
            unfold Peer.refresh at hp
            obtain ⟨_, _, hp⟩ := Out.bind_eq_ret hp
            obtain ⟨_, _, hp⟩ := Out.bind_eq_ret hp
            obtain ⟨_, _, hp⟩ := Out.bind_eq_ret hp
            obtain ⟨_, _, hp⟩ := Out.bind_eq_ret hp
            cases hp; rfl
          simp only
          rw [List.map_set, e]
          apply List.ext_getElem? 
          intro j
          rw [List.getElem?_set]
          split
          · next hj =>
            subst hj
            have hlt : i < peers.length := by
              rcases Nat.lt_or_ge i peers.length with h | h
              · exact h
              · rw [List.getElem?_eq_none h] at hi; cases hi
            rw [if_pos (by simpa using hlt), List.getElem?_map, hi]; rfl
          · rfl
        · cases h; exact .inl rfl

/-- What one step does to the addresses of the list. -/
theorem step_peers {S : Setup} {w w' : World} {a : Action} (h : w.step S a = some w') :
    w'.peers.map Peer.addr = w.peers.map Peer.addr ∨ ∃ x, w'.peers.map Peer.addr = w.peers.map Peer.addr ++ [x] := by
  rcases step_cases h with ⟨d, rfl, _, hr, rfl⟩ | ⟨g, rfl, _, hr, rfl⟩ | ⟨g, clock, f, a, rfl, hm, hr, rfl⟩ |
      ⟨g, s, addr, rfl, hm, hr, rfl⟩ | ⟨g, rfl, hm, hr, rfl⟩ | ⟨rfl, hm, rfl⟩ |
      ⟨rfl, hm, rfl⟩ | ⟨fs1, rfl, hm, rfl⟩
  · refine .inl ?_
    rcases onRecv_cases S w d with ⟨_, h⟩ | ⟨hf, h⟩ | ⟨f, hf, h⟩ | ⟨s, hf, h⟩ <;> rw [h] <;> rfl
  · exact .inl rfl
  · cases f with
    | beacon b =>
      unfold World.onRx World.orEnd
      simp only
      split
      · next r hx =>
        obtain ⟨_, _, hx⟩ := Out.bind_eq_ret hx
        exact newPeer_keeps hx
      · exact .inl rfl
      · exact .inl rfl
    | data x => exact .inl (by rw [(C137_only_printed S w _ g clock (.data x) a trivial hr h).2.2.1])
    | metadata x => exact .inl (by rw [(C137_only_printed S w _ g clock (.metadata x) a trivial hr h).2.2.1])
    | status x => exact .inl (by rw [(C137_only_printed S w _ g clock (.status x) a trivial hr h).2.2.1])
    | request r =>
      refine .inl ?_
      unfold World.onRx World.orEnd
      simp only
      split
      · split <;> rfl
      · rfl
      · rfl
  · exact .inl (by rw [(onTx_logs S w g s addr).2.2.2.2.2.1])
  · exact .inl rfl
  · exact .inl rfl
  · exact .inl rfl
  · exact .inl rfl

/-- **C138** fails: an address that is in the list stays in it, at its place, in every continuation, however long nothing
is heard from it. -/
theorem C138_never_leaves (S : Setup) (w w' : World) (more : List Action) (h : w.run S more = some w') :
    w.peers.map Peer.addr <+: w'.peers.map Peer.addr := by
  refine run_induction (P := fun v => w.peers.map Peer.addr <+: v.peers.map Peer.addr) ?_ more (List.prefix_refl _) h
  intro v a v' hp hs
  rcases step_peers hs with e | ⟨x, e⟩
  · rw [e]; exact hp
  · rw [e]; exact hp.trans (List.prefix_append _ _)

/-- The beacon used below. -/
def plainBeacon : List Byte := [0x20, 0, 0, 0, 104, 105, 33, 33]

theorem plainBeacon_read (clock : GoTime) {mtu : Nat} (hm : 68 ≤ mtu) :
    listenFrame shipped clock mtu plainBeacon = .ret (.rx (.beacon ⟨0x20000000#32, 0, [104, 105, 33, 33]⟩)) := by
  have ht : plainBeacon.take (mtu + 40) = plainBeacon := List.take_of_length_le (by show 8 ≤ _; omega)
  unfold listenFrame
  simp only [ht]
  rw [if_neg (by decide), if_neg (by show ¬ ((8 : Nat) : Int) > _; omega)]
  have e : readWord plainBeacon 0 = .ret 0x20000000#32 := by decide +kernel
  have v : getStr shipped 0x20000000#32 "version" = .ret "v1" := by decide +kernel
  rw [e]
  simp only [Out.ret_bind]
  rw [v]
  simp only [Out.ret_bind]
  rw [if_neg (by decide)]
  rfl

/-- One such beacon from each of the hosts, each handled before the next is read. -/
def beaconsFrom (sources : List UDPAddr) : List Action :=
  sources.flatMap fun a => [.recv ⟨.v4, ⟨0, 0⟩, plainBeacon, a⟩, .takeRx .v4 ⟨0, 0⟩]

theorem beaconsFrom_run {S : Setup} (hT : S.T = shipped) (hm : 68 ≤ S.mtu) (fs : FS) :
    ∀ (sources : List UDPAddr) (w : World), Reachable S fs w → w.main = .select → w.listener .v4 = .reading →
      ∃ w', w.run S (beaconsFrom sources) = some w' ∧ Reachable S fs w' ∧ w'.main = .select ∧
        w'.listener .v4 = .reading ∧ (sightings w'.handled).map (Sighting.addr S.ipText) =
          (sightings w.handled).map (Sighting.addr S.ipText) ++ sources.map fun a => S.ipText a.ip
  | [], w, hr, h1, h2 => ⟨w, rfl, hr, h1, h2, by simp⟩
  | a :: rest, w, hr, h1, h2 => by
    have hd := plainBeacon_read ⟨0, 0⟩ hm
    rw [← hT] at hd
    have s1 : w.step S (.recv ⟨.v4, ⟨0, 0⟩, plainBeacon, a⟩) = some (w.onRecv S ⟨.v4, ⟨0, 0⟩, plainBeacon, a⟩) := by
      simp only [World.step]
      rw [if_pos ⟨by rw [h1]; simp, h2⟩]
    have r1 := hr.step s1
    obtain ⟨v, hv⟩ : ∃ v, v = w.onRecv S ⟨.v4, ⟨0, 0⟩, plainBeacon, a⟩ := ⟨_, rfl⟩
    rw [← hv] at s1 r1
    have v1 : v.main = .select ∧ v.listener .v4 = .sendRx (.beacon ⟨0x20000000#32, 0, [104, 105, 33, 33]⟩) a ∧
        v.handled = w.handled := by
      rcases onRecv_cases S w ⟨.v4, ⟨0, 0⟩, plainBeacon, a⟩ with ⟨hn, _⟩ | ⟨hf, _⟩ | ⟨f', hf, h⟩ | ⟨s, hf, _⟩
      · simp only at hn; rw [hd] at hn; exact absurd trivial hn
      · simp only at hf; rw [hd] at hf; cases hf
      · simp only at hf; rw [hd] at hf; cases hf
        rw [← hv] at h; rw [h]
        have k := setListener_self w .v4 (.sendRx (.beacon ⟨0x20000000#32, 0, [104, 105, 33, 33]⟩) a)
        exact ⟨h1, k, rfl⟩
      · simp only at hf; rw [hd] at hf; cases hf
    obtain ⟨v1, v2, v3⟩ := v1
    have s2 : v.step S (.takeRx .v4 ⟨0, 0⟩) = some (v.onRx S .v4 ⟨0, 0⟩ (.beacon ⟨0x20000000#32, 0, [104, 105, 33, 33]⟩) a) := by
      simp only [World.step, v1, v2]
    have r2 := r1.step s2
    have m2 := (C65_ends_iff_partial S hT fs v _ r1 .v4 ⟨0, 0⟩ _ _ v2 s2).2 (fun h => h)
    obtain ⟨l1, _, l3, _⟩ := onRx_logs S v .v4 ⟨0, 0⟩ (.beacon ⟨0x20000000#32, 0, [104, 105, 33, 33]⟩) a
    obtain ⟨w', e1, e2, e3, e4, e5⟩ := beaconsFrom_run hT hm fs rest _ r2 m2 (by rw [l1]; exact setListener_self _ _ _)
    refine ⟨w', ?_, e2, e3, e4, ?_⟩
    · show (w.step S _).bind _ = _
      rw [s1]
      show (v.step S _).bind _ = _
      rw [s2]
      exact e1
    · rw [e5, l3, sightings_append, v3]
      simp [sightings, Sighting.addr]

theorem firstSeen_once : ∀ {l : List String}, l.Nodup → firstSeen l = l
  | [], _ => rfl
  | a :: rest, h => by
    rw [List.nodup_cons] at h
    unfold firstSeen
    rw [firstSeen_once h.2, List.filter_eq_self.2]
    intro b hb
    simp only [decide_eq_true_eq, ne_eq]
    rintro rfl
    exact h.1 hb

/-- **C138** fails: however many hosts there are, one beacon of eight bytes from each makes the list as long as that,
and the program goes on listening. No number bounds the list. -/
theorem C138_counterexample (S : Setup) (hT : S.T = shipped) (hm : 68 ≤ S.mtu) (fs : FS) (sources : List UDPAddr)
    (different : (sources.map fun a => S.ipText a.ip).Nodup) :
    ∃ w, (World.init fs).run S (beaconsFrom sources) = some w ∧ w.main = .select ∧ w.listener .v4 = .reading ∧
      w.peers.map Peer.addr = sources.map (fun a => S.ipText a.ip) ∧ w.peers.length = sources.length := by
  obtain ⟨w, h1, h2, h3, h4, h5⟩ := beaconsFrom_run hT hm fs sources (World.init fs) ⟨[], rfl⟩ rfl rfl
  have e := (C66_entries S (hT ▸ shipped_peerTables) (hT ▸ shipped_shows) fs w h2).1
  rw [h5] at e
  have e' : w.peers.map Peer.addr = sources.map (fun a => S.ipText a.ip) := by
    rw [e]; exact firstSeen_once different
  exact ⟨w, h1, h3, h4, e', by simpa using congrArg List.length e'⟩

theorem carryAll_length {S : Setup} {ds : List Datagram} {fs : List (Frame × UDPAddr)} (h : CarryAll S ds fs) :
    fs.length ≤ ds.length := by
  induction h with
  | nil => exact Nat.le_refl _
  | skip d _ _ ih => simp only [List.length_append, List.length_cons, List.length_nil]; omega
  | take d f _ _ ih => simp only [List.length_append, List.length_cons, List.length_nil]; omega

theorem two_families {α : Type} (fam : α → Fam) (l : List α) :
    (l.filter fun x => fam x = .v4).length + (l.filter fun x => fam x = .v6).length = l.length := by
  induction l with
  | nil => rfl
  | cons x xs ih =>
    cases h : fam x <;> simp [List.filter_cons, h] <;> omega

/-- **C138** what bounds the list: there are never more entries than beacons were handled, and never more than
datagrams were read. -/
theorem C138_bound_partial (S : Setup) (fs : FS) (w : World) (reach : Reachable S fs w) :
    w.peers.length ≤ (sightings w.handled).length ∧ (sightings w.handled).length ≤ w.handled.length ∧
      w.handled.length ≤ w.read.length := by
  refine ⟨?_, ?_, ?_⟩
  · refine reachable_induction (P := fun w => w.peers.length ≤ (sightings w.handled).length) (Nat.le_refl _) ?_ reach
    intro w a w' ih hs
    have grow := step_peers hs
    by_cases hb : ∃ g clock b addr, a = .takeRx g clock ∧ w' = w.onRx S g clock (.beacon b) addr
    · obtain ⟨g, clock, b, addr, _, e⟩ := hb
      have hl : (sightings w'.handled).length = (sightings w.handled).length + 1 := by
        rw [e, (onRx_logs S w g clock _ addr).2.2.1, sightings_append]; simp [sightings]
      have : w'.peers.length ≤ w.peers.length + 1 := by
        rcases grow with e | ⟨x, e⟩
        · have := congrArg List.length e; simp at this; omega
        · have := congrArg List.length e; simp at this; omega
      omega
    · rcases step_cases hs with ⟨d, rfl, _, hr, rfl⟩ | ⟨g, rfl, _, hr, rfl⟩ | ⟨g, clock, f, a, rfl, hm, hr, rfl⟩ |
        ⟨g, s, addr, rfl, hm, hr, rfl⟩ | ⟨g, rfl, hm, hr, rfl⟩ | ⟨rfl, hm, rfl⟩ |
        ⟨rfl, hm, rfl⟩ | ⟨fs1, rfl, hm, rfl⟩
      · rcases onRecv_cases S w d with ⟨_, h⟩ | ⟨hf, h⟩ | ⟨f, hf, h⟩ | ⟨s, hf, h⟩ <;> rw [h] <;> exact ih
      · exact ih
      · rw [(onRx_logs S w g clock f a).2.2.1, sightings_append]
        cases f with
        | beacon b => exact absurd ⟨g, clock, b, a, rfl, rfl⟩ hb
        | data x =>
          rw [(C137_only_printed S w _ g clock (.data x) a trivial hr hs).2.2.1]
          simpa [sightings] using ih
        | metadata x =>
          rw [(C137_only_printed S w _ g clock (.metadata x) a trivial hr hs).2.2.1]
          simpa [sightings] using ih
        | status x =>
          rw [(C137_only_printed S w _ g clock (.status x) a trivial hr hs).2.2.1]
          simpa [sightings] using ih
        | request r =>
          have : (w.onRx S g clock (.request r) a).peers = w.peers := by
            unfold World.onRx World.orEnd
            simp only
            split
            · split <;> rfl
            · rfl
            · rfl
          rw [this]
          simpa [sightings] using ih
      · obtain ⟨_, _, h3, _, _, h6, _, _⟩ := onTx_logs S w g s addr
        rw [h3, h6]; exact ih
      · exact ih
      · exact ih
      · exact ih
      · exact ih
  · generalize w.handled = l
    induction l with
    | nil => exact Nat.le_refl _
    | cons x xs ih =>
      obtain ⟨fam, f, a, t⟩ := x
      cases f <;> simp only [sightings, List.length_cons] <;> omega
  · have h4 := carryAll_length (C43_in_order S fs w reach .v4)
    have h6 := carryAll_length (C43_in_order S fs w reach .v6)
    simp only [World.handledFrom, List.length_append, List.length_map] at h4 h6
    have e1 := two_families Handled.fam w.handled
    have e2 := two_families Datagram.fam w.read
    omega

/-- Three hosts. -/
example : ∃ w, (World.init tranFS).run ⟨shipped, fun ip => toString (ip.map BitVec.toNat), 1500, []⟩
    (beaconsFrom [⟨[1], 7, ""⟩, ⟨[2], 7, ""⟩, ⟨[3], 7, ""⟩]) = some w ∧ w.peers.map Peer.addr = ["[1]", "[2]", "[3]"] :=
  ⟨_, rfl, by decide +kernel⟩

end Saratoga
