import Verif.Lemmas.Network
/-!
# C131: several programs and the network between them

Any number of programs with the shipped tables, in any execution: lines entered anywhere in any order, datagrams lost,
delayed, doubled and reordered, files changed by other programs. Nobody outside sends.
-/
namespace Saratoga

variable {N : Type} [DecidableEq N]

theorem linesAt_append (n : N) (es fs : List (NetEvent N)) : linesAt n (es ++ fs) = linesAt n es ++ linesAt n fs := by
  induction es with
  | nil => rfl
  | cons e es ih =>
    cases e with
    | typed m line o source =>
      simp only [List.cons_append, linesAt]
      split
      · rw [ih]; rfl
      · exact ih
    | arrives m k fam clock => exact ih
    | inside m a => exact ih

theorem linesOf_append (es fs : List Event) : linesOf (es ++ fs) = linesOf es ++ linesOf fs := by
  induction es with
  | nil => rfl
  | cons e es ih =>
    cases e with
    | typed line o => simp only [List.cons_append, linesOf, ih]
    | net a => exact ih

/-- **C131, each program by itself.** Every program of a network goes through an execution of its own, as in C127, with the
lines entered at it in their order and with datagrams of the air only. -/
theorem C131_node {P : Plant N} {fs : N → FS} {c : N → Cliflags} {es : List (NetEvent N)} {w : Network N}
    (h : NetLeads P fs c es w) (n : N) :
    ∃ own, Leads (P.machine n) (fs n) (c n) own (w.node n) ∧ linesOf own = linesAt n es ∧
      ∀ e ∈ own, EventAt P es w n e := by
  refine netLeads_induction (Q := fun es w => ∃ own, Leads (P.machine n) (fs n) (c n) own (w.node n) ∧
    linesOf own = linesAt n es ∧ ∀ e ∈ own, EventAt P es w n e) ⟨[], rfl, rfl, by simp⟩ ?_ h
  rintro es w e w' ⟨own, i1, i2, i3⟩ hs
  -- events stay events
  have grow : ∀ {w2 : Network N}, (∀ x ∈ w.air, x ∈ w2.air) → ∀ y ∈ own, EventAt P (es ++ [e]) w2 n y := by
    intro w2 ha y hy
    have := i3 y hy
    cases y with
    | typed line o => obtain ⟨s, h⟩ := this; exact ⟨s, List.mem_append_left _ h⟩
    | net a =>
      cases a with
      | recv d => obtain ⟨x, hx, h⟩ := this; exact ⟨x, ha x hx, h⟩
      | _ => exact List.mem_append_left _ this
  -- one more event at this node
  have more : ∀ {w2 : Network N} {y : Event} {p : Program}, (∀ x ∈ w.air, x ∈ w2.air) →
      (w.node n).step (P.machine n) y = some p → w2.node n = p → linesOf [y] = linesAt n [e] →
      EventAt P (es ++ [e]) w2 n y →
      ∃ own, Leads (P.machine n) (fs n) (c n) own (w2.node n) ∧ linesOf own = linesAt n (es ++ [e]) ∧
        ∀ e' ∈ own, EventAt P (es ++ [e]) w2 n e' := by
    intro w2 y p ha hst hn hl hy
    refine ⟨own ++ [y], ?_, ?_, ?_⟩
    · rw [hn]; exact program_run_append hst own _ i1
    · rw [linesOf_append, linesAt_append, i2, hl]
    · intro z hz
      rcases List.mem_append.1 hz with hz | hz
      · exact grow ha z hz
      · rw [List.mem_singleton] at hz; subst hz; exact hy
  rcases net_step_cases hs with ⟨m, line, o, source, p, rfl, h1, rfl⟩ | ⟨m, k, fam, clock, d, p, rfl, hd, hh, h1, rfl⟩ |
    ⟨m, a, p, rfl, ha, h1, rfl⟩
  · by_cases hm : m = n
    · subst hm
      refine more (fun x hx => List.mem_append_left _ hx) h1 (set_self _ _ _) ?_ ?_
      · simp [linesOf, linesAt]
      · exact ⟨source, by simp⟩
    · refine ⟨own, ?_, ?_, grow fun x hx => List.mem_append_left _ hx⟩
      · show Leads _ _ _ _ ((w.set m p).node n)
        rw [set_other _ _ (Ne.symm hm)]; exact i1
      · rw [linesAt_append, i2]; simp [linesAt, hm]
  · by_cases hm : m = n
    · subst hm
      refine more (fun x hx => hx) h1 (set_self _ _ _) rfl ?_
      exact ⟨d, List.mem_of_getElem? hd, hh, rfl, rfl⟩
    · refine ⟨own, ?_, ?_, grow fun x hx => hx⟩
      · rw [set_other _ _ (Ne.symm hm)]; exact i1
      · rw [linesAt_append, i2]; simp [linesAt]
  · by_cases hm : m = n
    · subst hm
      refine more (fun x hx => hx) h1 (set_self _ _ _) rfl ?_
      cases a with
      | recv d => exact absurd rfl (ha d)
      | _ => simp [EventAt]
    · refine ⟨own, ?_, ?_, grow fun x hx => hx⟩
      · rw [set_other _ _ (Ne.symm hm)]; exact i1
      · rw [linesAt_append, i2]; simp [linesAt]

/-- **C131, the log.** A datagram in the air was put there by a line entered at its sender, and its log tells the settings
of the sender at that moment. -/
theorem C131_log {P : Plant N} {fs : N → FS} {c : N → Cliflags} {es : List (NetEvent N)} {w : Network N}
    (h : NetLeads P fs c es w) : ∀ d ∈ w.air, ∃ before after line o source w0,
      es = before ++ .typed d.sender line o source :: after ∧ NetLeads P fs c before w0 ∧
      d.settings = (w0.node d.sender).settings ∧ d.outside = (P.machine d.sender).beaconEnv o ∧
      d.source = source d.dest ∧ (d.dest, d.bytes) ∈ (w0.node d.sender).emits (P.machine d.sender) o line := by
  have key : NetLeads P fs c es w ∧ ∀ d ∈ w.air, ∃ before after line o source w0,
      es = before ++ .typed d.sender line o source :: after ∧ NetLeads P fs c before w0 ∧
      d.settings = (w0.node d.sender).settings ∧ d.outside = (P.machine d.sender).beaconEnv o ∧
      d.source = source d.dest ∧ (d.dest, d.bytes) ∈ (w0.node d.sender).emits (P.machine d.sender) o line := by
    refine netLeads_induction (Q := fun es w => NetLeads P fs c es w ∧ ∀ d ∈ w.air, ∃ before after line o source w0,
      es = before ++ .typed d.sender line o source :: after ∧ NetLeads P fs c before w0 ∧
      d.settings = (w0.node d.sender).settings ∧ d.outside = (P.machine d.sender).beaconEnv o ∧
      d.source = source d.dest ∧ (d.dest, d.bytes) ∈ (w0.node d.sender).emits (P.machine d.sender) o line)
      ⟨rfl, by intro d hd; cases hd⟩ ?_ h
    rintro es w e w' ⟨i1, i2⟩ hs
    refine ⟨netLeads_append i1 (by show (w.step P e).bind _ = _; rw [hs]; rfl), ?_⟩
    have old : ∀ d ∈ w.air, ∃ before after line o source w0,
        es ++ [e] = before ++ .typed d.sender line o source :: after ∧ NetLeads P fs c before w0 ∧
        d.settings = (w0.node d.sender).settings ∧ d.outside = (P.machine d.sender).beaconEnv o ∧
        d.source = source d.dest ∧ (d.dest, d.bytes) ∈ (w0.node d.sender).emits (P.machine d.sender) o line := by
      intro d hd
      obtain ⟨before, after, line, o, source, w0, h1, h2⟩ := i2 d hd
      exact ⟨before, after ++ [e], line, o, source, w0, by rw [h1]; simp, h2⟩
    rcases net_step_cases hs with ⟨m, line, o, source, p, rfl, h1, rfl⟩ | ⟨m, k, fam, clock, d, p, rfl, hd, hh, h1, rfl⟩ |
      ⟨m, a, p, rfl, ha, h1, rfl⟩
    · intro d hd
      rcases List.mem_append.1 hd with hd | hd
      · exact old d hd
      · obtain ⟨f, hf, rfl⟩ := List.mem_map.1 hd
        exact ⟨es, [], line, o, source, w, rfl, i1, rfl, rfl, rfl, hf⟩
    · exact old
    · exact old
  exact key.2

/-- What a line puts on the wire is a beacon built from the settings. -/
theorem emits_built {M : Machine} {o : Replies} {p : Program} {line : String} {f : UDPAddr × List Byte}
    (h : f ∈ p.emits M o line) : BuiltFor (M.beaconEnv o) (setglobal M.S.T "beacon" p.settings.global) f := by
  unfold Program.emits at h
  split at h
  · split at h
    · split at h
      · rename_i hc
        rw [framesOf_sends] at h
        exact cmdBeacon_frames hc f h
      · cases h
    · cases h
  · cases h

theorem air_built {P : Plant N} (hT : ∀ n, (P.machine n).S.T = shipped) {fs : N → FS} {c : N → Cliflags}
    {es : List (NetEvent N)} {w : Network N} (h : NetLeads P fs c es w) {d : Packet N} (hd : d ∈ w.air) :
    d.outside.T = shipped ∧ ∃ x, Beacon.zero.new shipped d.outside.disk (setglobal shipped "beacon" d.settings.global)
      ⟨0, d.outside.eid d.dest⟩ = .ret (x, none) ∧ x.encode shipped = .ret (.ok d.bytes) := by
  obtain ⟨_, _, line, o, _, w0, _, _, h3, h4, _, h6⟩ := C131_log h d hd
  obtain ⟨_, x, b1, b2⟩ := emits_built h6
  have : d.outside.T = shipped := by rw [h4]; exact hT _
  rw [← h3, hT, ← h4, this] at b1
  rw [← h4, this] at b2
  exact ⟨this, x, b1, b2⟩

/-- **C131, only beacons travel.** Whatever is typed anywhere, `put`, `get` and `ls` included, every datagram in the air is
a beacon of version 1, and no other frame can be read from it. -/
theorem C131_only_beacons {P : Plant N} (hT : ∀ n, (P.machine n).S.T = shipped) {fs : N → FS} {c : N → Cliflags}
    {es : List (NetEvent N)} {w : Network N} (h : NetLeads P fs c es w) :
    ∀ d ∈ w.air, getStr shipped (headWord d.bytes) "version" = .ret "v1" ∧
      (∃ b, Says shipped d.bytes (.beacon b)) ∧ ∀ f, Says shipped d.bytes f → ∃ b, f = .beacon b := by
  intro d hd
  obtain ⟨_, x, b1, b2⟩ := air_built hT h hd
  obtain ⟨s1, s2, s3⟩ := built_says b1 b2
  have says : Says shipped d.bytes (.beacon x) := ⟨s3, s1⟩
  exact ⟨s2, ⟨x, says⟩, fun f hf => ⟨x, hf.unique says⟩⟩

/-- A listener survives every datagram of the air. -/
theorem air_safe {P : Plant N} (hT : ∀ n, (P.machine n).S.T = shipped) {fs : N → FS} {c : N → Cliflags}
    {es : List (NetEvent N)} {w : Network N} (h : NetLeads P fs c es w) {d : Packet N} (hd : d ∈ w.air) (mtu : Nat) :
    ListenSafe mtu d.bytes := by
  obtain ⟨_, x, b1, b2⟩ := air_built hT h hd
  obtain ⟨s1, s2, s3⟩ := built_says b1 b2
  rw [← C42_returns_iff_partial ⟨0, 0⟩]
  rcases listenFrame_eq shipped ⟨0, 0⟩ mtu d.bytes with ⟨_, h⟩ | ⟨_, h⟩
  · rw [h]; trivial
  · rw [h, s2]
    simp only [Out.ret_bind, ne_eq, not_true_eq_false, if_false]
    unfold listenTyped
    rw [s3]
    simp only [Out.ret_bind, if_true, s1]
    trivial

/-- What a program has read came out of the air. -/
theorem read_air {P : Plant N} {fs : N → FS} {c : N → Cliflags} {es : List (NetEvent N)} {w : Network N}
    (h : NetLeads P fs c es w) (n : N) : ∀ d ∈ (w.node n).net.read,
      ∃ x ∈ w.air, P.hears n x.dest = true ∧ d.bytes = x.bytes ∧ d.source = x.source := by
  obtain ⟨own, h1, -, h3⟩ := C131_node h n
  intro d hd
  exact h3 _ (read_came h1 d hd)

theorem handled_air {P : Plant N} (hT : ∀ n, (P.machine n).S.T = shipped) {fs : N → FS} {c : N → Cliflags}
    {es : List (NetEvent N)} {w : Network N} (h : NetLeads P fs c es w) (n : N) : ∀ y ∈ (w.node n).net.handled,
      ∃ x ∈ w.air, P.hears n x.dest = true ∧ y.source = x.source ∧ Says shipped x.bytes y.frame := by
  obtain ⟨own, h1, -, -⟩ := C131_node h n
  intro y hy
  obtain ⟨d, hd, e1, e2⟩ := handled_read (C127_network h1) y hy
  obtain ⟨x, hx, g1, g2, g3⟩ := read_air h n d hd
  have := (C42_delivers _ _ _ _ _ e2).2.2
  rw [hT, g2] at this
  exact ⟨x, hx, g1, by rw [← e1, g3], this⟩

/-- **C131, nothing else happens.** No program ever handles anything but beacons; none has a transfer for a peer, none
answers anybody, and no main loop hangs. -/
theorem C131_only_peers {P : Plant N} (hT : ∀ n, (P.machine n).S.T = shipped) {fs : N → FS} {c : N → Cliflags}
    {es : List (NetEvent N)} {w : Network N} (h : NetLeads P fs c es w) (n : N) :
    (∀ y ∈ (w.node n).net.handled, ∃ b, y.frame = .beacon b) ∧ (w.node n).net.transfers = [] ∧
    (w.node n).net.wire = [] ∧ ((w.node n).net.main = .select ∨ (w.node n).Ended) := by
  have hb : ∀ y ∈ (w.node n).net.handled, ∃ b, y.frame = .beacon b := by
    intro y hy
    obtain ⟨x, hx, -, -, hs⟩ := handled_air hT h n y hy
    exact (C131_only_beacons hT h x hx).2.2 _ hs
  obtain ⟨own, h1, -, -⟩ := C131_node h n
  have hr := C127_network h1
  have no : ¬ AskedFor (w.node n).net := by
    rintro ⟨y, hy, r, hr⟩
    obtain ⟨b, hb⟩ := hb y hy
    rw [hb] at hr; cases hr
  exact ⟨hb, (unasked hr no).1, C44_never_sent _ _ _ hr, (unasked hr no).2⟩

/-- **C131, no file moves.** The files of a machine change only when a line is entered at it or another program changes
them: nothing that is typed anywhere ever brings a file from one machine to another. -/
theorem C131_no_file_moves {P : Plant N} (hT : ∀ n, (P.machine n).S.T = shipped) {fs : N → FS} {c : N → Cliflags}
    {es : List (NetEvent N)} {w w' : Network N} (h : NetLeads P fs c es w) {e : NetEvent N} (hs : w.step P e = some w')
    (n : N) (here : ∀ line o source, e ≠ .typed n line o source) (others : ∀ f, e ≠ .inside n (.files f)) :
    (w'.node n).net.fs = (w.node n).net.fs := by
  have h' : NetLeads P fs c (es ++ [e]) w' :=
    netLeads_append h (by show (w.step P e).bind _ = _; rw [hs]; rfl)
  have no : ¬ AskedFor (w'.node n).net := by
    rintro ⟨y, hy, r, hr⟩
    obtain ⟨b, hb⟩ := (C131_only_peers hT h' n).1 y hy
    rw [hb] at hr; cases hr
  have own : ∀ {a : Action} {p : Program}, (∀ f, a ≠ .files f) → (w.node n).step (P.machine n) (.net a) = some p →
      (w'.node n) = p → (w'.node n).net.fs = (w.node n).net.fs := by
    intro a p ha h1 hp
    rw [hp] at no ⊢
    exact (((C127_apart h1).1 a rfl).2 ha).resolve_right no
  rcases net_step_cases hs with ⟨m, line, o, source, p, rfl, h1, rfl⟩ | ⟨m, k, fam, clock, d, p, rfl, hd, hh, h1, rfl⟩ |
    ⟨m, a, p, rfl, ha, h1, rfl⟩
  · have hm : n ≠ m := by rintro rfl; exact here _ _ _ rfl
    show ((w.set m p).node n).net.fs = _
    rw [set_other _ _ hm]
  · by_cases hm : n = m
    · subst hm
      exact own (by simp) h1 (set_self _ _ _)
    · rw [set_other _ _ hm]
  · by_cases hm : n = m
    · subst hm
      exact own (fun f hf => others f (by rw [hf])) h1 (set_self _ _ _)
    · rw [set_other _ _ hm]

/-- An entry that shows a beacon built from legal settings tells them. -/
theorem shows_tells {d : Packet N} {x : Beacon} {p : Peer} (ok : ValidGlobal shipped d.settings.global)
    (built : Beacon.zero.new shipped d.outside.disk (setglobal shipped "beacon" d.settings.global)
      ⟨0, d.outside.eid d.dest⟩ = .ret (x, none)) (shows : p.Shows shipped x) : d.Tells p := by
  obtain ⟨t1, t2, t3⟩ := built_tells ok built
  obtain ⟨s1, s2, s3, s4, s5⟩ := shows
  have get : ∀ f ∈ ["descriptor", "rxwilling", "txwilling"], ∀ u, getStr shipped x.header f = .ret u →
      assoc f d.settings.global = some u := by
    intro f hf u hu
    obtain ⟨v, hv⟩ := ok.2.2.1 f (by
      simp only [List.mem_cons, List.not_mem_nil, or_false] at hf
      rcases hf with rfl | rfl | rfl <;> decide)
    have := t2 f hf v hv
    rw [hu] at this
    cases this
    exact assoc_of_mem ok.1 hv
  exact ⟨s2.trans t1, get _ (by simp) _ s3, get _ (by simp) _ s4, get _ (by simp) _ s5, s1.trans t3⟩

/-- An entry stems from a beacon that was handled. -/
theorem peer_handled {S : Setup} (hT : S.T = shipped) {fs : FS} {w : World} (hr : Reachable S fs w) :
    ∀ p ∈ w.peers, ∃ y ∈ w.handled, ∃ b, y.frame = .beacon b ∧ p.addr = S.ipText y.source.ip ∧ p.Shows shipped b := by
  intro p hp
  obtain ⟨-, -, h3⟩ := C66_entries S (by rw [hT]; exact shipped_peerTables)
    (by rw [hT]; exact shipped_shows) _ _ hr
  obtain ⟨first, rest, e1, e2⟩ := h3 p hp
  have hlast : (first :: rest).getLast (by simp) ∈ sightings w.handled ∧
      ((first :: rest).getLast (by simp)).addr S.ipText = p.addr := by
    have sub : ∀ s ∈ first :: rest, s ∈ (sightings w.handled).filter
        (fun s => s.addr S.ipText = p.addr) := by intro s hs; rw [e1]; exact hs
    have := sub _ (List.getLast_mem (l := first :: rest) (by simp))
    rw [List.mem_filter] at this
    exact ⟨this.1, by simpa using this.2⟩
  generalize hs : (first :: rest).getLast (by simp) = s at hlast
  have mem : ∀ (l : List Handled) {s : Sighting}, s ∈ sightings l → ∃ y ∈ l, y.source = s.source ∧ y.frame = .beacon s.beacon := by
    intro l
    induction l with
    | nil => intro s hs; cases hs
    | cons y l ih =>
      intro s hs
      obtain ⟨fam, f, a, t⟩ := y
      cases f with
      | beacon b =>
        rcases List.mem_cons.1 hs with rfl | hs
        · exact ⟨_, List.mem_cons_self, rfl, rfl⟩
        · obtain ⟨y, hy, h⟩ := ih hs; exact ⟨y, List.mem_cons_of_mem _ hy, h⟩
      | _ => obtain ⟨y, hy, h⟩ := ih hs; exact ⟨y, List.mem_cons_of_mem _ hy, h⟩
  obtain ⟨y, hy, y1, y2⟩ := mem _ hlast.1
  refine ⟨y, hy, s.beacon, y2, by rw [← hlast.2, y1]; rfl, ?_⟩
  have := e2.1
  rw [hs, hT] at this
  exact this

/-- **C131, what a program believes is true.** Every entry of every peer table stems from a datagram that a program of the
network sent to an address heard here, stands under the source address of that datagram, and shows the name, the free
space and the settings the sender had at that moment (if these were legal, see `C50_counterexample`). -/
theorem C131_peers_true {P : Plant N} (hT : ∀ n, (P.machine n).S.T = shipped) {fs : N → FS} {c : N → Cliflags}
    {es : List (NetEvent N)} {w : Network N} (h : NetLeads P fs c es w) (n : N) :
    ∀ p ∈ (w.node n).net.peers, ∃ d ∈ w.air, P.hears n d.dest = true ∧
      p.addr = (P.machine n).S.ipText d.source.ip ∧ (ValidGlobal shipped d.settings.global → d.Tells p) := by
  intro p hp
  obtain ⟨own, h1, -, -⟩ := C131_node h n
  obtain ⟨y, hy, b, y2, ha, sh⟩ := peer_handled (hT n) (C127_network h1) p hp
  obtain ⟨d, hd, g1, g2, g3⟩ := handled_air hT h n y hy
  refine ⟨d, hd, g1, by rw [ha, g2], fun ok => ?_⟩
  obtain ⟨-, x, b1, b2⟩ := air_built hT h hd
  obtain ⟨s1, s2, s3⟩ := built_says b1 b2
  have says : Says shipped d.bytes (.beacon x) := ⟨s3, s1⟩
  have := g3.unique says
  rw [y2] at this
  have hx : b = x := by simpa using this
  exact shows_tells ok b1 (hx ▸ sh)

/-- **C131, no program harms another.** A program at which nobody enters a harmful line, whose sockets do not fail and
whose interface is not closed goes on, whatever is entered at the others. -/
theorem C131_goes_on {P : Plant N} (hT : ∀ n, (P.machine n).S.T = shipped) {fs : N → FS} {c : N → Cliflags}
    {es : List (NetEvent N)} {w : Network N} (h : NetLeads P fs c es w) (n : N)
    (legal : ValidGlobal shipped (c n).global)
    (lines : ∀ l ∈ linesAt n es, Harmless (P.machine n) (.typed l.1 l.2))
    (sockets : ∀ fam, .inside n (.readError fam) ∉ es) (interface : .inside n .userQuit ∉ es) :
    ¬ (w.node n).Ended := by
  obtain ⟨own, h1, h2, h3⟩ := C131_node h n
  refine C127_goes_on (hT n) legal h1 ?_
  intro e he
  have hat := h3 e he
  cases e with
  | typed line o =>
    refine lines (line, o) ?_
    rw [← h2]
    clear h1 h2 h3 hat
    induction own with
    | nil => cases he
    | cons y own ih =>
      rcases List.mem_cons.1 he with rfl | he
      · simp [linesOf]
      · have := ih he
        cases y with
        | typed l o' => exact List.mem_cons_of_mem _ this
        | net a => exact this
  | net a =>
    cases a with
    | recv d =>
      obtain ⟨x, hx, -, hb, -⟩ := hat
      refine ⟨by rw [hb]; exact air_safe hT h hx _, ?_⟩
      intro f hf
      rw [hb] at hf
      obtain ⟨b, rfl⟩ := (C131_only_beacons hT h x hx).2.2 f hf
      exact id
    | readError fam => exact sockets fam hat
    | userQuit => exact interface hat
    | takeRx _ _ => trivial
    | takeTx _ => trivial
    | takeQuit _ => trivial
    | kill => trivial
    | files _ => trivial

/-- A listener that runs can be brought back to reading without anything else happening. -/
theorem can_read {P : Plant N} (hT : ∀ n, (P.machine n).S.T = shipped) {fs : N → FS} {c : N → Cliflags}
    {es : List (NetEvent N)} {w : Network N} (h : NetLeads P fs c es w) (n : N) (fam : Fam)
    (running : ¬ (w.node n).Ended) (open_ : (w.node n).net.listener fam ≠ .sendQuit ∧ (w.node n).net.listener fam ≠ .gone) :
    ∃ more w1, w.run P more = some w1 ∧ linesAt n more = [] ∧ w1.air = w.air ∧
      (w1.node n).net.main = .select ∧ (w1.node n).net.listener fam = .reading := by
  have hm := (C131_only_peers hT h n).2.2.2.resolve_right running
  obtain ⟨own, h1, -, -⟩ := C131_node h n
  have hr := C127_network h1
  cases hl : (w.node n).net.listener fam with
  | reading => exact ⟨[], w, rfl, rfl, rfl, hm, hl⟩
  | sendQuit => exact absurd hl open_.1
  | gone => exact absurd hl open_.2
  | sendRx f a =>
    have st : (w.node n).net.step (P.machine n).S (.takeRx fam ⟨0, 0⟩) =
        some ((w.node n).net.onRx (P.machine n).S fam ⟨0, 0⟩ f a) := by simp only [World.step, hm, hl]
    have ns : w.step P (.inside n (.takeRx fam ⟨0, 0⟩)) =
        some (w.set n { w.node n with net := (w.node n).net.onRx (P.machine n).S fam ⟨0, 0⟩ f a }) := by
      simp only [Network.step, Program.step, st, Option.map_some]
    refine ⟨[.inside n (.takeRx fam ⟨0, 0⟩)], w.set n { w.node n with net := (w.node n).net.onRx (P.machine n).S fam ⟨0, 0⟩ f a },
      by unfold Network.run; rw [ns]; rfl, rfl, rfl, ?_, ?_⟩
    · rw [set_self]
      obtain ⟨d, hd, -, -, hd2⟩ := pending_from hr hl
      obtain ⟨x, hx, -, g2, -⟩ := read_air h n d hd
      have says := (C42_delivers _ _ _ _ _ hd2).2.2
      rw [hT, g2] at says
      obtain ⟨b, rfl⟩ := (C131_only_beacons hT h x hx).2.2 f says
      exact (C65_ends_iff_partial _ (hT n) _ _ _ hr fam ⟨0, 0⟩ _ a hl st).2 id
    · rw [set_self]
      simp only [(onRx_logs (P.machine n).S (w.node n).net fam ⟨0, 0⟩ f a).1, setListener_self]
  | sendTx s a =>
    have st : (w.node n).net.step (P.machine n).S (.takeTx fam) =
        some ((w.node n).net.onTx (P.machine n).S fam s a) := by simp only [World.step, hm, hl]
    have ns : w.step P (.inside n (.takeTx fam)) =
        some (w.set n { w.node n with net := (w.node n).net.onTx (P.machine n).S fam s a }) := by
      simp only [Network.step, Program.step, st, Option.map_some]
    refine ⟨[.inside n (.takeTx fam)], w.set n { w.node n with net := (w.node n).net.onTx (P.machine n).S fam s a },
      by unfold Network.run; rw [ns]; rfl, rfl, rfl, ?_, ?_⟩
    · rw [set_self]
      obtain ⟨d, hd⟩ := pending_reply hr hl
      rw [hT] at hd
      have hp := reply_prints hd
      show ((w.node n).net.onTx (P.machine n).S fam s a).main = .select
      unfold World.onTx World.orEnd
      rw [hT, hp]
      exact hm
    · rw [set_self]
      simp only [(onTx_logs (P.machine n).S (w.node n).net fam s a).1, setListener_self]

/-- **C131, every beacon can still be heard.** From any state, as long as the program runs and its listener has not been
closed: a datagram in the air of a size listeners look at can arrive, now or later, and then the sender is listed with
what it had when it sent it. Nothing has to be typed for it. -/
theorem C131_can_hear {P : Plant N} (hT : ∀ n, (P.machine n).S.T = shipped) {fs : N → FS} {c : N → Cliflags}
    {es : List (NetEvent N)} {w : Network N} (h : NetLeads P fs c es w) (n : N) (fam : Fam)
    (running : ¬ (w.node n).Ended) (open_ : (w.node n).net.listener fam ≠ .sendQuit ∧ (w.node n).net.listener fam ≠ .gone)
    {d : Packet N} (hd : d ∈ w.air) (heard : P.hears n d.dest = true) (size : Sized (P.machine n).S.mtu d.bytes)
    (ok : ValidGlobal shipped d.settings.global) :
    ∃ more w1, w.run P more = some w1 ∧ linesAt n more = [] ∧ ¬ (w1.node n).Ended ∧
      ∃ p ∈ (w1.node n).net.peers, p.addr = (P.machine n).S.ipText d.source.ip ∧ d.Tells p := by
  obtain ⟨more, w1, r1, r2, r3, r4, r5⟩ := can_read hT h n fam running open_
  obtain ⟨k, hk⟩ := List.getElem?_of_mem hd
  obtain ⟨-, x, b1, b2⟩ := air_built hT h hd
  obtain ⟨s1, s2, s3⟩ := built_says b1 b2
  obtain ⟨v1, v2, e1, e2, e3, p, hp, e4, e5⟩ := beacon_arrives (P.machine n).S (hT n) (w1.node n).net r4 fam r5 x d.bytes
    size s2 s3 s1 d.source ⟨0, 0⟩ ⟨0, 0⟩
  have n1 : w1.step P (.arrives n k fam ⟨0, 0⟩) = some (w1.set n { w1.node n with net := v1 }) := by
    simp only [Network.step, r3, hk, heard, if_true, Program.step, e1, Option.map_some]
  have n2 : (w1.set n { w1.node n with net := v1 }).step P (.inside n (.takeRx fam ⟨0, 0⟩)) =
      some ((w1.set n { w1.node n with net := v1 }).set n { w1.node n with net := v2 }) := by
    simp only [Network.step, Program.step, set_self, e2, Option.map_some]
  refine ⟨more ++ [.arrives n k fam ⟨0, 0⟩, .inside n (.takeRx fam ⟨0, 0⟩)],
    (w1.set n { w1.node n with net := v1 }).set n { w1.node n with net := v2 }, ?_, ?_, ?_, p, ?_, e4, shows_tells ok b1 e5⟩
  · rw [net_run_append more w r1]
    show (w1.step P _).bind _ = _
    rw [n1]
    show (Network.step P _ _).bind _ = _
    rw [n2]; rfl
  · rw [linesAt_append, r2]; rfl
  · rw [set_self]
    show ¬ v2.main = .ended
    rw [e3]; simp
  · rw [set_self]; exact hp

/-- **C131, a beacon command introduces a node.** Node `a`, running with legal settings and at least one beacon to send,
enters `beacon <word>` while its system and network work. Then node `b`, running with a listener open and hearing the
address the word means, can come to list it with the settings it has now. -/
theorem C131_introduces {P : Plant N} (hT : ∀ n, (P.machine n).S.T = shipped) {fs : N → FS} {c : N → Cliflags}
    {es : List (NetEvent N)} {w : Network N} (h : NetLeads P fs c es w) (a b : N) (other : a ≠ b) (fam : Fam)
    (sends_ : ¬ (w.node a).Ended) (running : ¬ (w.node b).Ended)
    (open_ : (w.node b).net.listener fam ≠ .sendQuit ∧ (w.node b).net.listener fam ≠ .gone)
    (ok : ValidGlobal shipped (w.node a).settings.global) (some_ : (w.node a).settings.bcount ≠ 0)
    {line word : String} {o : Replies} {source : UDPAddr → UDPAddr}
    (entered : getLine ((P.machine a).H.map Prod.fst) cmdHandlers line = .ret (.started "beacon" ["beacon", word]))
    (proper : word ≠ "?" ∧ word ≠ "off") (works : ((P.machine a).beaconEnv o).Works) {addr : UDPAddr}
    (target : meant ((P.machine a).beaconEnv o) (w.node a).settings word = some addr) (heard : P.hears b addr = true)
    (size : ∀ frame, (addr, frame) ∈ (w.node a).emits (P.machine a) o line → Sized (P.machine b).S.mtu frame) :
    ∃ more w1, w.run P (.typed a line o source :: more) = some w1 ∧ linesAt b more = [] ∧
      ∃ p ∈ (w1.node b).net.peers, p.addr = (P.machine b).S.ipText (source addr).ip ∧
        assoc "descriptor" (w.node a).settings.global = some p.maxdesc ∧
        assoc "rxwilling" (w.node a).settings.global = some p.canrx ∧
        assoc "txwilling" (w.node a).settings.global = some p.cantx ∧
        (∃ l, o.nearby addr = .ok l ∧ p.eid = utf8 (l ++ "-" ++ toString (P.machine a).pid.toNat)) ∧
        p.freespace = toldFree (w.node a).settings.global o.disk := by
  obtain ⟨bs, ba, st⟩ := works.disk
  obtain ⟨b', acts, frame, c1, c2, -, -⟩ := C82_sends works ok (w.node a).beacon "beacon" word proper target st
  have hemit : (addr, frame) ∈ (w.node a).emits (P.machine a) o line := by
    unfold Program.emits
    simp only [entered, if_true, c1, framesOf_sends, c2]
    rw [List.mem_replicate]
    exact ⟨some_, rfl⟩
  have hstep : w.step P (.typed a line o source) = some { w.set a ((w.node a).enter (P.machine a) o line) with
      air := w.air ++ w.sent P a line o source } := by
    have : (w.node a).step (P.machine a) (.typed line o) = some ((w.node a).enter (P.machine a) o line) :=
      if_neg sends_
    simp only [Network.step, this, Option.map_some]
  generalize hw : ({ w.set a ((w.node a).enter (P.machine a) o line) with
      air := w.air ++ w.sent P a line o source } : Network N) = w0 at hstep
  have h0 : NetLeads P fs c (es ++ [.typed a line o source]) w0 :=
    netLeads_append h (by show (w.step P _).bind _ = _; rw [hstep]; rfl)
  have hb : w0.node b = w.node b := by
    rw [← hw]; exact set_other _ _ (Ne.symm other)
  have hd : (⟨source addr, addr, frame, a, (w.node a).settings, (P.machine a).beaconEnv o⟩ : Packet N) ∈ w0.air := by
    rw [← hw]
    exact List.mem_append_right _ (List.mem_map.2 ⟨(addr, frame), hemit, rfl⟩)
  obtain ⟨more, w1, r1, r2, -, p, hp, r3, r4⟩ := C131_can_hear hT h0 b fam (by rw [hb]; exact running)
    (by rw [hb]; exact open_) hd heard (size _ hemit) ok
  have named : ∃ l, o.nearby addr = .ok l ∧ p.eid = utf8 (l ++ "-" ++ toString (P.machine a).pid.toNat) := by
    obtain ⟨l, hl⟩ := works.dials addr
    have hl' : o.nearby addr = .ok l := hl
    refine ⟨l, hl', ?_⟩
    have := r4.eid
    unfold BeaconEnv.eid at this
    simp only [hl] at this
    exact this
  exact ⟨more, w1, by show (w.step P _).bind _ = _; rw [hstep]; exact r1, r2, p, hp, r3, r4.descriptor, r4.rxwilling,
    r4.txwilling, named, r4.freespace⟩

/-! ## A concrete case -/

/-- Three machines, each hearing the zone that is its number and the zone "all". -/
def examplePlant : Plant Nat where
  machine := fun n => ⟨⟨shipped, fun ip => toString (ip.map BitVec.toNat), 1500, []⟩,
    [("beacon", ⟨"beacon", "beacon …"⟩), ("put", ⟨"put a file", "put <host> <file>"⟩), ("descriptor", ⟨"d", "d …"⟩)],
    BitVec.ofNat 32 (40 + n), fun a => a.zone⟩
  hears := fun n a => a.ip == [1#8, 1#8, 1#8, BitVec.ofNat 8 n]

example : ∀ n, (examplePlant.machine n).S.T = shipped := fun _ => rfl

def exampleTraffic : List (NetEvent Nat) :=
  let from_ := fun (n : Nat) (_ : UDPAddr) => (⟨[1#8, 1#8, 1#8, BitVec.ofNat 8 n], 5000, ""⟩ : UDPAddr)
  let world := { calmReplies with resolve := fun _ => .ok ⟨[1#8, 1#8, 1#8, 2#8], 7542, ""⟩ }
  [.typed 1 "saratoga[0]:descriptor d32" world (from_ 1), .typed 1 "saratoga[1]:put 1.1.1.2 f" world (from_ 1),
   .typed 1 "saratoga[2]:beacon 1.1.1.2" world (from_ 1), .arrives 2 1 .v4 ⟨7, 0⟩, .typed 3 "saratoga[0]:beacon 1.1.1.2" world (from_ 3),
   .inside 2 (.takeRx .v4 ⟨8, 0⟩), .arrives 2 3 .v4 ⟨9, 0⟩, .inside 2 (.takeRx .v4 ⟨9, 0⟩), .arrives 2 0 .v6 ⟨9, 0⟩]

example : ValidGlobal shipped shippedSettings.global ∧ (∀ fam, NetEvent.inside 2 (.readError fam) ∉ exampleTraffic) ∧
    NetEvent.inside 2 .userQuit ∉ exampleTraffic := by
  refine ⟨C14_shipped_defaults, fun fam h => ?_, fun h => ?_⟩ <;> simp [exampleTraffic] at h

example : ∃ w, NetLeads examplePlant (fun _ => exampleFS) (fun _ => shippedSettings) exampleTraffic w ∧ w.air.length = 6 := by
  have h : (((Network.init (fun _ => exampleFS) (fun _ => shippedSettings)).run examplePlant exampleTraffic).map
      (fun w => w.air.length)) = some 6 := by decide +kernel
  obtain ⟨w, hw, he⟩ := Option.map_eq_some_iff.1 h
  exact ⟨w, hw, he⟩

/-- Machine 2 lists both senders; three beacons each are in the air. -/
example : ((Network.init (fun _ => exampleFS) (fun _ => shippedSettings)).run examplePlant exampleTraffic).map (fun w =>
    ((w.node 2).net.peers.map (fun p => (p.addr, p.maxdesc)), w.air.length, (w.node 1).table.length)) =
    some ([("[1, 1, 1, 1]", "d32"), ("[1, 1, 1, 3]", "d64")], 6, 1) := by
  decide +kernel

end Saratoga
