import Verif.Lemmas.Receive
import Verif.Props.MainLoop
/-!
# C133: what is printed about datagrams

Every datagram is accounted for on the screen.
-/
namespace Saratoga

/-- **C133** The lines are those of the listener and of the handler of requests: leaving them out gives what
`Model/Listen.lean` and `Model/Trans.lean` have. Any tables. -/
theorem C133_same (T : Tables) (clock : GoTime) :
    (∀ (mtu : Nat) (dg : List Byte) (source : UDPAddr),
      (do let (act, _) ← listenSays T clock mtu dg source; pure act) = listenFrame T clock mtu dg) ∧
    (∀ (sardir : List Byte) (fs : FS) (trans : List RxTran) (r : Request) (source : UDPAddr),
      (do let (e, _) ← addRxSays T clock sardir fs trans r source; pure e) =
        addRxTran T clock sardir fs trans r source) :=
  ⟨fun mtu dg source => listenSays_hushed T clock mtu dg source,
   fun sardir fs trans r source => addRxSays_hushed T clock sardir fs trans r source⟩

/-- One round, by size. -/
theorem listenSays_sized {T : Tables} {clock : GoTime} {mtu : Nat} {dg : List Byte} {a : UDPAddr} (hs : Sized mtu dg) :
    listenSays T clock mtu dg a =
      (getStr T (headWord dg) "version" >>= fun version =>
        if version ≠ "v1" then replySays T clock "errcode=badpacket" ⟨0, 0, 0, []⟩ [⟨.err, .otherVersion a⟩] []
        else typedSays T clock (headWord dg) dg a) := by
  have ht := seen_sized hs
  unfold Sized at hs
  unfold listenSays
  simp only [ht]
  rw [if_neg (by omega), if_neg (by omega), readWord_head (by omega)]
  rfl

/-- **C133** One datagram: if it is passed on nothing is printed in the error window, and otherwise exactly one line
is, which names the sender and tells what is wrong with the datagram. -/
theorem C133_listener (clock : GoTime) (mtu : Nat) (dg : List Byte) (source : UDPAddr) (act : ListenAct)
    (ls : List Said) (h : listenSays shipped clock mtu dg source = .ret (act, ls)) :
    ((∃ f, act = .rx f) ∧ errorLines ls = []) ∨
    ((∀ f, act ≠ .rx f) ∧ ∃ t, errorLines ls = [t] ∧ t.about = some source ∧ Faulty mtu dg t) := by
  have hl : listenFrame shipped clock mtu dg = .ret act := by
    rw [← listenSays_hushed shipped clock mtu dg source, h]; rfl
  by_cases hs : Sized mtu dg
  · rw [listenSays_sized hs] at h
    have h8 : 8 ≤ dg.length := hs.1
    have hsess : readWord dg 4 = .ret (wordFour dg) := readWord_eq (by omega)
    rcases getStr_version (headWord dg) with ⟨hv, hg⟩ | ⟨hv, hg⟩ | ⟨hv, hg⟩
    · rw [hg] at h
      simp only [Out.ret_bind, ne_eq, not_true_eq_false, if_false] at h
      have silent : (∀ f, act ≠ .rx f) → ∀ f, ¬ Says shipped dg f := by
        intro hn f hf
        have := C42_delivered shipped clock mtu dg f hs hg hf (by rw [hl]; trivial)
        rw [hl] at this; cases this
        exact hn f rfl
      unfold typedSays at h
      rcases getStr_frametype (headWord dg) with ⟨ht, hgt⟩ | ⟨ht, hgt⟩
      · rw [hgt] at h
        simp only [Out.ret_bind] at h
        have : typeNumber (headWord dg) = 0 ∨ typeNumber (headWord dg) = 1 ∨ typeNumber (headWord dg) = 2 ∨
          typeNumber (headWord dg) = 3 ∨ typeNumber (headWord dg) = 4 := by omega
        rcases this with k | k | k | k | k
        · rw [k, if_pos (by decide)] at h
          obtain ⟨⟨b, e⟩, _, h⟩ := Out.bind_eq_ret h
          cases e with
          | none => cases h; exact Or.inl ⟨⟨_, rfl⟩, rfl⟩
          | some e =>
            cases h
            refine Or.inr ⟨fun f => by simp, _, rfl, rfl, hs, hv, k, silent fun f => by simp⟩
        · rw [k, if_neg (by decide), if_pos (by decide)] at h
          obtain ⟨⟨b, e⟩, _, h⟩ := Out.bind_eq_ret h
          cases e with
          | none => cases h; exact Or.inl ⟨⟨_, rfl⟩, rfl⟩
          | some e =>
            cases h
            refine Or.inr ⟨fun f => by simp, _, rfl, rfl, hs, hv, k, silent fun f => by simp⟩
        · rw [k, if_neg (by decide), if_neg (by decide), if_neg (by decide), if_pos (by decide)] at h
          obtain ⟨⟨b, e⟩, _, h⟩ := Out.bind_eq_ret h
          cases e with
          | none => cases h; exact Or.inl ⟨⟨_, rfl⟩, rfl⟩
          | some e =>
            simp only [hsess, Out.ret_bind] at h
            obtain ⟨st, h1, _⟩ := badFrameSays_new clock (headWord dg) (wordFour dg) 0 []
              (.badMetadata source (wordFour dg))
            rw [h1] at h; cases h
            exact Or.inr ⟨fun f => by simp, _, rfl, rfl, ⟨hs, hv, k, silent fun f => by simp⟩, rfl⟩
        · rw [k, if_neg (by decide), if_neg (by decide), if_pos (by decide)] at h
          obtain ⟨⟨b, e⟩, _, h⟩ := Out.bind_eq_ret h
          cases e with
          | none => cases h; exact Or.inl ⟨⟨_, rfl⟩, rfl⟩
          | some e =>
            obtain ⟨st, h1, h2⟩ := badFrameSays_new clock (headWord dg) b.session b.offset
              [⟨.msg, .dataLength dg.length⟩] (.badData source b.session)
            simp only at h
            rw [h1] at h; cases h
            refine Or.inr ⟨fun f => by simp, _, rfl, rfl, ⟨hs, hv, k, silent fun f => by simp⟩, ?_⟩
            rcases (C42_reply clock mtu dg st hl).2.2 with ⟨h0, _⟩ | ⟨_, _, _, _, s, p, hr, hse, _⟩
            · omega
            · rw [← h2, hr.session, hse]
              simp only [k, true_and]
              rfl
        · rw [k, if_neg (by decide), if_neg (by decide), if_neg (by decide), if_neg (by decide),
            if_pos (by decide)] at h
          obtain ⟨⟨b, e⟩, _, h⟩ := Out.bind_eq_ret h
          cases e with
          | none =>
            obtain ⟨_, _, h⟩ := Out.bind_eq_ret h
            obtain ⟨_, _, h⟩ := Out.bind_eq_ret h
            cases h; exact Or.inl ⟨⟨_, rfl⟩, rfl⟩
          | some e =>
            simp only [hsess, Out.ret_bind] at h
            obtain ⟨st, h1, _⟩ := badFrameSays_new clock (headWord dg) (wordFour dg) 0 []
              (.badStatus source (wordFour dg))
            rw [h1] at h; cases h
            exact Or.inr ⟨fun f => by simp, _, rfl, rfl, ⟨hs, hv, k, silent fun f => by simp⟩, rfl⟩
      · rw [hgt] at h; cases h
    · obtain ⟨st, h1, _⟩ := badVersion_eq shipped_reply clock
      rw [hg] at h
      simp only [Out.ret_bind] at h
      rw [if_pos (by decide), replySays_new h1] at h
      cases h
      exact Or.inr ⟨fun f => by simp, _, rfl, rfl, hs, hv⟩
    · rw [hg] at h; cases h
  · unfold listenSays at h
    unfold Sized at hs
    simp only [List.length_take] at h
    split at h
    · cases h
      exact Or.inr ⟨fun f => by simp, _, rfl, rfl, by show dg.length < 8; omega⟩
    · rw [if_pos (by omega)] at h
      cases h
      refine Or.inr ⟨fun f => by simp, _, rfl, rfl, ?_, ?_, ?_⟩ <;> omega

/-- **C133** Two different faults are never told of one datagram: what is wrong determines the line. -/
theorem C133_one_fault (mtu : Nat) (dg : List Byte) (t u : Told) (ht : Faulty mtu dg t) (hu : Faulty mtu dg u)
    (same : t.about = u.about) : t = u := by
  cases t <;> cases u <;> simp only [Faulty, Unreadable, Sized, Told.about, Option.some.injEq] at ht hu same <;>
    first
    | exact ht.elim
    | exact hu.elim
    | (exfalso; omega)
    | (subst same; rfl)
    | (obtain ⟨_, _, rfl⟩ := ht; obtain ⟨_, _, rfl⟩ := hu; subst same; rfl)
    | (obtain ⟨_, rfl⟩ := ht; obtain ⟨_, rfl⟩ := hu; subst same; rfl)

-- a datagram of four bytes, one of version 0, and a data frame that ends after its header
example : listenSays shipped ⟨0, 0⟩ 1500 [1, 2, 3, 4] someone = .ret (.drop, [⟨.err, .tooShort someone⟩]) := by
  decide +kernel
example : (listenSays shipped ⟨0, 0⟩ 1500 [0, 0, 0, 0, 0, 0, 0, 0] someone).returns := by decide +kernel
example : ∃ st, listenSays shipped ⟨0, 0⟩ 1500 [0x23, 0, 0, 0, 0, 0, 0, 7] someone =
    .ret (.tx st, [⟨.msg, .dataLength 8⟩, ⟨.err, .badData someone 0⟩]) := ⟨_, by rfl⟩

/-! ## Whole executions -/

/-- **C133** Printing changes nothing: the executions with lines are the executions of `Model/MainLoop.lean`. -/
theorem C133_executions (S : Setup) (fs : FS) (acts : List Action) :
    ((Spoken.init fs).run S acts).map Spoken.world = (World.init fs).run S acts := by
  have gen : ∀ (acts : List Action) (k : Spoken), (k.run S acts).map Spoken.world = k.world.run S acts := by
    intro acts
    induction acts with
    | nil => intro k; rfl
    | cons a as ih =>
      intro k
      unfold Spoken.run World.run Spoken.step
      cases k.world.step S a with
      | none => rfl
      | some w => exact ih _
  exact gen acts _

theorem running_before {S : Setup} {w w' : World} {a : Action} (h : w.step S a = some w') : w.main ≠ .ended := by
  rcases step_cases h with ⟨d, rfl, hm, _⟩ | ⟨g, rfl, hm, _⟩ | ⟨g, clock, f, addr, rfl, hm, _⟩ |
      ⟨g, s, addr, rfl, hm, _⟩ | ⟨g, rfl, hm, _⟩ | ⟨rfl, hm, _⟩ | ⟨rfl, hm, _⟩ | ⟨fs1, rfl, hm, _⟩ <;>
    (first | exact hm | (rw [hm]; simp))

/-- What a step that leaves the program running prints. -/
theorem says_cases {S : Setup} {w w' : World} {a : Action} (h : w.step S a = some w') (run : w'.main ≠ .ended) :
    (∃ d act ls, a = .recv d ∧ listenSays S.T d.clock S.mtu d.bytes d.source = .ret (act, ls) ∧ w.says S a = ls ∧
      w'.read = w.read ++ [d] ∧ w'.handled = w.handled ∧ w'.taken = w.taken ∧ w'.peers = w.peers) ∨
    (w.says S a = [⟨.err, .readFailed⟩] ∧ w'.read = w.read ∧ w'.handled = w.handled ∧ w'.taken = w.taken ∧
      w'.peers = w.peers) ∨
    (∃ fam clock f src ls, a = .takeRx fam clock ∧ w.listener fam = .sendRx f src ∧
      rxSays S w fam clock f src = .ret ls ∧ w.says S a = ls ∧ w' = w.onRx S fam clock f src ∧
      w'.read = w.read ∧ w'.handled = w.handled ++ [⟨fam, f, src, clock⟩] ∧ w'.taken = w.taken) ∨
    (∃ fam s src, w.says S a = [⟨.msg, .needToSend fam⟩, ⟨.msg, .toSend s⟩] ∧ w'.read = w.read ∧
      w'.handled = w.handled ∧ w'.taken = w.taken ++ [⟨fam, s, src⟩] ∧ w'.peers = w.peers) ∨
    (w.says S a = [] ∧ w'.read = w.read ∧ w'.handled = w.handled ∧ w'.taken = w.taken ∧ w'.peers = w.peers) := by
  rcases step_cases h with ⟨d, rfl, _, hl, rfl⟩ | ⟨g, rfl, _, hl, rfl⟩ | ⟨g, clock, f, addr, rfl, hm, hl, rfl⟩ |
      ⟨g, s, addr, rfl, hm, hl, rfl⟩ | ⟨g, rfl, hm, hl, rfl⟩ | ⟨rfl, hm, rfl⟩ | ⟨rfl, hm, rfl⟩ | ⟨fs1, rfl, hm, rfl⟩
  · have get : ∀ act, listenFrame S.T d.clock S.mtu d.bytes = .ret act → ∃ ls,
        listenSays S.T d.clock S.mtu d.bytes d.source = .ret (act, ls) ∧ w.says S (.recv d) = ls := by
      intro act ha
      rw [← listenSays_hushed S.T d.clock S.mtu d.bytes d.source] at ha
      obtain ⟨⟨act', ls⟩, h1, h2⟩ := Out.bind_eq_ret ha
      cases h2
      refine ⟨ls, h1, ?_⟩
      simp only [World.says, h1, Out.ret_bind]
      rfl
    rcases onRecv_cases S w d with ⟨_, he⟩ | ⟨hf, he⟩ | ⟨f, hf, he⟩ | ⟨s, hf, he⟩
    · rw [he] at run; exact absurd rfl run
    · obtain ⟨ls, h1, h2⟩ := get _ hf
      exact Or.inl ⟨d, _, ls, rfl, h1, h2, by rw [he], by rw [he], by rw [he], by rw [he]⟩
    · obtain ⟨ls, h1, h2⟩ := get _ hf
      exact Or.inl ⟨d, _, ls, rfl, h1, h2, by rw [he], by rw [he]; rfl, by rw [he]; rfl, by rw [he]; rfl⟩
    · obtain ⟨ls, h1, h2⟩ := get _ hf
      exact Or.inl ⟨d, _, ls, rfl, h1, h2, by rw [he], by rw [he]; rfl, by rw [he]; rfl, by rw [he]; rfl⟩
  · exact Or.inr (Or.inl ⟨rfl, rfl, rfl, rfl, rfl⟩)
  · obtain ⟨_, l2, l3, l4, _⟩ := onRx_logs S w g clock f addr
    have hret : ∃ ls, rxSays S w g clock f addr = .ret ls := by
      unfold World.onRx World.orEnd at run
      unfold rxSays
      cases f with
      | beacon b =>
        simp only at run ⊢
        cases h1 : b.shortPrint S.T with
        | fatal => rw [h1] at run; exact absurd rfl run
        | panic => rw [h1] at run; exact absurd rfl run
        | ret u =>
          rw [h1] at run
          simp only [Out.ret_bind] at run ⊢
          have hp : (World.setListener w g LState.reading).peers = w.peers := rfl
          rw [hp] at run
          cases h2 : newPeer S.T S.ipText clock w.peers b (some addr) with
          | fatal => rw [h2] at run; exact absurd rfl run
          | panic => rw [h2] at run; exact absurd rfl run
          | ret p => exact ⟨_, rfl⟩
      | data b =>
        simp only at run ⊢
        cases h1 : b.shortPrint S.T with
        | fatal => rw [h1] at run; exact absurd rfl run
        | panic => rw [h1] at run; exact absurd rfl run
        | ret u => exact ⟨_, rfl⟩
      | metadata b =>
        simp only at run ⊢
        cases h1 : b.shortPrint S.T with
        | fatal => rw [h1] at run; exact absurd rfl run
        | panic => rw [h1] at run; exact absurd rfl run
        | ret u => exact ⟨_, rfl⟩
      | status b =>
        simp only at run ⊢
        cases h1 : b.shortPrint S.T with
        | fatal => rw [h1] at run; exact absurd rfl run
        | panic => rw [h1] at run; exact absurd rfl run
        | ret u => exact ⟨_, rfl⟩
      | request b =>
        simp only at run ⊢
        have hp : (World.setListener w g LState.reading).fs = w.fs ∧
          (World.setListener w g LState.reading).transfers = w.transfers := ⟨rfl, rfl⟩
        rw [hp.1, hp.2, ← addRxSays_hushed] at run
        cases h1 : addRxSays S.T clock S.sardir w.fs w.transfers b addr with
        | fatal => rw [h1] at run; exact absurd rfl run
        | panic => rw [h1] at run; exact absurd rfl run
        | ret p => exact ⟨_, rfl⟩
    obtain ⟨ls, hls⟩ := hret
    refine Or.inr (Or.inr (Or.inl ⟨g, clock, f, addr, ls, rfl, hl, hls, ?_, rfl, l2, l3, l4⟩))
    simp only [World.says, hl, hls, orNothing]
  · obtain ⟨_, l2, l3, l4, _, l6, _⟩ := onTx_logs S w g s addr
    refine Or.inr (Or.inr (Or.inr (Or.inl ⟨g, s, addr, ?_, l2, l3, l4, l6⟩)))
    unfold World.onTx World.orEnd at run
    simp only at run
    simp only [World.says, hl]
    cases h1 : s.shortPrint S.T with
    | fatal => rw [h1] at run; exact absurd rfl run
    | panic => rw [h1] at run; exact absurd rfl run
    | ret u => rfl
  · exact absurd rfl run
  · exact absurd rfl run
  · exact absurd rfl run
  · exact Or.inr (Or.inr (Or.inr (Or.inr ⟨rfl, rfl, rfl, rfl, rfl⟩)))

theorem errorLines_append (a b : List Said) : errorLines (a ++ b) = errorLines a ++ errorLines b := by
  simp [errorLines]

theorem reached_induction {S : Setup} {fs : FS} {P : Spoken → Prop} (init : P (Spoken.init fs))
    (step : ∀ k a w, P k → k.world.main ≠ .ended → k.world.step S a = some w → w.main ≠ .ended →
      P ⟨w, k.lines ++ k.world.says S a⟩) {k : Spoken} (h : k.Reached S fs) (run : k.world.main ≠ .ended) : P k := by
  obtain ⟨acts, h⟩ := h
  refine spoken_induction (P := fun k => k.world.main ≠ .ended → P k) ?_ acts (fun _ => init) h run
  intro k a w ih hs hr
  have := running_before hs
  exact step k a w (ih this) this hs hr

/-- What the main loop prints about a packet, apart from news of peers and transfers. -/
theorem rxSays_lines {S : Setup} {w : World} {fam : Fam} {clock : GoTime} {f : Frame} {src : UDPAddr}
    {ls : List Said} (h : rxSays S w fam clock f src = .ret ls) :
    ls.filterMap Said.shown = [f] ∧ ls.filterMap Said.reply = [] ∧ (errorLines ls).filterMap Told.about = [] ∧
    (∀ t ∈ errorLines ls, t.ofHandler = true) ∧ ⟨.msg, .newTransfer src⟩ ∉ ls ∧
    ∀ a, ⟨.msg, .newTransfer a⟩ ∉ ls := by
  unfold rxSays at h
  cases f with
  | beacon b =>
    simp only at h
    obtain ⟨_, _, h⟩ := Out.bind_eq_ret h
    obtain ⟨⟨ps, n⟩, _, h⟩ := Out.bind_eq_ret h
    cases h
    cases n <;> simp [List.filterMap_cons, Said.shown, Said.reply, errorLines]
  | data b =>
    simp only at h
    obtain ⟨_, _, h⟩ := Out.bind_eq_ret h
    cases h
    simp [List.filterMap_cons, Said.shown, Said.reply, errorLines]
  | metadata b =>
    simp only at h
    obtain ⟨_, _, h⟩ := Out.bind_eq_ret h
    cases h
    simp [List.filterMap_cons, Said.shown, Said.reply, errorLines]
  | status b =>
    simp only at h
    obtain ⟨_, _, h⟩ := Out.bind_eq_ret h
    cases h
    simp [List.filterMap_cons, Said.shown, Said.reply, errorLines]
  | request r =>
    simp only at h
    obtain ⟨⟨e, told⟩, he, h⟩ := Out.bind_eq_ret h
    have hp := addRxSays_prints S.T clock S.sardir w.fs w.transfers r src e told he
    simp only [if_neg (addRxSays_sent he), List.append_nil] at h
    cases h
    have h1 : (told.map (Said.mk .err)).filterMap Said.shown = [] := by
      rw [List.filterMap_eq_nil_iff]
      intro l hl
      obtain ⟨t, _, rfl⟩ := List.mem_map.1 hl
      rfl
    have h2 : (told.map (Said.mk .err)).filterMap Said.reply = [] := by
      rw [List.filterMap_eq_nil_iff]
      intro l hl
      obtain ⟨t, _, rfl⟩ := List.mem_map.1 hl
      rfl
    have h3 : errorLines (told.map (Said.mk .err)) = told := by
      unfold errorLines
      rw [List.filter_eq_self.2 (by intro l hl; obtain ⟨t, _, rfl⟩ := List.mem_map.1 hl; rfl), List.map_map]
      exact List.map_id _
    have h4 : told.filterMap Told.about = [] := by
      rw [List.filterMap_eq_nil_iff]
      intro t ht
      have := hp t ht
      cases t <;> first | rfl | cases this
    refine ⟨by simp [List.filterMap_cons, Said.shown, h1], by simp [List.filterMap_cons, Said.reply, h2], ?_, ?_, by simp, by simp⟩
    · rw [errorLines_append, h3]
      simpa [errorLines] using h4
    · rw [errorLines_append, h3]
      simpa [errorLines] using hp

theorem listen_lines {S : Setup} {d : Datagram} {act : ListenAct} {ls : List Said}
    (h : listenSays S.T d.clock S.mtu d.bytes d.source = .ret (act, ls)) :
    ls.filterMap Said.shown = [] ∧ ls.filterMap Said.reply = [] ∧
      ∀ a, ⟨.msg, .newTransfer a⟩ ∉ ls ∧ ⟨.msg, .newPeer a⟩ ∉ ls := by
  have hp := listenSays_prints S.T d.clock S.mtu d.bytes d.source act ls h
  refine ⟨?_, ?_, fun a => ⟨fun hm => ?_, fun hm => ?_⟩⟩
  · rw [List.filterMap_eq_nil_iff]
    rintro ⟨b, t⟩ hl
    have := hp _ hl
    cases b <;> cases t <;> first | rfl | cases this
  · rw [List.filterMap_eq_nil_iff]
    rintro ⟨b, t⟩ hl
    have := hp _ hl
    cases b <;> cases t <;> first | rfl | cases this
  · cases hp _ hm
  · cases hp _ hm

/-- **C133** As long as the program runs, the lines in the error window that name a sender name the senders of the
datagrams read so far that carried no frame, in order, each once. -/
theorem C133_account (S : Setup) (hT : S.T = shipped) (fs : FS) (k : Spoken) (h : k.Reached S fs)
    (run : k.world.main ≠ .ended) :
    DropAll S k.world.read ((errorLines k.lines).filterMap Told.about) := by
  refine reached_induction (P := fun k => DropAll S k.world.read ((errorLines k.lines).filterMap Told.about))
    DropAll.nil ?_ h run
  intro k a w ih hm hs hr
  simp only [errorLines_append, List.filterMap_append]
  rcases says_cases hs hr with ⟨d, act, ls, rfl, h1, h2, h3, _⟩ | ⟨h2, h3, _⟩ | ⟨fam, clock, f, src, ls, _, _, h1, h2, _, h3, _⟩ |
    ⟨fam, s, src, h2, h3, _⟩ | ⟨h2, h3, _⟩
  · rw [h2, h3]
    rw [hT] at h1
    have hl : listenFrame shipped d.clock S.mtu d.bytes = .ret act := by
      rw [← listenSays_hushed shipped d.clock S.mtu d.bytes d.source, h1]; rfl
    rcases C133_listener d.clock S.mtu d.bytes d.source act ls h1 with ⟨⟨f, rfl⟩, he⟩ | ⟨hn, t, he, ha, _⟩
    · rw [he]
      have hc := C42_delivers shipped d.clock S.mtu d.bytes f hl
      rw [← hT] at hc
      simpa using DropAll.carried d f hc ih
    · rw [he]
      simp only [List.filterMap_cons, ha, List.filterMap_nil]
      refine DropAll.dropped d (fun f hf => ?_) ih
      obtain ⟨c1, c2, c3⟩ := hf
      rw [hT] at c2 c3
      have := C42_delivered shipped d.clock S.mtu d.bytes f c1 c2 c3 (by rw [hl]; trivial)
      rw [hl] at this; cases this
      exact hn f rfl
  · rw [h2, h3]; simpa [errorLines, List.filterMap_cons, Told.about] using ih
  · rw [h2, h3, (rxSays_lines h1).2.2.1, List.append_nil]; exact ih
  · rw [h2, h3]; simpa [errorLines] using ih
  · rw [h2, h3]; simpa [errorLines] using ih

/-- **C133** As long as the program runs, the lines "Rx" in the packet window show exactly the packets handled, in
order, each once. Any tables. (C43 says which packets these are.) -/
theorem C133_packets (S : Setup) (fs : FS) (k : Spoken) (h : k.Reached S fs) (run : k.world.main ≠ .ended) :
    k.lines.filterMap Said.shown = k.world.handled.map Handled.frame := by
  refine reached_induction (P := fun k => k.lines.filterMap Said.shown = k.world.handled.map Handled.frame)
    rfl ?_ h run
  intro k a w ih hm hs hr
  simp only [List.filterMap_append, ih]
  rcases says_cases hs hr with ⟨d, act, ls, rfl, h1, h2, _, h3, _⟩ | ⟨h2, _, h3, _⟩ |
    ⟨fam, clock, f, src, ls, _, _, h1, h2, _, _, h3, _⟩ | ⟨fam, s, src, h2, _, h3, _⟩ | ⟨h2, _, h3, _⟩
  · rw [h2, h3, (listen_lines h1).1, List.append_nil]
  · rw [h2, h3]; simp [List.filterMap_cons, Said.shown]
  · rw [h2, h3, (rxSays_lines h1).1]; simp
  · rw [h2, h3]; simp [List.filterMap_cons, Said.shown]
  · rw [h2, h3]; simp

/-- **C133** As long as the program runs, the lines about replies show exactly the replies taken off the queues, in
order, each once. Any tables. (None of them is ever sent: C44.) -/
theorem C133_replies (S : Setup) (fs : FS) (k : Spoken) (h : k.Reached S fs) (run : k.world.main ≠ .ended) :
    k.lines.filterMap Said.reply = k.world.taken.map Reply.status := by
  refine reached_induction (P := fun k => k.lines.filterMap Said.reply = k.world.taken.map Reply.status)
    rfl ?_ h run
  intro k a w ih hm hs hr
  simp only [List.filterMap_append, ih]
  rcases says_cases hs hr with ⟨d, act, ls, rfl, h1, h2, _, _, h3, _⟩ | ⟨h2, _, _, h3, _⟩ |
    ⟨fam, clock, f, src, ls, _, _, h1, h2, _, _, _, h3⟩ | ⟨fam, s, src, h2, _, _, h3, _⟩ | ⟨h2, _, _, h3, _⟩
  · rw [h2, h3, (listen_lines h1).2.1, List.append_nil]
  · rw [h2, h3]; simp [List.filterMap_cons, Said.reply]
  · rw [h2, h3, (rxSays_lines h1).2.1]; simp
  · rw [h2, h3]; simp [List.filterMap_cons, Said.reply]
  · rw [h2, h3]; simp

-- a short datagram, one of version 0, and the reply to it, which is printed
example : ∃ k, (Spoken.init tranFS).run shippedSetup
    [.recv ⟨.v4, ⟨0, 0⟩, [1, 2], someone⟩, .recv ⟨.v4, ⟨0, 0⟩, [0, 0, 0, 0, 0, 0, 0, 0], someone⟩, .takeTx .v4] =
      some k ∧ k.world.main = .select ∧
    (errorLines k.lines) = [.tooShort someone, .otherVersion someone] ∧
    k.lines.filterMap Said.reply = [⟨0x2400000A#32, 0, Timestamp.zero, 0, 0, []⟩] :=
  ⟨_, rfl, by decide +kernel, by decide +kernel, by decide +kernel⟩

end Saratoga
