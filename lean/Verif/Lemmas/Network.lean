import Verif.Props.BeaconCmd
import Verif.Props.Program
import Verif.Spec.Network
/-! # Lemmas about several programs -/
namespace Saratoga

theorem framesOf_sends : ∀ acts : List BeaconAct, framesOf acts = sends acts
  | [] => rfl
  | .show _ :: acts => by rw [sends_show]; exact framesOf_sends acts
  | .send d f :: acts => by rw [sends_send]; show (d, f) :: framesOf acts = _; rw [framesOf_sends acts]
  | .sleep _ :: acts => by rw [sends_sleep]; exact framesOf_sends acts

/-- The frame is the encoding of a beacon built for this address, to which there is a connection, with these flags. -/
def BuiltFor (E : BeaconEnv) (flags : String) (f : UDPAddr × List Byte) : Prop :=
  (∃ l, E.dial f.1 = .ok l) ∧
  ∃ x, Beacon.zero.new E.T E.disk flags ⟨0, E.eid f.1⟩ = .ret (x, none) ∧ x.encode E.T = .ret (.ok f.2)

theorem sendBeacons_frames {E : BeaconEnv} {b : BeaconState} {addr : UDPAddr} {acts : List BeaconAct}
    (h : sendBeacons E b addr = .ret acts) : ∀ f ∈ sends acts, BuiltFor E b.flags f := by
  unfold sendBeacons at h
  cases hl : E.dial addr with
  | error e => rw [hl] at h; cases h; intro f hf; cases hf
  | ok l =>
    have he : E.eid addr = utf8 (l ++ "-" ++ toString E.pid) := by unfold BeaconEnv.eid; rw [hl]
    rw [hl] at h
    simp only at h
    rw [← he] at h
    obtain ⟨⟨x, e⟩, h1, h⟩ := Out.bind_eq_ret h
    cases e with
    | some e => cases h; intro f hf; cases hf
    | none =>
      obtain ⟨rest, h2, h⟩ := Out.bind_eq_ret h
      cases h
      obtain ⟨m, frame, -, hs, -, henc⟩ := beaconLoop_any _ _ _ h2
      intro f hf
      rw [sends_show, hs, List.mem_replicate] at hf
      obtain ⟨hm, rfl⟩ := hf
      exact ⟨⟨l, hl⟩, x, h1, henc hm⟩

theorem beaconWord_frames {E : BeaconEnv} {off : Bool} {b b' : BeaconState} {a : String} {acts}
    (h : beaconWord E off b a = .ret (b', acts)) :
    b'.flags = b.flags ∧ ∀ f ∈ sends acts, BuiltFor E b.flags f := by
  unfold beaconWord at h
  split at h
  · cases h; exact ⟨rfl, by intro f hf; cases hf⟩
  · split at h
    · cases h; exact ⟨rfl, by intro f hf; cases hf⟩
    · obtain ⟨acts', h1, h⟩ := Out.bind_eq_ret h
      cases h
      exact ⟨rfl, by simpa [sendingLine] using sendBeacons_frames h1⟩

theorem beaconWords_frames {E : BeaconEnv} {off : Bool} {args : List String} : ∀ {b b' : BeaconState} {acts},
    beaconWords E off b args = .ret (b', acts) → ∀ f ∈ sends acts, BuiltFor E b.flags f := by
  induction args with
  | nil => intro b b' acts h; cases h; intro f hf; cases hf
  | cons a rest ih =>
    intro b b' acts h
    unfold beaconWords at h
    obtain ⟨⟨b1, acts1⟩, h1, h⟩ := Out.bind_eq_ret h
    obtain ⟨⟨b2, acts2⟩, h2, h⟩ := Out.bind_eq_ret h
    cases h
    obtain ⟨e, x⟩ := beaconWord_frames h1
    have y := ih h2
    rw [e] at y
    intro f hf
    rw [sends_append] at hf
    rcases List.mem_append.1 hf with hf | hf
    · exact x f hf
    · exact y f hf

theorem cmdBeacon_frames {E : BeaconEnv} {c : Cliflags} {b b' : BeaconState} {args : List String} {acts}
    (h : cmdBeacon E c b args = .ret (b', acts)) :
    ∀ f ∈ sends acts, BuiltFor E (setglobal E.T "beacon" c.global) f := by
  have none_ : ∀ {l : List BeaconAct}, sends l = [] → ∀ f ∈ sends l, BuiltFor E (setglobal E.T "beacon" c.global) f := by
    intro l hl f hf; rw [hl] at hf; cases hf
  have mc : ∀ {b b' : BeaconState} {line group : String} {acts}, b.flags = setglobal E.T "beacon" c.global →
      beaconMulticast E b line group = .ret (b', acts) →
      ∀ f ∈ sends acts, BuiltFor E (setglobal E.T "beacon" c.global) f := by
    intro b b' line group acts hb h
    unfold beaconMulticast at h
    split at h
    · cases h; exact none_ rfl
    · obtain ⟨acts', h1, h⟩ := Out.bind_eq_ret h
      cases h
      have := sendBeacons_frames h1
      rw [hb] at this
      simpa using this
  unfold cmdBeacon at h
  match args, h with
  | [], h => cases h; exact none_ rfl
  | [_], h => cases h; exact none_ (sends_list _ _)
  | [_, a], h =>
    simp only at h
    split at h
    · cases h; exact none_ (sends_shows _)
    · split at h
      · cases h; exact none_ rfl
      · split at h
        · exact mc (b := { b with flags := _, interval := _, count := _, v4mcast := true }) rfl h
        · split at h
          · exact mc (b := { b with flags := _, interval := _, count := _, v6mcast := true }) rfl h
          · split at h
            · obtain ⟨acts', h1, h⟩ := Out.bind_eq_ret h
              cases h
              simpa [sendingLine] using sendBeacons_frames h1
            · cases h; exact none_ rfl
  | _ :: a :: r :: rest, h =>
    simp only at h
    have y := beaconWords_frames h
    exact y

/-- A beacon that was built and encoded says what it was built to be. -/
theorem built_says {env : DiskEnv} {d x : Beacon} {text : String} {info : Binfo} {frame : List Byte}
    (built : d.new shipped env text info = .ret (x, none)) (enc : x.encode shipped = .ret (.ok frame)) :
    Beacon.zero.decode shipped frame = .ret (x, none) ∧ getStr shipped (headWord frame) "version" = .ret "v1" ∧
    getStr shipped (headWord frame) "frametype" = .ret "beacon" := by
  have sep := C11_shipped_separated.2.2.2.2
  have hhead : headWord frame = x.header := by
    have := (C62_beacon_layout shipped x frame enc).1
    unfold headWord
    rw [this]
    simp
  have dec : Beacon.zero.decode shipped frame = .ret (x, none) := by
    have hg := getStr_freespace x.header
    split at hg
    · obtain ⟨frame', h1, h2⟩ := C34_peer_learns shipped sep env d x Beacon.zero _ info built hg
      rw [enc] at h1; cases h1; exact h2
    · obtain ⟨frame', h1, h2⟩ := C26_round_trip_nospace shipped x Beacon.zero "no" hg (by decide)
        (C34_none_advertised shipped sep env d x _ info built hg)
      rw [enc] at h1; cases h1; exact h2
  obtain ⟨extra, hextra, hc, -⟩ := C11_beacon_partial shipped sep env d x text info built
  have hnot : ∀ p ∈ (flagParts text).flatMap beaconAssigns ++ extra, p.1 ≠ "version" ∧ p.1 ≠ "frametype" := by
    intro p hp
    rcases List.mem_append.1 hp with hp | hp
    · rw [List.mem_flatMap] at hp
      obtain ⟨⟨n, o⟩, _, hp⟩ := hp
      unfold beaconAssigns at hp
      split at hp
      · simp only [List.mem_cons, List.not_mem_nil, or_false] at hp
        rcases hp with rfl | rfl <;> simp
      · split at hp
        · rename_i h
          simp only [List.mem_cons, List.not_mem_nil, or_false] at hp h
          subst hp
          rcases h with h | h | h | h | h | h <;> simp [h]
        · simp at hp
    · rcases hextra with rfl | rfl | ⟨desc, rfl⟩
      · simp at hp
      · simp at hp; rw [hp]; simp
      · simp at hp; rw [hp]; simp
  have fixed : ∀ f v, (f, v) = ("version", "v1") ∨ (f, v) = ("frametype", "beacon") →
      getStr shipped x.header f = .ret v := by
    intro f v hfv
    apply hc.1
    · rcases hfv with h | h <;> (cases h; decide)
    · apply lastValue_eq_some
      · rcases hfv with h | h <;> (rw [h]; simp)
      · intro u hu
        simp only [List.cons_append, List.mem_cons] at hu
        rcases hu with hu | hu | hu
        · rcases hfv with h | h <;> (cases h; simp at hu; try exact hu)
        · rcases hfv with h | h <;> (cases h; simp at hu; try exact hu)
        · have := hnot _ hu
          rcases hfv with h | h <;> (cases h; simp at this)
  rw [hhead]
  exact ⟨dec, fixed _ _ (.inl rfl), fixed _ _ (.inr rfl)⟩

/-- What a beacon built from legal settings tells. -/
theorem built_tells {env : DiskEnv} {x : Beacon} {gl : List (String × String)} {eid : List Byte}
    (ok : ValidGlobal shipped gl) (built : Beacon.zero.new shipped env (setglobal shipped "beacon" gl) ⟨0, eid⟩ = .ret (x, none)) :
    x.eid = eid ∧ (∀ f ∈ ["descriptor", "rxwilling", "txwilling"], ∀ v, (f, v) ∈ gl → getStr shipped x.header f = .ret v) ∧
    x.freespace = toldFree gl env := by
  have sep := C11_shipped_separated.2.2.2.2
  have hfields : ∀ f ∈ ["descriptor", "rxwilling", "txwilling", "freespace"],
      f ∈ values shipped "beacon" ∧ f ∈ globalKeys ∧ f ∈ beaconFields ∧ f ≠ "freespaced" := by decide +kernel
  have keep : ∀ {h h' : BitVec 32} {g v f : String}, f ∈ beaconFields → g ∈ beaconFields → f ≠ g →
      setFlags shipped h [(g, v)] = .ret h' → getStr shipped h' f = getStr shipped h f := by
    intro h h' g v f hf hg hne hs
    simp only [setFlags] at hs
    obtain ⟨c, hcs, hs⟩ := Out.bind_eq_ret hs
    cases hs
    exact ((set_carries sep hg hcs).2.1 f hf hne).2
  have built0 := built
  unfold Beacon.new at built
  obtain ⟨h1, a1, built⟩ := Out.bind_eq_ret built
  obtain ⟨h2, a2, built⟩ := Out.bind_eq_ret built
  obtain ⟨⟨d', e⟩, a3, built⟩ := Out.bind_eq_ret built
  cases e with
  | some e => cases built
  | none =>
  simp only at built
  -- the flag loop ends as it does on a machine whose disk answers
  obtain ⟨x2, hx2, hf2⟩ := C14_beacon gl ok ⟨none, .ok (0, 0)⟩ 0 0 rfl rfl Beacon.zero ⟨0, eid⟩ (by simp)
  have flag : ∀ f ∈ ["descriptor", "rxwilling", "txwilling", "freespace"], ∀ v, (f, v) ∈ gl →
      getStr shipped d'.header f = .ret v := by
    intro f hf v hv
    obtain ⟨q1, q2, q3, q4⟩ := hfields f hf
    have g := hf2 f v q1 hv
    obtain ⟨y, extra, b1, b2, b3⟩ := Beacon.finish_good (env := ⟨none, .ok (0, 0)⟩) (b := d') (info := ⟨0, eid⟩)
      (bs := 0) (ba := 0) rfl rfl (by simp)
    unfold Beacon.new at hx2
    simp only [a1, a2, a3, Out.ret_bind] at hx2
    rw [b1] at hx2
    cases hx2
    rcases b3 with rfl | ⟨desc, rfl⟩
    · simp only [setFlags, Out.ret.injEq] at b2
      rw [b2]; exact g
    · rw [← keep q3 (by decide) q4 b2]; exact g
  obtain ⟨k0, extra, k1, k2⟩ := Beacon.finish_extra built
  refine ⟨k0, ?_, ?_⟩
  · intro f hf v hv
    have hf' : f ∈ ["descriptor", "rxwilling", "txwilling", "freespace"] := by
      simp only [List.mem_cons, List.not_mem_nil, or_false] at hf ⊢
      rcases hf with h | h | h <;> simp [h]
    have g := flag f hf' v hv
    obtain ⟨-, -, q3, q4⟩ := hfields f hf'
    have ne : f ≠ "freespace" := by
      simp only [List.mem_cons, List.not_mem_nil, or_false] at hf
      rcases hf with rfl | rfl | rfl <;> decide
    rcases k2 with ⟨rfl, -⟩ | ⟨-, rfl, -⟩ | ⟨-, desc, n, rfl, -⟩
    · simp only [setFlags, Out.ret.injEq] at k1
      rw [← k1]; exact g
    · rw [keep q3 (by decide) ne k1]; exact g
    · rw [keep q3 (by decide) q4 k1]; exact g
  · obtain ⟨v, hv⟩ := ok.2.2.1 "freespace" (by decide)
    have g := flag "freespace" (by simp) v hv
    have ha : assoc "freespace" gl = some v := assoc_of_mem ok.1 hv
    unfold toldFree
    rw [ha]
    by_cases hy : v = "yes"
    · subst hy
      rw [if_pos rfl]
      rcases k2 with ⟨-, hn, -⟩ | ⟨-, rfl, hz⟩ | ⟨-, desc, n, -, -, -, ⟨hne, -⟩ | ⟨-, bs, ba, hs, hv⟩⟩
      · exact absurd g hn
      · cases hst : env.statfs with
        | error e => exact hz
        | ok q =>
          obtain ⟨bs, ba⟩ := q
          exfalso
          have wd : env.getwd = none := by
            cases hw : env.getwd with
            | none => rfl
            | some e =>
              exfalso
              unfold Beacon.finish at built
              simp only [g, Out.ret_bind, if_true, hw] at built
              obtain ⟨_, _, built⟩ := Out.bind_eq_ret built
              cases built
          obtain ⟨y, hy, hfy⟩ := C14_beacon gl ok env bs ba wd hst Beacon.zero ⟨0, eid⟩ (by simp)
          rw [built0] at hy; cases hy
          have := hfy "freespace" "yes" (by decide +kernel) hv
          simp only [setFlags] at k1
          obtain ⟨c, hcs, k1⟩ := Out.bind_eq_ret k1
          cases k1
          rw [(set_carries sep (by decide) hcs).1] at this
          simp at this
      · exact absurd rfl hne
      · rw [hs]; exact hv
    · rw [if_neg (by simpa using hy)]
      have hno : v = "no" := by
        rw [getStr_freespace] at g
        split at g
        · cases g; exact absurd rfl hy
        · cases g; rfl
      subst hno
      rcases k2 with ⟨-, -, hz⟩ | ⟨h, -⟩ | ⟨h, -⟩
      · exact hz g
      · rw [g] at h; simp at h
      · rw [g] at h; simp at h

/-! ## One program -/

/-- What was read, came. -/
theorem read_came {M : Machine} {fs : FS} {c : Cliflags} {es : List Event} {p : Program} (h : Leads M fs c es p) :
    ∀ d ∈ p.net.read, Event.net (.recv d) ∈ es := by
  refine leads_induction (P := fun es p => ∀ d ∈ p.net.read, Event.net (.recv d) ∈ es) (by intro d hd; cases hd) ?_ h
  intro es p e p' ih hs d hd
  have old : d ∈ p.net.read → Event.net (.recv d) ∈ es ++ [e] := fun h => List.mem_append_left _ (ih d h)
  rcases program_step_cases hs with ⟨a, w, rfl, hk, h1, rfl⟩ | ⟨line, o, rfl, hm, rfl⟩
  · rcases step_cases h1 with ⟨d', rfl, hm, _, rfl⟩ | ⟨g, rfl, hm, _, rfl⟩ | ⟨g, clock, f, addr, rfl, hm, hl, rfl⟩ |
      ⟨g, s, addr, rfl, hm, hl, rfl⟩ | ⟨g, rfl, hm, _, rfl⟩ | ⟨rfl, hm, rfl⟩ | ⟨rfl, hm, rfl⟩ | ⟨f, rfl, hm, rfl⟩
    · have : d ∈ p.net.read ∨ d = d' := by
        rcases onRecv_cases M.S p.net d' with ⟨_, h⟩ | ⟨hf, h⟩ | ⟨f', hf, h⟩ | ⟨s, hf, h⟩ <;> rw [h] at hd
        · exact .inl hd
        all_goals
          rcases List.mem_append.1 hd with hd | hd
          · exact .inl hd
          · exact .inr (List.mem_singleton.1 hd)
      rcases this with h | rfl
      · exact old h
      · simp
    · exact old hd
    · simp only [(onRx_logs M.S p.net g clock f addr).2.1] at hd; exact old hd
    · simp only [(onTx_logs M.S p.net g s addr).2.1] at hd; exact old hd
    · exact old hd
    · exact old hd
    · exact old hd
    · exact old hd
  · have := ((C127_apart hs).2 line o rfl).2.2.2.1
    rw [← this] at hd
    exact old hd

/-- What was handled, was read. -/
theorem handled_read {S : Setup} {fs : FS} {w : World} (h : Reachable S fs w) :
    ∀ x ∈ w.handled, ∃ d ∈ w.read, d.source = x.source ∧ listenFrame S.T d.clock S.mtu d.bytes = .ret (.rx x.frame) := by
  refine (reachable_induction (P := fun w => Reachable S fs w ∧ ∀ x ∈ w.handled, ∃ d ∈ w.read, d.source = x.source ∧
    listenFrame S.T d.clock S.mtu d.bytes = .ret (.rx x.frame)) ⟨⟨[], rfl⟩, by intro x hx; cases hx⟩ ?_ h).2
  rintro w a w' ⟨hr, ih⟩ hs
  refine ⟨hr.step hs, ?_⟩
  intro x hx
  rcases step_cases hs with ⟨d', rfl, hm, _, rfl⟩ | ⟨g, rfl, hm, _, rfl⟩ | ⟨g, clock, f, addr, rfl, hm, hl, rfl⟩ |
    ⟨g, s, addr, rfl, hm, hl, rfl⟩ | ⟨g, rfl, hm, _, rfl⟩ | ⟨rfl, hm, rfl⟩ | ⟨rfl, hm, rfl⟩ | ⟨f, rfl, hm, rfl⟩
  · have hh : x ∈ w.handled := by
      rcases onRecv_cases S w d' with ⟨_, h⟩ | ⟨hf, h⟩ | ⟨f', hf, h⟩ | ⟨s, hf, h⟩ <;> (rw [h] at hx; exact hx)
    obtain ⟨d, hd, h1, h2⟩ := ih x hh
    refine ⟨d, ?_, h1, h2⟩
    rcases onRecv_cases S w d' with ⟨_, h⟩ | ⟨hf, h⟩ | ⟨f', hf, h⟩ | ⟨s, hf, h⟩ <;> rw [h]
    · exact hd
    all_goals exact List.mem_append_left _ hd
  · exact ih x hx
  · obtain ⟨-, l2, l3, -⟩ := onRx_logs S w g clock f addr
    rw [l3] at hx
    rw [l2]
    rcases List.mem_append.1 hx with hx | hx
    · exact ih x hx
    · rw [List.mem_singleton] at hx
      subst hx
      obtain ⟨d, h1, -, h3, h4⟩ := pending_from hr hl
      exact ⟨d, h1, h3, h4⟩
  · obtain ⟨-, l2, l3, -⟩ := onTx_logs S w g s addr
    rw [l3] at hx
    rw [l2]
    exact ih x hx
  · exact ih x hx
  · exact ih x hx
  · exact ih x hx
  · exact ih x hx

/-- A program that has handled no request has no transfers on the network side and its main loop does not hang. -/
theorem unasked {S : Setup} {fs : FS} {w : World} (h : Reachable S fs w) (no : ¬ AskedFor w) :
    w.transfers = [] ∧ (w.main = .select ∨ w.main = .ended) := by
  refine (reachable_induction (P := fun w => ¬ AskedFor w → w.transfers = [] ∧ (w.main = .select ∨ w.main = .ended))
    (fun _ => ⟨rfl, .inl rfl⟩) ?_ h) no
  intro w a w' ih hs no
  rcases step_cases hs with ⟨d', rfl, hm, _, rfl⟩ | ⟨g, rfl, hm, _, rfl⟩ | ⟨g, clock, f, addr, rfl, hm, hl, rfl⟩ |
    ⟨g, s, addr, rfl, hm, hl, rfl⟩ | ⟨g, rfl, hm, _, rfl⟩ | ⟨rfl, hm, rfl⟩ | ⟨rfl, hm, rfl⟩ | ⟨f, rfl, hm, rfl⟩
  · rcases onRecv_cases S w d' with ⟨_, h⟩ | ⟨hf, h⟩ | ⟨f', hf, h⟩ | ⟨s, hf, h⟩ <;> rw [h] at no ⊢
    · exact ⟨(ih no).1, .inr rfl⟩
    all_goals exact ih no
  · exact ih no
  · have hh := (onRx_logs S w g clock f addr).2.2.1
    have no' : ¬ AskedFor w := by
      rintro ⟨x, hx, hr⟩
      exact no ⟨x, by rw [hh]; exact List.mem_append_left _ hx, hr⟩
    obtain ⟨i1, i2⟩ := ih no'
    cases f with
    | request r => exact absurd ⟨_, by rw [hh]; exact List.mem_append_right _ (List.mem_singleton.2 rfl), r, rfl⟩ no
    | beacon b => unfold World.onRx World.orEnd; simp only; split <;> first | exact ⟨i1, i2⟩ | exact ⟨i1, .inr rfl⟩
    | data b => unfold World.onRx World.orEnd; simp only; split <;> first | exact ⟨i1, i2⟩ | exact ⟨i1, .inr rfl⟩
    | metadata b => unfold World.onRx World.orEnd; simp only; split <;> first | exact ⟨i1, i2⟩ | exact ⟨i1, .inr rfl⟩
    | status b => unfold World.onRx World.orEnd; simp only; split <;> first | exact ⟨i1, i2⟩ | exact ⟨i1, .inr rfl⟩
  · have hh := (onTx_logs S w g s addr).2.2.1
    have no' : ¬ AskedFor w := by
      rintro ⟨x, hx, hr⟩
      exact no ⟨x, by rw [hh]; exact hx, hr⟩
    obtain ⟨i1, i2⟩ := ih no'
    unfold World.onTx World.orEnd; simp only; split <;> first | exact ⟨i1, i2⟩ | exact ⟨i1, .inr rfl⟩
  · exact ⟨(ih no).1, .inr rfl⟩
  · exact ⟨(ih no).1, .inr rfl⟩
  · exact ⟨(ih no).1, .inr rfl⟩
  · exact ih no

/-! ## Executions of a network -/

variable {N : Type} [DecidableEq N]

/-- The three kinds of steps. -/
theorem net_step_cases {P : Plant N} {w w' : Network N} {e : NetEvent N} (h : w.step P e = some w') :
    (∃ n line o source p, e = .typed n line o source ∧ (w.node n).step (P.machine n) (.typed line o) = some p ∧
      w' = { w.set n p with air := w.air ++ w.sent P n line o source }) ∨
    (∃ n k fam clock d p, e = .arrives n k fam clock ∧ w.air[k]? = some d ∧ P.hears n d.dest = true ∧
      (w.node n).step (P.machine n) (.net (.recv ⟨fam, clock, d.bytes, d.source⟩)) = some p ∧ w' = w.set n p) ∨
    (∃ n a p, e = .inside n a ∧ (∀ d, a ≠ .recv d) ∧ (w.node n).step (P.machine n) (.net a) = some p ∧ w' = w.set n p) := by
  cases e with
  | typed n line o source =>
    obtain ⟨p, h1, h2⟩ := Option.map_eq_some_iff.1 h
    exact .inl ⟨n, line, o, source, p, rfl, h1, h2.symm⟩
  | arrives n k fam clock =>
    simp only [Network.step] at h
    split at h
    · cases h
    · rename_i d hd
      split at h
      · rename_i hh
        obtain ⟨p, h1, h2⟩ := Option.map_eq_some_iff.1 h
        exact .inr (.inl ⟨n, k, fam, clock, d, p, rfl, hd, hh, h1, h2.symm⟩)
      · cases h
  | inside n a =>
    cases a with
    | recv d => cases h
    | kill => cases h
    | _ =>
      obtain ⟨p, h1, h2⟩ := Option.map_eq_some_iff.1 h
      exact .inr (.inr ⟨n, _, p, rfl, by simp, h1, h2.symm⟩)

theorem net_induction {P : Plant N} {Q : List (NetEvent N) → Network N → Prop}
    (step : ∀ es w e w', Q es w → w.step P e = some w' → Q (es ++ [e]) w') :
    ∀ (es : List (NetEvent N)) {pre : List (NetEvent N)} {w w' : Network N}, Q pre w → w.run P es = some w' → Q (pre ++ es) w'
  | [], pre, w, w', h, hr => by cases hr; rw [List.append_nil]; exact h
  | e :: es, pre, w, w', h, hr => by
    unfold Network.run at hr
    cases h1 : w.step P e with
    | none => rw [h1] at hr; cases hr
    | some w1 =>
      rw [h1] at hr
      have := net_induction step es (step _ _ _ _ h h1) hr
      rwa [List.append_assoc] at this

theorem netLeads_induction {P : Plant N} {fs : N → FS} {c : N → Cliflags} {Q : List (NetEvent N) → Network N → Prop}
    (init : Q [] (Network.init fs c)) (step : ∀ es w e w', Q es w → w.step P e = some w' → Q (es ++ [e]) w')
    {es : List (NetEvent N)} {w : Network N} (h : NetLeads P fs c es w) : Q es w :=
  net_induction step es (pre := []) init h

theorem net_run_append {P : Plant N} {w1 : Network N} {es' : List (NetEvent N)} :
    ∀ (es : List (NetEvent N)) (w : Network N), w.run P es = some w1 → w.run P (es ++ es') = w1.run P es'
  | [], w, h => by cases h; rfl
  | e :: es, w, h => by
    show (w.step P e).bind _ = _
    have h : (w.step P e).bind (fun w => w.run P es) = some w1 := h
    cases hs : w.step P e with
    | none => rw [hs] at h; cases h
    | some w2 => rw [hs] at h; exact net_run_append es w2 h

theorem netLeads_append {P : Plant N} {fs : N → FS} {c : N → Cliflags} {es es' : List (NetEvent N)} {w w' : Network N}
    (h : NetLeads P fs c es w) (h' : w.run P es' = some w') : NetLeads P fs c (es ++ es') w' := by
  unfold NetLeads at h ⊢
  rw [net_run_append es _ h]; exact h'

theorem program_run_append {M : Machine} {p1 p2 : Program} {e : Event} (hs : p1.step M e = some p2) :
    ∀ (es : List Event) (q : Program), q.run M es = some p1 → q.run M (es ++ [e]) = some p2
  | [], q, h => by cases h; show (p1.step M e).bind _ = _; rw [hs]; rfl
  | x :: xs, q, h => by
    show (q.step M x).bind _ = _
    have h : (q.step M x).bind (fun q => q.run M xs) = some p1 := h
    cases hx : q.step M x with
    | none => rw [hx] at h; cases h
    | some q1 => rw [hx] at h; exact program_run_append hs xs q1 h

theorem set_self (w : Network N) (n : N) (p : Program) : (w.set n p).node n = p := if_pos rfl

theorem set_other (w : Network N) {m n : N} (p : Program) (h : m ≠ n) : (w.set n p).node m = w.node m := if_neg h

end Saratoga
