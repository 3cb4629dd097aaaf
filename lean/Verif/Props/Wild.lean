import Verif.Spec.Wild
import Verif.Props.RestartForever
import Verif.Props.StrangersRest
/-! # C183: networks with restarts and strangers -/
namespace Saratoga

variable {N : Type} [DecidableEq N]

/-- What happens at the machines happens at their runs. -/
theorem wild_mirrors_step {P : Plant N} {fs : N → FS} {c : N × Nat → Cliflags} {k : N → Nat} {w w1 : Crowd N}
    {v : Crowd (N × Nat)} (h : Mirrors fs c k w v) {e : WildEvent N} (hs : w.wildStep P e = some w1)
    (hc : ∀ n c' f, e = .goes (.restart n c' f) → c (n, k n + 1) = c') :
    ∃ v1, v.openStep P.runs (e.ofRun k) = some v1 ∧ Mirrors fs c (e.plain.counts k) w1 v1 := by
  cases e with
  | goes e => exact mirrors_step h hs fun n c' f e => hc n c' f (by rw [e])
  | stranger n d =>
    obtain ⟨b, h1, rfl⟩ := Option.map_eq_some_iff.1 hs
    refine ⟨v.set (n, k n) b, ?_, mirrors_set h n b⟩
    rw [← h.node] at h1
    show ((v.node (n, k n)).step (P.machine n) _).map _ = _
    rw [h1]; rfl

/-- For a finite execution the configurations of the runs can be told beforehand. -/
theorem wild_mirrors_run {P : Plant N} {fs : N → FS} : ∀ (es : List (WildEvent N)) (k : N → Nat) (w w1 : Crowd N)
    (c0 : N × Nat → Cliflags), w.wildRun P es = some w1 → ∃ c : N × Nat → Cliflags, (∀ n j, j ≤ k n → c (n, j) = c0 (n, j)) ∧
      (∀ before n c' f after, es = before ++ .goes (.restart n c' f) :: after →
        c (n, k n + restarts (before.map WildEvent.plain) n + 1) = c') ∧
      ∀ v, Mirrors fs c k w v → ∃ v1, v.openRun P.runs (ofWildRuns k es) = some v1 ∧
        Mirrors fs c (fun n => k n + restarts (es.map WildEvent.plain) n) w1 v1
  | [], k, w, w1, c0, h => by
    cases h
    exact ⟨c0, fun _ _ _ => rfl, (fun before n c' f after h => by cases before <;> cases h), fun v hv => ⟨v, rfl, hv⟩⟩
  | e :: es, k, w, w1, c0, h => by
    obtain ⟨w2, h1, h2⟩ := Option.bind_eq_some_iff.1 h
    let c1 : N × Nat → Cliflags := fun x =>
      match e with
      | .goes (.restart n c' _) => if x = (n, k n + 1) then c' else c0 x
      | _ => c0 x
    obtain ⟨c, g1, g2, g3⟩ := wild_mirrors_run es (e.plain.counts k) w2 w1 c1 h2
    have first : ∀ n c' f, e = .goes (.restart n c' f) → c (n, k n + 1) = c' := by
      intro n c' f he
      subst he
      rw [g1 n (k n + 1) (by show _ ≤ if n = n then _ else _; rw [if_pos rfl]; exact Nat.le_refl _)]
      show (if (n, k n + 1) = (n, k n + 1) then c' else c0 (n, k n + 1)) = c'
      exact if_pos rfl
    refine ⟨c, fun n j hj => ?_, fun before n c' f after eq => ?_, fun v hv => ?_⟩
    · rw [g1 n j (Nat.le_trans hj (counts_ge e.plain k n))]
      cases e with
      | stranger m d => rfl
      | goes e =>
        cases e with
        | goes e => rfl
        | restart m c' f =>
          show (if (n, j) = (m, k m + 1) then c' else c0 (n, j)) = _
          rw [if_neg]
          intro e
          have e1 := congrArg Prod.fst e
          have e2 := congrArg Prod.snd e
          simp only at e1 e2
          subst e1
          omega
    · cases before with
      | nil =>
        injection eq with eq _
        exact first n c' f eq
      | cons x before =>
        injection eq with eq1 eq2
        subst eq1
        have := g2 before n c' f after eq2
        rw [counts_add e.plain k n] at this
        show c (n, k n + (e.plain.counts (fun _ => 0) n + restarts (before.map WildEvent.plain) n) + 1) = c'
        rw [← Nat.add_assoc]; exact this
    · obtain ⟨v2, s1, s2⟩ := wild_mirrors_step hv h1 first
      obtain ⟨v1, r1, r2⟩ := g3 v2 s2
      refine ⟨v1, ?_, ?_⟩
      · show (v.openStep P.runs (e.ofRun k)).bind _ = _
        rw [s1]; exact r1
      · have : (fun n => k n + restarts ((e :: es).map WildEvent.plain) n) =
            fun n => e.plain.counts k n + restarts (es.map WildEvent.plain) n := by
          funext n
          show _ + (_ + _) = _
          rw [counts_add e.plain k n]; omega
        rw [this]; exact r2

/-- The runs of an execution, with what they were started with. -/
theorem wild_runs {P : Plant N} {fs : N → FS} {c : N → Cliflags} {es : List (WildEvent N)} {w : Crowd N}
    (h : WildLeads P fs c es w) : ∃ c' v, OpenLeads P.runs (fun x => fs x.1) c' (ofWildRuns (fun _ => 0) es) v ∧
      Mirrors fs c' (restarts (es.map WildEvent.plain)) w v ∧ (∀ n, c' (n, 0) = c n) ∧
      ∀ before n c0 f after, es = before ++ .goes (.restart n c0 f) :: after →
        c' (n, restarts (before.map WildEvent.plain) n + 1) = c0 := by
  obtain ⟨c', g1, g2, g3⟩ := wild_mirrors_run (fs := fs) es (fun _ => 0) _ _ (fun x => c x.1) h
  have e : c = fun n => c' (n, 0) := funext fun n => (g1 n 0 (Nat.le_refl _)).symm
  obtain ⟨v, r1, r2⟩ := g3 (Crowd.init (fun x => fs x.1) c') (by rw [e]; exact mirrors_start fs c')
  have z : (fun n => 0 + restarts (es.map WildEvent.plain) n) = restarts (es.map WildEvent.plain) :=
    funext fun n => Nat.zero_add _
  rw [z] at r2
  refine ⟨c', v, r1, r2, fun n => g1 n 0 (Nat.le_refl _), fun before n c0 f after eq => ?_⟩
  have := g2 before n c0 f after eq
  rwa [Nat.zero_add] at this

/-- **C183** Every execution with restarts and strangers is one without restarts, of a network with strangers in which every
run of every program is a machine of its own. So all that holds of networks with strangers (C180 to C182) holds of
these. -/
theorem C183_runs (P : Plant N) (fs : N → FS) (c : N → Cliflags) (es : List (WildEvent N)) (w : Crowd N)
    (h : WildLeads P fs c es w) : ∃ c' v, OpenLeads P.runs (fun x => fs x.1) c' (ofWildRuns (fun _ => 0) es) v ∧
      (∀ n, c' (n, 0) = c n) ∧ (∀ n, v.node (n, restarts (es.map WildEvent.plain) n) = w.node n) ∧
      v.air.map Packet.home = w.air := by
  obtain ⟨c', v, h1, m, z, _⟩ := wild_runs h
  exact ⟨c', v, h1, z, m.node, m.air⟩

/-- **C183, only beacons travel.** Whatever is typed, whatever strangers send and however often programs are ended and started
again. -/
theorem C183_only_beacons (P : Plant N) (hT : ∀ n, (P.machine n).S.T = shipped) (fs : N → FS) (c : N → Cliflags)
    (es : List (WildEvent N)) (w : Crowd N) (h : WildLeads P fs c es w) :
    ∀ d ∈ w.air, getStr shipped (headWord d.bytes) "version" = .ret "v1" ∧
      (∃ b, Says shipped d.bytes (.beacon b)) ∧ ∀ f, Says shipped d.bytes f → ∃ b, f = .beacon b := by
  obtain ⟨c', v, h1, -, -, h4⟩ := C183_runs P fs c es w h
  intro d hd
  rw [← h4] at hd
  obtain ⟨d', hd', rfl⟩ := List.mem_map.1 hd
  exact C180_only_beacons (fun x => hT x.1) h1 d' hd'

/-! ## The last run of a machine -/

/-- Every machine has been started for the last time at some point. -/
theorem last_start (c : N → Cliflags) (n : N) (es : List (WildEvent N)) : ∃ since c0, LastStart c n es since c0 := by
  have key : ∀ es : List (WildEvent N), (∀ e ∈ es, ∀ c f, e ≠ .goes (.restart n c f)) ∨
      ∃ before c0 f since, (∀ e ∈ since, ∀ c f, e ≠ .goes (.restart n c f)) ∧ es = before ++ .goes (.restart n c0 f) :: since := by
    intro es
    induction es with
    | nil => exact .inl fun e he => by cases he
    | cons e es ih =>
      rcases ih with no | ⟨before, c0, f, since, h1, h2⟩
      · by_cases here : ∃ c f, e = .goes (.restart n c f)
        · obtain ⟨c, f, rfl⟩ := here
          exact .inr ⟨[], c, f, es, no, rfl⟩
        · refine .inl fun x hx c f hxe => ?_
          rcases List.mem_cons.1 hx with rfl | hx
          · exact here ⟨c, f, hxe⟩
          · exact no x hx c f hxe
      · exact .inr ⟨e :: before, c0, f, since, h1, by rw [h2]; rfl⟩
  rcases key es with no | ⟨before, c0, f, since, h1, h2⟩
  · exact ⟨es, c n, no, .inl ⟨rfl, rfl⟩⟩
  · exact ⟨since, c0, h1, .inr ⟨before, f, h2⟩⟩

theorem ofWildRuns_append (es fs : List (WildEvent N)) : ∀ k, ofWildRuns k (es ++ fs) =
    ofWildRuns k es ++ ofWildRuns (fun n => k n + restarts (es.map WildEvent.plain) n) fs := by
  induction es with
  | nil => intro k; rfl
  | cons e es ih =>
    intro k
    show e.ofRun k :: ofWildRuns (e.plain.counts k) (es ++ fs) = e.ofRun k :: (_ ++ _)
    rw [ih]
    congr 2
    congr 1
    funext n
    show e.plain.counts k n + _ = k n + (_ + _)
    rw [counts_add e.plain k n]; omega

theorem restarts_none {n : N} : ∀ {es : List (WildEvent N)}, (∀ e ∈ es, ∀ c f, e ≠ .goes (.restart n c f)) →
    restarts (es.map WildEvent.plain) n = 0
  | [], _ => rfl
  | e :: es, h => by
    show e.plain.counts (fun _ => 0) n + restarts (es.map WildEvent.plain) n = 0
    rw [restarts_none fun x hx => h x (List.mem_cons_of_mem _ hx)]
    have h := h e (List.mem_cons_self ..)
    cases e with
    | stranger m d => rfl
    | goes e =>
      cases e with
      | goes e => rfl
      | restart m c f =>
        refine (Nat.add_zero _).trans (if_neg fun e => ?_)
        subst e
        exact h c f rfl

/-- What machine `x` of the network of the runs sees is what is listed here. -/
structure SeenBy (x : N × Nat) (l : List (OpenEvent (N × Nat))) (strangers : List Datagram) (lines : List String)
    (acts : List Action) (begins : CrowdEvent N → Prop) : Prop where
  strangers : strangersAt x l = strangers
  lines : enteredAt x (ownEvents l) = lines
  acts : insideAt x (ownEvents l) = acts
  begins : ∀ i o source, .begin x i o source ∈ ownEvents l → begins (.begin x.1 i o source)

theorem seenBy_append {x : N × Nat} {l l' : List (OpenEvent (N × Nat))} {s s' t t' a a'} {b b' : CrowdEvent N → Prop}
    (h : SeenBy x l s t a b) (h' : SeenBy x l' s' t' a' b') :
    SeenBy x (l ++ l') (s ++ s') (t ++ t') (a ++ a') (fun e => b e ∨ b' e) where
  strangers := by rw [strangersAt_append, h.strangers, h'.strangers]
  lines := by rw [ownEvents_append, enteredAt_append, h.lines, h'.lines]
  acts := by rw [ownEvents_append, insideAt_append, h.acts, h'.acts]
  begins i o source hb := by
    rw [ownEvents_append] at hb
    rcases List.mem_append.1 hb with hb | hb
    · exact .inl (h.begins _ _ _ hb)
    · exact .inr (h'.begins _ _ _ hb)

/-- One event at another run. -/
theorem seenBy_other {x : N × Nat} {e : WildEvent N} {k : N → Nat} (h : x.2 ≠ k x.1) (h' : x.2 ≠ e.plain.counts k x.1) :
    SeenBy x [e.ofRun k] [] [] [] (fun _ => False) := by
  have ne : ∀ m, (m, k m) ≠ x := by
    intro m hm
    subst hm
    exact h rfl
  cases e with
  | stranger m d => exact ⟨by simp [WildEvent.ofRun, strangersAt, ne m], rfl, rfl, fun i o source hb => by cases hb⟩
  | goes e =>
    cases e with
    | restart m c f =>
      have ne' : (m, k m + 1) ≠ x := by
        intro hm
        subst hm
        exact h' (if_pos rfl).symm
      exact ⟨rfl, rfl, by simp [WildEvent.ofRun, RestartEvent.ofRun, ownEvents, insideAt, ne'], fun i o source hb => by
        have := List.mem_singleton.1 hb; cases this⟩
    | goes e =>
      cases e with
      | typed m line => exact ⟨rfl, by simp [WildEvent.ofRun, RestartEvent.ofRun, CrowdEvent.ofRun, ownEvents, enteredAt, ne m], rfl,
          fun i o source hb => by have := List.mem_singleton.1 hb; cases this⟩
      | begin m i o source =>
        refine ⟨rfl, rfl, rfl, fun i o source hb => ?_⟩
        have := List.mem_singleton.1 hb
        injection this with this
        exact ne m this.symm
      | act m => exact ⟨rfl, rfl, rfl, fun i o source hb => by have := List.mem_singleton.1 hb; cases this⟩
      | arrives m i fam clock => exact ⟨rfl, rfl, rfl, fun i o source hb => by have := List.mem_singleton.1 hb; cases this⟩
      | inside m a => exact ⟨rfl, rfl, by simp [WildEvent.ofRun, RestartEvent.ofRun, CrowdEvent.ofRun, ownEvents, insideAt, ne m],
          fun i o source hb => by have := List.mem_singleton.1 hb; cases this⟩

/-- One event at the run itself. -/
theorem seenBy_own {n : N} {e : WildEvent N} {k : N → Nat} (no : ∀ c f, e ≠ .goes (.restart n c f)) :
    SeenBy (n, k n) [e.ofRun k] (wildStrangersAt n [e]) (enteredAt n (wildOwn [e])) (insideAt n (wildOwn [e]))
      (· ∈ wildOwn [e]) := by
  have same : ∀ m, ((m, k m) = (n, k n)) = (m = n) := fun m => propext ⟨fun h => congrArg Prod.fst h, fun h => by rw [h]⟩
  cases e with
  | stranger m d => exact ⟨by simp only [WildEvent.ofRun, strangersAt, wildStrangersAt, List.filterMap_cons, List.filterMap_nil, same],
      rfl, rfl, fun i o source hb => by cases hb⟩
  | goes e =>
    cases e with
    | restart m c f =>
      have ne : (m, k m + 1) ≠ (n, k n) := by
        intro hm
        have : m = n := congrArg Prod.fst hm
        subst this
        exact no c f rfl
      exact ⟨rfl, rfl, by simp [WildEvent.ofRun, RestartEvent.ofRun, ownEvents, insideAt, wildOwn, ne], fun i o source hb => by
        have := List.mem_singleton.1 hb; cases this⟩
    | goes e =>
      cases e with
      | typed m line => exact ⟨rfl, by simp only [WildEvent.ofRun, RestartEvent.ofRun, CrowdEvent.ofRun, ownEvents, enteredAt, wildOwn,
          List.filterMap_cons, List.filterMap_nil, same], rfl, fun i o source hb => by have := List.mem_singleton.1 hb; cases this⟩
      | begin m i o source =>
        refine ⟨rfl, rfl, rfl, fun i o source hb => ?_⟩
        have := List.mem_singleton.1 hb
        have this : CrowdEvent.begin (n, k n) i o source = .begin (m, k m) _ _ _ := this
        injection this with e1 e2 e3 e4
        have e1 : n = m := congrArg Prod.fst e1
        subst e1 e2 e3 e4
        exact List.mem_singleton.2 rfl
      | act m => exact ⟨rfl, rfl, rfl, fun i o source hb => by have := List.mem_singleton.1 hb; cases this⟩
      | arrives m i fam clock => exact ⟨rfl, rfl, rfl, fun i o source hb => by have := List.mem_singleton.1 hb; cases this⟩
      | inside m a => exact ⟨rfl, rfl, by simp only [WildEvent.ofRun, RestartEvent.ofRun, CrowdEvent.ofRun, ownEvents, insideAt, wildOwn,
          List.filterMap_cons, List.filterMap_nil, same], fun i o source hb => by have := List.mem_singleton.1 hb; cases this⟩

theorem seenBy_weaken {x : N × Nat} {l : List (OpenEvent (N × Nat))} {s s' t t' a a'} {b b' : CrowdEvent N → Prop}
    (h : SeenBy x l s t a b) (hs : s = s') (ht : t = t') (ha : a = a') (hb : ∀ e, b e → b' e) : SeenBy x l s' t' a' b' := by
  subst hs ht ha
  exact ⟨h.strangers, h.lines, h.acts, fun i o source m => hb _ (h.begins i o source m)⟩

/-- A run sees nothing before it is started. -/
theorem seenBy_before {x : N × Nat} : ∀ (es : List (WildEvent N)) (k : N → Nat),
    k x.1 + restarts (es.map WildEvent.plain) x.1 < x.2 → SeenBy x (ofWildRuns k es) [] [] [] (fun _ => False)
  | [], _, _ => ⟨rfl, rfl, rfl, fun i o source hb => by cases hb⟩
  | e :: es, k, h => by
    have h : k x.1 + (e.plain.counts (fun _ => 0) x.1 + restarts (es.map WildEvent.plain) x.1) < x.2 := h
    have ha := counts_add e.plain k x.1
    exact seenBy_weaken (seenBy_append (seenBy_other (e := e) (k := k) (by omega) (by omega))
      (seenBy_before es (e.plain.counts k) (by omega))) rfl rfl rfl (fun e h => h.elim id id)

/-- And then what its machine sees. -/
theorem seenBy_since {n : N} : ∀ (es : List (WildEvent N)) (k : N → Nat), (∀ e ∈ es, ∀ c f, e ≠ .goes (.restart n c f)) →
    SeenBy (n, k n) (ofWildRuns k es) (wildStrangersAt n es) (enteredAt n (wildOwn es)) (insideAt n (wildOwn es)) (· ∈ wildOwn es)
  | [], _, _ => ⟨rfl, rfl, rfl, fun i o source hb => by cases hb⟩
  | e :: es, k, h => by
    have no := h e (List.mem_cons_self ..)
    have hk : e.plain.counts k n = k n := by
      cases e with
      | stranger m d => rfl
      | goes e =>
        cases e with
        | goes e => rfl
        | restart m c f =>
          refine if_neg fun e => ?_
          subst e
          exact no c f rfl
    have rest := seenBy_since es (e.plain.counts k) (fun x hx => h x (List.mem_cons_of_mem _ hx))
    rw [hk] at rest
    have own : wildOwn (e :: es) = wildOwn [e] ++ wildOwn es := by
      show List.filterMap _ ([e] ++ es) = _
      exact List.filterMap_append
    refine seenBy_weaken (seenBy_append (seenBy_own (k := k) no) rest) ?_ ?_ ?_ ?_
    · exact (List.filterMap_append (l := [e]) (l' := es)).symm
    · rw [own, enteredAt_append]
    · rw [own, insideAt_append]
    · intro x hx
      rw [own]
      exact List.mem_append.2 hx

/-- What the last run of a machine sees, and what it was started with. -/
theorem seenBy_last {P : Plant N} {fs : N → FS} {c : N → Cliflags} {es : List (WildEvent N)} {w : Crowd N}
    (h : WildLeads P fs c es w) {n : N} {since : List (WildEvent N)} {c0 : Cliflags} (last : LastStart c n es since c0) :
    ∃ c' v x files, x.1 = n ∧ OpenLeads P.runs (fun x => fs x.1) c' (ofWildRuns (fun _ => 0) es) v ∧ v.node x = w.node n ∧
      v.air.map Packet.home = w.air ∧ c' x = c0 ∧
      SeenBy x (ofWildRuns (fun _ => 0) es) (wildStrangersAt n since) (enteredAt n (wildOwn since))
        (files ++ insideAt n (wildOwn since)) (· ∈ wildOwn since) ∧ ∀ a ∈ files, ∃ f, a = .files f := by
  obtain ⟨c', v, h1, m, z, hc⟩ := wild_runs h
  obtain ⟨no, ⟨rfl, rfl⟩ | ⟨before, f, rfl⟩⟩ := last
  · have hr := restarts_none no
    have hn := m.node n
    rw [hr] at hn
    exact ⟨c', v, (n, 0), [], rfl, h1, hn, m.air, z n, seenBy_since es (fun _ => 0) no, fun a ha => by cases ha⟩
  · have hr : restarts ((before ++ .goes (.restart n c0 f) :: since).map WildEvent.plain) n =
        restarts (before.map WildEvent.plain) n + 1 := by
      clear h h1 m hc
      induction before with
      | nil =>
        show (if n = n then 0 + 1 else 0) + restarts (since.map WildEvent.plain) n = 0 + 1
        rw [if_pos rfl, restarts_none no]
      | cons e before ih =>
        show _ + restarts ((before ++ .goes (.restart n c0 f) :: since).map WildEvent.plain) n = _ + _ + 1
        rw [ih]; omega
    have hn := m.node n
    rw [hr] at hn
    refine ⟨c', v, (n, restarts (before.map WildEvent.plain) n + 1), [.files f], rfl, h1, hn, m.air,
      hc before n c0 f since rfl, ?_, fun a ha => ⟨f, List.mem_singleton.1 ha⟩⟩
    rw [ofWildRuns_append]
    let k : N → Nat := fun m => 0 + restarts (before.map WildEvent.plain) m
    have hk : (n, restarts (before.map WildEvent.plain) n + 1) =
        (n, (RestartEvent.restart n c0 f).counts k n) := by
      show _ = (n, if n = n then k n + 1 else k n)
      rw [if_pos rfl]
      show _ = (n, 0 + _ + 1)
      rw [Nat.zero_add]
    have rest := seenBy_since (n := n) since ((RestartEvent.restart n c0 f).counts k) no
    rw [← hk] at rest
    have here : SeenBy (n, restarts (before.map WildEvent.plain) n + 1) [(WildEvent.goes (.restart n c0 f)).ofRun k] [] []
        [.files f] (fun _ => False) := by
      refine ⟨rfl, rfl, ?_, fun i o source hb => by have := List.mem_singleton.1 hb; cases this⟩
      show (if (n, 0 + restarts (before.map WildEvent.plain) n + 1) = (n, restarts (before.map WildEvent.plain) n + 1) then _ else _ : Option Action).toList = _
      rw [Nat.zero_add, if_pos rfl]
      rfl
    exact seenBy_weaken (seenBy_append (seenBy_before (x := (n, restarts (before.map WildEvent.plain) n + 1)) before
      (fun _ => 0) (by
        show 0 + restarts (before.map WildEvent.plain) n < restarts (before.map WildEvent.plain) n + 1; omega)) (seenBy_append here rest)) rfl rfl rfl (fun e h => h.elim False.elim (fun h => h.elim False.elim id))

/-- **C183, what a program believes.** Every entry of a peer table stands under the source address of the datagram it is from.
Either a program of the network, perhaps one that has been ended since, has sent it, to an address heard here; then the
entry shows what that program had when it sent it. Or a stranger has, since this program was last started; then it shows
what the stranger's beacon says. -/
theorem C183_peers (P : Plant N) (hT : ∀ n, (P.machine n).S.T = shipped) (fs : N → FS) (c : N → Cliflags)
    (es : List (WildEvent N)) (w : Crowd N) (h : WildLeads P fs c es w) (n : N) (since : List (WildEvent N)) (c0 : Cliflags)
    (last : LastStart c n es since c0) : ∀ p ∈ (w.node n).prog.net.peers,
      (∃ d ∈ w.air, P.hears n d.dest = true ∧ p.addr = (P.machine n).S.ipText d.source.ip ∧
        (ValidGlobal shipped d.settings.global → d.Tells p)) ∨
      ∃ d ∈ wildStrangersAt n since, p.addr = (P.machine n).S.ipText d.source.ip ∧
        ∃ b, Says shipped d.bytes (.beacon b) ∧ p.Shows shipped b := by
  obtain ⟨c', v, x, files, rfl, h1, h2, h3, -, h5, -⟩ := seenBy_last h last
  intro p hp
  rw [← h2] at hp
  rcases C180_peers (fun x => hT x.1) h1 x p hp with ⟨d, hd, g1, g2, g3⟩ | g
  · refine .inl ⟨d.home, ?_, g1, g2, fun ok => ?_⟩
    · rw [← h3]; exact List.mem_map.2 ⟨d, hd, rfl⟩
    · obtain ⟨a, b, c, d, e⟩ := g3 ok
      exact ⟨a, b, c, d, e⟩
  · rw [h5.strangers] at g
    exact .inr g

/-- **C183, what ended a program ends with it.** A program goes on unless, since it was last started, its own user ends it, the
system fails it, or a stranger sends it a datagram that ends a listener or the main loop; whatever happened to its earlier
runs, and whatever happens elsewhere. -/
theorem C183_goes_on (P : Plant N) (hT : ∀ n, (P.machine n).S.T = shipped) (fs : N → FS) (c : N → Cliflags)
    (es : List (WildEvent N)) (w : Crowd N) (h : WildLeads P fs c es w) (n : N) (since : List (WildEvent N)) (c0 : Cliflags)
    (last : LastStart c n es since c0) (legal : ValidGlobal shipped c0.global)
    (lines : ∀ line ∈ enteredAt n (wildOwn since), ¬ FatalLine line)
    (words : ∀ ws ∈ wordsEntered (P.machine n) (enteredAt n (wildOwn since)), ws ≠ ["txwilling", "on"] ∧ ws ≠ ["txwilling", "off"])
    (system : ∀ i o source, .begin n i o source ∈ wildOwn since →
      (∀ a, ∃ t, o.remote a = .ok t) ∧ ∀ f, (o.file.fileMeta f).returns)
    (sockets : ∀ fam, .readError fam ∉ insideAt n (wildOwn since)) (interface : .userQuit ∉ insideAt n (wildOwn since))
    (strangers : ∀ d ∈ wildStrangersAt n since,
      ListenSafe (P.machine n).S.mtu d.bytes ∧ ∀ f, Says shipped d.bytes f → ¬ Deadly f) :
    ¬ (w.node n).prog.Ended := by
  obtain ⟨c', v, x, files, rfl, h1, h2, h3, h4, h5, h6⟩ := seenBy_last h last
  rw [← h2]
  refine C180_goes_on (fun x => hT x.1) h1 x (by rw [h4]; exact legal) (by rw [h5.lines]; exact lines)
    (by rw [h5.lines]; exact words) (fun i o source hb => system i o source (h5.begins _ _ _ hb)) ?_ ?_
    (by rw [h5.strangers]; exact strangers)
  · intro fam hf
    rw [h5.acts] at hf
    rcases List.mem_append.1 hf with hf | hf
    · obtain ⟨f, hf⟩ := h6 _ hf; cases hf
    · exact sockets fam hf
  · intro hf
    rw [h5.acts] at hf
    rcases List.mem_append.1 hf with hf | hf
    · obtain ⟨f, hf⟩ := h6 _ hf; cases hf
    · exact interface hf

/-- **C183, no file moves.** The files of a machine change only when a command begins there, another program changes them, or
they have been changed when the program is started again. -/
theorem C183_no_file_moves (P : Plant N) (hT : ∀ n, (P.machine n).S.T = shipped) (w w' : Crowd N) (e : WildEvent N)
    (hs : w.wildStep P e = some w') (n : N) (here : ∀ i o source, e ≠ .goes (.goes (.begin n i o source)))
    (others : ∀ f, e ≠ .goes (.goes (.inside n (.files f))))
    (found : ∀ c' f, e = .goes (.restart n c' f) → f = (w.node n).prog.net.fs) :
    (w'.node n).prog.net.fs = (w.node n).prog.net.fs := by
  cases e with
  | stranger m d => exact C180_no_file_moves (e := .stranger m d) hT hs n (fun _ _ _ h => by cases h) (fun _ h => by cases h)
  | goes e =>
    cases e with
    | goes e =>
      exact C180_no_file_moves (e := .goes e) hT hs n (fun i o source h => here i o source (by cases h; rfl))
        (fun f h => others f (by cases h; rfl))
    | restart m c' f =>
      cases hs
      by_cases e : n = m
      · subst e
        show ((w.set n (Busy.init f c')).node n).prog.net.fs = _
        rw [crowd_set_self]
        exact found c' f rfl
      · show ((w.set m (Busy.init f c')).node n).prog.net.fs = _
        rw [crowd_set_other _ _ e]

/-! ## A concrete case -/

/-- A stranger ends the program of machine 2; it is started again, with another configuration, and hears a stranger. -/
def wildEvents : List (WildEvent Nat) :=
  [.stranger 2 strangersVersion, .goes (.restart 2 { shippedSettings with bcount := 7 } exampleFS), .stranger 2 strangersBeacon,
   .goes (.goes (.inside 2 (.takeRx .v4 ⟨4, 0⟩)))]

example : ((Crowd.init (fun _ => exampleFS) (fun _ => shippedSettings)).wildRun examplePlant (wildEvents.take 1)).map (fun w =>
      (w.node 2).prog.net.main == .ended) = some true ∧
    ((Crowd.init (fun _ => exampleFS) (fun _ => shippedSettings)).wildRun examplePlant wildEvents).map (fun w =>
      ((w.node 2).prog.net.peers.map (·.maxdesc), (w.node 2).prog.net.main == .ended, (w.node 2).prog.settings.bcount)) =
      some (["d16"], false, 7) := by decide +kernel

/-- What has happened since machine 2 was started again; nothing in it is harmful. -/
example : LastStart (fun _ => shippedSettings) 2 wildEvents (wildEvents.drop 2) { shippedSettings with bcount := 7 } ∧
    enteredAt 2 (wildOwn (wildEvents.drop 2)) = [] ∧ wildStrangersAt 2 (wildEvents.drop 2) = [strangersBeacon] ∧
    insideAt 2 (wildOwn (wildEvents.drop 2)) = [.takeRx .v4 ⟨4, 0⟩] := by
  refine ⟨⟨fun e he c f h => ?_, .inr ⟨[.stranger 2 strangersVersion], exampleFS, rfl⟩⟩, rfl, rfl, rfl⟩
  subst h
  simp [wildEvents] at he

end Saratoga
