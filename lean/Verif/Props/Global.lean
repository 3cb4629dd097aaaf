import Verif.Lemmas.Global
import Verif.Lemmas.Shipped
import Verif.Props.New
/-!
# C14: flags derived from the user's settings (`Setglobal`) are accepted by `New`
-/
namespace Saratoga

theorem shipped_plain : ∀ p ∈ shipped.flags, Plain p.1 ∧ ∀ o ∈ p.2.options, Plain o.1 := by
  decide +kernel

theorem valid_mem {T : Tables} {f v : String} (h : valid T f v = true) :
    ∃ fl x, (f, fl) ∈ T.flags ∧ (v, x) ∈ fl.options := by
  rcases set_cases T 0 f v with ⟨_, fl, x, hl, ho, _⟩ | ⟨hv, _⟩
  · exact ⟨fl, x, assoc_mem hl, assoc_mem ho⟩
  · rw [h] at hv; cases hv

theorem settings_plain {ft : String} {gl : List (String × String)} (ok : ValidGlobal shipped gl) :
    PlainPairs (settingsFor shipped ft gl) := by
  intro p hp
  obtain ⟨f, v⟩ := p
  have hg := ((settingsFor_mem ok.1).1 hp).2
  obtain ⟨fl, x, h1, h2⟩ := valid_mem (ok.2.2.2 _ hg)
  exact ⟨(shipped_plain _ h1).1, (shipped_plain _ h1).2 _ h2⟩

/-- The text `Setglobal` makes: exactly the settings that apply, once each. -/
theorem C14_text (ft : String) (gl : List (String × String)) (ok : ValidGlobal shipped gl) :
    setglobal shipped ft gl = render (settingsFor shipped ft gl) :=
  setglobal_render ok.1 (settings_plain ok)

/-- The order of the map does not matter. -/
theorem C14_order (T : Tables) (ft : String) (gl gl' : List (String × String)) (perm : gl.Perm gl')
    (distinct : gl.Pairwise (fun a b => a.1 ≠ b.1)) : setglobal T ft gl = setglobal T ft gl' := by
  have hn' : gl'.Pairwise (fun a b => a.1 ≠ b.1) :=
    (perm.pairwise_iff (fun h => Ne.symm h)).1 distinct
  unfold setglobal
  rw [setglobal_fold gl distinct, setglobal_fold gl' hn']
  congr 3
  have : (fun f => (assoc f gl).map fun v => (f, v)) = fun f => (assoc f gl').map fun v => (f, v) := by
    funext f
    rw [assoc_perm f perm distinct]
  rw [this]

example := C14_order shipped "data" [("descriptor", "d64"), ("stream", "no")] [("stream", "no"), ("descriptor", "d64")]
  (List.Perm.swap _ _ _) (by decide)

theorem settings_ne {ft : String} {gl : List (String × String)} (ok : ValidGlobal shipped gl)
    (hd : "descriptor" ∈ values shipped ft) : settingsFor shipped ft gl ≠ [] := by
  obtain ⟨v, hv⟩ := ok.2.2.1 "descriptor" (by decide)
  have := (settingsFor_mem (T := shipped) (ft := ft) ok.1).2 ⟨hd, hv⟩
  intro e
  rw [e] at this
  cases this

theorem valid_reqtstamp {v : String} (h : valid shipped "reqtstamp" v = true) : v = "no" ∨ v = "yes" := by
  obtain ⟨fl, x, h1, h2⟩ := valid_mem h
  have e : fl = ⟨1, 12, [("no", 0), ("yes", 1)]⟩ := by
    have := assoc_of_mem C09_keys_distinct.1 h1
    have e2 : assoc "reqtstamp" shipped.flags = some ⟨1, 12, [("no", 0), ("yes", 1)]⟩ := by decide +kernel
    rw [e2] at this
    cases this
    rfl
  subst e
  simp only [List.mem_cons, Prod.mk.injEq, List.not_mem_nil, or_false] at h2
  rcases h2 with ⟨h, _⟩ | ⟨h, _⟩
  · exact Or.inl h
  · exact Or.inr h

theorem settings_unique {ft f v w : String} {gl : List (String × String)} (ok : ValidGlobal shipped gl)
    (h1 : (f, v) ∈ gl) (h2 : (f, w) ∈ settingsFor shipped ft gl) : w = v := by
  have a := assoc_of_mem ok.1 h1
  have b := assoc_of_mem ok.1 ((settingsFor_mem ok.1).1 h2).2
  rw [a] at b
  cases b
  rfl

theorem map_flatMap_self {assigns : String × Option String → List (String × String)}
    {ps : List (String × String)} (h : ∀ p ∈ ps, assigns (p.1, some p.2) = [p]) :
    (ps.map fun p => (p.1, some p.2)).flatMap assigns = ps := by
  induction ps with
  | nil => rfl
  | cons p t ih =>
    simp only [List.map_cons, List.flatMap_cons, h p (by simp), ih (fun q hq => h q (by simp [hq]))]
    rfl

/-- Settings show in the header if the text assigns exactly them. -/
theorem shows {ft f v : String} {gl : List (String × String)} (ok : ValidGlobal shipped gl)
    (hf : f ∈ values shipped ft) (hg : (f, v) ∈ gl) (ftv : String) (hft : f ≠ "version" ∧ f ≠ "frametype") :
    lastValue f (("version", "v1") :: ("frametype", ftv) :: settingsFor shipped ft gl) = some v := by
  apply lastValue_eq_some
  · exact List.mem_cons_of_mem _ (List.mem_cons_of_mem _ ((settingsFor_mem ok.1).2 ⟨hf, hg⟩))
  · intro w hw
    simp only [List.mem_cons, Prod.mk.injEq] at hw
    rcases hw with ⟨h, _⟩ | ⟨h, _⟩ | h
    · exact absurd h hft.1
    · exact absurd h hft.2
    · exact settings_unique ok hg h

/-- **C14** Data frames. -/
theorem C14_data (gl : List (String × String)) (ok : ValidGlobal shipped gl) (clock : GoTime)
    (inRange : clock.InRange) (d : Data) (info : Dinfo) :
    ∃ x, d.new shipped clock (setglobal shipped "data" gl) info = .ret (x, none) ∧
      ∀ f v, f ∈ values shipped "data" → (f, v) ∈ gl → getStr shipped x.header f = .ret v := by
  have hne := settings_ne (ft := "data") ok (by decide +kernel)
  have hpl := settings_plain (ft := "data") ok
  have key : ∀ f ∈ values shipped "data", f ∈ globalKeys →
      f = "descriptor" ∨ f = "reqtstamp" ∨ f = "reqstatus" := by decide +kernel
  have hparts : flagParts (setglobal shipped "data" gl) =
      (settingsFor shipped "data" gl).map fun p => (p.1, some p.2) := by
    rw [C14_text _ _ ok, flagParts_render hpl hne]
  have hverd : (d.new shipped clock (setglobal shipped "data" gl) info).verdict = .ok := by
    rw [C12_data_partial shipped C12_shipped_basic clock inRange, hparts, firstBad_ok]
    intro v hv
    simp only [List.mem_map] at hv
    obtain ⟨_, ⟨⟨f, w⟩, hp, rfl⟩, rfl⟩ := hv
    obtain ⟨h1, h2⟩ := (settingsFor_mem ok.1).1 hp
    have hval : valid shipped f w = true := ok.2.2.2 _ h2
    rcases key f h1 (ok.2.1 _ h2) with rfl | rfl | rfl
    · simp [dataVerdict, settable, hval]
    · rcases valid_reqtstamp hval with rfl | rfl <;> simp [dataVerdict]
    · simp [dataVerdict, settable, hval]
  obtain ⟨x, hx⟩ := verdict_ok hverd
  refine ⟨x, hx, fun f v hf hg => ?_⟩
  obtain ⟨hc, _⟩ := C11_data_partial shipped C11_shipped_separated.1 clock d x _ info hx
  rw [hparts, map_flatMap_self] at hc
  · have hk := key f hf (ok.2.1 _ hg)
    refine hc.1 f ?_ v (shows ok hf hg "data" ?_)
    · rcases hk with rfl | rfl | rfl <;> decide
    · rcases hk with rfl | rfl | rfl <;> decide
  · intro p hp
    obtain ⟨f, w⟩ := p
    obtain ⟨h1, h2⟩ := (settingsFor_mem ok.1).1 hp
    have hval : valid shipped f w = true := ok.2.2.2 _ h2
    rcases key f h1 (ok.2.1 _ h2) with rfl | rfl | rfl
    · simp [dataAssigns]
    · rcases valid_reqtstamp hval with rfl | rfl <;> simp [dataAssigns]
    · simp [dataAssigns]

example : (⟨1000000000, 0⟩ : GoTime).InRange := by decide

/-- **C14** Status frames. -/
theorem C14_status (gl : List (String × String)) (ok : ValidGlobal shipped gl) (clock : GoTime)
    (inRange : clock.InRange) (d : Status) (info : Sinfo) :
    ∃ x, d.new shipped clock (setglobal shipped "status" gl) info = .ret (x, none) ∧
      ∀ f v, f ∈ values shipped "status" → (f, v) ∈ gl → getStr shipped x.header f = .ret v := by
  have hne := settings_ne (ft := "status") ok (by decide +kernel)
  have hpl := settings_plain (ft := "status") ok
  have key : ∀ f ∈ values shipped "status", f ∈ globalKeys →
      f = "descriptor" ∨ f = "reqtstamp" := by decide +kernel
  have hparts : flagParts (setglobal shipped "status" gl) =
      (settingsFor shipped "status" gl).map fun p => (p.1, some p.2) := by
    rw [C14_text _ _ ok, flagParts_render hpl hne]
  have hverd : (d.new shipped clock (setglobal shipped "status" gl) info).verdict = .ok := by
    rw [C12_status_partial shipped C12_shipped_basic clock inRange, hparts, firstBad_ok]
    intro v hv
    simp only [List.mem_map] at hv
    obtain ⟨_, ⟨⟨f, w⟩, hp, rfl⟩, rfl⟩ := hv
    obtain ⟨h1, h2⟩ := (settingsFor_mem ok.1).1 hp
    have hval : valid shipped f w = true := ok.2.2.2 _ h2
    rcases key f h1 (ok.2.1 _ h2) with rfl | rfl <;> simp [statusVerdict, settable, hval]
  obtain ⟨x, hx⟩ := verdict_ok hverd
  refine ⟨x, hx, fun f v hf hg => ?_⟩
  obtain ⟨hc, _⟩ := C11_status shipped C11_shipped_separated.2.1 clock d x _ info hx
  rw [hparts, map_flatMap_self] at hc
  · have hk := key f hf (ok.2.1 _ hg)
    refine hc.1 f ?_ v (shows ok hf hg "status" ?_)
    · rcases hk with rfl | rfl <;> decide
    · rcases hk with rfl | rfl <;> decide
  · intro p hp
    obtain ⟨f, w⟩ := p
    obtain ⟨h1, h2⟩ := (settingsFor_mem ok.1).1 hp
    rcases key f h1 (ok.2.1 _ h2) with rfl | rfl <;> simp [statusAssigns]

/-- **C14** Request frames. -/
theorem C14_request (gl : List (String × String)) (ok : ValidGlobal shipped gl) (d : Request)
    (info : Rinfo) :
    ∃ x, d.new shipped (setglobal shipped "request" gl) info = .ret (x, none) ∧
      ∀ f v, f ∈ values shipped "request" → (f, v) ∈ gl → getStr shipped x.header f = .ret v := by
  have hne := settings_ne (ft := "request") ok (by decide +kernel)
  have hpl := settings_plain (ft := "request") ok
  have key : ∀ f ∈ values shipped "request", f ∈ globalKeys →
      f = "descriptor" ∨ f = "stream" ∨ f = "txwilling" ∨ f = "rxwilling" ∨ f = "udplite" := by
    decide +kernel
  have hparts : flagPartsTrimmed (setglobal shipped "request" gl) =
      (settingsFor shipped "request" gl).map fun p => (p.1, some p.2) := by
    rw [C14_text _ _ ok, flagPartsTrimmed_render hpl hne]
  have hverd : (d.new shipped (setglobal shipped "request" gl) info).verdict = .ok := by
    rw [C12_request_partial shipped C12_shipped_basic, hparts, firstBad_ok]
    intro v hv
    simp only [List.mem_map] at hv
    obtain ⟨_, ⟨⟨f, w⟩, hp, rfl⟩, rfl⟩ := hv
    obtain ⟨h1, h2⟩ := (settingsFor_mem ok.1).1 hp
    have hval : valid shipped f w = true := ok.2.2.2 _ h2
    rcases key f h1 (ok.2.1 _ h2) with rfl | rfl | rfl | rfl | rfl <;>
      simp [requestVerdict, settable, hval]
  obtain ⟨x, hx⟩ := verdict_ok hverd
  refine ⟨x, hx, fun f v hf hg => ?_⟩
  obtain ⟨hc, _⟩ := C11_request shipped C11_shipped_separated.2.2.1 d x _ info hx
  rw [hparts, map_flatMap_self] at hc
  · have hk := key f hf (ok.2.1 _ hg)
    refine hc.1 f ?_ v (shows ok hf hg "request" ?_)
    · rcases hk with rfl | rfl | rfl | rfl | rfl <;> decide
    · rcases hk with rfl | rfl | rfl | rfl | rfl <;> decide
  · intro p hp
    obtain ⟨f, w⟩ := p
    obtain ⟨h1, h2⟩ := (settingsFor_mem ok.1).1 hp
    rcases key f h1 (ok.2.1 _ h2) with rfl | rfl | rfl | rfl | rfl <;> simp [requestAssigns]

/-- With a file system that answers, `Beacon.New` ends well once the text is accepted. -/
theorem Beacon.finish_good {env : DiskEnv} {b : Beacon} {info : Binfo} {bs ba : BitVec 64}
    (wd : env.getwd = none) (st : env.statfs = .ok (bs, ba))
    (small : info.freespace ≠ 0xFFFFFFFFFFFFFFFF#64) :
    ∃ x extra, Beacon.finish shipped env b info = .ret (x, none) ∧
      setFlags shipped b.header extra = .ret x.header ∧
      (extra = [] ∨ ∃ desc, extra = [("freespaced", desc)]) := by
  have hset : ∀ (h : BitVec 32) (o : String), valid shipped "freespaced" o = true →
      ∃ h', set shipped h "freespaced" o = .ret h' := by
    intro h o ho
    rcases set_verdict (T := shipped) h "freespaced" o with ⟨_, h', a⟩ | ⟨a, _⟩
    · exact ⟨h', a⟩
    · rw [ho] at a; cases a
  unfold Beacon.finish
  simp only [getStr_freespace, Out.ret_bind, wd, st]
  by_cases hy : freeNumber b.header = 1
  · simp only [hy, if_true]
    have hfs : (if info.freespace = 0#64 then some (bs * ba / 1024#64) else some info.freespace) =
        some (if info.freespace = 0#64 then bs * ba / 1024#64 else info.freespace) := by
      split <;> rfl
    rw [hfs]
    have hlt : (if info.freespace = 0#64 then bs * ba / 1024#64 else info.freespace) <
        0xFFFFFFFFFFFFFFFF#64 := by
      rw [BitVec.lt_def]
      have h1 := (bs * ba).isLt
      split
      · rw [BitVec.toNat_udiv]
        show _ / 1024 < 18446744073709551615
        omega
      · have h2 := info.freespace.isLt
        have : info.freespace.toNat ≠ (0xFFFFFFFFFFFFFFFF#64).toNat := fun e =>
          small (BitVec.eq_of_toNat_eq e)
        have e : (0xFFFFFFFFFFFFFFFF#64).toNat = 18446744073709551615 := rfl
        omega
    generalize (if info.freespace = 0#64 then bs * ba / 1024#64 else info.freespace) = v at hlt
    simp only
    obtain ⟨h16, e16⟩ := hset b.header "d16" (by decide +kernel)
    obtain ⟨h32, e32⟩ := hset b.header "d32" (by decide +kernel)
    obtain ⟨h64, e64⟩ := hset b.header "d64" (by decide +kernel)
    by_cases c1 : v < 0xFFFF#64
    · simp only [c1, if_true, e16, Out.ret_bind, Out.pure_eq]
      exact ⟨_, _, rfl, setFlags_one e16, Or.inr ⟨_, rfl⟩⟩
    · simp only [c1, if_false]
      by_cases c2 : v < 0xFFFFFFFF#64
      · simp only [c2, if_true, e32, Out.ret_bind, Out.pure_eq]
        exact ⟨_, _, rfl, setFlags_one e32, Or.inr ⟨_, rfl⟩⟩
      · simp only [c2, if_false, hlt, if_true, e64, Out.ret_bind, Out.pure_eq]
        exact ⟨_, _, rfl, setFlags_one e64, Or.inr ⟨_, rfl⟩⟩
  · simp only [hy, if_false]
    simp only [show ¬ ("no" = "yes") by decide, if_false, if_true, Out.pure_eq]
    exact ⟨_, [], rfl, rfl, Or.inl rfl⟩

/-- **C14** Beacons, when the file system answers and the free space is not 2^64-1 kilobytes. -/
theorem C14_beacon (gl : List (String × String)) (ok : ValidGlobal shipped gl) (env : DiskEnv)
    (bs ba : BitVec 64) (wd : env.getwd = none) (st : env.statfs = .ok (bs, ba)) (d : Beacon)
    (info : Binfo) (small : info.freespace ≠ 0xFFFFFFFFFFFFFFFF#64) :
    ∃ x, d.new shipped env (setglobal shipped "beacon" gl) info = .ret (x, none) ∧
      ∀ f v, f ∈ values shipped "beacon" → (f, v) ∈ gl → getStr shipped x.header f = .ret v := by
  have hne := settings_ne (ft := "beacon") ok (by decide +kernel)
  have hpl := settings_plain (ft := "beacon") ok
  have key : ∀ f ∈ values shipped "beacon", f ∈ globalKeys →
      f = "descriptor" ∨ f = "stream" ∨ f = "txwilling" ∨ f = "rxwilling" ∨ f = "udplite" ∨
      f = "freespace" := by
    decide +kernel
  have hparts : flagParts (setglobal shipped "beacon" gl) =
      (settingsFor shipped "beacon" gl).map fun p => (p.1, some p.2) := by
    rw [C14_text _ _ ok, flagParts_render hpl hne]
  obtain ⟨h1, h2, a1, a2⟩ := set_version C12_shipped_basic (ft := "beacon") (by decide) d.header
  have hverd : (flagLoop (Beacon.newStep shipped) { d with header := h2 }
      (strSplit (stripSpaces (setglobal shipped "beacon" gl)) ',')).verdict = .ok := by
    rw [flagLoop_verdict (Beacon.newStep_verdict (T := shipped)), ← textParts_eq]
    have hparts' : textParts (stripSpaces (setglobal shipped "beacon" gl)) = _ := hparts
    rw [hparts', firstBad_ok]
    intro v hv
    simp only [List.mem_map] at hv
    obtain ⟨_, ⟨⟨f, w⟩, hp, rfl⟩, rfl⟩ := hv
    obtain ⟨h1, h2⟩ := (settingsFor_mem ok.1).1 hp
    have hval : valid shipped f w = true := ok.2.2.2 _ h2
    rcases key f h1 (ok.2.1 _ h2) with rfl | rfl | rfl | rfl | rfl | rfl <;>
      simp [beaconVerdict, settable, hval]
  obtain ⟨b, hb⟩ := verdict_ok hverd
  obtain ⟨x, extra, hfin, hset, hextra⟩ := Beacon.finish_good (b := b) wd st small
  have hx : d.new shipped env (setglobal shipped "beacon" gl) info = .ret (x, none) := by
    unfold Beacon.new
    simp only [a1, a2, Out.ret_bind, hb, hfin]
  refine ⟨x, hx, fun f v hf hg => ?_⟩
  have sep := C11_shipped_separated.2.2.2.2
  have k := flagLoop_setFlags (T := shipped) (hdr := Beacon.header) (assign := beaconAssigns)
    (fun s f s' h => Beacon.newStep_assigns h) hb
  rw [← textParts_eq] at k
  have hparts' : textParts (stripSpaces (setglobal shipped "beacon" gl)) = _ := hparts
  rw [hparts', map_flatMap_self] at k
  · have hk := key f hf (ok.2.1 _ hg)
    have hin : ∀ p ∈ settingsFor shipped "beacon" gl, p.1 ∈ beaconFields := by
      intro p hp
      obtain ⟨f, w⟩ := p
      obtain ⟨h1, h2⟩ := (settingsFor_mem ok.1).1 hp
      rcases key f h1 (ok.2.1 _ h2) with rfl | rfl | rfl | rfl | rfl | rfl <;> simp [beaconFields]
    have hmem : f ∈ beaconFields := hin (f, v) ((settingsFor_mem ok.1).2 ⟨hf, hg⟩)
    have hc := Carries.cons sep (by decide) a1 (Carries.cons sep (by decide) a2
      (setFlags_carries sep hin k))
    have h0 : getStr shipped b.header f = .ret v :=
      hc.1 f hmem v (shows ok hf hg "beacon" (by rcases hk with rfl | rfl | rfl | rfl | rfl | rfl <;> decide))
    rcases hextra with rfl | ⟨desc, rfl⟩
    · simp only [setFlags, Out.ret.injEq] at hset
      rw [← hset]; exact h0
    · simp only [setFlags] at hset
      obtain ⟨c, hcs, hset⟩ := Out.bind_eq_ret hset
      cases hset
      have := ((set_carries sep (by decide) hcs).2.1 f hmem (by
        rcases hk with rfl | rfl | rfl | rfl | rfl | rfl <;> decide)).2
      rw [this]; exact h0
  · intro p hp
    obtain ⟨f, w⟩ := p
    obtain ⟨h1, h2⟩ := (settingsFor_mem ok.1).1 hp
    rcases key f h1 (ok.2.1 _ h2) with rfl | rfl | rfl | rfl | rfl | rfl <;> simp [beaconAssigns]

example : (⟨none, .ok (4096#64, 1000#64)⟩ : DiskEnv).getwd = none ∧
    (⟨none, .ok (4096#64, 1000#64)⟩ : DiskEnv).statfs = .ok (4096#64, 1000#64) := ⟨rfl, rfl⟩

/-- The settings of the shipped configuration are valid. -/
theorem C14_shipped_defaults : ValidGlobal shipped
    [("csumtype", "none"), ("freespace", "yes"), ("txwilling", "yes"), ("rxwilling", "yes"), ("stream", "no"),
     ("reqtstamp", "yes"), ("reqstatus", "no"), ("udplite", "no"), ("descriptor", "d64")] := by
  refine ⟨by decide, by decide, ?_, by decide +kernel⟩
  intro k hk
  simp only [globalKeys, List.mem_cons, List.not_mem_nil, or_false] at hk
  rcases hk with rfl | rfl | rfl | rfl | rfl | rfl | rfl | rfl | rfl
  · exact ⟨"none", by simp⟩
  · exact ⟨"yes", by simp⟩
  · exact ⟨"yes", by simp⟩
  · exact ⟨"yes", by simp⟩
  · exact ⟨"no", by simp⟩
  · exact ⟨"yes", by simp⟩
  · exact ⟨"no", by simp⟩
  · exact ⟨"no", by simp⟩
  · exact ⟨"d64", by simp⟩

example := C14_text "data" _ C14_shipped_defaults

end Saratoga
