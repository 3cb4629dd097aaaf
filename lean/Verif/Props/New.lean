import Verif.Lemmas.NewFrames
import Verif.Model.Shipped
import Verif.Lemmas.Frame
import Verif.Spec.Frame
import Verif.Props.Beacon
/-!
# C11, C12: building frames from flag text (`New` of the five frame packages)
-/
namespace Saratoga

theorem set_version {T : Tables} (bt : BasicTables T) {ft : String}
    (hft : ft ∈ ["data", "status", "request", "metadata", "beacon"]) (h : BitVec 32) :
    ∃ h1 h2, set T h "version" "v1" = .ret h1 ∧ set T h1 "frametype" ft = .ret h2 := by
  rcases set_verdict (T := T) h "version" "v1" with ⟨_, h1, a⟩ | ⟨a, _⟩
  · rcases set_verdict (T := T) h1 "frametype" ft with ⟨_, h2, b⟩ | ⟨b, _⟩
    · exact ⟨h1, h2, a, b⟩
    · rw [bt.2.1 ft hft] at b; cases b
  · rw [bt.1] at a; cases a

/-! ## C11 -/

/-- **C11** Data frames (partial: a `transfer` part is accepted and ignored, see `C11_counterexample`).
The header of a frame built from any text shows version v1 and type data unless overridden, and the last
value the text gives to each field; all other bits are as before. The rest comes from `info`. -/
theorem C11_data_partial (T : Tables) (sep : Separated T dataFields) (clock : GoTime) (d x : Data)
    (text : String) (info : Dinfo) (built : d.new T clock text info = .ret (x, none)) :
    Carries T dataFields
      (("version", "v1") :: ("frametype", "data") :: (flagParts text).flatMap dataAssigns)
      d.header x.header ∧
    x.session = info.session ∧ x.offset = info.offset ∧ x.payload = info.payload := by
  unfold Data.new at built
  obtain ⟨h1, a1, built⟩ := Out.bind_eq_ret built
  obtain ⟨h2, a2, built⟩ := Out.bind_eq_ret built
  obtain ⟨⟨d', e⟩, a3, built⟩ := Out.bind_eq_ret built
  cases e with
  | some e => cases built
  | none =>
    cases built
    refine ⟨?_, rfl, rfl, rfl⟩
    refine Carries.cons sep (by decide) a1 (Carries.cons sep (by decide) a2 ?_)
    unfold flagParts
    rw [textParts_eq]
    have k := flagLoop_setFlags (T := T) (hdr := Data.header) (assign := dataAssigns)
      (fun s f s' h => Data.newStep_assigns h) a3
    refine setFlags_carries sep ?_ k
    intro p hp
    obtain ⟨q, _, hq⟩ := List.mem_flatMap.1 hp
    unfold dataAssigns at hq
    split at hq
    · rename_i hm
      simp only [List.mem_singleton] at hq
      subst hq
      simp only [List.mem_cons, List.not_mem_nil, or_false] at hm
      rcases hm with h | h | h | h <;> simp [h, dataFields]
    · split at hq
      · simp only [List.mem_singleton] at hq; subst hq; simp [dataFields]
      · cases hq

/-- **C11** Status frames. A bare timestamp type counts as `reqtstamp=yes`. The holes of `info` are
appended to those the variable has. -/
theorem C11_status (T : Tables) (sep : Separated T statusFields) (clock : GoTime) (d x : Status)
    (text : String) (info : Sinfo) (built : d.new T clock text info = .ret (x, none)) :
    Carries T statusFields
      (("version", "v1") :: ("frametype", "status") :: (flagParts text).flatMap statusAssigns)
      d.header x.header ∧
    x.session = info.session ∧ x.progress = info.progress ∧ x.inrespto = info.inrespto ∧
    x.holes = d.holes ++ info.holes := by
  unfold Status.new at built
  obtain ⟨h1, a1, built⟩ := Out.bind_eq_ret built
  obtain ⟨h2, a2, built⟩ := Out.bind_eq_ret built
  obtain ⟨⟨d', e⟩, a3, built⟩ := Out.bind_eq_ret built
  cases e with
  | some e => cases built
  | none =>
    have hh : d'.holes = d.holes := by
      have key : ∀ (s s' : Status) (f : List String), Status.newStep T clock s f = .ret (s', none) →
          s'.holes = s.holes := by
        intro s s' f h
        unfold Status.newStep at h
        simp only at h
        split at h
        · obtain ⟨v, k1, h⟩ := Out.bind_eq_ret h
          obtain ⟨hh, k2, h⟩ := Out.bind_eq_ret h
          cases h; rfl
        · split at h
          · obtain ⟨v, k1, h⟩ := Out.bind_eq_ret h
            obtain ⟨hh, k2, h⟩ := Out.bind_eq_ret h
            split at h
            · obtain ⟨⟨t, e⟩, k3, h⟩ := Out.bind_eq_ret h
              cases h; rfl
            · cases h; rfl
          · split at h
            · obtain ⟨⟨t, e⟩, k3, h⟩ := Out.bind_eq_ret h
              cases e with
              | some e => cases h
              | none =>
                obtain ⟨hh, k2, h⟩ := Out.bind_eq_ret h
                cases h; rfl
            · cases h
      have loop : ∀ (parts : List String) (s s' : Status),
          flagLoop (Status.newStep T clock) s parts = .ret (s', none) → s'.holes = s.holes := by
        intro parts
        induction parts with
        | nil => intro s s' h; simp [flagLoop] at h; rw [h]
        | cons y ys ih =>
          intro s s' h
          simp only [flagLoop] at h
          obtain ⟨⟨s1, e⟩, k1, h⟩ := Out.bind_eq_ret h
          cases e with
          | some e => simp at h
          | none => rw [ih _ _ h, key _ _ _ k1]
      exact loop _ _ _ a3 |>.trans rfl
    cases built
    refine ⟨?_, rfl, rfl, rfl, by rw [← hh]⟩
    refine Carries.cons sep (by decide) a1 (Carries.cons sep (by decide) a2 ?_)
    unfold flagParts
    rw [textParts_eq]
    have k := flagLoop_setFlags (T := T) (hdr := Status.header) (assign := statusAssigns)
      (fun s f s' h => Status.newStep_assigns h) a3
    refine setFlags_carries sep ?_ k
    intro p hp
    obtain ⟨q, _, hq⟩ := List.mem_flatMap.1 hp
    unfold statusAssigns at hq
    split at hq
    · rename_i hm
      simp only [List.mem_singleton] at hq
      subst hq
      simp only [List.mem_cons, List.not_mem_nil, or_false] at hm
      rcases hm with h | h | h | h | h | h | h <;> simp [h, statusFields]
    · split at hq
      · simp only [List.mem_singleton] at hq; subst hq; decide
      · cases hq

example : Separated shipped statusFields ∧
    ∃ x, Status.zero.new shipped ⟨1000000000, 0⟩ "descriptor=d32,errcode=fileinuse" ⟨7, 0, 0, []⟩ = .ret (x, none) :=
  ⟨by decide +kernel, _, rfl⟩

/-- **C11** Request frames; here the text may set version and frame type as well. -/
theorem C11_request (T : Tables) (sep : Separated T requestFields) (d x : Request)
    (text : String) (info : Rinfo) (built : d.new T text info = .ret (x, none)) :
    Carries T requestFields
      (("version", "v1") :: ("frametype", "request") :: (flagPartsTrimmed text).flatMap requestAssigns)
      d.header x.header ∧
    x.session = info.session ∧ x.fname = info.fname := by
  unfold Request.new at built
  obtain ⟨h1, a1, built⟩ := Out.bind_eq_ret built
  obtain ⟨h2, a2, built⟩ := Out.bind_eq_ret built
  obtain ⟨⟨d', e⟩, a3, built⟩ := Out.bind_eq_ret built
  cases e with
  | some e => cases built
  | none =>
    cases built
    refine ⟨?_, rfl, rfl⟩
    refine Carries.cons sep (by decide) a1 (Carries.cons sep (by decide) a2 ?_)
    unfold flagPartsTrimmed
    rw [textParts_eq]
    have k := flagLoop_setFlags (T := T) (hdr := Request.header) (assign := requestAssigns)
      (fun s f s' h => Request.newStep_assigns h) a3
    refine setFlags_carries sep ?_ k
    intro p hp
    obtain ⟨q, _, hq⟩ := List.mem_flatMap.1 hp
    unfold requestAssigns at hq
    split at hq
    · rename_i hm
      simp only [List.mem_singleton] at hq
      subst hq
      simp only [List.mem_cons, List.not_mem_nil, or_false] at hm
      rcases hm with h | h | h | h | h | h | h | h | h <;> simp [h, requestFields]
    · cases hq

example : Separated shipped requestFields ∧
    ∃ x, Request.zero.new shipped "descriptor=d32,stream=no" ⟨7, [97], []⟩ = .ret (x, none) := ⟨by decide +kernel, _, rfl⟩

theorem MetaData.finish_header {T : Tables} {env : FileEnv} {m x : MetaData} {cs : Out String}
    {fname : List Byte} {e : Option Err} (h : MetaData.finish T env m cs fname = .ret (x, e)) :
    x.header = m.header ∧ x.session = m.session := by
  unfold MetaData.finish at h
  obtain ⟨⟨fl, e1⟩, _, h⟩ := Out.bind_eq_ret h
  cases e1 with
  | some e1 => cases h; exact ⟨rfl, rfl⟩
  | none =>
    obtain ⟨⟨d, e2⟩, _, h⟩ := Out.bind_eq_ret h
    cases e2 with
    | some e2 => cases h; exact ⟨rfl, rfl⟩
    | none =>
      obtain ⟨tr, _, h⟩ := Out.bind_eq_ret h
      split at h
      · obtain ⟨c, _, h⟩ := Out.bind_eq_ret h
        split at h
        · cases h; exact ⟨rfl, rfl⟩
        · split at h <;> (cases h; exact ⟨rfl, rfl⟩)
      · cases h; exact ⟨rfl, rfl⟩

/-- **C11** Metadata frames; `csumtype` also sets the checksum length. -/
theorem C11_metadata (T : Tables) (sep : Separated T metadataFields) (env : FileEnv) (d x : MetaData)
    (text : String) (info : Minfo) (built : d.new T env text info = .ret (x, none)) :
    Carries T metadataFields
      (("version", "v1") :: ("frametype", "metadata") :: (flagParts text).flatMap metadataAssigns)
      d.header x.header ∧
    x.session = info.session := by
  unfold MetaData.new at built
  obtain ⟨h1, a1, built⟩ := Out.bind_eq_ret built
  obtain ⟨h2, a2, built⟩ := Out.bind_eq_ret built
  obtain ⟨⟨⟨d', cs⟩, e⟩, a3, built⟩ := Out.bind_eq_ret built
  cases e with
  | some e => cases built
  | none =>
    obtain ⟨k1, k2⟩ := MetaData.finish_header built
    refine ⟨?_, k2⟩
    rw [k1]
    refine Carries.cons sep (by decide) a1 (Carries.cons sep (by decide) a2 ?_)
    unfold flagParts
    rw [textParts_eq]
    have k := flagLoop_setFlags (T := T) (hdr := fun s : MetaData × String => s.1.header) (assign := metadataAssigns)
      (fun s f s' h => MetaData.newStep_assigns h) a3
    refine setFlags_carries sep ?_ k
    intro p hp
    obtain ⟨q, _, hq⟩ := List.mem_flatMap.1 hp
    unfold metadataAssigns at hq
    split at hq
    · simp only [List.mem_cons, List.not_mem_nil, or_false] at hq
      rcases hq with rfl | rfl <;> simp [metadataFields]
    · split at hq
      · rename_i hm
        simp only [List.mem_singleton] at hq
        subst hq
        simp only [List.mem_cons, List.not_mem_nil, or_false] at hm
        rcases hm with h | h | h | h <;> simp [h, metadataFields]
      · cases hq

example : Separated shipped metadataFields := by decide +kernel

/-- What `Beacon.New` adds to the flags of the text. -/
theorem Beacon.finish_extra {T : Tables} {env : DiskEnv} {b x : Beacon} {info : Binfo}
    (h : Beacon.finish T env b info = .ret (x, none)) :
    x.eid = info.eid ∧
    ∃ extra, setFlags T b.header extra = .ret x.header ∧
      ((extra = [] ∧ getStr T b.header "freespace" ≠ .ret "yes" ∧
          (getStr T b.header "freespace" = .ret "no" → x.freespace = 0)) ∨
       (getStr T b.header "freespace" = .ret "yes" ∧ extra = [("freespace", "no")] ∧ x.freespace = 0) ∨
       (getStr T b.header "freespace" = .ret "yes" ∧
        ∃ desc n, extra = [("freespaced", desc)] ∧ descSize desc = some n ∧ x.freespace.toNat < 256 ^ n ∧
          ((info.freespace ≠ 0 ∧ x.freespace = info.freespace) ∨
            (info.freespace = 0 ∧ ∃ bs ba, env.statfs = .ok (bs, ba) ∧
              x.freespace = (bs * ba) / 1024#64)))) := by
  unfold Beacon.finish at h
  simp only at h
  obtain ⟨fsp, a1, h⟩ := Out.bind_eq_ret h
  split at h
  · rename_i hy
    subst hy
    cases hg : env.getwd with
    | some e =>
      rw [hg] at h
      obtain ⟨h', a2, h⟩ := Out.bind_eq_ret h
      cases h
    | none =>
      simp only [hg] at h
      generalize hfs : (if info.freespace = 0#64 then
          match env.statfs with
          | .error _ => none
          | .ok (bsize, bavail) => some ((bsize * bavail) / 1024#64)
        else some info.freespace : Option (BitVec 64)) = fs at h
      cases fs with
      | none =>
        simp only at h
        obtain ⟨h', a2, h⟩ := Out.bind_eq_ret h
        cases h
        exact ⟨rfl, [("freespace", "no")], setFlags_one a2, Or.inr (Or.inl ⟨a1, rfl, rfl⟩)⟩
      | some v =>
        simp only at h
        have hv : (info.freespace ≠ 0 ∧ v = info.freespace) ∨ (info.freespace = 0 ∧ ∃ bs ba, env.statfs = .ok (bs, ba) ∧
              v = (bs * ba) / 1024#64) := by
          split at hfs
          · rename_i h0
            right
            refine ⟨h0, ?_⟩
            cases hst : env.statfs with
            | error e => rw [hst] at hfs; cases hfs
            | ok p =>
              obtain ⟨bs, ba⟩ := p
              rw [hst] at hfs
              cases hfs
              exact ⟨bs, ba, rfl, rfl⟩
          · rename_i h0
            cases hfs; exact Or.inl ⟨h0, rfl⟩
        split at h
        · rename_i hlt
          obtain ⟨h', a2, h⟩ := Out.bind_eq_ret h
          cases h
          refine ⟨rfl, [("freespaced", "d16")], setFlags_one a2, Or.inr (Or.inr ⟨a1, "d16", 2, rfl, rfl, ?_, hv⟩)⟩
          rw [BitVec.lt_def] at hlt
          have : v.toNat < 65535 := hlt
          show v.toNat < 256 ^ 2
          omega
        · split at h
          · rename_i _ hlt
            obtain ⟨h', a2, h⟩ := Out.bind_eq_ret h
            cases h
            refine ⟨rfl, [("freespaced", "d32")], setFlags_one a2, Or.inr (Or.inr ⟨a1, "d32", 4, rfl, rfl, ?_, hv⟩)⟩
            rw [BitVec.lt_def] at hlt
            have : v.toNat < 4294967295 := hlt
            show v.toNat < 256 ^ 4
            omega
          · split at h
            · obtain ⟨h', a2, h⟩ := Out.bind_eq_ret h
              cases h
              refine ⟨rfl, [("freespaced", "d64")], setFlags_one a2, Or.inr (Or.inr ⟨a1, "d64", 8, rfl, rfl, ?_, hv⟩)⟩
              show v.toNat < 256 ^ 8
              have := v.isLt
              omega
            · cases h
  · rename_i hn
    obtain ⟨fsp', a2, h⟩ := Out.bind_eq_ret h
    have hne : getStr T b.header "freespace" ≠ .ret "yes" := by
      rw [a1]; intro e; cases e; exact hn rfl
    split at h
    · cases h; exact ⟨rfl, [], rfl, Or.inl ⟨rfl, hne, fun _ => rfl⟩⟩
    · rename_i hno
      cases h; exact ⟨rfl, [], rfl, Or.inl ⟨rfl, hne, fun e => by rw [a2] at e; cases e; exact absurd rfl hno⟩⟩

/-- **C11** Beacons (partial: free space flags of the text are overridden by what is found on disk, see
`C11_beacon_counterexample`). After the flags of the text comes at most one more assignment: `freespace=no`
when the free space cannot be found, or the `freespaced` that the number needs. -/
theorem C11_beacon_partial (T : Tables) (sep : Separated T beaconFields) (env : DiskEnv) (d x : Beacon)
    (text : String) (info : Binfo) (built : d.new T env text info = .ret (x, none)) :
    ∃ extra, (extra = [] ∨ extra = [("freespace", "no")] ∨ ∃ desc, extra = [("freespaced", desc)]) ∧
      Carries T beaconFields
        ((("version", "v1") :: ("frametype", "beacon") :: (flagParts text).flatMap beaconAssigns) ++ extra)
        d.header x.header ∧
      x.eid = info.eid := by
  unfold Beacon.new at built
  obtain ⟨h1, a1, built⟩ := Out.bind_eq_ret built
  obtain ⟨h2, a2, built⟩ := Out.bind_eq_ret built
  obtain ⟨⟨d', e⟩, a3, built⟩ := Out.bind_eq_ret built
  cases e with
  | some e => cases built
  | none =>
    obtain ⟨k0, extra, k1, k2⟩ := Beacon.finish_extra built
    have k2' : extra = [] ∨ extra = [("freespace", "no")] ∨ ∃ desc, extra = [("freespaced", desc)] := by
      rcases k2 with ⟨h, _⟩ | ⟨_, h, _⟩ | ⟨_, desc, _, h, _⟩
      · exact Or.inl h
      · exact Or.inr (Or.inl h)
      · exact Or.inr (Or.inr ⟨desc, h⟩)
    refine ⟨extra, k2', ?_, k0⟩
    simp only [List.cons_append]
    refine Carries.cons sep (by decide) a1 (Carries.cons sep (by decide) a2 ?_)
    unfold flagParts
    rw [textParts_eq]
    have k := flagLoop_setFlags (T := T) (hdr := Beacon.header) (assign := beaconAssigns)
      (fun s f s' h => Beacon.newStep_assigns h) a3
    refine setFlags_carries sep ?_ (setFlags_append k k1)
    intro p hp
    rcases List.mem_append.1 hp with hp | hp
    · obtain ⟨q, _, hq⟩ := List.mem_flatMap.1 hp
      unfold beaconAssigns at hq
      split at hq
      · simp only [List.mem_cons, List.not_mem_nil, or_false] at hq
        rcases hq with rfl | rfl <;> simp [beaconFields]
      · split at hq
        · rename_i hm
          simp only [List.mem_singleton] at hq
          subst hq
          simp only [List.mem_cons, List.not_mem_nil, or_false] at hm
          rcases hm with h | h | h | h | h | h <;> simp [h, beaconFields]
        · cases hq
    · rcases k2' with rfl | rfl | ⟨desc, rfl⟩
      · cases hp
      · simp only [List.mem_singleton] at hp; subst hp; simp [beaconFields]
      · simp only [List.mem_singleton] at hp; subst hp; simp [beaconFields]

example : Separated shipped beaconFields ∧
    ∃ x, Beacon.zero.new shipped ⟨none, .ok (1024, 65535)⟩ "freespace=yes" ⟨0, []⟩ = .ret (x, none) := ⟨by decide +kernel, _, rfl⟩

/-- The shipped tables meet the requirement of all five. -/
theorem C11_shipped_separated :
    Separated shipped dataFields ∧ Separated shipped statusFields ∧ Separated shipped requestFields ∧
    Separated shipped metadataFields ∧ Separated shipped beaconFields := by decide +kernel

/-- **C11** fails for data frames: `transfer=directory` is accepted but the frame does not show it. -/
theorem C11_counterexample : ∃ x, Data.zero.new shipped ⟨1000000000, 0⟩
      "transfer=directory,descriptor=d16" ⟨7, 0, [1]⟩ = .ret (x, none) ∧
    getStr shipped x.header "transfer" = .ret "file" := by
  refine ⟨⟨0x23000000#32, 7, Timestamp.zero, 0, [1]⟩, ?_, ?_⟩ <;> decide +kernel

/-- **C11** fails for beacons: the requested width of the free space is overridden. -/
theorem C11_beacon_counterexample : ∃ x, Beacon.zero.new shipped ⟨none, .ok (4096, 1000)⟩
      "freespaced=d64" ⟨0, []⟩ = .ret (x, none) ∧
    getStr shipped x.header "freespaced" = .ret "d16" := by
  refine ⟨⟨0x20004000#32, 4000, []⟩, ?_, ?_⟩ <;> decide +kernel

example : ∃ x, Data.zero.new shipped ⟨1000000000, 0⟩ "descriptor=d32, eod=yes,descriptor=d16" ⟨7, 0, [1]⟩ =
    .ret (x, none) ∧ getStr shipped x.header "descriptor" = .ret "d16" := by
  refine ⟨⟨0x23008000#32, 7, Timestamp.zero, 0, [1]⟩, ?_, ?_⟩ <;> decide +kernel

/-! ## C12 -/

/-- **C12** Data frames (partial: an exact account of how `New` ends, which is not always with an error
value; see `C12_counterexample`). The first part of the text that is not fine decides. -/
theorem C12_data_partial (T : Tables) (basic : BasicTables T) (clock : GoTime) (inRange : clock.InRange)
    (d : Data) (text : String) (info : Dinfo) :
    (d.new T clock text info).verdict = firstBad ((flagParts text).map (dataVerdict T)) := by
  obtain ⟨h1, h2, a1, a2⟩ := set_version basic (ft := "data") (by decide) d.header
  unfold Data.new
  simp only [a1, a2, Out.ret_bind]
  unfold flagParts
  rw [textParts_eq, ← flagLoop_verdict (Data.newStep_verdict basic inRange) { d with header := h2 }]
  match flagLoop (Data.newStep T clock) { d with header := h2 } (strSplit (stripSpaces text) ',') with
  | .ret (a, none) => rfl
  | .ret (a, some e) => rfl
  | .fatal => rfl
  | .panic => rfl

/-- **C12** Status frames. -/
theorem C12_status_partial (T : Tables) (basic : BasicTables T) (clock : GoTime) (inRange : clock.InRange)
    (d : Status) (text : String) (info : Sinfo) :
    (d.new T clock text info).verdict = firstBad ((flagParts text).map (statusVerdict T)) := by
  obtain ⟨h1, h2, a1, a2⟩ := set_version basic (ft := "status") (by decide) d.header
  unfold Status.new
  simp only [a1, a2, Out.ret_bind]
  unfold flagParts
  rw [textParts_eq, ← flagLoop_verdict (Status.newStep_verdict basic inRange) { d with header := h2 }]
  match flagLoop (Status.newStep T clock) { d with header := h2 } (strSplit (stripSpaces text) ',') with
  | .ret (a, none) => rfl
  | .ret (a, some e) => rfl
  | .fatal => rfl
  | .panic => rfl

/-- **C12** Request frames. -/
theorem C12_request_partial (T : Tables) (basic : BasicTables T) (d : Request) (text : String)
    (info : Rinfo) :
    (d.new T text info).verdict = firstBad ((flagPartsTrimmed text).map (requestVerdict T)) := by
  obtain ⟨h1, h2, a1, a2⟩ := set_version basic (ft := "request") (by decide) d.header
  unfold Request.new
  simp only [a1, a2, Out.ret_bind]
  unfold flagPartsTrimmed
  rw [textParts_eq, ← flagLoop_verdict (Request.newStep_verdict) { d with header := h2 }]
  match flagLoop (Request.newStep T) { d with header := h2 }
      (strSplit (trimCommas (stripSpaces text)) ',') with
  | .ret (a, none) => rfl
  | .ret (a, some e) => rfl
  | .fatal => rfl
  | .panic => rfl

/-- **C12** Metadata frames: as far as the text is concerned. -/
theorem C12_metadata_partial (T : Tables) (basic : BasicTables T) (env : FileEnv) (d : MetaData)
    (text : String) (info : Minfo)
    (bad : firstBad ((flagParts text).map (metadataVerdict T)) ≠ .ok) :
    (d.new T env text info).verdict = firstBad ((flagParts text).map (metadataVerdict T)) := by
  obtain ⟨h1, h2, a1, a2⟩ := set_version basic (ft := "metadata") (by decide) d.header
  unfold MetaData.new
  simp only [a1, a2, Out.ret_bind]
  unfold flagParts at bad ⊢
  rw [textParts_eq, ← flagLoop_verdict (MetaData.newStep_verdict (T := T)) ({ d with header := h2 }, "")] at bad
  rw [textParts_eq, ← flagLoop_verdict (MetaData.newStep_verdict (T := T)) ({ d with header := h2 }, "")]
  revert bad
  match flagLoop (MetaData.newStep T) ({ d with header := h2 }, "") (strSplit (stripSpaces text) ',') with
  | .ret (a, none) => intro bad; exact absurd rfl bad
  | .ret (a, some e) => intro _; rfl
  | .fatal => intro _; rfl
  | .panic => intro _; rfl

/-- **C12** Beacons: as far as the text is concerned. -/
theorem C12_beacon_partial (T : Tables) (basic : BasicTables T) (env : DiskEnv) (d : Beacon)
    (text : String) (info : Binfo)
    (bad : firstBad ((flagParts text).map (beaconVerdict T)) ≠ .ok) :
    (d.new T env text info).verdict = firstBad ((flagParts text).map (beaconVerdict T)) := by
  obtain ⟨h1, h2, a1, a2⟩ := set_version basic (ft := "beacon") (by decide) d.header
  unfold Beacon.new
  simp only [a1, a2, Out.ret_bind]
  unfold flagParts at bad ⊢
  rw [textParts_eq, ← flagLoop_verdict (Beacon.newStep_verdict (T := T)) { d with header := h2 }] at bad
  rw [textParts_eq, ← flagLoop_verdict (Beacon.newStep_verdict (T := T)) { d with header := h2 }]
  revert bad
  match flagLoop (Beacon.newStep T) { d with header := h2 } (strSplit (stripSpaces text) ',') with
  | .ret (a, none) => intro bad; exact absurd rfl bad
  | .ret (a, some e) => intro _; rfl
  | .fatal => intro _; rfl
  | .panic => intro _; rfl

/-- The shipped tables meet the requirement. -/
theorem C12_shipped_basic : BasicTables shipped := by decide +kernel

/-- **C12** fails: an unknown option ends the process and a name without `=` panics, for all five frame
types and whatever the other arguments. -/
theorem C12_counterexample :
    (∀ clock d info, Data.new shipped clock d "descriptor=d99" info = .fatal) ∧
    (∀ clock d info, Data.new shipped clock d "descriptor" info = .panic) ∧
    (∀ clock d info, Status.new shipped clock d "errcode=nosuch" info = .fatal) ∧
    (∀ clock d info, Status.new shipped clock d "errcode" info = .panic) ∧
    (∀ d info, Request.new shipped d "fileordir=file" info = .fatal) ∧
    (∀ d info, Request.new shipped d "" info = .panic) ∧
    (∀ env d info, MetaData.new shipped env d "csumtype=crc64" info = .fatal) ∧
    (∀ env d info, MetaData.new shipped env d "csumtype" info = .panic) ∧
    (∀ env d info, Beacon.new shipped env d "txwilling=on" info = .fatal) ∧
    (∀ env d info, Beacon.new shipped env d "" info = .panic) := by
  have hv : ∀ {α : Type} {x : Out (α × Option Err)}, x.verdict = .exit → x = .fatal := by
    intro α x h
    match x with
    | .ret (a, none) => cases h
    | .ret (a, some e) => cases h
    | .fatal => rfl
    | .panic => cases h
  have hp : ∀ {α : Type} {x : Out (α × Option Err)}, x.verdict = .panic → x = .panic := by
    intro α x h
    match x with
    | .ret (a, none) => cases h
    | .ret (a, some e) => cases h
    | .fatal => cases h
    | .panic => rfl
  have bt := C12_shipped_basic
  have data : ∀ clock d info (text : String) (n : String) (w : Option String),
      textParts (stripSpaces text) = [(n, w)] → n ∈ ["version", "descriptor", "reqstatus", "eod"] →
      ((w = none → Data.new shipped clock d text info = .panic) ∧
       (∀ v, w = some v → valid shipped n v = false → Data.new shipped clock d text info = .fatal)) := by
    intro clock d info text n w ht hn
    obtain ⟨h1, h2, a1, a2⟩ := set_version bt (ft := "data") (by decide) d.header
    rw [textParts_eq] at ht
    generalize hs : strSplit (stripSpaces text) ',' = parts at ht
    match parts, ht with
    | [p], ht =>
      simp only [List.map_cons, List.map_nil, List.cons.injEq, and_true] at ht
      have hn' : n = "version" ∨ n = "descriptor" ∨ n = "reqstatus" ∨ n = "eod" := by simpa using hn
      unfold Data.new
      simp only [a1, a2, Out.ret_bind, hs, flagLoop, Data.newStep, first_partOf, second_partOf, ht, hn', if_true]
      constructor
      · rintro rfl; rfl
      · rintro v rfl hv
        simp only [Out.ret_bind]
        rcases set_verdict (T := shipped) h2 n v with ⟨x, _⟩ | ⟨_, x⟩
        · rw [hv] at x; cases x
        · rw [x]; rfl
    | [], ht => simp at ht
    | _ :: _ :: _, ht => simp at ht
  have status : ∀ clock d info (text : String) (n : String) (w : Option String),
      textParts (stripSpaces text) = [(n, w)] → n ∈ statusNames →
      ((w = none → Status.new shipped clock d text info = .panic) ∧
       (∀ v, w = some v → valid shipped n v = false → Status.new shipped clock d text info = .fatal)) := by
    intro clock d info text n w ht hn
    obtain ⟨h1, h2, a1, a2⟩ := set_version bt (ft := "status") (by decide) d.header
    rw [textParts_eq] at ht
    generalize hs : strSplit (stripSpaces text) ',' = parts at ht
    match parts, ht with
    | [p], ht =>
      simp only [List.map_cons, List.map_nil, List.cons.injEq, and_true] at ht
      unfold Status.new
      simp only [a1, a2, Out.ret_bind, hs, flagLoop, Status.newStep, first_partOf, second_partOf, ht, hn, if_true]
      constructor
      · rintro rfl; rfl
      · rintro v rfl hv
        simp only [Out.ret_bind]
        rcases set_verdict (T := shipped) h2 n v with ⟨x, _⟩ | ⟨_, x⟩
        · rw [hv] at x; cases x
        · rw [x]; rfl
    | [], ht => simp at ht
    | _ :: _ :: _, ht => simp at ht
  refine ⟨?_, ?_, ?_, ?_, ?_, ?_, ?_, ?_, ?_, ?_⟩
  · intro clock d info
    exact (data clock d info "descriptor=d99" "descriptor" (some "d99") (by decide +kernel) (by decide)).2 _ rfl
      (by decide +kernel)
  · intro clock d info
    exact (data clock d info "descriptor" "descriptor" none (by decide +kernel) (by decide)).1 rfl
  · intro clock d info
    exact (status clock d info "errcode=nosuch" "errcode" (some "nosuch") (by decide +kernel) (by decide)).2 _ rfl
      (by decide +kernel)
  · intro clock d info
    exact (status clock d info "errcode" "errcode" none (by decide +kernel) (by decide)).1 rfl
  · intro d info
    apply hv; rw [C12_request_partial _ bt]; decide +kernel
  · intro d info
    apply hp; rw [C12_request_partial _ bt]; decide +kernel
  · intro env d info
    have e : firstBad ((flagParts "csumtype=crc64").map (metadataVerdict shipped)) = .exit := by decide +kernel
    apply hv; rw [C12_metadata_partial _ bt _ _ _ _ (by rw [e]; decide), e]
  · intro env d info
    have e : firstBad ((flagParts "csumtype").map (metadataVerdict shipped)) = .panic := by decide +kernel
    apply hp; rw [C12_metadata_partial _ bt _ _ _ _ (by rw [e]; decide), e]
  · intro env d info
    have e : firstBad ((flagParts "txwilling=on").map (beaconVerdict shipped)) = .exit := by decide +kernel
    apply hv; rw [C12_beacon_partial _ bt _ _ _ _ (by rw [e]; decide), e]
  · intro env d info
    have e : firstBad ((flagParts "").map (beaconVerdict shipped)) = .panic := by decide +kernel
    apply hp; rw [C12_beacon_partial _ bt _ _ _ _ (by rw [e]; decide), e]

example : firstBad ((flagParts "descriptor=d32,nosuch=1,descriptor").map (dataVerdict shipped)) = .error := by
  decide +kernel

example : firstBad ((flagParts "descriptor=d32, reqtstamp=posix64 ,eod=yes").map (dataVerdict shipped)) = .ok := by
  decide +kernel

example : (⟨1700000000, 5⟩ : GoTime).InRange := by decide

/-! ## C34 -/

/-- **C34** A beacon that advertises free space carries a width that holds the number, so encoding and
decoding gives exactly this beacon. The number is the one given or, if that is 0, what the file system
reports in kilobytes. -/
theorem C34_freespace_fits (T : Tables) (sep : Separated T beaconFields) (env : DiskEnv) (d x : Beacon)
    (text : String) (info : Binfo) (built : d.new T env text info = .ret (x, none))
    (advertised : getStr T x.header "freespace" = .ret "yes") :
    (∃ n, HasWidth T "freespaced" x.header n ∧ x.freespace.toNat < 256 ^ n) ∧
    ((info.freespace ≠ 0 ∧ x.freespace = info.freespace) ∨
      (info.freespace = 0 ∧ ∃ bs ba, env.statfs = .ok (bs, ba) ∧ x.freespace = (bs * ba) / 1024#64)) := by
  unfold Beacon.new at built
  obtain ⟨h1, a1, built⟩ := Out.bind_eq_ret built
  obtain ⟨h2, a2, built⟩ := Out.bind_eq_ret built
  obtain ⟨⟨d', e⟩, a3, built⟩ := Out.bind_eq_ret built
  cases e with
  | some e => cases built
  | none =>
    obtain ⟨k0, extra, k1, k2⟩ := Beacon.finish_extra built
    rcases k2 with ⟨rfl, h, _⟩ | ⟨_, rfl, _⟩ | ⟨_, desc, n, rfl, hn, hlt, hv⟩
    · simp only [setFlags, Out.ret.injEq] at k1
      rw [k1] at h
      exact absurd advertised h
    · simp only [setFlags] at k1
      obtain ⟨c, hc, k1⟩ := Out.bind_eq_ret k1
      cases k1
      have := (set_carries sep (by decide) hc).1
      rw [this] at advertised
      simp at advertised
    · simp only [setFlags] at k1
      obtain ⟨c, hc, k1⟩ := Out.bind_eq_ret k1
      cases k1
      have := (set_carries sep (by decide) hc).1
      exact ⟨⟨n, ⟨desc, this, by rw [← descSize_eq]; exact hn⟩, hlt⟩, hv⟩

/-- **C34** So the peer learns the exact number: what it decodes is what was built. -/
theorem C34_peer_learns (T : Tables) (sep : Separated T beaconFields) (env : DiskEnv) (d x b0 : Beacon)
    (text : String) (info : Binfo) (built : d.new T env text info = .ret (x, none))
    (advertised : getStr T x.header "freespace" = .ret "yes") :
    ∃ frame, x.encode T = .ret (.ok frame) ∧ b0.decode T frame = .ret (x, none) := by
  obtain ⟨⟨n, hw, hl⟩, _⟩ := C34_freespace_fits T sep env d x text info built advertised
  exact C26_round_trip T x b0 n advertised hw hl

/-- **C34** A beacon that says it advertises none carries none. -/
theorem C34_none_advertised (T : Tables) (sep : Separated T beaconFields) (env : DiskEnv) (d x : Beacon)
    (text : String) (info : Binfo) (built : d.new T env text info = .ret (x, none))
    (silent : getStr T x.header "freespace" = .ret "no") : x.freespace = 0 := by
  unfold Beacon.new at built
  obtain ⟨h1, a1, built⟩ := Out.bind_eq_ret built
  obtain ⟨h2, a2, built⟩ := Out.bind_eq_ret built
  obtain ⟨⟨d', e⟩, a3, built⟩ := Out.bind_eq_ret built
  cases e with
  | some e => cases built
  | none =>
    obtain ⟨k0, extra, k1, k2⟩ := Beacon.finish_extra built
    rcases k2 with ⟨rfl, _, h⟩ | ⟨_, rfl, h⟩ | ⟨hy, desc, n, rfl, hn, hlt, hv⟩
    · simp only [setFlags, Out.ret.injEq] at k1
      rw [← k1] at silent
      exact h silent
    · exact h
    · simp only [setFlags] at k1
      obtain ⟨c, hc, k1⟩ := Out.bind_eq_ret k1
      cases k1
      have := ((set_carries sep (by decide) hc).2.1 "freespace" (by decide) (by decide)).2
      rw [this, hy] at silent
      simp at silent

example : ∃ x, Beacon.zero.new shipped ⟨none, .ok (1024, 65535)⟩ "freespace=no" ⟨9, []⟩ = .ret (x, none) ∧
    getStr shipped x.header "freespace" = .ret "no" := by
  refine ⟨⟨0x20000000#32, 0, []⟩, ?_, ?_⟩ <;> decide +kernel

/-- **C34** What the file system reports is converted exactly as long as the number of free bytes fits
64 bits. -/
theorem C34_kilobytes (bs ba : BitVec 64) (fits : bs.toNat * ba.toNat < 2 ^ 64) :
    ((bs * ba) / 1024#64).toNat = bs.toNat * ba.toNat / 1024 := by
  rw [BitVec.toNat_udiv, BitVec.toNat_mul, Nat.mod_eq_of_lt fits]
  rfl

/-- **C34** At the boundaries. -/
example : ∃ x, Beacon.zero.new shipped ⟨none, .ok (1024, 65535)⟩ "freespace=yes" ⟨0, []⟩ = .ret (x, none) ∧
    getStr shipped x.header "freespace" = .ret "yes" ∧ getStr shipped x.header "freespaced" = .ret "d32" ∧
    x.freespace = 65535 := by
  refine ⟨⟨0x20005000#32, 65535, []⟩, ?_, ?_, ?_, rfl⟩ <;> decide +kernel

end Saratoga
