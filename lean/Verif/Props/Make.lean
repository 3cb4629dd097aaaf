import Verif.Props.New
import Verif.Lemmas.MetaNew
import Verif.Lemmas.Listen
/-!
# C75, C76: frames made from a header word, and what `New` takes from its arguments

C75 is stated for the shipped tables, where `version` is the top three bits and `frametype` the next five.
-/
namespace Saratoga

/-- A header word with its top byte replaced by version 1 and the frame type number. -/
def marked (type : BitVec 32) (h : BitVec 32) : BitVec 32 :=
  (h &&& 0x00FFFFFF#32) ||| 0x20000000#32 ||| (type <<< 24)

theorem set_marked (h : BitVec 32) {name : String} {type : BitVec 32}
    (known : (name, type) ∈ [("beacon", 0#32), ("request", 1#32), ("metadata", 2#32), ("data", 3#32), ("status", 4#32)]) :
    ∃ h1, set shipped h "version" "v1" = .ret h1 ∧ set shipped h1 "frametype" name = .ret (marked type h) := by
  have hv : set shipped h "version" "v1" = .ret ((h &&& 0x1FFFFFFF#32) ||| 0x20000000#32) := rfl
  refine ⟨_, hv, ?_⟩
  have fin : ∀ a b : BitVec 32, (((h &&& 0x1FFFFFFF#32) ||| 0x20000000#32) &&& 0xE0FFFFFF#32) ||| a =
      (h &&& 0x00FFFFFF#32) ||| 0x20000000#32 ||| a := by
    intro a _
    rw [BitVec.and_comm (x := (h &&& 0x1FFFFFFF#32) ||| 0x20000000#32), BitVec.and_or_distrib_left,
      BitVec.and_comm (x := 0xE0FFFFFF#32) (y := h &&& 0x1FFFFFFF#32), BitVec.and_assoc]
    rfl
  simp only [List.mem_cons, List.not_mem_nil, or_false, Prod.mk.injEq] at known
  unfold marked
  rcases known with ⟨rfl, rfl⟩ | ⟨rfl, rfl⟩ | ⟨rfl, rfl⟩ | ⟨rfl, rfl⟩ | ⟨rfl, rfl⟩ <;>
    exact congrArg Out.ret (fin _ 0)

/-- Both marks read back, and the lower 24 bits are those given. -/
theorem marked_reads (h : BitVec 32) (type : Nat) (known : type < 5) :
    versionNumber (marked (BitVec.ofNat 32 type) h) = 1 ∧ typeNumber (marked (BitVec.ofNat 32 type) h) = type ∧
    (marked (BitVec.ofNat 32 type) h).toNat % 2 ^ 24 = h.toNat % 2 ^ 24 := by
  have key : (marked (BitVec.ofNat 32 type) h).toNat = h.toNat % 2 ^ 24 + (2 ^ 29 + type * 2 ^ 24) := by
    unfold marked
    rw [BitVec.or_assoc, BitVec.toNat_or, BitVec.toNat_and]
    have h1 : (0x00FFFFFF#32).toNat = 2 ^ 24 - 1 := by decide
    rw [h1, Nat.and_two_pow_sub_one_eq_mod]
    have h2 : (0x20000000#32 ||| BitVec.ofNat 32 type <<< 24).toNat = 2 ^ 24 * (2 ^ 5 + type) := by
      have : type = 0 ∨ type = 1 ∨ type = 2 ∨ type = 3 ∨ type = 4 := by omega
      rcases this with rfl | rfl | rfl | rfl | rfl <;> decide
    rw [h2, Nat.or_comm, ← Nat.two_pow_add_eq_or_of_lt (Nat.mod_lt _ (by decide))]
    omega
  unfold versionNumber typeNumber bitsAt
  rw [key]
  omega

/-! ## C75 -/

/-- **C75** A status frame made from a header and information carries both. Missing: a variable that has
holes keeps them in front. -/
theorem C75_status_partial (s : Status) (fresh : s.holes = []) (h : BitVec 32) (info : Sinfo) :
    s.make shipped h info =
      .ret (⟨marked 4 h, info.session, s.tstamp, info.progress, info.inrespto, info.holes⟩, none) := by
  obtain ⟨h1, e1, e2⟩ := set_marked h (name := "status") (type := 4) (by decide)
  simp [Status.make, e1, e2, fresh]

example := C75_status_partial Status.zero rfl 0x01000000 ⟨1, 2, 3, []⟩

/-- **C75** fails for a status variable that is used again, and no status frame made with `Make` has the
time in it: the timestamp stays what it was although the header asks for one. -/
theorem C75_status_counterexample (h : BitVec 32) :
    (∃ x, (⟨0, 1, Timestamp.zero, 0, 0, [⟨1, 2⟩]⟩ : Status).make shipped h ⟨1, 0, 0, [⟨3, 4⟩]⟩ = .ret (x, none) ∧
      x.holes ≠ [⟨3, 4⟩]) ∧
    (∀ (s : Status) (info : Sinfo), ∃ x, s.make shipped h info = .ret (x, none) ∧ x.tstamp = s.tstamp) := by
  obtain ⟨h1, e1, e2⟩ := set_marked h (name := "status") (type := 4) (by decide)
  constructor
  · exact ⟨_, by simp only [Status.make, e1, e2, Out.ret_bind]; rfl, by simp⟩
  · intro s info
    refine ⟨_, by simp only [Status.make, e1, e2, Out.ret_bind]; rfl, ?_⟩
    rfl

/-- `t` is the timestamp of the reading `clock` in one of the types a timestamp can be named by. -/
def ClockStamp (clock : GoTime) (t : Timestamp) : Prop :=
  ∃ type ∈ tsTypeNames, ∃ t0 : Timestamp, t0.new shipped type clock = .ret (t, none)

/-- **C75** A data frame made from a header and information carries both, and the time if the header asks
for it. -/
theorem C75_data (clock : GoTime) (inRange : clock.InRange) (d : Data) (h : BitVec 32) (info : Dinfo) :
    ∃ x, d.make shipped clock h info = .ret (x, none) ∧ x.header = marked 3 h ∧ x.session = info.session ∧
      x.offset = info.offset ∧ x.payload = info.payload ∧
      (stampNumber x.header = 1 → ClockStamp clock x.tstamp ∧ x.tstamp.secs.toInt = clock.sec) := by
  obtain ⟨h1, e1, e2⟩ := set_marked h (name := "data") (type := 3) (by decide)
  unfold Data.make
  simp only [e1, e2, Out.ret_bind, getStr_reqtstamp]
  by_cases hs : stampNumber (marked 3 h) = 1
  · simp only [hs, if_true]
    rw [if_neg (by decide), if_neg (by decide)]
    obtain ⟨t', ht⟩ := now_ok (T := shipped) (v := "posix32") (by decide) (by decide) inRange d.tstamp
    simp only [ht, Out.ret_bind]
    refine ⟨_, rfl, rfl, rfl, rfl, rfl, fun _ => ?_⟩
    unfold Timestamp.now at ht
    obtain ⟨⟨t1, e⟩, h2, ht⟩ := Out.bind_eq_ret ht
    cases e with
    | some e => cases ht
    | none =>
      cases ht
      refine ⟨⟨"posix32", by decide, _, h2⟩, ?_⟩
      obtain ⟨c1, c2, c3⟩ := inRange
      exact (C17_seconds shipped _ _ "posix32" clock ⟨by omega, by omega, c3⟩ (.inl (by decide +kernel)) h2).1
  · simp only [hs, if_false, if_true]
    exact ⟨_, rfl, rfl, rfl, rfl, rfl, fun hx => absurd hx hs⟩

example := C75_data ⟨1700000000, 5⟩ (by decide) Data.zero 0x00080000 ⟨7, 9, [1]⟩

/-- **C75** `Make` on a request always panics, so no request is ever made this way. -/
theorem C75_request_counterexample (r : Request) (h : BitVec 32) (info : Rinfo) :
    r.make shipped h info = .panic := by
  obtain ⟨h1, e1, e2⟩ := set_marked h (name := "request") (type := 1) (by decide)
  simp [Request.make, e1, e2]

/-- **C75** `Make` on metadata never looks at the file it is asked to describe: the outcome is the same for
all file names, namely that for a file called `<uint32 Value>`. In particular it fails for every file as
long as there is none of this name. -/
theorem C75_metadata_counterexample (env : FileEnv) (m : MetaData) (h : BitVec 32) (info info' : Minfo)
    (same : info.session = info'.session) :
    m.make shipped env h info = m.make shipped env h info' ∧
    (∀ e, env.lstat (("<uint32 Value>".toList.map fun c => BitVec.ofNat 8 c.toNat)) = .error e →
      m.make shipped env h info = .ret ({ m with header := marked 2 h, session := info.session }, some e)) := by
  obtain ⟨h1, e1, e2⟩ := set_marked h (name := "metadata") (type := 2) (by decide)
  constructor
  · unfold MetaData.make
    simp only [e1, e2, Out.ret_bind, same]
  · intro e he
    have hn : ("<uint32 Value>".toList.map fun c => BitVec.ofNat 8 c.toNat) = uint32ValueText := by decide
    rw [hn] at he
    simp [MetaData.make, e1, e2, MetaData.finish, metaStatfile, he]

example (env : FileEnv) := C75_metadata_counterexample env MetaData.zero 0 ⟨7, [97]⟩ ⟨7, [98]⟩ rfl

/-- **C75** A beacon made from a header and information carries both: the endpoint, and of the header all
but the two free space fields. If the header asks for free space the frame advertises it or says there is
none to advertise; a working directory that cannot be found is an error and leaves no free space in it. -/
theorem C75_beacon (env : DiskEnv) (b x : Beacon) (h : BitVec 32) (info : Binfo) (e : Option Err)
    (made : b.make shipped env h info = .ret (x, e)) :
    x.eid = info.eid ∧ x.header &&& 0xFFFF8FFF#32 = marked 0 h &&& 0xFFFF8FFF#32 ∧
    (freeNumber h = 0 → e = none ∧ x.header = marked 0 h ∧ x.freespace = 0) ∧
    (freeNumber h = 1 → ∀ err, env.getwd = some err →
      e = some err ∧ freeNumber x.header = 0 ∧ x.freespace = 0) ∧
    (freeNumber h = 1 → env.getwd = none → ∀ bs ba, env.statfs = .ok (bs, ba) → e = none →
      freeNumber x.header = 1 ∧
      x.freespace = if info.freespace = 0 then (bs * ba) / 1024 else info.freespace) := by
  obtain ⟨h1, e1, e2⟩ := set_marked h (name := "beacon") (type := 0) (by decide)
  unfold Beacon.make at made
  simp only [e1, e2, Out.ret_bind] at made
  have hfree : freeNumber (marked 0 h) = freeNumber h := by
    have := (marked_reads h 0 (by decide)).2.2
    unfold freeNumber bitsAt
    have e : marked (BitVec.ofNat 32 0) h = marked 0 h := rfl
    rw [e] at this
    omega
  -- the free space fields are outside the mask
  have mask : ∀ (g : BitVec 32) (f v : String) (g' : BitVec 32), f ∈ ["freespace", "freespaced"] →
      set shipped g f v = .ret g' → g' &&& 0xFFFF8FFF#32 = g &&& 0xFFFF8FFF#32 := by
    intro g f v g' hf hg
    apply BitVec.eq_of_getMsbD_eq
    intro i hi
    rw [BitVec.getMsbD_and, BitVec.getMsbD_and]
    have key : ∀ i : Fin 32, ((17 ≤ i.val ∧ i.val < 20) ∧ (0xFFFF8FFF#32).getMsbD i = false) ∨
        (i.val < 17 ∨ 20 ≤ i.val) := by decide
    rcases key ⟨i, hi⟩ with ⟨_, k⟩ | k
    · simp only at k; rw [k]; simp
    · simp only at k
      simp only [List.mem_cons, List.not_mem_nil, or_false] at hf
      rcases hf with rfl | rfl
      · rw [C08_set_outside shipped "freespace" v ⟨1, 17, [("no", 0), ("yes", 1)]⟩ (by decide) (by decide) g g' hg i
          (by show i < 17 ∨ 17 + 1 ≤ i; omega)]
      · rw [C08_set_outside shipped "freespaced" v ⟨2, 18, [("d16", 0), ("d32", 1), ("d64", 2), ("d128", 3)]⟩
          (by decide) (by decide) g g' hg i (by show i < 18 ∨ 18 + 2 ≤ i; omega)]
  have setno : ∀ g g' : BitVec 32, set shipped g "freespace" "no" = .ret g' → freeNumber g' = 0 := by
    intro g g' hg
    obtain ⟨g2, k1, _, k2, _⟩ := C07_get_after_set shipped "freespace" "no" _ 0 rfl (by decide) rfl g
    rw [hg] at k1; cases k1
    rw [getStr_freespace] at k2
    have : freeNumber g' < 2 := Nat.mod_lt _ (by decide)
    by_cases h1 : freeNumber g' = 1
    · rw [if_pos h1] at k2; exact absurd k2 (by decide)
    · omega
  have setd : ∀ (g : BitVec 32) v g', set shipped g "freespaced" v = .ret g' → freeNumber g' = freeNumber g := by
    intro g v g' hg
    have k := (C08_set_other_field shipped "freespaced" v "freespace" _ rfl (by decide) (by decide) (by decide) g g' hg).2
    rw [getStr_freespace, getStr_freespace] at k
    have h1 : freeNumber g' < 2 := Nat.mod_lt _ (by decide)
    have h2 : freeNumber g < 2 := Nat.mod_lt _ (by decide)
    by_cases a : freeNumber g' = 1 <;> by_cases b : freeNumber g = 1 <;> simp [a, b] at k ⊢ <;> omega
  unfold Beacon.finish at made
  simp only [getStr_freespace, Out.ret_bind, hfree] at made
  have hb : freeNumber h < 2 := Nat.mod_lt _ (by decide)
  by_cases hf : freeNumber h = 1
  · simp only [hf, if_true] at made
    cases hg : env.getwd with
    | some err =>
      simp only [hg] at made
      obtain ⟨g, k1, made⟩ := Out.bind_eq_ret made
      cases made
      refine ⟨rfl, mask _ _ _ _ (by decide) k1, by omega, ?_, ?_⟩
      · intro _ err' he; cases he; exact ⟨rfl, setno _ _ k1, rfl⟩
      · intro _ hn; cases hn
    | none =>
      simp only [hg] at made
      generalize hfs : (if info.freespace = 0#64 then
          match env.statfs with
          | .error _ => none
          | .ok (bsize, bavail) => some ((bsize * bavail) / 1024#64)
        else some info.freespace) = fs at made
      cases fs with
      | none =>
        simp only at made
        obtain ⟨g, k1, made⟩ := Out.bind_eq_ret made
        cases made
        refine ⟨rfl, mask _ _ _ _ (by decide) k1, by omega, ?_, ?_⟩
        · intro _ err' he; cases he
        · intro _ _ bs ba hst
          rw [hst] at hfs
          simp only at hfs
          split at hfs <;> cases hfs
      | some v =>
        have hv : ∀ bs ba, env.statfs = .ok (bs, ba) →
            v = if info.freespace = 0 then (bs * ba) / 1024 else info.freespace := by
          intro bs ba hst
          rw [hst] at hfs
          simp only at hfs
          split at hfs
          · rename_i h0; cases hfs; exact (if_pos h0).symm
          · rename_i h0; cases hfs; exact (if_neg h0).symm
        simp only at made
        have named : ∀ d, (do
              let g ← set shipped (marked 0 h) "freespaced" d
              pure (({ b with header := g, eid := info.eid, freespace := v } : Beacon), (none : Option Err)) :
              Out (Beacon × Option Err)) = .ret (x, e) →
            ∃ g, x = { b with header := g, eid := info.eid, freespace := v } ∧
              g &&& 0xFFFF8FFF#32 = marked 0 h &&& 0xFFFF8FFF#32 ∧ freeNumber g = 1 := by
          intro d made
          obtain ⟨g, k1, made⟩ := Out.bind_eq_ret made
          cases made
          exact ⟨g, rfl, mask _ _ _ _ (by decide) k1, by rw [setd _ _ _ k1, hfree, hf]⟩
        have all : ∃ g, x = { b with header := g, eid := info.eid, freespace := v } ∧
              g &&& 0xFFFF8FFF#32 = marked 0 h &&& 0xFFFF8FFF#32 ∧ freeNumber g = 1 := by
          split at made
          · exact named _ made
          · split at made
            · exact named _ made
            · split at made
              · exact named _ made
              · cases made
                exact ⟨_, rfl, rfl, by rw [hfree, hf]⟩
        obtain ⟨g, rfl, k1, k2⟩ := all
        refine ⟨rfl, k1, by omega, ?_, ?_⟩
        · intro _ err' he; cases he
        · intro _ _ bs ba hst _; exact ⟨k2, hv bs ba hst⟩
  · have h0 : freeNumber h = 0 := by omega
    simp only [h0] at made
    rw [if_neg (by decide), if_pos (by decide)] at made
    cases made
    exact ⟨rfl, rfl, fun _ => ⟨rfl, rfl, rfl⟩, by omega, by omega⟩

/-- Free space asked for, disk of 1000 blocks of 4096 bytes. -/
example : ∃ x, Beacon.zero.make shipped ⟨none, .ok (4096, 1000)⟩ 0x00004000 ⟨0, [65#8]⟩ = .ret (x, none) ∧
    x.freespace = 4000 ∧ x.eid = [65#8] ∧ x.header = 0x20004000 := ⟨_, rfl, by decide, rfl, rfl⟩
/-- A data frame with a timestamp, over a header that said it is a beacon. -/
example : ∃ x, Data.zero.make shipped ⟨1700000000, 5⟩ 0x00080000 ⟨7, 9, [1]⟩ = .ret (x, none) ∧
    x.header = 0x23080000 ∧ x.tstamp.secs = 1700000000 := ⟨_, rfl, rfl, by decide⟩
example : (⟨1700000000, 5⟩ : GoTime).InRange := by decide

/-! ## C76 -/

theorem now_clockStamp {t t' : Timestamp} {type : String} {clock : GoTime} (hm : type ∈ tsTypeNames)
    (h : t.now shipped type clock = .ret (t', none)) : ClockStamp clock t' := by
  unfold Timestamp.now at h
  obtain ⟨⟨t1, e⟩, h1, h⟩ := Out.bind_eq_ret h
  cases e with
  | some e => cases h
  | none => cases h; exact ⟨type, hm, t, h1⟩

/-- Setting another field leaves the timestamp bit. -/
theorem set_stamp {h h' : BitVec 32} {f v : String}
    (hf : f ∈ ["version", "frametype", "descriptor", "reqstatus", "eod", "stream", "metadatarecvd", "allholes", "reqholes", "errcode"])
    (ok : set shipped h f v = .ret h') : stampNumber h' = stampNumber h := by
  have k : getStr shipped h' "reqtstamp" = getStr shipped h "reqtstamp" := by
    simp only [List.mem_cons, List.not_mem_nil, or_false] at hf
    rcases hf with rfl | rfl | rfl | rfl | rfl | rfl | rfl | rfl | rfl | rfl <;>
      exact (C08_set_other_field shipped _ v "reqtstamp" _ rfl (by decide) (by decide) (by decide) h h' ok).2
  rw [getStr_reqtstamp, getStr_reqtstamp] at k
  have h1 : stampNumber h' < 2 := Nat.mod_lt _ (by decide)
  have h2 : stampNumber h < 2 := Nat.mod_lt _ (by decide)
  by_cases a : stampNumber h' = 1 <;> by_cases b : stampNumber h = 1 <;> simp [a, b] at k ⊢ <;> omega

theorem set_no_stamp {h h' : BitVec 32} {v : String} (hv : v ≠ "yes")
    (ok : set shipped h "reqtstamp" v = .ret h') : stampNumber h' ≠ 1 := by
  rcases set_cases shipped h "reqtstamp" v with ⟨hvalid, fl, n, hf, ho, hs⟩ | ⟨_, hs⟩
  · have hno : v = "no" := by
      have : assoc v [("no", 0#32), ("yes", 1#32)] = some n := by cases hf; exact ho
      have := assoc_mem this
      simp only [List.mem_cons, Prod.mk.injEq, List.not_mem_nil, or_false] at this
      rcases this with ⟨rfl, _⟩ | ⟨rfl, _⟩
      · rfl
      · exact absurd rfl hv
    subst hno
    obtain ⟨g2, k1, _, k2, _⟩ := C07_get_after_set shipped "reqtstamp" "no" _ 0 rfl (by decide) rfl h
    rw [ok] at k1; cases k1
    rw [getStr_reqtstamp] at k2
    intro h1
    rw [if_pos h1] at k2
    exact absurd k2 (by decide)
  · rw [hs] at ok; cases ok

/-- **C76** A data frame that says it has a timestamp has the time of its building, in one of the types.
Missing for the full C76: the authentication bytes of requests (`C76_request_counterexample`). -/
theorem C76_data_time_partial (clock : GoTime) (text : String) (info : Dinfo) (x : Data)
    (built : Data.zero.new shipped clock text info = .ret (x, none)) (says : stampNumber x.header = 1) :
    ClockStamp clock x.tstamp := by
  unfold Data.new at built
  obtain ⟨h1, a1, built⟩ := Out.bind_eq_ret built
  obtain ⟨h2, a2, built⟩ := Out.bind_eq_ret built
  obtain ⟨⟨d, e⟩, a3, built⟩ := Out.bind_eq_ret built
  cases e with
  | some e => cases built
  | none =>
    cases built
    show ClockStamp clock d.tstamp
    refine (flagLoop_inv (s' := d) (fun d : Data => stampNumber d.header = 1 → ClockStamp clock d.tstamp) ?_ ?_ a3) says
    · intro s f s' inv step
      unfold Data.newStep at step
      simp only at step
      split at step
      · rename_i hn
        obtain ⟨v, b1, step⟩ := Out.bind_eq_ret step
        obtain ⟨g, b2, step⟩ := Out.bind_eq_ret step
        cases step
        intro hs
        rw [set_stamp (by rcases hn with h | h | h | h <;> rw [h] <;> decide) b2] at hs
        exact inv hs
      · split at step
        · obtain ⟨v, b1, step⟩ := Out.bind_eq_ret step
          split at step <;> cases step
          exact inv
        · split at step
          · rename_i hn
            obtain ⟨v, b1, step⟩ := Out.bind_eq_ret step
            split at step
            · rename_i hv
              obtain ⟨g, b2, step⟩ := Out.bind_eq_ret step
              cases step
              intro hs
              rw [hn, hv] at b2
              exact absurd hs (set_no_stamp (by decide) b2)
            · split at step
              · rename_i hm
                obtain ⟨g, b2, step⟩ := Out.bind_eq_ret step
                obtain ⟨⟨ts, e⟩, b3, step⟩ := Out.bind_eq_ret step
                cases step
                intro _
                refine now_clockStamp ?_ b3
                simp only [dataTsNames, List.mem_cons, List.not_mem_nil, or_false] at hm
                simp only [tsTypeNames, List.mem_cons, List.not_mem_nil, or_false]
                omega
              · split at step
                · obtain ⟨g, b2, step⟩ := Out.bind_eq_ret step
                  obtain ⟨⟨ts, e⟩, b3, step⟩ := Out.bind_eq_ret step
                  cases step
                  exact fun _ => now_clockStamp (by decide) b3
                · cases step
          · cases step
    · intro hs
      simp only at hs
      rw [set_stamp (by decide) a2, set_stamp (by decide) a1] at hs
      exact absurd hs (by decide)

/-- **C76** The same for status frames. -/
theorem C76_status_time_partial (clock : GoTime) (text : String) (info : Sinfo) (x : Status)
    (built : Status.zero.new shipped clock text info = .ret (x, none)) (says : stampNumber x.header = 1) :
    ClockStamp clock x.tstamp := by
  unfold Status.new at built
  obtain ⟨h1, a1, built⟩ := Out.bind_eq_ret built
  obtain ⟨h2, a2, built⟩ := Out.bind_eq_ret built
  obtain ⟨⟨d, e⟩, a3, built⟩ := Out.bind_eq_ret built
  cases e with
  | some e => cases built
  | none =>
    cases built
    show ClockStamp clock d.tstamp
    refine (flagLoop_inv (s' := d) (fun d : Status => stampNumber d.header = 1 → ClockStamp clock d.tstamp) ?_ ?_ a3) says
    · intro s f s' inv step
      unfold Status.newStep at step
      simp only at step
      split at step
      · rename_i hn
        obtain ⟨v, b1, step⟩ := Out.bind_eq_ret step
        obtain ⟨g, b2, step⟩ := Out.bind_eq_ret step
        cases step
        intro hs
        rw [set_stamp (by
          simp only [statusNames, List.mem_cons, List.not_mem_nil, or_false] at hn
          rcases hn with h | h | h | h | h | h <;> rw [h] <;> decide) b2] at hs
        exact inv hs
      · split at step
        · rename_i hn
          obtain ⟨v, b1, step⟩ := Out.bind_eq_ret step
          obtain ⟨g, b2, step⟩ := Out.bind_eq_ret step
          split at step
          · obtain ⟨⟨ts, e⟩, b3, step⟩ := Out.bind_eq_ret step
            cases step
            exact fun _ => now_clockStamp (by decide) b3
          · rename_i hv
            cases step
            intro hs
            rw [hn] at b2
            exact absurd hs (set_no_stamp hv b2)
        · split at step
          · rename_i hm
            obtain ⟨⟨ts, e⟩, b3, step⟩ := Out.bind_eq_ret step
            cases e with
            | some e => cases step
            | none =>
              obtain ⟨g, b2, step⟩ := Out.bind_eq_ret step
              cases step
              intro _
              refine now_clockStamp ?_ b3
              simp only [statusTsNames, List.mem_cons, List.not_mem_nil, or_false] at hm
              rcases hm with h | h | h | h | h <;> rw [h] <;> decide
          · cases step
    · intro hs
      simp only at hs
      rw [set_stamp (by decide) a2, set_stamp (by decide) a1] at hs
      exact absurd hs (by decide)

/-- **C76** A request never carries the authentication bytes it is built with: those of a new variable stay
empty, whatever `info` says. (`C11_request` has the rest of the information.) -/
theorem C76_request_counterexample (r x : Request) (fresh : r.auth = []) (text : String) (info : Rinfo)
    (built : r.new shipped text info = .ret (x, none)) : x.auth = [] := by
  unfold Request.new at built
  obtain ⟨h1, a1, built⟩ := Out.bind_eq_ret built
  obtain ⟨h2, a2, built⟩ := Out.bind_eq_ret built
  obtain ⟨⟨d, e⟩, a3, built⟩ := Out.bind_eq_ret built
  cases e with
  | some e => cases built
  | none =>
    cases built
    have : d.auth = [] := by
      refine flagLoop_inv (fun d : Request => d.auth = []) ?_ ?_ a3
      · intro s f s' inv step
        unfold Request.newStep at step
        simp only at step
        split at step
        · obtain ⟨v, b1, step⟩ := Out.bind_eq_ret step
          obtain ⟨g, b2, step⟩ := Out.bind_eq_ret step
          cases step; exact inv
        · obtain ⟨v, b1, step⟩ := Out.bind_eq_ret step
          cases step
      · exact fresh
    simp [copyInto, this]

example : ∃ x, Data.zero.new shipped ⟨1700000000, 5⟩ "descriptor=d32,reqtstamp=posix64_32" ⟨1, 2, [3]⟩ = .ret (x, none) ∧
    stampNumber x.header = 1 ∧ x.tstamp.nsecs = 5 := ⟨_, rfl, by decide, by decide⟩
example : ∃ x, Request.zero.new shipped "reqtype=get" ⟨1, [2], [3, 4]⟩ = .ret (x, none) ∧ x.auth = [] ∧
    x.fname = [2] := ⟨_, rfl, rfl, rfl⟩

end Saratoga
