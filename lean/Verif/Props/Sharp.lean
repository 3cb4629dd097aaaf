import Verif.Props.BeaconCmd
import Verif.Props.Request
import Verif.Props.Status
import Verif.Props.Data
import Verif.Props.Transfers
import Verif.Props.Trans
import Verif.Props.Survive

/-! Properties C11, C12, C19, C33, C40, C68: what exactly happens, as conditions that are both needed and enough. -/

namespace Saratoga

/-! ## C11, C12: beacons -/

/-- The free space a beacon would tell: the number given, or the kilobytes of the file system if that is 0. -/
def spaceToTell (env : DiskEnv) (info : Binfo) : Option (BitVec 64) :=
  if info.freespace ≠ 0 then some info.freespace
  else match env.statfs with
    | .ok (bsize, bavail) => some ((bsize * bavail) / 1024#64)
    | .error _ => none

/-- The narrowest descriptor with room for the number, leaving the largest number of each unused. -/
def spaceWidth (v : BitVec 64) : String :=
  if v.toNat < 2 ^ 16 - 1 then "d16" else if v.toNat < 2 ^ 32 - 1 then "d32" else "d64"

/-- The assignments made behind those of the text, if the text leaves `freespace` at the value `said`. -/
def spaceAssigns (env : DiskEnv) (info : Binfo) (said : String) : List (String × String) :=
  if said ≠ "yes" then []
  else match spaceToTell env info with
    | none => [("freespace", "no")]
    | some v => [("freespaced", spaceWidth v)]

/-- How the tail of `New` ends when it ends well. -/
theorem Beacon.finish_exact {T : Tables} {env : DiskEnv} {b x : Beacon} {info : Binfo}
    (h : Beacon.finish T env b info = .ret (x, none)) :
    x.eid = info.eid ∧ ∃ said, getStr T b.header "freespace" = .ret said ∧
      setFlags T b.header (spaceAssigns env info said) = .ret x.header ∧
      (said = "yes" → env.getwd = none ∧ x.freespace = (spaceToTell env info).getD 0 ∧
        spaceToTell env info ≠ some 0xFFFFFFFFFFFFFFFF#64) ∧
      (said = "no" → x.freespace = 0) := by
  unfold Beacon.finish at h
  simp only at h
  obtain ⟨said, a1, h⟩ := Out.bind_eq_ret h
  split at h
  · rename_i hy
    subst hy
    cases hg : env.getwd with
    | some e =>
      rw [hg] at h
      obtain ⟨h', a2, h⟩ := Out.bind_eq_ret h
      cases h
    | none =>
      simp only [hg] at h
      generalize hfs : (if info.freespace = 0#64 then
          match env.statfs with
          | .error _ => none
          | .ok (bsize, bavail) => some ((bsize * bavail) / 1024#64)
        else some info.freespace : Option (BitVec 64)) = fs at h
      have e : fs = spaceToTell env info := by
        rw [← hfs]
        unfold spaceToTell
        by_cases h0 : info.freespace = 0#64
        · rw [if_pos h0, if_neg (fun n => n h0)]
          cases env.statfs <;> rfl
        · rw [if_neg h0]
          exact (if_pos h0).symm
      subst e
      cases hs : spaceToTell env info with
      | none =>
        simp only [hs] at h
        obtain ⟨h', a2, h⟩ := Out.bind_eq_ret h
        cases h
        refine ⟨rfl, "yes", a1, ?_, fun _ => ⟨rfl, rfl, fun e => by cases e⟩, fun e => by simp at e⟩
        simp only [spaceAssigns, hs]
        exact setFlags_one a2
      | some v =>
        simp only [hs] at h
        have done : ∀ w h', spaceWidth v = w → set T b.header "freespaced" w = .ret h' →
            v < 0xFFFFFFFFFFFFFFFF#64 → x = { b with header := h', freespace := v, eid := info.eid } →
            x.eid = info.eid ∧ ∃ said, getStr T b.header "freespace" = .ret said ∧
              setFlags T b.header (spaceAssigns env info said) = .ret x.header ∧
              (said = "yes" → (none : Option Err) = none ∧ x.freespace = (some v).getD 0 ∧
                some v ≠ some 0xFFFFFFFFFFFFFFFF#64) ∧
              (said = "no" → x.freespace = 0) := by
          intro w h' hw a2 lt hx
          subst hx
          refine ⟨rfl, "yes", a1, ?_, fun _ => ⟨rfl, rfl, fun e => ?_⟩, fun e => by simp at e⟩
          · simp only [spaceAssigns, hs, hw]
            exact setFlags_one a2
          · cases e; exact absurd lt (by decide)
        split at h
        · rename_i hlt
          obtain ⟨h', a2, h⟩ := Out.bind_eq_ret h
          cases h
          rw [BitVec.lt_def] at hlt
          have hn : v.toNat < 65535 := hlt
          refine done "d16" h' ?_ a2 ?_ rfl
          · unfold spaceWidth; rw [if_pos (by omega)]
          · rw [BitVec.lt_def]; show v.toNat < 18446744073709551615; omega
        · split at h
          · rename_i hge hlt
            obtain ⟨h', a2, h⟩ := Out.bind_eq_ret h
            cases h
            rw [BitVec.lt_def] at hlt hge
            have hn : v.toNat < 4294967295 := hlt
            have hm : ¬ v.toNat < 65535 := hge
            refine done "d32" h' ?_ a2 ?_ rfl
            · unfold spaceWidth; rw [if_neg (by omega), if_pos (by omega)]
            · rw [BitVec.lt_def]; show v.toNat < 18446744073709551615; omega
          · split at h
            · rename_i hge hge2 hlt
              obtain ⟨h', a2, h⟩ := Out.bind_eq_ret h
              cases h
              rw [BitVec.lt_def] at hge hge2
              have hn : ¬ v.toNat < 4294967295 := hge2
              have hm : ¬ v.toNat < 65535 := hge
              refine done "d64" h' ?_ a2 hlt rfl
              unfold spaceWidth; rw [if_neg (by omega), if_neg (by omega)]
            · cases h
  · rename_i hn
    obtain ⟨said', a2, h⟩ := Out.bind_eq_ret h
    have e : said' = said := by rw [a1] at a2; injection a2 with a2; exact a2.symm
    subst e
    have hs : spaceAssigns env info said' = [] := by unfold spaceAssigns; rw [if_pos hn]
    split at h
    · cases h
      exact ⟨rfl, said', a1, by rw [hs]; rfl, fun e => absurd e hn, fun _ => rfl⟩
    · rename_i hno
      cases h
      exact ⟨rfl, said', a1, by rw [hs]; rfl, fun e => absurd e hn, fun e => absurd e hno⟩

/-- **C11** Beacons, exactly: the header `h` carries the flags of the text and nothing else; if it then says that
there is no free space to tell, the frame has this header. Otherwise exactly one more field is set: `freespace=no` if
no space can be found, and the narrowest `freespaced` for the number if one is found. -/
theorem C11_beacon_exact (T : Tables) (sep : Separated T beaconFields) (env : DiskEnv) (d x : Beacon)
    (text : String) (info : Binfo) (built : d.new T env text info = .ret (x, none)) :
    ∃ h said,
      Carries T beaconFields
        (("version", "v1") :: ("frametype", "beacon") :: (flagParts text).flatMap beaconAssigns) d.header h ∧
      getStr T h "freespace" = .ret said ∧
      Carries T beaconFields (spaceAssigns env info said) h x.header ∧
      x.eid = info.eid ∧
      (said = "yes" → x.freespace = (spaceToTell env info).getD 0) ∧ (said = "no" → x.freespace = 0) := by
  unfold Beacon.new at built
  obtain ⟨h1, a1, built⟩ := Out.bind_eq_ret built
  obtain ⟨h2, a2, built⟩ := Out.bind_eq_ret built
  obtain ⟨⟨d', e⟩, a3, built⟩ := Out.bind_eq_ret built
  cases e with
  | some e => cases built
  | none =>
    obtain ⟨k0, said, k1, k2, k3, k4⟩ := Beacon.finish_exact built
    have k := flagLoop_setFlags (T := T) (hdr := Beacon.header) (assign := beaconAssigns)
      (fun s f s' h => Beacon.newStep_assigns h) a3
    refine ⟨d'.header, said, ?_, k1, ?_, k0, fun e => (k3 e).2.1, k4⟩
    · refine Carries.cons sep (by decide) a1 (Carries.cons sep (by decide) a2 ?_)
      unfold flagParts
      rw [textParts_eq]
      refine setFlags_carries sep ?_ k
      intro p hp
      obtain ⟨q, _, hq⟩ := List.mem_flatMap.1 hp
      unfold beaconAssigns at hq
      split at hq
      · simp only [List.mem_cons, List.not_mem_nil, or_false] at hq
        rcases hq with rfl | rfl <;> simp [beaconFields]
      · split at hq
        · rename_i hm
          simp only [List.mem_singleton] at hq
          subst hq
          simp only [List.mem_cons, List.not_mem_nil, or_false] at hm
          rcases hm with h | h | h | h | h | h <;> simp [h, beaconFields]
        · cases hq
    · refine setFlags_carries sep ?_ k2
      intro p hp
      unfold spaceAssigns at hp
      split at hp
      · cases hp
      · split at hp <;> (simp only [List.mem_singleton] at hp; subst hp; simp [beaconFields])

/-- The text says d64, the disk has 4000 kilobytes, the frame says d16. -/
example : ∃ x, Beacon.zero.new shipped ⟨none, .ok (4096, 1000)⟩ "freespaced=d64" ⟨0, []⟩ = .ret (x, none) ∧
    spaceAssigns ⟨none, .ok (4096, 1000)⟩ ⟨0, []⟩ "yes" = [("freespaced", "d16")] := by
  refine ⟨⟨0x20004000#32, 4000, []⟩, ?_, ?_⟩ <;> decide +kernel

/-- **C12** Beacons, exactly: `New` crashes exactly on a text with a part that makes it crash before any other is
refused. Nothing on the disk can. -/
theorem C12_beacon_iff (env : DiskEnv) (d : Beacon) (text : String) (info : Binfo) :
    (d.new shipped env text info).returns ↔
      firstBad ((flagParts text).map (beaconVerdict shipped)) = .ok ∨
      firstBad ((flagParts text).map (beaconVerdict shipped)) = .error := by
  by_cases ok : firstBad ((flagParts text).map (beaconVerdict shipped)) = .ok
  · refine ⟨fun _ => Or.inl ok, fun _ => ?_⟩
    obtain ⟨h1, h2, a1, a2⟩ := set_version C12_shipped_basic (ft := "beacon") (by decide) d.header
    unfold Beacon.new
    simp only [a1, a2, Out.ret_bind]
    unfold flagParts at ok
    rw [textParts_eq, ← flagLoop_verdict (Beacon.newStep_verdict (T := shipped)) { d with header := h2 }] at ok
    revert ok
    match flagLoop (Beacon.newStep shipped) { d with header := h2 } (strSplit (stripSpaces text) ',') with
    | .ret (a, none) =>
      intro _
      obtain ⟨r, hr⟩ := Beacon.finish_returns env a info
      simp only [Out.ret_bind, hr]
      trivial
    | .ret (a, some e) => intro ok; cases ok
    | .fatal => intro ok; cases ok
    | .panic => intro ok; cases ok
  · have k := C12_beacon_partial shipped C12_shipped_basic env d text info ok
    generalize firstBad ((flagParts text).map (beaconVerdict shipped)) = v at k ok
    subst k
    cases h : d.new shipped env text info with
    | ret r =>
      obtain ⟨y, e⟩ := r
      rw [h] at ok
      cases e with
      | none => exact absurd rfl ok
      | some e => exact ⟨fun _ => Or.inr rfl, fun _ => trivial⟩
    | fatal => exact ⟨fun q => q.elim, fun q => by rcases q with q | q <;> cases q⟩
    | panic => exact ⟨fun q => q.elim, fun q => by rcases q with q | q <;> cases q⟩

/-! ## C33 -/

/-- **C33** Data frames, exactly: another variable decodes to the same frame exactly if the frame has a timestamp or
both variables held the same one. -/
theorem C33_data_iff (T : Tables) (d1 d2 x : Data) (f : List Byte) (h : d1.decode T f = .ret (x, none)) :
    d2.decode T f = .ret (x, none) ↔ getStr T x.header "reqtstamp" = .ret "yes" ∨ x.tstamp = d2.tstamp := by
  obtain ⟨rt, h1, h2⟩ := C33_data_partial T d1 d2 x f h
  rw [h2, h1]
  simp only [Out.ret.injEq, Prod.mk.injEq, and_true]
  by_cases hy : rt = "yes"
  · subst hy; simp
  · rw [if_neg hy]
    constructor
    · intro e; exact Or.inr (congrArg Data.tstamp e).symm
    · rintro (e | e)
      · exact absurd e hy
      · rw [← e]

/-- **C33** Status frames, exactly: the same frame comes out exactly if the variables held the same holes, and the
frame has a timestamp or they held the same one. -/
theorem C33_status_iff (T : Tables) (s1 s2 x : Status) (f : List Byte) (h : s1.decode T f = .ret (x, none)) :
    s2.decode T f = .ret (x, none) ↔
      s2.holes = s1.holes ∧ (getStr T x.header "reqtstamp" = .ret "yes" ∨ x.tstamp = s2.tstamp) := by
  obtain ⟨rt, hs, h1, h2, h3⟩ := C33_status_partial T s1 s2 x f h
  rw [h3, h1]
  simp only [Out.ret.injEq, Prod.mk.injEq, and_true]
  constructor
  · intro e
    have a := congrArg Status.holes e
    have b := congrArg Status.tstamp e
    simp only at a b
    rw [h2] at a
    refine ⟨List.append_cancel_right a, ?_⟩
    by_cases hy : rt = "yes"
    · exact Or.inl hy
    · rw [if_neg hy] at b; exact Or.inr b.symm
  · rintro ⟨e1, e2⟩
    rw [e1, ← h2]
    by_cases hy : rt = "yes"
    · rw [if_pos hy]
    · rcases e2 with e2 | e2
      · exact absurd e2 hy
      · rw [if_neg hy, ← e2]

/-- **C33** Requests, exactly: the same request comes out exactly if the variables held the same name. -/
theorem C33_request_iff (r1 r2 x : Request) (f : List Byte) (h : r1.decode f = .ret (x, none)) :
    r2.decode f = .ret (x, none) ↔ r2.fname = r1.fname := by
  have a := C33_request_appends r1 x f h
  constructor
  · intro e
    have b := C33_request_appends r2 x f e
    rw [a] at b
    exact (List.append_cancel_right b).symm
  · intro e
    have h9 : 9 ≤ f.length := by
      apply Decidable.byContradiction
      intro hs
      unfold Request.decode at h
      rw [if_pos (by omega)] at h
      cases h
    rw [Request.decode_eq r2 h9, e, ← Request.decode_eq r1 h9]
    exact h

/-- A frame without a timestamp. -/
example : ∃ x, Data.zero.decode shipped [0x23, 0, 0, 0, 0, 0, 0, 7, 0, 0] = .ret (x, none) ∧
    getStr shipped x.header "reqtstamp" = .ret "no" := by
  refine ⟨⟨0x23000000#32, 7, Timestamp.zero, 0, []⟩, ?_, ?_⟩ <;> decide +kernel

/-! ## C40 -/

/-- The handler needs a name for the number of a field only if it gets that far: version before UDP-Lite, before
stream, before the two willingness fields. -/
def GetsFar (T : Tables) (h : BitVec 32) : List (String × (String → Prop)) → Prop
  | [] => True
  | (f, goesOn) :: rest => ∃ v, getStr T h f = .ret v ∧ (goesOn v → GetsFar T h rest)

/-- **C40** With tables that know the names the answers need, exactly: the handler returns exactly if each field it
comes to has a name, and it comes to the next field only if this one is acceptable. -/
theorem C40_returns_iff (T : Tables) (ht : TranTables T) (clock : GoTime) (sardir : List Byte) (fs : FS)
    (trans : List RxTran) (r : Request) (source : UDPAddr) :
    (addRxTran T clock sardir fs trans r source).returns ↔
      GetsFar T r.header [("request", fun _ => True), ("version", (· = "v1")), ("udplite", (· = "no")),
        ("stream", (· = "no")), ("rxwilling", (· ≠ "invalid")), ("txwilling", fun _ => True)] := by
  have step : ∀ (f : String) (k : String → Out TranEnd),
      (getStr T r.header f >>= k).returns ↔ ∃ v, getStr T r.header f = .ret v ∧ (k v).returns := by
    intro f k
    cases h : getStr T r.header f with
    | ret v => exact ⟨fun q => ⟨v, rfl, q⟩, fun ⟨w, e, q⟩ => by cases e; exact q⟩
    | fatal => exact ⟨fun q => q.elim, fun ⟨w, e, _⟩ => by cases e⟩
    | panic => exact ⟨fun q => q.elim, fun ⟨w, e, _⟩ => by cases e⟩
  have ans : ∀ c ∈ tranCodes, ∀ fs' tr res, (answerWith T clock fs' tr ("errcode=" ++ c) res).returns := by
    intro c hc fs' tr res
    obtain ⟨st, _, h⟩ := answerWith_eq ht clock fs' tr c hc res
    rw [h]; trivial
  have whole := C40_partial T ht clock sardir fs trans r source
  unfold addRxTran at whole ⊢
  simp only [GetsFar]
  refine (step _ _).trans (exists_congr fun rt => and_congr_right fun h1 => ?_)
  rw [h1, Out.ret_bind] at whole
  refine ((step _ _).trans (exists_congr fun v => and_congr_right fun h2 => ?_)).trans
    ⟨fun q _ => q, fun q => q trivial⟩
  rw [h2, Out.ret_bind] at whole
  by_cases c2 : v = "v1"
  · rw [if_neg (fun n => n c2)] at whole ⊢
    refine ((step _ _).trans (exists_congr fun u => and_congr_right fun h3 => ?_)).trans
      ⟨fun q _ => q, fun q => q c2⟩
    rw [h3, Out.ret_bind] at whole
    by_cases c3 : u = "no"
    · rw [if_neg (fun n => n c3)] at whole ⊢
      refine ((step _ _).trans (exists_congr fun s => and_congr_right fun h4 => ?_)).trans
        ⟨fun q _ => q, fun q => q c3⟩
      rw [h4, Out.ret_bind] at whole
      by_cases c4 : s = "no"
      · rw [if_neg (fun n => n c4)] at whole ⊢
        refine ((step _ _).trans (exists_congr fun rx => and_congr_right fun h5 => ?_)).trans
          ⟨fun q _ => q, fun q => q c4⟩
        rw [h5, Out.ret_bind] at whole
        by_cases c5 : rx = "invalid"
        · rw [if_pos c5]
          exact ⟨fun _ n => absurd c5 n, fun _ => ans "cantreceive" (by decide) _ _ _⟩
        · rw [if_neg c5] at whole ⊢
          refine ((step _ _).trans (exists_congr fun tx => and_congr_right fun h6 => ?_)).trans
            ⟨fun q _ => q, fun q => q c5⟩
          rw [h6, Out.ret_bind] at whole
          refine ⟨fun _ _ => trivial, fun _ => whole ?_⟩
          intro f hf
          simp only [List.mem_cons, List.not_mem_nil, or_false] at hf
          rcases hf with rfl | rfl | rfl | rfl | rfl | rfl
          · rw [h1]; trivial
          · rw [h2]; trivial
          · rw [h3]; trivial
          · rw [h4]; trivial
          · rw [h5]; trivial
          · rw [h6]; trivial
      · rw [if_pos c4]
        exact ⟨fun _ n => absurd n c4, fun _ => ans "badrequest" (by decide) _ _ _⟩
    · rw [if_pos c3]
      exact ⟨fun _ n => absurd n c3, fun _ => ans "badrequest" (by decide) _ _ _⟩
  · rw [if_pos c2]
    exact ⟨fun _ n => absurd n c2, fun _ => ans "badrequest" (by decide) _ _ _⟩

/-- Version 0 is answered whatever comes behind. -/
example : GetsFar patched 0x01000001#32 [("request", fun _ => True), ("version", (· = "v1")), ("udplite", (· = "no"))] :=
  ⟨"get", by decide +kernel, fun _ => ⟨"v0", by decide +kernel, fun e => by simp at e⟩⟩

/-! ## C19 -/

/-- **C19** Exactly: what `New` makes can be written and read back as it is exactly if it is not of type `localinterp`,
and not of type `posix32_32` and in the second before 1970. -/
theorem C19_readable_iff (t0 t1 t : Timestamp) (flag : String) (ts : GoTime) (ok : ts.NanoOk)
    (accepted : t0.new shipped flag ts = .ret (t, none)) :
    (∃ b, t.put shipped = .ret b ∧ t1.get shipped b = .ret (t, none)) ↔
      stripSpaces flag ≠ "localinterp" ∧ ¬ (stripSpaces flag = "posix32_32" ∧ ts.sec = -1 ∧ ts.nsec ≠ 0) := by
  constructor
  · rintro ⟨b, h1, h2⟩
    have notLocal : stripSpaces flag ≠ "localinterp" := by
      intro e
      have q : t.Wire shipped := (C17_survives_iff shipped t t1).1 ⟨b, h1, h2⟩
      obtain ⟨q6, q7⟩ := new_header C09_ts_wf accepted
      have m := q.2.1
      rw [q7, e] at m
      exact absurd m (by decide)
    refine ⟨notLocal, ?_⟩
    have hr : stripSpaces flag ∈ readableTypes := by
      obtain ⟨v, _, ho, _⟩ := new_ret accepted
      have hm := assoc_mem ho
      have : ∀ p ∈ shipped.ts.options, p.1 = "localinterp" ∨ p.1 ∈ readableTypes := by decide +kernel
      rcases this _ hm with h | h
      · exact absurd h notLocal
      · exact h
    exact (C17_new_survives_iff shipped C09_ts_wf t0 t1 t flag ts hr ok accepted).1 ⟨b, h1, h2⟩
  · rintro ⟨h1, h2⟩
    refine C19_readable_partial t0 t1 t flag ts h1 (fun e => ⟨ok, fun e1 => ?_⟩) accepted
    exact Decidable.byContradiction fun n => h2 ⟨e, e1, n⟩

example : (⟨1700000000, 5⟩ : GoTime).NanoOk ∧
    ∃ t, Timestamp.zero.new shipped "posix32_32" ⟨1700000000, 5⟩ = .ret (t, none) := by
  refine ⟨by unfold GoTime.NanoOk GoTime.Ok; decide, _, rfl⟩

/-! ## C68 -/

/-- **C68** Exactly: `rmtran` takes the named transfer off the table, and no other, exactly if it is the last. -/
theorem C68_removes_iff (str : UDPAddr → String) (ts : List Transfer) (cmd tt addr s : String)
    (session : BitVec 32) (text : SessionText s session) (conns : ∀ t ∈ ts, t.conn ≠ none) (i : Nat)
    (named : Named ts addr session i) :
    cmdRmtran str ts [cmd, tt, addr, s] = .ret (ts.eraseIdx i, false) ↔ i + 1 = ts.length := by
  obtain ⟨h1, h2⟩ := C68_removes_last_partial str ts cmd tt addr s session text conns i named
  rw [h1]
  constructor
  · intro e
    simp only [Out.ret.injEq, Prod.mk.injEq, and_true] at e
    obtain ⟨⟨t, ht, ha⟩, later⟩ := named
    have hi := (List.getElem?_eq_some_iff.1 ht).1
    apply Decidable.byContradiction
    intro n
    have k : i + 1 < ts.length := by omega
    have e' := congrArg (fun l => l[i]?) e
    simp only [List.getElem?_dropLast, List.getElem?_eraseIdx] at e'
    rw [if_pos (by omega), if_neg (by omega), ht] at e'
    exact later (i + 1) t (by omega) e'.symm ha
  · intro e; rw [h2 e]

example : Named [{ Transfer.zero with conn := some "a", session := 4 }, { Transfer.zero with conn := some "b", session := 5 }]
    "b" 5 1 := by
  refine ⟨⟨_, rfl, rfl, rfl⟩, fun j t hj ht => ?_⟩
  obtain ⟨k, rfl⟩ : ∃ k, j = k + 2 := ⟨j - 2, by omega⟩
  simp at ht

theorem matchLoop_panics (ts : List Transfer) (addr : String) (session : BitVec 32) (n : Nat) (hn : n ≤ ts.length) :
    matchLoop ts addr session n = .panic ↔ ∃ j t, j < n ∧ ts[j]? = some t ∧ t.conn = none ∧
      ∀ k u, j < k → k < n → ts[k]? = some u → ¬ (u.conn = some addr ∧ u.session = session) := by
  induction n with
  | zero => simp [matchLoop]
  | succ n ih =>
    have hl : n < ts.length := by omega
    have hg : ts[n]? = some ts[n] := List.getElem?_eq_getElem hl
    simp only [matchLoop, hg]
    cases hc : ts[n].conn with
    | none =>
      simp only [true_iff]
      exact ⟨n, ts[n], by omega, hg, hc, fun k u h1 h2 => by omega⟩
    | some a =>
      simp only
      by_cases hm : addr = a ∧ session = ts[n].session
      · rw [if_pos hm]
        constructor
        · intro e; cases e
        · rintro ⟨j, t, hj, ht, h0, h⟩
          by_cases e : j = n
          · subst e; rw [hg] at ht; cases ht; rw [hc] at h0; cases h0
          · exact absurd ⟨by rw [hc, hm.1], hm.2.symm⟩ (h n ts[n] (by omega) (by omega) hg)
      · rw [if_neg hm, ih (by omega)]
        constructor
        · rintro ⟨j, t, hj, ht, h0, h⟩
          refine ⟨j, t, by omega, ht, h0, fun k u h1 h2 hk => ?_⟩
          by_cases e : k = n
          · subst e
            rw [hg] at hk; cases hk
            rintro ⟨q1, q2⟩
            rw [hc] at q1
            injection q1 with q1
            exact hm ⟨q1.symm, q2.symm⟩
          · exact h k u h1 (by omega) hk
        · rintro ⟨j, t, hj, ht, h0, h⟩
          by_cases e : j = n
          · subst e; rw [hg] at ht; cases ht; rw [hc] at h0; cases h0
          · exact ⟨j, t, by omega, ht, h0, fun k u h1 h2 hk => h k u h1 (by omega) hk⟩

/-- **C68** Exactly: `rmtran` with the text of a session ends the program exactly if a transfer without a connection
is in the table and no transfer behind it is the one named. -/
theorem C68_panics_iff (str : UDPAddr → String) (ts : List Transfer) (cmd tt addr s : String)
    (session : BitVec 32) (text : SessionText s session) :
    cmdRmtran str ts [cmd, tt, addr, s] = .panic ↔ ∃ (j : Nat) (t : Transfer), ts[j]? = some t ∧ t.conn = none ∧
      ∀ (k : Nat) (u : Transfer), j < k → ts[k]? = some u → ¬ (u.conn = some addr ∧ u.session = session) := by
  have hs := (parseUint32_iff s session).2 text
  have key := matchLoop_panics ts addr session ts.length (Nat.le_refl _)
  have e : (∃ (j : Nat) (t : Transfer), ts[j]? = some t ∧ t.conn = none ∧
      ∀ (k : Nat) (u : Transfer), j < k → ts[k]? = some u → ¬ (u.conn = some addr ∧ u.session = session)) ↔
      matchTran ts addr session = .panic := by
    unfold matchTran
    rw [key]
    constructor
    · rintro ⟨j, t, ht, h0, h⟩
      exact ⟨j, t, (List.getElem?_eq_some_iff.1 ht).1, ht, h0, fun k u h1 _ hk => h k u h1 hk⟩
    · rintro ⟨j, t, _, ht, h0, h⟩
      exact ⟨j, t, ht, h0, fun k u h1 hk => h k u h1 (List.getElem?_eq_some_iff.1 hk).1 hk⟩
  rw [e]
  unfold cmdRmtran
  simp only [hs]
  cases hm : matchTran ts addr session with
  | fatal => exact ⟨fun q => (by cases q), fun q => (by cases q)⟩
  | panic => exact ⟨fun _ => rfl, fun _ => rfl⟩
  | ret m =>
    simp only [Out.ret_bind]
    refine ⟨fun q => ?_, fun q => (by cases q)⟩
    cases m with
    | none => cases q
    | some i =>
      have found : ∀ n, n ≤ ts.length → matchLoop ts addr session n = .ret (some i) → i < ts.length := by
        intro n
        induction n with
        | zero => intro _ h; cases h
        | succ n ih =>
          intro hn h
          have hg : ts[n]? = some ts[n] := List.getElem?_eq_getElem (by omega)
          simp only [matchLoop, hg] at h
          cases hc : ts[n].conn with
          | none => rw [hc] at h; cases h
          | some a =>
            rw [hc] at h
            simp only at h
            split at h
            · injection h with h; injection h with h; omega
            · exact ih (by omega) h
      have hi := found _ (Nat.le_refl _) hm
      simp only [List.getElem?_eq_getElem hi] at q
      cases q

end Saratoga
