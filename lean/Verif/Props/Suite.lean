import Verif.Model.Suite
import Verif.Props.Print
import Verif.Props.Stamped
import Verif.Lemmas.Client
import Verif.Lemmas.MetaNew
import Verif.Props.Files
/-!
# C126: the project's own test programs
-/
namespace Saratoga

theorem unit_ret {x : Out Unit} (h : x.returns) : x = .ret () := by
  cases x with
  | ret u => rfl
  | fatal => exact h.elim
  | panic => exact h.elim

theorem known_of_names {h : BitVec 32} {v t : String} (hv : getStr shipped h "version" = .ret v)
    (ht : getStr shipped h "frametype" = .ret t) : KnownFrame h :=
  ⟨(version_named h).1 (by rw [hv]; trivial), (frametype_named h).1 (by rw [ht]; trivial)⟩

theorem clockStamp_named {clock : GoTime} {t : Timestamp} (st : ClockStamp clock t) : t.header.toNat < 6 := by
  obtain ⟨ty, hm, t0, ht⟩ := st
  have hg := (new_header (T := shipped) (by decide) ht)
  rcases getTStr_cases t.header with ⟨k, _⟩ | ⟨_, k, _⟩ | ⟨k, k2⟩
  · omega
  · omega
  · rw [getTStr_eq_nameT, hg.1] at k2; cases k2

/-! ## C126 -/

/-- **C126** The test of timestamps passes in the years 2000 to 2106. -/
theorem C126_timestamp_partial (clock : GoTime) (inRange : clock.InRange) :
    testTimestamp shipped clock = .ret true := by
  obtain ⟨t, ht⟩ := now_ok (T := shipped) (v := "posix32_32") (by decide) (by decide +kernel) inRange Timestamp.zero
  have pr := (stamp_prints t).2 (clockStamp_named (now_clockStamp (by decide) ht))
  unfold testTimestamp
  simp only [ht, Out.ret_bind, unit_ret pr]
  rfl

/-- **C126** The test of data frames passes in these years, with any session, any payload and any offset
the 32 bits of its descriptor can hold. -/
theorem C126_data_partial (clock : GoTime) (inRange : clock.InRange) (info : Dinfo)
    (fits : info.offset.toNat < 2 ^ 32) : testData shipped clock info = .ret true := by
  obtain ⟨x, hx⟩ := verdict_ok (x := Data.zero.new shipped clock testDataFlags info) (by
    rw [C12_data_partial shipped C12_shipped_basic clock inRange]
    decide +kernel)
  obtain ⟨car, hs, ho, hp⟩ := C11_data_partial shipped C11_shipped_separated.1 clock _ _ _ _ hx
  have rd : ∀ f ∈ dataFields, ∀ v, lastValue f (("version", "v1") :: ("frametype", "data") ::
      (flagParts testDataFlags).flatMap dataAssigns) = some v → getStr shipped x.header f = .ret v := car.1
  have r1 := rd "version" (by decide) "v1" (by decide +kernel)
  have r2 := rd "frametype" (by decide) "data" (by decide +kernel)
  have r3 := rd "descriptor" (by decide) "d32" (by decide +kernel)
  have r4 := rd "reqtstamp" (by decide) "yes" (by decide +kernel)
  have says : stampNumber x.header = 1 := by
    rw [getStr_reqtstamp] at r4
    by_cases h : stampNumber x.header = 1
    · exact h
    · rw [if_neg h] at r4; exact absurd r4 (by decide)
  have st := C76_data_time_partial clock _ _ _ hx says
  have text : testDataFlags = render [("descriptor", "d32"), ("reqstatus", "yes"), ("eod", "no"), ("reqtstamp", "yes")] := by
    decide +kernel
  have wire := (new_posix (q := [("descriptor", "d32"), ("reqstatus", "yes"), ("eod", "no"), ("reqtstamp", "yes")])
    (by decide +kernel) inRange (by rw [← text]; exact hx) says).1
  have pr : (x.print shipped).returns :=
    (C77_data_iff_partial x).2 ⟨known_of_names r1 r2, fun _ => clockStamp_named st⟩
  obtain ⟨frame, he, hd⟩ := C20_round_trip_partial shipped x x 4 "yes" ⟨"d32", r3, rfl⟩ r4
    (by rw [ho]; exact fits) (fun _ => wire) (by simp)
  unfold testData
  simp only [hx, he, hd, Out.ret_bind, unit_ret pr, if_true]
  rfl

/-- What the test uses. -/
example : testDataInfo.offset.toNat < 2 ^ 32 ∧ testDataInfo.payload.length = 255 ∧ (⟨1763251200, 7⟩ : GoTime).InRange := by
  decide +kernel
/-- The years matter: in 1969 the test fails. -/
example : testData shipped ⟨-1, 0⟩ testDataInfo = .ret false := by decide +kernel

/-- **C126** The test of status frames passes in these years, whatever its information. -/
theorem C126_status_partial (clock : GoTime) (inRange : clock.InRange) (info : Sinfo) :
    testStatus shipped clock info = .ret true := by
  obtain ⟨x, hx⟩ := verdict_ok (x := Status.zero.new shipped clock testStatusFlags info) (by
    rw [C12_status_partial shipped C12_shipped_basic clock inRange]
    decide +kernel)
  obtain ⟨car, -⟩ := C11_status shipped C11_shipped_separated.2.1 clock _ _ _ _ hx
  have rd : ∀ f ∈ statusFields, ∀ v, lastValue f (("version", "v1") :: ("frametype", "status") ::
      (flagParts testStatusFlags).flatMap statusAssigns) = some v → getStr shipped x.header f = .ret v := car.1
  have r1 := rd "version" (by decide) "v1" (by decide +kernel)
  have r2 := rd "frametype" (by decide) "status" (by decide +kernel)
  have r3 := rd "errcode" (by decide) "success" (by decide +kernel)
  have pr : (x.print shipped).returns :=
    (C77_status_iff_partial x).2 ⟨known_of_names r1 r2, (errcode_named _).1 (by rw [r3]; trivial),
      fun says => clockStamp_named (C76_status_time_partial clock _ _ _ hx says)⟩
  unfold testStatus
  simp only [hx, Out.ret_bind, unit_ret pr]
  rfl

/-- **C126** The test of requests ends the test program: `fileordir` is not a field of the shipped
configuration. -/
theorem C126_request_counterexample (info : Rinfo) : testRequest shipped info = .fatal := by
  unfold testRequest
  have v := C12_request_partial shipped C12_shipped_basic Request.zero testRequestFlags info
  rw [show firstBad ((flagPartsTrimmed testRequestFlags).map (requestVerdict shipped)) = .exit by decide +kernel] at v
  cases h : Request.zero.new shipped testRequestFlags info with
  | ret r => obtain ⟨r, e⟩ := r; rw [h] at v; cases e <;> cases v
  | panic => rw [h] at v; cases v
  | fatal => rfl

/-- **C126** The test of metadata never passes, whatever the file system: in a test program the settings are
not published, so asking for the size and times of the file panics. -/
theorem C126_metadata_counterexample (env : FileEnv) (unpublished : ∀ name, env.fileMeta name = .panic)
    (info : Minfo) : testMetadata shipped env info ≠ .ret true := by
  intro h
  unfold testMetadata at h
  obtain ⟨⟨x, e⟩, built, h⟩ := Out.bind_eq_ret h
  cases e with
  | some e => cases h
  | none =>
    obtain ⟨car, -⟩ := C11_metadata shipped C11_shipped_separated.2.2.2.1 env _ _ _ _ built
    have r := car.1 "transfer" (by decide) "file" (by decide +kernel)
    unfold MetaData.new at built
    obtain ⟨h1, a1, built⟩ := Out.bind_eq_ret built
    obtain ⟨h2, a2, built⟩ := Out.bind_eq_ret built
    obtain ⟨⟨⟨d', cs⟩, e⟩, a3, built⟩ := Out.bind_eq_ret built
    cases e with
    | some e => cases built
    | none =>
      obtain ⟨fi, p, d, b1, b2, b3, b4, b5, b6, b7⟩ := MetaData.finish_ok built
      obtain ⟨-, -, -, c⟩ := DirEnt.new_metaFlags_ok (kindName_mem b2) (pickDesc_mem _) b3
      rcases c with ⟨hp, -⟩ | ⟨-, fi', hf, -⟩
      · subst hp
        have hm : fi.mode = .pipe := by
          cases hmm : fi.mode <;> rw [hmm] at b2 <;> simp [kindName] at b2 <;> rfl
        rcases b7 with ⟨k, -⟩ | ⟨-, -⟩
        · rw [← b4, r] at k; exact absurd k (by decide)
        · have fin := built
          unfold MetaData.finish at fin
          obtain ⟨⟨fl, e⟩, k1, fin⟩ := Out.bind_eq_ret fin
          cases e with
          | some e => cases fin
          | none =>
            obtain ⟨fi', p', l1, -, -, tr, l2, l3⟩ := metaStatfile_ret k1
            rw [← b4, r] at l2
            cases l2
            rw [b1] at l1; cases l1
            rcases l3 with ⟨h, -⟩ | ⟨-, h⟩ | ⟨h, -⟩
            · exact absurd h (by decide)
            · rw [hm] at h; cases h
            · exact absurd h (by decide)
      · rw [unpublished] at hf; cases hf

/-- With the package directory holding a file of that name the test panics; without, as in the repository, it
fails. -/
example : testMetadata shipped ⟨fun _ => .ok ⟨.regular, 5, ⟨1000000000, 0⟩, ⟨1000000000, 0⟩⟩, fun _ => .panic, fun _ => .ok [],
    fun _ => [], fun _ => [], fun _ => [], ⟨1000000000, 0⟩⟩ ⟨1234, utf8 "go.mod"⟩ = .panic := by decide +kernel
example : testMetadata shipped ⟨fun _ => .error "no such file", fun _ => .panic, fun _ => .ok [],
    fun _ => [], fun _ => [], fun _ => [], ⟨1000000000, 0⟩⟩ ⟨1234, utf8 "go.mod"⟩ = .ret false := by decide +kernel

/-- **C126** The test of files panics at its first step, whatever the file system. -/
theorem C126_fileio_counterexample (fs : FS) (conf : List Byte) (rest : FS → Handle → Out Bool) :
    testFileio none fs conf rest = .panic := rfl

/-- **C126** The same for every file operation that needs the directory, for all names. -/
theorem C126_unpublished (fs : FS) (fname : List Byte) (ttype : String) (h : Handle) :
    fileExistsG none fs fname = .panic ∧ fileOpenG none fs fname ttype = .panic ∧
    fileRmG none fs fname = .panic ∧ fileDeleteG none fs (some h) = .panic := ⟨rfl, rfl, rfl, rfl⟩

/-- **C126** Once the directory is published they are the operations of C55 to C58: nothing else depends on it. -/
theorem C126_published (sardir : List Byte) (fs : FS) (fname : List Byte) (ttype : String) (fp : Option Handle) :
    fileExistsG (some sardir) fs fname = .ret (fileExists sardir fs fname) ∧
    fileOpenG (some sardir) fs fname ttype = .ret (fileOpen sardir fs fname ttype) ∧
    fileRmG (some sardir) fs fname = .ret (fileRm sardir fs fname) ∧
    fileDeleteG (some sardir) fs fp = .ret (fileDelete sardir fs fp) := by
  refine ⟨rfl, rfl, rfl, ?_⟩
  cases fp <;> rfl

/-- The shape of the tests: they pass just when the thing is built and prints. -/
theorem built_and_printed {α : Type} {x : Out (α × Option Err)} {pr : α → Out Unit} :
    (do let (a, e) ← x
        match e with
        | some _ => pure false
        | none => do pr a; pure true : Out Bool) = .ret true ↔ ∃ a, x = .ret (a, none) ∧ pr a = .ret () := by
  constructor
  · intro h
    obtain ⟨⟨a, e⟩, hx, h⟩ := Out.bind_eq_ret h
    cases e with
    | some e => cases h
    | none =>
      simp only at h
      obtain ⟨u, hu, -⟩ := Out.bind_eq_ret h
      exact ⟨a, hx, hu⟩
  · rintro ⟨a, hx, hp⟩
    rw [hx]
    simp only [Out.ret_bind, hp]
    rfl

/-- **C126** Whatever the configuration, a test passes only if the frame is built without an error, prints, and for data
also encodes and decodes; the first four pass just then. -/
theorem C126_pass_means (T : Tables) (clock : GoTime) (env : FileEnv) (d : Dinfo) (s : Sinfo) (r : Rinfo) (m : Minfo) :
    (testTimestamp T clock = .ret true ↔ ∃ t, Timestamp.zero.now T "posix32_32" clock = .ret (t, none) ∧
      t.print T = .ret ()) ∧
    (testStatus T clock s = .ret true ↔ ∃ x, Status.zero.new T clock testStatusFlags s = .ret (x, none) ∧
      x.print T = .ret ()) ∧
    (testRequest T r = .ret true ↔ ∃ x, Request.zero.new T testRequestFlags r = .ret (x, none) ∧
      x.print T = .ret ()) ∧
    (testMetadata T env m = .ret true ↔ ∃ x, MetaData.zero.new T env testMetadataFlags m = .ret (x, none) ∧
      x.print T = .ret ()) ∧
    (testData T clock d = .ret true ↔ ∃ x buff y, Data.zero.new T clock testDataFlags d = .ret (x, none) ∧
      x.encode T = .ret (.ok buff) ∧ x.print T = .ret () ∧ x.decode T buff = .ret (y, none) ∧ y.print T = .ret ()) := by
  refine ⟨built_and_printed, built_and_printed, built_and_printed, built_and_printed, ?_, ?_⟩
  · intro h
    unfold testData at h
    obtain ⟨⟨x, e⟩, hx, h⟩ := Out.bind_eq_ret h
    cases e with
    | some e => cases h
    | none =>
      simp only at h
      obtain ⟨enc, he, h⟩ := Out.bind_eq_ret h
      cases enc with
      | error e => cases h
      | ok buff =>
        simp only at h
        obtain ⟨u, hu, h⟩ := Out.bind_eq_ret h
        obtain ⟨⟨y, e⟩, hy, h⟩ := Out.bind_eq_ret h
        cases e with
        | some e => cases h
        | none =>
          simp only at h
          obtain ⟨u', hu', -⟩ := Out.bind_eq_ret h
          exact ⟨x, buff, y, hx, he, hu, hy, hu'⟩
  · rintro ⟨x, buff, y, hx, he, hp, hy, hp'⟩
    unfold testData
    simp only [hx, he, hp, hy, hp', Out.ret_bind]
    rfl

/-- **C126** With the pointer set, `TestFileio` passes just when the file can be created after the removal and the
remainder of the test passes; that the removal fails does not matter. -/
theorem C126_fileio_passes_iff (dir : List Byte) (fs : FS) (conf : List Byte) (rest : FS → Handle → Out Bool) :
    testFileio (some dir) fs conf rest = .ret true ↔
      ∃ fs' fp, fileOpen dir (fileRm dir fs (conf ++ utf8 "/testfile.temp")).1 (conf ++ utf8 "/testfile.temp") "get" =
        (fs', .ok (some fp)) ∧ rest fs' fp = .ret true := by
  have e : testFileio (some dir) fs conf rest = (match fileOpen dir (fileRm dir fs (conf ++ utf8 "/testfile.temp")).1
      (conf ++ utf8 "/testfile.temp") "get" with
      | (fs, .ok (some fp)) => rest fs fp
      | _ => .ret false) := rfl
  rw [e]
  cases ho : fileOpen dir (fileRm dir fs (conf ++ utf8 "/testfile.temp")).1 (conf ++ utf8 "/testfile.temp") "get" with
  | mk fs' o =>
    match o with
    | .ok (some fp) =>
      exact ⟨fun h => ⟨fs', fp, rfl, h⟩, fun ⟨_, _, h1, h2⟩ => by cases h1; exact h2⟩
    | .ok none => exact ⟨fun h => (by cases h), fun ⟨_, _, h1, _⟩ => (by cases h1)⟩
    | .error _ => exact ⟨fun h => (by cases h), fun ⟨_, _, h1, _⟩ => (by cases h1)⟩

/-- Without any flag in the configuration no status is built, and the test does not pass. -/
example (clock : GoTime) (s : Sinfo) : testStatus { shipped with flags := [] } clock s ≠ .ret true := by
  intro h
  obtain ⟨x, hx, -⟩ := built_and_printed.1 h
  have : Status.zero.new { shipped with flags := [] } clock testStatusFlags s = .fatal := rfl
  rw [this] at hx
  cases hx

end Saratoga
