import Verif.Props.Make
import Verif.Lemmas.Decoded
/-!
# C77: printing a frame (`Print`, `ShortPrint` of the frame packages)

Printing looks up the names of the frame's header fields; a number without a name ends the process. These
are the exact conditions under the shipped tables.
-/
namespace Saratoga

theorem getStr_returns (T : Tables) (h : BitVec 32) (f : String) :
    (getStr T h f).returns ↔ ∃ k, (k, get T h f) ∈ (T.flag f).options := by
  unfold getStr
  constructor
  · intro hh
    split at hh
    · rename_i k hk; exact ⟨k, optName_mem hk⟩
    · exact hh.elim
  · rintro ⟨k, hk⟩
    cases ho : optName (get T h f) (T.flag f).options with
    | some k => trivial
    | none => exact absurd hk (optName_none.1 ho k)

/-- A field whose options are numbered 0 to n-1 has a name exactly for these numbers. -/
theorem shipped_named {f : String} {lo len n : Nat} (wf : (shipped.flag f).WF)
    (hl : (shipped.flag f).len.toNat = len) (hm : 32 - (shipped.flag f).len.toNat - (shipped.flag f).msb.toNat = lo)
    (numbers : ∀ k < 2 ^ len, k < n ↔ k ∈ (shipped.flag f).options.map (·.2.toNat)) (h : BitVec 32) :
    (getStr shipped h f).returns ↔ bitsAt h lo len < n := by
  have hlt : bitsAt h lo len < 2 ^ len := Nat.mod_lt _ (Nat.pow_pos (by decide))
  have hlen : len ≤ 32 := by have := wf.1; omega
  have h32 : 2 ^ len ≤ 2 ^ 32 := Nat.pow_le_pow_right (by decide) hlen
  rw [getStr_returns, get_ofNat wf h lo len hl hm, numbers _ hlt, List.mem_map]
  constructor
  · rintro ⟨k, hk⟩
    refine ⟨_, hk, ?_⟩
    simp only [BitVec.toNat_ofNat]
    omega
  · rintro ⟨⟨k, v⟩, hk, hv⟩
    refine ⟨k, ?_⟩
    have : v = BitVec.ofNat 32 (bitsAt h lo len) := by
      rw [← hv]; simp
    rw [← this]; exact hk

theorem ret_returns {α : Type} (a : α) : (Out.ret a).returns ↔ True := Iff.rfl

theorem bind_unit_returns {α : Type} (x : Out α) (y : Out Unit) : (x >>= fun _ => y).returns ↔ x.returns ∧ y.returns := by
  cases x <;> simp [Out.returns]

theorem forM_getStr_returns (T : Tables) (h : BitVec 32) (l : List String) :
    (l.forM fun f => do let _ ← getStr T h f; (pure () : Out Unit)).returns ↔ ∀ f ∈ l, (getStr T h f).returns := by
  induction l with
  | nil => simp [Out.returns]
  | cons f l ih =>
    have e : ((f :: l).forM fun f => do let _ ← getStr T h f; (pure () : Out Unit)) =
        (getStr T h f >>= fun _ => l.forM fun f => do let _ ← getStr T h f; (pure () : Out Unit)) := by
      simp only [List.forM]
      cases getStr T h f <;> rfl
    rw [e, bind_unit_returns, ih]
    simp

/-- Fields all of whose numbers have names. -/
theorem getStr_total {f : String} (h : BitVec 32)
    (hf : f ∈ ["descriptor", "stream", "transfer", "reqtstamp", "progress", "txwilling", "metadatarecvd", "allholes",
      "rxwilling", "reqholes", "reqstatus", "udplite", "eod", "freespace", "freespaced", "reliability"]) :
    (getStr shipped h f).returns := by
  simp only [List.mem_cons, List.not_mem_nil, or_false] at hf
  rcases hf with rfl | rfl | rfl | rfl | rfl | rfl | rfl | rfl | rfl | rfl | rfl | rfl | rfl | rfl | rfl | rfl <;>
    first
      | exact (shipped_named (len := 1) (n := 2) (by decide) (by decide) rfl (by decide) h).2 (Nat.mod_lt _ (by decide))
      | exact (shipped_named (len := 2) (n := 4) (by decide) (by decide) rfl (by decide) h).2 (Nat.mod_lt _ (by decide))

theorem version_named (h : BitVec 32) : (getStr shipped h "version").returns ↔ versionNumber h < 2 :=
  shipped_named (by decide) (by decide) (by decide) (by decide) h
theorem frametype_named (h : BitVec 32) : (getStr shipped h "frametype").returns ↔ typeNumber h < 5 :=
  shipped_named (by decide) (by decide) (by decide) (by decide) h
theorem errcode_named (h : BitVec 32) : (getStr shipped h "errcode").returns ↔ errcodeNumber h < 19 :=
  shipped_named (by decide) (by decide) (by decide) (by decide +kernel) h
theorem csumtype_named (h : BitVec 32) : (getStr shipped h "csumtype").returns ↔ bitsAt h 0 4 < 4 :=
  shipped_named (by decide) (by decide) (by decide) (by decide) h
theorem csumlen_named (h : BitVec 32) : (getStr shipped h "csumlen").returns ↔ bitsAt h 4 4 < 6 :=
  shipped_named (by decide) (by decide) (by decide) (by decide) h

theorem stamp_prints (t : Timestamp) : (t.print shipped).returns ↔ t.header.toNat < 6 := by
  unfold Timestamp.print
  rw [bind_unit_returns]
  rcases getTStr_cases t.header with ⟨h1, h2⟩ | ⟨h1, h2, s, -, h3⟩ | ⟨h1, h2⟩
  · simp [h2, Out.returns]; omega
  · simp [h3, Out.returns]; omega
  · simp [h2, Out.returns]; omega

theorem stamp_if_prints (h : BitVec 32) (t : Timestamp) :
    (getStr shipped h "reqtstamp" >>= fun rt => if rt = "yes" then t.print shipped else pure ()).returns ↔
      (stampNumber h = 1 → t.header.toNat < 6) := by
  rw [getStr_reqtstamp, Out.ret_bind]
  by_cases hs : stampNumber h = 1
  · simp [hs, stamp_prints]
  · simp [hs, Out.returns]

/-! ## C77 -/

/-- The version has a name (0 or 1) and so has the frame type. -/
def KnownFrame (h : BitVec 32) : Prop := versionNumber h < 2 ∧ typeNumber h < 5

/-- **C77** Exactly when printing a data frame returns. -/
theorem C77_data_iff_partial (d : Data) :
    (d.print shipped).returns ↔ KnownFrame d.header ∧ (stampNumber d.header = 1 → d.tstamp.header.toNat < 6) := by
  unfold Data.print KnownFrame
  rw [bind_unit_returns, forM_getStr_returns, stamp_if_prints]
  rw [show values shipped "data" = ["version", "frametype", "descriptor", "transfer", "reqtstamp", "reqstatus", "eod"] from rfl]
  simp only [List.forall_mem_cons, version_named, frametype_named]
  simp [getStr_total]

/-- **C77** Exactly when printing a status frame returns. -/
theorem C77_status_iff_partial (s : Status) :
    (s.print shipped).returns ↔ KnownFrame s.header ∧ errcodeNumber s.header < 19 ∧
      (stampNumber s.header = 1 → s.tstamp.header.toNat < 6) := by
  unfold Status.print KnownFrame
  rw [bind_unit_returns, forM_getStr_returns, stamp_if_prints]
  rw [show values shipped "status" = ["version", "frametype", "descriptor", "reqtstamp", "metadatarecvd", "allholes", "reqholes", "errcode"] from rfl]
  simp only [List.forall_mem_cons, version_named, frametype_named, errcode_named]
  simp [getStr_total, and_assoc]

/-- **C77** Exactly when the short form for a status frame returns. -/
theorem C77_status_short_iff_partial (s : Status) :
    (s.shortPrint shipped).returns ↔ errcodeNumber s.header < 19 ∧
      (stampNumber s.header = 1 → s.tstamp.header.toNat < 6) := by
  unfold Status.shortPrint
  rw [← errcode_named, getStr_reqtstamp, Out.ret_bind]
  by_cases hs : stampNumber s.header = 1
  · simp only [hs, if_true, bind_unit_returns, stamp_prints]
    simp [Out.returns, and_comm]
  · simp only [hs, if_false]
    rw [if_neg (by decide), Out.pure_eq, bind_unit_returns]
    simp [ret_returns]

/-- **C77** Exactly when printing a beacon returns. -/
theorem C77_beacon_iff_partial (b : Beacon) : (b.print shipped).returns ↔ KnownFrame b.header := by
  unfold Beacon.print KnownFrame
  rw [bind_unit_returns, forM_getStr_returns, bind_unit_returns]
  rw [show values shipped "beacon" = ["version", "frametype", "descriptor", "stream", "txwilling", "rxwilling", "udplite", "freespace", "freespaced"] from rfl]
  simp only [List.forall_mem_cons, version_named, frametype_named]
  simp [getStr_total, ret_returns]

/-- **C77** Printing a request always ends the process: no number of its field `fileordir`, which is not in
the tables, has a name. -/
theorem C77_request_counterexample (r : Request) : r.print shipped = .fatal := by
  have nr : ¬ (r.print shipped).returns := by
    unfold Request.print
    rw [forM_getStr_returns]
    intro h
    have := (getStr_returns shipped r.header "fileordir").1 (h "fileordir" (by decide))
    obtain ⟨k, hk⟩ := this
    rw [show (shipped.flag "fileordir").options = [] from rfl] at hk
    cases hk
  have np : ∀ (l : List String), (l.forM fun f => do let _ ← getStr shipped r.header f; (pure () : Out Unit)) ≠ .panic := by
    intro l
    induction l with
    | nil => intro h; cases h
    | cons f l ih =>
      simp only [List.forM]
      rcases getStr_cases shipped r.header f with ⟨s, hs⟩ | hs
      · simpa only [hs, Out.ret_bind, Out.pure_eq] using ih
      · simp [hs]
  cases hp : r.print shipped with
  | ret u => rw [hp] at nr; exact absurd trivial nr
  | fatal => rfl
  | panic => exact absurd hp (np _)

theorem forM_getDStr_returns (T : Tables) (h : BitVec 16) (l : List String) :
    (l.forM fun f => do let _ ← getDStr T h f; (pure () : Out Unit)).returns ↔ ∀ f ∈ l, (getDStr T h f).returns := by
  induction l with
  | nil => simp [Out.returns]
  | cons f l ih =>
    have e : ((f :: l).forM fun f => do let _ ← getDStr T h f; (pure () : Out Unit)) =
        (getDStr T h f >>= fun _ => l.forM fun f => do let _ ← getDStr T h f; (pure () : Out Unit)) := by
      simp only [List.forM]
      cases getDStr T h f <;> rfl
    rw [e, bind_unit_returns, ih]
    simp

/-- **C77** Exactly when printing a directory entry returns: its first bit is set, bit 10 is not, and both
times are of a known type. -/
theorem C77_dirent_iff_partial (d : DirEnt) :
    (d.print shipped).returns ↔ bitsAt d.header 15 1 = 1 ∧ bitsAt d.header 5 1 = 0 ∧
      d.mtime.header.toNat < 6 ∧ d.ctime.header.toNat < 6 := by
  have named : ∀ (f : String) (lo len : Nat) (ok : Nat → Bool), (shipped.dflag f).WF →
      (shipped.dflag f).len.toNat = len → 16 - (shipped.dflag f).len.toNat - (shipped.dflag f).msb.toNat = lo →
      (∀ k < 2 ^ len, ok k = (optName (BitVec.ofNat 16 k) (shipped.dflag f).options).isSome) →
      ((getDStr shipped d.header f).returns ↔ ok (bitsAt d.header lo len)) := by
    intro f lo len ok wf hl hm hk
    have hlt : bitsAt d.header lo len < 2 ^ len := Nat.mod_lt _ (Nat.pow_pos (by decide))
    rw [getDStr_eq, getD_ofNat wf d.header lo len hl hm, hk _ hlt]
    cases optName (BitVec.ofNat 16 (bitsAt d.header lo len)) (shipped.dflag f).options <;> simp [Out.returns]
  have h1 := named "sod" 15 1 (fun k => k = 1) (by decide) (by decide) (by decide) (by decide)
  have h2 := named "property" 8 2 (fun _ => true) (by decide) (by decide) (by decide) (by decide)
  have h3 := named "descriptor" 6 2 (fun _ => true) (by decide) (by decide) (by decide) (by decide)
  have h4 := named "reserved" 5 1 (fun k => k = 0) (by decide) (by decide) (by decide) (by decide)
  unfold DirEnt.print
  rw [bind_unit_returns, forM_getDStr_returns, bind_unit_returns, stamp_prints, stamp_prints]
  rw [show shipped.dirent.map (·.1) = ["sod", "property", "descriptor", "reserved"] from rfl]
  simp only [List.forall_mem_cons, h1, h2, h3, h4]
  simp [and_assoc]

/-- **C77** Exactly when printing a metadata frame returns. -/
theorem C77_metadata_iff_partial (m : MetaData) :
    (m.print shipped).returns ↔ KnownFrame m.header ∧ bitsAt m.header 4 4 < 6 ∧ bitsAt m.header 0 4 < 4 ∧
      (m.dir.print shipped).returns := by
  unfold MetaData.print KnownFrame
  rw [bind_unit_returns, forM_getStr_returns, bind_unit_returns]
  rw [show values shipped "metadata" = ["version", "frametype", "descriptor", "transfer", "progress", "reliability", "csumlen", "csumtype"] from rfl]
  simp only [List.forall_mem_cons, version_named, frametype_named, csumtype_named, csumlen_named]
  simp [getStr_total, and_assoc]

/-- **C77** Exactly when the short form of a data frame returns. -/
theorem C77_data_short_iff_partial (d : Data) :
    (d.shortPrint shipped).returns ↔ (stampNumber d.header = 1 → d.tstamp.header.toNat < 6) := by
  unfold Data.shortPrint
  exact stamp_if_prints d.header d.tstamp

/-- **C77** The short form of a beacon always returns. -/
theorem C77_beacon_short (b : Beacon) : (b.shortPrint shipped).returns := by
  unfold Beacon.shortPrint
  rw [bind_unit_returns]
  exact ⟨getStr_total b.header (by decide), trivial⟩

/-- **C77** Exactly when the short form of a directory entry returns. -/
theorem C77_dirent_short_iff_partial (d : DirEnt) :
    (d.shortPrint shipped).returns ↔ d.mtime.header.toNat < 6 ∧ d.ctime.header.toNat < 6 := by
  unfold DirEnt.shortPrint
  rw [bind_unit_returns, stamp_prints, stamp_prints]

/-- **C77** Exactly when the short form of a metadata frame returns. -/
theorem C77_metadata_short_iff_partial (m : MetaData) :
    (m.shortPrint shipped).returns ↔ bitsAt m.header 0 4 < 4 ∧
      m.dir.mtime.header.toNat < 6 ∧ m.dir.ctime.header.toNat < 6 := by
  unfold MetaData.shortPrint
  rw [bind_unit_returns, csumtype_named, C77_dirent_short_iff_partial]

/-- **C77** What `Make` gives can be printed: data frames and beacons. -/
theorem C77_made (clock : GoTime) (inRange : clock.InRange) (d : Data) (h : BitVec 32) (info : Dinfo)
    (env : DiskEnv) (b y : Beacon) (binfo : Binfo) (e : Option Err) (made : b.make shipped env h binfo = .ret (y, e)) :
    (∃ x, d.make shipped clock h info = .ret (x, none) ∧ (x.print shipped).returns) ∧ (y.print shipped).returns := by
  constructor
  · obtain ⟨x, hx, hh, -, -, -, hs⟩ := C75_data clock inRange d h info
    refine ⟨x, hx, (C77_data_iff_partial x).2 ⟨?_, ?_⟩⟩
    · have := marked_reads h 3 (by decide)
      rw [hh]; unfold KnownFrame
      have e : marked (BitVec.ofNat 32 3) h = marked 3 h := rfl
      rw [e] at this; omega
    · intro h1
      obtain ⟨⟨ty, hm, t0, ht⟩, -⟩ := hs h1
      have hg := (new_header (T := shipped) (by decide) ht)
      rcases getTStr_cases x.tstamp.header with ⟨k, _⟩ | ⟨_, k, _⟩ | ⟨k, k2⟩
      · omega
      · omega
      · rw [getTStr_eq_nameT, hg.1] at k2; cases k2
  · rw [C77_beacon_iff_partial]
    have hm := (C75_beacon env b y h binfo e made).2.1
    have := marked_reads h 0 (by decide)
    have e0 : marked (BitVec.ofNat 32 0) h = marked 0 h := rfl
    rw [e0] at this
    have top : ∀ g : BitVec 32, versionNumber (g &&& 0xFFFF8FFF#32) = versionNumber g ∧
        typeNumber (g &&& 0xFFFF8FFF#32) = typeNumber g := by
      intro g
      unfold versionNumber typeNumber bitsAt
      rw [BitVec.toNat_and, Nat.and_div_two_pow, Nat.and_div_two_pow, Nat.and_mod_two_pow, Nat.and_mod_two_pow]
      rw [show (0xFFFF8FFF#32).toNat / 2 ^ 29 % 2 ^ 3 = 2 ^ 3 - 1 by decide,
        show (0xFFFF8FFF#32).toNat / 2 ^ 24 % 2 ^ 5 = 2 ^ 5 - 1 by decide, Nat.and_two_pow_sub_one_eq_mod,
        Nat.and_two_pow_sub_one_eq_mod]
      omega
    unfold KnownFrame
    rw [← (top y.header).1, ← (top y.header).2, hm, (top _).1, (top _).2]
    omega

/-- The header of a status reply prints; one with error code 19 does not; neither does a data frame with a
timestamp of type 6, nor an entry without its first bit. -/
example : ((⟨0x24000006, 1, Timestamp.zero, 0, 0, []⟩ : Status).print shipped).returns := by decide +kernel
example : (⟨0x24000013, 1, Timestamp.zero, 0, 0, []⟩ : Status).print shipped = .fatal := by decide +kernel
example : (⟨0x23080000, 1, { Timestamp.zero with header := 6 }, 0, []⟩ : Data).print shipped = .fatal := by decide +kernel
example : ({ DirEnt.zero with header := 0x8000 } : DirEnt).print shipped = .ret () ∧
    DirEnt.zero.print shipped = .fatal := by decide +kernel

end Saratoga
