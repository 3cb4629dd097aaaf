import Verif.Lemmas.MetaNew
import Verif.Props.Global
/-!
# C35: the descriptor and checksum of metadata built from a file; C14 for metadata
-/
namespace Saratoga

theorem pickDesc_fits (s : BitVec 64) : s.toNat < 2 ^ descBits (pickDesc s) := by
  have h0 := s.isLt
  unfold pickDesc
  split
  · rename_i h; rw [BitVec.lt_def] at h
    have e : (0xFFFF#64).toNat = 65535 := rfl
    rw [e] at h
    show s.toNat < 2 ^ 16; omega
  · split
    · rename_i h; rw [BitVec.lt_def] at h
      have e : (0xFFFFFFFF#64).toNat = 4294967295 := rfl
      rw [e] at h
      show s.toNat < 2 ^ 32; omega
    · split
      · show s.toNat < 2 ^ 64; omega
      · show s.toNat < 2 ^ 128; omega

/-- **C35** The descriptor chosen for the directory entry can hold the size `Lstat` reports (so every
offset of the file), and the entry is for that path. -/
theorem C35_descriptor (env : FileEnv) (m x : MetaData) (text : String) (info : Minfo)
    (built : m.new shipped env text info = .ret (x, none)) :
    ∃ fi desc, env.lstat info.fname = .ok fi ∧ getDStr shipped x.dir.header "descriptor" = .ret desc ∧
      fi.size.toNat < 2 ^ descBits desc ∧ x.dir.path = info.fname := by
  unfold MetaData.new at built
  obtain ⟨h1, a1, built⟩ := Out.bind_eq_ret built
  obtain ⟨h2, a2, built⟩ := Out.bind_eq_ret built
  obtain ⟨⟨⟨d', cs⟩, e⟩, a3, built⟩ := Out.bind_eq_ret built
  cases e with
  | some e => cases built
  | none =>
    obtain ⟨fi, p, d, b1, b2, b3, b4, b5, b6, _⟩ := MetaData.finish_ok built
    obtain ⟨_, c2, c3, _⟩ := DirEnt.new_metaFlags_ok (kindName_mem b2) (pickDesc_mem _) b3
    refine ⟨fi, pickDesc fi.size, b1, ?_, pickDesc_fits _, ?_⟩
    · rw [b6]
      simp only
      rw [c2]
      exact (freshHeader_strs _ (kindName_mem b2) _ (pickDesc_mem _)).2
    · rw [b6]; exact c3

/-- An environment with one file of ten bytes. -/
def tenBytes : FileEnv :=
  ⟨fun _ => .ok ⟨.regular, 10, ⟨1000000000, 0⟩, ⟨1000000000, 0⟩⟩,
    fun _ => .ret (.ok ⟨.regular, 10, ⟨1000000000, 0⟩, ⟨1000000000, 0⟩⟩),
    fun _ => .ok [7#8], fun _ => List.replicate 4 1#8, fun _ => List.replicate 16 2#8,
    fun _ => List.replicate 20 3#8, ⟨1000000000, 0⟩⟩

example : ∃ x, MetaData.zero.new shipped tenBytes "descriptor=d64,csumtype=md5" ⟨7, [97#8]⟩ = .ret (x, none) ∧
    x.checksum.length = 16 := ⟨_, rfl, by decide +kernel⟩

/-- **C35** The size in the entry is the size of the file (0 for a pipe) if both ways the code asks about
the file agree; so it fits the descriptor. -/
theorem C35_size (env : FileEnv) (m x : MetaData) (text : String) (info : Minfo) (fi : FileInfo)
    (lstat : env.lstat info.fname = .ok fi) (agree : env.fileMeta info.fname = .ret (.ok fi))
    (built : m.new shipped env text info = .ret (x, none)) :
    x.dir.size = (if fi.mode = .pipe then 0 else fi.size) ∧
    ∃ desc, getDStr shipped x.dir.header "descriptor" = .ret desc ∧ x.dir.size.toNat < 2 ^ descBits desc := by
  unfold MetaData.new at built
  obtain ⟨h1, a1, built⟩ := Out.bind_eq_ret built
  obtain ⟨h2, a2, built⟩ := Out.bind_eq_ret built
  obtain ⟨⟨⟨d', cs⟩, e⟩, a3, built⟩ := Out.bind_eq_ret built
  cases e with
  | some e => cases built
  | none =>
    obtain ⟨fi', p, d, b1, b2, b3, b4, b5, b6, _⟩ := MetaData.finish_ok built
    rw [lstat] at b1
    cases b1
    obtain ⟨_, c2, c3, c4⟩ := DirEnt.new_metaFlags_ok (kindName_mem b2) (pickDesc_mem _) b3
    have hsize : x.dir.size = (if fi.mode = .pipe then 0 else fi.size) := by
      rw [b6]
      simp only
      rcases c4 with ⟨hp, hz⟩ | ⟨hp, fi', g1, g2, _⟩
      · rw [if_pos, hz]
        subst hp
        cases hm : fi.mode <;> rw [hm] at b2 <;> simp [kindName] at b2
      · rw [agree] at g1
        cases g1
        rw [if_neg, g2]
        intro hm
        rw [hm] at b2
        simp only [kindName, Option.some.injEq] at b2
        exact hp b2.symm
    refine ⟨hsize, pickDesc fi.size, ?_, ?_⟩
    · rw [b6]
      simp only
      rw [c2]
      exact (freshHeader_strs _ (kindName_mem b2) _ (pickDesc_mem _)).2
    · have := pickDesc_fits fi.size
      rw [hsize]
      split
      · exact Nat.two_pow_pos _
      · exact this

/-- **C35** fails if the working directory is not the Saratoga directory: `Lstat` sees one file and
`FileMeta` another, and the entry then cannot be sent. -/
theorem C35_counterexample : ∃ (env : FileEnv) (x : MetaData),
    MetaData.zero.new shipped env "csumtype=none" ⟨1, [97#8]⟩ = .ret (x, none) ∧
    getDStr shipped x.dir.header "descriptor" = .ret "d16" ∧ x.dir.size.toNat = 100000 ∧
    ∃ e, x.dir.encode shipped = .ret (.error e) := by
  refine ⟨⟨fun _ => .ok ⟨.regular, 10, ⟨1000000000, 0⟩, ⟨1000000000, 0⟩⟩,
    fun _ => .ret (.ok ⟨.regular, 100000, ⟨1000000000, 0⟩, ⟨1000000000, 0⟩⟩),
    fun _ => .ok [], id, id, id, ⟨1000000000, 0⟩⟩, _, rfl, ?_, ?_, _, rfl⟩ <;> decide +kernel

/-! ### Checksum length -/

theorem value_csumlen {c : String} {h : BitVec 32} (hs : getStr shipped h "csumlen" = .ret c) :
    value shipped "csumlen" c = (get shipped h "csumlen").toNat := by
  have wf : (shipped.flag "csumlen").WF := by decide +kernel
  have := (C07_getStr_iff shipped "csumlen" wf h c).1 hs
  unfold value
  rw [assoc_of_mem wf.2.2.2 this]

theorem fileChecksum_length {env : FileEnv} {c : String} {fname b : List Byte}
    (h : fileChecksum shipped env c fname = .ok b) :
    c ≠ "" ∧ (b.length : Int) = 4 * value shipped "csumlen" c := by
  unfold fileChecksum at h
  cases ho : env.openRead fname with
  | error e => rw [ho] at h; cases h
  | ok content =>
    rw [ho] at h
    simp only at h
    split at h
    · rename_i hc
      cases h
      subst hc
      exact ⟨by decide, by decide +kernel⟩
    · split at h
      · cases h
      · rename_i hsome
        split at h
        · cases h
        · split at h
          · cases h
          · rename_i _ hlen
            cases h
            refine ⟨?_, by simp only [ne_eq, Decidable.not_not] at hlen; omega⟩
            intro hc
            subst hc
            simp at hsome

/-- **C35** The checksum length announced in the header is the length of the checksum carried, for every
text, file and checksum type, if the variable was fresh (no checksum yet, its fields zero). -/
theorem C35_checksum_partial (env : FileEnv) (m x : MetaData) (text : String) (info : Minfo)
    (noChecksum : m.checksum = []) (len0 : get shipped m.header "csumlen" = 0)
    (built : m.new shipped env text info = .ret (x, none)) :
    x.checksum.length = 4 * (get shipped x.header "csumlen").toNat := by
  have sep := C11_shipped_separated.2.2.2.1
  unfold MetaData.new at built
  obtain ⟨h1, a1, built⟩ := Out.bind_eq_ret built
  obtain ⟨h2, a2, built⟩ := Out.bind_eq_ret built
  obtain ⟨⟨⟨d', cs⟩, e⟩, a3, built⟩ := Out.bind_eq_ret built
  cases e with
  | some e => cases built
  | none =>
    have k1 := ((set_carries sep (by decide) a1).2.1 "csumlen" (by decide) (by decide)).1
    have k2 := ((set_carries sep (by decide) a2).2.1 "csumlen" (by decide) (by decide)).1
    have inv := flagLoop_inv (fun s : MetaData × String => s.1.checksum = [] ∧
        (s.2 = "" ∧ get shipped s.1.header "csumlen" = 0 ∨
         getStr shipped s.1.header "csumlen" = .ret s.2 ∧ getStr shipped s.1.header "csumtype" = .ret s.2))
      (fun s f s' hI hs => by
        obtain ⟨hc, hI⟩ := hI
        unfold MetaData.newStep at hs
        simp only at hs
        split at hs
        · rename_i hn
          obtain ⟨v, _, hs⟩ := Out.bind_eq_ret hs
          obtain ⟨h', hset, hs⟩ := Out.bind_eq_ret hs
          cases hs
          have hf : first f ∈ metadataFields ∧ "csumlen" ≠ first f ∧ "csumtype" ≠ first f := by
            simp only [metadataNames, List.mem_cons, List.not_mem_nil, or_false] at hn
            rcases hn with h | h | h | h <;> rw [h] <;> decide
          have q := (set_carries sep hf.1 hset).2.1
          have q1 := q "csumlen" (by decide) hf.2.1
          have q2 := q "csumtype" (by decide) hf.2.2
          refine ⟨hc, ?_⟩
          simp only
          rw [q1.1, q1.2, q2.2]
          exact hI
        · split at hs
          · rename_i hn
            obtain ⟨v, _, hs⟩ := Out.bind_eq_ret hs
            obtain ⟨h', hset, hs⟩ := Out.bind_eq_ret hs
            obtain ⟨h'', hset', hs⟩ := Out.bind_eq_ret hs
            cases hs
            rw [hn] at hset
            have q1 := (set_carries sep (f := "csumtype") (by decide) hset).1
            have q2 := set_carries sep (f := "csumlen") (by decide) hset'
            refine ⟨hc, Or.inr ⟨q2.1, ?_⟩⟩
            simp only
            rw [(q2.2.1 "csumtype" (by decide) (by decide)).2]
            exact q1
          · cases hs)
      (by
        refine ⟨noChecksum, Or.inl ⟨rfl, ?_⟩⟩
        simp only
        rw [k2, k1]; exact len0) a3
    obtain ⟨hc, hI⟩ := inv
    simp only at hc hI
    obtain ⟨fi, p, d, _, _, _, b4, _, _, b7⟩ := MetaData.finish_ok built
    rw [b4]
    simp only at b7 ⊢
    rcases b7 with ⟨_, _, t1, t2⟩ | ⟨_, c, b, hcs, hf, hb⟩
    · rw [t2]
      rcases hI with ⟨_, h0⟩ | ⟨hl, ht⟩
      · rw [h0]; rfl
      · rw [t1] at ht
        cases ht
        have := value_csumlen hl
        rw [show value shipped "csumlen" "none" = 0 by decide +kernel] at this
        have h0 : (get shipped d'.header "csumlen").toNat = 0 := by omega
        rw [h0]; rfl
    · cases hcs
      obtain ⟨hne, hlen⟩ := fileChecksum_length hf
      have hx : x.checksum = b := by
        rw [hb, hc]
        split
        · rfl
        · rename_i h0
          exact (List.length_eq_zero_iff.1 (by omega)).symm
      rw [hx]
      rcases hI with ⟨h, _⟩ | ⟨hl, _⟩
      · exact absurd h hne
      · rw [value_csumlen hl] at hlen
        omega

/-- **C35** fails for a variable used before: the old checksum stays when the new frame has none. -/
theorem C35_checksum_counterexample : ∃ (env : FileEnv) (m x y : MetaData),
    m.new shipped env "csumtype=crc32" ⟨1, [97#8]⟩ = .ret (x, none) ∧
    x.new shipped env "csumtype=none" ⟨2, [98#8]⟩ = .ret (y, none) ∧
    (get shipped y.header "csumlen").toNat = 0 ∧ y.checksum.length = 4 := by
  refine ⟨⟨fun _ => .ok ⟨.regular, 10, ⟨1000000000, 0⟩, ⟨1000000000, 0⟩⟩,
    fun _ => .ret (.ok ⟨.regular, 10, ⟨1000000000, 0⟩, ⟨1000000000, 0⟩⟩),
    fun _ => .ok [], fun _ => [1#8, 2#8, 3#8, 4#8], id, id, ⟨1000000000, 0⟩⟩, MetaData.zero, _, _,
    rfl, rfl, ?_, ?_⟩ <;> decide +kernel

/-! ### C14 for metadata -/

theorem epoch_new {ts : GoTime} (h : 946684800 ≤ ts.sec ∧ ts.sec < 946684800 + 2 ^ 32 ∧ ts.nsec < 1000000000)
    (t : Timestamp) : ∃ t', t.new shipped "epoch2000_32" ts = .ret (t', none) := by
  obtain ⟨t', e, h1, h2⟩ := C18_epoch2000 shipped t "epoch2000_32" ts ⟨by omega, by omega, h.2.2⟩
    (by decide +kernel) (by decide +kernel)
  rw [h2.2 ⟨by omega, by omega⟩] at h1
  exact ⟨t', h1⟩

/-- The checksum a reader of the file computes. -/
def digest (env : FileEnv) (csumtype : String) (content : List Byte) : List Byte :=
  if csumtype = "crc32" then env.crc32 content
  else if csumtype = "md5" then env.md5 content
  else if csumtype = "sha1" then env.sha1 content
  else []

theorem valid_csumtype {v : String} (h : valid shipped "csumtype" v = true) :
    v = "none" ∨ v = "crc32" ∨ v = "md5" ∨ v = "sha1" := by
  obtain ⟨fl, x, h1, h2⟩ := valid_mem h
  have e : fl = ⟨4, 28, [("none", 0), ("crc32", 1), ("md5", 2), ("sha1", 3)]⟩ := by
    have := assoc_of_mem C09_keys_distinct.1 h1
    have e2 : assoc "csumtype" shipped.flags =
      some ⟨4, 28, [("none", 0), ("crc32", 1), ("md5", 2), ("sha1", 3)]⟩ := by decide +kernel
    rw [e2] at this
    cases this
    rfl
  subst e
  simp only [List.mem_cons, Prod.mk.injEq, List.not_mem_nil, or_false] at h2
  rcases h2 with ⟨h, _⟩ | ⟨h, _⟩ | ⟨h, _⟩ | ⟨h, _⟩
  · exact Or.inl h
  · exact Or.inr (Or.inl h)
  · exact Or.inr (Or.inr (Or.inl h))
  · exact Or.inr (Or.inr (Or.inr h))

theorem fileChecksum_good {env : FileEnv} {fname content : List Byte} {fi : FileInfo}
    (rf : ReadableFile env fname fi content) {v : String} (h : valid shipped "csumtype" v = true) :
    fileChecksum shipped env v fname = .ok (digest env v content) := by
  have e1 : value shipped "csumlen" "crc32" = 1 := by decide +kernel
  have e2 : value shipped "csumlen" "md5" = 4 := by decide +kernel
  have e3 : value shipped "csumlen" "sha1" = 5 := by decide +kernel
  unfold fileChecksum digest
  rw [rf.openRead]
  rcases valid_csumtype h with rfl | rfl | rfl | rfl
  · simp
  · simp [e1, rf.crc32]
  · simp [e2, rf.md5]
  · simp [e3, rf.sha1]

theorem metaStatfile_good {env : FileEnv} {fname content : List Byte} {fi : FileInfo}
    (rf : ReadableFile env fname fi content) {h : BitVec 32} (ht : getStr shipped h "transfer" = .ret "file") :
    metaStatfile shipped env fname h = .ret (metaFlags "normalfile" (pickDesc fi.size), none) := by
  unfold metaStatfile
  rw [rf.lstat]
  have hk : kindName fi.mode = some "normalfile" := by rw [rf.regular]; rfl
  simp only [hk]
  rw [bind3, metaFlags_eq _ (by decide) _ (pickDesc_mem _), Out.ret_bind, ht, Out.ret_bind]
  simp [rf.regular]

/-- The tail of `New` on a readable file. -/
theorem MetaData.finish_good {env : FileEnv} {fname content : List Byte} {fi : FileInfo}
    (rf : ReadableFile env fname fi content) {m : MetaData} {v : String}
    (ht : getStr shipped m.header "transfer" = .ret "file") (h : valid shipped "csumtype" v = true) :
    ∃ x, MetaData.finish shipped env m (.ret v) fname = .ret (x, none) := by
  obtain ⟨mt, h1⟩ := epoch_new rf.mtime Timestamp.zero
  obtain ⟨ct, h2⟩ := epoch_new rf.ctime Timestamp.zero
  have hd : DirEnt.zero.new shipped env (metaFlags "normalfile" (pickDesc fi.size)) fname =
      .ret (⟨freshHeader "normalfile" (pickDesc fi.size), fi.size, mt, ct, fname⟩, none) := by
    rw [DirEnt.new_metaFlags (by decide) (pickDesc_mem _), if_neg (by have := rf.short; omega),
      if_neg (by decide)]
    have hst : ({ DirEnt.zero with header := freshHeader "normalfile" (pickDesc fi.size) } : DirEnt).statfile
        shipped env fname = .ret (⟨freshHeader "normalfile" (pickDesc fi.size), fi.size, mt, ct, []⟩, none) := by
      unfold DirEnt.statfile
      simp only [rf.fileMeta, Out.ret_bind, DirEnt.zero, h1, h2, Out.pure_eq]
    unfold direntFile
    rw [hst]
    rfl
  unfold MetaData.finish
  simp only [metaStatfile_good rf ht, Out.ret_bind, hd, ht, fileChecksum_good rf h]
  rw [if_pos (by decide)]
  split <;> exact ⟨_, rfl⟩

/-- The checksum type `MetaData.New` remembers is the last one in the text. -/
theorem MetaData.loop_csum {T : Tables} {s s' : MetaData × String} {parts : List String}
    (ok : flagLoop (MetaData.newStep T) s parts = .ret (s', none)) :
    s'.2 = (lastValue "csumtype" ((parts.map fun p => partOf (strSplit p '=')).flatMap
      metadataAssigns)).getD s.2 := by
  induction parts generalizing s with
  | nil => simp [flagLoop] at ok; subst ok; rfl
  | cons p t ih =>
    unfold flagLoop at ok
    obtain ⟨⟨s1, e⟩, h1, ok⟩ := Out.bind_eq_ret ok
    cases e with
    | some e => cases ok
    | none =>
      have := ih ok
      rw [this, List.map_cons, List.flatMap_cons, lastValue_append]
      cases hl : lastValue "csumtype" ((t.map fun p => partOf (strSplit p '=')).flatMap metadataAssigns) with
      | some w => rfl
      | none =>
        simp only [Option.getD_none]
        unfold MetaData.newStep at h1
        simp only [first_partOf] at h1
        split at h1
        · rename_i hn
          obtain ⟨v, _, h1⟩ := Out.bind_eq_ret h1
          obtain ⟨h', _, h1⟩ := Out.bind_eq_ret h1
          cases h1
          simp only [metadataNames, List.mem_cons, List.not_mem_nil, or_false] at hn
          rcases hn with h | h | h | h <;> simp [metadataAssigns, h, lastValue]
        · split at h1
          · rename_i hn
            obtain ⟨v, hv, h1⟩ := Out.bind_eq_ret h1
            obtain ⟨h', _, h1⟩ := Out.bind_eq_ret h1
            obtain ⟨h'', _, h1⟩ := Out.bind_eq_ret h1
            cases h1
            simp [metadataAssigns, hn, lastValue, second_ret hv]
          · cases h1

theorem lastValue_mem {f v : String} {ps : List (String × String)} (h : lastValue f ps = some v) :
    (f, v) ∈ ps := by
  induction ps with
  | nil => cases h
  | cons p t ih =>
    obtain ⟨g, w⟩ := p
    simp only [lastValue] at h
    cases ht : lastValue f t with
    | some u => rw [ht] at h; simp only at h; cases h; exact List.mem_cons_of_mem _ (ih ht)
    | none =>
      rw [ht] at h
      simp only at h
      split at h
      · rename_i e; cases h; subst e; simp
      · cases h

/-- **C14** Metadata frames, for a file that can be read and a variable whose transfer type is `file`
(such as a fresh one): the settings show in the header, and the frame carries the checksum of the
configured type and the size of the file. -/
theorem C14_metadata (gl : List (String × String)) (ok : ValidGlobal shipped gl) (env : FileEnv)
    (d : MetaData) (info : Minfo) (fi : FileInfo) (content : List Byte)
    (file : ReadableFile env info.fname fi content)
    (transfer : getStr shipped d.header "transfer" = .ret "file") (fresh : d.checksum = []) :
    ∃ x, d.new shipped env (setglobal shipped "metadata" gl) info = .ret (x, none) ∧
      (∀ f v, f ∈ values shipped "metadata" → (f, v) ∈ gl → getStr shipped x.header f = .ret v) ∧
      (∀ v, ("csumtype", v) ∈ gl → x.checksum = digest env v content) ∧ x.dir.size = fi.size := by
  have sep := C11_shipped_separated.2.2.2.1
  have hne := settings_ne (ft := "metadata") ok (by decide +kernel)
  have hpl := settings_plain (ft := "metadata") ok
  have key : ∀ f ∈ values shipped "metadata", f ∈ globalKeys → f = "descriptor" ∨ f = "csumtype" := by
    decide +kernel
  have both : ∀ o ∈ (shipped.flag "csumtype").options, valid shipped "csumlen" o.1 = true := by
    decide +kernel
  have hparts : textParts (stripSpaces (setglobal shipped "metadata" gl)) =
      (settingsFor shipped "metadata" gl).map fun p => (p.1, some p.2) := by
    have := flagParts_render hpl hne
    rw [← C14_text _ _ ok] at this
    exact this
  have hvalid : ∀ p ∈ settingsFor shipped "metadata" gl, metadataVerdict shipped (p.1, some p.2) = .ok := by
    intro p hp
    obtain ⟨f, w⟩ := p
    obtain ⟨h1, h2⟩ := (settingsFor_mem ok.1).1 hp
    have hval : valid shipped f w = true := ok.2.2.2 _ h2
    rcases key f h1 (ok.2.1 _ h2) with rfl | rfl
    · simp [metadataVerdict, settable, hval]
    · have hl : valid shipped "csumlen" w = true := by
        rcases valid_csumtype hval with rfl | rfl | rfl | rfl <;> decide +kernel
      simp [metadataVerdict, hval, hl]
  obtain ⟨h1, h2, a1, a2⟩ := set_version C12_shipped_basic (ft := "metadata") (by decide) d.header
  have hverd : (flagLoop (MetaData.newStep shipped) ({ d with header := h2 }, "")
      (strSplit (stripSpaces (setglobal shipped "metadata" gl)) ',')).verdict = .ok := by
    rw [flagLoop_verdict (MetaData.newStep_verdict (T := shipped)), ← textParts_eq, hparts, firstBad_ok]
    intro v hv
    simp only [List.mem_map] at hv
    obtain ⟨_, ⟨p, hp, rfl⟩, rfl⟩ := hv
    exact hvalid p hp
  obtain ⟨⟨m, cs⟩, hb⟩ := verdict_ok hverd
  obtain ⟨c, hcgl⟩ := ok.2.2.1 "csumtype" (by decide)
  have hcval : valid shipped "csumtype" c = true := ok.2.2.2 _ hcgl
  -- what the text assigns
  have hlast : ∀ f v, f ∈ values shipped "metadata" → (f, v) ∈ gl →
      lastValue f (((settingsFor shipped "metadata" gl).map fun p => (p.1, some p.2)).flatMap
        metadataAssigns) = some v := by
    intro f v hf hg
    have hk := key f hf (ok.2.1 _ hg)
    apply lastValue_eq_some
    · rw [List.mem_flatMap]
      refine ⟨(f, some v), List.mem_map.2 ⟨(f, v), (settingsFor_mem ok.1).2 ⟨hf, hg⟩, rfl⟩, ?_⟩
      rcases hk with rfl | rfl <;> simp [metadataAssigns]
    · intro w hw
      rw [List.mem_flatMap] at hw
      obtain ⟨q, hq, hw⟩ := hw
      obtain ⟨⟨g, u⟩, hp, rfl⟩ := List.mem_map.1 hq
      obtain ⟨g1, g2⟩ := (settingsFor_mem ok.1).1 hp
      rcases key g g1 (ok.2.1 _ g2) with rfl | rfl
      · simp only [metadataAssigns, show ¬ ("descriptor" = "csumtype") by decide, if_false] at hw
        simp at hw
        obtain ⟨rfl, rfl⟩ := hw
        exact settings_unique ok hg hp
      · simp only [metadataAssigns, if_true, Option.getD_some, List.mem_cons, Prod.mk.injEq,
          List.not_mem_nil, or_false] at hw
        rcases hw with ⟨rfl, rfl⟩ | ⟨rfl, rfl⟩
        · exact settings_unique ok hg hp
        · rcases hk with h | h <;> simp at h
  have hcs : cs = c := by
    have := MetaData.loop_csum hb
    rw [← textParts_eq, hparts, hlast "csumtype" c (by decide +kernel) hcgl] at this
    exact this
  subst hcs
  have hin : ∀ p ∈ (((settingsFor shipped "metadata" gl).map fun p => (p.1, some p.2)).flatMap
        metadataAssigns), p.1 ∈ metadataFields ∧ p.1 ≠ "transfer" := by
    intro p hp
    rw [List.mem_flatMap] at hp
    obtain ⟨q, hq, hw⟩ := hp
    obtain ⟨⟨g, u⟩, hp, rfl⟩ := List.mem_map.1 hq
    obtain ⟨g1, g2⟩ := (settingsFor_mem ok.1).1 hp
    rcases key g g1 (ok.2.1 _ g2) with rfl | rfl
    · simp [metadataAssigns] at hw
      subst hw
      exact ⟨by simp [metadataFields], by simp⟩
    · simp [metadataAssigns] at hw
      rcases hw with rfl | rfl <;> exact ⟨by simp [metadataFields], by simp⟩
  have k := flagLoop_setFlags (T := shipped) (hdr := fun s : MetaData × String => s.1.header)
    (assign := metadataAssigns) (fun s f s' h => MetaData.newStep_assigns h) hb
  rw [← textParts_eq, hparts] at k
  have hc := setFlags_carries sep (fun p hp => (hin p hp).1) k
  have hnotr : lastValue "transfer" (((settingsFor shipped "metadata" gl).map fun p => (p.1, some p.2)).flatMap
        metadataAssigns) = none := by
    cases hl : lastValue "transfer" (((settingsFor shipped "metadata" gl).map fun p =>
        (p.1, some p.2)).flatMap metadataAssigns) with
    | none => rfl
    | some w => exact absurd rfl (hin _ (lastValue_mem hl)).2
  have htr : getStr shipped m.header "transfer" = .ret "file" := by
    have g1 := hc.2.1 "transfer" (by decide) hnotr
    have g2 := ((set_carries sep (by decide) a2).2.1 "transfer" (by decide) (by decide)).1
    have g3 := ((set_carries sep (by decide) a1).2.1 "transfer" (by decide) (by decide)).1
    rw [← transfer]
    unfold getStr
    simp only at g1
    rw [g1, g2, g3]
  obtain ⟨x, hfin⟩ := MetaData.finish_good file (m := { m with session := info.session }) htr hcval
  have hx : d.new shipped env (setglobal shipped "metadata" gl) info = .ret (x, none) := by
    unfold MetaData.new
    simp only [a1, a2, Out.ret_bind, hb, hfin]
  have hmc : m.checksum = [] := by
    have := flagLoop_inv (fun s : MetaData × String => s.1.checksum = []) (fun s f s' hI hs => by
      unfold MetaData.newStep at hs
      simp only at hs
      split at hs
      · obtain ⟨v, _, hs⟩ := Out.bind_eq_ret hs
        obtain ⟨h', hset, hs⟩ := Out.bind_eq_ret hs
        cases hs
        exact hI
      · split at hs
        · obtain ⟨v, _, hs⟩ := Out.bind_eq_ret hs
          obtain ⟨h', hset, hs⟩ := Out.bind_eq_ret hs
          obtain ⟨h'', hset', hs⟩ := Out.bind_eq_ret hs
          cases hs
          exact hI
        · cases hs) (by exact fresh) hb
    exact this
  obtain ⟨fi', p, de, b1, b2, b3, b4, b5, b6, b7⟩ := MetaData.finish_ok hfin
  refine ⟨x, hx, ?_, ?_, ?_⟩
  · intro f v hf hg
    rw [b4]
    have hk := key f hf (ok.2.1 _ hg)
    exact hc.1 f (by rcases hk with rfl | rfl <;> decide) v (hlast f v hf hg)
  · intro v hv
    have hvc : v = cs := by
      have e1 := assoc_of_mem ok.1 hv
      rw [assoc_of_mem ok.1 hcgl] at e1
      cases e1; rfl
    subst hvc
    rcases b7 with ⟨t, _⟩ | ⟨_, c', b, hcs, hf, hb⟩
    · simp only at t
      rw [htr] at t; simp at t
    · cases hcs
      rw [fileChecksum_good file hcval] at hf
      cases hf
      rw [hb]
      simp only [hmc]
      split
      · rfl
      · rename_i h0
        exact (List.length_eq_zero_iff.1 (by omega)).symm
  · have := (C35_size env d x _ info fi file.lstat file.fileMeta hx).1
    rw [this, file.regular]
    rfl

/-- A file that meets the conditions. -/
example : ReadableFile ⟨fun _ => .ok ⟨.regular, 10, ⟨1000000000, 0⟩, ⟨1000000000, 0⟩⟩,
    fun _ => .ret (.ok ⟨.regular, 10, ⟨1000000000, 0⟩, ⟨1000000000, 0⟩⟩),
    fun _ => .ok [7#8], fun _ => List.replicate 4 1#8, fun _ => List.replicate 16 2#8,
    fun _ => List.replicate 20 3#8, ⟨1000000000, 0⟩⟩ [97#8]
    ⟨.regular, 10, ⟨1000000000, 0⟩, ⟨1000000000, 0⟩⟩ [7#8] :=
  ⟨rfl, rfl, rfl, by decide, by decide, rfl, by decide, by decide, by decide, by decide⟩

example : getStr shipped MetaData.zero.header "transfer" = .ret "file" := by decide +kernel

/-- **C35** End to end: metadata of a fresh variable about a readable file of at most 2^32-1 bytes with
an ASCII name survives the wire whole. -/
theorem C35_file_announced (gl : List (String × String)) (ok : ValidGlobal shipped gl) (env : FileEnv)
    (m0 : MetaData) (info : Minfo) (fi : FileInfo) (content : List Byte)
    (file : ReadableFile env info.fname fi content) (small : fi.size.toNat < 2 ^ 32)
    (noNul : NoNul info.fname) (ascii : Ascii info.fname) :
    ∃ x frame, MetaData.zero.new shipped env (setglobal shipped "metadata" gl) info = .ret (x, none) ∧
      x.encode shipped = .ret frame ∧ m0.decode shipped frame = .ret (x, none) ∧
      x.dir.path = info.fname ∧ x.dir.size = fi.size := by
  obtain ⟨x, hx, _, _, hsz⟩ := C14_metadata gl ok env MetaData.zero info fi content file (by decide +kernel) rfl
  have agree := C35_checksum_partial env MetaData.zero x _ info rfl (by decide +kernel) hx
  have hx0 := hx
  unfold MetaData.new at hx
  obtain ⟨h1, a1, hx⟩ := Out.bind_eq_ret hx
  obtain ⟨h2, a2, hx⟩ := Out.bind_eq_ret hx
  obtain ⟨⟨⟨d', cs⟩, e⟩, a3, hx⟩ := Out.bind_eq_ret hx
  cases e with
  | some e => cases hx
  | none =>
    obtain ⟨fi', p, d, b1, b2, b3, b4, b5, b6, _⟩ := MetaData.finish_ok hx
    rw [file.lstat] at b1
    cases b1
    obtain ⟨c1, c2, c3, c4⟩ := DirEnt.new_metaFlags_ok (kindName_mem b2) (pickDesc_mem _) b3
    rw [file.regular] at b2
    simp only [kindName, Option.some.injEq] at b2
    subst b2
    rcases c4 with ⟨h, _⟩ | ⟨_, fi', g1, g2, g3, g4⟩
    · simp at h
    · have hw : HasWidthD shipped x.dir.header
          (if pickDesc fi.size = "d16" then 2 else if pickDesc fi.size = "d32" then 4 else 8) ∧
          x.dir.size.toNat ≤ direntMax
          (if pickDesc fi.size = "d16" then 2 else if pickDesc fi.size = "d32" then 4 else 8) := by
        have hs := (freshHeader_strs "normalfile" (by decide) _ (pickDesc_mem fi.size)).2
        rw [hsz]
        rw [show x.dir.header = freshHeader "normalfile" (pickDesc fi.size) by rw [b6]; exact c2]
        have h1 := pickDesc_fits fi.size
        unfold HasWidthD
        rw [hs]
        have hne : pickDesc fi.size ≠ "d128" := by
          unfold pickDesc
          split
          · decide
          · split
            · decide
            · split
              · decide
              · rename_i h
                rw [BitVec.lt_def] at h
                have e : (0xFFFFFFFFFFFFFFFF#64).toNat = 18446744073709551615 := rfl
                rw [e] at h
                omega
        have hm := pickDesc_mem fi.size
        simp only [descNames, List.mem_cons, List.not_mem_nil, or_false] at hm
        rcases hm with h | h | h | h
        · rw [h] at h1 ⊢
          exact ⟨⟨_, rfl, rfl⟩, by
            have e : descBits "d16" = 16 := by decide
            rw [e] at h1
            show _ ≤ 65535
            omega⟩
        · rw [h] at h1 ⊢
          exact ⟨⟨_, rfl, rfl⟩, by show _ ≤ 4294967295; omega⟩
        · rw [h] at h1 ⊢
          exact ⟨⟨_, rfl, rfl⟩, by show _ ≤ 4294967295; omega⟩
        · exact absurd h hne
      have hstamp : EpochStamp shipped d.ctime := by
        have hwf : shipped.ts.WF := C09_ts_wf
        have hstrip : stripSpaces "epoch2000_32" = "epoch2000_32" := by decide +kernel
        obtain ⟨q1, _, q3, q4, q5, _⟩ := new_wire hwf (by rw [hstrip]; decide) (by rw [hstrip]; simp) g4
        obtain ⟨q6, q7⟩ := new_header hwf g4
        rw [hstrip] at q6 q7
        obtain ⟨v, hd, r1, r2, _, _, _, _, r3⟩ := new_ret g4
        obtain ⟨_, r4⟩ := r3 hstrip rfl
        simp only at r4
        rw [hstrip] at r1
        refine ⟨q6, ?_, q7, q3, q5 (by simp [q7]), q4 (by simp [q7])⟩
        rw [setT_eq r1, r4, r2]
      have hpath : x.dir.path = info.fname := by rw [b6]; exact c3
      obtain ⟨frame, f1, f2⟩ := C23_round_trip_whole shipped x m0 _ (by decide +kernel) agree hw.1 hw.2
        (by rw [hpath]; exact c1) (by rw [hpath]; exact noNul) (by rw [hpath]; exact ascii)
        (by rw [b6]; exact hstamp) (by rw [b6]; exact hstamp)
      exact ⟨x, frame, hx0, f1, f2, hpath, hsz⟩

/-- **C35**, **C24** A readable file of 2^32 bytes or more is announced by a frame without its directory
entry, and every receiver answers with an error, although `New` and `Encode` succeed. -/
theorem C35_large_file_not_announced (gl : List (String × String)) (ok : ValidGlobal shipped gl)
    (env : FileEnv) (m0 : MetaData) (info : Minfo) (fi : FileInfo) (content : List Byte)
    (file : ReadableFile env info.fname fi content) (large : 2 ^ 32 ≤ fi.size.toNat) :
    ∃ x frame y, MetaData.zero.new shipped env (setglobal shipped "metadata" gl) info = .ret (x, none) ∧
      x.encode shipped = .ret frame ∧ frame.length = 8 + x.checksum.length ∧
      m0.decode shipped frame = .ret (y, some "DirEntGet - Entry too short") := by
  obtain ⟨x, hx, _, _, hsz⟩ := C14_metadata gl ok env MetaData.zero info fi content file (by decide +kernel) rfl
  have agree := C35_checksum_partial env MetaData.zero x _ info rfl (by decide +kernel) hx
  have hno : ¬ ∃ b, x.dir.encode shipped = .ret (.ok b) := by
    rw [C22_encodable_iff]
    rintro ⟨n, _, _, h⟩
    rw [hsz] at h
    unfold direntMax at h
    split at h <;> omega
  have hret : ∃ r, x.dir.encode shipped = .ret r := by
    unfold DirEnt.encode at hno ⊢
    rw [getDStr_descriptor] at hno ⊢
    simp only [Out.ret_bind] at hno ⊢
    split
    · split <;> exact ⟨_, rfl⟩
    · cases hd : descSize (descNameOf (direntDescNumber x.dir.header)) with
      | none => exact ⟨_, rfl⟩
      | some n =>
        simp only
        split
        · exact ⟨_, rfl⟩
        · have hc := descSize_cases hd
          rw [if_pos]
          · exact ⟨_, rfl⟩
          · apply Decidable.byContradiction
            intro h
            have := (gt_limit_iff hc).1 h
            rw [hsz] at this
            unfold direntMax at this
            split at this <;> omega
  obtain ⟨r, hr⟩ := hret
  cases r with
  | ok b => exact absurd ⟨b, hr⟩ hno
  | error e =>
    obtain ⟨frame, y, h1, h2, h3⟩ := C24_dropped_partial shipped x m0 e agree hr
    exact ⟨x, frame, y, hx, h1, h2, h3⟩

end Saratoga
