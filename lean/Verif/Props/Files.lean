import Verif.Lemmas.Files
/-! # Local files: C55, C56, C57, C58, C63, C64 -/
namespace Saratoga

/-! ## a file system for the examples -/

/-- `/data/f` with two bytes in it, and a file outside the shared directory. -/
def exFS : FS where
  nodes := [([], .dir), ([[0x64#8]], .dir), ([[0x64#8], [0x66#8]], .file [7#8, 8#8]), ([[0x78#8]], .file [9#8])]
  cwd := []
  refuses := fun _ _ => false

/-- "/d" -/
def exDir : List Byte := [slash, 0x64#8]
/-- "f" -/
def exName : List Byte := [0x66#8]

/-! ## C55 -/

/-- **C55** is false: a file that exists is opened for receiving without complaint and its bytes are
gone. -/
theorem C55_counterexample :
    exFS.node [[0x64#8], [0x66#8]] = some (.file [7#8, 8#8]) ∧
    exFS.locate (fullName exDir exName) = some [[0x64#8], [0x66#8]] ∧
    ∃ h, (fileOpen exDir exFS exName "get").2 = .ok (some h) ∧
      (fileOpen exDir exFS exName "get").1.node [[0x64#8], [0x66#8]] = some (.file []) := by
  refine ⟨by decide +kernel, by decide +kernel, ⟨⟨fullName exDir exName, [[0x64#8], [0x66#8]], true⟩, ?_, ?_⟩⟩
  · rfl
  · rfl

/-- **C55** is false in general: whatever the file held, it is cut to nothing, unless the directory name
followed by the full name happens to exist too or the operating system refuses. -/
theorem C55_overwrites (sardir fname : List Byte) (fs : FS) (ttype : String) (l : Loc) (c : List Byte)
    (ht : ttype = "get" ∨ ttype = "take")
    (hl : fs.locate (fullName sardir fname) = some l) (hn : fs.node l = some (.file c))
    (hr : fs.refuses .create l = false)
    (hx : fileExists sardir fs (fullName sardir fname) = false) :
    ∃ h, (fileOpen sardir fs fname ttype).2 = .ok (some h) ∧ h.loc = l ∧
      (fileOpen sardir fs fname ttype).1.node l = some (.file []) := by
  have e : fs.create (fullName sardir fname) =
      (fs.put l (.file []), .ok ⟨fullName sardir fname, l, true⟩) := by
    unfold FS.create
    simp only [hl, hr, hn, Bool.false_eq_true, if_false]
  refine ⟨⟨fullName sardir fname, l, true⟩, ?_⟩
  unfold fileOpen
  simp only [ht, if_true, hx, Bool.false_eq_true, if_false, e]
  exact ⟨trivial, trivial, node_put_self _ _ _⟩

/-- **C55** what holds: opening to receive is refused with "already exists" exactly when the doubled name
exists, and then nothing changes; otherwise nothing changes except at the file that is opened, and an
opened file is empty if it is a file at all.  Missing: an existing file is not protected. -/
theorem C55_partial (sardir fname : List Byte) (fs : FS) (ttype : String)
    (ht : ttype = "get" ∨ ttype = "take") :
    (fileExists sardir fs (fullName sardir fname) = true →
      fileOpen sardir fs fname ttype = (fs, .error "file already exists")) ∧
    (fileExists sardir fs (fullName sardir fname) = false →
      ∀ fs' r, fileOpen sardir fs fname ttype = (fs', r) →
        (∀ e, r = .error e → ∀ m, fs'.node m = fs.node m) ∧
        (r ≠ .ok none) ∧
        ∀ h, r = .ok (some h) → fs.locate (fullName sardir fname) = some h.loc ∧ h.writable = true ∧
          SameExceptAt h.loc fs fs' ∧
          (fs.node h.loc = some .other ∨ fs'.node h.loc = some (.file []))) := by
  refine ⟨?_, ?_⟩
  · intro hx
    unfold fileOpen
    simp only [ht, if_true, hx]
  · intro hx fs' r hr
    unfold fileOpen at hr
    simp only [ht, if_true, hx, Bool.false_eq_true, if_false] at hr
    unfold FS.create at hr
    cases hl : fs.locate (fullName sardir fname) with
    | none => simp only [hl] at hr; cases hr; simp
    | some l =>
      simp only [hl] at hr
      by_cases h1 : fs.refuses .create l = true
      · simp only [h1, if_true] at hr; cases hr; simp
      · simp only [h1, Bool.false_eq_true, if_false] at hr
        cases hn : fs.node l with
        | none =>
          simp only [hn] at hr
          cases hr
          refine ⟨by simp, by simp, ?_⟩
          intro h hh
          simp only [Except.ok.injEq, Option.some.injEq] at hh
          subst hh
          exact ⟨rfl, rfl, fun m hm => node_put_other _ _ _ _ hm, .inr (node_put_self _ _ _)⟩
        | some n =>
          cases n with
          | dir => simp only [hn] at hr; cases hr; simp
          | other =>
            simp only [hn] at hr
            cases hr
            refine ⟨by simp, by simp, ?_⟩
            intro h hh
            simp only [Except.ok.injEq, Option.some.injEq] at hh
            subst hh
            exact ⟨rfl, rfl, fun m _ => rfl, .inl hn⟩
          | file c =>
            simp only [hn] at hr
            cases hr
            refine ⟨by simp, by simp, ?_⟩
            intro h hh
            simp only [Except.ok.injEq, Option.some.injEq] at hh
            subst hh
            exact ⟨rfl, rfl, fun m hm => node_put_other _ _ _ _ hm, .inr (node_put_self _ _ _)⟩

/-- The hypotheses of `C55_overwrites` are met. -/
example : fileExists exDir exFS (fullName exDir exName) = false ∧
    fileExists exDir exFS exName = true := by decide +kernel

/-! ## C56 -/

/-- **C56** A completed write stores exactly: the new bytes in their range, zeros in a gap up to it, the
old bytes everywhere else; no other file changes. -/
theorem C56_written_exactly (fs : FS) (h : Handle) (pos : BitVec 64) (buf c : List Byte)
    (hw : h.writable = true) (hn : fs.node h.loc = some (.file c)) (hp : pos.toNat < 2 ^ 63) :
    (fileWrite fs (some h) pos buf none).2 = (buf.length, none) ∧
    (∃ c', (fileWrite fs (some h) pos buf none).1.node h.loc = some (.file c') ∧
      ∀ i, c'[i]? = byteAfter c pos.toNat buf i) ∧
    SameExceptAt h.loc fs (fileWrite fs (some h) pos buf none).1 := by
  rw [fileWrite_eq fs h pos buf c none hw hn hp]
  exact ⟨rfl, ⟨_, node_put_self _ _ _, fun i => writeAt_get c pos.toNat buf i⟩,
    fun m hm => node_put_other _ _ _ _ hm⟩

/-- **C56** A write that fails part way reports how many bytes it stored and stored exactly those. -/
theorem C56_short_write (fs : FS) (h : Handle) (pos : BitVec 64) (buf c : List Byte) (n : Nat)
    (hw : h.writable = true) (hn : fs.node h.loc = some (.file c)) (hp : pos.toNat < 2 ^ 63) :
    (fileWrite fs (some h) pos buf (some n)).2.1 = min n buf.length ∧
    (fileWrite fs (some h) pos buf (some n)).2.2 ≠ none ∧
    (∃ c', (fileWrite fs (some h) pos buf (some n)).1.node h.loc = some (.file c') ∧
      ∀ i, c'[i]? = byteAfter c pos.toNat (buf.take n) i) ∧
    SameExceptAt h.loc fs (fileWrite fs (some h) pos buf (some n)).1 := by
  rw [fileWrite_eq fs h pos buf c (some n) hw hn hp]
  exact ⟨by simp, by simp, ⟨_, node_put_self _ _ _, fun i => writeAt_get c pos.toNat _ i⟩,
    fun m hm => node_put_other _ _ _ _ hm⟩

/-- **C56** Reading gives the bytes stored from the position on, as many as asked for or as there are;
an error exactly when bytes were asked for and there are none. -/
theorem C56_read_exactly (fs : FS) (h : Handle) (pos : BitVec 64) (n : Nat) (c : List Byte)
    (hn : fs.node h.loc = some (.file c)) (hp : pos.toNat < 2 ^ 63) :
    ∃ r, fileRead fs (some h) pos n = .ret r ∧
      ((∃ e, r = .error e) ↔ n ≠ 0 ∧ c.length ≤ pos.toNat) ∧
      ∀ b, r = .ok b → b.length = min n (c.length - pos.toNat) ∧
        ∀ i, i < b.length → b[i]? = c[pos.toNat + i]? := by
  unfold fileRead
  rw [if_neg (by omega)]
  simp only [fileSeek_ok h pos hp, hn, Int.toNat_natCast]
  unfold readAt
  simp only
  split
  · rename_i he
    split at he
    · cases he
    · cases he
      refine ⟨_, rfl, ?_, ?_⟩
      · rename_i hcond
        simp only [reduceCtorEq, exists_const, false_iff]
        rintro ⟨h1, h2⟩
        exact hcond ⟨by simp [List.drop_eq_nil_of_le h2], h1⟩
      · intro b hb
        cases hb
        refine ⟨by simp, ?_⟩
        intro i hi
        simp only [List.length_take, List.length_drop] at hi
        rw [List.getElem?_take, if_pos (by omega), List.getElem?_drop]
  · rename_i he
    split at he
    · rename_i hcond
      refine ⟨_, rfl, ?_, by simp⟩
      refine ⟨fun _ => ⟨hcond.2, ?_⟩, fun _ => ⟨_, rfl⟩⟩
      have hl := congrArg List.length hcond.1
      simp only [List.length_take, List.length_drop, List.length_nil] at hl
      have := hcond.2
      omega
    · cases he

/-- **C56** What was written is read back. -/
theorem C56_write_then_read (fs : FS) (h : Handle) (pos : BitVec 64) (buf c : List Byte)
    (hw : h.writable = true) (hn : fs.node h.loc = some (.file c)) (hp : pos.toNat < 2 ^ 63) :
    fileRead (fileWrite fs (some h) pos buf none).1 (some h) pos buf.length = .ret (.ok buf) := by
  obtain ⟨_, ⟨c', hc', hb⟩, _⟩ := C56_written_exactly fs h pos buf c hw hn hp
  obtain ⟨r, hr, he, hok⟩ := C56_read_exactly _ h pos buf.length c' hc' hp
  have hlen : buf.length ≠ 0 → pos.toNat + buf.length ≤ c'.length := by
    intro h0
    have := hb (pos.toNat + buf.length - 1)
    unfold byteAfter at this
    rw [if_pos (by omega), List.getElem?_eq_getElem (by omega : pos.toNat + buf.length - 1 - pos.toNat < buf.length)] at this
    have := (List.getElem?_eq_some_iff.1 this).1
    omega
  rw [hr]
  cases r with
  | error e =>
    obtain ⟨h0, h1⟩ := he.1 ⟨e, rfl⟩
    have := hlen h0
    omega
  | ok b =>
    obtain ⟨hl, hi⟩ := hok b rfl
    have hl2 : b.length = buf.length := by
      rw [hl]
      by_cases h0 : buf.length = 0
      · omega
      · have := hlen h0; omega
    congr 2
    apply List.ext_getElem?
    intro i
    by_cases h1 : i < b.length
    · rw [hi i h1, hb]
      unfold byteAfter
      rw [if_pos (by omega)]
      congr 1
      omega
    · rw [List.getElem?_eq_none (by omega), List.getElem?_eq_none (by omega)]

/-- **C56** Positions that do not fit an `int64` are refused without effect, on reading and writing. -/
theorem C56_position_refused (fs : FS) (h : Handle) (pos : BitVec 64) (hp : 2 ^ 63 ≤ pos.toNat) :
    (∀ buf short, ∃ e, fileWrite fs (some h) pos buf short = (fs, 0, some e)) ∧
    (∀ n : Nat, ∃ e, fileRead fs (some h) pos n = .ret (.error e)) := by
  obtain ⟨e, he⟩ := fileSeek_bad h pos hp
  refine ⟨fun buf short => ⟨e, ?_⟩, fun n => ⟨e, ?_⟩⟩
  · unfold fileWrite; simp only [he]
  · unfold fileRead; rw [if_neg (by omega)]; simp only [he]

/-- **C56** A file opened for reading cannot be changed, and a closed one is refused. -/
theorem C56_not_writable (fs : FS) (fp : Option Handle) (pos : BitVec 64) (buf : List Byte)
    (short : Option Nat) (h : ∀ h, fp = some h → h.writable = false) :
    ∃ e, fileWrite fs fp pos buf short = (fs, 0, some e) := by
  unfold fileWrite
  cases fp with
  | none => exact ⟨"fileSeek: file not open", rfl⟩
  | some hd =>
    cases hs : fileSeek (some hd) pos with
    | some e => exact ⟨e, rfl⟩
    | none => exact ⟨"bad file descriptor", by simp [h hd rfl]⟩

/-- The hypotheses are met by the example file. -/
example : let h : Handle := ⟨fullName exDir exName, [[0x64#8], [0x66#8]], true⟩
    fileRead (fileWrite exFS (some h) 4#64 [1#8, 2#8] none).1 (some h) 1#64 9 =
      .ret (.ok [8#8, 0#8, 0#8, 1#8, 2#8]) := rfl

/-! ## C57 -/

/-- **C57** Once the recorded ranges are the one range from 0 to the size, the stored bytes are the file,
in whatever order and however often its pieces came and whichever writes failed part way. No other file
changed. -/
theorem C57_rebuilt (F : List Byte) (hF : F.length < 2 ^ 63) (h : Handle) (hw : h.writable = true)
    (fs : FS) (hn : fs.node h.loc = some (.file [])) (as : List Arrival) (hof : ∀ a ∈ as, a.Of F)
    (done : (storeAll h fs as).2 = [⟨0, F.length⟩]) :
    (storeAll h fs as).1.node h.loc = some (.file F) ∧
    SameExceptAt h.loc fs (storeAll h fs as).1 := by
  obtain ⟨⟨c, hc, hi⟩, _, hs⟩ := storeAll_inv F hF h hw fs hn as hof
  refine ⟨?_, hs⟩
  rw [hc]
  have cov : ∀ x : Nat, Covers (storeAll h fs as).2 x ↔ x < F.length := by
    intro x
    rw [done]
    simp [Covers]
  congr 2
  apply List.ext_getElem?
  intro i
  by_cases h1 : i < F.length
  · exact (hi.right i ((cov i).2 h1)).2
  · rw [List.getElem?_eq_none (by omega : F.length ≤ i)]
    apply List.getElem?_eq_none
    cases hcl : c.length with
    | zero => omega
    | succ n =>
      have := (cov n).1 (hi.last n hcl)
      omega

/-- **C57** At every moment: each byte in a recorded range is the right one, each other byte stored so far
is zero, and the file is never longer than what was received. -/
theorem C57_never_wrong (F : List Byte) (hF : F.length < 2 ^ 63) (h : Handle) (hw : h.writable = true)
    (fs : FS) (hn : fs.node h.loc = some (.file [])) (as : List Arrival) (hof : ∀ a ∈ as, a.Of F) :
    ∃ c, (storeAll h fs as).1.node h.loc = some (.file c) ∧
      c.length ≤ F.length ∧
      (∀ i : Nat, Covers (storeAll h fs as).2 i → c[i]? = F[i]?) ∧
      (∀ i : Nat, i < c.length → ¬ Covers (storeAll h fs as).2 i → c[i]? = some 0) := by
  obtain ⟨⟨c, hc, hi⟩, _, _⟩ := storeAll_inv F hF h hw fs hn as hof
  refine ⟨c, hc, ?_, fun i h => (hi.right i h).2, hi.zero⟩
  cases hcl : c.length with
  | zero => omega
  | succ n => have := (hi.right n (hi.last n hcl)).1; omega

/-- **C57** The ranges do become that one range as soon as every byte of the file was in some piece that
was written completely. -/
theorem C57_completes (F : List Byte) (hF : F.length < 2 ^ 63) (h0 : F ≠ []) (h : Handle)
    (hw : h.writable = true)
    (fs : FS) (hn : fs.node h.loc = some (.file [])) (as : List Arrival) (hof : ∀ a ∈ as, a.Of F)
    (all : ∀ i, i < F.length → ∃ a ∈ as, a.short = none ∧
      a.off.toNat ≤ i ∧ i < a.off.toNat + a.data.length) :
    (storeAll h fs as).2 = [⟨0, F.length⟩] ∧
    (storeAll h fs as).1.node h.loc = some (.file F) := by
  obtain ⟨_, hr, _⟩ := storeAll_inv F hF h hw fs hn as hof
  have hpos : 0 < F.length := List.length_pos_iff.2 h0
  have done : (storeAll h fs as).2 = [⟨0, F.length⟩] := by
    rw [hr, C05_complete_iff _ _ (by omega)]
    intro x
    simp only [Received, List.mem_map]
    constructor
    · rintro ⟨cc, ⟨a, ha, rfl⟩, h1, h2⟩
      have hb := (hof a ha).1
      have hlen := a.stored_le
      simp only [Arrival.call] at h1 h2
      omega
    · rintro ⟨h1, h2⟩
      obtain ⟨a, ha, hs, h3, h4⟩ := all x.toNat (by omega)
      refine ⟨a.call, ⟨a, ha, rfl⟩, ?_, ?_⟩
      · simp only [Arrival.call]; omega
      · simp only [Arrival.call, Arrival.stored, hs]; omega
  exact ⟨done, (C57_rebuilt F hF h hw fs hn as hof done).1⟩

/-- The hypotheses are met: three overlapping pieces of a five byte file, out of order, one cut short. -/
example (srt : GoSort) : let F := [1#8, 2#8, 3#8, 4#8, 5#8]
    let as : List Arrival := [⟨3#64, [4#8, 5#8], none, srt⟩, ⟨0#64, [1#8, 2#8, 3#8], some 1, srt⟩,
      ⟨0#64, [1#8, 2#8, 3#8, 4#8], none, srt⟩]
    (∀ a ∈ as, a.Of F) ∧ ∀ i, i < F.length → ∃ a ∈ as, a.short = none ∧
      a.off.toNat ≤ i ∧ i < a.off.toNat + a.data.length := by
  refine ⟨?_, ?_⟩
  · intro a ha
    simp only [List.mem_cons, List.not_mem_nil, or_false] at ha
    rcases ha with rfl | rfl | rfl
    · exact ⟨by simp, show ∀ i, i < 2 → [4#8, 5#8][i]? = [1#8, 2#8, 3#8, 4#8, 5#8][3 + i]? by decide⟩
    · exact ⟨by simp, show ∀ i, i < 3 → [1#8, 2#8, 3#8][i]? = [1#8, 2#8, 3#8, 4#8, 5#8][0 + i]? by decide⟩
    · exact ⟨by simp, show ∀ i, i < 4 →
        [1#8, 2#8, 3#8, 4#8][i]? = [1#8, 2#8, 3#8, 4#8, 5#8][0 + i]? by decide⟩
  · intro i hi
    simp only [List.length_cons, List.length_nil] at hi
    by_cases h : i < 3
    · exact ⟨⟨0#64, [1#8, 2#8, 3#8, 4#8], none, srt⟩, by simp, rfl, by simp, by simp; omega⟩
    · exact ⟨⟨3#64, [4#8, 5#8], none, srt⟩, by simp, rfl, by simp; omega, by simp; omega⟩

/-! ## C58 -/

/-- **C58** is false: a name with `..` in it leads out of the shared directory, and such a file is removed
for a peer. -/
theorem C58_counterexample :
    let fname := [dot, dot, slash, 0x78#8]
    exFS.locate exDir = some [[0x64#8]] ∧
    exFS.node [[0x78#8]] = some (.file [9#8]) ∧
    (fileRm exDir exFS fname).2 = none ∧
    (fileRm exDir exFS fname).1.node [[0x78#8]] = none := by decide +kernel

/-- **C58** what holds: a name that never climbs above its start (in particular one without `..`) only
touches places below the shared directory: an opened file is there, and whatever is elsewhere stays as it
was, on opening and removing.  Missing: other names are not refused. -/
theorem C58_partial (sardir fname : List Byte) (fs : FS) (d : Loc) (ttype : String)
    (hne : sardir ≠ []) (hd : fs.locate sardir = some d) (hs : StaysBelow (splitSlash fname)) :
    (∀ h, (fileOpen sardir fs fname ttype).2 = .ok (some h) → d <+: h.loc) ∧
    (∀ m, ¬ d <+: m → (fileOpen sardir fs fname ttype).1.node m = fs.node m) ∧
    (∀ m, ¬ d <+: m → (fileRm sardir fs fname).1.node m = fs.node m) := by
  have key : ∀ l, fs.locate (fullName sardir fname) = some l → d <+: l := by
    intro l hl
    rw [locate_fullName fs sardir fname hne, hd] at hl
    exact (walk_below fs d _ hs l hl).1
  obtain ⟨h1, h2⟩ := fileOpen_effect sardir fs fname ttype
  refine ⟨fun h hh => key _ (h2 h hh), ?_, ?_⟩
  · intro m hm
    rcases h1 with h | ⟨l, hl, h⟩
    · exact h m
    · exact h m (fun e => hm (e ▸ key l hl))
  · intro m hm
    unfold fileRm
    rcases remove_effect fs (fullName sardir fname) with ⟨e, h⟩ | ⟨l, hl, _, h⟩
    · rw [h]
    · rw [h]
      exact node_del_other _ _ _ (fun e => hm (e ▸ key l hl))

/-- **C58** Also the existence check of such a name only looks below the shared directory. -/
theorem C58_exists_partial (sardir fname : List Byte) (fs : FS) (d : Loc)
    (hne : sardir ≠ []) (hd : fs.locate sardir = some d) (hs : StaysBelow (splitSlash fname))
    (hx : fileExists sardir fs fname = true) :
    ∃ l, fs.locate (fullName sardir fname) = some l ∧ d <+: l ∧ fs.node l ≠ none := by
  unfold fileExists FS.stat at hx
  cases hl : fs.locate (fullName sardir fname) with
  | none => simp [hl] at hx
  | some l =>
    refine ⟨l, rfl, ?_, ?_⟩
    · rw [locate_fullName fs sardir fname hne, hd] at hl
      exact (walk_below fs d _ hs l hl).1
    · intro hn
      simp only [hl, hn] at hx
      split at hx <;> simp_all

/-- A name without `..` stays below. -/
theorem C58_plain_names (names : List Name) (h : [dot, dot] ∉ names) : StaysBelow names := by
  intro p hp
  have : p.filter (fun c => decide (c = [dot, dot])) = [] := by
    rw [List.filter_eq_nil_iff]
    intro c hc
    simp only [decide_eq_true_eq]
    exact fun e => h (e ▸ hp.subset hc)
  rw [this]
  simp

/-- `a/../b/c` stays below. -/
example : StaysBelow (splitSlash [0x61#8, slash, dot, dot, slash, 0x62#8, slash, 0x63#8]) := by
  have e : splitSlash [0x61#8, slash, dot, dot, slash, 0x62#8, slash, 0x63#8] =
    [[0x61#8], [dot, dot], [0x62#8], [0x63#8]] := by decide +kernel
  rw [e]
  intro p hp
  rw [List.prefix_iff_eq_take.1 hp]
  have hl := hp.length_le
  simp only [List.length_cons, List.length_nil, Nat.zero_add, Nat.reduceAdd] at hl
  generalize p.length = n at hl
  revert n
  decide +kernel

/-! ## C63, C64: the directory is put in front twice -/

/-- **C63** is false: a local file that exists cannot be opened for sending. -/
theorem C63_counterexample :
    fileExists exDir exFS exName = true ∧ exFS.refuses = (fun _ _ => false) ∧
    fileOpen exDir exFS exName "put" = (exFS, .error "file does not exist") := ⟨by decide +kernel, rfl, rfl⟩

/-- **C63** Opening for sending fails for every file of every directory, unless the directory name
followed by the full name exists as well. -/
theorem C63_never_opens (sardir fname : List Byte) (fs : FS) (ttype : String)
    (ht : ttype = "put" ∨ ttype = "give")
    (hx : fileExists sardir fs (fullName sardir fname) = false) :
    fileOpen sardir fs fname ttype = (fs, .error "file does not exist") := by
  unfold fileOpen
  rcases ht with rfl | rfl <;> simp [hx]

/-- **C63** what holds: opening for sending changes nothing, and when it succeeds the file is the one named
and cannot be written.  Missing: it does not succeed for the files that exist. -/
theorem C63_partial (sardir fname : List Byte) (fs : FS) (ttype : String)
    (ht : ttype = "put" ∨ ttype = "give") :
    (fileOpen sardir fs fname ttype).1 = fs ∧
    ∀ r, (fileOpen sardir fs fname ttype).2 = .ok r →
      ∃ h, r = some h ∧ fs.locate (fullName sardir fname) = some h.loc ∧ fs.node h.loc ≠ none ∧
        h.writable = false := by
  unfold fileOpen
  have e1 : ¬ (ttype = "get" ∨ ttype = "take") := by rcases ht with rfl | rfl <;> simp
  have e2 : ¬ (ttype = "getdir") := by rcases ht with rfl | rfl <;> simp
  simp only [e1, e2, ht, if_true, if_false]
  split
  · simp
  · unfold FS.openRead
    cases hl : fs.locate (fullName sardir fname) with
    | none => simp
    | some l =>
      simp only
      cases hr : fs.refuses .openRead l with
      | true => simp
      | false =>
        simp only [Bool.false_eq_true, if_false]
        cases hn : fs.node l with
        | none => simp
        | some n =>
          refine ⟨rfl, ?_⟩
          intro r hr
          simp only [Except.ok.injEq] at hr
          exact ⟨_, hr.symm, rfl, by simp [hn], rfl⟩

/-- **C64** is false: deleting an open file reports an error and the file stays. -/
theorem C64_counterexample :
    let h : Handle := ⟨fullName exDir exName, [[0x64#8], [0x66#8]], true⟩
    exFS.locate h.name = some h.loc ∧ exFS.node h.loc = some (.file [7#8, 8#8]) ∧
    (fileDelete exDir exFS (some h)).2 ≠ none ∧
    (fileDelete exDir exFS (some h)).1.node h.loc = some (.file [7#8, 8#8]) := by
  refine ⟨by decide +kernel, by decide +kernel, ?_, ?_⟩
  · decide +kernel
  · decide +kernel

/-- **C64** what holds: at most one place changes, it is the one the doubled name leads to, and it is gone
exactly when success is reported; nothing happens without an open file.  Missing: that place is not the
open file. -/
theorem C64_partial (sardir : List Byte) (fs : FS) (fp : Option Handle) :
    (∃ e, fileDelete sardir fs fp = (fs, some e)) ∨
    ∃ h l, fp = some h ∧ fs.locate (fullName sardir h.name) = some l ∧ fs.node l ≠ none ∧
      (fileDelete sardir fs fp).2 = none ∧ (fileDelete sardir fs fp).1.node l = none ∧
      SameExceptAt l fs (fileDelete sardir fs fp).1 := by
  cases fp with
  | none => exact .inl ⟨"no existing open file to delete", rfl⟩
  | some h =>
    unfold fileDelete fileRm
    rcases remove_effect fs (fullName sardir h.name) with ⟨e, he⟩ | ⟨l, hl, hn, he⟩
    · exact .inl ⟨e, he⟩
    · refine .inr ⟨h, l, rfl, hl, hn, ?_⟩
      simp only [he]
      exact ⟨trivial, node_del_self _ _, fun m hm => node_del_other _ _ _ hm⟩

/-- **C64** Removing by name does remove: success means the named place held something and is now empty,
and nothing else changed; failure changes nothing. -/
theorem C64_remove_by_name (sardir fname : List Byte) (fs : FS) :
    (∃ e, fileRm sardir fs fname = (fs, some e)) ∨
    ∃ l, fs.locate (fullName sardir fname) = some l ∧ fs.node l ≠ none ∧
      (fileRm sardir fs fname).2 = none ∧ (fileRm sardir fs fname).1.node l = none ∧
      SameExceptAt l fs (fileRm sardir fs fname).1 := by
  unfold fileRm
  rcases remove_effect fs (fullName sardir fname) with ⟨e, he⟩ | ⟨l, hl, hn, he⟩
  · exact .inl ⟨e, he⟩
  · refine .inr ⟨l, hl, hn, ?_⟩
    simp only [he]
    exact ⟨trivial, node_del_self _ _, fun m hm => node_del_other _ _ _ hm⟩

/-- **C64** A file the operating system lets go is removed. -/
theorem C64_removes_file (sardir fname : List Byte) (fs : FS) (l : Loc) (c : List Byte)
    (hl : fs.locate (fullName sardir fname) = some l) (hn : fs.node l = some (.file c))
    (hr : fs.refuses .remove l = false) : (fileRm sardir fs fname).2 = none := by
  unfold fileRm FS.remove
  simp [hl, hn, hr]

/-- **C64** A directory with something in it stays, whatever the operating system allows. -/
theorem C64_full_directory_stays (sardir fname : List Byte) (fs : FS) (l : Loc) (n : Name)
    (hl : fs.locate (fullName sardir fname) = some l) (dir : fs.node l = some .dir)
    (child : fs.node (l ++ [n]) ≠ none) : ∃ e, fileRm sardir fs fname = (fs, some e) := by
  have hc : fs.hasChild l = true := by
    unfold FS.node at child
    cases hf : fs.nodes.find? fun e => e.1 = l ++ [n] with
    | none => simp [hf] at child
    | some e =>
      have h1 := List.find?_some hf
      have h2 := List.mem_of_find?_eq_some hf
      simp only [decide_eq_true_eq] at h1
      exact List.any_eq_true.2 ⟨e, h2, by simp [h1]⟩
  unfold fileRm FS.remove
  simp only [hl, dir, hc, true_or, if_true]
  split
  · exact ⟨_, rfl⟩
  · exact ⟨_, rfl⟩

theorem hasChild_iff (fs : FS) (l : Loc) : fs.hasChild l = true ↔ ∃ n, fs.node (l ++ [n]) ≠ none := by
  unfold FS.hasChild FS.node
  rw [List.any_eq_true]
  constructor
  · rintro ⟨e, he, h⟩
    simp only [Bool.and_eq_true, decide_eq_true_eq] at h
    obtain ⟨ne, hd⟩ := h
    have e1 : e.1 = l ++ [e.1.getLast ne] := by
      rw [← hd, List.dropLast_concat_getLast ne]
    refine ⟨e.1.getLast ne, fun hn => ?_⟩
    rw [Option.map_eq_none_iff, List.find?_eq_none] at hn
    exact hn e he (by simpa using e1)
  · rintro ⟨n, hn⟩
    cases hf : fs.nodes.find? fun e => e.1 = l ++ [n] with
    | none => simp [hf] at hn
    | some e =>
      have h1 := List.find?_some hf
      simp only [decide_eq_true_eq] at h1
      exact ⟨e, List.mem_of_find?_eq_some hf, by simp [h1]⟩

/-- **C64** Exactly what can be removed by name: something that is there and the operating system lets go, and if it is
a directory an empty one that is not the root. -/
theorem C64_removes_iff (sardir fname : List Byte) (fs : FS) :
    (fileRm sardir fs fname).2 = none ↔
      ∃ l node, fs.locate (fullName sardir fname) = some l ∧ fs.refuses .remove l = false ∧ fs.node l = some node ∧
        (node = .dir → l ≠ [] ∧ ∀ n, fs.node (l ++ [n]) = none) := by
  unfold fileRm FS.remove
  cases hl : fs.locate (fullName sardir fname) with
  | none => simp
  | some l =>
    simp only
    cases hr : fs.refuses .remove l with
    | true => simp [hr]
    | false =>
      simp only [Bool.false_eq_true, if_false]
      cases hn : fs.node l with
      | none => simp [hn]
      | some node =>
        cases node with
        | dir =>
          simp only
          split
          · rename_i hc
            simp only [reduceCtorEq, false_iff, not_exists]
            rintro l' node' ⟨e, _, hn', h⟩
            cases e
            rw [hn] at hn'
            cases hn'
            rcases hc with hc | hc
            · obtain ⟨n, hne⟩ := (hasChild_iff fs l).1 hc
              exact hne ((h rfl).2 n)
            · exact (h rfl).1 hc
          · rename_i hc
            simp only [true_iff]
            refine ⟨l, .dir, rfl, hr, hn, fun _ => ⟨fun e => hc (.inr e), fun n => ?_⟩⟩
            exact Decidable.byContradiction fun hne => hc (.inl ((hasChild_iff fs l).2 ⟨n, hne⟩))
        | file c => simp only [true_iff]; exact ⟨l, _, rfl, hr, hn, fun e => by cases e⟩
        | other => simp only [true_iff]; exact ⟨l, _, rfl, hr, hn, fun e => by cases e⟩

/-- **C64** A transfer of type `delete` opens no file, so there is none to delete: `FileDelete` on what it opened
reports an error and removes nothing. -/
theorem C64_delete_opens_nothing (sardir fname : List Byte) (fs : FS) :
    fileOpen sardir fs fname "delete" = (fs, .ok none) ∧ ∃ e, fileDelete sardir fs none = (fs, some e) :=
  ⟨rfl, _, rfl⟩

/-- **C63** A type `FileOpen` does not know is refused, without effect. -/
theorem C63_other_types (sardir fname : List Byte) (fs : FS) (ttype : String)
    (other : ttype ∉ ["get", "take", "getdir", "put", "give", "delete"]) :
    fileOpen sardir fs fname ttype = (fs, .error "invalid transfer type") := by
  simp only [List.mem_cons, List.not_mem_nil, or_false, not_or] at other
  obtain ⟨h1, h2, h3, h4, h5, h6⟩ := other
  unfold fileOpen
  simp only [h1, h2, h3, h4, h5, h6, or_self, if_false]

/-- **C63** Exactly when opening for sending succeeds: the file is there, may be opened, and the directory name in front
of its full name leads to something as well. (Without that last part this would be C63.) -/
theorem C63_opens_iff_partial (sardir fname : List Byte) (fs : FS) (ttype : String)
    (ht : ttype = "put" ∨ ttype = "give") :
    (∃ r, (fileOpen sardir fs fname ttype).2 = .ok r) ↔
      fileExists sardir fs (fullName sardir fname) = true ∧
      ∃ l, fs.locate (fullName sardir fname) = some l ∧ fs.refuses .openRead l = false ∧ fs.node l ≠ none := by
  unfold fileOpen
  have e1 : ¬ (ttype = "get" ∨ ttype = "take") := by rcases ht with rfl | rfl <;> simp
  have e2 : ¬ (ttype = "getdir") := by rcases ht with rfl | rfl <;> simp
  simp only [e1, e2, ht, if_true, if_false]
  cases hx : fileExists sardir fs (fullName sardir fname) with
  | false => simp
  | true =>
    simp only [Bool.not_true, Bool.false_eq_true, if_false, true_and]
    unfold FS.openRead
    cases hl : fs.locate (fullName sardir fname) with
    | none => simp
    | some l =>
      simp only
      cases hr : fs.refuses .openRead l with
      | true => simp [hr]
      | false => cases hn : fs.node l <;> simp [hr, hn]

example : (fileRm exDir exFS exName).2 = none := by decide +kernel
example : exFS.locate (fullName exDir [dot]) = some [[0x64#8]] ∧ exFS.node [[0x64#8]] = some .dir ∧
    exFS.node ([[0x64#8]] ++ [exName]) ≠ none := by decide +kernel

end Saratoga
