import Verif.Props.Calendar
import Verif.Props.Listing
/-! # Property C99, continued: the times in the table of peers -/
namespace Saratoga

/-- The stamp of a peer prints the moment at which it was made, also when `Now` complains of it. -/
theorem stamp_shows {ts : GoTime} (ok : ts.NanoOk) {t : Timestamp} (h : StampOf shipped ts t) :
    ∃ text, t.printText shipped = .ret (utf8 text) ∧
      ShowsMoment text ts.sec ("." ++ padded '0' 3 (ts.nsec / 1000000)) := by
  obtain ⟨e, h⟩ := h
  have hs : stripSpaces "posix32_32" = "posix32_32" := by decide +kernel
  obtain ⟨⟨t', e'⟩, h', h''⟩ := Out.bind_eq_ret h
  clear h
  cases h''
  have h := h'
  clear h'
  have hn := (new_header (by decide +kernel) h).1
  have : t.secs = ts.unixNano.sdiv 1000000000#64 ∧ t.nsecs = ts.unixNano.srem 1000000000#64 := by
    unfold Timestamp.new at h
    simp only [hs] at h
    obtain ⟨hd, -, h⟩ := Out.bind_eq_ret h
    rw [if_neg (by decide), if_neg (by decide), if_pos trivial] at h
    split at h <;> cases h <;> exact ⟨rfl, rfl⟩
  obtain ⟨h2, h3⟩ := this
  unfold Timestamp.printText
  rw [h2, h3, getTStr_eq_nameT, hn, hs, Out.ret_bind, if_neg (by decide), if_pos (by decide), ofUnix_nano ok]
  refine ⟨_, rfl, ?_⟩
  obtain ⟨⟨_, _, _⟩, _, _⟩ := ok
  exact format_shows ts (by omega) true

theorem newsAfter_mem (T : Tables) : ∀ (rest : List Sighting) (prev : Beacon) (t : GoTime),
    newsAfter T prev t rest = t ∨ ∃ s ∈ rest, newsAfter T prev t rest = s.time
  | [], _, _ => .inl rfl
  | s :: rest, prev, t => by
    unfold newsAfter
    rcases newsAfter_mem T rest s.beacon (if SameNews T prev s.beacon then t else s.time) with h | ⟨q, hq, h⟩
    · rw [h]
      by_cases c : SameNews T prev s.beacon
      · rw [if_pos c]; exact .inl rfl
      · rw [if_neg c]; exact .inr ⟨s, List.mem_cons_self, rfl⟩
    · exact .inr ⟨q, List.mem_cons_of_mem _ hq, h⟩

theorem ascii_bytes {s : String} (h : ∀ c ∈ s.toList, c.toNat < 128) : (utf8 s).length = s.length := by
  rw [utf8_length, ← String.size_toByteArray, ← String.utf8Encode_toList, ← String.length_toList]
  generalize s.toList = l at h
  induction l with
  | nil => simp
  | cons c l ih =>
    have e : (c :: l).utf8Encode = [c].utf8Encode ++ l.utf8Encode := by rw [← List.utf8Encode_append]; rfl
    have h1 : c.utf8Size = 1 := Char.utf8Size_eq_one_iff.2 (by
      have := h c List.mem_cons_self
      rw [UInt32.le_iff_toNat_le]
      exact Nat.le_of_lt_succ this)
    rw [e, ByteArray.size_append, ih fun c hc => h c (List.mem_cons_of_mem _ hc), List.length_cons]
    have : [c].utf8Encode.size = c.utf8Size := by simp [List.utf8Encode_singleton]
    omega

theorem padded_ascii {c : Char} (hc : c.toNat < 128) (width n : Nat) :
    ∀ d ∈ (padded c width n).toList, d.toNat < 128 := by
  intro d hd
  unfold padded List.leftpad at hd
  rw [String.toList_ofList, List.mem_append] at hd
  rcases hd with hd | hd
  · rw [List.eq_of_mem_replicate hd]; exact hc
  · have : d ∈ (Nat.repr n).toList := hd
    rw [Nat.toList_repr] at this
    have := Nat.isDigit_of_mem_toDigits (by omega) (by omega) this
    simp only [Char.isDigit, Bool.and_eq_true, decide_eq_true_eq, ge_iff_le, UInt32.le_iff_toNat_le] at this
    exact Nat.lt_of_le_of_lt this.2 (by decide)

theorem shows_bytes {text : String} {s : Int} {n : Nat} (hn : n < 1000)
    (h : ShowsMoment text s ("." ++ padded '0' 3 n)) (late : s < 253402300800) : (utf8 text).length = 32 := by
  have len := shows_length h late
  rw [String.toList_append, List.length_append, padded_length (by omega) (by omega)] at len
  rw [ascii_bytes, ← String.length_toList, len]
  · rfl
  obtain ⟨y, m, d, hh, mi, se, ⟨a1, a2, a3, a4, a5⟩, b1, b2, b3, e, t⟩ := h
  have d1 : ∀ a < 7, ∀ c ∈ (["Mon", "Tue", "Wed", "Thu", "Fri", "Sat", "Sun"].getD a "").toList, c.toNat < 128 := by
    decide +kernel
  have d2 : ∀ a < 12, ∀ c ∈ (["Jan", "Feb", "Mar", "Apr", "May", "Jun", "Jul", "Aug", "Sep", "Oct", "Nov",
      "Dec"].getD a "").toList, c.toNat < 128 := by decide +kernel
  have p := fun w n => padded_ascii (c := '0') (by decide) w n
  have q := fun w n => padded_ascii (c := ' ') (by decide) w n
  rw [t]
  unfold dateText
  have ap : ∀ {a b : String}, (∀ c ∈ a.toList, c.toNat < 128) → (∀ c ∈ b.toList, c.toNat < 128) →
      ∀ c ∈ (a ++ b).toList, c.toNat < 128 := by
    intro a b ha hb c hc
    rw [String.toList_append, List.mem_append] at hc
    exact hc.elim (ha c) (hb c)
  have lit : ∀ x ∈ [" ", ":", ".", " UTC"], ∀ c ∈ String.toList x, c.toNat < 128 := by decide +kernel
  have l1 := lit " " (by simp)
  have l2 := lit ":" (by simp)
  have l3 := lit "." (by simp)
  have l4 := lit " UTC" (by simp)
  exact ap (ap (ap (ap (ap (ap (ap (ap (ap (ap (ap (ap (ap (ap (d1 _ (Nat.mod_lt _ (by omega))) l1) (d2 _ (by omega)))
    l1) (q _ _)) l1) (p _ _)) l2) (p _ _)) l2) (p _ _)) (ap l3 (p _ _))) l1) (p _ _)) l4

/-- **C99** In a running program of which the clock is between 1678 and 2262, the table of peers tells of every peer when
its first beacon came and when its last beacon with news did, and is aligned if no peer has 128 bit descriptors, none a
million gigabytes, and addresses have two characters. Missing: such peers. -/
theorem C99_times_partial (S : Setup) (tables : S.T = shipped) (fs : FS) (w : World) (reach : Reachable S fs w)
    (V : PeerView) (prints : ∀ t text, t.printText shipped = .ret (utf8 text) → V.time t = text)
    (clock : ∀ s ∈ sightings w.handled, s.time.NanoOk) (srt : TextSort) (H : CmdTable) (ne : w.peers ≠ [])
    (known : ∀ p ∈ w.peers, p.maxdesc ≠ "d128" ∧ p.freespace.toNat / 2 ^ 20 < 10 ^ 6 ∧ 2 ≤ p.addr.length) (x : String) :
    (∃ text border head line width, cmdPeers V srt H w.peers [x] = [.msg text] ∧
      TableOf text ["IP", "GB", "EID", "Des", "Rx", "Tx", "Created", "Modified"] (peerCells V) w.peers border head
        line ∧
      border.length = width ∧ head.length = width ∧ ∀ p ∈ w.peers, (line p).length = width) ∧
    ∀ p ∈ w.peers, ∃ first rest, (sightings w.handled).filter (fun s => s.addr S.ipText = p.addr) = first :: rest ∧
      ShowsMoment (V.time p.created) first.time.sec ("." ++ padded '0' 3 (first.time.nsec / 1000000)) ∧
      ShowsMoment (V.time p.updated) (newsAfter S.T first.beacon first.time rest).sec
        ("." ++ padded '0' 3 ((newsAfter S.T first.beacon first.time rest).nsec / 1000000)) := by
  have key : ∀ p ∈ w.peers, ∃ first rest,
      (sightings w.handled).filter (fun s => s.addr S.ipText = p.addr) = first :: rest ∧
      first.time.NanoOk ∧ (newsAfter S.T first.beacon first.time rest).NanoOk ∧
      ShowsMoment (V.time p.created) first.time.sec ("." ++ padded '0' 3 (first.time.nsec / 1000000)) ∧
      ShowsMoment (V.time p.updated) (newsAfter S.T first.beacon first.time rest).sec
        ("." ++ padded '0' 3 ((newsAfter S.T first.beacon first.time rest).nsec / 1000000)) := by
    intro p hp
    obtain ⟨first, rest, hf, _, hc, hu⟩ := (C66_entries S (by rw [tables]; exact shipped_peerTables)
      (by rw [tables]; exact shipped_shows) fs w reach).2.2 p hp
    have mem : ∀ s ∈ first :: rest, s.time.NanoOk := fun s hs => clock s (List.mem_filter.1 (hf ▸ hs)).1
    have k1 := mem first List.mem_cons_self
    have k2 : (newsAfter S.T first.beacon first.time rest).NanoOk := by
      rcases newsAfter_mem S.T rest first.beacon first.time with h | ⟨s, hs, h⟩ <;> rw [h]
      · exact k1
      · exact mem s (List.mem_cons_of_mem _ hs)
    obtain ⟨a, a1, a2⟩ := stamp_shows k1 (tables ▸ hc)
    obtain ⟨b, b1, b2⟩ := stamp_shows k2 (by rw [tables] at hu ⊢; exact hu)
    rw [← prints _ _ a1] at a2
    rw [← prints _ _ b1] at b2
    exact ⟨first, rest, hf, k1, k2, a2, b2⟩
  refine ⟨C99_running_partial S tables fs w reach V 32 (by omega) srt H ne (fun p hp => ?_) x, fun p hp => ?_⟩
  · obtain ⟨k1, k2, k3⟩ := known p hp
    obtain ⟨first, rest, hf, o1, o2, s1, s2⟩ := key p hp
    have l1 := o1.1.2.2
    have l2 := o2.1.2.2
    have m1 := o1.2.2
    have m2 := o2.2.2
    exact ⟨k1, k2, k3, shows_bytes (by omega) s1 (by omega), shows_bytes (by omega) s2 (by omega)⟩
  · obtain ⟨first, rest, hf, o1, o2, s1, s2⟩ := key p hp
    exact ⟨first, rest, hf, s1, s2⟩

/-! ## Cases -/

/-- What prints the time stamps. -/
noncomputable def printedTime (t : Timestamp) : String :=
  open Classical in if h : ∃ text, t.printText shipped = .ret (utf8 text) then h.choose else ""

/-- There is such a view. -/
example (V : PeerView) : ∀ t text, t.printText shipped = .ret (utf8 text) →
    ({ V with time := printedTime } : PeerView).time t = text := by
  intro t text h
  have ex : ∃ text, t.printText shipped = .ret (utf8 text) := ⟨text, h⟩
  show printedTime t = text
  unfold printedTime
  rw [dif_pos ex]
  exact utf8_inj (Out.ret.inj (ex.choose_spec.symm.trans h))

/-- Two peers, clocks of 2023. -/
example : ∃ acts w, (World.init tranFS).run ⟨shipped, fun ip => toString (ip.map BitVec.toNat), 1500, []⟩ acts = some w ∧
    w.peers ≠ [] ∧ (∀ s ∈ sightings w.handled, s.time.NanoOk) ∧ (sightings w.handled).length = 2 ∧
    ∀ p ∈ w.peers, p.maxdesc ≠ "d128" ∧ p.freespace.toNat / 2 ^ 20 < 10 ^ 6 ∧ 2 ≤ p.addr.length := by
  refine ⟨[.recv ⟨.v4, ⟨0, 0⟩, [0x20, 0, 0, 0, 104, 105, 33, 33], ⟨[1], 7, ""⟩⟩, .takeRx .v4 ⟨1700000000, 5⟩,
    .recv ⟨.v6, ⟨0, 0⟩, [0x20, 0, 0, 0, 104, 105, 33, 33], ⟨[2], 7, ""⟩⟩, .takeRx .v6 ⟨1700000001, 6⟩], _, rfl, ?_, ?_, ?_, ?_⟩
  all_goals decide +kernel

end Saratoga
