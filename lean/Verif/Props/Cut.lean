import Verif.Lemmas.Cut
import Verif.Props.Listen
import Verif.Props.ClientFit
import Verif.Props.StatusOut
/-! # C164: frames that are cut short -/
namespace Saratoga

/-- **C164, data.** What is made of the first `k` bytes of a frame that is accepted: fewer than ten are refused, a cut
before the payload ends the process, a cut in the payload goes unnoticed and leaves the same data frame with less
payload; only a stamped frame with offsets of two bytes (payload from byte 26) is refused when all its payload is
missing. -/
theorem C164_data (T : Tables) (d0 x : Data) (f : List Byte) (whole : d0.decode T f = .ret (x, none))
    (k : Nat) (hk : k ≤ f.length) :
    d0.decode T (f.take k) =
      let head := f.length - x.payload.length
      if k < 10 then .ret (d0, some "data frame too short")
      else if k < head then .panic
      else if k = 26 ∧ head = 26 then .ret ({ x with payload := [] }, some "length of data payload is 0")
      else .ret ({ x with payload := x.payload.take (k - head) }, none) := by
  have hl : (f.take k).length = k := by rw [List.length_take]; omega
  unfold Data.decode at whole
  split at whole
  · cases whole
  rename_i long
  obtain ⟨header, h1, whole⟩ := Out.bind_eq_ret whole
  obtain ⟨session, h2, whole⟩ := Out.bind_eq_ret whole
  obtain ⟨rt, h3, whole⟩ := Out.bind_eq_ret whole
  simp only at h3 whole
  simp only
  unfold Data.decode
  rw [hl]
  by_cases short : k < 10
  · rw [if_pos short, if_pos short]; rfl
  rw [if_neg short, if_neg short, readWord_cut h1 hk, if_pos (by omega), Out.ret_bind, readWord_cut h2 hk,
    if_pos (by omega), Out.ret_bind]
  simp only [h3, Out.ret_bind]
  by_cases hy : rt = "yes"
  · rw [if_pos hy] at whole ⊢
    obtain ⟨tb, h4, whole⟩ := Out.bind_eq_ret whole
    obtain ⟨⟨ts, e⟩, h5, whole⟩ := Out.bind_eq_ret whole
    simp only at whole
    cases e with
    | some e => cases whole
    | none =>
      simp only at whole
      obtain ⟨desc, h6, whole⟩ := Out.bind_eq_ret whole
      cases hn : descSize desc with
      | none => rw [hn] at whole; cases whole
      | some n =>
        rw [hn] at whole
        simp only at whole
        obtain ⟨off, h7, whole⟩ := Out.bind_eq_ret whole
        obtain ⟨pay, h8, whole⟩ := Out.bind_eq_ret whole
        have hc := descSize_cases hn
        obtain ⟨lp, ep⟩ := sliceFrom_ret h8
        have hx : x = { d0 with header := header, session := session, tstamp := ts, offset := off, payload := pay } := by
          split at whole
          · cases whole
          · cases whole; rfl
        subst hx
        have head : f.length - pay.length = 24 + n := by rw [ep, List.length_drop]; omega
        simp only [head]
        rw [slice_cut h4 hk]
        by_cases c1 : 24 ≤ k
        · rw [if_pos c1, Out.ret_bind]
          simp only [h5, Out.ret_bind, h6, hn]
          rw [readNum_cut h7 hk]
          by_cases c2 : 24 + n ≤ k
          · rw [if_pos c2, Out.ret_bind, sliceFrom_cut h8 hk, if_pos c2, Out.ret_bind, if_neg (show ¬ k < 24 + n by omega)]
            have lt : (pay.take (k - (24 + n))).length = k - (24 + n) := by
              rw [List.length_take, ep, List.length_drop]; omega
            by_cases c3 : n = 2 ∧ (pay.take (k - (24 + n))).length = 0
            · rw [if_pos c3, if_pos (by omega), List.length_eq_zero_iff.1 c3.2]; rfl
            · rw [if_neg c3, if_neg (by omega)]; rfl
          · rw [if_neg c2, if_pos (by omega)]; rfl
        · rw [if_neg c1, if_pos (by omega)]; rfl
  · rw [if_neg hy] at whole ⊢
    obtain ⟨desc, h6, whole⟩ := Out.bind_eq_ret whole
    cases hn : descSize desc with
    | none => rw [hn] at whole; cases whole
    | some n =>
      rw [hn] at whole
      simp only at whole
      obtain ⟨off, h7, whole⟩ := Out.bind_eq_ret whole
      obtain ⟨pay, h8, whole⟩ := Out.bind_eq_ret whole
      have hc := descSize_cases hn
      obtain ⟨lp, ep⟩ := sliceFrom_ret h8
      cases whole
      have head : f.length - pay.length = 8 + n := by rw [ep, List.length_drop]; omega
      simp only [head, h6, Out.ret_bind, hn]
      rw [readNum_cut h7 hk]
      by_cases c2 : 8 + n ≤ k
      · rw [if_pos c2, Out.ret_bind, sliceFrom_cut h8 hk, if_pos c2, Out.ret_bind, if_neg (by omega), if_neg (by omega)]
        rfl
      · rw [if_neg c2, if_pos (by omega)]; rfl

theorem upToNul_take (l : List Byte) (j : Nat) : upToNul (l.take j) = (upToNul l).take j := by
  unfold upToNul
  induction l generalizing j with
  | nil => simp
  | cons b l ih =>
    cases j with
    | zero => simp
    | succ j =>
      simp only [List.take_succ_cons, List.takeWhile_cons]
      split
      · rw [ih, List.take_succ_cons]
      · simp

/-- **C164, requests.** A cut in the file name or right behind it ends the process; a cut in the authentication goes
unnoticed and leaves the same request with less of it. -/
theorem C164_request (r0 x : Request) (fresh : r0.fname = []) (f : List Byte) (whole : r0.decode f = .ret (x, none))
    (k : Nat) (hk : k ≤ f.length) :
    r0.decode (f.take k) =
      let head := 9 + x.fname.length
      if k < 9 then .ret (r0, some "request frame too short")
      else if k < head then .panic
      else .ret ({ x with auth := x.auth.take (k - head) }, none) := by
  have hl : (f.take k).length = k := by rw [List.length_take]; omega
  unfold Request.decode at whole
  split at whole
  · cases whole
  rename_i long
  obtain ⟨header, h1, whole⟩ := Out.bind_eq_ret whole
  obtain ⟨session, h2, whole⟩ := Out.bind_eq_ret whole
  obtain ⟨rest, h3, whole⟩ := Out.bind_eq_ret whole
  simp only [fresh, nameLoop_eq, List.nil_append] at whole
  obtain ⟨_, er⟩ := sliceFrom_ret h3
  have hx : x = { r0 with header := header, session := session, fname := garbled (upToNul rest), auth := f.drop (9 + (garbled (upToNul rest)).length) } ∧
      9 + (garbled (upToNul rest)).length ≤ f.length := by
    split at whole
    · rename_i he
      cases whole
      refine ⟨?_, by omega⟩
      rw [List.drop_of_length_le (by omega)]
    · obtain ⟨a, h4, whole⟩ := Out.bind_eq_ret whole
      obtain ⟨la, rfl⟩ := sliceFrom_ret h4
      cases whole
      exact ⟨by congr 2, by omega⟩
  obtain ⟨rfl, room⟩ := hx
  simp only
  unfold Request.decode
  rw [hl]
  by_cases short : k < 9
  · rw [if_pos short, if_pos short]; rfl
  rw [if_neg short, if_neg short, readWord_cut h1 hk, if_pos (by omega), Out.ret_bind, readWord_cut h2 hk,
    if_pos (by omega), Out.ret_bind, sliceFrom_cut h3 hk, if_pos (by omega), Out.ret_bind]
  simp only [fresh, nameLoop_eq, List.nil_append, upToNul_take]
  have lg := garbled_length (upToNul rest)
  by_cases c : k < 9 + (garbled (upToNul rest)).length
  · rw [if_pos c]
    have past : k < 9 + (garbled ((upToNul rest).take (k - 8))).length := by
      by_cases c' : (upToNul rest).length ≤ k - 8
      · rw [List.take_of_length_le c']; exact c
      · rw [garbled_length, List.length_take]; omega
    rw [if_neg (by omega)]
    unfold sliceFrom slice
    rw [if_neg (by omega)]
    rfl
  · rw [if_neg c, List.take_of_length_le (by omega)]
    split
    · rename_i he
      rw [show k - (9 + (garbled (upToNul rest)).length) = 0 by omega]
      rfl
    · rw [show (8 + 1 + (garbled (upToNul rest)).length) = 9 + (garbled (upToNul rest)).length by omega]
      unfold sliceFrom slice
      rw [hl, if_pos (by omega), List.drop_take, List.take_take, Nat.min_self]
      rfl

/-- **C164, beacons.** A cut before the name ends the process, a cut in the name goes unnoticed. -/
theorem C164_beacon (T : Tables) (b0 x : Beacon) (f : List Byte) (whole : b0.decode T f = .ret (x, none))
    (k : Nat) (hk : k ≤ f.length) :
    b0.decode T (f.take k) =
      let head := f.length - x.eid.length
      if k < head then .panic else .ret ({ x with eid := x.eid.take (k - head) }, none) := by
  unfold Beacon.decode at whole
  obtain ⟨header, h1, whole⟩ := Out.bind_eq_ret whole
  obtain ⟨fsp, h2, whole⟩ := Out.bind_eq_ret whole
  simp only at h2 whole
  have l4 := (readWord_bytes h1).1
  simp only
  unfold Beacon.decode
  rw [readWord_cut h1 hk]
  by_cases hy : fsp = "yes"
  · rw [if_pos hy] at whole
    obtain ⟨fsd, h3, whole⟩ := Out.bind_eq_ret whole
    cases hn : descSize fsd with
    | none =>
      rw [hn] at whole
      simp only at whole
      split at whole
      · cases whole
      · obtain ⟨e, _, whole⟩ := Out.bind_eq_ret whole; cases whole
    | some n =>
      rw [hn] at whole
      simp only at whole
      obtain ⟨v, h4, whole⟩ := Out.bind_eq_ret whole
      obtain ⟨e, h5, whole⟩ := Out.bind_eq_ret whole
      obtain ⟨le, ee⟩ := sliceFrom_ret h5
      cases whole
      have head : f.length - e.length = 4 + n := by rw [ee, List.length_drop]; omega
      simp only [head]
      by_cases c1 : 0 + 4 ≤ k
      · rw [if_pos c1, Out.ret_bind]
        simp only [h2, Out.ret_bind]
        rw [if_pos hy, h3]
        simp only [Out.ret_bind, hn]
        rw [readNum_cut h4 hk]
        by_cases c2 : 4 + n ≤ k
        · rw [if_pos c2, Out.ret_bind, sliceFrom_cut h5 hk, if_pos c2, Out.ret_bind, if_neg (by omega)]; rfl
        · rw [if_neg c2, if_pos (by omega)]; rfl
      · rw [if_neg c1, if_pos (by omega)]; rfl
  · rw [if_neg hy] at whole
    obtain ⟨e, h5, whole⟩ := Out.bind_eq_ret whole
    obtain ⟨le, ee⟩ := sliceFrom_ret h5
    cases whole
    have head : f.length - e.length = 4 := by rw [ee, List.length_drop]; omega
    simp only [head]
    by_cases c1 : 0 + 4 ≤ k
    · rw [if_pos c1, Out.ret_bind]
      simp only [h2, Out.ret_bind]
      rw [if_neg hy, sliceFrom_cut h5 hk, if_pos (by omega), Out.ret_bind, if_neg (by omega)]; rfl
    · rw [if_neg c1, if_pos (by omega)]; rfl

/-- **C164, status frames.** A cut in the fixed part ends the process, a cut in the holes goes unnoticed: the holes that
are complete are reported, the others are left out. -/
theorem C164_status (T : Tables) (s0 x : Status) (fresh : s0.holes = []) (f : List Byte)
    (whole : s0.decode T f = .ret (x, none)) (k : Nat) (hk : k ≤ f.length) :
    ∃ n rt, HasWidth T "descriptor" x.header n ∧ getStr T x.header "reqtstamp" = .ret rt ∧
    s0.decode T (f.take k) =
      let head := (if rt = "yes" then 24 else 8) + 2 * n
      if k < 12 then .ret (s0, some "status frame too short")
      else if k < head then .panic
      else .ret ({ x with holes := x.holes.take ((k - head) / (2 * n)) }, none) := by
  have hl : (f.take k).length = k := by rw [List.length_take]; omega
  unfold Status.decode at whole
  split at whole
  · cases whole
  rename_i long
  obtain ⟨header, h1, whole⟩ := Out.bind_eq_ret whole
  obtain ⟨session, h2, whole⟩ := Out.bind_eq_ret whole
  obtain ⟨rt, h3, whole⟩ := Out.bind_eq_ret whole
  simp only at h3 whole
  obtain ⟨⟨s, e, pos⟩, h4, whole⟩ := Out.bind_eq_ret whole
  simp only at whole
  cases e with
  | some e => cases whole
  | none =>
    simp only at whole
    obtain ⟨desc, h5, whole⟩ := Out.bind_eq_ret whole
    cases hn : descSize desc with
    | none => rw [hn] at whole; cases whole
    | some n =>
      rw [hn] at whole
      simp only at whole
      obtain ⟨p, h6, whole⟩ := Out.bind_eq_ret whole
      obtain ⟨i, h7, whole⟩ := Out.bind_eq_ret whole
      obtain ⟨rest, h8, whole⟩ := Out.bind_eq_ret whole
      obtain ⟨hs, h9, whole⟩ := Out.bind_eq_ret whole
      obtain ⟨lr, er⟩ := sliceFrom_ret h8
      have hc := descSize_cases hn
      cases whole
      have hpos : pos = (if rt = "yes" then 24 else 8) ∧ s.header = header ∧ s.holes = [] := by
        split at h4
        · rename_i hy
          obtain ⟨tb, _, h4⟩ := Out.bind_eq_ret h4
          obtain ⟨⟨ts, e⟩, _, h4⟩ := Out.bind_eq_ret h4
          cases h4
          exact ⟨by rw [if_pos hy], rfl, fresh⟩
        · rename_i hy
          cases h4
          exact ⟨by rw [if_neg hy], rfl, fresh⟩
      obtain ⟨hpos, hh, hz⟩ := hpos
      refine ⟨n, rt, ⟨desc, h5, by rw [← descSize_eq]; exact hn⟩, by simp only; rw [hh]; exact h3, ?_⟩
      simp only [← hpos]
      unfold Status.decode
      rw [hl]
      by_cases short : k < 12
      · rw [if_pos short, if_pos short]; rfl
      rw [if_neg short, if_neg short, readWord_cut h1 hk, if_pos (by omega), Out.ret_bind, readWord_cut h2 hk,
        if_pos (by omega), Out.ret_bind]
      simp only [h3, Out.ret_bind]
      have h4' : (if rt = "yes" then do
            let tb ← slice (f.take k) 8 24
            let (ts, e) ← s0.tstamp.get T tb
            pure ({ s0 with header := header, session := session, tstamp := ts }, e, 24)
          else pure ({ s0 with header := header, session := session }, none, 8) : Out (Status × Option Err × Nat)) =
          if pos ≤ k then .ret (s, none, pos) else .panic := by
        by_cases hy : rt = "yes"
        · rw [if_pos hy] at h4 hpos ⊢
          obtain ⟨tb, ha, h4⟩ := Out.bind_eq_ret h4
          rw [slice_cut ha hk, hpos]
          split
          · rw [hpos] at h4; rw [Out.ret_bind]; exact h4
          · rfl
        · rw [if_neg hy] at h4 hpos ⊢
          rw [h4, hpos, if_pos (by omega)]
      simp only at h4'
      rw [h4']
      by_cases c1 : pos ≤ k
      · rw [if_pos c1, Out.ret_bind]
        simp only [h5, Out.ret_bind, hn]
        rw [readNum_cut h6 hk]
        by_cases c2 : pos + n ≤ k
        · rw [if_pos c2, Out.ret_bind, readNum_cut h7 hk]
          by_cases c3 : pos + n + n ≤ k
          · rw [if_pos c3, Out.ret_bind, sliceFrom_cut h8 hk, if_pos c3, Out.ret_bind, if_neg (by omega)]
            have lt : (rest.take (k - (pos + n + n))).length = k - (pos + 2 * n) := by
              rw [List.length_take, er, List.length_drop]; omega
            rw [lt, Nat.div_div_eq_div_mul]
            rw [getHoles_cut h9 hk (by
                rw [Nat.div_div_eq_div_mul, er, List.length_drop]
                exact Nat.div_le_div_right (by omega)) (by
                have := Nat.div_mul_le_self (k - (pos + 2 * n)) (2 * n)
                rw [show n + n = 2 * n by omega]
                omega), Out.ret_bind, hz]
            simp only [List.length_nil, Nat.zero_add]
            rfl
          · rw [if_neg c3, if_pos (by omega)]; rfl
        · rw [if_neg c2, if_pos (by omega)]; rfl
      · rw [if_neg c1, if_pos (by omega)]; rfl

/-- **C164, directory entries.** A cut in the fixed part is refused or ends the process; a cut in the name goes unnoticed
and leaves an entry of another name. -/
theorem C164_dirent (T : Tables) (d0 x : DirEnt) (f : List Byte) (whole : d0.decode T f = .ret (x, none))
    (k : Nat) (hk : k ≤ f.length) :
    ∃ n, HasWidthD T x.header n ∧ x.path = garbled (upToNul (f.drop (10 + n))) ∧
    d0.decode T (f.take k) =
      if k < 12 then .ret (d0, some "DirEntGet - Entry too short")
      else if k < 10 + n then .panic
      else .ret ({ x with path := garbled ((upToNul (f.drop (10 + n))).take (k - (10 + n))) }, none) := by
  have hl : (f.take k).length = k := by rw [List.length_take]; omega
  unfold DirEnt.decode at whole
  split at whole
  · cases whole
  obtain ⟨hb, h1, whole⟩ := Out.bind_eq_ret whole
  obtain ⟨header, h2, whole⟩ := Out.bind_eq_ret whole
  obtain ⟨desc, h3, whole⟩ := Out.bind_eq_ret whole
  simp only at h3 whole
  cases hn : descSize desc with
  | none => rw [hn] at whole; cases whole
  | some n =>
    rw [hn] at whole
    simp only at whole
    obtain ⟨size, h4, whole⟩ := Out.bind_eq_ret whole
    obtain ⟨th, h5, whole⟩ := Out.bind_eq_ret whole
    obtain ⟨mb, h6, whole⟩ := Out.bind_eq_ret whole
    obtain ⟨⟨mt, e⟩, h7, whole⟩ := Out.bind_eq_ret whole
    simp only at whole
    cases e with
    | some e => cases whole
    | none =>
      simp only at whole
      obtain ⟨cb, h8, whole⟩ := Out.bind_eq_ret whole
      obtain ⟨⟨ct, e⟩, h9, whole⟩ := Out.bind_eq_ret whole
      simp only at whole
      cases e with
      | some e => cases whole
      | none =>
        simp only at whole
        obtain ⟨rest, h10, whole⟩ := Out.bind_eq_ret whole
        obtain ⟨_, er⟩ := sliceFrom_ret h10
        have hc := descSize_cases hn
        cases whole
        refine ⟨n, ⟨desc, h3, by rw [← descSize_eq]; exact hn⟩, ?_, ?_⟩
        · simp only [nameLoop_eq, List.nil_append, er]
          rw [show 2 + n + 8 = 10 + n by omega]
        unfold DirEnt.decode
        rw [hl]
        by_cases short : k < 12
        · rw [if_pos short, if_pos short]; rfl
        rw [if_neg short, if_neg short, slice_cut h1 hk, if_pos (by omega), Out.ret_bind, h2, Out.ret_bind]
        simp only [h3, Out.ret_bind, hn]
        rw [readNum_cut h4 hk, if_pos (by omega), Out.ret_bind]
        simp only [h5, Out.ret_bind]
        rw [slice_cut h6 hk]
        by_cases c1 : 2 + n + 4 ≤ k
        · rw [if_pos c1, Out.ret_bind, h7, Out.ret_bind]
          simp only
          rw [slice_cut h8 hk]
          by_cases c2 : 2 + n + 8 ≤ k
          · rw [if_pos c2, Out.ret_bind, h9, Out.ret_bind]
            simp only
            rw [sliceFrom_cut h10 hk, if_pos c2, Out.ret_bind, if_neg (by omega)]
            simp only [nameLoop_eq, List.nil_append, upToNul_take, er]
            rw [show 2 + n + 8 = 10 + n by omega]
            rfl
          · rw [if_neg c2, if_pos (by omega)]; rfl
        · rw [if_neg c1, if_pos (by omega)]; rfl

/-- **C164, metadata.** A cut before the directory entry is refused or ends the process, a cut in the entry does what
`C164_dirent` says. -/
theorem C164_metadata (T : Tables) (m0 x : MetaData) (f : List Byte) (whole : m0.decode T f = .ret (x, none))
    (k : Nat) (hk : k ≤ f.length) :
    let head := 8 + x.checksum.length
    ∃ n, HasWidthD T x.dir.header n ∧ x.dir.path = garbled (upToNul (f.drop (head + 10 + n))) ∧
    m0.decode T (f.take k) =
      if k < 8 then .ret (m0, some "MetaDataGet - Frame too short")
      else if k < head then .panic
      else if k < head + 12 then .ret ({ x with dir := m0.dir }, some "DirEntGet - Entry too short")
      else if k < head + 10 + n then .panic
      else .ret ({ x with dir := { x.dir with
        path := garbled ((upToNul (f.drop (head + 10 + n))).take (k - (head + 10 + n))) } }, none) := by
  have hl : (f.take k).length = k := by rw [List.length_take]; omega
  unfold MetaData.decode at whole
  split at whole
  · cases whole
  obtain ⟨header, h1, whole⟩ := Out.bind_eq_ret whole
  obtain ⟨session, h2, whole⟩ := Out.bind_eq_ret whole
  simp only at whole
  obtain ⟨c, h3, whole⟩ := Out.bind_eq_ret whole
  obtain ⟨rest, h4, whole⟩ := Out.bind_eq_ret whole
  obtain ⟨⟨d, e⟩, h5, whole⟩ := Out.bind_eq_ret whole
  cases whole
  obtain ⟨_, l3, ec⟩ := slice_ret h3
  obtain ⟨lr, er⟩ := sliceFrom_ret h4
  have head : 8 + c.length = 8 + (get T header "csumlen").toNat * 4 := by
    rw [ec, List.length_take, List.length_drop]; omega
  simp only [head]
  generalize hcs : (get T header "csumlen").toNat * 4 = w at *
  obtain ⟨n, hw, hp, cut⟩ := C164_dirent T m0.dir d rest h5 (k - (8 + w)) (by rw [er, List.length_drop]; omega)
  have dd : rest.drop (10 + n) = f.drop (8 + w + 10 + n) := by
    rw [er, List.drop_drop]; congr 1; omega
  refine ⟨n, hw, by rw [hp, dd], ?_⟩
  unfold MetaData.decode
  rw [hl]
  by_cases short : k < 8
  · rw [if_pos short, if_pos short]; rfl
  rw [if_neg short, if_neg short, readWord_cut h1 hk, if_pos (by omega), Out.ret_bind, readWord_cut h2 hk,
    if_pos (by omega), Out.ret_bind]
  simp only [hcs]
  rw [slice_cut h3 hk]
  by_cases c1 : 8 + w ≤ k
  · rw [if_pos c1, Out.ret_bind, if_neg (by omega), sliceFrom_cut h4 hk, if_pos c1, Out.ret_bind]
    simp only [cut]
    by_cases c2 : k - (8 + w) < 12
    · rw [if_pos c2, if_pos (by omega), Out.ret_bind]; rfl
    · rw [if_neg c2, if_neg (show ¬ k < 8 + w + 12 by omega)]
      by_cases c3 : k - (8 + w) < 10 + n
      · rw [if_pos c3, if_pos (by omega)]; rfl
      · rw [if_neg c3, if_neg (by omega), Out.ret_bind, dd,
          show k - (8 + w) - (10 + n) = k - (8 + w + 10 + n) by omega]
        rfl
  · rw [if_neg c1, if_pos (by omega)]; rfl

/-- `y` is `x` with its last, variable part cut short: name, authentication, payload, path or holes. -/
def Frame.PartOf : Frame → Frame → Prop
  | .beacon y, .beacon x => y = { x with eid := y.eid } ∧ y.eid <+: x.eid
  | .request y, .request x => y = { x with auth := y.auth } ∧ y.auth <+: x.auth
  | .data y, .data x => y = { x with payload := y.payload } ∧ y.payload <+: x.payload
  | .metadata y, .metadata x => y = { x with dir := { x.dir with path := y.dir.path } } ∧ y.dir.path <+: x.dir.path
  | .status y, .status x => y = { x with holes := y.holes } ∧ y.holes <+: x.holes
  | _, _ => False

theorem headWord_take (f : List Byte) (k : Nat) (hk : 4 ≤ k) : headWord (f.take k) = headWord f := by
  unfold headWord
  rw [List.take_take, Nat.min_eq_left hk]

theorem says_long {T : Tables} {f : List Byte} {x : Frame} (h : Says T f x) : 4 ≤ f.length := by
  cases x with
  | beacon b =>
    obtain ⟨w, h1, _⟩ := Out.bind_eq_ret h.2
    have := (readWord_bytes h1).1
    omega
  | request r =>
    have h := h.2
    unfold Request.decode at h
    split at h
    · cases h
    · omega
  | data d =>
    have h := h.2
    unfold Data.decode at h
    split at h
    · cases h
    · omega
  | metadata m =>
    have h := h.2
    unfold MetaData.decode at h
    split at h
    · cases h
    · omega
  | status s =>
    have h := h.2
    unfold Status.decode at h
    split at h
    · cases h
    · omega

theorem garbled_take (l : List Byte) (j : Nat) : garbled (l.take j) <+: garbled l := by
  refine ⟨garbled (l.drop j), ?_⟩
  unfold garbled
  rw [← List.flatMap_append, List.take_append_drop]

/-- **C164** What is left: if a cut goes unnoticed, what is read is true as far as it goes. The kind, the header, the
session and all numbers are those of the whole frame, and only the end of the last part is missing: a data frame has
fewer bytes at the same place, a status reports fewer holes. -/
theorem C164_true_partial (T : Tables) (f : List Byte) (x y : Frame) (whole : Says T f x) (k : Nat)
    (part : Says T (f.take k) y) : y.PartOf x := by
  by_cases hk : k ≤ f.length
  case neg =>
    rw [List.take_of_length_le (by omega)] at part
    cases x <;> cases y <;> obtain ⟨h1, h2⟩ := whole <;> obtain ⟨h3, h4⟩ := part <;> rw [h1] at h3 <;>
      first
      | (simp at h3; done)
      | (rw [h2] at h4; cases h4; exact ⟨rfl, List.prefix_refl _⟩)
  have hl : 4 ≤ k := by
    have := says_long part
    rw [List.length_take] at this
    omega
  cases x <;> cases y <;> obtain ⟨h1, h2⟩ := whole <;> obtain ⟨h3, h4⟩ := part <;> rw [headWord_take f k hl, h1] at h3
  all_goals first | (simp at h3; done) | skip
  · rw [C164_beacon T _ _ f h2 k hk] at h4
    simp only at h4
    split at h4
    · cases h4
    · cases h4; exact ⟨rfl, List.take_prefix _ _⟩
  · rw [C164_request _ _ rfl f h2 k hk] at h4
    simp only at h4
    split at h4
    · cases h4
    · split at h4
      · cases h4
      · cases h4; exact ⟨rfl, List.take_prefix _ _⟩
  · rw [C164_data T _ _ f h2 k hk] at h4
    simp only at h4
    split at h4
    · cases h4
    · split at h4
      · cases h4
      · split at h4
        · cases h4
        · cases h4; exact ⟨rfl, List.take_prefix _ _⟩
  · obtain ⟨n, _, hp, e⟩ := C164_metadata T _ _ f h2 k hk
    rw [e] at h4
    simp only at h4
    split at h4
    · cases h4
    · split at h4
      · cases h4
      · split at h4
        · cases h4
        · split at h4
          · cases h4
          · cases h4
            refine ⟨rfl, ?_⟩
            simp only [hp]
            exact garbled_take _ _
  · obtain ⟨n, rt, _, _, e⟩ := C164_status T _ _ rfl f h2 k hk
    rw [e] at h4
    simp only at h4
    generalize (if rt = "yes" then 24 else 8) + 2 * n = head at h4
    split at h4
    · cases h4
    · split at h4
      · cases h4
      · cases h4; exact ⟨rfl, List.take_prefix _ _⟩

/-- **C164, the listener.** It works on no part of a datagram: the MTU only decides whether a datagram is looked at at
all, and one that is too long is passed over. -/
theorem C164_whole_or_not (T : Tables) (clock : GoTime) (dg : List Byte) :
    (∀ mtu, mtu < dg.length + 60 → listenFrame T clock mtu dg = .ret .drop) ∧
    (∀ mtu mtu', dg.length + 60 ≤ mtu → dg.length + 60 ≤ mtu' →
      listenFrame T clock mtu dg = listenFrame T clock mtu' dg) := by
  refine ⟨fun mtu h => ?_, fun mtu mtu' h h' => ?_⟩
  · rcases listenFrame_eq T clock mtu dg with ⟨_, e⟩ | ⟨hs, _⟩
    · exact e
    · have := hs.2; omega
  · rcases listenFrame_eq T clock mtu dg with ⟨hn, e⟩ | ⟨hs, e⟩ <;>
      rcases listenFrame_eq T clock mtu' dg with ⟨hn', e'⟩ | ⟨hs', e'⟩
    · rw [e, e']
    · exact absurd ⟨hs'.1, h⟩ hn
    · exact absurd ⟨hs.1, h'⟩ hn'
    · rw [e, e']

/-- **C164, own frames.** No data frame made for the MTU is passed over by a listener with this MTU for its length. -/
theorem C164_own_data (mtu : Nat) (file : List Byte) (session : BitVec 32) (ps : List (String × String))
    (text : DataText ps) (named : lastValue "descriptor" ps ≠ none) (plen : Nat)
    (computed : maxPaylen mtu (render ps) = .ret plen) (last k : Nat) (x : Data)
    (at_ : FrameAt file plen session ps last k x) (frame : List Byte)
    (encoded : x.encode shipped = .ret (.ok frame)) : Sized mtu frame := by
  have h := C91_fits_partial mtu file session ps text named plen computed last k x at_ frame encoded
  obtain ⟨_, _, n, ts, _, _, _, _, rfl⟩ := Data.encode_inv encoded
  unfold ipUdp at h
  refine ⟨?_, by omega⟩
  simp only [List.length_append, be32_length]
  omega

example := fun x at_ frame => C164_own_data 81 [1, 2, 3, 4, 5, 6, 7] 9 putText (by decide +kernel) (by decide +kernel) 3
  (by decide +kernel) 2 1 x at_ frame

/-- **C164, own frames.** Nor is a status frame with at most as many holes as reckoned for the MTU. -/
theorem C164_own_status (T : Tables) (sep : Separated T statusFields)
    (unset : getStr T 0#32 "reqtstamp" ≠ .ret "yes") (clock : GoTime) (text : String) (info : Sinfo)
    (s : Status) (built : Status.zero.new T clock text info = .ret (s, none)) (frame : List Byte)
    (enc : s.encode T = .ret (.ok frame)) (mtu : Nat) (k : Int) (ok : stpaylen mtu text = .ret k)
    (few : info.holes.length ≤ k) (noBare : NoBareStamp text) (room : 92 + 16 * (stampCount text : Int) ≤ mtu) :
    Sized mtu frame := by
  have h := C49_fits_partial T sep unset clock text info s built frame enc mtu k ok few noBare room
  obtain ⟨_, _, n, _, _, _, rfl⟩ := Status.encode_inv enc
  unfold ipUdp at h
  refine ⟨?_, by omega⟩
  simp only [List.length_append, be32_length]
  omega

example : Separated shipped statusFields ∧ getStr shipped 0#32 "reqtstamp" ≠ .ret "yes" ∧ NoBareStamp (render okText) ∧
    92 + 16 * (stampCount (render okText) : Int) ≤ (1500 : Nat) ∧ stpaylen (1500 : Nat) (render okText) = .ret 355 := by
  decide +kernel

example : ∃ s frame, Status.zero.new shipped ⟨0, 0⟩ (render okText) ⟨7, 5, 6, [⟨1, 2⟩]⟩ = .ret (s, none) ∧
    s.encode shipped = .ret (.ok frame) := ⟨_, _, rfl, rfl⟩

/-! ## The counterexample and concrete cases -/

/-- Metadata of a file "ab". -/
def metaAb : List Byte := [0x22, 0, 0, 0, 0, 0, 0, 5, 0x80, 0, 0, 9, 0, 0, 0, 1, 0, 0, 0, 2, 0x61, 0x62, 0]

/-- A status with two holes. -/
def statusTwo : List Byte := [0x24, 0, 0, 0, 0, 0, 0, 5, 0, 9, 0, 9, 0, 1, 0, 2, 0, 4, 0, 5]

/-- A data frame with two bytes. -/
def dataTwo : List Byte := [0x23, 0, 0, 0, 0, 0, 0, 5, 0, 7, 0x41, 0x42]

/-- A request for "f" with two bytes of authentication. -/
def requestTwo : List Byte := [0x21, 0x0F, 0, 0x01, 0, 0, 0, 5, 0x66, 0, 1, 2]

/-- A beacon of "hi!!". -/
def beaconHi : List Byte := [0x20, 0, 0, 0, 104, 105, 33, 33]

theorem says_metadata {T : Tables} {f : List Byte} {p : List Byte}
    (h : (match getStr T (headWord f) "frametype", MetaData.zero.decode T f with
      | .ret ft, .ret (m, none) => ft == "metadata" && m.dir.path == p | _, _ => false) = true) :
    ∃ m : MetaData, Says T f (.metadata m) ∧ m.dir.path = p := by
  split at h
  · rename_i ft m h1 h2
    simp only [Bool.and_eq_true, beq_iff_eq] at h
    exact ⟨m, ⟨by rw [h1, h.1], h2⟩, h.2⟩
  · cases h

/-- **C164** fails: of the metadata of the file "ab" the listener takes all bytes but the last two for the metadata of a
file "a". -/
theorem C164_counterexample : ∃ x y : MetaData, Says shipped metaAb (.metadata x) ∧ x.dir.path = [0x61#8, 0x62#8] ∧
    (∀ clock, listenFrame shipped clock 1500 (metaAb.take 21) = .ret (.rx (.metadata y))) ∧ y.dir.path = [0x61#8] := by
  obtain ⟨x, hx, px⟩ := says_metadata (T := shipped) (f := metaAb) (p := [0x61#8, 0x62#8]) (by decide +kernel)
  obtain ⟨y, hy, py⟩ := says_metadata (T := shipped) (f := metaAb.take 21) (p := [0x61#8]) (by decide +kernel)
  refine ⟨x, y, hx, px, fun clock => C42_delivered shipped clock 1500 _ _ (by decide) (by decide +kernel) hy ?_, py⟩
  trivial

example : ∃ x, Data.zero.decode shipped dataTwo = .ret (x, none) ∧ 11 ≤ dataTwo.length := ⟨_, rfl, by decide⟩
example : ∃ x, Request.zero.decode requestTwo = .ret (x, none) ∧ Request.zero.fname = [] := ⟨_, rfl, rfl⟩
example : ∃ x, Beacon.zero.decode shipped beaconHi = .ret (x, none) := ⟨_, rfl⟩
example : ∃ x, Status.zero.decode shipped statusTwo = .ret (x, none) ∧ Status.zero.holes = [] := ⟨_, rfl, rfl⟩
example : ∃ x, MetaData.zero.decode shipped metaAb = .ret (x, none) := ⟨_, rfl⟩
example : ∃ x, DirEnt.zero.decode shipped (metaAb.drop 8) = .ret (x, none) := ⟨_, rfl⟩
example : ∃ x y, Says shipped dataTwo (.data x) ∧ Says shipped (dataTwo.take 11) (.data y) ∧ y.payload = [0x41#8] :=
  ⟨_, _, ⟨by decide +kernel, rfl⟩, ⟨by decide +kernel, rfl⟩, by decide +kernel⟩

end Saratoga
