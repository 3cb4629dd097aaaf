import Verif.Props.Overwrite
import Verif.Props.Extent
import Verif.Props.PrintText
import Verif.Props.Scroll
/-! # Exactly how far C89, C115 and C122 hold -/
namespace Saratoga

/-! ## C89 -/

private theorem scan_clear_back (env : TranEnv) (fs : FS) (ttype : String) (peer : UDPAddr) (fname : List Byte)
    (may : ¬ (fileExists env.sardir fs fname ∧ (ttype = "get" ∨ ttype = "getdelete" ∨ ttype = "getdir")))
    (ts : List Transfer)
    (h : ∀ i ∈ ts, i.conn ≠ none ∧ ¬ (fname = i.filename ∧ env.str peer = env.str i.peer)) :
    scanTransfers env fs ttype peer fname ts = .clear := by
  induction ts with
  | nil => rfl
  | cons a rest ih =>
    simp only [scanTransfers]
    rw [if_neg (h a List.mem_cons_self).1, if_neg may, if_neg (h a List.mem_cons_self).2]
    exact ih fun i hi => h i (List.mem_cons_of_mem _ hi)

/-- Opening a file for anything but receiving it changes no file. -/
private theorem fileOpen_others (sardir fname : List Byte) (fs : FS) (ttype : String) (l : Loc) (c : List Byte)
    (ht : ¬ (ttype = "get" ∨ ttype = "take")) (hn : fs.node l = some (.file c)) :
    (fileOpen sardir fs fname ttype).1.node l = some (.file c) := by
  unfold fileOpen
  simp only
  rw [if_neg ht]
  split
  · split
    · exact hn
    · have mk : (fs.mkdir (fullName sardir fname)).1.node l = some (.file c) := by
        unfold FS.mkdir
        split
        · exact hn
        · rename_i m _
          split
          · exact hn
          · split
            · exact hn
            · rename_i free
              simp only
              rw [node_put_other _ _ _ _ (by rintro rfl; rw [hn] at free; cases free)]
              exact hn
      split
      · rename_i fs2 e
        rw [e] at mk
        have ch : (fs2.chdir (fullName sardir fname)).1.node l = some (.file c) := by
          unfold FS.chdir
          split
          · exact mk
          · split
            · exact mk
            · split
              · exact mk
              · exact mk
        split
        · rename_i e2; rw [e2] at ch; exact ch
        · rename_i e2; rw [e2] at ch; exact ch
      · rename_i e; rw [e] at mk; exact mk
  · split
    · split
      · exact hn
      · split
        · exact hn
        · exact hn
    · split
      · exact hn
      · exact hn

private theorem fileExists_of {sardir fname : List Byte} {fs : FS} {l : Loc} {c : List Byte}
    (hl : fs.locate (fullName sardir fname) = some l) (hn : fs.node l = some (.file c)) :
    fileExists sardir fs fname = !fs.refuses .stat l := by
  unfold fileExists FS.stat
  rw [hl]
  simp only
  cases fs.refuses .stat l with
  | true => rfl
  | false => simp [hn]

/-- **C89** Exactly which files lose their bytes when a transfer is started, of whatever type: the one the name leads to,
if it is not empty and may be written, the directory followed by the full name does not exist, no transfer lacks a
connection or has the same name and peer, and the file is to be taken, or got while no transfer is open or while nobody
may look at the file. -/
theorem C89_lost_iff (env : TranEnv) (c : Cliflags) (w w' : TranWorld) (ttype : String) (peer : UDPAddr)
    (fname : List Byte) (r : Except Err Transfer) (l : Loc) (content : List Byte)
    (done : newInitiator env c w ttype peer fname = .ret (w', r)) (hn : w.fs.node l = some (.file content)) :
    w'.fs.node l ≠ some (.file content) ↔
      (ttype = "take" ∨ ttype = "get" ∧ (w.transfers = [] ∨ w.fs.refuses .stat l = true)) ∧
      (∀ i ∈ w.transfers, i.conn ≠ none ∧ ¬ (fname = i.filename ∧ env.str peer = env.str i.peer)) ∧
      w.fs.locate (fullName env.sardir fname) = some l ∧ content ≠ [] ∧ w.fs.refuses .create l = false ∧
      fileExists env.sardir w.fs (fullName env.sardir fname) = false := by
  have clear : scanTransfers env w.fs ttype peer fname w.transfers = .clear →
      w'.fs = (fileOpen env.sardir w.fs fname ttype).1 := by
    intro hs
    unfold newInitiator at done
    rw [hs] at done
    obtain ⟨⟨w2, t⟩, add, e⟩ := Out.bind_eq_ret done
    cases e
    unfold addInitiator at add
    dsimp only at add
    obtain ⟨fm, -, add⟩ := Out.bind_eq_ret add
    split at add
    · cases add
    · cases add; rfl
  constructor
  · intro lost
    rcases newInitiator_ret done with ⟨-, -, same, -⟩ | ⟨hs, -⟩
    · rw [same] at lost; exact absurd hn lost
    · rw [clear hs] at lost
      have ht : ttype = "get" ∨ ttype = "take" := Classical.byContradiction fun no => lost (fileOpen_others _ _ _ _ _ _ no hn)
      have hl : w.fs.locate (fullName env.sardir fname) = some l := by
        rcases (fileOpen_effect env.sardir w.fs fname ttype).1 with same | ⟨m, hm, same⟩
        · exact absurd ((same l).trans hn) lost
        · by_cases e : l = m
          · rw [e]; exact hm
          · exact absurd ((same l e).trans hn) lost
      have k := mt (C55_kept_iff env.sardir fname w.fs ttype l content ht hl hn).2 lost
      refine ⟨?_, scan_clear _ _ _ _ _ _ hs, hl, fun h => k (.inl h), ?_, ?_⟩
      · rcases ht with rfl | rfl
        · refine .inr ⟨rfl, ?_⟩
          match hts : w.transfers with
          | [] => exact .inl rfl
          | i :: rest =>
            right
            rw [hts] at hs
            simp only [scanTransfers] at hs
            split at hs
            · cases hs
            · split at hs
              · cases hs
              · rename_i no
                rw [fileExists_of hl hn] at no
                simpa using no
        · exact .inl rfl
      · cases h : w.fs.refuses .create l with
        | false => rfl
        | true => exact absurd (.inr (.inr h)) k
      · cases h : fileExists env.sardir w.fs (fullName env.sardir fname) with
        | false => rfl
        | true => exact absurd (.inr (.inl h)) k
  · rintro ⟨which, free, hl, full, may, double⟩
    have hs : scanTransfers env w.fs ttype peer fname w.transfers = .clear := by
      rcases which with rfl | ⟨rfl, none | unseen⟩
      · exact scan_clear_back _ _ _ _ _ (by simp) _ free
      · rw [none]; rfl
      · exact scan_clear_back _ _ _ _ _ (by rw [fileExists_of hl hn, unseen]; simp) _ free
    rw [clear hs]
    intro kept
    rcases (C55_kept_iff env.sardir fname w.fs ttype l content
      (which.elim .inr fun h => .inl h.1) hl hn).1 kept with h | h | h
    · exact full h
    · rw [double] at h; cases h
    · rw [may] at h; cases h

/-- A get while nothing else goes on, of a file of two bytes. -/
example : ∃ w' r, newInitiator exampleEnv shippedSettings ⟨[], 0, exFS⟩ "get" hostA exName = .ret (w', r) ∧
    w'.fs.node [[0x64#8], [0x66#8]] ≠ some (.file [7#8, 8#8]) :=
  ⟨_, _, rfl, by rw [show FS.node _ _ = some (.file []) from rfl]; simp⟩

/-! ## C122 -/

/-- **C122** Exactly which requests print alike in the short form: those with the same header and session whose names and
authentications are the same when the word for the authentication is put between them. -/
theorem C122_request_iff (r r' : Request) : r.shortText = r'.shortText ↔
    r.header = r'.header ∧ r.session = r'.session ∧
      r.fname ++ utf8 "\n  auth:" ++ r.auth = r'.fname ++ utf8 "\n  auth:" ++ r'.auth := by
  constructor
  · intro eq
    have two := C122_request_partial shipped r r' _ (.inl ⟨eq, rfl⟩)
    refine ⟨two.1, two.2.1, ?_⟩
    unfold Request.shortText at eq
    rw [two.1, two.2.1] at eq
    simp only [List.append_assoc] at eq
    have := List.append_cancel_left (List.append_cancel_left (List.append_cancel_left (List.append_cancel_left
      (List.append_cancel_left eq))))
    simpa only [List.append_assoc] using this
  · rintro ⟨h, s, e⟩
    unfold Request.shortText
    rw [h, s]
    simp only [List.append_assoc] at e ⊢
    rw [e]

/-! ## C115 -/

/-- **C115** Exactly when switching to a window puts the cursor on its last row. In a window that scrolls by itself and
has more rows than fit: if the cursor was on the last line by count, it has to be on the lowest row shown, otherwise
there have to be as many lines as fit. In any other window: if the cursor was on the last line by count, no line may
take two rows; otherwise the lines have to fit, and together with what is scrolled away be all rows. -/
theorem C115_last_iff (p : Pane) (one : 0 < p.lines) (cursor : p.cy < p.height) (wrapped : p.lines ≤ p.rows) :
    (p.step .last).row = p.rows - 1 ↔
      if p.auto = true ∧ p.height < p.rows then
        (p.row + 1 = p.lines ∧ p.cy + 1 = p.height) ∨ (p.row + 1 ≠ p.lines ∧ p.height ≤ p.lines)
      else
        (p.row + 1 = p.lines ∧ p.lines = p.rows) ∨
          (p.row + 1 ≠ p.lines ∧ p.lines ≤ p.height ∧ p.oy + p.lines = p.rows) := by
  unfold Pane.step
  rw [Pane.act, Pane.last_eq one (by omega)]
  unfold Pane.draw
  by_cases ha : p.auto = true ∧ p.height < p.rows
  · rw [if_pos ha]
    by_cases h : p.row + 1 = p.lines
    · rw [if_pos h, if_pos ha]
      unfold Pane.row at h ⊢
      dsimp only
      omega
    · rw [if_neg h]
      by_cases h2 : p.lines ≤ p.height
      · rw [if_pos h2, if_pos ha]
        unfold Pane.row at h ⊢
        dsimp only
        omega
      · rw [if_neg h2, if_pos ha]
        unfold Pane.row at h ⊢
        dsimp only
        omega
  · rw [if_neg ha]
    by_cases h : p.row + 1 = p.lines
    · rw [if_pos h, if_neg ha]
      unfold Pane.row at h ⊢
      omega
    · rw [if_neg h]
      by_cases h2 : p.lines ≤ p.height
      · rw [if_pos h2, if_neg ha]
        unfold Pane.row at h ⊢
        dsimp only
        omega
      · rw [if_neg h2, if_neg ha]
        unfold Pane.row at h ⊢
        dsimp only
        omega

/-- The packet window with seven lines, of which five fit, and the cursor at the top: not on the last row. -/
example : ((⟨7, 7, 5, false, 0, 0⟩ : Pane).step .last).row ≠ 6 := by decide

end Saratoga
