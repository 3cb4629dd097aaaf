import Verif.Props.PrintText
import Verif.Props.Config
import Verif.Props.System
import Verif.Model.Console
import Verif.Model.Receive
/-!
# More of what is printed and shown

C15: what is said about a configuration that is refused. C112, C116: the arrow keys and the characters in the window of the
commands. C120: a disk that cannot be asked. C122: the lines of the flags, of the checksum and of long requests. C133: the word for a frame.
-/
namespace Saratoga

/-! ## C122 -/

/-- The text has this as a line of its own. -/
def HasLine (text : List Byte) (line : String) : Prop := ∃ before after, text = before ++ (utf8 ("\n" ++ line ++ "\n") ++ after)

theorem flagLine {T : Tables} {pad : String} {name : String → Out String} : ∀ {fs : List String} {t : List Byte},
    flagLines pad name fs = .ret t → ∀ f ∈ fs, ∃ n, name f = .ret n ∧ ∀ (pre post : List Byte),
      HasLine (pre ++ (utf8 "\n" ++ (t ++ post))) (pad ++ f ++ ":" ++ n)
  | [], t, _, f, hf => by cases hf
  | g :: rest, t, h, f, hf => by
    obtain ⟨n, hn, h⟩ := bind_ret h
    obtain ⟨more, hm, h⟩ := bind_ret h
    cases h
    rcases List.mem_cons.1 hf with rfl | hf
    · refine ⟨n, hn, fun pre post => ⟨pre, more ++ post, ?_⟩⟩
      simp only [utf8_append, List.append_assoc]
    · obtain ⟨n', hn', all⟩ := flagLine (T := T) hm f hf
      refine ⟨n', hn', fun pre post => ?_⟩
      have := all (pre ++ (utf8 "\n" ++ (utf8 pad ++ (utf8 g ++ (utf8 ":" ++ utf8 n))))) post
      simpa only [List.append_assoc] using this

/-- **C122** The long form of a frame has a line for each flag of its kind, with the name of what the header has in it; the
long form of a directory entry has one for each of its flags. -/
theorem C122_flag_lines (T : Tables) (text : List Byte) (order : List String) (f : String) :
    (∀ b : Beacon, b.printText T = .ret text → f ∈ values T "beacon" →
      ∃ n, getStr T b.header f = .ret n ∧ HasLine text ("  " ++ f ++ ":" ++ n)) ∧
    (∀ d : Data, d.printText T = .ret text → f ∈ values T "data" →
      ∃ n, getStr T d.header f = .ret n ∧ HasLine text ("  " ++ f ++ ":" ++ n)) ∧
    (∀ r : Request, r.printText T = .ret text → f ∈ values T "request" →
      ∃ n, getStr T r.header f = .ret n ∧ HasLine text ("  " ++ f ++ ":" ++ n)) ∧
    (∀ s : Status, s.printText T = .ret text → f ∈ values T "status" →
      ∃ n, getStr T s.header f = .ret n ∧ HasLine text ("  " ++ f ++ ":" ++ n)) ∧
    (∀ m : MetaData, m.printText T order = .ret text → f ∈ values T "metadata" →
      ∃ n, getStr T m.header f = .ret n ∧ HasLine text ("  " ++ f ++ ":" ++ n)) ∧
    (∀ d : DirEnt, d.printText T order = .ret text → f ∈ order →
      ∃ n, getDStr T d.header f = .ret n ∧ HasLine text ("    " ++ f ++ ":" ++ n)) := by
  refine ⟨fun b h hf => ?_, fun d h hf => ?_, fun r h hf => ?_, fun s h hf => ?_, fun m h hf => ?_, fun d h hf => ?_⟩
  · obtain ⟨t, ht, h⟩ := bind_ret h
    obtain ⟨_, _, h⟩ := bind_ret h
    cases h
    obtain ⟨n, hn, all⟩ := flagLine (T := T) ht f hf
    exact ⟨n, hn, by simpa only [List.append_assoc] using all (utf8 "Beacon: 0x" ++ hexadecimal b.header.toNat) _⟩
  · obtain ⟨t, ht, h⟩ := bind_ret h
    obtain ⟨_, _, h⟩ := bind_ret h
    cases h
    obtain ⟨n, hn, all⟩ := flagLine (T := T) ht f hf
    exact ⟨n, hn, by simpa only [List.append_assoc] using all (utf8 "Data: 0x" ++ hexadecimal d.header.toNat) _⟩
  · obtain ⟨t, ht, h⟩ := bind_ret h
    cases h
    obtain ⟨n, hn, all⟩ := flagLine (T := T) ht f hf
    exact ⟨n, hn, by simpa only [List.append_assoc] using all (utf8 "Request: 0x" ++ hexadecimal r.header.toNat) _⟩
  · obtain ⟨t, ht, h⟩ := bind_ret h
    obtain ⟨_, _, h⟩ := bind_ret h
    cases h
    obtain ⟨n, hn, all⟩ := flagLine (T := T) ht f hf
    exact ⟨n, hn, by simpa only [List.append_assoc] using all (utf8 "Status: 0x" ++ hexadecimal s.header.toNat) _⟩
  · obtain ⟨t, ht, h⟩ := bind_ret h
    obtain ⟨_, _, h⟩ := bind_ret h
    obtain ⟨_, _, h⟩ := bind_ret h
    cases h
    obtain ⟨n, hn, all⟩ := flagLine (T := T) ht f hf
    exact ⟨n, hn, by simpa only [List.append_assoc] using all (utf8 "Metadata: 0x" ++ hexadecimal m.header.toNat) _⟩
  · obtain ⟨t, ht, h⟩ := bind_ret h
    obtain ⟨_, _, h⟩ := bind_ret h
    cases h
    obtain ⟨n, hn, all⟩ := flagLine (T := T) ht f hf
    exact ⟨n, hn, by simpa only [List.append_assoc] using all (utf8 "  Directory Entry: 0x" ++ hexadecimal d.header.toNat) _⟩

example : ((⟨0x23800000#32, 5, Timestamp.zero, 7, [65#8]⟩ : Data).printText shipped).returns ∧
    "descriptor" ∈ values shipped "data" := by decide +kernel

/-- **C122** The long form of a request has its session behind `session:` and ends in its file name and its authentication.
Both forms of metadata have its session, and if it has a checksum its name and its bytes. -/
theorem C122_long_shows (T : Tables) (text : List Byte) (order : List String) :
    (∀ r : Request, r.printText T = .ret text → Prints text "  session:" (utf8 (toString r.session.toNat)) ∧
      ∃ before, text = before ++ utf8 "\n  filename:" ++ r.fname ++ utf8 "\n  auth:" ++ r.auth) ∧
    (∀ m : MetaData, m.shortText T = .ret text → Prints text "\n  session:" (utf8 (toString m.session.toNat)) ∧
      ∀ cs, getStr T m.header "csumtype" = .ret cs → cs ≠ "none" →
        ∃ before after, text = before ++ (utf8 "\n  checksum [" ++ (utf8 cs ++ (utf8 "]:" ++ (hexBytes m.checksum ++ (utf8 "\n" ++ after)))))) ∧
    (∀ m : MetaData, m.printText T order = .ret text → Prints text "  session:" (utf8 (toString m.session.toNat)) ∧
      ∀ cs, getStr T m.header "csumtype" = .ret cs → cs ≠ "none" →
        ∃ before after, text = before ++ (utf8 "\n  Checksum [" ++ (utf8 cs ++ (utf8 "]:" ++ (hexBytes m.checksum ++ (utf8 "\n" ++ after)))))) := by
  simp only [← decimal_eq]
  refine ⟨fun r h => ?_, fun m h => ?_, fun m h => ?_⟩
  · obtain ⟨t, _, h⟩ := bind_ret h
    cases h
    exact ⟨⟨utf8 "Request: 0x" ++ (hexadecimal r.header.toNat ++ (utf8 "\n" ++ t)), utf8 "\n  filename:" ++ (r.fname ++
      (utf8 "\n  auth:" ++ r.auth)), by simp only [List.append_assoc], stops_append _ (by decide +kernel)⟩, _, rfl⟩
  · obtain ⟨cs, hc, h⟩ := bind_ret h
    obtain ⟨dir, _, h⟩ := bind_ret h
    cases h
    have s : utf8 "\n  session:" = utf8 "\n" ++ utf8 "  session:" := by decide +kernel
    have k : utf8 "\n  checksum [" = utf8 "\n" ++ utf8 "  checksum [" := by decide +kernel
    refine ⟨⟨utf8 "Metadata: 0x" ++ hexadecimal m.header.toNat, utf8 "\n" ++ (checksumLine "  checksum [" m cs ++ dir),
      by simp only [s, List.append_assoc], stops_append _ (by decide +kernel)⟩, fun cs' hc' no => ?_⟩
    rw [hc] at hc'
    cases hc'
    refine ⟨utf8 "Metadata: 0x" ++ (hexadecimal m.header.toNat ++ (utf8 "\n" ++ (utf8 "  session:" ++ decimal m.session.toNat))), dir, ?_⟩
    rw [checksumLine, if_neg no]
    simp only [k, List.append_assoc]
  · obtain ⟨t, _, h⟩ := bind_ret h
    obtain ⟨cs, hc, h⟩ := bind_ret h
    obtain ⟨dir, _, h⟩ := bind_ret h
    cases h
    have k : utf8 "\n  Checksum [" = utf8 "\n" ++ utf8 "  Checksum [" := by decide +kernel
    refine ⟨⟨utf8 "Metadata: 0x" ++ (hexadecimal m.header.toNat ++ (utf8 "\n" ++ t)), utf8 "\n" ++
      (checksumLine "  Checksum [" m cs ++ dir), by simp only [List.append_assoc], stops_append _ (by decide +kernel)⟩,
      fun cs' hc' no => ?_⟩
    rw [hc] at hc'
    cases hc'
    refine ⟨utf8 "Metadata: 0x" ++ (hexadecimal m.header.toNat ++ (utf8 "\n" ++ (t ++ (utf8 "  session:" ++ decimal m.session.toNat)))),
      dir, ?_⟩
    rw [checksumLine, if_neg no]
    simp only [k, List.append_assoc]

/-! ## C133 -/

/-- **C133** What is said about a frame that is received names its kind and the protocol it came by: about a beacon nothing is
said that names a kind. -/
theorem C133_kind (S : Setup) (w : World) (fam fam' : Fam) (clock : GoTime) (f : Frame) (source : UDPAddr) (ls : List Said)
    (word : String) (h : rxSays S w fam clock f source = .ret ls) :
    ⟨.msg, .received fam' word⟩ ∈ ls ↔ fam' = fam ∧ ((∃ d, f = .data d ∧ word = "DATA") ∨ (∃ m, f = .metadata m ∧ word = "METADATA") ∨
      (∃ r, f = .request r ∧ word = "REQUEST") ∨ ∃ s, f = .status s ∧ word = "STATUS") := by
  cases f with
  | beacon b =>
    obtain ⟨_, _, h⟩ := bind_ret h
    obtain ⟨⟨_, new⟩, _, h⟩ := bind_ret h
    cases h
    cases new <;> simp
  | data d =>
    obtain ⟨_, _, h⟩ := bind_ret h
    cases h
    simp
  | metadata m =>
    obtain ⟨_, _, h⟩ := bind_ret h
    cases h
    simp
  | request r =>
    obtain ⟨⟨e, told⟩, _, h⟩ := bind_ret h
    cases h
    by_cases c : e.sent = none ∧ e.result = true <;> simp [c]
  | status s =>
    obtain ⟨_, _, h⟩ := bind_ret h
    cases h
    simp

/-! ## C120 -/

/-- **C120** Of a disk that cannot be asked about all numbers are zero, on every system. -/
theorem C120_unknown : DiskUsage.unix none = ⟨0, 0, 0, 0⟩ ∧ DiskUsage.windows none = ⟨0, 0, 0, 0⟩ := ⟨rfl, rfl⟩

/-! ## C112 -/

/-- **C112** In the window of the commands the arrows move the cursor by one line of the text, scrolling when it is at the
edge of the window, stop at the first and the last line, and leave text and column alone. -/
theorem C112_console (c : Console) (inside : c.cx < c.width ∧ c.cy < c.height) (text : c.oy + c.cy < c.lines.length) :
    c.down.oy + c.down.cy = min (c.oy + c.cy + 1) (c.lines.length - 1) ∧ c.up.oy + c.up.cy = c.oy + c.cy - 1 ∧
    c.down.cx = c.cx ∧ c.up.cx = c.cx ∧ c.down.lines = c.lines ∧ c.up.lines = c.lines := by
  have d : c.down = if (c.oy : Int) + c.cy = c.lines.length - 1 then c
      else if c.cy + 1 < c.height then { c with cy := c.cy + 1 } else { c with oy := c.oy + 1 } := by
    unfold Console.down Console.setCursor
    by_cases h : c.cy + 1 < c.height
    · rw [if_neg (show ¬ ((c.cx : Int) < 0 ∨ (c.width : Int) ≤ c.cx ∨ (c.cy : Int) + 1 < 0 ∨ (c.height : Int) ≤ c.cy + 1) by omega),
        if_pos h]
      rfl
    · rw [if_pos (show ((c.cx : Int) < 0 ∨ (c.width : Int) ≤ c.cx ∨ (c.cy : Int) + 1 < 0 ∨ (c.height : Int) ≤ c.cy + 1) by omega),
        if_neg h]
  have u : c.up = if 0 < c.cy then { c with cy := c.cy - 1 } else if c.oy > 0 then { c with oy := c.oy - 1 } else c := by
    unfold Console.up Console.setCursor
    by_cases h : 0 < c.cy
    · rw [if_neg (show ¬ ((c.cx : Int) < 0 ∨ (c.width : Int) ≤ c.cx ∨ (c.cy : Int) - 1 < 0 ∨ (c.height : Int) ≤ c.cy - 1) by omega),
        if_pos h, show ((c.cy : Int) - 1).toNat = c.cy - 1 by omega]
      rfl
    · rw [if_pos (show ((c.cx : Int) < 0 ∨ (c.width : Int) ≤ c.cx ∨ (c.cy : Int) - 1 < 0 ∨ (c.height : Int) ≤ c.cy - 1) by omega),
        if_neg h]
  rw [d, u]
  by_cases h1 : (c.oy : Int) + c.cy = c.lines.length - 1 <;> by_cases h2 : c.cy + 1 < c.height <;> by_cases h3 : 0 < c.cy <;>
    by_cases h4 : c.oy > 0 <;> simp only [h1, h2, h3, h4, if_true, if_false, and_self, and_true] <;> omega

example : (⟨"saratoga", 3, 20, 3, [[], [], [], [], []], 1, 0, 2, 0⟩ : Console).down.oy = 2 ∧
    (⟨"saratoga", 3, 20, 3, [[], [], [], [], []], 1, 0, 0, 0⟩ : Console).up.oy = 0 := by decide

/-! ## C116 -/

/-- **C116** A character that is typed is in the cell the cursor was on, every other row with text is as it was, and the
cursor goes to the next cell: in the same row, or at the right edge to the start of the next one, for which the window
scrolls if the cursor was at the bottom. It stays inside the window. -/
theorem C116_next_cell (c : Console) (ch : Char) (inside : c.cx < c.width ∧ c.cy < c.height) :
    ((c.write ch).lines.getD (c.oy + c.cy) [])[c.cx]? = some ch ∧
    (∀ row, row ≠ c.oy + c.cy → row < c.lines.length → (c.write ch).lines.getD row [] = c.lines.getD row []) ∧
    (if c.cx + 1 < c.width then (c.write ch).cx = c.cx + 1 ∧ (c.write ch).oy + (c.write ch).cy = c.oy + c.cy
      else (c.write ch).cx = 0 ∧ (c.write ch).oy + (c.write ch).cy = c.oy + c.cy + 1) ∧
    (c.write ch).cx < c.width ∧ (c.write ch).cy < c.height := by
  have l : (c.write ch).lines = (c.lines ++ List.replicate (c.oy + c.cy + 1 - c.lines.length) []).set (c.oy + c.cy)
      ((c.line ++ List.replicate (c.cx + 1 - c.line.length) '\x00').set c.cx ch) := by
    unfold Console.write
    split
    · rfl
    · split <;> rfl
  refine ⟨?_, fun row no text => ?_, ?_, ?_, ?_⟩
  · rw [l, List.getD_eq_getElem?_getD, List.getElem?_set_self (by simp only [List.length_append, List.length_replicate]; omega)]
    exact List.getElem?_set_self (by simp only [List.length_append, List.length_replicate]; omega)
  · rw [l, List.getD_eq_getElem?_getD, List.getD_eq_getElem?_getD, List.getElem?_set_ne (fun h => no h.symm),
      List.getElem?_append_left text]
  · unfold Console.write
    by_cases h : c.cx + 1 < c.width
    · simp only [if_pos h, and_self]
    · by_cases g : c.cy + 1 < c.height
      · simp only [if_neg h, if_pos g, true_and]; omega
      · simp only [if_neg h, if_neg g, true_and]; omega
  · unfold Console.write
    by_cases h : c.cx + 1 < c.width
    · simp only [if_pos h]; exact h
    · by_cases g : c.cy + 1 < c.height
      · simp only [if_neg h, if_pos g]; omega
      · simp only [if_neg h, if_neg g]; omega
  · unfold Console.write
    by_cases h : c.cx + 1 < c.width
    · simp only [if_pos h]; exact inside.2
    · by_cases g : c.cy + 1 < c.height
      · simp only [if_neg h, if_pos g]; exact g
      · simp only [if_neg h, if_neg g]; exact inside.2

example : (⟨"", 3, 3, 2, [['a'], ['b', 'c']], 0, 2, 1, 0⟩ : Console).write 'd' =
    ⟨"", 3, 3, 2, [['a'], ['b', 'c', 'd']], 1, 0, 1, 0⟩ := by decide

/-! ## C15 -/

/-- **C15** What is said about a configuration that is refused names a flag and the value for which it is refused. -/
theorem C15_refusal {F : Type} {cv : Conv F} {iter} (ord : IsOrder iter) {env : List Byte} {ts : FlagType 8}
    {doc : List (String × Json F)} {l : Loaded} {e : Err} (h : readConfig cv iter env ts doc = .ret (l, some e)) :
    ∃ p ∈ l.settings.global, valid l.tables p.1 p.2 = false ∧ e = "Invalid Flag:" ++ p.1 ++ "=" ++ p.2 := by
  obtain ⟨st, hs, hl, he⟩ := readConfig_ret h
  subst hl
  have key : ∀ g : List (String × String), firstInvalid st.tables g = some e →
      ∃ p ∈ g, valid st.tables p.1 p.2 = false ∧ e = "Invalid Flag:" ++ p.1 ++ "=" ++ p.2 := by
    intro g
    induction g with
    | nil => intro h; cases h
    | cons p g ih =>
      obtain ⟨f, v⟩ := p
      intro h
      rw [firstInvalid] at h
      split at h
      · rename_i hv
        cases h
        exact ⟨(f, v), List.mem_cons_self, hv, rfl⟩
      · obtain ⟨p, hp, r⟩ := ih h
        exact ⟨p, List.mem_cons_of_mem _ hp, r⟩
  obtain ⟨p, hp, r⟩ := key _ he.symm
  exact ⟨p, (ord _).mem_iff.1 hp, r⟩

end Saratoga
