import Verif.Model.Startup
import Verif.Lemmas.Files
import Verif.Props.Settings
import Verif.Props.Files
/-! # Property C105: starting the program -/
namespace Saratoga

/-- The host can listen to the group on the interface. -/
def Host.Joins (h : Host) (fam : Fam) (iface group : String) (port : Int) (m : Membership) : Prop :=
  m.iface = iface ∧ m.port = port ∧ h.parseIP group = some m.group ∧
  ∃ addr, h.join fam m = some addr ∧
    ((countChar addr '.' = 3 ∧ h.option fam .ip4 = true) ∨
     (countChar addr '.' ≠ 3 ∧ 2 ≤ countChar addr ':' ∧ h.option fam .ip6 = true))

theorem openGroup_iff (h : Host) (fam : Fam) (iface group : String) (port : Int) (m : Membership) :
    openGroup h fam iface group port = .ret m ↔ h.Joins fam iface group port m := by
  unfold openGroup Host.Joins
  cases hp : h.parseIP group with
  | none => simp
  | some ip =>
    simp only
    have key : ∀ addr, (mcastFamily addr ≠ .bad ∧ h.option fam (mcastFamily addr) = true) ↔
        ((countChar addr '.' = 3 ∧ h.option fam .ip4 = true) ∨
         (countChar addr '.' ≠ 3 ∧ 2 ≤ countChar addr ':' ∧ h.option fam .ip6 = true)) := by
      intro addr
      unfold mcastFamily isIPv4 isIPv6
      by_cases h4 : countChar addr '.' = 3
      · simp [h4]
      · by_cases h6 : 2 ≤ countChar addr ':'
        · simp [h4, h6]
        · simp [h4, h6]
    cases hj : h.join fam ⟨iface, ip, port⟩ with
    | none =>
      simp only
      constructor
      · intro e; cases e
      · rintro ⟨e1, e2, e3, addr, e4, _⟩
        cases e3
        obtain ⟨a, b, c⟩ := m
        simp only at e1 e2
        subst e1 e2
        rw [hj] at e4; cases e4
    | some addr =>
      simp only
      constructor
      · intro e
        split at e
        · rename_i ok
          cases e
          exact ⟨rfl, rfl, rfl, addr, hj, (key addr).1 ok⟩
        · cases e
      · rintro ⟨e1, e2, e3, addr', e4, e5⟩
        cases e3
        obtain ⟨a, b, c⟩ := m
        simp only at e1 e2
        subst e1 e2
        rw [hj] at e4; cases e4
        rw [if_pos ((key _).2 e5)]

/-- **C105** If the program gets to its loop, it was given a configuration file and an interface; it has the settings of
the file, works in the directory these name, has changed no file, knows the MTU of the interface, and listens there to
both groups of the settings. -/
theorem C105_running (h : Host) (args : List String) (r : Running) (started : start h args = .ret (some r)) :
    ∃ prog file name, args = [prog, file, name] ∧ h.config file = .ret (.ok r.settings) ∧
      h.fs.locate r.settings.sardir = some r.fs.cwd ∧ h.fs.node r.fs.cwd = some .dir ∧
      r.fs = { h.fs with cwd := r.fs.cwd } ∧ h.iface name = some r.mtu ∧
      ∃ g6 g4, r.groups = [(.v6, g6), (.v4, g4)] ∧
        h.Joins .v6 name r.settings.v6multicast r.settings.port g6 ∧
        h.Joins .v4 name r.settings.v4multicast r.settings.port g4 := by
  unfold start at started
  split at started
  · rename_i prog file name
    obtain ⟨cfg, hcfg, started⟩ := Out.bind_eq_ret started
    cases cfg with
    | error e => cases started
    | ok c =>
      simp only at started
      split at started
      · cases started
      rename_i fs hch
      split at started
      · cases started
      split at started
      · cases started
      rename_i mtu hif
      split at started
      · cases started
      split at started
      · cases started
      split at started
      · cases started
      obtain ⟨g6, h6, started⟩ := Out.bind_eq_ret started
      obtain ⟨g4, h4, started⟩ := Out.bind_eq_ret started
      cases started
      have hfs : ∃ l, h.fs.locate c.sardir = some l ∧ h.fs.node l = some .dir ∧ fs = { h.fs with cwd := l } := by
        unfold FS.chdir at hch
        split at hch
        · cases hch
        · rename_i l hl
          split at hch
          · cases hch
          · split at hch
            · rename_i hd
              cases hch
              exact ⟨l, hl, hd, rfl⟩
            · cases hch
      obtain ⟨l, hl, hd, rfl⟩ := hfs
      exact ⟨prog, file, name, rfl, hcfg, hl, hd, rfl, hif, g6, g4, rfl, (openGroup_iff ..).1 h6, (openGroup_iff ..).1 h4⟩
  · cases started

/-- Everything the start needs is there, for a working directory named by a path from the root. -/
structure Host.Ready (h : Host) (file name : String) (c : Cliflags) (dir : Loc) : Prop where
  config : h.config file = .ret (.ok c)
  rooted : c.sardir.head? = some slash
  place : h.fs.locate c.sardir = some dir
  isDir : h.fs.node dir = some .dir
  enter : h.fs.refuses .chdir dir = false
  look : h.fs.refuses .stat dir = false
  nic : ∃ mtu, h.iface name = some mtu
  gui : h.gui = true ∧ h.interfaces = true ∧ h.keys = true
  v6 : ∃ m, h.Joins .v6 name c.v6multicast c.port m
  v4 : ∃ m, h.Joins .v4 name c.v4multicast c.port m

theorem walk_cwd (fs : FS) (d : Loc) (names : List Name) (cur : Loc) :
    FS.walk { fs with cwd := d } cur names = fs.walk cur names := by
  induction names generalizing cur with
  | nil => rfl
  | cons n rest ih =>
    unfold FS.walk
    rw [ih]; rfl

theorem locate_rooted (fs : FS) (d : Loc) {path : List Byte} (rooted : path.head? = some slash) :
    FS.locate { fs with cwd := d } path = fs.locate path := by
  cases path with
  | nil => rfl
  | cons b rest =>
    cases rooted
    simp only [FS.locate, if_true]
    exact walk_cwd ..

/-- **C105** (partial.) With all that is needed and a directory named from the root, the program gets to its loop.
Missing: a directory named from where the program was started. -/
theorem C105_starts_partial (h : Host) (prog file name : String) (c : Cliflags) (dir : Loc)
    (ready : h.Ready file name c dir) : ∃ r, start h [prog, file, name] = .ret (some r) := by
  obtain ⟨mtu, hm⟩ := ready.nic
  obtain ⟨m6, h6⟩ := ready.v6
  obtain ⟨m4, h4⟩ := ready.v4
  have hch : h.fs.chdir c.sardir = ({ h.fs with cwd := dir }, none) := by
    simp [FS.chdir, ready.place, ready.enter, ready.isDir]
  have hst : FS.stat { h.fs with cwd := dir } c.sardir = some .dir := by
    unfold FS.stat
    rw [locate_rooted _ _ ready.rooted, ready.place]
    simp only [ready.look]
    exact ready.isDir
  refine ⟨⟨{ h.fs with cwd := dir }, c, mtu, [(.v6, m6), (.v4, m4)]⟩, ?_⟩
  unfold start
  simp [ready.config, hch, hst, hm, ready.gui, (openGroup_iff ..).2 h6, (openGroup_iff ..).2 h4, bind, Out.bind, pure]

/-- **C105** The program returns with a message, and without having done anything, exactly when it is not given two
words or cannot read the configuration. -/
theorem C105_message (h : Host) (args : List String) :
    start h args = .ret none ↔
      args.length ≠ 3 ∨ ∃ prog file name e, args = [prog, file, name] ∧ h.config file = .ret (.error e) := by
  constructor
  · intro e
    match args with
    | [] => left; decide
    | [_] => left; simp
    | [_, _] => left; simp
    | _ :: _ :: _ :: _ :: _ => left; simp
    | [prog, file, name] =>
      right
      refine ⟨prog, file, name, ?_⟩
      unfold start at e
      obtain ⟨cfg, hcfg, e⟩ := Out.bind_eq_ret e
      cases cfg with
      | error er => exact ⟨er, rfl, hcfg⟩
      | ok c =>
        exfalso
        simp only at e
        repeat' split at e
        all_goals first
          | (cases e; done)
          | (obtain ⟨_, _, e⟩ := Out.bind_eq_ret e
             obtain ⟨_, _, e⟩ := Out.bind_eq_ret e
             cases e)
  · rintro (l | ⟨prog, file, name, e, rfl, hc⟩)
    · match args, l with
      | [], _ => rfl
      | [_], _ => rfl
      | [_, _], _ => rfl
      | _ :: _ :: _ :: _ :: _, _ => rfl
      | [_, _, _], l => exact absurd rfl l
    · unfold start
      simp only [hc, Out.ret_bind]
      rfl

/-- **C105** A working directory that is not there, or is no directory, ends the program. -/
theorem C105_no_directory (h : Host) (prog file name : String) (c : Cliflags) (config : h.config file = .ret (.ok c))
    (missing : ∀ l, h.fs.locate c.sardir = some l → h.fs.node l ≠ some .dir) :
    start h [prog, file, name] = .fatal := by
  have : ∃ fs e, h.fs.chdir c.sardir = (fs, some e) := by
    unfold FS.chdir
    cases hl : h.fs.locate c.sardir with
    | none => exact ⟨_, _, rfl⟩
    | some l =>
      simp only
      split
      · exact ⟨_, _, rfl⟩
      · rw [if_neg (missing l hl)]; exact ⟨_, _, rfl⟩
  obtain ⟨fs, e, hch⟩ := this
  unfold start
  simp only [config, Out.ret_bind, hch]

/-- **C105** If all is there but the keys cannot be bound, `main` panics. -/
theorem C105_no_keys (h : Host) (prog file name : String) (c : Cliflags) (dir : Loc)
    (ready : h.Ready file name c dir) : start { h with keys := false } [prog, file, name] = .panic := by
  obtain ⟨mtu, hm⟩ := ready.nic
  have hch : h.fs.chdir c.sardir = ({ h.fs with cwd := dir }, none) := by
    simp [FS.chdir, ready.place, ready.enter, ready.isDir]
  have hst : FS.stat { h.fs with cwd := dir } c.sardir = some .dir := by
    unfold FS.stat
    rw [locate_rooted _ _ ready.rooted, ready.place]
    simp only [ready.look]
    exact ready.isDir
  unfold start
  simp [ready.config, hch, hst, hm, ready.gui, bind, Out.bind]

/-- **C105** (partial.) For a directory named from the root the files the running program opens are those of its
working directory. Missing: a directory named from where the program was started. -/
theorem C105_files_partial (h : Host) (args : List String) (r : Running) (started : start h args = .ret (some r))
    (rooted : r.settings.sardir.head? = some slash) (fname : List Byte) :
    r.fs.locate (fullName r.settings.sardir fname) = r.fs.walk r.fs.cwd (splitSlash fname) := by
  obtain ⟨_, _, _, _, _, hl, hd, hfs, _⟩ := C105_running h args r started
  generalize r.settings.sardir = sardir at *
  generalize r.fs.cwd = d at *
  rw [hfs]
  cases sardir with
  | nil => cases rooted
  | cons b rest =>
    cases rooted
    rw [walk_cwd, locate_rooted _ _ (show (fullName (slash :: rest) fname).head? = some slash from rfl)]
    rw [locate_fullName _ _ _ (List.cons_ne_nil _ _), hl]
    rfl

/-- **C105** A directory named from where the program was started: the same host, where everything is there, and the
program does not start, since it looks for the directory again after it has changed into it. If there is one of the same
name inside, it starts, and opens the files of that. -/
theorem C105_counterexample :
    let settings : Cliflags := { shippedSettings with sardir := [0x64#8] }
    let host (nodes : List (Loc × Node)) : Host :=
      { fs := ⟨nodes, [], fun _ _ => false⟩, config := fun _ => .ret (.ok settings), iface := fun _ => some 1500,
        gui := true, interfaces := true, keys := true, parseIP := fun _ => some [1#8], join := fun _ _ => some "0.0.0.0:7542",
        option := fun _ _ => true }
    start (host [([], .dir), ([[0x64#8]], .dir)]) ["saratoga", "saratoga.json", "en0"] = .fatal ∧
    ∃ r, start (host [([], .dir), ([[0x64#8]], .dir), ([[0x64#8], [0x64#8]], .dir)])
        ["saratoga", "saratoga.json", "en0"] = .ret (some r) ∧
      r.fs.cwd = [[0x64#8]] ∧
      r.fs.locate (fullName settings.sardir [0x66#8]) = some [[0x64#8], [0x64#8], [0x66#8]] := by
  refine ⟨rfl, _, rfl, rfl, by decide⟩

/-- A host on which the program starts. -/
def exampleHost : Host :=
  { fs := exFS, config := fun _ => .ret (.ok { shippedSettings with sardir := exDir }), iface := fun _ => some 1500,
    gui := true, interfaces := true, keys := true, parseIP := fun _ => some [224#8, 0#8, 0#8, 108#8],
    join := fun _ _ => some "0.0.0.0:7542", option := fun _ _ => true }

example : start { exampleHost with config := fun _ => .ret (.ok { shippedSettings with sardir := [slash, 0x71#8] }) }
    ["saratoga", "saratoga.json", "en0"] = .fatal := rfl

example : ∃ r, start exampleHost ["saratoga", "saratoga.json", "en0"] = .ret (some r) ∧ r.mtu = 1500 := ⟨_, rfl, rfl⟩

example : exampleHost.Ready "saratoga.json" "en0" { shippedSettings with sardir := exDir } [[0x64#8]] :=
  ⟨rfl, rfl, by decide, by decide, rfl, rfl, ⟨1500, rfl⟩, ⟨rfl, rfl, rfl⟩,
    ⟨⟨"en0", [224#8, 0#8, 0#8, 108#8], shippedSettings.port⟩, rfl, rfl, rfl, "0.0.0.0:7542", rfl, .inl ⟨by decide, rfl⟩⟩,
    ⟨⟨"en0", [224#8, 0#8, 0#8, 108#8], shippedSettings.port⟩, rfl, rfl, rfl, "0.0.0.0:7542", rfl, .inl ⟨by decide, rfl⟩⟩⟩

end Saratoga
