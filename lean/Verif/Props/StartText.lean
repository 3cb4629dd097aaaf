import Verif.Model.StartText
import Verif.Props.Limits
/-! # What the program says when it starts: C147 -/
namespace Saratoga

/-- A family by name. -/
def famName : Fam → String
  | .v6 => "IPv6"
  | .v4 => "IPv4"

/-- A text has another in it. -/
def HasWords (text part : String) : Prop := ∃ before after : String, text = before ++ part ++ after

theorem mainSays_three (h : Host) (f : StartFacts) (prog file name : String) (c : Cliflags) (fs : FS) (n : Node) (mtu : Nat)
    (hc : h.config file = .ret (.ok c)) (hch : h.fs.chdir c.sardir = (fs, none)) (hst : fs.stat c.sardir = some n)
    (hif : h.iface name = some mtu) (hg : h.gui = true) (hi : h.interfaces = true) (hk : h.keys = true) :
    mainSays h f [prog, file, name] = (nicLines name f.nics).map (Prod.mk .msg) ++
      match groupSays h f .v6 name c.v6multicast c.port with
      | some says => says
      | none =>
        match groupSays h f .v4 name c.v4multicast c.port with
        | some says => says
        | none => (readyLines f c (h.parseIP c.v6multicast) (h.parseIP c.v4multicast)).map (Prod.mk .msg) := by
  simp only [mainSays, hc, hch, hst, hif, hg, hi, hk, Bool.true_eq_false, if_false]
  rfl

theorem groupSays_none_iff (h : Host) (f : StartFacts) (fam : Fam) (iface group : String) (port : Int) :
    groupSays h f fam iface group port = none ↔ ∃ m, openGroup h fam iface group port = .ret m := by
  unfold groupSays openGroup
  cases h.parseIP group with
  | none => simp
  | some ip =>
    simp only
    cases h.join fam ⟨iface, ip, port⟩ with
    | none => simp
    | some l =>
      simp only
      split <;> simp

theorem groupSays_log {h : Host} {f : StartFacts} {fam : Fam} {iface group : String} {port : Int}
    {says : List (Spot × String)} (hs : groupSays h f fam iface group port = some says) : ∃ pre t, says = pre ++ [(.log, t)] := by
  unfold groupSays at hs
  simp only at hs
  split at hs
  · cases hs; exact ⟨[_], _, rfl⟩
  · split at hs
    · cases hs; exact ⟨[_], _, rfl⟩
    · split at hs
      · cases hs
      · cases hs; exact ⟨[], _, rfl⟩

/-- **C147** The last the program says before its loop is in the window of messages exactly if it gets to its loop. -/
theorem C147_ready_iff (h : Host) (f : StartFacts) (args : List String) :
    (∃ r, start h args = .ret (some r)) ↔ ∃ t, (mainSays h f args).getLast? = some (.msg, t) := by
  match args with
  | [] => simp [mainSays, start]
  | [_] => simp [mainSays, start]
  | [_, _] => simp [mainSays, start]
  | _ :: _ :: _ :: _ :: _ => simp [mainSays, start]
  | [prog, file, name] =>
  cases hc : h.config file with
  | fatal => simp [mainSays, start, hc, bind, Out.bind]
  | panic => simp [mainSays, start, hc, bind, Out.bind]
  | ret r =>
  cases r with
  | error e => simp [mainSays, start, hc, bind, Out.bind, Out.pure_eq]
  | ok c =>
  rcases hch : h.fs.chdir c.sardir with ⟨fs, _ | er⟩
  case some => simp [mainSays, start, hc, hch, bind, Out.bind]
  cases hst : fs.stat c.sardir with
  | none => simp [mainSays, start, hc, hch, hst, bind, Out.bind]
  | some n =>
  cases hif : h.iface name with
  | none => simp [mainSays, start, hc, hch, hst, hif, bind, Out.bind]
  | some mtu =>
  cases hg : h.gui with
  | false => simp [mainSays, start, hc, hch, hst, hif, hg, bind, Out.bind]
  | true =>
  cases hi : h.interfaces with
  | false => simp [mainSays, start, hc, hch, hst, hif, hg, hi, bind, Out.bind]
  | true =>
  cases hk : h.keys with
  | false => simp [mainSays, start, hc, hch, hst, hif, hg, hi, hk, bind, Out.bind]
  | true =>
  rw [mainSays_three h f prog file name c fs n mtu hc hch hst hif hg hi hk]
  have hstart : start h [prog, file, name] = (do
      let g6 ← openGroup h .v6 name c.v6multicast c.port
      let g4 ← openGroup h .v4 name c.v4multicast c.port
      pure (some ⟨fs, c, mtu, [(.v6, g6), (.v4, g4)]⟩)) := by
    simp only [start, hc, hch, hst, hif, hg, hi, hk, Out.ret_bind, Bool.true_eq_false, if_false]
  rw [hstart]
  have quiet : ∀ {x : Out Membership}, (¬ ∃ m, x = .ret m) → ∀ k : Membership → Out (Option Running),
      ¬ ∃ r, (x >>= k) = .ret (some r) := by
    intro x hx k ⟨r, hr⟩
    obtain ⟨m, hm, -⟩ := Out.bind_eq_ret hr
    exact hx ⟨m, hm⟩
  have nolog : ∀ (ns : List (Spot × String)) (pre : List (Spot × String)) (t : String),
      ¬ ∃ t', (ns ++ (pre ++ [(Spot.log, t)])).getLast? = some (.msg, t') := by
    intro ns pre t
    rw [← List.append_assoc]
    simp
  cases h6 : groupSays h f .v6 name c.v6multicast c.port with
  | some says =>
    obtain ⟨pre, t, rfl⟩ := groupSays_log h6
    have no : ¬ ∃ m, openGroup h .v6 name c.v6multicast c.port = .ret m := by
      rw [← groupSays_none_iff h f, h6]; exact fun e => by cases e
    exact iff_of_false (quiet no _) (nolog _ _ _)
  | none =>
    obtain ⟨m6, hm6⟩ := (groupSays_none_iff ..).1 h6
    simp only
    rw [hm6, Out.ret_bind]
    cases h4 : groupSays h f .v4 name c.v4multicast c.port with
    | some says =>
      obtain ⟨pre, t, rfl⟩ := groupSays_log h4
      have no : ¬ ∃ m, openGroup h .v4 name c.v4multicast c.port = .ret m := by
        rw [← groupSays_none_iff h f, h4]; exact fun e => by cases e
      exact iff_of_false (quiet no _) (nolog _ _ _)
    | none =>
      obtain ⟨m4, hm4⟩ := (groupSays_none_iff ..).1 h4
      rw [hm4, Out.ret_bind]
      refine iff_of_true ⟨_, rfl⟩ ⟨"Saratoga IPv4 Multicast Listener started on " ++
        f.udpText (h.parseIP c.v4multicast) c.port, ?_⟩
      simp [readyLines]

/-- **C147** A program that gets to its loop has said which directory it works in, how much space there is, and for each
group it listens to the address and the port. -/
theorem C147_ready (h : Host) (f : StartFacts) (prog file name : String) (r : Running)
    (started : start h [prog, file, name] = .ret (some r)) :
    (.msg, "Saratoga Directory is " ++ f.dirText r.settings.sardir ++ "\n") ∈ mainSays h f [prog, file, name] ∧
    (.msg, "Available space is " ++ toString (spaceShown f) ++ " MB\n") ∈ mainSays h f [prog, file, name] ∧
    (∀ g ∈ r.groups, (.msg, "Saratoga " ++ famName g.1 ++
      " Multicast Listener started on " ++ f.udpText (some g.2.group) g.2.port) ∈ mainSays h f [prog, file, name]) ∧
    (.msg, "Maximum Descriptor is:d64") ∈ mainSays h f [prog, file, name] ∧
    ∀ w ∈ [("", 64), ("16", 16), ("32", 32), ("64", 64)],
      (.msg, "MaxInt" ++ w.1 ++ "=" ++ toString (2 ^ (w.2 - 1) - 1)) ∈ mainSays h f [prog, file, name] ∧
      (.msg, "MaxUint" ++ w.1 ++ "=" ++ toString (2 ^ w.2 - 1)) ∈ mainSays h f [prog, file, name] := by
  unfold start at started
  simp only at started
  obtain ⟨cfg, hc, started⟩ := Out.bind_eq_ret started
  cases cfg with
  | error e => cases started
  | ok c =>
  simp only at started
  rcases hch : h.fs.chdir c.sardir with ⟨fs, _ | er⟩
  case some => rw [hch] at started; cases started
  rw [hch] at started
  simp only at started
  cases hst : fs.stat c.sardir with
  | none => rw [hst] at started; cases started
  | some n =>
  rw [hst] at started
  simp only at started
  cases hif : h.iface name with
  | none => rw [hif] at started; cases started
  | some mtu =>
  rw [hif] at started
  simp only at started
  by_cases hg : h.gui = false
  · rw [if_pos hg] at started; cases started
  rw [if_neg hg] at started
  by_cases hi : h.interfaces = false
  · rw [if_pos hi] at started; cases started
  rw [if_neg hi] at started
  by_cases hk : h.keys = false
  · rw [if_pos hk] at started; cases started
  rw [if_neg hk] at started
  obtain ⟨g6, h6, started⟩ := Out.bind_eq_ret started
  obtain ⟨g4, h4, started⟩ := Out.bind_eq_ret started
  cases started
  rw [mainSays_three h f prog file name c fs n mtu hc hch hst hif (by simpa using hg) (by simpa using hi)
      (by simpa using hk),
    (groupSays_none_iff h f ..).2 ⟨g6, h6⟩, (groupSays_none_iff h f ..).2 ⟨g4, h4⟩]
  obtain ⟨-, q6, p6, -⟩ := (openGroup_iff ..).1 h6
  obtain ⟨-, q4, p4, -⟩ := (openGroup_iff ..).1 h4
  simp only [p6, p4]
  refine ⟨?_, ?_, ?_, ?_, ?_⟩
  · simp [readyLines]
  · simp [readyLines]
  rotate_left
  · simp [readyLines]
  · intro w hw
    have closed : ∀ w ∈ [("", 64), ("16", 16), ("32", 32), ("64", 64)], ∀ t ∈ ["MaxInt" ++ w.1 ++ "=" ++
        toString (2 ^ (w.2 - 1) - 1), "MaxUint" ++ w.1 ++ "=" ++ toString (2 ^ w.2 - 1)],
        t ∈ ["MaxInt=9223372036854775807", "MaxUint=18446744073709551615", "MaxInt16=32767", "MaxUint16=65535",
          "MaxInt32=2147483647", "MaxUint32=4294967295", "MaxInt64=9223372036854775807",
          "MaxUint64=18446744073709551615"] := by decide +kernel
    have sub : ∀ t ∈ ["MaxInt" ++ w.1 ++ "=" ++ toString (2 ^ (w.2 - 1) - 1), "MaxUint" ++ w.1 ++ "=" ++
        toString (2 ^ w.2 - 1)], ∀ g6 g4, t ∈ readyLines f c g6 g4 := by
      intro t ht g6 g4
      have := closed w hw t ht
      simp only [List.mem_cons, List.not_mem_nil, or_false] at this
      unfold readyLines
      rcases this with h | h | h | h | h | h | h | h <;> simp [h]
    exact ⟨List.mem_append_right _ (List.mem_map.2 ⟨_, sub _ (by simp) _ _, rfl⟩),
      List.mem_append_right _ (List.mem_map.2 ⟨_, sub _ (by simp) _ _, rfl⟩)⟩
  · intro g hg
    simp only [List.mem_cons, List.not_mem_nil, or_false] at hg
    rcases hg with rfl | rfl
    · simp only [q6]
      simp [readyLines, famName]
    · simp only [q4]
      simp [readyLines, famName]

/-! ## Space and addresses -/

/-- **C147** The space shown is the space there is exactly if its bytes can be counted in 64 bits. -/
theorem C147_space_iff (f : StartFacts) :
    spaceShown f = f.bsize.toNat * f.bavail.toNat / 2 ^ 20 ↔ f.bsize.toNat * f.bavail.toNat < 2 ^ 64 := by
  have key : spaceShown f = f.bsize.toNat * f.bavail.toNat % 2 ^ 64 / 2 ^ 20 := by
    unfold spaceShown
    simp only [BitVec.toNat_udiv, BitVec.toNat_mul]
    rw [show (1024#64).toNat = 1024 from rfl, Nat.div_div_eq_div_mul]
  rw [key]
  generalize f.bsize.toNat * f.bavail.toNat = p
  omega

theorem hasText_iff (t : List Char) : ∀ s : List Char, hasText t s = true ↔ ∃ a b, s = a ++ t ++ b := by
  intro s
  induction s with
  | nil =>
    unfold hasText
    rw [List.isPrefixOf_iff_prefix]
    constructor
    · rintro ⟨b, hb⟩; exact ⟨[], b, hb.symm⟩
    · rintro ⟨a, b, h⟩
      have : t = [] := by
        cases t with
        | nil => rfl
        | cons x xs => simp at h
      rw [this]; exact List.nil_prefix
  | cons c cs ih =>
    unfold hasText
    rw [Bool.or_eq_true, List.isPrefixOf_iff_prefix, ih]
    constructor
    · rintro (⟨b, hb⟩ | ⟨a, b, rfl⟩)
      · exact ⟨[], b, hb.symm⟩
      · exact ⟨c :: a, b, rfl⟩
    · rintro ⟨a, b, h⟩
      cases a with
      | nil => exact .inl ⟨b, h.symm⟩
      | cons x xs =>
        injection h with _ h2
        exact .inr ⟨xs, b, h2⟩

theorem isIpNet_iff (n : String) : isIpNet n = true ↔ HasWords n "ip" := by
  unfold isIpNet HasWords
  rw [hasText_iff]
  constructor
  · rintro ⟨a, b, h⟩
    refine ⟨String.ofList a, String.ofList b, String.toList_inj.1 ?_⟩
    simp [h]
  · rintro ⟨a, b, h⟩
    exact ⟨a.toList, b.toList, by rw [h]; simp⟩

/-- **C147** The lines about interfaces are those of the interface asked for: its MTU and flags, and each of its addresses
and groups whose network has the letters `ip`. -/
theorem C147_addresses_iff (name : String) (nics : List Nic) (line : String) :
    line ∈ nicLines name nics ↔ ∃ n ∈ nics, n.name = name ∧
      (line = name ++ " MTU " ++ toString n.mtu ++ " " ++ n.flags ++ ":" ∨
       (∃ a ∈ n.addrs, HasWords a.1 "ip" ∧ line = "\t Unicast " ++ a.2 ++ " " ++ a.1) ∨
       ∃ a ∈ n.groups, HasWords a.1 "ip" ∧ line = "Multicast " ++ a.2 ++ " Net:" ++ a.1) := by
  unfold nicLines
  simp only [List.mem_flatMap, List.mem_filter, List.mem_append, List.mem_map, List.mem_singleton, isIpNet_iff,
    decide_eq_true_eq]
  constructor
  · rintro ⟨n, ⟨hn, rfl⟩, (h | ⟨a, ⟨ha, hi⟩, h⟩) | ⟨a, ⟨ha, hi⟩, h⟩⟩
    · exact ⟨n, hn, rfl, .inl h⟩
    · exact ⟨n, hn, rfl, .inr (.inl ⟨a, ha, hi, h.symm⟩)⟩
    · exact ⟨n, hn, rfl, .inr (.inr ⟨a, ha, hi, h.symm⟩)⟩
  · rintro ⟨n, hn, rfl, h | ⟨a, ha, hi, h⟩ | ⟨a, ha, hi, h⟩⟩
    · exact ⟨n, ⟨hn, rfl⟩, .inl (.inl h)⟩
    · exact ⟨n, ⟨hn, rfl⟩, .inl (.inr ⟨a, ⟨ha, hi⟩, h.symm⟩)⟩
    · exact ⟨n, ⟨hn, rfl⟩, .inr ⟨a, ⟨ha, hi⟩, h.symm⟩⟩

/-! ## What is wrong -/

/-- **C147** (partial.) A file that cannot be read is named with the error, and a directory that cannot be entered is
named. Missing: the interface, the windows, a group that is no address (`C147_interface`, `C147_windows`,
`C147_group_unread`), and the reason why a directory cannot be entered. -/
theorem C147_wrong_partial (h : Host) (f : StartFacts) (prog file name : String) :
    (∀ e, h.config file = .ret (.error e) →
      ∃ t, mainSays h f [prog, file, name] = [(.out, t)] ∧ HasWords t file ∧ HasWords t e) ∧
    (∀ c, h.config file = .ret (.ok c) → (h.fs.chdir c.sardir).2 ≠ none →
      ∃ t, mainSays h f [prog, file, name] = [(.log, t)] ∧ HasWords t (f.dirText c.sardir)) := by
  refine ⟨fun e hc => ?_, fun c hc hch => ?_⟩
  · refine ⟨"Cannot open saratoga config file we have a Readconf error  " ++ file ++ "   " ++ e,
      by simp only [mainSays, hc],
      ⟨"Cannot open saratoga config file we have a Readconf error  ", "   " ++ e, ?_⟩,
      ⟨"Cannot open saratoga config file we have a Readconf error  " ++ file ++ "   ", "", ?_⟩⟩
    · simp only [String.append_assoc]
    · simp only [String.append_empty]
  · rcases hd : h.fs.chdir c.sardir with ⟨fs, _ | er⟩
    · rw [hd] at hch; exact absurd rfl hch
    · exact ⟨"no such directory SARDIR=" ++ f.dirText c.sardir, by simp only [mainSays, hc, hd],
        "no such directory SARDIR=", "", by simp only [String.append_empty]⟩

/-- What a group that cannot be listened to has said about it: with an address the host refuses, the address and the port,
then the error; with an option the host refuses, or a local address of neither family, that error. -/
theorem groupSays_cases (h : Host) (f : StartFacts) (fam : Fam) (iface group : String) (port : Int) (ip : List Byte)
    (hp : h.parseIP group = some ip) :
    (h.join fam ⟨iface, ip, port⟩ = none → ∃ t, groupSays h f fam iface group port =
      some [(.log, t), (.log, f.noListen fam)] ∧ HasWords t (f.ipText (some ip)) ∧ HasWords t (toString port) ∧
        HasWords t (famName fam)) ∧
    (∀ m addr, h.join fam ⟨iface, ip, port⟩ = some addr → (¬ h.Joins fam iface group port m) → m = ⟨iface, ip, port⟩ →
      groupSays h f fam iface group port = some [(.log, f.noLoop fam)]) := by
  constructor
  · intro hj
    generalize hfam : famName fam = word
    have hs : groupSays h f fam iface group port = some [(.log, "Saratoga Unable to Listen on " ++ word ++
        " Multicast  " ++ f.ipText (some ip) ++ "   " ++ toString port), (.log, f.noListen fam)] := by
      rw [← hfam]
      simp only [groupSays, hp, hj]
      cases fam <;> rfl
    refine ⟨_, hs, ⟨"Saratoga Unable to Listen on " ++ word ++ " Multicast  ", "   " ++ toString port, ?_⟩,
      ⟨"Saratoga Unable to Listen on " ++ word ++ " Multicast  " ++ f.ipText (some ip) ++ "   ", "", ?_⟩,
      ⟨"Saratoga Unable to Listen on ", " Multicast  " ++ f.ipText (some ip) ++ "   " ++ toString port, ?_⟩⟩
    · simp only [String.append_assoc]
    · simp only [String.append_empty]
    · simp only [String.append_assoc]
  · intro m addr hj no hm
    cases hs : groupSays h f fam iface group port with
    | none =>
      obtain ⟨m', hm'⟩ := (groupSays_none_iff ..).1 hs
      have jm := (openGroup_iff ..).1 hm'
      have : m' = m := by
        obtain ⟨a, b, c, -⟩ := jm
        rw [hp] at c
        injection c with c
        rw [hm]
        cases m'
        simp_all
      rw [this] at jm
      exact absurd jm no
    | some says =>
      unfold groupSays at hs
      simp only [hp, hj] at hs
      split at hs
      · cases hs
      · exact hs.symm

/-- **C147** (partial, behind the windows.) Interfaces that cannot be listed, keys that cannot be bound and groups that
cannot be listened to: the error of the system is the last that is said, and for a group that is refused the family, the
address and the port are said before it. Missing as in `C147_wrong_partial`. -/
theorem C147_behind_partial (h : Host) (f : StartFacts) (prog file name : String) (c : Cliflags) (dir : Loc) (mtu : Nat)
    (read : h.config file = .ret (.ok c)) (enters : h.Enters c.sardir dir) (known : h.iface name = some mtu)
    (gui : h.gui = true) :
    (h.interfaces = false → mainSays h f [prog, file, name] = [(.out, f.noInterfaces), (.log, f.noInterfaces)]) ∧
    (h.interfaces = true → h.keys = false → mainSays h f [prog, file, name] = [(.log, f.noKeys)]) ∧
    (h.interfaces = true → h.keys = true →
      ∀ fam group ip, (fam = .v6 ∧ group = c.v6multicast ∨ fam = .v4 ∧ group = c.v4multicast ∧
          ∃ m, h.Joins .v6 name c.v6multicast c.port m) → h.parseIP group = some ip →
        (h.join fam ⟨name, ip, c.port⟩ = none → ∃ pre t, mainSays h f [prog, file, name] =
          pre ++ [(.log, t), (.log, f.noListen fam)] ∧ HasWords t (f.ipText (some ip)) ∧ HasWords t (toString c.port) ∧
          HasWords t (famName fam)) ∧
        ((∃ addr, h.join fam ⟨name, ip, c.port⟩ = some addr) → ¬ h.Joins fam name group c.port ⟨name, ip, c.port⟩ →
          ∃ pre, mainSays h f [prog, file, name] = pre ++ [(.log, f.noLoop fam)])) := by
  obtain ⟨p1, p2, p3, l, p4, p5, p6⟩ := enters
  have hch : h.fs.chdir c.sardir = ({ h.fs with cwd := dir }, none) := by simp [FS.chdir, p1, p2, p3]
  obtain ⟨n, hst⟩ : ∃ n, FS.stat { h.fs with cwd := dir } c.sardir = some n := by
    unfold FS.stat; rw [p4]; simp only [p5]; exact Option.ne_none_iff_exists'.1 p6
  refine ⟨fun hi => ?_, fun hi hk => ?_, fun hi hk fam group ip which hp => ?_⟩
  · simp only [mainSays, read, hch, hst, known, gui, hi, Bool.true_eq_false, if_false, if_true]
  · simp only [mainSays, read, hch, hst, known, gui, hi, hk, Bool.true_eq_false, if_false, if_true]
  · have says : ∀ s, groupSays h f fam name group c.port = some s →
        mainSays h f [prog, file, name] = (nicLines name f.nics).map (Prod.mk .msg) ++ s := by
      intro s hs
      rw [mainSays_three h f prog file name c _ n mtu read hch hst known gui hi hk]
      rcases which with ⟨rfl, rfl⟩ | ⟨rfl, rfl, m, hm⟩
      · rw [hs]
      · rw [(groupSays_none_iff h f ..).2 ⟨m, (openGroup_iff ..).2 hm⟩, hs]
    obtain ⟨c1, c2⟩ := groupSays_cases h f fam name group c.port ip hp
    refine ⟨fun hj => ?_, fun ⟨addr, hj⟩ no => ?_⟩
    · obtain ⟨t, ht, sh⟩ := c1 hj
      exact ⟨_, t, says _ ht, sh⟩
    · exact ⟨_, says _ (c2 _ addr hj no rfl)⟩

/-- **C147** fails for the interface: what is said is the same for every name that is no interface, and the name in it is
that of the configuration. -/
theorem C147_interface (h : Host) (f : StartFacts) (prog file : String) (c : Cliflags) (dir : Loc)
    (read : h.config file = .ret (.ok c)) (enters : h.Enters c.sardir dir) (name : String) (unknown : h.iface name = none) :
    mainSays h f [prog, file, name] =
      [(.out, "Saratoga Unable to lookup interfacebyname: " ++ file), (.log, f.noIface)] := by
  obtain ⟨p1, p2, p3, l, p4, p5, p6⟩ := enters
  have hch : h.fs.chdir c.sardir = ({ h.fs with cwd := dir }, none) := by simp [FS.chdir, p1, p2, p3]
  obtain ⟨n, hst⟩ : ∃ n, FS.stat { h.fs with cwd := dir } c.sardir = some n := by
    unfold FS.stat; rw [p4]; simp only [p5]; exact Option.ne_none_iff_exists'.1 p6
  simp only [mainSays, read, hch, hst, unknown]

example (f : StartFacts) : mainSays { exampleHost with iface := fun _ => none } f ["saratoga", "saratoga.json", "en0"] =
    [(.out, "Saratoga Unable to lookup interfacebyname: saratoga.json"), (.log, f.noIface)] := rfl

/-- **C147** fails for the windows: whatever the error, `<nil>` is said. -/
theorem C147_windows (h : Host) (f : StartFacts) (prog file : String) (c : Cliflags) (dir : Loc) (mtu : Nat)
    (read : h.config file = .ret (.ok c)) (enters : h.Enters c.sardir dir) (name : String) (known : h.iface name = some mtu)
    (none_ : h.gui = false) (error : String) :
    mainSays h { f with noWindows := error } [prog, file, name] =
      [(.out, "Cannot run gocui user interface"), (.log, "<nil>")] := by
  obtain ⟨p1, p2, p3, l, p4, p5, p6⟩ := enters
  have hch : h.fs.chdir c.sardir = ({ h.fs with cwd := dir }, none) := by simp [FS.chdir, p1, p2, p3]
  obtain ⟨n, hst⟩ : ∃ n, FS.stat { h.fs with cwd := dir } c.sardir = some n := by
    unfold FS.stat; rw [p4]; simp only [p5]; exact Option.ne_none_iff_exists'.1 p6
  simp only [mainSays, read, hch, hst, known, none_, if_true]

example (f : StartFacts) : mainSays { exampleHost with gui := false } f ["saratoga", "saratoga.json", "en0"] =
    [(.out, "Cannot run gocui user interface"), (.log, "<nil>")] := rfl

/-- **C147** fails for a group that is no address: what is said does not depend on the words of the configuration. -/
theorem C147_group_unread (h : Host) (f : StartFacts) (prog file name : String) (c : Cliflags) (dir : Loc) (mtu : Nat)
    (enters : h.Enters c.sardir dir) (known : h.iface name = some mtu) (gui : h.gui = true) (listed : h.interfaces = true)
    (keys : h.keys = true) (words words' : String) (no : h.parseIP words = none) (no' : h.parseIP words' = none) :
    mainSays { h with config := fun _ => .ret (.ok { c with v6multicast := words }) } f [prog, file, name] =
    mainSays { h with config := fun _ => .ret (.ok { c with v6multicast := words' }) } f [prog, file, name] := by
  obtain ⟨p1, p2, p3, l, p4, p5, p6⟩ := enters
  have hch : h.fs.chdir c.sardir = ({ h.fs with cwd := dir }, none) := by simp [FS.chdir, p1, p2, p3]
  obtain ⟨n, hst⟩ : ∃ n, FS.stat { h.fs with cwd := dir } c.sardir = some n := by
    unfold FS.stat; rw [p4]; simp only [p5]; exact Option.ne_none_iff_exists'.1 p6
  simp only [mainSays, hch, hst, known, gui, listed, keys, groupSays, no, no']

/-- **C147** Whoever does not give two words after the name of the program is told how to call it, with an example, and the
program ends. -/
theorem C147_usage (h : Host) (f : StartFacts) (args : List String) (wrong : args.length ≠ 3) :
    start h args = .ret none ∧ mainSays h f args =
      [(.out, "usage:saratoga <config> <iface>"),
       (.out, "e.g.: go run saratoga.go saratoga.json en0 (Interface says where to listen for multicast joins")] := by
  match args with
  | [] => exact ⟨rfl, rfl⟩
  | [_] => exact ⟨rfl, rfl⟩
  | [_, _] => exact ⟨rfl, rfl⟩
  | [_, _, _] => exact absurd rfl wrong
  | _ :: _ :: _ :: _ :: _ => exact ⟨rfl, rfl⟩

example : ["saratoga", "saratoga.json"].length ≠ 3 := by decide

/-! ## A host -/

def exampleFacts : StartFacts :=
  { nics := [⟨"lo0", 16384, "up|loopback", [("ip+net", "127.0.0.1/8")], []⟩,
      ⟨"en0", 1500, "up|broadcast|multicast", [("ip+net", "10.0.0.1/8"), ("unix", "x")], [("ip+net", "224.0.0.1")]⟩],
    dirText := fun _ => "/d", bsize := 4096, bavail := 512, ipText := fun _ => "224.0.0.108",
    udpText := fun _ _ => "224.0.0.108:7542", noIface := "route ip+net: no such network interface",
    noWindows := "no terminal", noInterfaces := "no interfaces", noKeys := "no keys", noListen := fun _ => "no listen",
    noLoop := fun _ => "no loop" }

example : nicLines "en0" exampleFacts.nics =
    ["en0 MTU 1500 up|broadcast|multicast:", "\t Unicast 10.0.0.1/8 ip+net", "Multicast 224.0.0.1 Net:ip+net"] := by
  decide +kernel

example : ((mainSays exampleHost exampleFacts ["saratoga", "saratoga.json", "en0"]).getLast?) =
    some (.msg, "Saratoga IPv4 Multicast Listener started on 224.0.0.108:7542") ∧ spaceShown exampleFacts = 2 := by
  decide +kernel

/-- A host that refuses the group for IPv4. -/
example : (mainSays { exampleHost with join := fun fam m => if fam = .v4 then none else exampleHost.join fam m }
    { exampleFacts with nics := [] } ["saratoga", "saratoga.json", "en0"]) =
    [(.log, "Saratoga Unable to Listen on IPv4 Multicast  224.0.0.108   7542"), (.log, "no listen")] := by
  decide +kernel

/-- **C147, counterexample.** An interface that is not there: no word of it. A file system of 2^64 bytes: no space. -/
theorem C147_counterexample :
    mainSays { exampleHost with iface := fun _ => none } exampleFacts ["saratoga", "saratoga.json", "en7"] =
      [(.out, "Saratoga Unable to lookup interfacebyname: saratoga.json"),
       (.log, "route ip+net: no such network interface")] ∧
    spaceShown { exampleFacts with bsize := 4096, bavail := BitVec.ofNat 64 (2 ^ 52) } = 0 := by
  decide +kernel

end Saratoga
