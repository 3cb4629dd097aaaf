import Verif.Spec.FileMeta
import Verif.Props.Program
/-!
# C128: looking at a file
-/
namespace Saratoga

theorem reachesDir_plain {t : Tree} {l : Loc} {k : FileKind} (hk : ∀ text, k ≠ .link text) :
    ReachesDir t l k ↔ k = .dir := by
  constructor
  · intro h
    cases h with
    | dir => rfl
    | link _ text => exact absurd rfl (hk text)
  · rintro rfl; exact .dir _

theorem startOf_eq (cur : Loc) (text : List Byte) :
    startOf cur text = if text.head? = some slash then [] else cur := by
  cases text with
  | nil => rfl
  | cons b rest =>
    unfold startOf
    by_cases h : b = slash <;> simp [h]

/-- Every walk is one of a system. -/
theorem walk_leads {t : Tree} (grown : t.Grown) :
    ∀ (n : Nat) (names : List Name) (cur : Loc), NamesLead t n cur names (t.walk n cur names) := by
  have level : ∀ (n : Nat) (again : Loc → List Name → Except NoFile Loc),
      (∀ cur c cs text, t.kind cur = some .dir → t.refuses cur = false → c ∉ [[], [dot], [dot, dot]] → cs ≠ [] →
        t.kind (cur ++ [c]) = some (.link text) →
        NamesLead t n cur (c :: cs) (again (startOf cur text) (splitSlash text ++ cs))) →
      ∀ (names : List Name) (cur : Loc), NamesLead t n cur names (t.walkWith again cur names) := by
    intro n again links names
    induction names with
    | nil => intro cur; exact .done n cur
    | cons c cs ih =>
      intro cur
      unfold Tree.walkWith
      cases hk : t.kind cur with
      | none => exact .missing n cur c cs hk
      | some k =>
        by_cases hd : k = .dir
        · subst hd
          simp only
          cases hr : t.refuses cur with
          | true => exact .refused n cur c cs hk hr
          | false =>
            rw [if_neg (by simp)]
            by_cases h1 : c = [] ∨ c = [dot]
            · have hc : child cur c = cur := by unfold child; rw [if_pos h1]
              rw [hc, hk]
              exact .stay n cur c cs _ hk hr h1 (ih cur)
            · by_cases h2 : c = [dot, dot]
              · have hc : child cur c = cur.dropLast := by unfold child; rw [if_neg h1, if_pos h2]
                rw [hc, grown cur (by rw [hk]; simp)]
                subst h2
                exact .up n cur cs _ hk hr (ih _)
              · have hc : child cur c = cur ++ [c] := by unfold child; rw [if_neg h1, if_neg h2]
                have hn : c ∉ [[], [dot], [dot, dot]] := by
                  simp only [List.mem_cons, List.not_mem_nil, or_false]
                  rintro (h | h | h)
                  · exact h1 (.inl h)
                  · exact h1 (.inr h)
                  · exact h2 h
                rw [hc]
                by_cases hl : ∃ text, t.kind (cur ++ [c]) = some (.link text)
                · obtain ⟨text, hl⟩ := hl
                  cases cs with
                  | nil => rw [hl]; exact .down n cur c [] _ hk hr hn (.inl rfl) (ih _)
                  | cons c' cs' =>
                    rw [hl]
                    exact links cur c (c' :: cs') text hk hr hn (by simp) hl
                · have hp : ∀ text, t.kind (cur ++ [c]) ≠ some (.link text) := fun text e => hl ⟨text, e⟩
                  have hd := NamesLead.down n cur c cs _ hk hr hn (.inr hp) (ih (cur ++ [c]))
                  cases hx : t.kind (cur ++ [c]) with
                  | none => exact hd
                  | some k =>
                    cases k with
                    | link text => exact absurd hx (hp text)
                    | _ => exact hd
        · have hx := NamesLead.notDir n cur c cs k hk hd
          cases k with
          | dir => exact absurd rfl hd
          | _ => exact hx
  intro n
  induction n with
  | zero =>
    exact level 0 _ fun cur c cs text h1 h2 h3 h4 h5 => .tooMany cur c cs text h1 h2 h3 h4 h5
  | succ n ih =>
    refine level (n + 1) _ fun cur c cs text h1 h2 h3 h4 h5 => ?_
    have := ih (splitSlash text ++ cs) (startOf cur text)
    rw [startOf_eq] at this ⊢
    exact .link n cur c cs text _ h1 h2 h3 h4 h5 this

/-- The names lead to one end only. -/
theorem leads_unique {t : Tree} {n : Nat} {cur : Loc} {names : List Name} {r s : Except NoFile Loc}
    (hr : NamesLead t n cur names r) (hs : NamesLead t n cur names s) : r = s := by
  induction hr with
  | done => cases hs; rfl
  | missing n cur c cs no => cases hs <;> simp_all
  | notDir n cur c cs k is no => cases hs <;> simp_all
  | refused n cur c cs is no => cases hs <;> simp_all
  | stay n cur c cs r is may name rest ih =>
    cases hs with
    | stay _ _ _ _ _ _ _ _ h => exact ih h
    | up _ _ _ _ _ _ h => simp at name
    | _ => simp_all
  | up n cur cs r is may rest ih =>
    cases hs with
    | up _ _ _ _ _ _ h => exact ih h
    | stay _ _ _ _ _ _ _ name h => simp at name
    | _ => simp_all
  | down n cur c cs r is may name plain rest ih =>
    cases hs with
    | down _ _ _ _ _ _ _ _ _ h => exact ih h
    | _ => simp_all
  | link n cur c cs text r is may name more there rest ih =>
    cases hs with
    | link _ _ _ _ text' _ _ _ _ _ there' h =>
      rw [there] at there'
      cases there'
      exact ih h
    | _ => simp_all
  | tooMany cur c cs text is may name more there => cases hs <;> simp_all

/-- **C128, what a name means.** A path text leads where the names between its slashes lead, from the root if it begins
with a slash and from the working directory if not; if they lead to a place with nothing there, or there are none, there
is no such file. -/
theorem C128_names (t : Tree) (grown : t.Grown) (path : List Byte) :
    (∀ l k, t.lstat path = .ok (l, k) ↔ path ≠ [] ∧ t.kind l = some k ∧
      NamesLead t t.links (if path.head? = some slash then [] else t.cwd) (splitSlash path) (.ok l)) ∧
    (∀ e, t.lstat path = .error e ↔
      (path = [] ∧ e = .notExist) ∨
      path ≠ [] ∧ (NamesLead t t.links (if path.head? = some slash then [] else t.cwd) (splitSlash path) (.error e) ∨
        ∃ l, NamesLead t t.links (if path.head? = some slash then [] else t.cwd) (splitSlash path) (.ok l) ∧
          t.kind l = none ∧ e = .notExist)) := by
  have hw := walk_leads grown t.links (splitSlash path) (startOf t.cwd path)
  rw [startOf_eq] at hw
  have eq : ∀ r, NamesLead t t.links (if path.head? = some slash then [] else t.cwd) (splitSlash path) r ↔
      t.walk t.links (if path.head? = some slash then [] else t.cwd) (splitSlash path) = r :=
    fun r => ⟨fun h => leads_unique hw h, fun h => h ▸ hw⟩
  simp only [eq]
  unfold Tree.lstat Tree.look Tree.find
  rw [startOf_eq]
  by_cases hp : path = []
  · subst hp
    simp
    intro e
    exact eq_comm
  · rw [if_neg hp]
    cases t.walk t.links (if path.head? = some slash then [] else t.cwd) (splitSlash path) with
    | error e => simp [hp]
    | ok l =>
      cases hk : t.kind l with
      | none =>
        simp [hp, hk, eq_comm]
        rintro l' k h rfl
        rw [hk] at h; cases h
      | some k =>
        simp only [Except.ok.injEq, Prod.mk.injEq, reduceCtorEq, hp, ne_eq, not_false_eq_true, true_and, false_and, false_or,
          exists_eq_left', hk]
        refine ⟨fun l' k' => ⟨?_, ?_⟩, ?_⟩
        · rintro ⟨rfl, rfl⟩; exact ⟨hk, rfl⟩
        · rintro ⟨h, rfl⟩; rw [hk] at h; cases h; exact ⟨rfl, rfl⟩
        · intro e; trivial

/-- **C128, not a link.** For a name that leads to something other than a link, `FileMeta` says the truth; for one that
leads to nothing, it says so. -/
theorem C128_plain_partial (sardir : List Byte) (t : Tree) (name : List Byte) :
    (∀ l k, t.lstat (fullName sardir name) = .ok (l, k) → (∀ text, k ≠ .link text) →
      ∃ m, fileMeta sardir t name = .ret (.ok m) ∧ m.True t l k) ∧
    (t.lstat (fullName sardir name) = .error .notExist → fileMeta sardir t name = .ret (.error .notExist)) := by
  refine ⟨fun l k h hk => ?_, fun h => ?_⟩
  · refine ⟨⟨[], k, t.facts l, decide (k = .dir), decide (k = .file), decide (k = .pipe), false⟩, ?_, rfl, rfl, by simp,
      by simp, ?_, ?_⟩
    · unfold fileMeta
      rw [h]
      cases k with
      | link text => exact absurd rfl (hk text)
      | _ => rfl
    · simp only [Bool.false_eq_true, false_iff]
      rintro ⟨text, e, _⟩; exact hk text e
    · rw [reachesDir_plain hk]; simp
  · unfold fileMeta; rw [h]

/-- **C128, links.** What `FileMeta` says of a link: all true but whether it leads to a directory. That is asked of the
target as if the link were in the working directory, and a second link on the way is not followed. So it is true if the
target means the same in both places and is no link. -/
theorem C128_link_partial (sardir : List Byte) (t : Tree) (name : List Byte) (l : Loc) (text : List Byte) (d : Loc)
    (k : FileKind) (seen : t.lstat (fullName sardir name) = .ok (l, .link text)) (there : t.look t.cwd text = .ok (d, k)) :
    ∃ m, fileMeta sardir t name = .ret (.ok m) ∧ (m.isDir = true ↔ k = .dir) ∧
      (t.target l text = t.look t.cwd text → (∀ text', k ≠ .link text') → m.True t l (.link text)) := by
  have h2 : t.lstat text = .ok (d, k) := there
  refine ⟨⟨text, .link text, t.facts l, decide (k = .dir), false, false, true⟩, ?_, by simp, fun h hk => ?_⟩
  · unfold fileMeta; rw [seen]; simp only [h2]
  · refine ⟨rfl, rfl, by simp, by simp, by simp, ?_⟩
    rw [there] at h
    constructor
    · intro hd
      have hd : k = .dir := of_decide_eq_true hd
      subst hd
      exact .link l text d _ h (.dir d)
    · intro hr
      cases hr with
      | link _ _ l' k' h' hr' =>
        rw [h] at h'
        cases h'
        exact decide_eq_true ((reachesDir_plain hk).1 hr')

/-- **C128, what the other parts of the program get.** Directory entries and transfers are given the size and the times
of what the name leads to, and its kind; of a link also whether its target, seen from the working directory, is a
directory. -/
theorem C128_info_partial (sardir : List Byte) (t : Tree) (name : List Byte) (l : Loc) (k : FileKind) (i : FileInfo)
    (seen : t.lstat (fullName sardir name) = .ok (l, k)) (given : t.fileMeta sardir name = .ret (.ok i)) :
    i.size = (t.facts l).size ∧ i.mtime = (t.facts l).mtime ∧ i.ctime = (t.facts l).ctime ∧
    (i.mode = .directory ↔ k = .dir) ∧ (i.mode = .regular ↔ k = .file) ∧ (i.mode = .pipe ↔ k = .pipe) ∧
    (i.mode = .other ↔ k = .device) ∧
    ∀ b, i.mode = .symlink b ↔ ∃ text, k = .link text ∧ (b = true ↔ ∃ d, t.look t.cwd text = .ok (d, .dir)) := by
  unfold Tree.fileMeta fileMeta at given
  rw [seen] at given
  cases k with
  | link text =>
    simp only at given
    cases h2 : t.lstat text with
    | error e => rw [h2] at given; cases given
    | ok q =>
      obtain ⟨d, k⟩ := q
      rw [h2] at given
      simp only [Out.ret_bind, Out.ret.injEq, Except.ok.injEq] at given
      subst given
      have h3 : t.look t.cwd text = .ok (d, k) := h2
      refine ⟨rfl, rfl, rfl, by simp [Meta.info], by simp [Meta.info], by simp [Meta.info], by simp [Meta.info], ?_⟩
      intro b
      simp only [Meta.info, Mode.symlink.injEq, FileKind.link.injEq, exists_eq_left', h3, Except.ok.injEq,
        Prod.mk.injEq, exists_eq_left']
      cases b <;> simp
  | _ =>
    simp only [Out.ret_bind, Out.ret.injEq, Except.ok.injEq] at given
    subst given
    simp [Meta.info]

/-- A target that begins with a slash leads to the same place from everywhere. -/
theorem C128_absolute (t : Tree) (l : Loc) (rest : List Byte) :
    t.target l (slash :: rest) = t.look t.cwd (slash :: rest) := rfl

/-- So does any target if the working directory is the one the link is in. -/
theorem C128_here (t : Tree) (l : Loc) (text : List Byte) (h : t.cwd = l.dropLast) :
    t.target l text = t.look t.cwd text := by rw [h]; rfl

/-- **C128, when it comes back.** Exactly when the name leads to something or to nothing at all, and if to a link, when its
target, seen from the working directory, is there. -/
theorem C128_returns_iff_partial (sardir : List Byte) (t : Tree) (name : List Byte) :
    (fileMeta sardir t name).returns ↔
      t.lstat (fullName sardir name) = .error .notExist ∨
      ∃ l k, t.lstat (fullName sardir name) = .ok (l, k) ∧
        ∀ text, k = .link text → ∃ d, t.look t.cwd text = .ok d := by
  have plain : ∀ l k, t.lstat (fullName sardir name) = .ok (l, k) → (∀ text, k ≠ .link text) →
      (fileMeta sardir t name).returns := by
    intro l k h hk
    obtain ⟨m, hm, _⟩ := (C128_plain_partial sardir t name).1 l k h hk
    rw [hm]; trivial
  constructor
  · intro hr
    cases h : t.lstat (fullName sardir name) with
    | error e =>
      unfold fileMeta at hr
      rw [h] at hr
      cases e with
      | notExist => exact .inl rfl
      | _ => exact hr.elim
    | ok r =>
      obtain ⟨l, k⟩ := r
      refine .inr ⟨l, k, rfl, ?_⟩
      rintro text rfl
      cases h2 : t.lstat text with
      | ok d => exact ⟨d, h2⟩
      | error e =>
        unfold fileMeta at hr
        rw [h] at hr
        simp only [h2] at hr
        exact hr.elim
  · rintro (h | ⟨l, k, h, hk⟩)
    · rw [(C128_plain_partial sardir t name).2 h]; trivial
    · cases k with
      | link text =>
        obtain ⟨⟨d, k⟩, hd⟩ := hk text rfl
        obtain ⟨m, hm, _⟩ := C128_link_partial sardir t name l text d k h hd
        rw [hm]; trivial
      | _ => exact plain l _ h (by intro _ h; cases h)

/-- The same of the answer the other models ask for. -/
theorem fileMeta_returns (t : Tree) (sardir name : List Byte) :
    (t.fileMeta sardir name).returns ↔ (fileMeta sardir t name).returns := by
  unfold Tree.fileMeta
  cases fileMeta sardir t name with
  | fatal => exact Iff.rfl
  | panic => exact Iff.rfl
  | ret r => cases r <;> exact Iff.rfl

/-- A starting command with host and file comes to `NewInitiator`. -/
theorem starts_initiate {cmd : String} (starts : cmd ∈ startTypes) (E : CmdEnv) (w : TranWorld) {a f : String} {u : UDPAddr}
    (address : E.address a = .ok u) : ∃ h, assoc cmd settingHandlers = none ∧ assoc cmd tranCommands = some h ∧
      ((h E w [cmd, a, f]).returns ↔ (E.initiate w cmd u f).returns) := by
  have key : ∀ {α β : Type} (x : Out α) (k : α → Out β), (∀ r, (k r).returns) → ((x >>= k).returns ↔ x.returns) := by
    intro α β x k hk
    cases x with
    | ret r => exact ⟨fun _ => trivial, fun _ => hk r⟩
    | fatal => exact Iff.rfl
    | panic => exact Iff.rfl
  have fetch : ∀ nm l, (cmdFetch nm l E w [cmd, a, f]).returns ↔ (E.initiate w nm u f).returns := by
    intro nm l
    unfold cmdFetch
    simp only [address]
    apply key
    rintro ⟨w', r⟩; cases r <;> trivial
  have send : ∀ nm l q, (cmdSend nm l q E w [cmd, a, f]).returns ↔ (E.initiate w nm u f).returns := by
    intro nm l q
    unfold cmdSend
    simp only [address]
    apply key
    rintro ⟨w', r⟩; cases r <;> trivial
  have give : (cmdGive E w [cmd, a, f]).returns ↔ (E.initiate w "give" u f).returns := by
    unfold cmdGive
    simp only [address]
    apply key
    rintro ⟨w', r⟩; cases r <;> trivial
  have get : (cmdGet E w [cmd, a, f]).returns ↔ (E.initiate w "get" u f).returns := by
    unfold cmdGet
    simp only [address]
    apply key
    rintro ⟨w', r⟩; trivial
  simp only [startTypes, List.mem_cons, List.not_mem_nil, or_false] at starts
  rcases starts with rfl | rfl | rfl | rfl | rfl | rfl | rfl
  · exact ⟨cmdGet, rfl, rfl, get⟩
  · exact ⟨cmdGetdir, rfl, rfl, fetch _ _⟩
  · exact ⟨cmdTake, rfl, rfl, fetch _ _⟩
  · exact ⟨cmdPut, rfl, rfl, send _ _ _⟩
  · exact ⟨cmdPutblind, rfl, rfl, send _ _ _⟩
  · exact ⟨cmdGive, rfl, rfl, give⟩
  · exact ⟨cmdDelete, rfl, rfl, send _ _ _⟩

/-- **C128, what it costs.** A line `put host name` (or any of the seven commands that start a transfer) with a good
address and nothing in its way in the table ends the process exactly when `FileMeta` does not come back on that name. -/
theorem C128_ends_iff {M : Machine} {o : Replies} {p p' : Program} {t : Tree}
    (answers : o.file.fileMeta = t.fileMeta M.S.sardir) (legal : ValidGlobal shipped p.settings.global)
    {cmd a f line : String} (starts : cmd ∈ startTypes)
    (entered : getLine (M.H.map Prod.fst) cmdHandlers line = .ret (.started cmd [cmd, a, f]))
    {u : UDPAddr} (address : udpAddress o.resolve a = .ok u)
    (clear : scanTransfers (M.tranEnv o) p.net.fs cmd u (utf8 f) p.table = .clear)
    (h : p.step M (.typed line o) = some p') :
    p'.Ended ↔ ¬ (t.lstat (fullName M.S.sardir (utf8 f)) = .error .notExist ∨
      ∃ l k, t.lstat (fullName M.S.sardir (utf8 f)) = .ok (l, k) ∧
        ∀ text, k = .link text → ∃ d, t.look t.cwd text = .ok d) := by
  rw [← C128_returns_iff_partial, ← fileMeta_returns, ← answers]
  rcases program_step_cases h with ⟨a, w, e, _⟩ | ⟨line', o', e, hm, rfl⟩
  · cases e
  cases e
  obtain ⟨h, h1, h2, h3⟩ := starts_initiate starts ⟨M.H, M.tranEnv o, p.settings⟩ p.tranWorld (f := f) address
  have hi : (CmdEnv.initiate ⟨M.H, M.tranEnv o, p.settings⟩ p.tranWorld cmd u f).returns ↔
      (o.file.fileMeta (utf8 f)).returns := by
    unfold CmdEnv.initiate newInitiator
    have e : scanTransfers (M.tranEnv o) p.tranWorld.fs cmd u (utf8 f) p.tranWorld.transfers = .clear := clear
    simp only [e]
    unfold addInitiator
    have he : (M.tranEnv o).file = o.file := rfl
    rw [he]
    cases hf : o.file.fileMeta (utf8 f) with
    | fatal => exact Iff.rfl
    | panic => exact Iff.rfl
    | ret fm =>
      cases hc : p.settings.copy with
      | error x =>
        exfalso
        have := (C16_fails_iff p.settings).1 ⟨x, hc⟩
        obtain ⟨v, hv⟩ := legal.2.2.1 "txwilling" (by decide)
        rw [this] at hv; cases hv
      | ok fl => simp only [Out.ret_bind, hc]; exact ⟨fun _ => trivial, fun _ => trivial⟩
  have hc : (p.command M o cmd [cmd, a, f]).returns ↔ (o.file.fileMeta (utf8 f)).returns := by
    rw [← hi, ← h3]
    unfold Program.command
    simp only [h1, h2]
    cases h ⟨M.H, M.tranEnv o, p.settings⟩ p.tranWorld [cmd, a, f] with
    | ret r => exact ⟨fun _ => trivial, fun _ => trivial⟩
    | fatal => exact Iff.rfl
    | panic => exact Iff.rfl
  rw [← hc]
  rcases enter_cases M o p line with ⟨_, _, hn⟩ | ⟨cmd', args, hg, p', hp, e⟩ | ⟨e, hn | ⟨cmd', args, hg, hp⟩⟩
  · exact absurd entered (hn _ _)
  · rw [entered] at hg
    cases hg
    rw [e, hp]
    have := (command_done hp).net
    refine ⟨fun hE => absurd hE ?_, fun hE => absurd trivial hE⟩
    unfold Program.Ended
    rw [this]; exact hm
  · rw [entered] at hn; exact absurd trivial hn
  · rw [entered] at hg
    cases hg
    rw [e]
    exact ⟨fun _ => hp, fun _ => rfl⟩

/-- **C128** A tree: `/d` is the directory for transfers with a file `f`, a directory `s`, a link `a` to `s`, a link `b` to
`/d/s`, a link `c` to `/d/b` and a link `n` to nothing. The process runs in `/`. -/
def exampleTree : Tree where
  nodes := [([], .dir), ([[0x64#8]], .dir), ([[0x64#8], [0x66#8]], .file), ([[0x64#8], [0x73#8]], .dir),
    ([[0x64#8], [0x61#8]], .link [0x73#8]), ([[0x64#8], [0x62#8]], .link [slash, 0x64#8, slash, 0x73#8]),
    ([[0x64#8], [0x63#8]], .link [slash, 0x64#8, slash, 0x62#8]), ([[0x64#8], [0x6E#8]], .link [slash, 0x78#8])]
  facts _ := ⟨7, ⟨1000000000, 0⟩, ⟨1000000000, 0⟩⟩
  cwd := []
  refuses _ := false
  links := 40

example := C128_here { exampleTree with cwd := [[0x64#8]] } [[0x64#8], [0x61#8]] [0x73#8] rfl

/-- The directory `/d`. -/
def exampleDir : List Byte := [slash, 0x64#8]

example := C128_info_partial exampleDir exampleTree [0x62#8] _ _ _ rfl rfl

example := C128_link_partial exampleDir exampleTree [0x62#8] [[0x64#8], [0x62#8]] [slash, 0x64#8, slash, 0x73#8]
  [[0x64#8], [0x73#8]] .dir rfl rfl

/-- **C128** Three names for which it panics: one below a file, a link to nothing, and a link to a directory that is there
(but not where it is looked for). And a link that leads to a directory but is said not to. -/
theorem C128_counterexample :
    (∃ name, fileMeta exampleDir exampleTree name = .panic ∧
      exampleTree.lstat (fullName exampleDir name) = .error .notDir) ∧
    (∃ name l text, fileMeta exampleDir exampleTree name = .panic ∧
      exampleTree.lstat (fullName exampleDir name) = .ok (l, .link text) ∧ exampleTree.target l text = .error .notExist) ∧
    (∃ name l text, fileMeta exampleDir exampleTree name = .panic ∧
      exampleTree.lstat (fullName exampleDir name) = .ok (l, .link text) ∧ ReachesDir exampleTree l (.link text)) ∧
    (∃ name l text m, fileMeta exampleDir exampleTree name = .ret (.ok m) ∧ m.isDir = false ∧
      exampleTree.lstat (fullName exampleDir name) = .ok (l, .link text) ∧ ReachesDir exampleTree l (.link text)) := by
  refine ⟨⟨[0x66#8, slash, 0x78#8], rfl, rfl⟩,
    ⟨[0x6E#8], [[0x64#8], [0x6E#8]], [slash, 0x78#8], rfl, rfl, rfl⟩,
    ⟨[0x61#8], [[0x64#8], [0x61#8]], [0x73#8], rfl, rfl,
      .link _ _ [[0x64#8], [0x73#8]] .dir (rfl) (.dir _)⟩,
    ⟨[0x63#8], [[0x64#8], [0x63#8]], [slash, 0x64#8, slash, 0x62#8],
      ⟨[slash, 0x64#8, slash, 0x62#8], .link [slash, 0x64#8, slash, 0x62#8], ⟨7, ⟨1000000000, 0⟩, ⟨1000000000, 0⟩⟩, false,
        false, false, true⟩, rfl, rfl, rfl,
      .link _ _ [[0x64#8], [0x62#8]] (.link [slash, 0x64#8, slash, 0x73#8]) (rfl)
        (.link _ _ [[0x64#8], [0x73#8]] .dir (rfl) (.dir _))⟩⟩

-- the tree is grown, and a path through the link `b`, up and down again leads to the file `f`
example : exampleTree.Grown := by
  intro l h
  have : ∀ e ∈ exampleTree.nodes, exampleTree.kind e.1.dropLast = some .dir := by decide +kernel
  unfold Tree.kind at h
  cases hf : exampleTree.nodes.find? fun e => e.1 = l with
  | none => rw [hf] at h; exact absurd rfl h
  | some e =>
    have h1 := List.find?_some hf
    simp only [decide_eq_true_eq] at h1
    rw [← h1]
    exact this e (List.mem_of_find?_eq_some hf)

example : exampleTree.lstat [slash, 0x64#8, slash, 0x62#8, slash, dot, dot, slash, 0x66#8] =
    .ok ([[0x64#8], [0x66#8]], .file) := rfl

/-- For the link `b`, and for `s` through it, the truth. -/
example : (fileMeta exampleDir exampleTree [0x62#8]).bind (fun r => .ret (r.map fun m => (m.isDir, m.isSymLink))) =
      .ret (.ok (true, true)) ∧
    exampleTree.lstat (fullName exampleDir [0x62#8, slash, dot]) = .ok ([[0x64#8], [0x73#8]], .dir) ∧
    fileMeta exampleDir exampleTree [0x78#8] = .ret (.error .notExist) := ⟨rfl, rfl, rfl⟩

/-- Putting the link `n` ends the process, putting the file `f` does not. -/
example : (["n", "f"].map fun f =>
    ((Program.init exampleFS shippedSettings).run exampleMachine [.typed ("saratoga[0]:put 1.1.1.1 " ++ f)
      { calmReplies with file := { calmReplies.file with fileMeta := exampleTree.fileMeta exampleDir } }]).map
      fun p => decide (p.net.main = .ended)) = [some true, some false] := by decide +kernel

end Saratoga
