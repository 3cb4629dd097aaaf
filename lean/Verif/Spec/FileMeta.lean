import Verif.Model.FileMeta
/-! # What the metadata of a file should say -/
namespace Saratoga

/-- What a link at place `l` leads to: the target is seen from the directory the link is in. -/
def Tree.target (t : Tree) (l : Loc) (text : List Byte) : Except NoFile (Loc × FileKind) := t.look l.dropLast text

/-- Following links from place `l` with `k` there, one after the other, ends at a directory. -/
inductive ReachesDir (t : Tree) : Loc → FileKind → Prop where
  | dir (l : Loc) : ReachesDir t l .dir
  | link (l : Loc) (text : List Byte) (l' : Loc) (k' : FileKind) :
      t.target l text = .ok (l', k') → ReachesDir t l' k' → ReachesDir t l (.link text)

/-- The truth about what is at place `l`: kind, size and times as they are, and a directory is a directory or a link
that leads to one. -/
structure Meta.True (t : Tree) (l : Loc) (k : FileKind) (m : Meta) : Prop where
  kind : m.kind = k
  facts : m.facts = t.facts l
  regular : m.isRegular = true ↔ k = .file
  pipe : m.isNamedPipe = true ↔ k = .pipe
  link : m.isSymLink = true ↔ ∃ text, k = .link text ∧ m.origin = text
  dir : m.isDir = true ↔ ReachesDir t l k

/-- Every place but the root is in a directory, and so is what is above it. -/
def Tree.Grown (t : Tree) : Prop := ∀ l, t.kind l ≠ none → t.kind l.dropLast = some .dir

/-- How a system follows the names of a path from the directory `cur`, with at most `n` links on the way: an empty name
and a dot stay, two dots go up (at the root they stay), any other name goes down. A link on the way is followed, the
last name is not. A name can only be followed in a directory that is there and may be searched. -/
inductive NamesLead (t : Tree) : Nat → Loc → List Name → Except NoFile Loc → Prop where
  | done (n : Nat) (cur : Loc) : NamesLead t n cur [] (.ok cur)
  | missing (n : Nat) (cur : Loc) (c : Name) (cs : List Name) (no : t.kind cur = none) :
      NamesLead t n cur (c :: cs) (.error .notExist)
  | notDir (n : Nat) (cur : Loc) (c : Name) (cs : List Name) (k : FileKind) (is : t.kind cur = some k) (no : k ≠ .dir) :
      NamesLead t n cur (c :: cs) (.error .notDir)
  | refused (n : Nat) (cur : Loc) (c : Name) (cs : List Name) (is : t.kind cur = some .dir) (no : t.refuses cur = true) :
      NamesLead t n cur (c :: cs) (.error .refused)
  | stay (n : Nat) (cur : Loc) (c : Name) (cs : List Name) (r : Except NoFile Loc) (is : t.kind cur = some .dir)
      (may : t.refuses cur = false) (name : c = [] ∨ c = [dot]) (rest : NamesLead t n cur cs r) : NamesLead t n cur (c :: cs) r
  | up (n : Nat) (cur : Loc) (cs : List Name) (r : Except NoFile Loc) (is : t.kind cur = some .dir)
      (may : t.refuses cur = false) (rest : NamesLead t n cur.dropLast cs r) : NamesLead t n cur ([dot, dot] :: cs) r
  | down (n : Nat) (cur : Loc) (c : Name) (cs : List Name) (r : Except NoFile Loc) (is : t.kind cur = some .dir)
      (may : t.refuses cur = false) (name : c ∉ [[], [dot], [dot, dot]])
      (plain : cs = [] ∨ ∀ text, t.kind (cur ++ [c]) ≠ some (.link text)) (rest : NamesLead t n (cur ++ [c]) cs r) :
      NamesLead t n cur (c :: cs) r
  | link (n : Nat) (cur : Loc) (c : Name) (cs : List Name) (text : List Byte) (r : Except NoFile Loc)
      (is : t.kind cur = some .dir) (may : t.refuses cur = false) (name : c ∉ [[], [dot], [dot, dot]]) (more : cs ≠ [])
      (there : t.kind (cur ++ [c]) = some (.link text))
      (rest : NamesLead t n (if text.head? = some slash then [] else cur) (splitSlash text ++ cs) r) :
      NamesLead t (n + 1) cur (c :: cs) r
  | tooMany (cur : Loc) (c : Name) (cs : List Name) (text : List Byte)
      (is : t.kind cur = some .dir) (may : t.refuses cur = false) (name : c ∉ [[], [dot], [dot, dot]]) (more : cs ≠ [])
      (there : t.kind (cur ++ [c]) = some (.link text)) : NamesLead t 0 cur (c :: cs) (.error .tooManyLinks)

end Saratoga
