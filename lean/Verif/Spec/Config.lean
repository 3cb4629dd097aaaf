import Verif.Model.Config
import Verif.Spec.Settings
/-! # Specification vocabulary for the configuration file -/
namespace Saratoga

variable {F : Type}

/-- Different names. -/
def DistinctNames {β : Type} (m : List (String × β)) : Prop := m.Pairwise (fun a b => a.1 ≠ b.1)

mutual

/-- The same document up to the order of the members of its objects, at every depth. -/
inductive Json.Same : Json F → Json F → Prop where
  | null : Json.Same .null .null
  | bool (b : Bool) : Json.Same (.bool b) (.bool b)
  | num (x : F) : Json.Same (.num x) (.num x)
  | str (s : String) : Json.Same (.str s) (.str s)
  | arr {l l' : List (Json F)} : SameAll l l' → Json.Same (.arr l) (.arr l')
  | obj {m m₂ m' : List (String × Json F)} : DistinctNames m → m.Perm m₂ → SameEach m₂ m' →
      Json.Same (.obj m) (.obj m')

/-- Element by element. -/
inductive SameAll : List (Json F) → List (Json F) → Prop where
  | nil : SameAll [] []
  | cons {a b : Json F} {l l' : List (Json F)} : Json.Same a b → SameAll l l' → SameAll (a :: l) (b :: l')

/-- Member by member, with the same names. -/
inductive SameEach : List (String × Json F) → List (String × Json F) → Prop where
  | nil : SameEach [] []
  | cons {k : String} {a b : Json F} {m m' : List (String × Json F)} : Json.Same a b → SameEach m m' →
      SameEach ((k, a) :: m) ((k, b) :: m')

end

/-- A decoded document: the members of each object, at every depth, have different names. -/
inductive Json.Proper : Json F → Prop where
  | null : Json.Proper .null
  | bool (b : Bool) : Json.Proper (.bool b)
  | num (x : F) : Json.Proper (.num x)
  | str (s : String) : Json.Proper (.str s)
  | arr {l : List (Json F)} : (∀ x ∈ l, Json.Proper x) → Json.Proper (.arr l)
  | obj {m : List (String × Json F)} : DistinctNames m → (∀ p ∈ m, Json.Proper p.2) → Json.Proper (.obj m)

/-! ## Types the document must have -/

def IsText (v : Json F) : Prop := ∃ s, v = .str s

def IsNumber (v : Json F) : Prop := ∃ x, v = .num x

def IsTexts (v : Json F) : Prop := ∃ l, v = .arr l ∧ ∀ x ∈ l, IsText x

/-- An object all of whose members are as asked for. -/
def IsObject (P : String → Json F → Prop) (v : Json F) : Prop := ∃ m, v = .obj m ∧ ∀ p ∈ m, P p.1 p.2

/-- The members that are one text, with the setting they fill. Flags live in the flag map. -/
def textSettings : List (String × (Cliflags → String)) :=
  let flag (k : String) : String × (Cliflags → String) := (k, fun c => (assoc k c.global).getD "?")
  [("v4multicast", (·.v4multicast)), ("v6multicast", (·.v6multicast)), ("timestamp", (·.timestamp)),
   ("timezone", (·.timezone)), ("prompt", (·.prompt)),
   flag "descriptor", flag "csumtype", flag "freespace", flag "txwilling", flag "rxwilling", flag "stream",
   flag "reqtstamp", flag "reqstatus", flag "udplite"]

/-- The members that are one number, with the setting they fill. -/
def numberSettings : List (String × (Conv F → F → Int) × (Cliflags → Int)) :=
  [("udpport", (·.int ·), (·.port)), ("ppad", (·.int ·), (·.ppad)),
   ("buffersize", (·.int ·), (·.buffersize)), ("bcount", (fun cv x => (cv.uint x : Int)), (·.bcount))]

/-- The members of `"timeout"`, with the setting they fill. -/
def timerSettings : List (String × (Conv F → F → Int) × (Timeouts → Int)) :=
  [("metadata", (·.int ·), (·.metadata)), ("request", (·.int ·), (·.request)),
   ("status", (·.int ·), (·.status)), ("transfer", (·.int ·), (·.transfer)),
   ("binterval", (fun cv x => (cv.uint x : Int)), (·.binterval)),
   ("datacounter", (·.int ·), (·.datacounter))]

def textNames : List String :=
  ["v4multicast", "v6multicast", "descriptor", "csumtype", "freespace", "txwilling", "rxwilling", "stream",
   "reqtstamp", "reqstatus", "udplite", "timestamp", "timezone", "sardir", "prompt"]

def numberNames : List String := ["udpport", "ppad", "buffersize", "bcount"]

def timerNames : List String := ["metadata", "request", "status", "transfer", "binterval", "datacounter"]

/-- The description of one field of a header. -/
def FieldTyped (k : String) (v : Json F) : Prop :=
  (k = "len" → IsNumber v) ∧ (k = "msb" → IsNumber v) ∧ (k = "options" → IsObject (fun _ x => IsNumber x) v)

/-- A member of the document has the type the program needs; members with other names may be anything. -/
def MemberTyped (k : String) (v : Json F) : Prop :=
  (k ∈ textNames → IsText v) ∧ (k ∈ numberNames → IsNumber v) ∧
  (k = "timeout" → IsObject (fun n x => n ∈ timerNames → IsNumber x) v) ∧
  (k = "commands" → IsObject (fun _ c => IsObject (fun n x => n = "help" ∨ n = "usage" → IsText x) c) v) ∧
  (k = "frameflags" → IsObject (fun _ x => IsTexts x) v) ∧
  (k = "flags" → IsObject (fun _ f => IsObject (fun n x => FieldTyped n x ∧ (n = "frametypes" → IsTexts x)) f) v) ∧
  (k = "direntflags" → IsObject (fun _ f => IsObject FieldTyped f) v) ∧
  (k = "timestamps" → IsObject FieldTyped v)

/-- The text of a member, empty when there is none. -/
def textOf (doc : List (String × Json F)) (k : String) : String :=
  match assoc k doc with
  | some (.str s) => s
  | _ => ""

/-- The number of a member, zero when there is none. -/
def numberOf (conv : F → Int) (doc : List (String × Json F)) (k : String) : Int :=
  match assoc k doc with
  | some (.num x) => conv x
  | _ => 0

/-- The members of an object, none when there is none. -/
def membersOf (doc : List (String × Json F)) (k : String) : List (String × Json F) :=
  match assoc k doc with
  | some (.obj m) => m
  | _ => []

/-- The text, if the value is one. -/
def Json.text? : Json F → Option String
  | .str s => some s
  | _ => none

/-- The texts of an array member, none when there is none. -/
def textsOf (doc : List (String × Json F)) (k : String) : List String :=
  match assoc k doc with
  | some (.arr l) => l.filterMap Json.text?
  | _ => []

/-- `fl` is the field that the members `info` describe; what they do not mention is as in `old`. -/
def FieldFrom {w : Nat} (u : F → BitVec w) (old : FlagType w) (info : List (String × Json F)) (fl : FlagType w) :
    Prop :=
  (fl.len = match assoc "len" info with | some (.num x) => u x | _ => old.len) ∧
  (fl.msb = match assoc "msb" info with | some (.num x) => u x | _ => old.msb) ∧
  ∀ o, assoc o fl.options = match assoc "options" info with
    | some (.obj os) => (match assoc o os with | some (.num x) => some (u x) | _ => none)
    | _ => assoc o old.options

/-- The map `m` has an entry for each member of `info` and no other, related to it by `R`. -/
def EntriesFrom {β : Type} (R : List (String × Json F) → β → Prop) (info : List (String × Json F))
    (m : List (String × β)) : Prop :=
  ∀ k, match assoc k info with
    | some (.obj d) => ∃ b, assoc k m = some b ∧ R d b
    | _ => assoc k m = none

/-! ## Tables that answer every question alike -/

/-- Two descriptions of a field agree: same place, same length, same options. -/
def FlagType.Same {w : Nat} (a b : FlagType w) : Prop :=
  a.len = b.len ∧ a.msb = b.msb ∧ ∀ o, assoc o a.options = assoc o b.options

/-- Two maps know the same keys, with related values. -/
def SameMap {β : Type} (R : β → β → Prop) (m m' : List (String × β)) : Prop :=
  ∀ k, match assoc k m, assoc k m' with
    | none, none => True
    | some a, some b => R a b
    | _, _ => False

/-- Tables that differ in the order of their maps at most. -/
def Tables.Same (T T' : Tables) : Prop :=
  SameMap FlagType.Same T.flags T'.flags ∧ SameMap FlagType.Same T.dirent T'.dirent ∧
  FlagType.Same T.ts T'.ts ∧ SameMap Eq T.frameflags T'.frameflags

end Saratoga
