import Verif.Model.Prompt
/-! # Specification vocabulary for command lines -/
namespace Saratoga

/-- The blank characters of Unicode: tab, line feed, vertical tab, form feed, return, space, next line,
no-break space and the typographical spaces. -/
def blankCodes : List Nat :=
  [0x9, 0xA, 0xB, 0xC, 0xD, 0x20, 0x85, 0xA0, 0x1680, 0x2000, 0x2001, 0x2002, 0x2003, 0x2004, 0x2005, 0x2006,
   0x2007, 0x2008, 0x2009, 0x200A, 0x2028, 0x2029, 0x202F, 0x205F, 0x3000]

/-- Blanks only. -/
def Blank (l : List Char) : Prop := ∀ c ∈ l, c.toNat ∈ blankCodes

/-- A word: not empty, no blank in it. -/
def Word (l : List Char) : Prop := l ≠ [] ∧ ∀ c ∈ l, c.toNat ∉ blankCodes

instance (l : List Char) : Decidable (Blank l) := by unfold Blank; infer_instance
instance (l : List Char) : Decidable (Word l) := by unfold Word; infer_instance

/-- The line consists of these words, with blanks around and between them. -/
inductive Reads : List Char → List (List Char) → Prop
  | empty {b : List Char} : Blank b → Reads b []
  | last {b w e : List Char} : Blank b → Word w → Blank e → Reads (b ++ w ++ e) [w]
  | cons {b w s rest : List Char} {v : List Char} {ws : List (List Char)} :
      Blank b → Word w → Blank s → s ≠ [] → Reads rest (v :: ws) →
      Reads (b ++ w ++ s ++ rest) (w :: v :: ws)

end Saratoga
