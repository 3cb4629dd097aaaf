/-! # Specification vocabulary for flag text

Flag text is a comma separated list of `name=value`.  Nothing here refers to the model. -/
namespace Saratoga

/-- A word that can stand as a name or a value: no comma, equals sign or blank. -/
def Plain (s : String) : Prop := ∀ c ∈ s.toList, c ≠ ',' ∧ c ≠ '=' ∧ c ≠ ' '

instance (s : String) : Decidable (Plain s) := by unfold Plain; infer_instance

/-- All names and values are plain words. -/
def PlainPairs (ps : List (String × String)) : Prop := ∀ p ∈ ps, Plain p.1 ∧ Plain p.2

instance (ps : List (String × String)) : Decidable (PlainPairs ps) := by
  unfold PlainPairs; infer_instance

/-- The flag text of a list of pairs. -/
def render : List (String × String) → String
  | [] => ""
  | [(n, v)] => n ++ "=" ++ v
  | (n, v) :: p :: ps => n ++ "=" ++ v ++ "," ++ render (p :: ps)

/-- The value the pairs give to a name: the first one, or `""` when the name does not occur. -/
def lookupFirst (n : String) : List (String × String) → String
  | [] => ""
  | (m, v) :: ps => if m = n then v else lookupFirst n ps

/-- The pairs with every occurrence of a name given the value `v`, or the pair appended when the name
does not occur. -/
def replacePairs (n v : String) (ps : List (String × String)) : List (String × String) :=
  if n ∈ ps.map (·.1) then ps.map (fun p => if p.1 = n then (n, v) else p) else ps ++ [(n, v)]

end Saratoga
