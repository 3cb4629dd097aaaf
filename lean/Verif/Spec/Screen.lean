import Verif.Model.Go
/-! # Specification vocabulary for the screen: what a terminal makes of escape sequences -/
namespace Saratoga

/-- How a character looks; no number is the default colour. -/
structure Look where
  fg : Option Nat
  bg : Option Nat
  bold : Bool
  underline : Bool
  reverse : Bool
deriving DecidableEq, Repr

def Look.default : Look := ⟨none, none, false, false, false⟩

/-- One number of a "select graphic rendition" sequence. -/
def Look.select (l : Look) (n : Nat) : Look :=
  if n = 0 then .default
  else if n = 1 then { l with bold := true }
  else if n = 4 then { l with underline := true }
  else if n = 7 then { l with reverse := true }
  else if 30 ≤ n ∧ n ≤ 37 then { l with fg := some (n - 30) }
  else if 40 ≤ n ∧ n ≤ 47 then { l with bg := some (n - 40) }
  else l

/-- In plain text, after an escape, or in the numbers of a sequence: those complete and the one being read. -/
inductive TermMode where
  | plain
  | escape
  | numbers (done : List Nat) (cur : Nat)
deriving DecidableEq, Repr

/-- The terminal: how the next character will look, and the characters drawn. -/
structure Term where
  mode : TermMode
  look : Look
  drawn : List (Char × Look)
deriving DecidableEq, Repr

/-- One character sent to the terminal. Unknown sequences are dropped. -/
def Term.put (t : Term) (c : Char) : Term :=
  match t.mode with
  | .plain => if c = '\x1b' then { t with mode := .escape } else { t with drawn := t.drawn ++ [(c, t.look)] }
  | .escape => if c = '[' then { t with mode := .numbers [] 0 } else { t with mode := .plain }
  | .numbers ns n =>
    if '0' ≤ c ∧ c ≤ '9' then { t with mode := .numbers ns (10 * n + (c.toNat - '0'.toNat)) }
    else if c = ';' then { t with mode := .numbers (ns ++ [n]) 0 }
    else if c = 'm' then { t with mode := .plain, look := (ns ++ [n]).foldl Look.select t.look }
    else { t with mode := .plain }

/-- A text sent to the terminal. -/
def Term.write (t : Term) (s : String) : Term := s.toList.foldl Term.put t

/-- The terminal before anything was sent. -/
def Term.blank : Term := ⟨.plain, .default, []⟩

end Saratoga
