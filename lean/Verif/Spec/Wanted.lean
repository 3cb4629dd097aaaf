import Verif.Spec.Program
/-! # Specification vocabulary for what the lines entered ask for -/
namespace Saratoga

/-- The commands that start a transfer. -/
def transferWords : List String := ["get", "getdir", "take", "put", "putblind", "give", "delete"]

/-- A transfer somebody asks for: the command, the name of the file and the address of the peer. -/
structure Wanted where
  word : String
  file : List Byte
  peer : UDPAddr
deriving DecidableEq

/-- What one line asks for: a transfer if it is a command that starts one with two words, the first of which is an
address. -/
def lineAsks (M : Machine) (line : String) (o : Replies) : Option Wanted :=
  match getLine (M.H.map Prod.fst) cmdHandlers line with
  | .ret (.started cmd [_, a, f]) =>
    if cmd ∈ transferWords then
      match udpAddress o.resolve a with
      | .ok u => some ⟨cmd, utf8 f, u⟩
      | .error _ => none
    else none
  | _ => none

/-- The line is a command that starts a transfer, with two words. -/
def namesTransfer (M : Machine) (line : String) : Bool :=
  match getLine (M.H.map Prod.fst) cmdHandlers line with
  | .ret (.started cmd [_, _, _]) => decide (cmd ∈ transferWords)
  | _ => false

/-- All that the lines entered ask for, in order. -/
def asksOf (M : Machine) : List Event → List Wanted
  | [] => []
  | .net _ :: es => asksOf M es
  | .typed line o :: es => (lineAsks M line o).toList ++ asksOf M es

/-- Those that are for a file to be fetched. -/
def Wanted.fetches (a : Wanted) : Bool := a.word == "get" || a.word == "getdir" || a.word == "take"

/-- The datagrams that arrived, in order. -/
def arrivalsOf : List Event → List Datagram
  | [] => []
  | .net (.recv d) :: es => d :: arrivalsOf es
  | _ :: es => arrivalsOf es

end Saratoga
