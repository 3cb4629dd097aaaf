import Verif.Model.Console
/-!
# Model of the history of commands (`sarwin/sarwin.go` lines 98, 585-592)

`Cinfo.Commands`, which `Model/Console.lean` leaves out.
-/
namespace Saratoga

/-- What Enter on this line adds to the history (sarwin/sarwin.go:585-592): what is behind the first colon, unless that is
nothing; it is added before the command is looked at. Without a colon the program ends first. -/
def recorded (line : List Char) : List String :=
  match afterColon line with
  | none => []
  | some cs => if String.ofList cs = "" then [] else [String.ofList cs]

/-- A key and what it adds to the history (sarwin/sarwin.go:585-592). -/
def Console.adds (c : Console) : ConsoleKey → List String
  | .enter => recorded c.line
  | _ => []

/-- Keys one after another, with the history (as it was when the program ended, if it did) (sarwin/sarwin.go:585-592).
-/
def Console.history (commands handlers : List String) (c : Console) (before : List String) :
    List ConsoleKey → List String
  | [] => before
  | k :: ks =>
    match c.press commands handlers k with
    | .ret (d, _) => d.history commands handlers (before ++ c.adds k) ks
    | _ => before ++ c.adds k

end Saratoga
