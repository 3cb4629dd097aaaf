import Verif.Model.Desk
import Verif.Spec.Program
/-! # Specification vocabulary for the program at its keyboard -/
namespace Saratoga

/-- The keys pressed, in order, each with what the system answers. -/
def keysPressed (es : List DeskEvent) : List (TermKey × Replies) :=
  es.filterMap fun
    | .press k o => some (k, o)
    | _ => none

/-- What happens to the windows: output, and keys but Ctrl-C. -/
def windowEvents (es : List DeskEvent) : List TermEvent :=
  es.filterMap fun
    | .press k _ => if k = .key .ctrlC then none else some (.press k)
    | .output e => some e
    | .net _ => none

/-- What happens on the network side. -/
def netActions (es : List DeskEvent) : List Action :=
  es.filterMap fun
    | .net a => some a
    | _ => none

/-- The network side of an execution of the program. -/
def netEvents (es : List Event) : List Action :=
  es.filterMap fun
    | .net a => some a
    | .typed _ _ => none

/-- The words of the commands started. -/
def wordsStarted (rs : List RunEnd) : List (List String) :=
  rs.filterMap fun
    | .started _ ws => some ws
    | _ => none

/-- The keys for a text and Enter. -/
def typing (text : String) : List TermKey := text.toList.map .char ++ [.key .enter]

end Saratoga
