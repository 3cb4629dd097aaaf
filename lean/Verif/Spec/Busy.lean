import Verif.Model.Busy
import Verif.Spec.Desk
import Verif.Spec.Network
/-! # Specification vocabulary for the program with its commands at the same time -/
namespace Saratoga

/-- The lines entered, in order. -/
def typedLines (es : List BusyEvent) : List String :=
  es.filterMap fun
    | .typed line => some line
    | _ => none

/-- What happens on the network side. -/
def netSteps (es : List BusyEvent) : List Action :=
  es.filterMap fun
    | .net a => some a
    | _ => none

/-- What an execution with one command after another puts on the wire from the state `p` on. -/
def wireOf (M : Machine) : Program → List Event → List (UDPAddr × List Byte)
  | _, [] => []
  | p, e :: es =>
    (match e with
      | .typed line o => p.emits M o line
      | .net _ => []) ++
    (match p.step M e with
      | some p' => wireOf M p' es
      | none => [])

/-- The events lead to this state from program start. -/
def BusyLeads (M : Machine) (fs : FS) (c : Cliflags) (es : List BusyEvent) (b : Busy) : Prop :=
  (Busy.init fs c).run M es = some b

/-- Every line was entered when all commands before had begun. -/
def Unhurried (M : Machine) (fs : FS) (c : Cliflags) (es : List BusyEvent) : Prop :=
  ∀ before line after b, es = before ++ .typed line :: after → BusyLeads M fs c before b → b.queue = []

/-- The words of the commands started by these lines. -/
def wordsEntered (M : Machine) (lines : List String) : List (List String) :=
  lines.filterMap fun line =>
    match getLine (M.H.map Prod.fst) cmdHandlers line with
    | .ret (.started _ ws) => some ws
    | _ => none

end Saratoga
