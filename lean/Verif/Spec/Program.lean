import Verif.Model.Program
import Verif.Spec.Prompt
/-! # Specification vocabulary for the whole program -/
namespace Saratoga

/-- The state the events lead to from program start with files `fs` and settings `c`. -/
def Leads (M : Machine) (fs : FS) (c : Cliflags) (es : List Event) (p : Program) : Prop :=
  (Program.init fs c).run M es = some p

/-- The commands among the events, in order, each as the words of its line. -/
def commandsTyped (M : Machine) : List Event → List (List String)
  | [] => []
  | .net _ :: es => commandsTyped M es
  | .typed line _ :: es =>
    match getLine (M.H.map Prod.fst) cmdHandlers line with
    | .ret (.started _ ws) => ws :: commandsTyped M es
    | _ => commandsTyped M es

/-- The exit level a line asks for. -/
def exitAsked : List String → Option Int
  | [cmd] => if cmd = "exit" ∨ cmd = "quit" then some 0 else none
  | [cmd, level] =>
    if cmd = "exit" ∨ cmd = "quit" then
      if level = "0" then some 0 else if level = "1" then some 1 else none
    else none
  | _ => none

/-- The level asked for last, -1 if none was. -/
def lastExit (lines : List (List String)) : Int := (lines.filterMap exitAsked).getLast?.getD (-1)

/-- The process has ended. -/
def Program.Ended (p : Program) : Prop := p.net.main = .ended

/-- Two states agree in everything the network side keeps, apart from the files and from whether the process has
ended. -/
def SameNet (v w : World) : Prop :=
  v.listener = w.listener ∧ v.peers = w.peers ∧ v.transfers = w.transfers ∧ v.read = w.read ∧
  v.handled = w.handled ∧ v.taken = w.taken ∧ v.wire = w.wire

/-- Two states agree in everything the commands keep, apart from the files. -/
def SameCommands (p q : Program) : Prop :=
  p.settings = q.settings ∧ p.table = q.table ∧ p.sessionid = q.sessionid ∧ p.beacon = q.beacon ∧ p.cexit = q.cexit

/-- The lines that end the process by themselves: without colon, blank after the colon, `exit`, `quit`. -/
def FatalLine (line : String) : Prop :=
  ':' ∉ line.toList ∨ (∃ p t, line.toList = p ++ ':' :: t ∧ ':' ∉ p ∧ t ≠ [] ∧ Blank t) ∨
  ∃ p, ':' ∉ p ∧ (line.toList = p ++ ":exit".toList ∨ line.toList = p ++ ":quit".toList)

end Saratoga
