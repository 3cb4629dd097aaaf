import Verif.Model.PutRun
import Verif.Spec.ReadStatus
/-! # What the goroutines of a put should do: specification for C132 -/
namespace Saratoga

/-- Some execution leads from one state to the other. -/
def PutRun.LeadsTo (numbers : String → Bool) (s t : PutRun) : Prop := ∃ moves, s.run numbers moves = some t

/-- Nobody can get on. -/
def PutRun.Still (numbers : String → Bool) (s : PutRun) : Prop := ∀ m, s.step numbers m = none

/-- The goroutines have returned and everything they told has been received. -/
def PutRun.AllHeard (s : PutRun) : Prop :=
  s.reader = [] ∧ s.sender = [] ∧ s.statuserr = none ∧ s.statuspos = false ∧ s.datapos = false ∧ s.dataerr = none

def PutEvent.status? : PutEvent → Option String
  | .status w => some w
  | _ => none

def PutEvent.data? : PutEvent → Option String
  | .data w => some w
  | _ => none

/-- What is told by `readstatus` on `errflag`. -/
def wordsOf (reader : List Act) : List String := reader.filterMap Act.word?

end Saratoga
