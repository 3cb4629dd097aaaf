import Verif.Model.Transfers
/-!
# Reading the table of transfers while it changes

`Info` (sarwin/sarwin.go:1089-1097) and `Match` (sarwin/sarwin.go:911-918) read `Transfers` entry by entry without
`Trmu`; `NewInitiator` and `NewResponder` append to it and `Remove` takes an entry out, each with `Trmu` held
(sarwin/sarwin.go:953-983, 1012-1083, 1217-1222). All run in goroutines of their own. The variable `Transfers` is read
anew for every entry, its length once. Reading and replacing it are taken to be single actions.
-/
namespace Saratoga

/-- Where a reader is: in the loop of `Info` before entry `i` of `len`, in the loop of `Match` with `n` entries to go, or
at the end of either (sarwin/sarwin.go:911-918, 1089-1130). -/
inductive TableReader where
  | listing (ttype : String) (i len : Nat) (got : List Transfer)
  | listed (got : List Transfer)
  | matching (addr : String) (session : BitVec 32) (n : Nat)
  | matched (found : Option Nat)

/-- The table and its readers (sarwin/sarwin.go:893-895). -/
structure TableWorld where
  transfers : List Transfer
  readers : List TableReader

/-- Things that happen: a transfer is added or taken out, a reader starts, or reader `k` goes on
(sarwin/sarwin.go:911-1130, 1216-1229). -/
inductive TableAct where
  | add (t : Transfer)
  | remove (t : Transfer)
  | startInfo (ttype : String)
  | startMatch (addr : String) (session : BitVec 32)
  | read (k : Nat)

/-- The next entry of a reader (sarwin/sarwin.go:911-918, 1089-1130). -/
def TableReader.step (ts : List Transfer) : TableReader → Out TableReader
  | .listing ttype i len got =>
    if i < len then
      match ts[i]? with
      | none => .panic
      | some t => .ret (.listing ttype (i + 1) len (if ttype = "" ∨ t.ttype = ttype then got ++ [t] else got))
    else .ret (.listed got)
  | .listed got => .ret (.listed got)
  | .matching _ _ 0 => .ret (.matched none)
  | .matching addr session (n + 1) =>
    match ts[n]? with
    | none => .panic
    | some t =>
      match t.conn with
      | none => .panic
      | some a => if addr = a ∧ session = t.session then .ret (.matched (some n)) else .ret (.matching addr session n)
  | .matched f => .ret (.matched f)

/-- One step (sarwin/sarwin.go:911-1130, 1216-1229). -/
def TableWorld.step (str : UDPAddr → String) (w : TableWorld) : TableAct → Out TableWorld
  | .add t => .ret { w with transfers := w.transfers ++ [t] }
  | .remove t => .ret { w with transfers := (t.remove str w.transfers).1 }
  | .startInfo ttype => .ret { w with readers := w.readers ++ [.listing ttype 0 w.transfers.length []] }
  | .startMatch addr session => .ret { w with readers := w.readers ++ [.matching addr session w.transfers.length] }
  | .read k =>
    match w.readers[k]? with
    | none => .ret w
    | some r => do
      let r ← r.step w.transfers
      pure { w with readers := w.readers.set k r }

/-- An execution (sarwin/sarwin.go:911-1130, 1216-1229). -/
def TableWorld.run (str : UDPAddr → String) (w : TableWorld) : List TableAct → Out TableWorld
  | [] => .ret w
  | a :: as => (w.step str a).bind fun w => w.run str as

end Saratoga
