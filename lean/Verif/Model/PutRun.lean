import Verif.Model.ReadStatus
/-!
# Model of the goroutines of a put (`client/client.go` lines 33-235 and 395-437)

`cput` starts `readstatus` and `senddata` and waits for what they tell. Four channels, each with room for one item, lie
between them. What the two goroutines tell is given as lists, as `readStatus` and `sendData` answer them; a step is
one goroutine getting on by one act or one reception. The numbers on the channels of positions are left out, as nobody
looks at them.
-/
namespace Saratoga

/-- Where `cput` is (client/client.go:405-437): waiting in its `select`, about to send on `datapos` (line 416), or
returned after reporting a word. -/
inductive PutAt where
  | waits
  | hands
  | ended (word : String)
deriving DecidableEq, Repr

/-- The state: where `cput` is, what `readstatus` and `senddata` have still to do, what lies in the four channels
(client/client.go:395-398), and what `cput` has received so far. -/
structure PutRun where
  at_ : PutAt
  reader : List Act
  sender : List String
  statuserr : Option String
  statuspos : Bool
  datapos : Bool
  dataerr : Option String
  took : List PutEvent

/-- `cput` when it has just started both goroutines (client/client.go:395-404). -/
def PutRun.start (reader : List Act) (sender : List String) : PutRun :=
  ⟨.waits, reader, sender, none, false, false, none, []⟩

/-- Who gets on (client/client.go:395-437). -/
inductive PutMove where
  | reads
  | sends
  | takeStatus
  | takeData
  | takeStatusPos
  | takeDataPos
  | hand
deriving DecidableEq, Repr

/-- One act of `readstatus` (client/client.go:33-172): a send waits until there is room; frames go out at once. -/
def PutRun.reads (s : PutRun) : Option PutRun :=
  match s.reader with
  | [] => none
  | .word w :: rest => if s.statuserr.isSome then none else some { s with reader := rest, statuserr := some w }
  | .position _ _ :: rest => if s.statuspos then none else some { s with reader := rest, statuspos := true }
  | .metadata :: rest => some { s with reader := rest }
  | .data _ :: rest => some { s with reader := rest }

/-- One word of `senddata` (client/client.go:177-235). -/
def PutRun.sends (s : PutRun) : Option PutRun :=
  match s.sender with
  | [] => none
  | w :: rest => if s.dataerr.isSome then none else some { s with sender := rest, dataerr := some w }

/-- One step; `none` if it is not possible. The `select` of `cput` is at client/client.go:406-436. -/
def PutRun.step (numbers : String → Bool) (s : PutRun) : PutMove → Option PutRun
  | .reads => s.reads
  | .sends => s.sends
  | .takeStatus =>
    match s.at_, s.statuserr with
    | .waits, some w =>
      let s := { s with statuserr := none, took := s.took ++ [.status w] }
      if numbers w then some { s with at_ := .hands }
      else if w ≠ "success" then some { s with at_ := .ended w }
      else some s
    | _, _ => none
  | .takeData =>
    match s.at_, s.dataerr with
    | .waits, some w =>
      let s := { s with dataerr := none, took := s.took ++ [.data w] }
      if w ≠ "success" then some { s with at_ := .ended w } else some s
    | _, _ => none
  | .takeStatusPos =>
    match s.at_, s.statuspos with
    | .waits, true => some { s with statuspos := false, took := s.took ++ [.statusPos] }
    | _, _ => none
  | .takeDataPos =>
    match s.at_, s.datapos with
    | .waits, true => some { s with datapos := false, took := s.took ++ [.dataPos] }
    | _, _ => none
  | .hand =>
    match s.at_, s.datapos with
    | .hands, false => some { s with at_ := .waits, datapos := true }
    | _, _ => none

/-- Several steps (client/client.go:395-437). -/
def PutRun.run (numbers : String → Bool) (s : PutRun) : List PutMove → Option PutRun
  | [] => some s
  | m :: ms => (s.step numbers m).bind fun t => t.run numbers ms

end Saratoga
