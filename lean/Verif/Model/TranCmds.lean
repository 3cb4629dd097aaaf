import Verif.Model.Settings
import Verif.Model.Transfers
/-!
# Model of the transfer commands (`sarwin/sarwin.go` lines 1089-1130, 1248-1255, 1530-1543, 1578-1652,
1890-2007, 2040-2076, 2383-2405)

A handler is a function of the table and the words of the line. Its answer is what it prints and whether it
has returned or goes on as the machine `Doing` below. Two handlers at the same time are in
`Model/Transfers.lean` (`initStep`); here a handler runs alone.
-/
namespace Saratoga

/-- What a transfer command prints: a line, the table of `Info` (its rows unsorted; sorting and column
widths are left out), or the line "No … transfers currently in progress" (sarwin/sarwin.go:1578-2106, 2383-2405). -/
inductive CmdReply where
  | line (s : Shown)
  | table (rows : List Transfer)
  | noneOf (ttype : String)
deriving DecidableEq, Repr

/-- `Info` (sarwin/sarwin.go:1089-1130). -/
def info (ts : List Transfer) (ttype : String) : CmdReply :=
  let tinfo := ts.filter fun t => ttype = "" ∨ t.ttype = ttype
  if tinfo.length > 0 then .table tinfo else .noneOf ttype

/-- How a handler's goroutine goes on after its last modelled line: it has returned, or it has started
`Do` for a transfer and waits (sarwin/sarwin.go:1578-2076). -/
inductive Next where
  | returned
  | doing (t : Transfer)
deriving DecidableEq, Repr

/-- What a handler comes to: table and files, what it printed, how its goroutine goes on (sarwin/sarwin.go:1578-2106).
-/
abbrev CmdOut := Out (TranWorld × List CmdReply × Next)

/-- The answer to `<command> ?` (sarwin/sarwin.go:664-681). -/
def helpReply (H : CmdTable) (cf : String) : List CmdReply := (helpLines H cf).map .line

/-- `ErrPrintln(prusage(cf))` (sarwin/sarwin.go:674-681). -/
def usageReply (H : CmdTable) (cf : String) : CmdReply := .line (.err (prusage H cf))

/-- `MsgPrintln(prhelp(cf))`, `ErrPrintln(prusage(cf))` after a refused `NewInitiator` (sarwin/sarwin.go:1578-2076). -/
def refusal (H : CmdTable) (cf : String) : List CmdReply := [.line (.msg (prhelp H cf)), usageReply H cf]

/-- The line for a host that is no address (sarwin/sarwin.go:1578-2076). -/
def badAddress (a : String) : CmdReply := .line (.err ("Invalid IP Address:" ++ a))

/-- What all handlers are given: texts, outside world, settings, table (sarwin/sarwin.go:1578-2106). -/
structure CmdEnv where
  H : CmdTable
  env : TranEnv
  c : Cliflags

/-- `sarnet.UDPAddress(args[1])` (sarnet/sarnet.go:42-57, called at sarwin/sarwin.go:1578-2076). -/
def CmdEnv.address (E : CmdEnv) (a : String) : Except Err UDPAddr := udpAddress E.env.resolve a

/-- `NewInitiator(g, ttype, udpad, args[2], sarflags.Cliflag)` (sarwin/sarwin.go:921-986, called at 1578-2076). -/
def CmdEnv.initiate (E : CmdEnv) (w : TranWorld) (ttype : String) (a : UDPAddr) (f : String) :
    Out (TranWorld × Except Err Transfer) := newInitiator E.env E.c w ttype a (utf8 f)

/-- `cmdGet` (sarwin/sarwin.go:1578-1601). -/
def cmdGet (E : CmdEnv) (w : TranWorld) : List String → CmdOut
  | [_] => .ret (w, [info w.transfers "get"], .returned)
  | [_, a] =>
    if a = "?" then .ret (w, helpReply E.H "get", .returned)
    else .ret (w, [usageReply E.H "get"], .returned)
  | [_, a, f] =>
    match E.address a with
    | .error _ => .ret (w, [], .returned)
    | .ok u => do
      let (w, _) ← E.initiate w "get" u f
      .ret (w, [], .returned)
  | _ => .ret (w, [usageReply E.H "get"], .returned)

/-- `cmdGetdir` (sarwin/sarwin.go:1603-1627) and `cmdTake` (1629-1652) differ in three words: the command,
the type listed and the type started. -/
def cmdFetch (name listed : String) (E : CmdEnv) (w : TranWorld) : List String → CmdOut
  | [_] => .ret (w, [info w.transfers listed], .returned)
  | [_, a] =>
    if a = "?" then .ret (w, helpReply E.H name, .returned)
    else .ret (w, [usageReply E.H name], .returned)
  | [_, a, f] =>
    match E.address a with
    | .error _ => .ret (w, [badAddress a], .returned)
    | .ok u => do
      let (w, r) ← E.initiate w name u f
      match r with
      | .error _ => .ret (w, refusal E.H name, .returned)
      | .ok _ => .ret (w, [], .returned)
  | _ => .ret (w, [usageReply E.H name], .returned)

/-- `cmdGetdir` (sarwin/sarwin.go:1603-1626). -/
def cmdGetdir : CmdEnv → TranWorld → List String → CmdOut := cmdFetch "getdir" "getdir"

/-- `cmdTake` (sarwin/sarwin.go:1629-1652). -/
def cmdTake : CmdEnv → TranWorld → List String → CmdOut := cmdFetch "take" "getrm"

/-- `cmdPut` (sarwin/sarwin.go:1890-1926), `cmdPutblind` (1930-1967) and `cmdDelete` (2040-2076) differ in
the command, the type listed and the command whose help follows a refusal. -/
def cmdSend (name listed refused : String) (E : CmdEnv) (w : TranWorld) : List String → CmdOut
  | [_] => .ret (w, [info w.transfers listed], .returned)
  | [_, a] =>
    if a = "?" then .ret (w, helpReply E.H name, .returned)
    else .ret (w, [usageReply E.H name], .returned)
  | [_, a, f] =>
    match E.address a with
    | .error _ => .ret (w, [badAddress a, usageReply E.H name], .returned)
    | .ok u => do
      let (w, r) ← E.initiate w name u f
      match r with
      | .error _ => .ret (w, refusal E.H refused, .returned)
      | .ok t => .ret (w, [], .doing t)
  | _ => .ret (w, [usageReply E.H name], .returned)

/-- `cmdPut` (sarwin/sarwin.go:1890-1926). -/
def cmdPut : CmdEnv → TranWorld → List String → CmdOut := cmdSend "put" "put" "getrm"

/-- `cmdPutblind` (sarwin/sarwin.go:1930-1967). -/
def cmdPutblind : CmdEnv → TranWorld → List String → CmdOut := cmdSend "putblind" "putblind" "putblind"

/-- `cmdDelete` (sarwin/sarwin.go:2040-2076). -/
def cmdDelete : CmdEnv → TranWorld → List String → CmdOut := cmdSend "delete" "rm" "delete"

/-- `cmdGive` (sarwin/sarwin.go:1971-2007): here the address is called invalid when `NewInitiator`
refuses, and not when it is. -/
def cmdGive (E : CmdEnv) (w : TranWorld) : List String → CmdOut
  | [_] => .ret (w, [info w.transfers "putrm"], .returned)
  | [_, a] =>
    if a = "?" then .ret (w, helpReply E.H "give", .returned)
    else .ret (w, [usageReply E.H "putrm"], .returned)
  | [_, a, f] =>
    match E.address a with
    | .error _ => .ret (w, [usageReply E.H "putblind", usageReply E.H "putrm"], .returned)
    | .ok u => do
      let (w, r) ← E.initiate w "give" u f
      match r with
      | .error _ =>
        .ret (w, [badAddress a, usageReply E.H "putblind", usageReply E.H "putrm"], .returned)
      | .ok t => .ret (w, [], .doing t)
  | _ => .ret (w, [usageReply E.H "putrm"], .returned)

/-- `Ttypes` (sarwin/sarwin.go:850). -/
def tTypes : List String := ["get", "getrm", "getdir", "put", "putblind", "putrm", "rm", "rmdir"]

/-- `cmdTran` (sarwin/sarwin.go:2383-2405). -/
def cmdTran (E : CmdEnv) (w : TranWorld) : List String → CmdOut
  | [_] => .ret (w, [info w.transfers ""], .returned)
  | [_, a] =>
    if a = "?" then .ret (w, helpReply E.H "tran", .returned)
    else if a ∈ tTypes then .ret (w, [info w.transfers a], .returned)
    else .ret (w, [usageReply E.H "tran"], .returned)
  | _ => .ret (w, [usageReply E.H "tran"], .returned)

/-- `cmdFiles` (sarwin/sarwin.go:1530-1543). -/
def cmdFiles (E : CmdEnv) (w : TranWorld) : List String → CmdOut
  | [_] => .ret (w, [info w.transfers ""], .returned)
  | [_, a] =>
    if a = "?" then .ret (w, helpReply E.H "files", .returned)
    else .ret (w, [usageReply E.H "files"], .returned)
  | _ => .ret (w, [usageReply E.H "files"], .returned)

/-- The transfer commands of `cmdhandler` (sarwin/sarwin.go:2459-2494). -/
def tranCommands : List (String × (CmdEnv → TranWorld → List String → CmdOut)) :=
  [("get", cmdGet), ("getdir", cmdGetdir), ("take", cmdTake), ("put", cmdPut), ("putblind", cmdPutblind),
   ("give", cmdGive), ("delete", cmdDelete), ("tran", cmdTran), ("files", cmdFiles)]

/-! ## The wait for `Do` -/

/-- The handler from `make(chan error, 1)` on (sarwin/sarwin.go:1905-1917 and alike). -/
inductive WaitPc where
  | making     -- before `go t.Do(g, errflag)`
  | receiving  -- at `errcode := <-errflag`
  | ended (errcode : Option Err)
deriving DecidableEq, Repr

/-- `Do` (sarwin/sarwin.go:1248-1255): before `e = nil`, and at `<-e` with the parameter it has then. -/
inductive DoPc where
  | notStarted
  | started
  | receiving (chanIsNil : Bool)
  | ended
deriving DecidableEq, Repr

/-- Handler, `Do`, and what is in the channel, which holds at most one value (sarwin/sarwin.go:1248-1255, 1890-1926).
-/
structure Doing where
  handler : WaitPc
  doer : DoPc
  chan : List (Option Err)
deriving DecidableEq, Repr

/-- Before the channel is made (sarwin/sarwin.go:1890-1926). -/
def Doing.start : Doing := ⟨.making, .notStarted, []⟩

/-- One step of one of the two goroutines; `none` when it cannot go on. Receiving from a nil channel
blocks; receiving from an empty channel that nobody has closed blocks (sarwin/sarwin.go:1248-1255, 1890-1926). -/
def Doing.step (s : Doing) : Bool → Option Doing
  | true =>
    match s.handler with
    | .making => some { s with handler := .receiving, doer := .started }
    | .receiving =>
      match s.chan with
      | [] => none
      | e :: rest => some { s with handler := .ended e, chan := rest }
    | .ended _ => none
  | false =>
    match s.doer with
    | .notStarted => none
    | .started => some { s with doer := .receiving true }
    | .receiving true => none
    | .receiving false =>
      match s.chan with
      | [] => none
      | _ :: rest => some { s with doer := .ended, chan := rest }
    | .ended => none

/-- A schedule: who is given the processor, in turn; a blocked goroutine does nothing with it
(sarwin/sarwin.go:1248-1255, 1890-1926). -/
def Doing.run (s : Doing) : List Bool → Doing
  | [] => s
  | b :: bs => ((s.step b).getD s).run bs

end Saratoga
