import Verif.Model.Settings
/-!
# Model of reading a command line (`sarwin/sarwin.go` lines 575-607 and 2459-2521)

The window library hands over the text of the line the cursor is on, prompt included. The history of
commands is in `Model/History.lean`, the drawing of the next prompt in `Model/Console.lean`.
-/
namespace Saratoga

/-- `unicode.IsSpace` (Go library, unicode/graphic.go). -/
def isSpace (c : Char) : Bool :=
  let n := c.toNat
  (9 ≤ n && n ≤ 13) || n == 0x20 || n == 0x85 || n == 0xA0 || n == 0x1680 || (0x2000 ≤ n && n ≤ 0x200A) ||
    n == 0x2028 || n == 0x2029 || n == 0x202F || n == 0x205F || n == 0x3000

/-- `strings.TrimSpace` (library, used at sarwin/sarwin.go:2506). -/
def trimSpace (s : List Char) : List Char :=
  ((s.dropWhile isSpace).reverse.dropWhile isSpace).reverse

/-- `strings.Fields` from inside a word whose characters so far are `cur` (library, used at sarwin/sarwin.go:2507). -/
def fieldsLoop (cur : List Char) : List Char → List (List Char)
  | [] => if cur = [] then [] else [cur]
  | c :: cs =>
    if isSpace c then
      if cur = [] then fieldsLoop [] cs else cur :: fieldsLoop [] cs
    else fieldsLoop (cur ++ [c]) cs

/-- `strings.Fields` (library, used at sarwin/sarwin.go:2507). -/
def fields (s : List Char) : List (List Char) := fieldsLoop [] s

/-- What a command line comes to: nothing, a goroutine running the handler of a command with the words of
the line, or `times` lines "Invalid command" (sarwin/sarwin.go:2497-2521). -/
inductive RunEnd where
  | nothing
  | started (command : String) (args : List String)
  | invalid (word : String) (times : Nat)
deriving DecidableEq, Repr

/-- `Run` (sarwin/sarwin.go:2497-2521). `commands` are the keys of `sarflags.Commands`, `handlers` those of
`cmdhandler`. `vals[0]` of a line without words panics, in the loop or on the last line. -/
def runLine (commands handlers : List String) (name : String) : Out RunEnd :=
  if name = "" then .ret .nothing
  else
    match (fields (trimSpace name.toList)).map String.ofList with
    | [] => .panic
    | w :: ws =>
      if w ∈ commands then
        if w ∈ handlers then .ret (.started w (w :: ws)) else .ret (.invalid w 2)
      else .ret (.invalid w 1)

/-- `strings.SplitN(line, ":", 2)[1]`; no colon, no second part (sarwin/sarwin.go:587). -/
def afterColon : List Char → Option (List Char)
  | [] => none
  | c :: cs => if c = ':' then some cs else afterColon cs

/-- `GetLine` in the command window (sarwin/sarwin.go:581-603). -/
def getLine (commands handlers : List String) (line : String) : Out RunEnd :=
  match afterColon line.toList with
  | none => .panic
  | some cs =>
    let command := String.ofList cs
    if command = "" then .ret .nothing
    else if command = "exit" ∨ command = "quit" then .fatal
    else runLine commands handlers command

/-- The keys of `cmdhandler` (sarwin/sarwin.go:2459-2494). -/
def cmdHandlers : List String :=
  ["?", "beacon", "bcount", "cancel", "checksum", "clear", "delete", "descriptor", "exit", "files",
   "freespace", "get", "getdir", "give", "help", "history", "home", "interval", "ls", "peers", "put",
   "putblind", "quit", "reqtstamp", "rmtran", "rxwilling", "stream", "take", "timeout", "timestamp",
   "timezone", "tran", "txwilling", "usage"]

/-- The keys of `commands` in the shipped configuration (saratoga/saratoga.json:30-167). -/
def shippedCommands : List String :=
  ["?", "beacon", "bcount", "cancel", "checksum", "clear", "delete", "descriptor", "exit", "files",
   "freespace", "get", "getdir", "give", "help", "history", "home", "interval", "ls", "peers", "put",
   "putblind", "quit", "reqtstamp", "rmtran", "rxwilling", "stream", "take", "timeout", "timestamp",
   "timezone", "tran", "txwilling", "usage"]

/-- The text of the command window's line: the prompt (sarwin/sarwin.go:529-534) and what was typed. -/
def promptLine (prompt : String) (n : Nat) (typed : String) : String :=
  prompt ++ "[" ++ toString n ++ "]:" ++ typed

end Saratoga
