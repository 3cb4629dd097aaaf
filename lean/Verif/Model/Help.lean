import Verif.Model.Settings
/-!
# Model of the commands about the program itself (`sarwin/sarwin.go` lines 1368-1370, 1504-1527, 1654-1695,
1755-1802, 2437-2452)

Colours are left out. `sarflags.Commands` is a Go map: the order of the list is the order in which one run happens to
iterate over it.
-/
namespace Saratoga

/-- `sort.Sort` of a `sort.StringSlice`: Go says that the result is sorted and has the same elements. Go compares the
bytes of two texts, which is the same order as comparing their characters. -/
structure TextSort where
  sort : List String → List String
  perm : ∀ l, List.Perm (sort l) l
  sorted : ∀ l, List.Pairwise (fun a b => a ≤ b) (sort l)

/-- `for key := …; sbuf += fmt.Sprintf("%s\n", sslice[key])` (sarwin/sarwin.go:1654-1695). -/
def endLines : List String → String
  | [] => ""
  | s :: rest => s ++ "\n" ++ endLines rest

/-- `cmdHelp` (sarwin/sarwin.go:1654-1695). -/
def cmdHelp (srt : TextSort) (H : CmdTable) : List String → List Shown
  | [_] => [.msg (endLines (srt.sort (H.map fun c => c.1 ++ " - " ++ c.2.help)))]
  | [_, a] =>
    if a = "?" then [.msg (endLines (srt.sort (H.map fun c => c.1 ++ " - " ++ c.2.help ++ "\n  " ++ c.2.usage)))]
    else own
  | _ => own
where
  own : List Shown :=
    (H.filter fun c => c.1 = "help").map fun c => .msg (c.1 ++ " - " ++ c.2.help)

/-- `cmdUsage` (sarwin/sarwin.go:2437-2452). It does not look at its words. -/
def cmdUsage (srt : TextSort) (H : CmdTable) (_ : List String) : List Shown :=
  [.msg (endLines (srt.sort (H.map fun c => c.1 ++ " - " ++ c.2.usage)))]

/-- `cmdHistory` (sarwin/sarwin.go:1755-1772). -/
def cmdHistory (H : CmdTable) : List String → List Shown
  | [_] => [.msg "History not implemented yet"]
  | [_, a] => if a = "?" then helpLines H "history" else [.msg "History not implemented yet"]
  | _ => [.err (prusage H "history")]

/-- `cmdHome` (sarwin/sarwin.go:1774-1788). -/
def cmdHome (H : CmdTable) : List String → List Shown
  | [_] => [.msg "Home not implemented yet"]
  | [_, a] => if a = "?" then helpLines H "home" else [.err (prusage H "home")]
  | _ => [.err (prusage H "home")]

/-- `cmdLs` (sarwin/sarwin.go:1790-1802). Without words it would read `args[1]` and panic; with words it says how it
is used. -/
def cmdLs (H : CmdTable) : List String → Out (List Shown)
  | [] => .panic
  | _ => .ret [.err (prusage H "ls")]

/-- `fmt.Sprint` of a slice of texts, which is what `cmdCancel` (sarwin/sarwin.go:1368-1370) prints. -/
def sliceText (args : List String) : String := "[" ++ String.intercalate " " args ++ "]"

/-- `cmdCancel` (sarwin/sarwin.go:1368-1370). -/
def cmdCancel (args : List String) : List Shown := [.msg (sliceText args)]

/-- `cmdExit` (sarwin/sarwin.go:1504-1527): the new value of `Cexit`, which nothing reads, and the lines printed. -/
def cmdExit (H : CmdTable) (cexit : Int) : List String → Int × List Shown
  | [_] => (0, [.msg "Good Bye!"])
  | [_, a] =>
    if a = "?" then (cexit, helpLines H "exit")
    else if a = "0" then (0, [.msg "Good Bye!"])
    else if a = "1" then (1, [.msg "Good Bye!"])
    else (cexit, [.err (prusage H "exit")])
  | _ => (cexit, [.err (prusage H "exit")])

/-! ## clear -/

/-- The three windows that can be cleared (sarwin/sarwin.go:1406-1438). -/
def clearable (w : String) : Bool := w = "msg" ∨ w = "err" ∨ w = "packet"

/-- What `cmdClear` does, in order (sarwin/sarwin.go:1406-1438). -/
inductive ClearAct where
  | print (s : Shown)
  | clear (window : String)
deriving DecidableEq, Repr

/-- The loop of `cmdClear` over more than one window (sarwin/sarwin.go:1428-1437). -/
def clearLoop (H : CmdTable) : List String → List ClearAct
  | [] => []
  | a :: rest =>
    if clearable a then .print (.msg ("Cleared Window:" ++ a)) :: .clear a :: clearLoop H rest
    else [.print (.err (prusage H "clear"))]

/-- `cmdClear` (sarwin/sarwin.go:1406-1438). -/
def cmdClear (H : CmdTable) : List String → List ClearAct
  | [_] => [.print (.msg "Cleared all windows"), .clear "msg", .clear "err", .clear "packet"]
  | [_, a] =>
    if a = "?" then (helpLines H "clear").map .print
    else if clearable a then [.print (.msg ("Cleared Window:" ++ a)), .clear a]
    else [.print (.err (prusage H "clear"))]
  | [] => []
  | _ :: rest => clearLoop H rest

/-- Where a goroutine in `Clearwin` (sarwin/sarwin.go:106-119) stands: it has still to clear these windows; in
`restore` it has set and cleared a window and will set the window it found, `back`. -/
inductive ClearPc where
  | find (windows : List String)
  | set (back : String) (window : String) (windows : List String)
  | restore (back : String) (windows : List String)
deriving DecidableEq, Repr

/-- The interface: the current window, which windows have been cleared (a log), and the goroutines that run
`cmdClear` (sarwin/sarwin.go:106-119, 1406-1438). -/
structure Windows where
  current : String
  cleared : List String
  clears : List ClearPc
deriving DecidableEq, Repr

/-- One step of a goroutine in `Clearwin`: `CurrentView().Name()`, `SetCurrentView(win)` with `Clear()`, or
`SetCurrentView(curname)` (sarwin/sarwin.go:106-119). -/
def ClearPc.step (current : String) : ClearPc → Option (String × List String × ClearPc)
  | .find [] => none
  | .find (w :: ws) => some (current, [], .set current w ws)
  | .set back w ws => some (w, [w], .restore back ws)
  | .restore back ws => some (back, [], .find ws)

/-- A step of goroutine `i`; nothing happens if it has finished (sarwin/sarwin.go:106-119). -/
def Windows.step (w : Windows) (i : Nat) : Windows :=
  match w.clears[i]? with
  | none => w
  | some pc =>
    match pc.step w.current with
    | none => w
    | some (cur, log, pc') => ⟨cur, w.cleared ++ log, w.clears.set i pc'⟩

/-- A schedule (sarwin/sarwin.go:106-119, started at 2517). -/
def Windows.run (w : Windows) (sched : List Nat) : Windows := sched.foldl Windows.step w

/-- Every goroutine has finished (sarwin/sarwin.go:106-119). -/
def Windows.finished (w : Windows) : Prop := ∀ pc ∈ w.clears, pc = .find []

/-- The windows a `clear` command clears (sarwin/sarwin.go:1406-1438). -/
def clearedBy (acts : List ClearAct) : List String :=
  acts.filterMap fun | .clear w => some w | .print _ => none

end Saratoga
