import Verif.Model.Go
/-!
# Model of the screen (`sarwin/sarwin.go` lines 36-92, 122-408 and 555-572)

The window library `gocui` is not part of the repository. What is used of it: `SetView` refuses a rectangle whose
corners are not in order and puts a new window above the others; `SetViewOnTop` moves a window above the others;
`SetCurrentView` only says who gets the keys; `Update` starts a goroutine that hands the function to the main loop, so
that the order of two updates is not kept; the edges of a rectangle belong to it.
-/
namespace Saratoga

/-! ## Colours -/

/-- `fg` (sarwin/sarwin.go:41-69). -/
def fgTable : List (String × String) :=
  [("black", "30;1"), ("red", "31;1"), ("green", "32;1"), ("yellow", "33;1"), ("blue", "34;1"), ("magenta", "35;1"),
   ("cyan", "36;1"), ("white", "37;1"), ("ublack", "30;4"), ("ured", "31;4"), ("ugreen", "32;4"), ("uyellow", "33;4"),
   ("ublue", "34;4"), ("umagenta", "35;4"), ("ucyan", "36;4"), ("uwhite", "37;4"), ("iblack", "30;7"),
   ("ired", "31;7"), ("igreen", "32;7"), ("iyellow", "33;7"), ("iblue", "34;7"), ("imagenta", "35;7"),
   ("icyan", "36;7"), ("iwhite", "37;7")]

/-- `bg` (sarwin/sarwin.go:72-92). -/
def bgTable : List (String × String) :=
  [("black", "40;1"), ("red", "41;1"), ("green", "42;1"), ("yellow", "43;1"), ("blue", "44;1"), ("magenta", "45;1"),
   ("cyan", "46;1"), ("white", "47;1"), ("bblack", "40;4"), ("bred", "41;4"), ("bgreen", "42;4"), ("byellow", "43;4"),
   ("bblue", "44;4"), ("bmagenta", "45;4"), ("bcyan", "46;4"), ("bwhite", "47;4")]

/-- `ansiprefix` and `ansioff` (sarwin/sarwin.go:36-39). -/
def ansiPrefix : String := "\x1b["

/-- The text behind a coloured text (sarwin/sarwin.go:36-40). -/
def ansiOff : String := "\x1b[0m"

/-- The sequence for a pair of codes; `fg[x]` of an unknown name would be empty, but is asked for known names only
(sarwin/sarwin.go:288, 290, 294, 296 and 299). -/
def colourSequence (f b : Option String) : String := ansiPrefix ++ f.getD "" ++ ";" ++ b.getD "" ++ "m"

/-- `setcolour` (sarwin/sarwin.go:276-300) with `fgexists` and `bgexists` (256-273). -/
def setcolour (colour : String) : String :=
  if colour = "none" ∨ colour = "" then ""
  else if colour = "off" then ansiOff
  else
    let alarm := colourSequence (assoc "white" fgTable) (assoc "bred" bgTable)
    match strSplit colour '_' with
    | [f, b] =>
      if (assoc f fgTable).isSome ∧ (assoc b bgTable).isSome then
        colourSequence (assoc f fgTable) (assoc b bgTable)
      else alarm
    | [f] =>
      if (assoc f fgTable).isSome then colourSequence (assoc f fgTable) (assoc "black" bgTable) else alarm
    | _ => alarm

/-- What `fprintf` writes (sarwin/sarwin.go:316-320), the text already formatted. -/
def colouredText (colour text : String) : String :=
  setcolour colour ++ text ++ (if colour ≠ "" then setcolour "off" else "")

/-- What `fprintln` writes (sarwin/sarwin.go:340-345). -/
def colouredLine (colour text : String) : String := colouredText colour text ++ "\n"

/-! ## Printing -/

/-- Texts handed to `Update` and not yet shown, and the texts shown, in order (sarwin/sarwin.go:304-348). -/
structure Printer where
  pending : List String
  shown : List String

/-- A text is handed over, or the main loop takes one of those waiting (sarwin/sarwin.go:304-348). -/
inductive PrintStep where
  | print (text : String)
  | show (i : Nat)

/-- `fprintf` and `fprintln` hand over (sarwin/sarwin.go:306, 330); the main loop runs one of the functions handed
over, each under the lock. -/
def Printer.step (p : Printer) : PrintStep → Printer
  | .print text => { p with pending := p.pending ++ [text] }
  | .show i =>
    match p.pending[i]? with
    | none => p
    | some text => ⟨p.pending.eraseIdx i, p.shown ++ [text]⟩

/-- Steps one after another (sarwin/sarwin.go:304-348). -/
def Printer.run (p : Printer) : List PrintStep → Printer
  | [] => p
  | s :: rest => (p.step s).run rest

/-! ## Layout -/

/-- A rectangle by its corners, both of which belong to it (library, used at sarwin/sarwin.go:167-253). -/
structure Rect where
  x0 : Int
  y0 : Int
  x1 : Int
  y1 : Int
deriving DecidableEq, Repr

/-- What `SetView` accepts (library, used at sarwin/sarwin.go:167-253). -/
def Rect.ok (r : Rect) : Bool := r.x0 < r.x1 && r.y0 < r.y1

/-- The rectangle of a window on a screen of this size (sarwin/sarwin.go:173, 178, 193, 210 and 227). Go divides towards
zero, and sizes are not negative. -/
def windowRect (maxx maxy : Nat) : String → Option Rect
  | "cmd" => some ⟨0, (maxy : Int) - ((maxy / 4 : Nat) : Int) + 1, ((maxx / 2 : Nat) : Int) - 1, (maxy : Int) - 1⟩
  | "err" => some ⟨((maxx / 2 : Nat) : Int), (maxy : Int) - ((maxy / 4 : Nat) : Int) + 1, (maxx : Int) - 1, (maxy : Int) - 1⟩
  | "packet" =>
    some ⟨(maxx : Int) - ((maxx / 4 : Nat) : Int), 1, (maxx : Int) - 2, (maxy : Int) - ((maxy / 4 : Nat) : Int) - 1⟩
  | "msg" => some ⟨0, 0, (maxx : Int) - 1, (maxy : Int) - ((maxy / 4 : Nat) : Int)⟩
  | _ => none

/-- The windows in the order `Layout` makes them (sarwin/sarwin.go:167-253). -/
def windowNames : List String := ["cmd", "err", "packet", "msg"]

/-- Does `Layout` (sarwin/sarwin.go:167-253) return without an error? -/
def layoutOk (maxx maxy : Nat) : Bool :=
  windowNames.all fun n =>
    match windowRect maxx maxy n with
    | some r => r.ok
    | none => false

/-! ## Windows -/

/-- Who gets the keys, the windows from the lowest to the highest, and `showpacket` (sarwin/sarwin.go:167-253,
555-557). -/
structure Screen where
  current : String
  order : List String
  showpacket : Bool

/-- After the first `Layout` (sarwin/sarwin.go:237-251). -/
def Screen.init : Screen := ⟨"cmd", windowNames, false⟩

/-- `SetViewOnTop` (library, used at sarwin/sarwin.go:350-362). -/
def onTop (name : String) (order : List String) : List String := order.erase name ++ [name]

/-- The next window (sarwin/sarwin.go:389-402). -/
def nextWindow (showpacket : Bool) : String → String
  | "cmd" => "msg"
  | "msg" => if showpacket then "packet" else "err"
  | "err" => "cmd"
  | "packet" => "err"
  | _ => ""

/-- `setCurrentViewOnTop` (sarwin/sarwin.go:350-362); an unknown name is an error, which ends the main loop, and does
not occur. -/
def Screen.setCurrent (s : Screen) (name : String) : Screen :=
  if name ∈ s.order then
    { s with current := name, order := onTop (if s.showpacket then "packet" else name) s.order }
  else s

/-- What changes the order of the windows (sarwin/sarwin.go:106-119, 384-408, 559-572). -/
inductive WindowKey where
  | rotate
  | packet
  | clear (win : String)

/-- `switchView` (sarwin/sarwin.go:384-408), `showPacket` (559-572) and `Clearwin` run alone (106-119). -/
def Screen.step (s : Screen) : WindowKey → Screen
  | .rotate => s.setCurrent (nextWindow s.showpacket s.current)
  | .packet =>
    { s with showpacket := !s.showpacket, order := onTop (if !s.showpacket then "packet" else "msg") s.order }
  | .clear _ => s

/-- Keys one after another (sarwin/sarwin.go:106-119, 384-408, 559-572). -/
def Screen.run (s : Screen) : List WindowKey → Screen
  | [] => s
  | k :: rest => (s.step k).run rest

end Saratoga
