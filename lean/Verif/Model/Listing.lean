import Verif.Model.Help
import Verif.Model.Peers
import Verif.Model.TranCmds
/-!
# Model of the two tables the program prints (`sarwin/sarwin.go` lines 1089-1130, 1232-1237 and 1805-1886)

A cell is a Go string, which is a sequence of bytes. `len` counts its bytes, a width in `fmt.Sprintf("%8s")` counts its
characters.
-/
namespace Saratoga

/-- How Go reads a string as characters. Every character takes at least one byte. -/
structure Runes where
  text : List Byte → String
  short : ∀ b, (text b).length ≤ b.length

/-- `fmt.Sprintf("%<n>s", s)`: blanks in front up to `n` characters. Go gives up on widths above a million, which the
model does not. -/
def pad (n : Nat) (s : String) : String := String.ofList (List.replicate (n - s.length) ' ') ++ s

/-- `strings.Repeat("-", n)` (library, used at sarwin/sarwin.go:1089-1130, 1805-1886). -/
def dashes (n : Nat) : String := String.ofList (List.replicate n '-')

/-- `fmt.Sprintf` of a format with these widths, the mark between the cells, and a new line at the end (library, used
at sarwin/sarwin.go:1089-1130, 1232-1237, 1805-1886). -/
def tableRow (mark : String) : List (Nat × String) → String
  | [] => mark ++ "\n"
  | (n, s) :: rest => mark ++ pad n s ++ tableRow mark rest

/-- The loop `if len(x) > max { max = len(x) }` (sarwin/sarwin.go:1089-1130, 1805-1886). -/
def longest (lens : List Nat) : Nat := lens.foldl (fun m n => if n > m then n else m) 0

/-- Border, header, border, sorted rows, border (sarwin/sarwin.go:1089-1130, 1805-1886). -/
def tableText (srt : TextSort) (border header : String) (rows : List String) : String :=
  border ++ header ++ border ++ String.join (srt.sort rows) ++ border

/-! ## Peers -/

/-- What `cmdPeers` needs of the world: how strings read, and `Timestamp.Print`, which ends the process for a
timestamp type it does not know; peers have known ones (sarwin/sarwin.go:1805-1886). -/
structure PeerView where
  runes : Runes
  time : Timestamp → String

/-- The column of modification times is as wide as the modification time of some peer: of the last one whose creation
time was longer than the width until then (sarwin/sarwin.go:1833-1835). -/
def modifiedWidth (V : PeerView) (ps : List Peer) : Nat :=
  ps.foldl (fun m p => if (utf8 (V.time p.created)).length > m then (utf8 (V.time p.updated)).length else m) 0

/-- The eight widths (sarwin/sarwin.go:1814-1842). -/
def peerWidths (V : PeerView) (ps : List Peer) : List Nat :=
  let eid := longest (ps.map fun p => p.eid.length)
  [longest (ps.map fun p => (utf8 p.addr).length), 6, if eid < 3 then 3 else eid, 3,
   longest (ps.map fun p => (utf8 p.canrx).length), longest (ps.map fun p => (utf8 p.cantx).length),
   longest (ps.map fun p => (utf8 (V.time p.created)).length), modifiedWidth V ps]

/-- The cells of a peer (sarwin/sarwin.go:1859-1867); the free space is in gigabytes, as beacons carry it in
kilobytes. -/
def peerCells (V : PeerView) (p : Peer) : List String :=
  [p.addr, toString (p.freespace.toNat / 1024 / 1024), V.runes.text p.eid, p.maxdesc, p.canrx, p.cantx,
   V.time p.created, V.time p.updated]

/-- The heading (sarwin/sarwin.go:1873). -/
def peerHeading : List String := ["IP", "GB", "EID", "Des", "Rx", "Tx", "Created", "Modified"]

/-- `cmdPeers` without words (sarwin/sarwin.go:1808-1878). -/
def peerTable (V : PeerView) (srt : TextSort) (ps : List Peer) : String :=
  let ws := peerWidths V ps
  tableText srt (tableRow "+" (ws.map fun n => (n, dashes n))) (tableRow "|" (ws.zip peerHeading))
    (ps.map fun p => tableRow "|" (ws.zip (peerCells V p)))

/-- `cmdPeers` (sarwin/sarwin.go:1805-1886). A second word that is not `?` gets no answer. -/
def cmdPeers (V : PeerView) (srt : TextSort) (H : CmdTable) (ps : List Peer) : List String → List Shown
  | [_] => if ps.length = 0 then [.msg "No Peers"] else [.msg (peerTable V srt ps)]
  | [_, a] => if a = "?" then helpLines H "peers" else []
  | _ => [.msg (prhelp H "peers"), .err (prusage H "peers")]

/-! ## Transfers -/

/-- The cells of a transfer (`FmtPrint`, sarwin/sarwin.go:1232-1237): the first is the word `Initiator` for all. -/
def tranCells (R : Runes) (str : UDPAddr → String) (t : Transfer) : List String :=
  ["Initiator", t.ttype, str t.peer, R.text t.filename]

/-- The widths (sarwin/sarwin.go:1099-1109). -/
def tranWidths (str : UDPAddr → String) (ts : List Transfer) : List Nat :=
  [6, 8, longest (ts.map fun t => (utf8 (str t.peer)).length), longest (ts.map fun t => t.filename.length)]

/-- The table of `Info` (sarwin/sarwin.go:1097-1125). -/
def tranTable (R : Runes) (str : UDPAddr → String) (srt : TextSort) (ts : List Transfer) : String :=
  let ws := tranWidths str ts
  tableText srt (tableRow "|" (ws.map fun n => (n, dashes n)))
    (tableRow "|" (ws.zip ["Direct", "Tran Typ", "IP", "Fname"]))
    (ts.map fun t => tableRow "|" (ws.zip (tranCells R str t)))

/-- The text of the line `Info` prints (sarwin/sarwin.go:1089-1130). -/
def infoText (R : Runes) (str : UDPAddr → String) (srt : TextSort) (ts : List Transfer) (ttype : String) : String :=
  let tinfo := ts.filter fun t => ttype = "" ∨ t.ttype = ttype
  if tinfo.length > 0 then tranTable R str srt tinfo
  else "No " ++ ttype ++ " transfers currently in progress"

end Saratoga
