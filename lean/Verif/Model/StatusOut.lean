import Verif.Model.Status
import Verif.Model.Transfers
/-!
# Model of sending status reports (`sarwin/sarwin.go` lines 811-847 and 1132-1188)

`WriteStatus` is called by nothing in the running program (its callers in saratoga/saratoga.go:29-164 are
commented out); it is modelled because the status reports of a responder are built here.
-/
namespace Saratoga

/-- The loop of `stpaylen` over the parts of the flag text with the two lines after it
(sarwin/sarwin.go:822-846). State: `hsize`, `plen`. Division by a zero `hsize` panics; Go divides towards
zero. -/
def stLoop : List String → Int → Int → Out Int
  | [], hsize, plen => if hsize = 0 then .panic else .ret ((plen - hsize).tdiv hsize)
  | s :: rest, hsize, plen =>
    let f := strSplit s '='
    if first f = "descriptor" then do
      let v ← second f
      if v = "d16" then stLoop rest 4 plen
      else if v = "d32" then stLoop rest 8 plen
      else if v = "d64" then stLoop rest 16 plen
      else if v = "d128" then stLoop rest 32 plen
      else .ret 0
    else if first f = "reqtstamp" then do
      let v ← second f
      stLoop rest hsize (if v = "yes" then plen - 16 else plen)
    else stLoop rest hsize plen

/-- `stpaylen` (sarwin/sarwin.go:812-847); `mtu` is `sarflags.Mtu()`. -/
def stpaylen (mtu : Int) (flags : String) : Out Int :=
  stLoop (strSplit (stripSpaces flags) ',') 0 (mtu - 60 - 8 - 8)

/-- `Status.Send` (status/status.go:359-374): the bytes handed to the connection and the error. `fails`
is what `conn.WriteTo` answers (a short write counts as an error too). -/
def Status.send (T : Tables) (s : Status) (fails : Option Err) : Out (Except Err (List Byte)) := do
  match ← s.encode T with
  | .error e => pure (.error e)
  | .ok frame =>
    match fails with
    | some e => pure (.error e)
    | none => pure (.ok frame)

/-- The frame loop of `WriteStatus` (sarwin/sarwin.go:1162-1186), `n` rounds to go, this being round `i`.
`starthole` and `endhole` are computed and not used. `clock` and `fails` are the time and the answer of
the connection in each round. Result: the frames sent and the returned word. -/
def statusLoop (T : Tables) (clock : Nat → GoTime) (fails : Nat → Option Err) (flags : String)
    (info : Sinfo) : Nat → Nat → List (List Byte) → Out (List (List Byte) × String)
  | 0, _, sent => .ret (sent, "success")
  | n + 1, i, sent => do
    let (st, e) ← Status.zero.new T (clock i) flags info
    match e with
    | some _ => pure (sent, "badstatus")
    | none => do
      match ← st.send T (fails i) with
      | .error _ => pure (sent, "badstatus")
      | .ok frame => do
        st.shortPrint T
        st.print T
        statusLoop T clock fails flags info n (i + 1) (sent ++ [frame])

/-- `Transfer.WriteStatus` (sarwin/sarwin.go:1137-1188). -/
def Transfer.writeStatus (T : Tables) (mtu : Int) (clock : Nat → GoTime) (fails : Nat → Option Err)
    (t : Transfer) (sflags : String) : Out (List (List Byte) × String) :=
  if t.conn = none then .ret ([], "badstatus")
  else do
    let maxholes ← stpaylen mtu sflags
    let errf ← flagValue sflags "errcode"
    let h := Holes.getholes t.curfills
    let lasthole : Int := if errf = "success" then h.length else 0
    let info : Sinfo := ⟨t.session, t.progress, t.inrespto, h⟩
    if lasthole ≤ maxholes then do
      let flags ← replaceFlag T sflags "allholes" "yes"
      statusLoop T clock fails flags info 1 0 []
    else if maxholes = 0 then .panic
    else do
      let flags ← replaceFlag T sflags "allholes" "no"
      statusLoop T clock fails flags info ((h.length : Int).tdiv maxholes + 1).toNat 0 []

end Saratoga
