import Verif.Model.Data
import Verif.Model.Holes
/-!
# Model of the sending side in `client/client.go`

The file says it is deprecated and refers to names its package does not define. Two of them,
`filedescriptor` and `maxpaylen`, are commented out in sarwin/sarwin.go:748-809 and modelled from there.
`frames.UDPWrite` is nowhere; the word it answers is a parameter. Messages are left out. The file being sent is
open and does not change.
-/
namespace Saratoga

/-- `filedescriptor` (sarwin/sarwin.go:748-771, commented out) for a file of `size` bytes; `none` if it cannot be
looked up. The platform has 64 bit integers. -/
def fileDescriptor (size : Option Nat) : String :=
  match size with
  | some n => if n ≤ 65535 then "descriptor=d16" else if n ≤ 4294967295 then "descriptor=d32" else "descriptor=d64"
  | none => "descriptor=d64"

/-- The loop of `maxpaylen` (sarwin/sarwin.go:783-807, commented out) over the parts of the flag text. -/
def payLoop : List String → Int → Out Int
  | [], plen => .ret plen
  | s :: rest, plen =>
    let f := strSplit s '='
    if first f = "descriptor" then do
      let v ← second f
      if v = "d16" then payLoop rest (plen - 2)
      else if v = "d32" then payLoop rest (plen - 4)
      else if v = "d64" then payLoop rest (plen - 8)
      else if v = "d128" then payLoop rest (plen - 16)
      else .ret 0
    else if first f = "reqtstamp" then do
      let v ← second f
      payLoop rest (if v = "yes" then plen - 16 else plen)
    else payLoop rest plen

/-- `maxpaylen` (sarwin/sarwin.go:775-808, commented out); `mtu` is `sarflags.Mtu()`. -/
def maxPaylen (mtu : Int) (flags : String) : Out Int :=
  payLoop (strSplit (stripSpaces flags) ',') (mtu - 60 - 8 - 8)

/-! ## senddata -/

/-- What `senddata` meets in each round: the time, whether `ReadAt` fails with something other than end of file,
and the word `frames.UDPWrite` answers (client/client.go:177-235). -/
structure SendEnv where
  clock : Nat → GoTime
  readFails : Nat → Bool
  write : Nat → String

/-- The variables of `senddata`, the frames handed to `frames.UDPWrite` and the words sent on `errflag` so far,
and whether it has returned (client/client.go:177-235). -/
structure Sending where
  pos : BitVec 64
  fcount : Nat
  flags : String
  sent : List Data
  answers : List String
  done : Bool
deriving DecidableEq, Repr

/-- `senddata` up to its loop (client/client.go:180-187). -/
def sendStart (T : Tables) (dflags : String) : Out Sending := do
  let flags ← replaceFlag T dflags "eod" "no"
  let fv ← flagValue dflags "reqtstamp"
  let flags ← (if fv ≠ "no" ∧ fv ≠ "" then replaceFlag T flags "reqtstamp" fv else pure flags)
  pure ⟨0, 0, flags, [], [], false⟩

/-- One round of the loop of `senddata` (client/client.go:192-233) with a read buffer of `plen` bytes. `ReadAt`
answers end of file exactly if it cannot fill the buffer. -/
def sendRound (T : Tables) (E : SendEnv) (file : List Byte) (plen : Nat) (session : BitVec 32) (i : Nat)
    (s : Sending) : Out Sending :=
  if E.readFails i = true ∨ s.pos.toInt < 0 then
    .ret { s with answers := s.answers ++ ["accessdenied"], done := true }
  else do
    let chunk := (file.drop s.pos.toNat).take plen
    let eod : Bool := chunk.length < plen
    let flags ← (if eod then replaceFlag T s.flags "eod" "yes" else pure s.flags)
    let ask : Bool := s.fcount + 1 = 100 || eod
    let flags ← replaceFlag T flags "reqstatus" (if ask then "yes" else "no")
    let (d, e) ← Data.zero.new T (E.clock i) flags ⟨session, s.pos, chunk⟩
    match e with
    | some _ => .ret { s with flags := flags, answers := s.answers ++ ["badpacket"], done := true }
    | none => do
      let answers := if E.write i = "success" then s.answers else s.answers ++ [E.write i]
      d.shortPrint T
      .ret { pos := s.pos + BitVec.ofNat 64 chunk.length, fcount := if ask then 0 else s.fcount + 1
             flags := flags, sent := s.sent ++ [d]
             answers := if eod then answers ++ ["success"] else answers, done := eod }

/-- At most `n` rounds, the first being round `i` (client/client.go:192-235). -/
def sendRounds (T : Tables) (E : SendEnv) (file : List Byte) (plen : Nat) (session : BitVec 32) :
    Nat → Nat → Sending → Out Sending
  | 0, _, s => .ret s
  | n + 1, i, s =>
    if s.done then .ret s
    else do
      let s ← sendRound T E file plen session i s
      sendRounds T E file plen session n (i + 1) s

/-- `senddata` (client/client.go:177-235) observed for at most `n` rounds; `mtu` is `sarflags.Mtu()`. A negative
length makes `make` panic. -/
def sendData (T : Tables) (E : SendEnv) (mtu : Int) (file : List Byte) (session : BitVec 32) (dflags : String)
    (n : Nat) : Out Sending := do
  let s ← sendStart T dflags
  let plen ← maxPaylen mtu dflags
  if plen < 0 then .panic else sendRounds T E file plen.toNat session n 0 s

/-! ## Holes in readstatus -/

/-- The frames for one hole (client/client.go:137-159): `n` rounds to go, this being round `fc`. `buf` holds the
bytes of the hole; slicing it outside its bounds panics. The result is the frames handed to `frames.UDPWrite` and
the word sent on `errflag` if it returns. -/
def holeLoop (T : Tables) (clock : Nat → GoTime) (write : Nat → String) (session : BitVec 32) (dflags : String)
    (buf : List Byte) (plen stop : Int) : Nat → Nat → List Data → Out (List Data × Option String)
  | 0, _, sent => .ret (sent, none)
  | n + 1, fc, sent => do
    let pstart : Int := buf.length - fc * plen
    let pend : Int := if pstart + plen > stop then stop else pstart + plen
    if 0 ≤ pstart ∧ pstart ≤ pend ∧ pend ≤ buf.length then do
      let payload := (buf.drop pstart.toNat).take (pend - pstart).toNat
      let (d, e) ← Data.zero.new T (clock fc) dflags ⟨session, BitVec.ofInt 64 pstart, payload⟩
      match e with
      | some _ => .ret (sent, some "badpacket")
      | none =>
        if write fc ≠ "success" then .ret (sent ++ [d], some (write fc))
        else do
          d.shortPrint T
          holeLoop T clock write session dflags buf plen stop n (fc + 1) (sent ++ [d])
    else .panic

/-- One round of the loop over the holes (client/client.go:121-160). `room` is the largest buffer Go can make;
`plen` is `maxpaylen(dflags)`. -/
def resendHole (T : Tables) (clock : Nat → GoTime) (write : Nat → String) (session : BitVec 32) (dflags : String)
    (file : List Byte) (room : Nat) (plen : Int) (h : Hole) : Out (List Data × Option String) :=
  let size := h.stop - h.start
  if size < 0 ∨ (room : Int) < size then .panic
  else if h.start < 0 then .ret ([], some "badoffset")
  else
    let buf := (file.drop h.start.toNat).take size.toNat
    if (buf.length : Int) < size then .ret ([], some "badoffset")
    else if plen = 0 then .panic
    else holeLoop T clock write session dflags buf plen h.stop ((buf.length : Int).tdiv plen).toNat 0 []

/-! ## The loop of cput -/

/-- What the loop of `cput` receives (client/client.go:405-437): a word from `readstatus`, a word from
`senddata`, a position. -/
inductive PutEvent where
  | status (word : String)
  | data (word : String)
  | statusPos
  | dataPos

/-- The loop of `cput` (client/client.go:405-437) on the events in the order `select` takes them: the word `cput`
reports, or `none` while it goes on waiting. `numbers` tells whether `fmt.Sscanf` finds two numbers in a word; the
positions passed on then are left out, as nothing but the loop reads them. -/
def putLoop (numbers : String → Bool) : List PutEvent → Option String
  | [] => none
  | .status w :: rest =>
    if numbers w then putLoop numbers rest
    else if w ≠ "success" then some w
    else putLoop numbers rest
  | .data w :: rest => if w ≠ "success" then some w else putLoop numbers rest
  | .statusPos :: rest => putLoop numbers rest
  | .dataPos :: rest => putLoop numbers rest

/-- How the steps of `cput` before its loop go (client/client.go:290-387): opening the file, seeking, resolving,
dialling, building the request, the word for sending it, building the metadata, the word for sending it. -/
structure PutStart where
  opened : Bool
  seeked : Bool
  resolved : Bool
  dialled : Bool
  request : Bool
  requestSent : String
  metadata : Bool
  metadataSent : String

/-- The word `cput` reports before its loop, if it does (client/client.go:290-387). If dialling fails `conn` is nil, and
`conn.Close()` (client/client.go:335) panics. That its request names a field that is not in the tables, and so ends the
process, is left out. -/
def PutStart.word (p : PutStart) : Out (Option String) :=
  if !p.opened then .ret (some "filenotfound")
  else if !p.seeked then .ret (some "badoffset")
  else if !p.resolved then .ret (some "cantsend")
  else if !p.dialled then .panic
  else if !p.request then .ret (some "badrequest")
  else if p.requestSent ≠ "success" then .ret (some p.requestSent)
  else if !p.metadata then .ret (some "badrequest")
  else if p.metadataSent ≠ "success" then .ret (some p.metadataSent)
  else .ret none

/-- `cput` (client/client.go:290-438): the word it reports, or `none` while it waits. -/
def cput (p : PutStart) (numbers : String → Bool) (events : List PutEvent) : Out (Option String) := do
  match ← p.word with
  | some w => .ret (some w)
  | none => .ret (putLoop numbers events)

/-- `cputrm` (client/client.go:508-527): the word it reports and whether it has removed the file. `removes` is what
`os.Remove` answers. -/
def cputrm (p : PutStart) (numbers : String → Bool) (events : List PutEvent) (removes : Bool) :
    Out (Option (String × Bool)) := do
  match ← cput p numbers events with
  | none => .ret none
  | some w =>
    if w = "success" then (if removes then .ret (some (w, true)) else .ret (some ("didnotdelete", false)))
    else .ret (some (w, false))

end Saratoga
