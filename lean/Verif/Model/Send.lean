import Verif.Model.Beacon
import Verif.Model.Data
import Verif.Model.Metadata
import Verif.Model.Request
import Verif.Model.Sarnet
import Verif.Model.Status
/-!
# Model of the `Send` functions of the frames

`data/data.go` 299-314, `request/request.go` 171-186, `metadata/metadata.go` 319-334, `status/status.go`
359-374 (all by `conn.WriteTo`) and `beacon/beacon.go` 305-325 (by `conn.Write`).

`net.UDPConn` is not in /repo; `UDPSocket` says what its documentation says: `WriteTo` on a connection made
by `DialUDP` is refused, `Write` on one made by `ListenUDP` is refused, a nil connection is refused, as is a nil
address. Everything else is up to the operating system (`OsSend`). Error texts are shortened.
-/
namespace Saratoga

/-- A `*net.UDPConn` with what has left through it, oldest first. `remote` is the address given to `DialUDP`,
`none` if it came from `ListenUDP` (library, used at data/data.go:299-314). -/
structure UDPSocket where
  remote : Option UDPAddr
  sent : List (UDPAddr × List Byte)
deriving DecidableEq, Repr

/-- What the operating system answers when asked to send: it took so many bytes, or it failed (operating system, asked
at data/data.go:307). -/
inductive OsSend
  | took (n : Nat)
  | fails (e : Err)
deriving DecidableEq, Repr

/-- The datagram goes to the operating system: the socket afterwards, and the byte count or the error (operating
system, asked at data/data.go:307). -/
def UDPSocket.give (s : UDPSocket) (to : UDPAddr) (buf : List Byte) : OsSend → UDPSocket × Except Err Nat
  | .fails e => (s, .error e)
  | .took n => ({ s with sent := s.sent ++ [(to, buf.take n)] }, .ok n)

/-- `(*net.UDPConn).WriteTo`; `none` is the nil pointer (library, used at data/data.go:307). -/
def udpWriteTo (conn : Option UDPSocket) (buf : List Byte) (to : Option UDPAddr) (os : OsSend) :
    Option UDPSocket × Except Err Nat :=
  match conn with
  | none => (none, .error "invalid argument")
  | some s =>
    if s.remote.isSome then (some s, .error "use of WriteTo with pre-connected connection")
    else match to with
      | none => (some s, .error "missing address")
      | some a => let (s', r) := s.give a buf os; (some s', r)

/-- `(*net.UDPConn).Write` (library, used at beacon/beacon.go:317). -/
def udpWrite (conn : Option UDPSocket) (buf : List Byte) (os : OsSend) : Option UDPSocket × Except Err Nat :=
  match conn with
  | none => (none, .error "invalid argument")
  | some s =>
    match s.remote with
    | none => (some s, .error "destination address required")
    | some a => let (s', r) := s.give a buf os; (some s', r)

/-- What all the `Send` functions do after `Encode` and the write: the error they return (data/data.go:299-314,
request/request.go:171-186, metadata/metadata.go:319-334, status/status.go:359-374, beacon/beacon.go:305-325). -/
def sendResult (what : String) (buf : List Byte) : Except Err Nat → Option Err
  | .error e => some e
  | .ok n => if n ≠ buf.length then some (what ++ " sent != frame size") else none

/-- `Data.Send` (data/data.go:299-314): the connection afterwards and the error. -/
def Data.sendTo (T : Tables) (d : Data) (conn : Option UDPSocket) (to : Option UDPAddr) (os : OsSend) :
    Out (Option UDPSocket × Option Err) := do
  match ← d.encode T with
  | .error e => pure (conn, some e)
  | .ok buf =>
    let (conn, r) := udpWriteTo conn buf to os
    pure (conn, sendResult "Data" buf r)

/-- `Request.Send` (request/request.go:171-186). `Request.Encode` returns no error. -/
def Request.sendTo (r : Request) (conn : Option UDPSocket) (to : Option UDPAddr) (os : OsSend) :
    Out (Option UDPSocket × Option Err) := do
  let buf ← r.encode
  let (conn, w) := udpWriteTo conn buf to os
  pure (conn, sendResult "Request" buf w)

/-- `MetaData.Send` (metadata/metadata.go:319-334). `MetaData.Encode` returns no error. -/
def MetaData.sendTo (T : Tables) (m : MetaData) (conn : Option UDPSocket) (to : Option UDPAddr) (os : OsSend) :
    Out (Option UDPSocket × Option Err) := do
  let buf ← m.encode T
  let (conn, w) := udpWriteTo conn buf to os
  pure (conn, sendResult "MetaData" buf w)

/-- `Status.Send` (status/status.go:359-374), with its connection; `Status.send` of `Model/StatusOut.lean` leaves
the connection to its caller. -/
def Status.sendTo (T : Tables) (s : Status) (conn : Option UDPSocket) (to : Option UDPAddr) (os : OsSend) :
    Out (Option UDPSocket × Option Err) := do
  match ← s.encode T with
  | .error e => pure (conn, some e)
  | .ok buf =>
    let (conn, r) := udpWriteTo conn buf to os
    pure (conn, sendResult "status" buf r)

/-- `Beacon.Send` (beacon/beacon.go:305-325), the only one that uses `Write`. -/
def Beacon.sendOn (T : Tables) (b : Beacon) (conn : Option UDPSocket) (os : OsSend) :
    Out (Option UDPSocket × Option Err) := do
  match ← b.encode T with
  | .error e => pure (conn, some e)
  | .ok buf =>
    let (conn, r) := udpWrite conn buf os
    pure (conn, sendResult "Beacon" buf r)

end Saratoga
