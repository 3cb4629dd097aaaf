import Verif.Model.Data
import Verif.Model.Request
import Verif.Model.Status
import Verif.Model.Metadata
import Verif.Model.Beacon
/-!
# Model of `listen` in `saratoga/saratoga.go`

One round of the loop: what is done with one datagram. Printing to the screen is left out except where
building the text can end the process. `Val` (beacon/beacon.go:37-40, data/data.go:39-43,
metadata/metadata.go:39-43, request/request.go:35-38, status/status.go:42-48) copies every field.
-/
namespace Saratoga

/-- The kinds of packet `rx` carries (saratoga/saratoga.go:166-424). -/
inductive Frame where
  | beacon (b : Beacon)
  | request (r : Request)
  | data (d : Data)
  | metadata (m : MetaData)
  | status (s : Status)
deriving DecidableEq, Repr

/-- What a round ends with: nothing, a packet for `rx`, or a status frame for `tx` (saratoga/saratoga.go:166-424). -/
inductive ListenAct where
  | drop
  | rx (f : Frame)
  | tx (s : Status)
deriving DecidableEq, Repr

/-- `if st.New(text, &sinfo) != nil { continue }; tx <- st.Val(remoteAddr)` (saratoga/saratoga.go:166-424). -/
def listenReply (T : Tables) (clock : GoTime) (text : String) (info : Sinfo) : Out ListenAct := do
  let (st, e) ← Status.new T clock Status.zero text info
  match e with
  | some _ => pure .drop
  | none => pure (.tx st)

/-- The reply to a frame that cannot be decoded (saratoga/saratoga.go:291-305, 333-348, 377-392). -/
def badFrame (T : Tables) (clock : GoTime) (header session : BitVec 32) (progress : BitVec 64) :
    Out ListenAct := do
  let desc ← getStr T header "descriptor"
  listenReply T clock
    ("descriptor=" ++ desc ++ ",metadatarecvd=no,allholes=yes,reqholes=requested,errcode=badpacket")
    ⟨session, progress, 0, []⟩

/-- The switch on the frame type (saratoga/saratoga.go:226-422). -/
def listenTyped (T : Tables) (clock : GoTime) (header : BitVec 32) (frame : List Byte) : Out ListenAct := do
  let ft ← getStr T header "frametype"
  if ft = "beacon" then do
    let (b, e) ← Beacon.zero.decode T frame
    match e with
    | some _ => pure .drop
    | none => pure (.rx (.beacon b))
  else if ft = "request" then do
    let (r, e) ← Request.zero.decode frame
    match e with
    | some _ => pure .drop
    | none => pure (.rx (.request r))
  else if ft = "data" then do
    let (d, e) ← Data.zero.decode T frame
    match e with
    | some _ => badFrame T clock header d.session d.offset
    | none => pure (.rx (.data d))
  else if ft = "metadata" then do
    let (m, e) ← MetaData.zero.decode T frame
    match e with
    | some _ => do
      let session ← readWord frame 4
      badFrame T clock header session 0
    | none => pure (.rx (.metadata m))
  else if ft = "status" then do
    let (s, e) ← Status.zero.decode T frame
    match e with
    | some _ => do
      let session ← readWord frame 4
      badFrame T clock header session 0
    | none => do
      s.shortPrint T
      s.print T
      pure (.rx (.status s))
  else pure .drop

/-- One round of `listen` (saratoga/saratoga.go:177-423) for the datagram that was read.
`ReadFromUDP` cuts it to the buffer of `Mtu()-60+100` bytes. -/
def listenFrame (T : Tables) (clock : GoTime) (mtu : Nat) (datagram : List Byte) : Out ListenAct :=
  let frame := datagram.take (mtu + 40)
  if frame.length < 8 then .ret .drop
  else if (frame.length : Int) > (mtu : Int) - 60 then .ret .drop
  else do
    let header ← readWord frame 0
    let version ← getStr T header "version"
    if version ≠ "v1" then listenReply T clock "errcode=badpacket" ⟨0, 0, 0, []⟩
    else listenTyped T clock header frame

end Saratoga
