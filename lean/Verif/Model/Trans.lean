import Verif.Model.Files
import Verif.Model.Request
import Verif.Model.Status
import Verif.Model.Sarnet
/-!
# Model of `trans/trans.go`

Printing to the screen is left out. Putting a frame on the channel `tx` is an output of the call here;
whether that send can complete is the subject of `Verif.Model.MainLoop`.
-/
namespace Saratoga

/-- `Transfer` (trans/trans.go:19-40) without the fields `AddRxTran` leaves at their zero value
(`Rxwilling`, `Txwilling`, `Stflags`, `Checksum`, `Havemeta`, `Dir`, `Fp`, `Data`, `Dcount`). -/
structure RxTran where
  peer : UDPAddr
  session : BitVec 32
  ttype : String
  fname : List Byte
  timetype : String
  tstamp : Timestamp
  csumtype : String
  progress : BitVec 64
  inrespto : BitVec 64
  curFills : List Hole
deriving DecidableEq, Repr

/-- What a call of `AddRxTran` leaves behind: files, the transfer table, the frame put on `tx` and the
result (trans/trans.go:50-233). -/
structure TranEnd where
  fs : FS
  transfers : List RxTran
  sent : Option Status
  result : Bool

/-- `if st.New(text, &sinfo) != nil { return false }; tx <- st.Val(from); return result`
(trans/trans.go:58-62 and eleven more times). `st` is fresh and `sinfo` is all zero. -/
def answerWith (T : Tables) (clock : GoTime) (fs : FS) (trans : List RxTran) (text : String)
    (result : Bool) : Out TranEnd := do
  let (st, e) ← Status.new T clock Status.zero text ⟨0, 0, 0, []⟩
  match e with
  | some _ => pure ⟨fs, trans, none, false⟩
  | none => pure ⟨fs, trans, some st, result⟩

/-- The end of `AddRxTran` (trans/trans.go:207-232): the transfer is appended to the table. The error of
`ts.Now` is dropped. -/
def startTran (T : Tables) (clock : GoTime) (fs : FS) (trans : List RxTran) (r : Request) (ttype : String)
    (source : UDPAddr) : Out TranEnd := do
  let (ts, _) ← Timestamp.zero.now T "epoch_2000_32" clock
  answerWith T clock fs
    (trans ++ [⟨source, r.session, ttype, r.fname, "epoch_2000_32", ts, "none", 0, 0, []⟩])
    "errcode=success" true

/-- `AddRxTran` (trans/trans.go:51-233). -/
def addRxTran (T : Tables) (clock : GoTime) (sardir : List Byte) (fs : FS) (trans : List RxTran)
    (r : Request) (source : UDPAddr) : Out TranEnd := do
  let ttype ← getStr T r.header "request"
  let version ← getStr T r.header "version"
  if version ≠ "v1" then answerWith T clock fs trans "errcode=badrequest" false
  else do
  let udplite ← getStr T r.header "udplite"
  if udplite ≠ "no" then answerWith T clock fs trans "errcode=badrequest" false
  else do
  let stream ← getStr T r.header "stream"
  if stream ≠ "no" then answerWith T clock fs trans "errcode=badrequest" false
  else do
  let rxwilling ← getStr T r.header "rxwilling"
  if rxwilling = "invalid" then answerWith T clock fs trans "errcode=cantreceive" false
  else do
  let txwilling ← getStr T r.header "txwilling"
  if txwilling = "invalid" then answerWith T clock fs trans "errcode=cantsend" false
  else
  let exists_ := fileExists sardir fs r.fname
  if ttype = "get" ∨ ttype = "getdir" ∨ ttype = "take" then
    if rxwilling ≠ "yes" then answerWith T clock fs trans "errcode=cantreceive" false
    else if !exists_ then answerWith T clock fs trans "errcode=filenotfound" false
    else startTran T clock fs trans r ttype source
  else if ttype = "delete" then
    if !exists_ then answerWith T clock fs trans "errcode=filenotfound" false
    else
      match fileRm sardir fs r.fname with
      | (fs, some _) => answerWith T clock fs trans "errcode=didnotdelete" false
      | (fs, none) => answerWith T clock fs trans "errcode=success" true
  else if ttype = "put" ∨ ttype = "give" then
    if txwilling ≠ "yes" then answerWith T clock fs trans "errcode=cantsend" false
    else if exists_ then answerWith T clock fs trans "errcode=fileinuse" false
    else startTran T clock fs trans r ttype source
  else answerWith T clock fs trans "errcode=badrequest" false

end Saratoga
