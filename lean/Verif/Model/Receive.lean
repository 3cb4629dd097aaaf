import Verif.Model.MainLoop
/-!
# Model of what `listen`, `AddRxTran` and the main loop print

`Model/Listen.lean`, `Model/Trans.lean` and `Model/MainLoop.lean` leave the lines out that are printed on the way. Here
the same code is read again with them (`saratoga/saratoga.go` lines 166-424 and 605-721, `trans/trans.go` lines
51-233). A line is the window it goes to and what it tells; the wording, colours and the texts of decoding errors are
left out, and the text of a frame (`Model/PrintText.lean`) is the frame here. The lines of a call that ends the process
are left out: they are on their way to the screen then.
-/
namespace Saratoga

/-- The window a line goes to: `MsgPrintln`, `ErrPrintln` or `PacketPrintln` (sarwin/sarwin.go:125-162). -/
inductive Board where
  | msg
  | err
  | packet
deriving DecidableEq, Repr

/-- What a line tells (saratoga/saratoga.go:166-424, 605-721, trans/trans.go:50-233). -/
inductive Told where
  /-- "Sarataga listener failed:" (saratoga/saratoga.go:182) -/
  | readFailed
  /-- "Rx Saratoga Frame too short from " (192) -/
  | tooShort (source : UDPAddr)
  /-- "Rx Saratoga Frame too long " (198) -/
  | tooLong (length : Nat) (source : UDPAddr)
  /-- "Not Saratoga Version 1 Frame from " (215) -/
  | otherVersion (source : UDPAddr)
  /-- "Cannot create badpacket status", "Cannot assemble status" (218, 298, 341, 385) -/
  | cannotReply
  /-- "Bad Beacon:" (232) -/
  | badBeacon (source : UDPAddr)
  /-- "Bad Request:" (246) -/
  | badRequest (source : UDPAddr)
  /-- "Data frame length is:" (290) -/
  | dataLength (length : Nat)
  /-- "Bad Data:" (301) -/
  | badData (source : UDPAddr) (session : BitVec 32)
  /-- "Bad MetaData:" (344) -/
  | badMetadata (source : UDPAddr) (session : BitVec 32)
  /-- "Bad Status:" (388) -/
  | badStatus (source : UDPAddr) (session : BitVec 32)
  /-- "Listen Rx " and the short text (394) -/
  | statusShort (s : Status)
  /-- "Decoded status " and the long text (395) -/
  | statusLong (s : Status)
  /-- "Listen Invalid Saratoga Frame Recieved from " (420) -/
  | unknownType (source : UDPAddr)
  /-- "Received v4 Saratoga DATA Frame" and its like (618-634, 650-666) -/
  | received (fam : Fam) (kind : String)
  /-- "Rx" and the short text (612, 620, …) -/
  | rx (f : Frame)
  /-- "Added New Peer " (615, 647) -/
  | newPeer (source : UDPAddr)
  /-- "New transfer request from " (631, 663) -/
  | newTransfer (source : UDPAddr)
  /-- "Need to send v4 Saratoga STATUS Frame" (691, 716) -/
  | needToSend (fam : Fam)
  /-- The short text of the status to send (693, 718) -/
  | toSend (s : Status)
  /-- "Cannot create … status" (trans/trans.go:59 and eleven more) -/
  | cannotAnswer
  /-- "UDP Lite not supported" (67) -/
  | udplite
  /-- "Streams not supported" (77) -/
  | streams
  /-- "Invalid Rxwilling" (96) -/
  | rxInvalid
  /-- "Invalid Txwilling" (106) -/
  | txInvalid
  /-- "Cannot get as rxwilling set to " (122) -/
  | rxUnwilling (willing : String)
  /-- "Cannot put as txwilling set to " (176) -/
  | txUnwilling (willing : String)
  /-- "Local File … does not exist for " (132, 146) -/
  | missing (fname : List Byte) (ttype : String)
  /-- "Unable to remove  " (157) -/
  | notRemoved (fname : List Byte)
  /-- "Local File … already exists for " (186) -/
  | present (fname : List Byte) (ttype : String)
  /-- "Invalid request" (197) -/
  | unknownRequest
deriving DecidableEq, Repr

/-- A line (sarwin/sarwin.go:125-162). -/
structure Said where
  board : Board
  told : Told
deriving DecidableEq, Repr

/-- A reply of the listener: `before` is printed before the status is made and `after` once it is there
(saratoga/saratoga.go:211-222, 289-302, 335-349, 379-392). -/
def replySays (T : Tables) (clock : GoTime) (text : String) (info : Sinfo) (before after : List Said) :
    Out (ListenAct × List Said) := do
  let (st, e) ← Status.new T clock Status.zero text info
  match e with
  | some _ => pure (.drop, before ++ [⟨.err, .cannotReply⟩])
  | none => pure (.tx st, before ++ after)

/-- The reply to a frame that cannot be decoded (saratoga/saratoga.go:291-305, 333-348, 377-392). -/
def badFrameSays (T : Tables) (clock : GoTime) (header session : BitVec 32) (progress : BitVec 64)
    (before : List Said) (bad : Told) : Out (ListenAct × List Said) := do
  let desc ← getStr T header "descriptor"
  replySays T clock
    ("descriptor=" ++ desc ++ ",metadatarecvd=no,allholes=yes,reqholes=requested,errcode=badpacket")
    ⟨session, progress, 0, []⟩ before [⟨.err, bad⟩]

/-- The switch on the frame type (saratoga/saratoga.go:226-422). -/
def typedSays (T : Tables) (clock : GoTime) (header : BitVec 32) (frame : List Byte) (source : UDPAddr) :
    Out (ListenAct × List Said) := do
  let ft ← getStr T header "frametype"
  if ft = "beacon" then do
    let (b, e) ← Beacon.zero.decode T frame
    match e with
    | some _ => pure (.drop, [⟨.err, .badBeacon source⟩])
    | none => pure (.rx (.beacon b), [])
  else if ft = "request" then do
    let (r, e) ← Request.zero.decode frame
    match e with
    | some _ => pure (.drop, [⟨.err, .badRequest source⟩])
    | none => pure (.rx (.request r), [])
  else if ft = "data" then do
    let (d, e) ← Data.zero.decode T frame
    match e with
    | some _ =>
      badFrameSays T clock header d.session d.offset [⟨.msg, .dataLength frame.length⟩] (.badData source d.session)
    | none => pure (.rx (.data d), [⟨.msg, .dataLength frame.length⟩])
  else if ft = "metadata" then do
    let (m, e) ← MetaData.zero.decode T frame
    match e with
    | some _ => do
      let session ← readWord frame 4
      badFrameSays T clock header session 0 [] (.badMetadata source session)
    | none => pure (.rx (.metadata m), [])
  else if ft = "status" then do
    let (s, e) ← Status.zero.decode T frame
    match e with
    | some _ => do
      let session ← readWord frame 4
      badFrameSays T clock header session 0 [] (.badStatus source session)
    | none => do
      s.shortPrint T
      s.print T
      pure (.rx (.status s), [⟨.packet, .statusShort s⟩, ⟨.msg, .statusLong s⟩])
  else pure (.drop, [⟨.err, .unknownType source⟩])

/-- One round of `listen` (saratoga/saratoga.go:177-423). -/
def listenSays (T : Tables) (clock : GoTime) (mtu : Nat) (datagram : List Byte) (source : UDPAddr) :
    Out (ListenAct × List Said) :=
  let frame := datagram.take (mtu + 40)
  if frame.length < 8 then .ret (.drop, [⟨.err, .tooShort source⟩])
  else if (frame.length : Int) > (mtu : Int) - 60 then .ret (.drop, [⟨.err, .tooLong frame.length source⟩])
  else do
    let header ← readWord frame 0
    let version ← getStr T header "version"
    if version ≠ "v1" then
      replySays T clock "errcode=badpacket" ⟨0, 0, 0, []⟩ [⟨.err, .otherVersion source⟩] []
    else typedSays T clock header frame source

/-- An answer of `AddRxTran` (trans/trans.go:58-62 and eleven more times) after the lines `before`. -/
def answerSays (T : Tables) (clock : GoTime) (fs : FS) (trans : List RxTran) (text : String) (result : Bool)
    (before : List Told) : Out (TranEnd × List Told) := do
  let (st, e) ← Status.new T clock Status.zero text ⟨0, 0, 0, []⟩
  match e with
  | some _ => pure (⟨fs, trans, none, false⟩, before ++ [.cannotAnswer])
  | none => pure (⟨fs, trans, some st, result⟩, before)

/-- The end of `AddRxTran` (trans/trans.go:207-232). -/
def startSays (T : Tables) (clock : GoTime) (fs : FS) (trans : List RxTran) (r : Request) (ttype : String)
    (source : UDPAddr) : Out (TranEnd × List Told) := do
  let (ts, _) ← Timestamp.zero.now T "epoch_2000_32" clock
  answerSays T clock fs
    (trans ++ [⟨source, r.session, ttype, r.fname, "epoch_2000_32", ts, "none", 0, 0, []⟩])
    "errcode=success" true []

/-- `AddRxTran` (trans/trans.go:51-233) with its lines, all of them for the error window. -/
def addRxSays (T : Tables) (clock : GoTime) (sardir : List Byte) (fs : FS) (trans : List RxTran)
    (r : Request) (source : UDPAddr) : Out (TranEnd × List Told) := do
  let ttype ← getStr T r.header "request"
  let version ← getStr T r.header "version"
  if version ≠ "v1" then answerSays T clock fs trans "errcode=badrequest" false []
  else do
  let udplite ← getStr T r.header "udplite"
  if udplite ≠ "no" then answerSays T clock fs trans "errcode=badrequest" false [.udplite]
  else do
  let stream ← getStr T r.header "stream"
  if stream ≠ "no" then answerSays T clock fs trans "errcode=badrequest" false [.streams]
  else do
  let rxwilling ← getStr T r.header "rxwilling"
  if rxwilling = "invalid" then answerSays T clock fs trans "errcode=cantreceive" false [.rxInvalid]
  else do
  let txwilling ← getStr T r.header "txwilling"
  if txwilling = "invalid" then answerSays T clock fs trans "errcode=cantsend" false [.txInvalid]
  else
  let exists_ := fileExists sardir fs r.fname
  if ttype = "get" ∨ ttype = "getdir" ∨ ttype = "take" then
    if rxwilling ≠ "yes" then answerSays T clock fs trans "errcode=cantreceive" false [.rxUnwilling rxwilling]
    else if !exists_ then answerSays T clock fs trans "errcode=filenotfound" false [.missing r.fname ttype]
    else startSays T clock fs trans r ttype source
  else if ttype = "delete" then
    if !exists_ then answerSays T clock fs trans "errcode=filenotfound" false [.missing r.fname ttype]
    else
      match fileRm sardir fs r.fname with
      | (fs, some _) => answerSays T clock fs trans "errcode=didnotdelete" false [.notRemoved r.fname]
      | (fs, none) => answerSays T clock fs trans "errcode=success" true []
  else if ttype = "put" ∨ ttype = "give" then
    if txwilling ≠ "yes" then answerSays T clock fs trans "errcode=cantsend" false [.txUnwilling txwilling]
    else if exists_ then answerSays T clock fs trans "errcode=fileinuse" false [.present r.fname ttype]
    else startSays T clock fs trans r ttype source
  else answerSays T clock fs trans "errcode=badrequest" false [.unknownRequest]

/-- The lines of the cases `rxv4` and `rxv6` of the main loop (saratoga/saratoga.go:607-671) up to the next `select` or
the send on `tx` at which the main loop stops. -/
def rxSays (S : Setup) (w : World) (fam : Fam) (clock : GoTime) (f : Frame) (source : UDPAddr) : Out (List Said) :=
  match f with
  | .beacon b => do
    b.shortPrint S.T
    let (_, new) ← newPeer S.T S.ipText clock w.peers b (some source)
    pure (⟨.packet, .rx f⟩ :: if new then [⟨.msg, .newPeer source⟩] else [])
  | .data d => do
    d.shortPrint S.T
    pure [⟨.msg, .received fam "DATA"⟩, ⟨.packet, .rx f⟩]
  | .metadata m => do
    m.shortPrint S.T
    pure [⟨.msg, .received fam "METADATA"⟩, ⟨.packet, .rx f⟩]
  | .request r => do
    let (e, told) ← addRxSays S.T clock S.sardir w.fs w.transfers r source
    pure ([⟨.msg, .received fam "REQUEST"⟩, ⟨.packet, .rx f⟩] ++ told.map (Said.mk .err) ++
      if e.sent = none ∧ e.result = true then [⟨.msg, .newTransfer source⟩] else [])
  | .status s => do
    s.shortPrint S.T
    pure [⟨.msg, .received fam "STATUS"⟩, ⟨.packet, .rx f⟩]

/-- The lines of a call that returns (saratoga/saratoga.go:166-424). -/
def orNothing : Out (List Said) → List Said
  | .ret ls => ls
  | _ => []

/-- The lines printed during a step of `Model/MainLoop.lean`. The lines about a reply taken off `tx` are at
saratoga/saratoga.go:691-693 and 716-718. -/
def World.says (S : Setup) (w : World) : Action → List Said
  | .recv d => orNothing (do let (_, ls) ← listenSays S.T d.clock S.mtu d.bytes d.source; pure ls)
  | .readError _ => [⟨.err, .readFailed⟩]
  | .takeRx fam clock =>
    match w.listener fam with
    | .sendRx f a => orNothing (rxSays S w fam clock f a)
    | _ => []
  | .takeTx fam =>
    match w.listener fam with
    | .sendTx s _ => orNothing (do s.shortPrint S.T; pure [⟨.msg, .needToSend fam⟩, ⟨.msg, .toSend s⟩])
    | _ => []
  | _ => []

/-- The program and the lines printed so far (saratoga/saratoga.go:605-732). -/
structure Spoken where
  world : World
  lines : List Said

/-- At the first `select` (saratoga/saratoga.go:605). -/
def Spoken.init (fs : FS) : Spoken := ⟨World.init fs, []⟩

/-- One step, with the lines it prints (saratoga/saratoga.go:166-424, 605-732). -/
def Spoken.step (S : Setup) (k : Spoken) (a : Action) : Option Spoken :=
  (k.world.step S a).map fun w => ⟨w, k.lines ++ k.world.says S a⟩

/-- An execution (saratoga/saratoga.go:605-732). -/
def Spoken.run (S : Setup) (k : Spoken) : List Action → Option Spoken
  | [] => some k
  | a :: as => (k.step S a).bind fun k => k.run S as

end Saratoga
