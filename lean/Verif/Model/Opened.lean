import Verif.Model.Transfers
import Verif.Model.Client
import Verif.Model.BeaconCmd
/-!
# What the program opens and closes

The functions below say which connections and files the functions of the same name open and close, in order. The
only calls in the running program that open one are `net.DialUDP` (sarwin/sarwin.go:705, 964, 1006), `os.Create` and
`os.Open` inside `FileOpen` (fileio/fileio.go:42, 65) and the two multicast listeners (saratoga/saratoga.go:537, 553),
which stay open until the end of the program. Left out: that Go's garbage collector may at some time close a
connection or file nothing refers to any more; the program does not wait for it or ask for it.
-/
namespace Saratoga

/-- A thing that is open: a connection, by the text of its remote address, or a file (sarwin/sarwin.go:864, 870). -/
inductive Resource where
  | conn (peer : String)
  | file (fp : Handle)
deriving DecidableEq, Repr

/-- Opening or closing (sarwin/sarwin.go:705-710, 964-972, 1006-1076). -/
inductive IoAct where
  | opens (r : Resource)
  | closes (r : Resource)
deriving DecidableEq, Repr

/-- What `NewInitiator` opens for the new transfer (sarwin/sarwin.go:963-972). It closes nothing. -/
def addInitiatorIo (env : TranEnv) (fs : FS) (ttype : String) (peer : UDPAddr) (fname : List Byte) : List IoAct :=
  (match env.dial peer with
    | .ok a => [.opens (.conn a)]
    | .error _ => []) ++
  (match (fileOpen env.sardir fs fname ttype).2 with
    | .ok (some h) => [.opens (.file h)]
    | _ => [])

/-- What `NewInitiator` opens (sarwin/sarwin.go:921-986): nothing if the loop over the table refuses. -/
def newInitiatorIo (env : TranEnv) (w : TranWorld) (ttype : String) (peer : UDPAddr) (fname : List Byte) :
    List IoAct :=
  match scanTransfers env w.fs ttype peer fname w.transfers with
  | .clear => addInitiatorIo env w.fs ttype peer fname
  | _ => []

/-- `NewResponder` (sarwin/sarwin.go:990-1086) with what it opens and closes. -/
def newResponderIo (T : Tables) (env : TranEnv) (c : Cliflags) (ts : List Transfer) (r : Request)
    (peer : String) : Out (List Transfer × Option Err × List IoAct) := do
  if (lookup env.str ts responder r.session peer).isSome then
    .ret (ts, some "Transfer is currently in progress", [])
  else match env.resolve peer with
    | .error e => .ret (ts, some e, [])
    | .ok udpaddr =>
      match env.dial udpaddr with
      | .error e => .ret (ts, some e, [])
      | .ok tc => do
        let version ← getStr T r.header "version"
        let ttype ← getStr T r.header "reqtype"
        let fileordir ← getStr T r.header "fileordir"
        let udplite ← getStr T r.header "udplite"
        let stream ← getStr T r.header "stream"
        let descriptor ← getStr T r.header "descriptor"
        let fl ← responderFlags T env ttype descriptor r.fname
        match fl with
        | .error e => .ret (ts, some e, [.opens (.conn tc), .closes (.conn tc)])
        | .ok (flags, filemeta) => do
          let (d, e) ← DirEnt.new T env.file DirEnt.zero flags r.fname
          match e with
          | some e => .ret (ts, some e, [.opens (.conn tc), .closes (.conn tc)])
          | none =>
            match c.copy with
            | .error _ =>
              .ret (ts, some "cannot copy CLI flags for transfer", [.opens (.conn tc), .closes (.conn tc)])
            | .ok cf =>
              let t := { Transfer.zero with
                conn := some tc, peer := udpaddr, direction := responder, session := r.session
                version := version, ttype := ttype, fileordir := fileordir, udplite := udplite
                stream := stream, descriptor := descriptor, filename := r.fname, filemeta := filemeta
                dir := some d, cliflags := some cf }
              .ret (ts ++ [t], none, [.opens (.conn tc)])

/-- One use of the table (`TranWorld.step`) with what it opens and closes. `Remove` and `rmtran` close nothing
(sarwin/sarwin.go:1216-1229, 2078-2106). -/
def TranWorld.stepIo (T : Tables) (env : TranEnv) (w : TranWorld) : TranOp → Out (TranWorld × List IoAct)
  | .initiate c ttype peer fname => do
    let (w', _) ← newInitiator env c w ttype peer fname
    .ret (w', newInitiatorIo env w ttype peer fname)
  | .respond c r peer => do
    let (ts, _, io) ← newResponderIo T env c w.transfers r peer
    .ret ({ w with transfers := ts }, io)
  | .remove t => .ret ({ w with transfers := (t.remove env.str w.transfers).1 }, [])
  | .rmtran args => do
    let (ts, _) ← cmdRmtran env.str w.transfers args
    .ret ({ w with transfers := ts }, [])

/-- Uses of the table one after another (sarwin/sarwin.go:898-1229, 2078-2106). -/
def TranWorld.runIo (T : Tables) (w : TranWorld) : List (TranEnv × TranOp) → Out (TranWorld × List IoAct)
  | [] => .ret (w, [])
  | (env, op) :: ops => do
    let (w, io) ← w.stepIo T env op
    let (w, more) ← w.runIo T ops
    .ret (w, io ++ more)

/-- What happens on the connection of `sendbeacons`: opened, a thing done while it is open, closed
(sarwin/sarwin.go:699-730). -/
inductive BeaconIo where
  | io (a : IoAct)
  | act (a : BeaconAct)

/-- `sendbeacons` (sarwin/sarwin.go:699-730) with the opening and the deferred closing of its connection. -/
def sendBeaconsIo (E : BeaconEnv) (b : BeaconState) (addr : UDPAddr) : Out (List BeaconIo) := do
  let acts ← sendBeacons E b addr
  match E.dial addr with
  | .error _ => .ret (acts.map .act)
  | .ok _ => .ret (.io (.opens (.conn (E.str addr))) :: acts.map .act ++ [.io (.closes (.conn (E.str addr)))])

/-- `PutStart.word` (client/client.go:290-387) with what has been opened and closed when it reports. `fp` is the file,
`conn` the peer's address; the deferred `t.fp.Close()` comes last. -/
def PutStart.io (p : PutStart) (fp : Handle) (conn : String) : Out (Option String × List IoAct) :=
  let noFile : List IoAct := []
  let noConn : List IoAct := [.opens (.file fp), .closes (.file fp)]
  let both : List IoAct := [.opens (.file fp), .opens (.conn conn), .closes (.conn conn), .closes (.file fp)]
  if !p.opened then .ret (some "filenotfound", noFile)
  else if !p.seeked then .ret (some "badoffset", noConn)
  else if !p.resolved then .ret (some "cantsend", noConn)
  else if !p.dialled then .panic
  else if !p.request then .ret (some "badrequest", both)
  else if p.requestSent ≠ "success" then .ret (some p.requestSent, both)
  else if !p.metadata then .ret (some "badrequest", both)
  else if p.metadataSent ≠ "success" then .ret (some p.metadataSent, both)
  else .ret (none, [.opens (.file fp), .opens (.conn conn)])

/-- `cput` (client/client.go:290-438) with what it has opened and closed. -/
def cputIo (p : PutStart) (fp : Handle) (conn : String) (numbers : String → Bool) (events : List PutEvent) :
    Out (Option String × List IoAct) := do
  match ← p.io fp conn with
  | (some w, io) => .ret (some w, io)
  | (none, io) =>
    match putLoop numbers events with
    | some w => .ret (some w, io ++ [.closes (.conn conn), .closes (.file fp)])
    | none => .ret (none, io)

/-- `cputblind` (client/client.go:440-505): the word it reports with what it has opened and closed; both closings are
deferred. Of `PutStart` the fields about the request play no part. -/
def cputblindIo (p : PutStart) (fp : Handle) (conn : String) : String × List IoAct :=
  let noConn : List IoAct := [.opens (.file fp), .closes (.file fp)]
  let both : List IoAct := [.opens (.file fp), .opens (.conn conn), .closes (.conn conn), .closes (.file fp)]
  if !p.opened then ("filenotfound", [])
  else if !p.seeked then ("badoffset", noConn)
  else if !p.resolved then ("cantsend", noConn)
  else if !p.dialled then ("cantsend", noConn)
  else if !p.metadata then ("badrequest", both)
  else if p.metadataSent ≠ "success" then (p.metadataSent, both)
  else ("success", both)

end Saratoga
