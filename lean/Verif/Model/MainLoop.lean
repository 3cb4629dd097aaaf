import Verif.Model.Listen
import Verif.Model.Peers
import Verif.Model.Trans
/-!
# Model of the goroutines of `saratoga/saratoga.go`

Two listeners (IPv4 and IPv6) and the main loop talk over unbuffered channels: per family `rx` for
packets, `tx` for replies, `quit` for the end of the listener. A send and the receive that meets it are
one step. The interface (`gocuimainloop`) and the commands it runs show up as three steps only: the end of the
interface, the end of the process (`log.Fatal` or a panic in any goroutine ends it), and a change of the files, which
other programs may make as well. They use other channels only. `Model/Program.lean` puts both together.

The model keeps logs that the program does not have: what was read, what was handled, which replies were
taken off `tx`, and what was put on the wire.
-/
namespace Saratoga

/-- The two address families (saratoga/saratoga.go:531-560). -/
inductive Fam where
  | v4
  | v6
deriving DecidableEq, Repr

/-- A datagram as it is read: when, what, from where (`ReadFromUDP`, saratoga/saratoga.go:180). -/
structure Datagram where
  fam : Fam
  clock : GoTime
  bytes : List Byte
  source : UDPAddr
deriving DecidableEq, Repr

/-- A packet handled by the main loop (saratoga/saratoga.go:605-671). -/
structure Handled where
  fam : Fam
  frame : Frame
  source : UDPAddr
  clock : GoTime
deriving DecidableEq, Repr

/-- A reply and where it is to go (saratoga/saratoga.go:672-721). -/
structure Reply where
  fam : Fam
  status : Status
  dest : UDPAddr
deriving DecidableEq, Repr

/-- Where a listener stands: in `ReadFromUDP`, or at one of its channel sends, or returned
(saratoga/saratoga.go:166-424). -/
inductive LState where
  | reading
  | sendRx (f : Frame) (source : UDPAddr)
  | sendTx (s : Status) (dest : UDPAddr)
  | sendQuit
  | gone
deriving DecidableEq, Repr

/-- Where the main loop stands: at its `select`, at a send on `tx` inside `AddRxTran`, or the process
has ended (saratoga/saratoga.go:605-732, trans/trans.go:50-233). -/
inductive MState where
  | select
  | sending (r : Reply)
  | ended
deriving DecidableEq, Repr

/-- The whole program (saratoga/saratoga.go:582-732). -/
structure World where
  listener : Fam → LState
  main : MState
  peers : List Peer
  transfers : List RxTran
  fs : FS
  read : List Datagram
  handled : List Handled
  taken : List Reply
  wire : List Reply

/-- What does not change (saratoga/saratoga.go:439-600). -/
structure Setup where
  T : Tables
  ipText : List Byte → String
  mtu : Nat
  sardir : List Byte

/-- At the first `select` (saratoga/saratoga.go:599-606). -/
def World.init (fs : FS) : World :=
  ⟨fun _ => .reading, .select, [], [], fs, [], [], [], []⟩

/-- `listener := st` for one family (saratoga/saratoga.go:586, 594). -/
def World.setListener (w : World) (fam : Fam) (st : LState) : World :=
  { w with listener := fun g => if g = fam then st else w.listener g }

/-- What can happen (saratoga/saratoga.go:166-424, 605-732). -/
inductive Action where
  | recv (d : Datagram)
  | readError (fam : Fam)
  | takeRx (fam : Fam) (clock : GoTime)
  | takeTx (fam : Fam)
  | takeQuit (fam : Fam)
  | userQuit
  | kill
  | files (fs : FS)

/-- The process ends unless `x` returns (`log.Fatal` and panics, as in saratoga/saratoga.go:722-730). -/
def World.orEnd {α : Type} (w : World) (x : Out α) (f : α → World) : World :=
  match x with
  | .ret a => f a
  | .fatal => { w with main := .ended }
  | .panic => { w with main := .ended }

/-- The listener has read a datagram (saratoga/saratoga.go:177-423). -/
def World.onRecv (S : Setup) (w : World) (d : Datagram) : World :=
  w.orEnd (listenFrame S.T d.clock S.mtu d.bytes) fun act =>
    let w := { w with read := w.read ++ [d] }
    match act with
    | .drop => w
    | .rx f => w.setListener d.fam (.sendRx f d.source)
    | .tx s => w.setListener d.fam (.sendTx s d.source)

/-- The cases `rxv4` and `rxv6` of the main loop (saratoga/saratoga.go:607-671). -/
def World.onRx (S : Setup) (w : World) (fam : Fam) (clock : GoTime) (f : Frame) (source : UDPAddr) :
    World :=
  let w := { w.setListener fam .reading with handled := w.handled ++ [Handled.mk fam f source clock] }
  match f with
  | .beacon b =>
    w.orEnd (do b.shortPrint S.T; newPeer S.T S.ipText clock w.peers b (some source)) fun r =>
      { w with peers := r.1 }
  | .data d => w.orEnd (d.shortPrint S.T) fun _ => w
  | .metadata m => w.orEnd (m.shortPrint S.T) fun _ => w
  | .request r =>
    w.orEnd (addRxTran S.T clock S.sardir w.fs w.transfers r source) fun e =>
      let w := { w with fs := e.fs, transfers := e.transfers }
      match e.sent with
      | none => w
      | some st => { w with main := .sending ⟨fam, st, source⟩ }
  | .status s => w.orEnd (s.shortPrint S.T) fun _ => w

/-- The cases `txv4` and `txv6` (saratoga/saratoga.go:672-721): the reply is printed. -/
def World.onTx (S : Setup) (w : World) (fam : Fam) (s : Status) (dest : UDPAddr) : World :=
  let w := { w.setListener fam .reading with taken := w.taken ++ [Reply.mk fam s dest] }
  w.orEnd (s.shortPrint S.T) fun _ => w

/-- One step; `none` if it cannot happen. A send on `tx` by the main loop meets no receiver, because the
main loop is the only one (saratoga/saratoga.go:672, 697). -/
def World.step (S : Setup) (w : World) : Action → Option World
  | .recv d =>
    if w.main ≠ .ended ∧ w.listener d.fam = .reading then some (w.onRecv S d) else none
  | .readError fam =>
    if w.main ≠ .ended ∧ w.listener fam = .reading then some (w.setListener fam .sendQuit) else none
  | .takeRx fam clock =>
    match w.main, w.listener fam with
    | .select, .sendRx f a => some (w.onRx S fam clock f a)
    | _, _ => none
  | .takeTx fam =>
    match w.main, w.listener fam with
    | .select, .sendTx s a => some (w.onTx S fam s a)
    | _, _ => none
  | .takeQuit fam =>
    match w.main, w.listener fam with
    | .select, .sendQuit => some { w.setListener fam .gone with main := .ended }
    | _, _ => none
  | .userQuit =>
    match w.main with
    | .select => some { w with main := .ended }
    | _ => none
  | .kill => if w.main ≠ .ended then some { w with main := .ended } else none
  | .files fs => if w.main ≠ .ended then some { w with fs := fs } else none

/-- An execution (saratoga/saratoga.go:605-732). -/
def World.run (S : Setup) (w : World) : List Action → Option World
  | [] => some w
  | a :: as => (w.step S a).bind fun w => w.run S as

end Saratoga
