import Verif.Model.Listen
/-!
# Model of the memory behind received frames (`saratoga/saratoga.go` lines 166-423)

Elsewhere frames are values. In the program a listener reads every datagram into the same buffer, and a frame that waits
in `rx` or is being handled refers to arrays of bytes. Here slices are places in arrays, and arrays are shared. Strings
never change, so file names, EIDs and texts of stamps are values also here; so is the list of holes of a status, which
`append` builds (status/status.go:271) in arrays nothing else refers to. Arrays a failed `Decode` leaves behind are left
out. `Val` (data/data.go:39-43 and so on) copies the slices, not the arrays.
-/
namespace Saratoga

/-- The arrays of bytes made so far (saratoga/saratoga.go:166-424). -/
abbrev Memory := List (List Byte)

/-- A Go slice of bytes: an array, where it begins in it, and its length. -/
structure Slice where
  arr : Nat
  off : Nat
  len : Nat
deriving DecidableEq, Repr

/-- The bytes of a slice (meaning of Go, used at saratoga/saratoga.go:206-423). -/
def Memory.view (m : Memory) (s : Slice) : List Byte := ((m.getD s.arr []).drop s.off).take s.len

/-- `make([]byte, n)` (saratoga/saratoga.go:170). -/
def Memory.make (m : Memory) (n : Nat) : Memory × Slice := (m ++ [List.replicate n 0], ⟨m.length, 0, n⟩)

/-- `copy(s, src)`, also what `ReadFromUDP(s)` does with a datagram: as many bytes as there are and fit
(saratoga/saratoga.go:180). -/
def Memory.write (m : Memory) (s : Slice) (src : List Byte) : Memory :=
  m.modify s.arr fun a => a.take s.off ++ src.take s.len ++ a.drop (s.off + min s.len src.length)

/-- `s[:n]` (saratoga/saratoga.go:166-424). -/
def Slice.upTo (s : Slice) (n : Nat) : Slice := ⟨s.arr, s.off, n⟩

/-- A frame as it lies in memory: its bytes are elsewhere (saratoga/saratoga.go:206-423). -/
inductive Held where
  | beacon (b : Beacon)
  | request (r : Request) (auth : Slice)
  | data (d : Data) (payload : Slice)
  | metadata (m : MetaData) (checksum : Slice)
  | status (s : Status)
deriving DecidableEq, Repr

/-- What a reader of the frame finds (saratoga/saratoga.go:605-671). -/
def Held.read (mem : Memory) : Held → Frame
  | .beacon b => .beacon b
  | .request r a => .request { r with auth := mem.view a }
  | .data d p => .data { d with payload := mem.view p }
  | .metadata m c => .metadata { m with checksum := mem.view c }
  | .status s => .status s

/-- Where the decoders put the bytes: each into an array of its own (request/request.go:142-143,
data/data.go:166-182 and 190-200, metadata/metadata.go:280-281). -/
def hold (mem : Memory) : Frame → Memory × Held
  | .beacon b => (mem, .beacon b)
  | .request r => let (mem, s) := mem.make r.auth.length; (mem.write s r.auth, .request { r with auth := [] } s)
  | .data d => let (mem, s) := mem.make d.payload.length; (mem.write s d.payload, .data { d with payload := [] } s)
  | .metadata m =>
    let (mem, s) := mem.make m.checksum.length; (mem.write s m.checksum, .metadata { m with checksum := [] } s)
  | .status s => (mem, .status s)

/-- The listeners' part: the memory, the packets in `rx`, those the main loop has taken out and still uses, and the
replies. Listener `k` reads into array `k` (saratoga/saratoga.go:166-424, 605-671). -/
structure Receivers where
  memory : Memory
  queue : List Held
  taken : List Held
  replies : List Status
deriving DecidableEq, Repr

/-- A datagram comes to a listener, or the main loop takes a packet (saratoga/saratoga.go:602-606). -/
inductive RxEvent where
  | arrive (k : Nat) (datagram : List Byte) (clock : GoTime)
  | take

/-- One round of listener `k` (saratoga/saratoga.go:177-423). -/
def Receivers.arrive (T : Tables) (mtu : Nat) (w : Receivers) (k : Nat) (datagram : List Byte) (clock : GoTime) :
    Out Receivers :=
  let buf : Slice := ⟨k, 0, mtu + 40⟩
  let mem := w.memory.write buf datagram
  let framelen := min buf.len datagram.length
  if framelen < 8 then .ret { w with memory := mem }
  else if (framelen : Int) > (mtu : Int) - 60 then .ret { w with memory := mem }
  else do
    let (mem, framebuf) := mem.make framelen
    let mem := mem.write framebuf (mem.view (buf.upTo framelen))
    let frame := mem.view framebuf
    let header ← readWord frame 0
    let version ← getStr T header "version"
    let act ← (if version ≠ "v1" then listenReply T clock "errcode=badpacket" ⟨0, 0, 0, []⟩
      else listenTyped T clock header frame)
    match act with
    | .drop => pure { w with memory := mem }
    | .tx s => pure { w with memory := mem, replies := w.replies ++ [s] }
    | .rx f =>
      let (mem, h) := hold mem f
      pure { w with memory := mem, queue := w.queue ++ [h] }

/-- One step (saratoga/saratoga.go:166-424, 605-671). -/
def Receivers.step (T : Tables) (mtu : Nat) (w : Receivers) : RxEvent → Out Receivers
  | .arrive k dg clock => w.arrive T mtu k dg clock
  | .take =>
    match w.queue with
    | [] => .ret w
    | h :: rest => .ret { w with queue := rest, taken := w.taken ++ [h] }

/-- An execution (saratoga/saratoga.go:166-424, 605-671). -/
def Receivers.run (T : Tables) (mtu : Nat) (w : Receivers) : List RxEvent → Out Receivers
  | [] => .ret w
  | e :: es => do
    let w ← w.step T mtu e
    w.run T mtu es

/-- `make([]byte, maxframesize+100)` in each of `n` listeners (saratoga/saratoga.go:170). -/
def Receivers.start (mtu n : Nat) : Receivers := ⟨List.replicate n (List.replicate (mtu + 40) 0), [], [], []⟩

end Saratoga
