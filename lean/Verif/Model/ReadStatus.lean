import Verif.Model.Client
import Verif.Model.Metadata
import Verif.Model.Status
/-!
# Model of `readstatus` of `client/client.go` (lines 33-172)

What it does is a list of acts, in order: words sent on `errflag`, positions sent on `pos`, metadata and data frames
handed to `frames.UDPWrite`. The filling of one hole is `resendHole` of `Model/Client.lean`. The length of the file is
taken once, before the loop, and the file does not change.
-/
namespace Saratoga

/-- An act of `readstatus` (client/client.go:33-172). -/
inductive Act where
  | word (w : String)
  | position (progress inrespto : BitVec 64)
  | metadata
  | data (d : Data)
deriving DecidableEq, Repr

/-- What `readstatus` is given and meets: the file, flag text of data frames, session and metadata of the transfer, the
MTU, the largest buffer Go can make; by round the answer of `frames.UDPWrite` for metadata, and by round, hole and
frame the time and the answer for data. -/
structure ReadEnv where
  file : List Byte
  dflags : String
  session : BitVec 32
  metaData : MetaData
  mtu : Int
  room : Nat
  metaWrite : Nat → String
  clock : Nat → Nat → Nat → GoTime
  write : Nat → Nat → Nat → String

/-- Whether the bytes of a hole can be read (client/client.go:131-140); an empty hole can, wherever it is. -/
def holeReads (file : List Byte) (room : Nat) (h : Hole) : Bool :=
  0 ≤ h.stop - h.start && h.stop - h.start ≤ room && 0 ≤ h.start && h.stop - h.start ≤ (file.drop h.start.toNat).length

/-- One hole (client/client.go:129-166): `maxpaylen` is asked only when the bytes are read; else the block length is
not looked at. -/
def fillHole (T : Tables) (E : ReadEnv) (i k : Nat) (h : Hole) : Out (List Data × Option String) :=
  if holeReads E.file E.room h then do
    let plen ← maxPaylen E.mtu E.dflags
    resendHole T (E.clock i k) (E.write i k) E.session E.dflags E.file E.room plen h
  else resendHole T (E.clock i k) (E.write i k) E.session E.dflags E.file E.room 1 h

/-- The loop over the holes (client/client.go:129-166), this being hole `k`: the frames and the word with which it
gives up. -/
def fillHoles (T : Tables) (E : ReadEnv) (i : Nat) : Nat → List Hole → Out (List Data × Option String)
  | _, [] => .ret ([], none)
  | k, h :: hs => do
    let (ds, w) ← fillHole T E i k h
    match w with
    | some w => .ret (ds, some w)
    | none => do
      let (ds', w) ← fillHoles T E i (k + 1) hs
      .ret (ds ++ ds', w)

/-- `sarflags.MaxBuff` (sarflags/sarflags.go:180), the longest piece of a datagram that is read. -/
def maxBuff : Nat := 9000

/-- `readstatus` from the position on (client/client.go:116-169). The second decoding of the frame gives what the first
gave. -/
def readGood (T : Tables) (E : ReadEnv) (i : Nat) (st : Status) : Out (List Act × Bool) := do
  let whole := if st.progress = BitVec.ofNat 64 E.file.length then [Act.word "success"] else []
  let (ds, w) ← fillHoles T E i 0 st.holes
  let told := Act.position st.progress st.inrespto :: (whole ++ ds.map .data)
  match w with
  | some w => .ret (told ++ [.word w], true)
  | none => .ret (told ++ [.word "success"], false)

/-- One datagram (client/client.go:62-169), the `i`th; the answer is what is done and whether `readstatus` returns. -/
def readOne (T : Tables) (E : ReadEnv) (i : Nat) (datagram : List Byte) : Out (List Act × Bool) := do
  let rframe := datagram.take maxBuff
  let header ← readWord rframe 0
  let version ← getStr T header "version"
  if version ≠ "v1" then .ret ([.word "badpacket"], true)
  else
    let frametype ← getStr T header "frametype"
    if frametype = "status" then
      let (st, e) ← Status.zero.decode T rframe
      match e with
      | some _ => .ret ([.word "badpacket"], true)
      | none =>
        st.shortPrint T
        let errf ← getStr T header "errcode"
        if errf ≠ "success" then .ret ([.word errf], true)
        else
          let mr ← getStr T header "metadatarecvd"
          if mr = "no" then
            if E.metaWrite i ≠ "success" then .ret ([.metadata, .word (E.metaWrite i)], true)
            else
              E.metaData.shortPrint T
              let (acts, done) ← readGood T E i st
              .ret (.metadata :: acts, done)
          else readGood T E i st
    else
      -- "frametpye" (client/client.go:92)
      let _ ← getStr T header "frametpye"
      .ret ([.word "badpacket"], true)

/-- The loop of `readstatus` (client/client.go:51-172) over what `conn.Read` answers: a datagram, or an error
(`none`), among them that the time is up. -/
def readLoop (T : Tables) (E : ReadEnv) : Nat → List (Option (List Byte)) → Out (List Act × Bool)
  | _, [] => .ret ([], false)
  | _, none :: _ => .ret ([.word "cantreceive"], true)
  | i, some dg :: rest => do
    let (acts, done) ← readOne T E i dg
    if done then .ret (acts, true)
    else do
      let (more, done) ← readLoop T E (i + 1) rest
      .ret (acts ++ more, done)

/-- `readstatus` (client/client.go:33-172); `stat` tells whether the length of the file can be had. -/
def readStatus (T : Tables) (E : ReadEnv) (stat : Bool) (reads : List (Option (List Byte))) : Out (List Act × Bool) :=
  if stat then readLoop T E 0 reads else .ret ([.word "filenotfound"], true)

end Saratoga
