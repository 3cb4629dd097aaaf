import Verif.Model.Timestamp
/-!
# Code fragments the frame packages share

The six frame packages repeat the same blocks; each is modelled once here and used where it occurs.
-/
namespace Saratoga

/-- `switch descriptor { case "d16": 2; case "d32": 4; case "d64": 8; default (and "d128"): error }`
(data/data.go:225-239, status/status.go:161-174, beacon/beacon.go:205-218, dirent/dirent.go:203-219;
dirent/dirent.go:138-150 also knows 16 and refuses it later). -/
def descSize (desc : String) : Option Nat :=
  if desc = "d16" then some 2
  else if desc = "d32" then some 4
  else if desc = "d64" then some 8
  else none

/-- `binary.BigEndian.PutUintN(frame[pos:pos+n], uintN(v))` for `n` = 2, 4, 8 bytes (data/data.go:214-267 and the other
`Encode`s). -/
def numBytes (n : Nat) (v : BitVec 64) : List Byte :=
  if n = 2 then be16 (v.setWidth 16)
  else if n = 4 then be32 (v.setWidth 32)
  else be64 v

/-- `uint64(binary.BigEndian.UintN(frame[pos:pos+n]))` for `n` = 2, 4, 8 bytes (data/data.go:152-211,
status/status.go:238-322 and the other `Decode`s). -/
def readNum (frame : List Byte) (pos n : Nat) : Out (BitVec 64) := do
  let s ← slice frame pos (pos + n)
  if n = 2 then do let v ← rd16 s; pure (v.setWidth 64)
  else if n = 4 then do let v ← rd32 s; pure (v.setWidth 64)
  else rd64 s

/-- `binary.BigEndian.Uint32(frame[pos:pos+4])` (data/data.go:152-211 and the other `Decode`s). -/
def readWord (frame : List Byte) (pos : Nat) : Out (BitVec 32) := do
  let s ← slice frame pos (pos + 4)
  rd32 s

/-- The flag loop of every `New`: `for fl := range flag { f := strings.Split(flag[fl], "="); switch
f[0] {...} }`, where the body may return an error (data/data.go:49-108 and the other `New`s). -/
def flagLoop {σ : Type} (step : σ → List String → Out (σ × Option Err)) :
    σ → List String → Out (σ × Option Err)
  | s, [] => .ret (s, none)
  | s, x :: xs => do
    let (s, e) ← step s (strSplit x '=')
    match e with
    | some e => pure (s, some e)
    | none => flagLoop step s xs

end Saratoga
