import Verif.Model.Dial
/-!
# Model of the disk usage of `sarsys` and of `OutboundIP` of `sarnet`
-/
namespace Saratoga

/-- What `statfs` answers of a file system (operating system, asked at sarsys/sys_linux.go:21-27). -/
structure Statfs where
  bsize : BitVec 64
  blocks : BitVec 64
  bfree : BitVec 64
  bavail : BitVec 64
deriving DecidableEq, Repr

/-- `DiskUsage` as its numbers, in bytes (sarsys/sys_linux.go:15-17, sarsys/sys_darwin.go:15-17,
sarsys/sys_windows.go:16-20). -/
structure DiskUsage where
  free : BitVec 64
  available : BitVec 64
  size : BitVec 64
  used : BitVec 64
deriving DecidableEq, Repr

/-- `NewDiskUsage`, `Free`, `Available`, `Size` and `Used` on linux (sarsys/sys_linux.go:21-46) and darwin
(sarsys/sys_darwin.go:21-46). If `statfs` fails its zeros stay. -/
def DiskUsage.unix (stat : Option Statfs) : DiskUsage :=
  let s := stat.getD ⟨0, 0, 0, 0⟩
  ⟨s.bfree * s.bsize, s.bavail * s.bsize, s.blocks * s.bsize, s.blocks * s.bsize - s.bfree * s.bsize⟩

/-- What `GetDiskFreeSpaceExW` writes to its second, third and fourth argument: the bytes free to the caller, all bytes,
the bytes free (operating system, asked at sarsys/sys_windows.go:24-38). -/
structure WinSpace where
  toCaller : BitVec 64
  total : BitVec 64
  totalFree : BitVec 64
deriving DecidableEq, Repr

/-- The same on windows (sarsys/sys_windows.go:24-58): the second argument is `freeBytes`, the fourth `availBytes`. -/
def DiskUsage.windows (answer : Option WinSpace) : DiskUsage :=
  let s := answer.getD ⟨0, 0, 0⟩
  ⟨s.toCaller, s.totalFree, s.total, s.total - s.toCaller⟩

/-- `IP.To4` (library, used at sarnet/sarnet.go:86-99). -/
def to4 (ip : List Byte) : Option (List Byte) :=
  if ip.length = 4 then some ip
  else if ip.length = 16 ∧ ip.take 12 = List.replicate 10 0#8 ++ [0xff#8, 0xff#8] then some (ip.drop 12)
  else none

/-- `IP.To16` (library, used at sarnet/sarnet.go:86-99). -/
def to16 (ip : List Byte) : Option (List Byte) :=
  if ip.length = 4 then some (List.replicate 10 0#8 ++ [0xff#8, 0xff#8] ++ ip)
  else if ip.length = 16 then some ip
  else none

/-- `OutboundIP` (sarnet/sarnet.go:86-99); `addrs` is what the host name resolves to, none if it does not. -/
def outboundIP (typ : String) : List (List Byte) → Out (List Byte)
  | [] => .fatal
  | a :: rest =>
    if typ = "IPv4" ∧ (to4 a).isSome then .ret ((to4 a).getD [])
    else if typ = "IPv6" ∧ (to16 a).isSome then .ret ((to16 a).getD [])
    else outboundIP typ rest

end Saratoga
