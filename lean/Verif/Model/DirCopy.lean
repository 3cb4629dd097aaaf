import Verif.Model.Metadata
/-!
# Model of directory entries behind pointers

The other models pass directory entries by value. Here they are in memory, and a pointer is a place there, so that it can be said
what a copy shares with what it was copied from.
-/
namespace Saratoga

/-- The directory entries there are; a pointer that is not nil is a place in the list
(dirent/dirent.go:18-24). -/
abbrev DirHeap := List DirEnt

/-- An assignment to a field of a directory entry (as at dirent/dirent.go:27-35 and dirent/dirent.go:60-126). Texts cannot be
changed in Go, and time stamps are values, so nothing else can change an entry. -/
inductive DirWrite where
  | header (v : BitVec 16)
  | size (v : BitVec 64)
  | mtime (v : Timestamp)
  | ctime (v : Timestamp)
  | path (v : List Byte)

/-- What the assignment makes of the entry (as at dirent/dirent.go:27-35). -/
def DirWrite.on : DirWrite → DirEnt → DirEnt
  | .header v, d => { d with header := v }
  | .size v, d => { d with size := v }
  | .mtime v, d => { d with mtime := v }
  | .ctime v, d => { d with ctime := v }
  | .path v, d => { d with path := v }

/-- The assignment through a pointer (as at dirent/dirent.go:27-35). There are no pointers beyond the list. -/
def DirHeap.write (h : DirHeap) (p : Nat) (w : DirWrite) : Out DirHeap :=
  match h[p]? with
  | none => .panic
  | some d => .ret (h.set p (w.on d))

/-- Reading through a pointer (as at dirent/dirent.go:27-35). -/
def DirHeap.read (h : DirHeap) (p : Nat) : Out DirEnt :=
  match h[p]? with
  | none => .panic
  | some d => .ret d

/-- `Copy` of an entry (dirent/dirent.go:27-35): a new entry, then field by field. -/
def DirHeap.copyOf (h : DirHeap) (src : Nat) : Out (DirHeap × Nat) := do
  let dst := h.length
  let h : DirHeap := h ++ [DirEnt.zero]
  let h ← h.write dst (.header (← h.read src).header)
  let h ← h.write dst (.size (← h.read src).size)
  let h ← h.write dst (.mtime (← h.read src).mtime)
  let h ← h.write dst (.ctime (← h.read src).ctime)
  let h ← h.write dst (.path (← h.read src).path)
  pure (h, dst)

/-- `Copy` (dirent/dirent.go:27-35); the pointer may be nil, and reading through nil panics. -/
def DirHeap.copy (h : DirHeap) : Option Nat → Out (DirHeap × Nat)
  | none => .panic
  | some src => h.copyOf src

/-- `Value` (dirent/dirent.go:37-39). -/
def DirHeap.value (h : DirHeap) : Option Nat → Out DirEnt
  | none => .panic
  | some p => do
    let d ← h.read p
    pure ⟨d.header, d.size, d.mtime, d.ctime, d.path⟩

/-- Assignments through pointers, one after the other (as at dirent/dirent.go:27-35). -/
def DirHeap.writes (h : DirHeap) : List (Nat × DirWrite) → Out DirHeap
  | [] => .ret h
  | (p, w) :: ws => do
    let h ← h.write p w
    DirHeap.writes h ws

end Saratoga
