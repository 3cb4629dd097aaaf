import Verif.Model.Cliflags
/-!
# `CopyCliflags` with flag maps as references (`sarflags/sarflags.go:630-657`)

A Go map is a reference, so two settings can share one flag map. Here a settings value holds the address
of its map, and the maps live in a heap. `Cliflags.copy` is the same function seen without sharing.
-/
namespace Saratoga

/-- All flag maps that were ever made; the address of a map is its position (the field `Global`,
sarflags/sarflags.go:271-285). -/
abbrev MapHeap := List (List (String × String))

/-- A `Cliflags` whose `Global` is the address of a map. The field `rest.global` is not used
(sarflags/sarflags.go:271-285). -/
structure CliRef where
  map : Nat
  rest : Cliflags
deriving DecidableEq, Repr

/-- The contents of the map at an address (sarflags/sarflags.go:652-654). -/
def MapHeap.at (h : MapHeap) (p : Nat) : List (String × String) := (h[p]?).getD []

/-- `m[k]`, which is the empty text for a missing key (sarflags/sarflags.go:652-654). -/
def MapHeap.read (h : MapHeap) (p : Nat) (k : String) : String := (assoc k (h.at p)).getD ""

/-- `m[k] = v` (sarflags/sarflags.go:652-654). -/
def MapHeap.write (h : MapHeap) (p : Nat) (k v : String) : MapHeap := h.set p (mapSet k v (h.at p))

/-- `for g := range s.Global { d.Global[g] = s.Global[g] }` (sarflags/sarflags.go:653-655) over the keys
in one order of iteration. -/
def copyLoop (src dst : Nat) : List String → MapHeap → MapHeap
  | [], h => h
  | g :: rest, h => copyLoop src dst rest (h.write dst g (h.read src g))

/-- `CopyCliflags` (sarflags/sarflags.go:630-657): `make` gives a map at a new address. -/
def CliRef.copy (h : MapHeap) (s : CliRef) : Except Err (MapHeap × CliRef) :=
  if (h.at s.map).length = 0 then .error "no global flags defined in copyflags"
  else
    let dst := h.length
    .ok (copyLoop s.map dst ((h.at s.map).map (·.1)) (h ++ [[]]),
      { map := dst
        rest := {
          global := []
          v4multicast := s.rest.v4multicast
          v6multicast := s.rest.v4multicast
          port := s.rest.port
          timestamp := s.rest.timestamp
          timeout := {
            metadata := s.rest.timeout.metadata, request := s.rest.timeout.request,
            status := s.rest.timeout.status, transfer := s.rest.timeout.transfer,
            binterval := s.rest.timeout.binterval, datacounter := s.rest.timeout.datacounter }
          timezone := s.rest.timezone
          prompt := s.rest.prompt
          ppad := s.rest.ppad
          sardir := s.rest.sardir
          buffersize := s.rest.buffersize
          bcount := 0 } })

end Saratoga
