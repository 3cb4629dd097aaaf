import Verif.Model.Flags
/-!
# Model of the user's settings (`sarflags/sarflags.go`)

Go `int` and `uint` values are unbounded here; those that come from typed text are range checked by
`atoi`, as in `strconv.Atoi` on a 64 bit machine.
-/
namespace Saratoga

/-- `m[k] = v` on a map (as in sarflags/sarflags.go:653). -/
def mapSet {β : Type} (k : String) (v : β) : List (String × β) → List (String × β)
  | [] => [(k, v)]
  | (a, b) :: rest => if a = k then (a, v) :: rest else (a, b) :: mapSet k v rest

/-- `Timeouts` (sarflags/sarflags.go:183-190). -/
structure Timeouts where
  metadata : Int
  request : Int
  status : Int
  transfer : Int
  binterval : Nat
  datacounter : Int
deriving DecidableEq, Repr

/-- `Cliflags` (sarflags/sarflags.go:271-285). -/
structure Cliflags where
  global : List (String × String)
  v4multicast : String
  v6multicast : String
  port : Int
  timestamp : String
  timeout : Timeouts
  timezone : String
  prompt : String
  ppad : Int
  sardir : List Byte
  buffersize : Int
  bcount : Nat
deriving DecidableEq, Repr

/-- The loop `for g := range s.Global { d.Global[g] = s.Global[g] }` (sarflags/sarflags.go:653-655). -/
def copyGlobal (src : List (String × String)) (dst : List (String × String)) :
    List (String × String) → List (String × String)
  | [] => dst
  | (g, _) :: rest => copyGlobal src (mapSet g ((assoc g src).getD "") dst) rest

/-- `CopyCliflags` (sarflags/sarflags.go:630-657). The new flag map is a fresh one, so values of the model
stand for separate maps. The IPv6 address is filled from the IPv4 one and `Bcount` is not copied, as
written. -/
def Cliflags.copy (s : Cliflags) : Except Err Cliflags :=
  if s.global.length = 0 then .error "no global flags defined in copyflags"
  else .ok {
    global := copyGlobal s.global [] s.global
    v4multicast := s.v4multicast
    v6multicast := s.v4multicast
    port := s.port
    timestamp := s.timestamp
    timeout := {
      metadata := s.timeout.metadata, request := s.timeout.request, status := s.timeout.status,
      transfer := s.timeout.transfer, binterval := s.timeout.binterval,
      datacounter := s.timeout.datacounter }
    timezone := s.timezone
    prompt := s.prompt
    ppad := s.ppad
    sardir := s.sardir
    buffersize := s.buffersize
    bcount := 0 }

/-! ## Numbers typed by the user -/

/-- The number written by decimal digits, most significant first; `none` at any other character (`strconv.Atoi`, used
at sarwin/sarwin.go:1712, 1745, 2243). -/
def digitsFrom (acc : Nat) : List Char → Option Nat
  | [] => some acc
  | c :: cs => if '0' ≤ c ∧ c ≤ '9' then digitsFrom (acc * 10 + (c.toNat - '0'.toNat)) cs else none

/-- The number written by a text of decimal digits; there must be one (`strconv.Atoi`, used at sarwin/sarwin.go:1712,
1745, 2243). -/
def digits : List Char → Option Nat
  | [] => none
  | cs => digitsFrom 0 cs

/-- A sign and digits as a 64 bit number (`strconv.Atoi`, used at sarwin/sarwin.go:1712, 1745, 2243). -/
def signed (neg : Bool) (ds : List Char) : Option Int :=
  match digits ds with
  | none => none
  | some n =>
    if neg then (if n ≤ 2 ^ 63 then some (-(n : Int)) else none)
    else (if n < 2 ^ 63 then some (n : Int) else none)

/-- `strconv.Atoi(s)` with `err == nil` as `some`: an optional sign, at least one decimal digit, and a
value that fits 64 bits (library, used at sarwin/sarwin.go:1712, 1745, 2243). -/
def atoi (s : String) : Option Int :=
  match s.toList with
  | '-' :: r => signed true r
  | '+' :: r => signed false r
  | cs => signed false cs

/-- `strconv.ParseUint(s, 10, 32)` with `err == nil` as `some` (library, used at sarwin/sarwin.go:2078-2106). -/
def parseUint32 (s : String) : Option (BitVec 32) :=
  match digits s.toList with
  | none => none
  | some n => if n < 2 ^ 32 then some (BitVec.ofNat 32 n) else none

end Saratoga
