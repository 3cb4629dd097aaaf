import Verif.Model.Client
import Verif.Model.Sarnet
import Verif.Model.TranCmds
/-!
# Model of how the client of `client/client.go` finds its peer (lines 240-256, 317-340, 441-505)

`net.ParseIP`, name lookup and port lookup are what they answer, with the laws the theorems need; `JoinHostPort`,
`SplitHostPort` and the order of `ResolveUDPAddr` are as in the Go library.
-/
namespace Saratoga

/-- The part of the `net` library that is not written out. The laws: an IP address as text has no square bracket, and
no colon (IPv4) or at least two (IPv6); no host name has a colon. -/
structure NetLib where
  /-- `net.ParseIP`; 16 bytes. -/
  parseIP : String → Option (List Byte)
  /-- Looking up a name that is not an address. -/
  lookup : String → Option (List Byte)
  /-- `LookupPort`. -/
  port : String → Option Nat
  ip_plain : ∀ s ip, parseIP s = some ip → '[' ∉ s.toList ∧ ']' ∉ s.toList ∧ countChar s ':' ≠ 1
  name_plain : ∀ s ip, lookup s = some ip → ':' ∉ s.toList

/-- `IP.To4() != nil` (library, used at client/client.go:321, 466). -/
def isTo4 (ip : List Byte) : Bool :=
  ip.length = 4 ∨ (ip.length = 16 ∧ ip.take 12 = List.replicate 10 0#8 ++ [0xff#8, 0xff#8])

/-- `net.JoinHostPort`: what `UDPAddr.String` answers (library, used at client/client.go:240-256, 317-340). -/
def joinHostPort (host port : String) : String :=
  if ':' ∈ host.toList then "[" ++ host ++ "]:" ++ port else host ++ ":" ++ port

/-- The text behind the last colon and the text before it, if there is one (library, used at client/client.go:240-256).
-/
def lastColon (s : List Char) : Option (List Char × List Char) :=
  let r := s.reverse
  match r.dropWhile (· ≠ ':') with
  | [] => none
  | _ :: before => some (before.reverse, (r.takeWhile (· ≠ ':')).reverse)

/-- `net.SplitHostPort`; `none` for any of its errors (library, used at client/client.go:326, 472). -/
def splitHostPort (s : List Char) : Option (List Char × List Char) :=
  match lastColon s with
  | none => none
  | some (before, port) =>
    match s with
    | '[' :: rest =>
      let host := rest.takeWhile (· ≠ ']')
      -- the first closing bracket is there, and the last colon is next to it
      if ']' ∈ rest ∧ before = '[' :: host ++ [']'] then
        if '[' ∈ rest ∨ ']' ∈ port then none else some (host, port)
      else none
    | _ =>
      if ':' ∈ before then none
      else if '[' ∈ s ∨ ']' ∈ s then none
      else some (before, port)

/-- `net.ResolveUDPAddr("udp", s)` (library, used at client/client.go:326, 472). -/
def resolveUDP (L : NetLib) (s : String) : Option (List Byte × Nat) :=
  match splitHostPort s.toList with
  | none => none
  | some (host, port) =>
    match L.port (String.ofList port) with
    | none => none
    | some p =>
      match L.parseIP (String.ofList host) with
      | some ip => some (ip, p)
      | none => (L.lookup (String.ofList host)).map fun ip => (ip, p)

/-- The text that is resolved (client/client.go:317-326 and 462-468); `remote` is `t.conn.RemoteAddr().String()`. -/
def clientDial (L : NetLib) (remote : String) (port : Int) : String :=
  let four := match L.parseIP remote with
    | none => false
    | some ip => isTo4 ip
  if four = false then "[" ++ remote ++ "]" ++ ":" ++ toString port else remote ++ ":" ++ toString port

/-- `cput` (client/client.go:290-438) with the outcome of resolving worked out. -/
def dialPut (L : NetLib) (remote : String) (port : Int) (p : PutStart) (numbers : String → Bool)
    (events : List PutEvent) : Out (Option String) :=
  cput { p with resolved := (resolveUDP L (clientDial L remote port)).isSome } numbers events

/-- `cputrm` (client/client.go:508-527) likewise. -/
def dialPutrm (L : NetLib) (remote : String) (port : Int) (p : PutStart) (numbers : String → Bool)
    (events : List PutEvent) (removes : Bool) : Out (Option (String × Bool)) :=
  cputrm { p with resolved := (resolveUDP L (clientDial L remote port)).isSome } numbers events removes

/-- `cputblind` (client/client.go:441-505): the word it reports, and whether it has handed metadata to the connection.
It makes no request, those entries of `p` are not used. -/
def dialPutblind (L : NetLib) (remote : String) (port : Int) (p : PutStart) : String × Bool :=
  if !p.opened then ("filenotfound", false)
  else if !p.seeked then ("badoffset", false)
  else if (resolveUDP L (clientDial L remote port)).isNone then ("cantsend", false)
  else if !p.dialled then ("cantsend", false)
  else if !p.metadata then ("badrequest", false)
  else if p.metadataSent ≠ "success" then (p.metadataSent, true)
  else ("success", true)

/-- `Doclient` (client/client.go:240-256) with `clienthandler` (client/client.go:265-276): the word it passes on, or
`none` while it waits. -/
def doclient (L : NetLib) (remote : String) (port : Int) (p : PutStart) (numbers : String → Bool)
    (events : List PutEvent) (removes : Bool) (ttype : String) : Out (Option String) :=
  if ttype ∈ tTypes then
    if ttype = "put" then dialPut L remote port p numbers events
    else if ttype = "putrm" then do
      let r ← dialPutrm L remote port p numbers events removes
      .ret (r.map (·.1))
    else if ttype = "putblind" then .ret (some (dialPutblind L remote port p).1)
    else .ret (some "undefined")
  else .ret (some "undefined")

end Saratoga
