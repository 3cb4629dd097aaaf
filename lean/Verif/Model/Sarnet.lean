import Verif.Model.Go
/-! # Model of `sarnet/sarnet.go`

The operating system's and the Go library's part (address printing and resolving, sockets) enters as
parameters. `OutboundIP` and the socket options of `SetMulticastLoop` are not modelled. -/
namespace Saratoga

/-- `net.UDPAddr` (library, used for instance at sarnet/sarnet.go:42-65). -/
structure UDPAddr where
  ip : List Byte
  port : Nat
  zone : String
deriving DecidableEq, Repr

/-- `sarnet.Port` (sarnet/sarnet.go:18), as text (`strconv.Itoa`). -/
def portText : String := "7542"

/-- `strings.Count(s, c)` for a one character text (library, used at sarnet/sarnet.go:31-38). -/
def countChar (s : String) (c : Char) : Nat := (s.toList.filter (· = c)).length

/-- `isIPv4` (sarnet/sarnet.go:31-33). -/
def isIPv4 (address : String) : Bool := countChar address '.' == 3

/-- `isIPv6` (sarnet/sarnet.go:36-38). -/
def isIPv6 (address : String) : Bool := decide (countChar address ':' ≥ 2)

/-- `UDPAddress` (sarnet/sarnet.go:42-57); `resolve` is `net.ResolveUDPAddr("udp", ·)`. -/
def udpAddress (resolve : String → Except Err UDPAddr) (s : String) : Except Err UDPAddr :=
  if isIPv6 s then
    match resolve ("[" ++ s ++ "]" ++ ":" ++ portText) with
    | .ok a => .ok a
    | .error _ => .error "Cannot ResolveUDPAddr"
  else if isIPv4 s then
    match resolve (s ++ ":" ++ portText) with
    | .ok a => .ok a
    | .error _ => .error "Cannot ResolveUDPAddr"
  else .error "Invalid IPAddress"

/-- `removeUDPAddrIndex` (sarnet/sarnet.go:67-71), called with an index in range only. -/
def removeUDPAddrIndex {α : Type} (a : List α) (index : Nat) : List α :=
  a.take index ++ a.drop (index + 1)

theorem removeUDPAddrIndex_length {α : Type} {a : List α} {i : Nat} (h : i < a.length) :
    (removeUDPAddrIndex a i).length < a.length := by
  unfold removeUDPAddrIndex
  simp only [List.length_append, List.length_take, List.length_drop]
  omega

/-- The loop of `RemoveUDPAddrValue` (sarnet/sarnet.go:75-80) from index `i` on, where the call on line
78 is the loop from index 0 on the shortened list. The result carries that it is not longer, which the
recursion needs to be accepted. -/
def removeLoop {α : Type} (same : α → Bool) (a : List α) (i : Nat) : { b : List α // b.length ≤ a.length } :=
  if h : i < a.length then
    if same a[i] then
      match removeLoop same (removeUDPAddrIndex a i) 0 with
      | ⟨b, hb⟩ =>
        match removeLoop same b (i + 1) with
        | ⟨c, hc⟩ => ⟨c, by have := removeUDPAddrIndex_length h; omega⟩
    else removeLoop same a (i + 1)
  else ⟨a, Nat.le_refl _⟩
termination_by (a.length, a.length - i)
decreasing_by
  · exact Prod.Lex.left _ _ (removeUDPAddrIndex_length h)
  · exact Prod.Lex.left _ _ (by have := removeUDPAddrIndex_length h; omega)
  · exact Prod.Lex.right _ (by omega)

/-- `RemoveUDPAddrValue` (sarnet/sarnet.go:74-82): addresses are compared as text. -/
def removeUDPAddrValue (str : UDPAddr → String) (a : List UDPAddr) (val : UDPAddr) : List UDPAddr :=
  (removeLoop (fun x => str x == str val) a 0).1

/-- What `SetMulticastLoop` (sarnet/sarnet.go:100-124) takes the local address for; unlike `UDPAddress`
it looks for dots first. -/
inductive McastFamily where
  | ip4 | ip6 | bad
deriving DecidableEq, Repr

/-- Which socket options are set for an address (sarnet/sarnet.go:102-125). -/
def mcastFamily (addr : String) : McastFamily :=
  if isIPv4 addr then .ip4 else if isIPv6 addr then .ip6 else .bad

end Saratoga
