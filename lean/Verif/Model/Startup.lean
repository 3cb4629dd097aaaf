import Verif.Model.Cliflags
import Verif.Model.Files
import Verif.Model.Sarnet
import Verif.Model.MainLoop
/-!
# Model of `main` up to its loop (`saratoga/saratoga.go` lines 439-592)

What is printed is left out.
-/
namespace Saratoga

/-- What a socket is opened for: the interface, the group and the port (saratoga/saratoga.go:531-560). -/
structure Membership where
  iface : String
  group : List Byte
  port : Int
deriving DecidableEq, Repr

/-- What `main` finds: the answers of the operating system and of the libraries. -/
structure Host where
  fs : FS
  /-- `ReadConfig` of a file. -/
  config : String → Out (Except Err Cliflags)
  /-- The MTU of an interface, if there is one of this name. -/
  iface : String → Option Nat
  /-- `gocui.NewGui`, `net.Interfaces` and `Keybindings` succeed. -/
  gui : Bool
  interfaces : Bool
  keys : Bool
  /-- `net.ParseIP`. -/
  parseIP : String → Option (List Byte)
  /-- `net.ListenMulticastUDP`: the local address as text. -/
  join : Fam → Membership → Option String
  /-- The socket options `SetMulticastLoop` sets. -/
  option : Fam → McastFamily → Bool

/-- The program at its loop: its file system and working directory, the settings, the MTU, and the groups joined
(saratoga/saratoga.go:582-605). -/
structure Running where
  fs : FS
  settings : Cliflags
  mtu : Nat
  groups : List (Fam × Membership)

/-- A listening socket (saratoga/saratoga.go:532-545 and 547-560). `ListenMulticastUDP` refuses to listen without an
address; `SetMulticastLoop` (sarnet/sarnet.go:102-124) looks at the text of the local address. -/
def openGroup (h : Host) (fam : Fam) (iface : String) (group : String) (port : Int) : Out Membership :=
  match h.parseIP group with
  | none => .fatal
  | some ip =>
    match h.join fam ⟨iface, ip, port⟩ with
    | none => .fatal
    | some local_ =>
      if mcastFamily local_ ≠ .bad ∧ h.option fam (mcastFamily local_) = true then .ret ⟨iface, ip, port⟩ else .fatal

/-- `main` up to line 592 (saratoga/saratoga.go:439-592): `none` if it returns with a message. -/
def start (h : Host) (args : List String) : Out (Option Running) :=
  match args with
  | [_, file, name] => do
    match ← h.config file with
    | .error _ => pure none
    | .ok c =>
      match h.fs.chdir c.sardir with
      | (_, some _) => .fatal
      | (fs, none) =>
        match fs.stat c.sardir with
        | none => .fatal
        | some _ =>
          match h.iface name with
          | none => .fatal
          | some mtu =>
            if h.gui = false then .fatal
            else if h.interfaces = false then .fatal
            else if h.keys = false then .panic
            else do
              let g6 ← openGroup h .v6 name c.v6multicast c.port
              let g4 ← openGroup h .v4 name c.v4multicast c.port
              pure (some ⟨fs, c, mtu, [(.v6, g6), (.v4, g4)]⟩)
  | _ => .ret none

end Saratoga
