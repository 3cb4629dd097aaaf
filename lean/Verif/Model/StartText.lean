import Verif.Model.Startup
/-!
# Model of what `main` prints up to its loop (`saratoga/saratoga.go` lines 439-597)

`Model/Startup.lean` leaves the texts out. What goes to the window `msg` is seen once the loop of the interface runs; what
goes to the standard output or the log at once. What `ReadConfig` prints itself is left out, and so are colours, the date
before a line of the log, and the newline the printing call adds.
-/
namespace Saratoga

/-- Where a text goes: `fmt.Println`, `log`, or the window `msg` (saratoga/saratoga.go:441-597). -/
inductive Spot where
  | out
  | log
  | msg
deriving DecidableEq, Repr

/-- An interface as `net.Interfaces` has it; addresses with their networks (saratoga/saratoga.go:511-531). -/
structure Nic where
  name : String
  mtu : Int
  flags : String
  addrs : List (String × String)
  groups : List (String × String)
deriving DecidableEq, Repr

/-- What the system and the library say (saratoga/saratoga.go:455-597). -/
structure StartFacts where
  nics : List Nic
  /-- The working directory of the configuration as text. -/
  dirText : List Byte → String
  /-- What `Statfs` says: the size of a block and the blocks there are for us. -/
  bsize : BitVec 64
  bavail : BitVec 64
  /-- An address as text, and with a port. -/
  ipText : Option (List Byte) → String
  udpText : Option (List Byte) → Int → String
  /-- The texts of errors: of `InterfaceByName` (which has no name in it), `NewGui`, `Interfaces`, `Keybindings`,
  `ListenMulticastUDP`, `SetMulticastLoop`. -/
  noIface : String
  noWindows : String
  noInterfaces : String
  noKeys : String
  noListen : Fam → String
  noLoop : Fam → String

/-- `strings.Contains` (saratoga/saratoga.go:516, 523): the text is a prefix of the other, or of what is left of it. -/
def hasText (t : List Char) : List Char → Bool
  | [] => t.isPrefixOf []
  | c :: cs => t.isPrefixOf (c :: cs) || hasText t cs

/-- `strings.Contains(network, "ip")` (saratoga/saratoga.go:516, 523). -/
def isIpNet (network : String) : Bool := hasText ['i', 'p'] network.toList

/-- The addresses of the interface asked for (saratoga/saratoga.go:511-531). -/
def nicLines (name : String) (nics : List Nic) : List String :=
  (nics.filter fun n => n.name = name).flatMap fun n =>
    [n.name ++ " MTU " ++ toString n.mtu ++ " " ++ n.flags ++ ":"] ++
    ((n.addrs.filter fun a => isIpNet a.1).map fun a => "\t Unicast " ++ a.2 ++ " " ++ a.1) ++
    ((n.groups.filter fun a => isIpNet a.1).map fun a => "Multicast " ++ a.2 ++ " Net:" ++ a.1)

/-- The free space in MB: a product and two quotients of `uint64` numbers (saratoga/saratoga.go:564-565). -/
def spaceShown (f : StartFacts) : Nat := (f.bsize * f.bavail / 1024#64 / 1024#64).toNat

/-- What is printed once the sockets are open (saratoga/saratoga.go:563-596). `getmaxdesc` (sarflags/sarflags.go:305-317) says
`d64` where an `int` has 64 bits, and the largest numbers are those of such a machine. -/
def readyLines (f : StartFacts) (c : Cliflags) (g6 g4 : Option (List Byte)) : List String :=
  ["Saratoga Directory is " ++ f.dirText c.sardir ++ "\n", "Available space is " ++ toString (spaceShown f) ++ " MB\n",
   "MaxInt=9223372036854775807", "MaxUint=18446744073709551615", "MaxInt16=32767", "MaxUint16=65535",
   "MaxInt32=2147483647", "MaxUint32=4294967295", "MaxInt64=9223372036854775807", "MaxUint64=18446744073709551615",
   "Maximum Descriptor is:d64", "^P - Toggle Packet View", "^Space - Rotate/Change View",
   "Saratoga IPv6 Multicast Listener started on " ++ f.udpText g6 c.port,
   "Saratoga IPv4 Multicast Listener started on " ++ f.udpText g4 c.port]

/-- What a socket that cannot be opened makes `main` print (saratoga/saratoga.go:538-545, 553-560). -/
def groupSays (h : Host) (f : StartFacts) (fam : Fam) (iface group : String) (port : Int) : Option (List (Spot × String)) :=
  let refused := [(Spot.log, "Saratoga Unable to Listen on " ++ (match fam with | .v6 => "IPv6" | .v4 => "IPv4") ++
    " Multicast  " ++ f.ipText (h.parseIP group) ++ "   " ++ toString port), (Spot.log, f.noListen fam)]
  match h.parseIP group with
  | none => some refused
  | some ip =>
    match h.join fam ⟨iface, ip, port⟩ with
    | none => some refused
    | some local_ =>
      if mcastFamily local_ ≠ .bad ∧ h.option fam (mcastFamily local_) = true then none
      else some [(.log, f.noLoop fam)]

/-- What `main` prints up to its loop or its end (saratoga/saratoga.go:439-597). A message about the interface has the
argument before it (485); one about the windows has `err`, which is nil there (495). -/
def mainSays (h : Host) (f : StartFacts) (args : List String) : List (Spot × String) :=
  match args with
  | [_, file, name] =>
    match h.config file with
    | .fatal => []
    | .panic => []
    | .ret (.error e) =>
      [(.out, "Cannot open saratoga config file we have a Readconf error  " ++ file ++ "   " ++ e)]
    | .ret (.ok c) =>
      match h.fs.chdir c.sardir with
      | (_, some _) => [(.log, "no such directory SARDIR=" ++ f.dirText c.sardir)]
      | (fs, none) =>
        match fs.stat c.sardir with
        | none => [(.log, "cannot stat saratoga working directory")]
        | some _ =>
          match h.iface name with
          | none => [(.out, "Saratoga Unable to lookup interfacebyname: " ++ file), (.log, f.noIface)]
          | some _ =>
            if h.gui = false then [(.out, "Cannot run gocui user interface"), (.log, "<nil>")]
            else if h.interfaces = false then [(.out, f.noInterfaces), (.log, f.noInterfaces)]
            else if h.keys = false then [(.log, f.noKeys)]
            else
              (nicLines name f.nics).map (Prod.mk .msg) ++
              match groupSays h f .v6 name c.v6multicast c.port with
              | some says => says
              | none =>
                match groupSays h f .v4 name c.v4multicast c.port with
                | some says => says
                | none => (readyLines f c (h.parseIP c.v6multicast) (h.parseIP c.v4multicast)).map (Prod.mk .msg)
  | _ =>
    [(.out, "usage:saratoga <config> <iface>"),
     (.out, "e.g.: go run saratoga.go saratoga.json en0 (Interface says where to listen for multicast joins")]

end Saratoga
