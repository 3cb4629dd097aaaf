import Verif.Model.TranCmds
/-!
# Model of what the transfer commands print, `NewInitiator` included (`sarwin/sarwin.go` lines 922-986)

`Model/TranCmds.lean` has what the handlers print themselves. Here are the lines of `NewInitiator`, each with what it
tells; their wording and the texts of errors are left out.
-/
namespace Saratoga

/-- A line of `NewInitiator`: no connection (929), a transfer that cannot be removed (932), the file is here already
(940), such a transfer is there already (947), the peer cannot be dialled (966), the file cannot be opened (972) or
looked at (975), and the transfer is added (985) (sarwin/sarwin.go:921-986). -/
inductive Note where
  | noConnection (peer : UDPAddr)
  | cannotRemove (session : BitVec 32)
  | alreadyHere (fname : List Byte)
  | inProgress (fname : List Byte) (peer : UDPAddr)
  | cannotDial (peer : UDPAddr)
  | cannotOpen
  | cannotLook
  | added (ttype : String) (peer : UDPAddr) (fname : List Byte)
deriving DecidableEq, Repr

/-- A line that is printed if something went wrong (sarwin/sarwin.go:921-986). -/
def noteIf (failed : Bool) (n : Note) : List Note := if failed then [n] else []

/-- Whether `FileMeta` answered with an error (fileio/fileio.go:173-208). -/
def lookFailed : Out (Except Err FileInfo) → Bool
  | .ret (.error _) => true
  | _ => false

/-- The lines of `NewInitiator` when it returns (sarwin/sarwin.go:922-986). -/
def initiateNotes (env : TranEnv) (w : TranWorld) (ttype : String) (peer : UDPAddr) (fname : List Byte) : List Note :=
  match scanTransfers env w.fs ttype peer fname w.transfers with
  | .noConnection i => .noConnection peer :: noteIf (i.remove env.str w.transfers).2.isSome (.cannotRemove i.session)
  | .fileExists => [.alreadyHere fname]
  | .inProgress => [.inProgress fname peer]
  | .clear =>
    noteIf (match env.dial peer with | .error _ => true | .ok _ => false) (.cannotDial peer) ++
    noteIf (match (fileOpen env.sardir w.fs fname ttype).2 with | .error _ => true | .ok _ => false) .cannotOpen ++
    noteIf (lookFailed (env.file.fileMeta fname)) .cannotLook ++ [.added ttype peer fname]

/-- All that a transfer command prints before it returns or waits: the lines of `NewInitiator`, if it is called
(host and file are given and the host is an address, in the seven commands that start transfers), and its own
(sarwin/sarwin.go:921-986, 1578-2076). -/
def said (E : CmdEnv) (w : TranWorld) (name : String) (args : List String) (replies : List CmdReply) :
    List (Note ⊕ CmdReply) :=
  (match args with
    | [_, a, f] =>
      if name = "tran" ∨ name = "files" then []
      else match E.address a with
        | .ok u => (initiateNotes E.env w name u (utf8 f)).map .inl
        | .error _ => []
    | _ => []) ++ replies.map .inr

end Saratoga
