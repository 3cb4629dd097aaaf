import Verif.Model.Opened
/-! # What is open: words for the statements of C156 -/
namespace Saratoga

/-- What is open after these acts, the newest first, if `l` was before. -/
def openAfter (l : List Resource) : List IoAct → List Resource
  | [] => l
  | .opens r :: rest => openAfter (r :: l) rest
  | .closes r :: rest => openAfter (l.erase r) rest

/-- Nothing is closed that is not open. -/
def ClosesOpen (l : List Resource) : List IoAct → Prop
  | [] => True
  | .opens r :: rest => ClosesOpen (r :: l) rest
  | .closes r :: rest => r ∈ l ∧ ClosesOpen (l.erase r) rest

/-- The connection and the file of a transfer. -/
def Transfer.holds (t : Transfer) : List Resource :=
  (match t.conn with
    | some a => [.conn a]
    | none => []) ++
  (match t.fp with
    | some h => [.file h]
    | none => [])

/-- The opening and closing among what `sendbeacons` does. -/
def BeaconIo.ioOnly : List BeaconIo → List IoAct
  | [] => []
  | .io a :: rest => a :: BeaconIo.ioOnly rest
  | .act _ :: rest => BeaconIo.ioOnly rest

/-- The rest of what `sendbeacons` does. -/
def BeaconIo.actOnly : List BeaconIo → List BeaconAct
  | [] => []
  | .io _ :: rest => BeaconIo.actOnly rest
  | .act a :: rest => a :: BeaconIo.actOnly rest

end Saratoga
