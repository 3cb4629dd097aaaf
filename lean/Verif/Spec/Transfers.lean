import Verif.Model.Transfers
/-! # What is said about the transfer table -/
namespace Saratoga

/-- Two transfers are about the same file with the same peer. -/
def SameWork (str : UDPAddr → String) (a b : Transfer) : Prop :=
  a.filename = b.filename ∧ str a.peer = str b.peer

/-- No two transfers at different places of the table are about the same file and peer. -/
def OnePerFile (str : UDPAddr → String) (ts : List Transfer) : Prop :=
  ts.Pairwise fun a b => ¬ SameWork str a b

/-- What a transfer is known by. -/
def Transfer.key (str : UDPAddr → String) (t : Transfer) : Bool × BitVec 32 × String :=
  (t.direction, t.session, str t.peer)

/-- The table without the first entry that has a given key: what a removal should leave. -/
def without (str : UDPAddr → String) (k : Bool × BitVec 32 × String) : List Transfer → List Transfer
  | [] => []
  | t :: rest => if t.key str = k then rest else t :: without str k rest

/-- Program start. -/
def TranWorld.start (fs : FS) : TranWorld := ⟨[], 0, fs⟩

/-- How many transfers a history tries to start. -/
def initiations : List (TranEnv × TranOp) → Nat
  | [] => 0
  | (_, .initiate _ _ _ _) :: rest => initiations rest + 1
  | _ :: rest => initiations rest

/-- `s` is the decimal text of a 32 bit session number: digits only, at least one. -/
def SessionText (s : String) (session : BitVec 32) : Prop :=
  s.toList ≠ [] ∧ (∀ c ∈ s.toList, c.isDigit = true) ∧ Nat.ofDigitChars 10 s.toList 0 = session.toNat

end Saratoga
