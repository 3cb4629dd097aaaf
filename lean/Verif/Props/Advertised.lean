import Verif.Props.Willing
/-! # C167: what peers advertise does not decide what the user can start -/
namespace Saratoga

/-- **C167** A line does the same whatever peers have sent: with any other state of the network side but the same files,
it makes the same transfers, settings, session numbers, beacons and exit level, puts the same on the wire, leaves the
same files and does not touch what peers have told. -/
theorem C167_regardless (M : Machine) (o : Replies) (p : Program) (line : String) (n : World) (files : n.fs = p.net.fs)
    (running : ¬ (p.enter M o line).Ended) :
    let q := p.enter M o line
    let q' := { p with net := n }.enter M o line
    q'.table = q.table ∧ q'.settings = q.settings ∧ q'.sessionid = q.sessionid ∧ q'.beacon = q.beacon ∧
      q'.cexit = q.cexit ∧ q'.net.fs = q.net.fs ∧ q'.net.peers = n.peers ∧ q'.net.main = n.main ∧
      { p with net := n }.emits M o line = p.emits M o line := by
  have e : ({ p with net := n } : Program) = p.on n := by
    unfold Program.on; rw [← files]
  have h := enter_on (M := M) (o := o) (line := line) n running
  simp only [e, h]
  exact ⟨rfl, rfl, rfl, rfl, rfl, rfl, rfl, rfl, rfl⟩

/-- **C167, the process.** A line ends the process whatever peers have sent, or never. -/
theorem C167_ends (M : Machine) (o : Replies) (p : Program) (line : String) (n : World) (files : n.fs = p.net.fs)
    (running : ¬ p.Ended) (running' : n.main ≠ .ended) :
    ({ p with net := n }.enter M o line).Ended ↔ (p.enter M o line).Ended := by
  have e : ({ p with net := n } : Program) = p.on n := by
    unfold Program.on; rw [← files]
  constructor
  · intro h
    apply Classical.byContradiction
    intro hn
    rw [e, enter_on n hn] at h
    exact running' h
  · intro h
    apply Classical.byContradiction
    intro hn
    have back : p = ({ p with net := n } : Program).on p.net := by
      unfold Program.on; simp only [files]
    rw [back, enter_on p.net hn] at h
    exact running h

/-- The user enters `put` for a host that has sent these beacons. -/
def putTo (beacons : List (List Byte)) : List Event :=
  beacons.flatMap (fun bytes => [.net (.recv ⟨.v4, ⟨0, 0⟩, bytes, hostA⟩), .net (.takeRx .v4 ⟨5, 0⟩)]) ++
    [.typed "saratoga[0]:put 1.1.1.1 f" calmReplies]

/-- The program of the other examples hearing one host. -/
def heardMachine : Machine := { exampleMachine with S := { shippedSetup with ipText := fun _ => "1.1.1.1" } }

/-- **C167, the unwilling.** A host has told that it receives no files and has no space left, another that it does and
has, a third has told nothing: the same transfer is started with each. -/
theorem C167_unwilling :
    (∃ p, Leads heardMachine exampleFS shippedSettings (putTo [[0x20, 0, 0x40, 0, 0, 0, 104, 105]]) p ∧
      p.net.peers.map (fun x => (x.addr, x.canrx, x.freespace)) = [("1.1.1.1", "no", 0)] ∧
      p.table.map (fun t => (t.ttype, t.conn, t.session)) = [("put", some "1.1.1.1:7542", 42)]) ∧
    (∃ p, Leads heardMachine exampleFS shippedSettings (putTo [[0x20, 3, 0x40, 0, 0xFF, 0xFF, 104, 105]]) p ∧
      p.net.peers.map (fun x => (x.addr, x.canrx, x.freespace)) = [("1.1.1.1", "yes", 65535)] ∧
      p.table.map (fun t => (t.ttype, t.conn, t.session)) = [("put", some "1.1.1.1:7542", 42)]) ∧
    (∃ p, Leads heardMachine exampleFS shippedSettings (putTo []) p ∧ p.net.peers.length = 0 ∧
      p.table.map (fun t => (t.ttype, t.conn, t.session)) = [("put", some "1.1.1.1:7542", 42)]) := by
  refine ⟨willing_shows ?_, willing_shows ?_, willing_shows ?_⟩
  all_goals decide +kernel

/-- The line of the witness does not end the process. -/
example : ∃ p, Leads heardMachine exampleFS shippedSettings (putTo [[0x20, 0, 0x40, 0, 0, 0, 104, 105]]) p ∧ ¬ p.Ended :=
  willing_shows (by decide +kernel)

end Saratoga
