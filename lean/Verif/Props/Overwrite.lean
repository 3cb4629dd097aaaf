import Verif.Props.Transfers
import Verif.Props.Files
/-! # C89: fetching a file never destroys one that is there

`NewInitiator` looks for the file inside its loop over the transfers that are open. -/
namespace Saratoga

/-- **C89** (partial: only while some transfer is open and only for the types `get`, `getdelete` and `getdir`.)
Fetching a file whose name is taken is refused and changes nothing, provided every transfer has a connection.
Missing for the full C89: the first transfer and `take`, see `C89_destroyed`. -/
theorem C89_kept_partial (env : TranEnv) (c : Cliflags) (w : TranWorld) (ttype : String) (peer : UDPAddr)
    (fname : List Byte) (open' : w.transfers ≠ []) (conns : ∀ i ∈ w.transfers, i.conn ≠ none)
    (ht : ttype ∈ ["get", "getdelete", "getdir"])
    (there : ∃ n, w.fs.stat (fullName env.sardir fname) = some n ∧ n ≠ .other) :
    ∃ e, newInitiator env c w ttype peer fname = .ret (w, .error e) := by
  have ex : fileExists env.sardir w.fs fname = true := by
    obtain ⟨n, hn, ho⟩ := there
    unfold fileExists
    rw [hn]
    cases n with
    | dir => rfl
    | file _ => rfl
    | other => exact absurd rfl ho
  have : scanTransfers env w.fs ttype peer fname w.transfers = .fileExists := by
    match h : w.transfers, open' with
    | i :: rest, _ =>
      simp only [scanTransfers]
      rw [if_neg (conns i (by rw [h]; exact List.mem_cons_self)), if_pos ⟨ex, by simpa using ht⟩]
  exact ⟨_, by unfold newInitiator; rw [this]⟩

example := C89_kept_partial exampleEnv shippedSettings ⟨[{ Transfer.zero with conn := some "b", peer := hostB }], 5, exampleFS⟩
  "get" hostA [1] (by simp) (by simp) (by decide)

/-- **C89** is false: with no transfer open `get`, and at any time `take`, cuts a file that is there to
nothing, whatever it held, and goes ahead. (Unless the operating system refuses or the doubled name exists, see
C55.) -/
theorem C89_destroyed (env : TranEnv) (c : Cliflags) (w w' : TranWorld) (ttype : String) (peer : UDPAddr)
    (fname : List Byte) (t : Transfer) (l : Loc) (content : List Byte)
    (which : ttype = "get" ∧ w.transfers = [] ∨ ttype = "take")
    (hl : w.fs.locate (fullName env.sardir fname) = some l) (hn : w.fs.node l = some (.file content))
    (hr : w.fs.refuses .create l = false)
    (hx : fileExists env.sardir w.fs (fullName env.sardir fname) = false)
    (started : newInitiator env c w ttype peer fname = .ret (w', .ok t)) :
    w'.fs.node l = some (.file []) := by
  rcases newInitiator_ret started with ⟨-, -, -, e, he⟩ | ⟨-, t', -, add⟩
  · cases he
  obtain ⟨h, -, -, cut⟩ := C55_overwrites env.sardir fname w.fs ttype l content
    (which.imp (·.1) id) hl hn hr hx
  unfold addInitiator at add
  dsimp only at add
  obtain ⟨fm, -, add⟩ := Out.bind_eq_ret add
  split at add
  · cases add
  · cases add; exact cut

/-- The transfer of the witness: `get` and `take` of a file of two bytes, the second with another transfer
open. -/
theorem C89_counterexample :
    ∃ env c, exFS.node [[0x64#8], [0x66#8]] = some (.file [7#8, 8#8]) ∧
      (∃ w' t, newInitiator env c ⟨[], 0, exFS⟩ "get" hostA exName = .ret (w', .ok t) ∧
        w'.fs.node [[0x64#8], [0x66#8]] = some (.file [])) ∧
      (∃ w' t, newInitiator env c ⟨[{ Transfer.zero with conn := some "b", peer := hostB }], 5, exFS⟩ "take" hostA
          exName = .ret (w', .ok t) ∧
        w'.fs.node [[0x64#8], [0x66#8]] = some (.file [])) := by
  refine ⟨exampleEnv, shippedSettings, rfl, ⟨_, _, rfl, rfl⟩, ⟨_, _, rfl, rfl⟩⟩

/-- And the protected case: `get` with another transfer open. -/
example : ∃ e, newInitiator exampleEnv shippedSettings
    ⟨[{ Transfer.zero with conn := some "b", peer := hostB }], 5, exFS⟩ "get" hostA exName =
      .ret (⟨[{ Transfer.zero with conn := some "b", peer := hostB }], 5, exFS⟩, .error e) := ⟨_, rfl⟩

end Saratoga
