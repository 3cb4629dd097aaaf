import Verif.Props.Sarnet
import Verif.Props.TranCmds
/-! # The peer a transfer command means -/
namespace Saratoga

/-- **C60** The transfer commands read their peer so: a peer is accepted if and only if its text has one of the two
kinds and the resolver, asked for that kind with the Saratoga port, gives that address. -/
theorem C60_commands (E : CmdEnv) (s : String) (a : UDPAddr) :
    E.address s = .ok a ↔ ∃ k, Kind s k ∧ E.env.resolve (dialText s k) = .ok a :=
  C60_accepted_iff E.env.resolve s a

/-- **C60** A peer of neither kind is refused whatever the resolver would say. -/
theorem C60_commands_refused (E : CmdEnv) (s : String) (neither : ∀ k, ¬ Kind s k) : ∃ e, E.address s = .error e :=
  C60_refused E.env.resolve s neither

example (E : CmdEnv) (a : UDPAddr) (h : E.env.resolve "10.1.2.3:7542" = .ok a) : E.address "10.1.2.3" = .ok a :=
  (C60_commands E _ a).2 ⟨.ip4, by unfold Kind; decide, h⟩

example (E : CmdEnv) : ∃ e, E.address "localhost" = .error e :=
  C60_commands_refused E _ (fun k => by cases k <;> (unfold Kind; decide))

end Saratoga
