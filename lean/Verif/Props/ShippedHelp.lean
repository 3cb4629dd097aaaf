import Verif.Props.Help
import Verif.Props.Config
/-! # C95 for the shipped configuration -/
namespace Saratoga

/-- **C95** With the shipped file, in whatever directory: the commands of the help are the commands that can be typed, each
once; each has a line of help, and its usage begins with its name. -/
theorem C95_shipped (env : List Byte) :
    ∃ l, readConfig intConv id env (FlagType.zero 8) shippedDoc = .ret (l, none) ∧
      (l.commands.map Prod.fst).Nodup ∧ (∀ x, x ∈ l.commands.map Prod.fst ↔ x ∈ shippedCommands) ∧
      ∀ c ∈ l.commands, c.2.help ≠ "" ∧
        (c.2.usage = c.1 ∨ (c.1 ++ " ").toList <+: c.2.usage.toList) := by
  have load : ∃ st, eachMember (loadStep intConv) ⟨Conf.zero, ⟨[], [], FlagType.zero 8, []⟩, []⟩ shippedDoc = .ret st ∧
      firstInvalid st.tables st.conf.global = none ∧ (st.commands.map Prod.fst).Nodup ∧
      ((∀ x ∈ st.commands.map Prod.fst, x ∈ shippedCommands) ∧ ∀ x ∈ shippedCommands, x ∈ st.commands.map Prod.fst) ∧
      ∀ c ∈ st.commands, c.2.help ≠ "" ∧
        (c.2.usage = c.1 ∨ (c.1 ++ " ").toList.isPrefixOf c.2.usage.toList = true) := by
    refine ⟨_, rfl, ?_, ?_, ?_, ?_⟩ <;> decide +kernel
  obtain ⟨st, h, hf, nd, ⟨s1, s2⟩, each⟩ := load
  refine ⟨⟨st.conf.settings env, st.tables, st.commands⟩, ?_, nd, fun x => ⟨s1 x, s2 x⟩, fun c hc => ?_⟩
  · unfold readConfig
    rw [h]
    show Out.ret (_, firstInvalid st.tables st.conf.global) = _
    rw [hf]
  · obtain ⟨a, b⟩ := each c hc
    exact ⟨a, b.imp id List.isPrefixOf_iff_prefix.1⟩

end Saratoga
