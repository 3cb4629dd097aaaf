import Verif.Props.Make
/-!
# Exact conditions: the authentication bytes of a request
-/
namespace Saratoga

/-- **C76** exactly: a request carries the authentication bytes it is built with if and only if the variable already had
as many; it always keeps its number of bytes, whatever is given. -/
theorem C76_auth_iff (r x : Request) (text : String) (info : Rinfo)
    (built : r.new shipped text info = .ret (x, none)) :
    (x.auth = info.auth ↔ r.auth.length = info.auth.length) ∧ x.auth.length = r.auth.length ∧
    x.auth = info.auth.take r.auth.length ++ r.auth.drop info.auth.length := by
  unfold Request.new at built
  obtain ⟨h1, a1, built⟩ := Out.bind_eq_ret built
  obtain ⟨h2, a2, built⟩ := Out.bind_eq_ret built
  obtain ⟨⟨d, e⟩, a3, built⟩ := Out.bind_eq_ret built
  cases e with
  | some e => cases built
  | none =>
    cases built
    have same : d.auth = r.auth := by
      refine flagLoop_inv (fun d : Request => d.auth = r.auth) ?_ ?_ a3
      · intro s f s' inv step
        unfold Request.newStep at step
        simp only at step
        split at step
        · obtain ⟨v, b1, step⟩ := Out.bind_eq_ret step
          obtain ⟨g, b2, step⟩ := Out.bind_eq_ret step
          cases step; exact inv
        · obtain ⟨v, b1, step⟩ := Out.bind_eq_ret step
          cases step
      · rfl
    clear a1 a2 a3
    have len : (copyInto d.auth info.auth).length = r.auth.length := by
      simp only [copyInto, same, List.length_append, List.length_take, List.length_drop]
      omega
    refine ⟨⟨fun h => ?_, fun h => ?_⟩, len, by simp only [copyInto, same]⟩
    · rw [← len]; exact congrArg List.length h
    · simp [copyInto, same, h]

/-- A variable with two bytes takes two bytes. -/
example : ∃ x, ({ Request.zero with auth := [1#8, 2#8] }).new shipped "stream=no" ⟨7, [97#8], [8#8, 9#8]⟩ =
    .ret (x, none) ∧ x.auth = [8#8, 9#8] := ⟨_, rfl, rfl⟩

end Saratoga
