import Verif.Props.Client
/-! # How the sending of a file ends -/
namespace Saratoga

/-- The words with which `senddata` takes its leave. -/
def leaveWords : List String := ["accessdenied", "badpacket", "success"]

/-- Either it goes on and has said none of these words, or it has returned, and what it said last, and only that, is
one of them. -/
def Sending.Orderly (s : Sending) : Prop :=
  (s.done = false ∧ ∀ w ∈ s.answers, w ∉ leaveWords) ∨
  (s.done = true ∧ ∃ before w, s.answers = before ++ [w] ∧ w ∈ leaveWords ∧ ∀ x ∈ before, x ∉ leaveWords)

theorem sendRound_orderly (T : Tables) (E : SendEnv) (own : ∀ i, E.write i = "success" ∨ E.write i ∉ leaveWords)
    (file : List Byte) (plen : Nat) (session : BitVec 32) (i : Nat) (s s' : Sending) (goes : s.done = false)
    (ok : s.Orderly) (h : sendRound T E file plen session i s = .ret s') : s'.Orderly := by
  have quiet : ∀ w ∈ s.answers, w ∉ leaveWords := by
    rcases ok with ⟨_, q⟩ | ⟨d, _⟩
    · exact q
    · rw [goes] at d; cases d
  unfold sendRound at h
  split at h
  · cases h
    exact .inr ⟨rfl, s.answers, "accessdenied", rfl, by decide, quiet⟩
  · obtain ⟨flags, _, h⟩ := Out.bind_eq_ret h
    obtain ⟨flags', _, h⟩ := Out.bind_eq_ret h
    obtain ⟨⟨d, e⟩, _, h⟩ := Out.bind_eq_ret h
    cases e with
    | some e =>
      cases h
      exact .inr ⟨rfl, s.answers, "badpacket", rfl, by decide, quiet⟩
    | none =>
      obtain ⟨_, _, h⟩ := Out.bind_eq_ret h
      have still : ∀ w ∈ (if E.write i = "success" then s.answers else s.answers ++ [E.write i]), w ∉ leaveWords := by
        intro w hw
        split at hw
        · exact quiet w hw
        · rename_i bad
          rcases List.mem_append.1 hw with hw | hw
          · exact quiet w hw
          · rw [List.mem_singleton.1 hw]
            exact (own i).resolve_left bad
      injection h with h
      subst h
      by_cases eod : ((file.drop s.pos.toNat).take plen).length < plen
      · refine .inr ⟨?_, (if E.write i = "success" then s.answers else s.answers ++ [E.write i]), "success", ?_, by decide, still⟩
        · exact decide_eq_true eod
        · exact if_pos (decide_eq_true eod)
      · refine .inl ⟨decide_eq_false eod, ?_⟩
        intro w hw
        refine still w ?_
        have no : ¬ decide (((file.drop s.pos.toNat).take plen).length < plen) = true := by
          rw [decide_eq_false eod]; decide
        rwa [show (if decide (((file.drop s.pos.toNat).take plen).length < plen) = true
            then (if E.write i = "success" then s.answers else s.answers ++ [E.write i]) ++ ["success"]
            else (if E.write i = "success" then s.answers else s.answers ++ [E.write i])) =
              (if E.write i = "success" then s.answers else s.answers ++ [E.write i]) from if_neg no] at hw

theorem sendRounds_orderly (T : Tables) (E : SendEnv) (own : ∀ i, E.write i = "success" ∨ E.write i ∉ leaveWords)
    (file : List Byte) (plen : Nat) (session : BitVec 32) : ∀ (n i : Nat) (s s' : Sending), s.Orderly →
    sendRounds T E file plen session n i s = .ret s' → s'.Orderly
  | 0, _, _, _, ok, h => by cases h; exact ok
  | n + 1, i, s, s', ok, h => by
    unfold sendRounds at h
    split at h
    · cases h; exact ok
    · rename_i goes
      obtain ⟨s₁, h₁, h⟩ := Out.bind_eq_ret h
      exact sendRounds_orderly T E own file plen session n (i + 1) s₁ s'
        (sendRound_orderly T E own file plen session i s s₁ (by simpa using goes) ok h₁) h

/-- **C90** With whatever flag text, file and tables, and whatever reading and writing do: the sender has returned
exactly if it has said `accessdenied`, `badpacket` or `success`; it says one such word at most, and nothing after it.
The words of `frames.UDPWrite` are others; its `success` is not passed on. -/
theorem C90_last_word (T : Tables) (E : SendEnv)
    (own : ∀ i, E.write i = "success" ∨ E.write i ∉ ["accessdenied", "badpacket", "success"]) (mtu : Int)
    (file : List Byte) (session : BitVec 32) (dflags : String) (rounds : Nat) (s : Sending)
    (sent : sendData T E mtu file session dflags rounds = .ret s) :
    (s.done = true ↔ ∃ w ∈ s.answers, w ∈ ["accessdenied", "badpacket", "success"]) ∧
    (∀ before w after, s.answers = before ++ w :: after → w ∈ ["accessdenied", "badpacket", "success"] → after = []) := by
  have ok : s.Orderly := by
    unfold sendData at sent
    obtain ⟨s₀, h₀, sent⟩ := Out.bind_eq_ret sent
    obtain ⟨plen, _, sent⟩ := Out.bind_eq_ret sent
    have start : s₀.Orderly := by
      unfold sendStart at h₀
      obtain ⟨_, _, h₀⟩ := Out.bind_eq_ret h₀
      obtain ⟨_, _, h₀⟩ := Out.bind_eq_ret h₀
      obtain ⟨_, _, h₀⟩ := Out.bind_eq_ret h₀
      cases h₀
      exact .inl ⟨rfl, fun w hw => by cases hw⟩
    split at sent
    · cases sent
    · exact sendRounds_orderly T E own file _ session rounds 0 s₀ s start sent
  rcases ok with ⟨d, q⟩ | ⟨d, before, w, eq, hw, q⟩
  · refine ⟨⟨(fun h => by rw [d] at h; cases h), fun ⟨w, hw, hl⟩ => absurd hl (q w hw)⟩, ?_⟩
    intro b w a eq hl
    exact absurd hl (q w (by rw [eq]; simp))
  · refine ⟨⟨fun _ => ⟨w, by rw [eq]; simp, hw⟩, fun _ => d⟩, ?_⟩
    intro b x a eq' hl
    rw [eq] at eq'
    rcases List.eq_nil_or_concat a with h | ⟨a', y, h⟩
    · exact h
    · exfalso
      rw [h, List.concat_eq_append, ← List.cons_append, ← List.append_assoc] at eq'
      have := (List.append_inj' eq' rfl).1
      exact q x (by rw [this]; simp) hl

/-- The case of a frame that cannot be built: a flag that data frames do not know. Nothing is sent, however long one
waits. -/
example : ∃ s, sendData shipped putEnv 81 [1, 2, 3] 9 "descriptor=d16,csumtype=none" 5 = .ret s ∧ s.done = true ∧
    s.sent = [] ∧ s.answers = ["badpacket"] := by
  refine ⟨_, rfl, ?_⟩
  decide +kernel

end Saratoga
