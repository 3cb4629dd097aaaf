import Verif.Lemmas.ConfigSteps
/-! # Helper lemmas: what each loop of `ReadConfig` leaves behind -/
namespace Saratoga

variable {F : Type}

theorem ite_ret {α : Type} {c : Prop} [Decidable c] {x y : Out α} {a : α} (h : (if c then x else y) = .ret a) :
    (c ∧ x = .ret a) ∨ (¬ c ∧ y = .ret a) := by
  by_cases e : c
  · rw [if_pos e] at h; exact Or.inl ⟨e, h⟩
  · rw [if_neg e] at h; exact Or.inr ⟨e, h⟩

theorem str_ret {α : Type} {v : Json F} {f : String → α} {a : α}
    (h : (do let s ← v.asStr; pure (f s)) = .ret a) : ∃ s, v = .str s ∧ a = f s := by
  obtain ⟨s, hs, h⟩ := Out.bind_eq_ret h
  cases h
  exact ⟨s, asStr_ret hs, rfl⟩

theorem num_ret {α : Type} {v : Json F} {f : F → α} {a : α}
    (h : (do let s ← v.asNum; pure (f s)) = .ret a) : ∃ s, v = .num s ∧ a = f s := by
  obtain ⟨s, hs, h⟩ := Out.bind_eq_ret h
  cases h
  exact ⟨s, asNum_ret hs, rfl⟩

/-- The ways one turn of the loop can change `conf`. -/
theorem confStep_cases {cv : Conv F} {c c' : Conf} {k : String} {v : Json F}
    (h : confStep cv c k v = .ret c') :
    (k = "v4multicast" ∧ ∃ s, v = .str s ∧ c' = { c with v4multicast := s }) ∨
    (k = "v6multicast" ∧ ∃ s, v = .str s ∧ c' = { c with v6multicast := s }) ∨
    (k = "udpport" ∧ ∃ x, v = .num x ∧ c' = { c with port := cv.int x }) ∨
    (k = "descriptor" ∧ ∃ s, v = .str s ∧ c' = { c with descriptor := s }) ∨
    (k = "csumtype" ∧ ∃ s, v = .str s ∧ c' = { c with csumtype := s }) ∨
    (k = "freespace" ∧ ∃ s, v = .str s ∧ c' = { c with freespace := s }) ∨
    (k = "txwilling" ∧ ∃ s, v = .str s ∧ c' = { c with txwilling := s }) ∨
    (k = "rxwilling" ∧ ∃ s, v = .str s ∧ c' = { c with rxwilling := s }) ∨
    (k = "stream" ∧ ∃ s, v = .str s ∧ c' = { c with stream := s }) ∨
    (k = "reqtstamp" ∧ ∃ s, v = .str s ∧ c' = { c with reqtstamp := s }) ∨
    (k = "reqstatus" ∧ ∃ s, v = .str s ∧ c' = { c with reqstatus := s }) ∨
    (k = "udplite" ∧ ∃ s, v = .str s ∧ c' = { c with udplite := s }) ∨
    (k = "timestamp" ∧ ∃ s, v = .str s ∧ c' = { c with timestamp := s }) ∨
    (k = "timezone" ∧ ∃ s, v = .str s ∧ c' = { c with timezone := s }) ∨
    (k = "sardir" ∧ ∃ s, v = .str s ∧ c' = { c with sardir := s }) ∨
    (k = "prompt" ∧ ∃ s, v = .str s ∧ c' = { c with prompt := s }) ∨
    (k = "ppad" ∧ ∃ x, v = .num x ∧ c' = { c with ppad := cv.int x }) ∨
    (k = "buffersize" ∧ ∃ x, v = .num x ∧ c' = { c with buffersize := cv.int x }) ∨
    (k = "bcount" ∧ ∃ x, v = .num x ∧ c' = { c with bcount := cv.uint x }) ∨
    (k ∉ textNames ∧ k ∉ numberNames ∧ c' = c) := by
  have r := (confStep_retIff cv c k v).ret h
  unfold confStep at h
  rcases ite_ret h with ⟨n0, h⟩ | ⟨n0, h⟩
  · exact Or.inl ⟨n0, str_ret h⟩
  rcases ite_ret h with ⟨n1, h⟩ | ⟨n1, h⟩
  · exact Or.inr <| Or.inl ⟨n1, str_ret h⟩
  rcases ite_ret h with ⟨n2, h⟩ | ⟨n2, h⟩
  · exact Or.inr <| Or.inr <| Or.inl ⟨n2, num_ret h⟩
  rcases ite_ret h with ⟨n3, h⟩ | ⟨n3, h⟩
  · exact Or.inr <| Or.inr <| Or.inr <| Or.inl ⟨n3, str_ret h⟩
  rcases ite_ret h with ⟨n4, h⟩ | ⟨n4, h⟩
  · exact Or.inr <| Or.inr <| Or.inr <| Or.inr <| Or.inl ⟨n4, str_ret h⟩
  rcases ite_ret h with ⟨n5, h⟩ | ⟨n5, h⟩
  · exact Or.inr <| Or.inr <| Or.inr <| Or.inr <| Or.inr <| Or.inl ⟨n5, str_ret h⟩
  rcases ite_ret h with ⟨n6, h⟩ | ⟨n6, h⟩
  · exact Or.inr <| Or.inr <| Or.inr <| Or.inr <| Or.inr <| Or.inr <| Or.inl ⟨n6, str_ret h⟩
  rcases ite_ret h with ⟨n7, h⟩ | ⟨n7, h⟩
  · exact Or.inr <| Or.inr <| Or.inr <| Or.inr <| Or.inr <| Or.inr <| Or.inr <| Or.inl ⟨n7, str_ret h⟩
  rcases ite_ret h with ⟨n8, h⟩ | ⟨n8, h⟩
  · exact Or.inr <| Or.inr <| Or.inr <| Or.inr <| Or.inr <| Or.inr <| Or.inr <| Or.inr <| Or.inl ⟨n8, str_ret h⟩
  rcases ite_ret h with ⟨n9, h⟩ | ⟨n9, h⟩
  · exact Or.inr <| Or.inr <| Or.inr <| Or.inr <| Or.inr <| Or.inr <| Or.inr <| Or.inr <| Or.inr <| Or.inl ⟨n9, str_ret h⟩
  rcases ite_ret h with ⟨n10, h⟩ | ⟨n10, h⟩
  · exact Or.inr <| Or.inr <| Or.inr <| Or.inr <| Or.inr <| Or.inr <| Or.inr <| Or.inr <| Or.inr <| Or.inr <| Or.inl ⟨n10, str_ret h⟩
  rcases ite_ret h with ⟨n11, h⟩ | ⟨n11, h⟩
  · exact Or.inr <| Or.inr <| Or.inr <| Or.inr <| Or.inr <| Or.inr <| Or.inr <| Or.inr <| Or.inr <| Or.inr <| Or.inr <| Or.inl ⟨n11, str_ret h⟩
  rcases ite_ret h with ⟨n12, h⟩ | ⟨n12, h⟩
  · exact Or.inr <| Or.inr <| Or.inr <| Or.inr <| Or.inr <| Or.inr <| Or.inr <| Or.inr <| Or.inr <| Or.inr <| Or.inr <| Or.inr <| Or.inl ⟨n12, str_ret h⟩
  rcases ite_ret h with ⟨n13, h⟩ | ⟨n13, h⟩
  · exact Or.inr <| Or.inr <| Or.inr <| Or.inr <| Or.inr <| Or.inr <| Or.inr <| Or.inr <| Or.inr <| Or.inr <| Or.inr <| Or.inr <| Or.inr <| Or.inl ⟨n13, str_ret h⟩
  rcases ite_ret h with ⟨n14, h⟩ | ⟨n14, h⟩
  · exact Or.inr <| Or.inr <| Or.inr <| Or.inr <| Or.inr <| Or.inr <| Or.inr <| Or.inr <| Or.inr <| Or.inr <| Or.inr <| Or.inr <| Or.inr <| Or.inr <| Or.inl ⟨n14, str_ret h⟩
  rcases ite_ret h with ⟨n15, h⟩ | ⟨n15, h⟩
  · exact Or.inr <| Or.inr <| Or.inr <| Or.inr <| Or.inr <| Or.inr <| Or.inr <| Or.inr <| Or.inr <| Or.inr <| Or.inr <| Or.inr <| Or.inr <| Or.inr <| Or.inr <| Or.inl ⟨n15, str_ret h⟩
  rcases ite_ret h with ⟨n16, h⟩ | ⟨n16, h⟩
  · exact Or.inr <| Or.inr <| Or.inr <| Or.inr <| Or.inr <| Or.inr <| Or.inr <| Or.inr <| Or.inr <| Or.inr <| Or.inr <| Or.inr <| Or.inr <| Or.inr <| Or.inr <| Or.inr <| Or.inl ⟨n16, num_ret h⟩
  rcases ite_ret h with ⟨n17, h⟩ | ⟨n17, h⟩
  · exact Or.inr <| Or.inr <| Or.inr <| Or.inr <| Or.inr <| Or.inr <| Or.inr <| Or.inr <| Or.inr <| Or.inr <| Or.inr <| Or.inr <| Or.inr <| Or.inr <| Or.inr <| Or.inr <| Or.inr <| Or.inl ⟨n17, num_ret h⟩
  rcases ite_ret h with ⟨n18, h⟩ | ⟨n18, h⟩
  · exact Or.inr <| Or.inr <| Or.inr <| Or.inr <| Or.inr <| Or.inr <| Or.inr <| Or.inr <| Or.inr <| Or.inr <| Or.inr <| Or.inr <| Or.inr <| Or.inr <| Or.inr <| Or.inr <| Or.inr <| Or.inr <| Or.inl ⟨n18, num_ret h⟩
  cases h
  refine Or.inr <| Or.inr <| Or.inr <| Or.inr <| Or.inr <| Or.inr <| Or.inr <| Or.inr <| Or.inr <| Or.inr <| Or.inr <| Or.inr <| Or.inr <| Or.inr <| Or.inr <| Or.inr <| Or.inr <| Or.inr <| Or.inr <| ⟨?_, ?_, rfl⟩
  · simp only [textNames, List.mem_cons, List.not_mem_nil, or_false]
    intro h
    rcases h with h | h | h | h | h | h | h | h | h | h | h | h | h | h | h <;> contradiction
  · simp only [numberNames, List.mem_cons, List.not_mem_nil, or_false]
    intro h
    rcases h with h | h | h | h <;> contradiction

/-- What `rcases` needs for the cases above. -/
macro "conf_hit" : tactic => `(tactic|
  (intro c v c' h
   rcases confStep_cases h with ⟨hk, s, hv, hc⟩ | ⟨hk, s, hv, hc⟩ | ⟨hk, s, hv, hc⟩ | ⟨hk, s, hv, hc⟩ | ⟨hk, s, hv, hc⟩ | ⟨hk, s, hv, hc⟩ | ⟨hk, s, hv, hc⟩ | ⟨hk, s, hv, hc⟩ | ⟨hk, s, hv, hc⟩ | ⟨hk, s, hv, hc⟩ | ⟨hk, s, hv, hc⟩ | ⟨hk, s, hv, hc⟩ | ⟨hk, s, hv, hc⟩ | ⟨hk, s, hv, hc⟩ | ⟨hk, s, hv, hc⟩ | ⟨hk, s, hv, hc⟩ | ⟨hk, s, hv, hc⟩ | ⟨hk, s, hv, hc⟩ | ⟨hk, s, hv, hc⟩ | ⟨hk, hk', hc⟩
   all_goals first
     | exact absurd hk (by decide)
     | exact absurd hk' (by decide)
     | (subst hv; subst hc; rfl)))

macro "conf_miss" : tactic => `(tactic|
  (intro c k v c' ne h
   rcases confStep_cases h with ⟨hk, s, hv, hc⟩ | ⟨hk, s, hv, hc⟩ | ⟨hk, s, hv, hc⟩ | ⟨hk, s, hv, hc⟩ | ⟨hk, s, hv, hc⟩ | ⟨hk, s, hv, hc⟩ | ⟨hk, s, hv, hc⟩ | ⟨hk, s, hv, hc⟩ | ⟨hk, s, hv, hc⟩ | ⟨hk, s, hv, hc⟩ | ⟨hk, s, hv, hc⟩ | ⟨hk, s, hv, hc⟩ | ⟨hk, s, hv, hc⟩ | ⟨hk, s, hv, hc⟩ | ⟨hk, s, hv, hc⟩ | ⟨hk, s, hv, hc⟩ | ⟨hk, s, hv, hc⟩ | ⟨hk, s, hv, hc⟩ | ⟨hk, s, hv, hc⟩ | ⟨hk, hk', hc⟩
   all_goals first
     | (subst hc; rfl)
     | exact absurd hk ne))

/-- The members that the big loop treats itself. -/
def objectNames : List String := ["timeout", "commands", "frameflags", "flags", "direntflags", "timestamps"]

theorem loadStep_conf {cv : Conv F} {st st' : Loading} {k : String} {v : Json F}
    (h : loadStep cv st k v = .ret st') :
    (k ∈ objectNames ∧ { st'.conf with timeout := st.conf.timeout } = st.conf) ∨
    (k ∉ objectNames ∧ confStep cv st.conf k v = .ret st'.conf ∧ st'.tables = st.tables ∧
      st'.commands = st.commands) := by
  unfold loadStep at h
  rcases ite_ret h with ⟨n0, h⟩ | ⟨n0, h⟩
  · left
    obtain ⟨m, _, h⟩ := Out.bind_eq_ret h
    obtain ⟨t, _, h⟩ := Out.bind_eq_ret h
    cases h
    exact ⟨by rw [n0]; decide, rfl⟩
  rcases ite_ret h with ⟨n1, h⟩ | ⟨n1, h⟩
  · left
    obtain ⟨m, _, h⟩ := Out.bind_eq_ret h
    obtain ⟨t, _, h⟩ := Out.bind_eq_ret h
    cases h
    exact ⟨by rw [n1]; decide, rfl⟩
  rcases ite_ret h with ⟨n2, h⟩ | ⟨n2, h⟩
  · left
    obtain ⟨m, _, h⟩ := Out.bind_eq_ret h
    obtain ⟨t, _, h⟩ := Out.bind_eq_ret h
    cases h
    exact ⟨by rw [n2]; decide, rfl⟩
  rcases ite_ret h with ⟨n3, h⟩ | ⟨n3, h⟩
  · left
    obtain ⟨m, _, h⟩ := Out.bind_eq_ret h
    obtain ⟨t, _, h⟩ := Out.bind_eq_ret h
    cases h
    exact ⟨by rw [n3]; decide, rfl⟩
  rcases ite_ret h with ⟨n4, h⟩ | ⟨n4, h⟩
  · left
    obtain ⟨m, _, h⟩ := Out.bind_eq_ret h
    obtain ⟨t, _, h⟩ := Out.bind_eq_ret h
    cases h
    exact ⟨by rw [n4]; decide, rfl⟩
  rcases ite_ret h with ⟨n5, h⟩ | ⟨n5, h⟩
  · left
    obtain ⟨m, _, h⟩ := Out.bind_eq_ret h
    obtain ⟨t, _, h⟩ := Out.bind_eq_ret h
    cases h
    exact ⟨by rw [n5]; decide, rfl⟩
  right
  obtain ⟨c, hc, h⟩ := Out.bind_eq_ret h
  cases h
  refine ⟨?_, hc, rfl, rfl⟩
  simp only [objectNames, List.mem_cons, List.not_mem_nil, or_false]
  intro h
  rcases h with h | h | h | h | h | h <;> contradiction

/-- A part of `conf` that only the member `κ` writes. -/
theorem load_conf_read {α : Type} (cv : Conv F) (p : Conf → α) (κ : String) (rd : Json F → Out α)
    (hκ : κ ∉ objectNames)
    (ht : ∀ c t, p { c with timeout := t } = p c)
    (hit : ∀ c v c', confStep cv c κ v = .ret c' → rd v = .ret (p c'))
    (miss : ∀ c k v c', k ≠ κ → confStep cv c k v = .ret c' → p c' = p c)
    {doc : List (String × Json F)} (d : DistinctNames doc) {st st' : Loading}
    (h : eachMember (loadStep cv) st doc = .ret st') :
    match assoc κ doc with
    | some v => rd v = .ret (p st'.conf)
    | none => p st'.conf = p st.conf := by
  refine eachMember_read (fun st : Loading => p st.conf) κ (fun _ v => rd v) ?_ ?_ d h
  · intro s v s' hs
    rcases loadStep_conf hs with ⟨hk, _⟩ | ⟨_, hs, _⟩
    · exact absurd hk hκ
    · exact hit _ _ _ hs
  · intro s k v s' ne hs
    rcases loadStep_conf hs with ⟨_, e⟩ | ⟨_, hs, _⟩
    · exact (ht s'.conf s.conf.timeout).symm.trans (congrArg p e)
    · exact miss _ _ _ _ ne hs

theorem load_v4multicast (cv : Conv F) {doc : List (String × Json F)} (d : DistinctNames doc) {st st' : Loading}
    (h : eachMember (loadStep cv) st doc = .ret st') (z : st.conf.v4multicast = "") :
    st'.conf.v4multicast = textOf doc "v4multicast" := by
  have := load_conf_read cv (·.v4multicast) "v4multicast" Json.asStr (by decide) (fun _ _ => rfl) (by conf_hit) (by conf_miss) d h
  unfold textOf
  cases hv : assoc "v4multicast" doc with
  | none => rw [hv] at this; exact this.trans z
  | some v => rw [hv] at this; simp only at this; rw [asStr_ret this]

theorem load_v6multicast (cv : Conv F) {doc : List (String × Json F)} (d : DistinctNames doc) {st st' : Loading}
    (h : eachMember (loadStep cv) st doc = .ret st') (z : st.conf.v6multicast = "") :
    st'.conf.v6multicast = textOf doc "v6multicast" := by
  have := load_conf_read cv (·.v6multicast) "v6multicast" Json.asStr (by decide) (fun _ _ => rfl) (by conf_hit) (by conf_miss) d h
  unfold textOf
  cases hv : assoc "v6multicast" doc with
  | none => rw [hv] at this; exact this.trans z
  | some v => rw [hv] at this; simp only at this; rw [asStr_ret this]

theorem load_descriptor (cv : Conv F) {doc : List (String × Json F)} (d : DistinctNames doc) {st st' : Loading}
    (h : eachMember (loadStep cv) st doc = .ret st') (z : st.conf.descriptor = "") :
    st'.conf.descriptor = textOf doc "descriptor" := by
  have := load_conf_read cv (·.descriptor) "descriptor" Json.asStr (by decide) (fun _ _ => rfl) (by conf_hit) (by conf_miss) d h
  unfold textOf
  cases hv : assoc "descriptor" doc with
  | none => rw [hv] at this; exact this.trans z
  | some v => rw [hv] at this; simp only at this; rw [asStr_ret this]

theorem load_csumtype (cv : Conv F) {doc : List (String × Json F)} (d : DistinctNames doc) {st st' : Loading}
    (h : eachMember (loadStep cv) st doc = .ret st') (z : st.conf.csumtype = "") :
    st'.conf.csumtype = textOf doc "csumtype" := by
  have := load_conf_read cv (·.csumtype) "csumtype" Json.asStr (by decide) (fun _ _ => rfl) (by conf_hit) (by conf_miss) d h
  unfold textOf
  cases hv : assoc "csumtype" doc with
  | none => rw [hv] at this; exact this.trans z
  | some v => rw [hv] at this; simp only at this; rw [asStr_ret this]

theorem load_freespace (cv : Conv F) {doc : List (String × Json F)} (d : DistinctNames doc) {st st' : Loading}
    (h : eachMember (loadStep cv) st doc = .ret st') (z : st.conf.freespace = "") :
    st'.conf.freespace = textOf doc "freespace" := by
  have := load_conf_read cv (·.freespace) "freespace" Json.asStr (by decide) (fun _ _ => rfl) (by conf_hit) (by conf_miss) d h
  unfold textOf
  cases hv : assoc "freespace" doc with
  | none => rw [hv] at this; exact this.trans z
  | some v => rw [hv] at this; simp only at this; rw [asStr_ret this]

theorem load_txwilling (cv : Conv F) {doc : List (String × Json F)} (d : DistinctNames doc) {st st' : Loading}
    (h : eachMember (loadStep cv) st doc = .ret st') (z : st.conf.txwilling = "") :
    st'.conf.txwilling = textOf doc "txwilling" := by
  have := load_conf_read cv (·.txwilling) "txwilling" Json.asStr (by decide) (fun _ _ => rfl) (by conf_hit) (by conf_miss) d h
  unfold textOf
  cases hv : assoc "txwilling" doc with
  | none => rw [hv] at this; exact this.trans z
  | some v => rw [hv] at this; simp only at this; rw [asStr_ret this]

theorem load_rxwilling (cv : Conv F) {doc : List (String × Json F)} (d : DistinctNames doc) {st st' : Loading}
    (h : eachMember (loadStep cv) st doc = .ret st') (z : st.conf.rxwilling = "") :
    st'.conf.rxwilling = textOf doc "rxwilling" := by
  have := load_conf_read cv (·.rxwilling) "rxwilling" Json.asStr (by decide) (fun _ _ => rfl) (by conf_hit) (by conf_miss) d h
  unfold textOf
  cases hv : assoc "rxwilling" doc with
  | none => rw [hv] at this; exact this.trans z
  | some v => rw [hv] at this; simp only at this; rw [asStr_ret this]

theorem load_stream (cv : Conv F) {doc : List (String × Json F)} (d : DistinctNames doc) {st st' : Loading}
    (h : eachMember (loadStep cv) st doc = .ret st') (z : st.conf.stream = "") :
    st'.conf.stream = textOf doc "stream" := by
  have := load_conf_read cv (·.stream) "stream" Json.asStr (by decide) (fun _ _ => rfl) (by conf_hit) (by conf_miss) d h
  unfold textOf
  cases hv : assoc "stream" doc with
  | none => rw [hv] at this; exact this.trans z
  | some v => rw [hv] at this; simp only at this; rw [asStr_ret this]

theorem load_reqtstamp (cv : Conv F) {doc : List (String × Json F)} (d : DistinctNames doc) {st st' : Loading}
    (h : eachMember (loadStep cv) st doc = .ret st') (z : st.conf.reqtstamp = "") :
    st'.conf.reqtstamp = textOf doc "reqtstamp" := by
  have := load_conf_read cv (·.reqtstamp) "reqtstamp" Json.asStr (by decide) (fun _ _ => rfl) (by conf_hit) (by conf_miss) d h
  unfold textOf
  cases hv : assoc "reqtstamp" doc with
  | none => rw [hv] at this; exact this.trans z
  | some v => rw [hv] at this; simp only at this; rw [asStr_ret this]

theorem load_reqstatus (cv : Conv F) {doc : List (String × Json F)} (d : DistinctNames doc) {st st' : Loading}
    (h : eachMember (loadStep cv) st doc = .ret st') (z : st.conf.reqstatus = "") :
    st'.conf.reqstatus = textOf doc "reqstatus" := by
  have := load_conf_read cv (·.reqstatus) "reqstatus" Json.asStr (by decide) (fun _ _ => rfl) (by conf_hit) (by conf_miss) d h
  unfold textOf
  cases hv : assoc "reqstatus" doc with
  | none => rw [hv] at this; exact this.trans z
  | some v => rw [hv] at this; simp only at this; rw [asStr_ret this]

theorem load_udplite (cv : Conv F) {doc : List (String × Json F)} (d : DistinctNames doc) {st st' : Loading}
    (h : eachMember (loadStep cv) st doc = .ret st') (z : st.conf.udplite = "") :
    st'.conf.udplite = textOf doc "udplite" := by
  have := load_conf_read cv (·.udplite) "udplite" Json.asStr (by decide) (fun _ _ => rfl) (by conf_hit) (by conf_miss) d h
  unfold textOf
  cases hv : assoc "udplite" doc with
  | none => rw [hv] at this; exact this.trans z
  | some v => rw [hv] at this; simp only at this; rw [asStr_ret this]

theorem load_timestamp (cv : Conv F) {doc : List (String × Json F)} (d : DistinctNames doc) {st st' : Loading}
    (h : eachMember (loadStep cv) st doc = .ret st') (z : st.conf.timestamp = "") :
    st'.conf.timestamp = textOf doc "timestamp" := by
  have := load_conf_read cv (·.timestamp) "timestamp" Json.asStr (by decide) (fun _ _ => rfl) (by conf_hit) (by conf_miss) d h
  unfold textOf
  cases hv : assoc "timestamp" doc with
  | none => rw [hv] at this; exact this.trans z
  | some v => rw [hv] at this; simp only at this; rw [asStr_ret this]

theorem load_timezone (cv : Conv F) {doc : List (String × Json F)} (d : DistinctNames doc) {st st' : Loading}
    (h : eachMember (loadStep cv) st doc = .ret st') (z : st.conf.timezone = "") :
    st'.conf.timezone = textOf doc "timezone" := by
  have := load_conf_read cv (·.timezone) "timezone" Json.asStr (by decide) (fun _ _ => rfl) (by conf_hit) (by conf_miss) d h
  unfold textOf
  cases hv : assoc "timezone" doc with
  | none => rw [hv] at this; exact this.trans z
  | some v => rw [hv] at this; simp only at this; rw [asStr_ret this]

theorem load_sardir (cv : Conv F) {doc : List (String × Json F)} (d : DistinctNames doc) {st st' : Loading}
    (h : eachMember (loadStep cv) st doc = .ret st') (z : st.conf.sardir = "") :
    st'.conf.sardir = textOf doc "sardir" := by
  have := load_conf_read cv (·.sardir) "sardir" Json.asStr (by decide) (fun _ _ => rfl) (by conf_hit) (by conf_miss) d h
  unfold textOf
  cases hv : assoc "sardir" doc with
  | none => rw [hv] at this; exact this.trans z
  | some v => rw [hv] at this; simp only at this; rw [asStr_ret this]

theorem load_prompt (cv : Conv F) {doc : List (String × Json F)} (d : DistinctNames doc) {st st' : Loading}
    (h : eachMember (loadStep cv) st doc = .ret st') (z : st.conf.prompt = "") :
    st'.conf.prompt = textOf doc "prompt" := by
  have := load_conf_read cv (·.prompt) "prompt" Json.asStr (by decide) (fun _ _ => rfl) (by conf_hit) (by conf_miss) d h
  unfold textOf
  cases hv : assoc "prompt" doc with
  | none => rw [hv] at this; exact this.trans z
  | some v => rw [hv] at this; simp only at this; rw [asStr_ret this]

theorem load_port (cv : Conv F) {doc : List (String × Json F)} (d : DistinctNames doc) {st st' : Loading}
    (h : eachMember (loadStep cv) st doc = .ret st') (z : st.conf.port = 0) :
    (st'.conf.port : Int) = numberOf (fun x => (cv.int x : Int)) doc "udpport" := by
  have := load_conf_read cv (·.port) "udpport" (fun v => do let x ← v.asNum; pure (cv.int x)) (by decide)
    (fun _ _ => rfl) (by conf_hit) (by conf_miss) d h
  unfold numberOf
  cases hv : assoc "udpport" doc with
  | none => rw [hv] at this; simp only at this ⊢; simp [this, z]
  | some v =>
    rw [hv] at this
    simp only at this
    obtain ⟨x, hx, e⟩ := num_ret this
    rw [hx]; simp only [e]

theorem load_ppad (cv : Conv F) {doc : List (String × Json F)} (d : DistinctNames doc) {st st' : Loading}
    (h : eachMember (loadStep cv) st doc = .ret st') (z : st.conf.ppad = 0) :
    (st'.conf.ppad : Int) = numberOf (fun x => (cv.int x : Int)) doc "ppad" := by
  have := load_conf_read cv (·.ppad) "ppad" (fun v => do let x ← v.asNum; pure (cv.int x)) (by decide)
    (fun _ _ => rfl) (by conf_hit) (by conf_miss) d h
  unfold numberOf
  cases hv : assoc "ppad" doc with
  | none => rw [hv] at this; simp only at this ⊢; simp [this, z]
  | some v =>
    rw [hv] at this
    simp only at this
    obtain ⟨x, hx, e⟩ := num_ret this
    rw [hx]; simp only [e]

theorem load_buffersize (cv : Conv F) {doc : List (String × Json F)} (d : DistinctNames doc) {st st' : Loading}
    (h : eachMember (loadStep cv) st doc = .ret st') (z : st.conf.buffersize = 0) :
    (st'.conf.buffersize : Int) = numberOf (fun x => (cv.int x : Int)) doc "buffersize" := by
  have := load_conf_read cv (·.buffersize) "buffersize" (fun v => do let x ← v.asNum; pure (cv.int x)) (by decide)
    (fun _ _ => rfl) (by conf_hit) (by conf_miss) d h
  unfold numberOf
  cases hv : assoc "buffersize" doc with
  | none => rw [hv] at this; simp only at this ⊢; simp [this, z]
  | some v =>
    rw [hv] at this
    simp only at this
    obtain ⟨x, hx, e⟩ := num_ret this
    rw [hx]; simp only [e]

theorem load_bcount (cv : Conv F) {doc : List (String × Json F)} (d : DistinctNames doc) {st st' : Loading}
    (h : eachMember (loadStep cv) st doc = .ret st') (z : st.conf.bcount = 0) :
    (st'.conf.bcount : Int) = numberOf (fun x => (cv.uint x : Int)) doc "bcount" := by
  have := load_conf_read cv (·.bcount) "bcount" (fun v => do let x ← v.asNum; pure (cv.uint x)) (by decide)
    (fun _ _ => rfl) (by conf_hit) (by conf_miss) d h
  unfold numberOf
  cases hv : assoc "bcount" doc with
  | none => rw [hv] at this; simp only at this ⊢; simp [this, z]
  | some v =>
    rw [hv] at this
    simp only at this
    obtain ⟨x, hx, e⟩ := num_ret this
    rw [hx]; simp only [e]

/-! ## The objects inside the document -/

/-- A part of the state that only the object `κ` writes, starting from its old value. -/
theorem load_obj_read {σ : Type} (cv : Conv F) (p : Loading → σ) (κ : String)
    (f : σ → String → Json F → Out σ)
    (hit : ∀ st v st', loadStep cv st κ v = .ret st' →
      ∃ m, v = .obj m ∧ eachMember f (p st) m = .ret (p st'))
    (miss : ∀ st k v st', k ≠ κ → loadStep cv st k v = .ret st' → p st' = p st)
    {doc : List (String × Json F)} (d : DistinctNames doc) {st st' : Loading}
    (h : eachMember (loadStep cv) st doc = .ret st') :
    eachMember f (p st) (membersOf doc κ) = .ret (p st') := by
  have := eachMember_read p κ (fun x v => do let m ← v.asObj; eachMember f x m) (by
    intro s v s' hs
    obtain ⟨m, hm, e⟩ := hit s v s' hs
    rw [hm]; exact e) miss d h
  unfold membersOf
  cases hv : assoc κ doc with
  | none => rw [hv] at this; simp only at this ⊢; rw [this]; rfl
  | some v =>
    rw [hv] at this
    simp only at this
    obtain ⟨m, hm, e⟩ := Out.bind_eq_ret this
    rw [asObj_ret hm]; exact e

theorem obj_ret {σ τ : Type} {v : Json F} {f : σ → String → Json F → Out σ} {s : σ} {g : σ → τ} {a : τ}
    (h : (do let m ← v.asObj; let x ← eachMember f s m; pure (g x)) = .ret a) :
    ∃ m x, v = .obj m ∧ eachMember f s m = .ret x ∧ a = g x := by
  obtain ⟨m, hm, h⟩ := Out.bind_eq_ret h
  obtain ⟨x, hx, h⟩ := Out.bind_eq_ret h
  cases h
  exact ⟨m, x, asObj_ret hm, hx, rfl⟩

macro "obj_hit" : tactic => `(tactic|
  (intro st v st' h
   unfold loadStep at h
   simp only [String.reduceEq, if_true, if_false] at h
   obtain ⟨m, x, hv, hx, e⟩ := obj_ret h
   subst e
   exact ⟨m, hv, hx⟩))

macro "obj_miss" : tactic => `(tactic|
  (intro st k v st' ne h
   unfold loadStep at h
   rcases ite_ret h with ⟨n, h⟩ | ⟨n, h⟩
   · first | exact absurd n ne | (obtain ⟨m, x, hv, hx, e⟩ := obj_ret h; subst e; rfl)
   rcases ite_ret h with ⟨n, h⟩ | ⟨n, h⟩
   · first | exact absurd n ne | (obtain ⟨m, x, hv, hx, e⟩ := obj_ret h; subst e; rfl)
   rcases ite_ret h with ⟨n, h⟩ | ⟨n, h⟩
   · first | exact absurd n ne | (obtain ⟨m, x, hv, hx, e⟩ := obj_ret h; subst e; rfl)
   rcases ite_ret h with ⟨n, h⟩ | ⟨n, h⟩
   · first | exact absurd n ne | (obtain ⟨m, x, hv, hx, e⟩ := obj_ret h; subst e; rfl)
   rcases ite_ret h with ⟨n, h⟩ | ⟨n, h⟩
   · first | exact absurd n ne | (obtain ⟨m, x, hv, hx, e⟩ := obj_ret h; subst e; rfl)
   rcases ite_ret h with ⟨n, h⟩ | ⟨n, h⟩
   · first | exact absurd n ne | (obtain ⟨m, x, hv, hx, e⟩ := obj_ret h; subst e; rfl)
   obtain ⟨c, hc, h⟩ := Out.bind_eq_ret h
   cases h
   rfl))

theorem load_commands {cv : Conv F} {doc : List (String × Json F)} (d : DistinctNames doc) {st st' : Loading}
    (h : eachMember (loadStep cv) st doc = .ret st') :
    eachMember commandsStep st.commands (membersOf doc "commands") = .ret st'.commands :=
  load_obj_read cv (·.commands) "commands" commandsStep (by obj_hit) (by obj_miss) d h

theorem load_frameflags {cv : Conv F} {doc : List (String × Json F)} (d : DistinctNames doc) {st st' : Loading}
    (h : eachMember (loadStep cv) st doc = .ret st') :
    eachMember frameflagsStep st.tables.frameflags (membersOf doc "frameflags") = .ret st'.tables.frameflags :=
  load_obj_read cv (·.tables.frameflags) "frameflags" frameflagsStep (by obj_hit) (by obj_miss) d h

theorem load_flags {cv : Conv F} {doc : List (String × Json F)} (d : DistinctNames doc) {st st' : Loading}
    (h : eachMember (loadStep cv) st doc = .ret st') :
    eachMember (flagsStep cv) st.tables.flags (membersOf doc "flags") = .ret st'.tables.flags :=
  load_obj_read cv (·.tables.flags) "flags" (flagsStep cv) (by obj_hit) (by obj_miss) d h

theorem load_dirent {cv : Conv F} {doc : List (String × Json F)} (d : DistinctNames doc) {st st' : Loading}
    (h : eachMember (loadStep cv) st doc = .ret st') :
    eachMember (direntStep cv) st.tables.dirent (membersOf doc "direntflags") = .ret st'.tables.dirent :=
  load_obj_read cv (·.tables.dirent) "direntflags" (direntStep cv) (by obj_hit) (by obj_miss) d h

theorem load_ts {cv : Conv F} {doc : List (String × Json F)} (d : DistinctNames doc) {st st' : Loading}
    (h : eachMember (loadStep cv) st doc = .ret st') :
    eachMember (fieldStep cv.u8) st.tables.ts (membersOf doc "timestamps") = .ret st'.tables.ts :=
  load_obj_read cv (·.tables.ts) "timestamps" (fieldStep cv.u8) (by obj_hit) (by obj_miss) d h

theorem load_timeout {cv : Conv F} {doc : List (String × Json F)} (d : DistinctNames doc) {st st' : Loading}
    (h : eachMember (loadStep cv) st doc = .ret st') :
    eachMember (timerStep cv) st.conf.timeout (membersOf doc "timeout") = .ret st'.conf.timeout := by
  refine load_obj_read cv (·.conf.timeout) "timeout" (timerStep cv) (by obj_hit) ?_ d h
  intro st k v st' ne h
  rcases loadStep_conf h with ⟨hk, e⟩ | ⟨_, h, _⟩
  · unfold loadStep at h
    rw [if_neg ne] at h
    simp only [objectNames, List.mem_cons, List.not_mem_nil, or_false] at hk
    rcases hk with hk | hk | hk | hk | hk | hk
    · exact absurd hk ne
    all_goals
      subst hk
      simp only [String.reduceEq, if_true, if_false] at h
      obtain ⟨m, x, hv, hx, e⟩ := obj_ret h
      subst e; rfl
  · revert h
    exact (show ∀ c c' : Conf, confStep cv c k v = .ret c' → c'.timeout = c.timeout by
      intro c c' h
      rcases confStep_cases h with ⟨hk, s, hv, hc⟩ | ⟨hk, s, hv, hc⟩ | ⟨hk, s, hv, hc⟩ | ⟨hk, s, hv, hc⟩ | ⟨hk, s, hv, hc⟩ | ⟨hk, s, hv, hc⟩ | ⟨hk, s, hv, hc⟩ | ⟨hk, s, hv, hc⟩ | ⟨hk, s, hv, hc⟩ | ⟨hk, s, hv, hc⟩ | ⟨hk, s, hv, hc⟩ | ⟨hk, s, hv, hc⟩ | ⟨hk, s, hv, hc⟩ | ⟨hk, s, hv, hc⟩ | ⟨hk, s, hv, hc⟩ | ⟨hk, s, hv, hc⟩ | ⟨hk, s, hv, hc⟩ | ⟨hk, s, hv, hc⟩ | ⟨hk, s, hv, hc⟩ | ⟨hk, hk', hc⟩
      all_goals (subst hc; rfl)) _ _

/-! ## Loops that fill a map -/

/-- A loop that stores one entry for each member. -/
theorem mapLoop_read {β : Type} {f : List (String × β) → String → Json F → Out (List (String × β))}
    {g : Json F → Out β}
    (hf : ∀ s k v s', f s k v = .ret s' → ∃ b, g v = .ret b ∧ s' = mapSet k b s)
    {m : List (String × Json F)} (d : DistinctNames m) {s s' : List (String × β)}
    (h : eachMember f s m = .ret s') (κ : String) :
    match assoc κ m with
    | some v => ∃ b, g v = .ret b ∧ assoc κ s' = some b
    | none => assoc κ s' = assoc κ s := by
  have := eachMember_read (fun s => assoc κ s) κ (fun _ v => do let b ← g v; pure (some b)) (by
    intro s v s' hs
    obtain ⟨b, hb, e⟩ := hf s κ v s' hs
    rw [hb, e, assoc_mapSet, if_pos rfl]; rfl) (by
    intro s k v s' ne hs
    obtain ⟨b, hb, e⟩ := hf s k v s' hs
    rw [e, assoc_mapSet, if_neg (Ne.symm ne)]) d h
  cases hv : assoc κ m with
  | none => rw [hv] at this; exact this
  | some v =>
    rw [hv] at this
    simp only at this
    obtain ⟨b, hb, e⟩ := Out.bind_eq_ret this
    cases hs : assoc κ s' with
    | none => rw [hs] at e; cases e
    | some x => rw [hs] at e; cases e; exact ⟨b, hb, rfl⟩

theorem options_read {w : Nat} {u : F → BitVec w} {m : List (String × Json F)} (d : DistinctNames m)
    {s s' : List (String × BitVec w)} (h : eachMember (optionStep u) s m = .ret s') (o : String) :
    assoc o s' = match assoc o m with | some (.num x) => some (u x) | some _ => none | none => assoc o s := by
  have := mapLoop_read (g := fun v => do let x ← v.asNum; pure (u x)) (by
    intro s k v s' h
    obtain ⟨x, hx, e⟩ := num_ret h
    exact ⟨u x, by rw [hx]; rfl, e⟩) d h o
  cases hv : assoc o m with
  | none => rw [hv] at this; exact this
  | some v =>
    rw [hv] at this
    obtain ⟨b, hb, e⟩ := this
    obtain ⟨x, hx, e2⟩ := num_ret hb
    subst hx; rw [e, e2]

theorem fieldStep_cases {w : Nat} {u : F → BitVec w} {t t' : FlagType w} {k : String} {v : Json F}
    (h : fieldStep u t k v = .ret t') :
    (k = "len" ∧ ∃ x, v = .num x ∧ t' = { t with len := u x }) ∨
    (k = "msb" ∧ ∃ x, v = .num x ∧ t' = { t with msb := u x }) ∨
    (k = "options" ∧ ∃ m os, v = .obj m ∧ eachMember (optionStep u) [] m = .ret os ∧
      t' = { t with options := os }) ∨
    (k ≠ "len" ∧ k ≠ "msb" ∧ k ≠ "options" ∧ t' = t) := by
  unfold fieldStep at h
  rcases ite_ret h with ⟨n1, h⟩ | ⟨n1, h⟩
  · exact Or.inl ⟨n1, num_ret h⟩
  rcases ite_ret h with ⟨n2, h⟩ | ⟨n2, h⟩
  · exact Or.inr (Or.inl ⟨n2, num_ret h⟩)
  rcases ite_ret h with ⟨n3, h⟩ | ⟨n3, h⟩
  · exact Or.inr (Or.inr (Or.inl ⟨n3, obj_ret h⟩))
  · cases h; exact Or.inr (Or.inr (Or.inr ⟨n1, n2, n3, rfl⟩))

/-- A loop whose turns are those of `fieldStep`, or do nothing for other members. -/
theorem field_read {w : Nat} {u : F → BitVec w} {f : FlagType w → String → Json F → Out (FlagType w)}
    (hf : ∀ t k v t', f t k v = .ret t' → fieldStep u t k v = .ret t')
    {m : List (String × Json F)} (pr : (Json.obj m).Proper) {t t' : FlagType w}
    (h : eachMember f t m = .ret t') : FieldFrom u t m t' := by
  obtain ⟨d, inner⟩ : DistinctNames m ∧ ∀ p ∈ m, Json.Proper p.2 := by cases pr; exact ⟨by assumption, by assumption⟩
  refine ⟨?_, ?_, ?_⟩
  · have := eachMember_read (·.len) "len" (fun _ v => do let x ← v.asNum; pure (u x)) (by
      intro s v s' hs
      rcases fieldStep_cases (hf _ _ _ _ hs) with ⟨hk, x, hv, e⟩ | ⟨hk, x, hv, e⟩ | ⟨hk, m, os, hv, ho, e⟩ | ⟨hk, _⟩
      · rw [hv, e]; rfl
      · exact absurd hk (by decide)
      · exact absurd hk (by decide)
      · exact absurd rfl hk) (by
      intro s k v s' ne hs
      rcases fieldStep_cases (hf _ _ _ _ hs) with ⟨hk, x, hv, e⟩ | ⟨hk, x, hv, e⟩ | ⟨hk, m, os, hv, ho, e⟩ | ⟨hk, _, _, e⟩
      · exact absurd hk ne
      all_goals rw [e]) d h
    cases hv : assoc "len" m with
    | none => rw [hv] at this; exact this
    | some v =>
      rw [hv] at this
      obtain ⟨x, hx, e⟩ := num_ret this
      subst hx; exact e
  · have := eachMember_read (·.msb) "msb" (fun _ v => do let x ← v.asNum; pure (u x)) (by
      intro s v s' hs
      rcases fieldStep_cases (hf _ _ _ _ hs) with ⟨hk, x, hv, e⟩ | ⟨hk, x, hv, e⟩ | ⟨hk, m, os, hv, ho, e⟩ | ⟨_, hk, _⟩
      · exact absurd hk (by decide)
      · rw [hv, e]; rfl
      · exact absurd hk (by decide)
      · exact absurd rfl hk) (by
      intro s k v s' ne hs
      rcases fieldStep_cases (hf _ _ _ _ hs) with ⟨hk, x, hv, e⟩ | ⟨hk, x, hv, e⟩ | ⟨hk, m, os, hv, ho, e⟩ | ⟨hk, _, _, e⟩
      · rw [e]
      · exact absurd hk ne
      all_goals rw [e]) d h
    cases hv : assoc "msb" m with
    | none => rw [hv] at this; exact this
    | some v =>
      rw [hv] at this
      obtain ⟨x, hx, e⟩ := num_ret this
      subst hx; exact e
  · intro o
    have := eachMember_read (·.options) "options"
      (fun _ v => do let m ← v.asObj; eachMember (optionStep u) [] m) (by
      intro s v s' hs
      rcases fieldStep_cases (hf _ _ _ _ hs) with ⟨hk, x, hv, e⟩ | ⟨hk, x, hv, e⟩ | ⟨hk, m, os, hv, ho, e⟩ | ⟨_, _, hk, _⟩
      · exact absurd hk (by decide)
      · exact absurd hk (by decide)
      · rw [hv, e]
        exact ho
      · exact absurd rfl hk) (by
      intro s k v s' ne hs
      rcases fieldStep_cases (hf _ _ _ _ hs) with ⟨hk, x, hv, e⟩ | ⟨hk, x, hv, e⟩ | ⟨hk, m, os, hv, ho, e⟩ | ⟨hk, _, _, e⟩
      · rw [e]
      · rw [e]
      · exact absurd hk ne
      · rw [e]) d h
    cases hv : assoc "options" m with
    | none => rw [hv] at this; simp only at this ⊢; rw [this]
    | some v =>
      rw [hv] at this
      obtain ⟨os, hos', hos⟩ := Out.bind_eq_ret this
      have hx := asObj_ret hos'
      subst hx
      have pv := inner _ (mem_of_assoc' hv)
      have dv : DistinctNames os := by cases pv; assumption
      simp only
      rw [options_read dv hos o]
      cases assoc o os with
      | none => rfl
      | some y => cases y <;> rfl

theorem flagStep_field {cv : Conv F} {t t' : FlagType 32} {k : String} {v : Json F}
    (h : flagStep cv t k v = .ret t') : fieldStep cv.u32 t k v = .ret t' := by
  unfold flagStep at h
  rcases ite_ret h with ⟨n, h⟩ | ⟨n, h⟩
  · obtain ⟨l, _, h⟩ := Out.bind_eq_ret h
    obtain ⟨x, _, h⟩ := Out.bind_eq_ret h
    cases h
    subst n
    simp [fieldStep]
  · exact h

theorem proper_members {doc : List (String × Json F)} (pr : (Json.obj doc).Proper) (k : String) :
    (Json.obj (membersOf doc k)).Proper := by
  unfold membersOf
  cases hv : assoc k doc with
  | none => exact .obj (by simp [DistinctNames]) (by simp)
  | some v =>
    cases v with
    | obj m =>
      cases pr with
      | obj d i => exact i _ (mem_of_assoc' hv)
    | null | bool | num | str | arr => exact .obj (by simp [DistinctNames]) (by simp)

theorem Json.Proper.distinct {m : List (String × Json F)} (pr : (Json.obj m).Proper) : DistinctNames m := by
  cases pr; assumption

theorem Json.Proper.inner {m : List (String × Json F)} (pr : (Json.obj m).Proper) {k : String} {v : Json F}
    (h : assoc k m = some v) : v.Proper := by
  cases pr with
  | obj d i => exact i _ (mem_of_assoc' h)

/-- A map of objects. -/
theorem entries_read {β : Type} {f : List (String × β) → String → Json F → Out (List (String × β))}
    {σ : Type} {step : σ → String → Json F → Out σ} {z : σ} {fin : σ → β} {R : List (String × Json F) → β → Prop}
    (hf : ∀ s k v s', f s k v = .ret s' →
      ∃ m x, v = .obj m ∧ eachMember step z m = .ret x ∧ s' = mapSet k (fin x) s)
    (hR : ∀ m x, (Json.obj m).Proper → eachMember step z m = .ret x → R m (fin x))
    {m : List (String × Json F)} (pr : (Json.obj m).Proper) {s' : List (String × β)}
    (h : eachMember f [] m = .ret s') : EntriesFrom R m s' := by
  intro κ
  have := mapLoop_read (g := fun v => do let m ← v.asObj; let x ← eachMember step z m; pure (fin x)) (by
    intro s k v s' hs
    obtain ⟨m, x, hv, hx, e⟩ := hf s k v s' hs
    refine ⟨fin x, ?_, e⟩
    rw [hv]
    show (do let x ← eachMember step z m; pure (fin x)) = _
    rw [hx]; rfl) pr.distinct h κ
  cases hv : assoc κ m with
  | none => rw [hv] at this; exact this
  | some v =>
    rw [hv] at this
    obtain ⟨b, hb, e⟩ := this
    obtain ⟨d, x, hd, hx, e2⟩ := obj_ret hb
    subst hd
    exact ⟨b, e, by rw [e2]; exact hR d x (pr.inner hv) hx⟩

theorem cmd_read {m : List (String × Json F)} (d : DistinctNames m) {c : CmdText}
    (h : eachMember cmdStep ⟨"", ""⟩ m = .ret c) : c.help = textOf m "help" ∧ c.usage = textOf m "usage" := by
  have cs : ∀ (s : CmdText) (k : String) (v : Json F) (s' : CmdText), cmdStep s k v = .ret s' →
      (k = "help" ∧ ∃ t, v = .str t ∧ s' = { s with help := t }) ∨
      (k = "usage" ∧ ∃ t, v = .str t ∧ s' = { s with usage := t }) ∨
      (k ≠ "help" ∧ k ≠ "usage" ∧ s' = s) := by
    intro s k v s' h
    unfold cmdStep at h
    rcases ite_ret h with ⟨n1, h⟩ | ⟨n1, h⟩
    · exact Or.inl ⟨n1, str_ret h⟩
    rcases ite_ret h with ⟨n2, h⟩ | ⟨n2, h⟩
    · exact Or.inr (Or.inl ⟨n2, str_ret h⟩)
    · cases h; exact Or.inr (Or.inr ⟨n1, n2, rfl⟩)
  constructor
  · have := eachMember_read (·.help) "help" (fun _ v => v.asStr) (by
      intro s v s' hs
      rcases cs _ _ _ _ hs with ⟨hk, t, hv, e⟩ | ⟨hk, t, hv, e⟩ | ⟨hk, hk', e⟩
      · rw [hv, e]; rfl
      · exact absurd hk (by decide)
      · exact absurd rfl hk) (by
      intro s k v s' ne hs
      rcases cs _ _ _ _ hs with ⟨hk, t, hv, e⟩ | ⟨hk, t, hv, e⟩ | ⟨hk, hk', e⟩
      · exact absurd hk ne
      · rw [e]
      · rw [e]) d h
    unfold textOf
    cases hv : assoc "help" m with
    | none => rw [hv] at this; exact this
    | some v => rw [hv] at this; simp only at this; rw [asStr_ret this]
  · have := eachMember_read (·.usage) "usage" (fun _ v => v.asStr) (by
      intro s v s' hs
      rcases cs _ _ _ _ hs with ⟨hk, t, hv, e⟩ | ⟨hk, t, hv, e⟩ | ⟨hk, hk', e⟩
      · exact absurd hk (by decide)
      · rw [hv, e]; rfl
      · exact absurd rfl hk') (by
      intro s k v s' ne hs
      rcases cs _ _ _ _ hs with ⟨hk, t, hv, e⟩ | ⟨hk, t, hv, e⟩ | ⟨hk, hk', e⟩
      · rw [e]
      · exact absurd hk ne
      · rw [e]) d h
    unfold textOf
    cases hv : assoc "usage" m with
    | none => rw [hv] at this; exact this
    | some v => rw [hv] at this; simp only at this; rw [asStr_ret this]

theorem appendStrs_texts {l : List (Json F)} {x r : List String} (h : appendStrs x l = .ret r) :
    r = x ++ l.filterMap Json.text? := by
  induction l generalizing x with
  | nil => simp only [appendStrs] at h; cases h; simp
  | cons v l ih =>
    simp only [appendStrs] at h
    obtain ⟨s, hs, h⟩ := Out.bind_eq_ret h
    rw [ih h, asStr_ret hs]
    simp [Json.text?]

theorem frameflags_read {m : List (String × Json F)} (d : DistinctNames m) {ff : List (String × List String)}
    (h : eachMember frameflagsStep [] m = .ret ff) (κ : String) :
    assoc κ ff = if textsOf m κ = [] then none else some (textsOf m κ) := by
  have := eachMember_read (fun s => assoc κ s) κ
    (fun old v => do
      let info ← v.asArr
      let l ← appendStrs (old.getD []) info
      pure (if info = [] then old else some l)) (by
    intro s v s' hs
    unfold frameflagsStep at hs
    obtain ⟨info, hi, hs⟩ := Out.bind_eq_ret hs
    obtain ⟨l, hl, hs⟩ := Out.bind_eq_ret hs
    cases hs
    rw [asArr_ret hi]
    show (do let l ← appendStrs _ info; pure (if info = [] then assoc κ s else some l)) = _
    rw [hl]
    show Out.ret _ = _
    by_cases e : info = []
    · simp only [if_pos e]
    · simp only [if_neg e]; rw [assoc_mapSet, if_pos rfl]) (by
    intro s k v s' ne hs
    unfold frameflagsStep at hs
    obtain ⟨info, hi, hs⟩ := Out.bind_eq_ret hs
    obtain ⟨l, hl, hs⟩ := Out.bind_eq_ret hs
    cases hs
    by_cases e : info = []
    · simp only [if_pos e]
    · simp only [if_neg e]; rw [assoc_mapSet, if_neg (Ne.symm ne)]) d h
  unfold textsOf
  cases hv : assoc κ m with
  | none => rw [hv] at this; exact this
  | some v =>
    rw [hv] at this
    simp only at this
    obtain ⟨info, hi, this⟩ := Out.bind_eq_ret this
    obtain ⟨l, hl, this⟩ := Out.bind_eq_ret this
    rw [asArr_ret hi]
    simp only
    have hl' := appendStrs_texts hl
    simp only [assoc, Option.getD_none, List.nil_append] at hl'
    rw [← hl']
    injection this with this
    rw [← this]
    cases info with
    | nil => simp only [appendStrs] at hl; cases hl; rfl
    | cons a t =>
      have ne : l ≠ [] := by
        have hs := (appendStrs_retIff (F := F) _ _).ret hl a List.mem_cons_self
        obtain ⟨s, hs⟩ := hs
        rw [hl', hs]; simp [Json.text?]
      rw [if_neg ne, if_neg (by simp)]

theorem timers_read {cv : Conv F} {m : List (String × Json F)} (d : DistinctNames m) {t : Timeouts}
    (h : eachMember (timerStep cv) ⟨0, 0, 0, 0, 0, 0⟩ m = .ret t) :
    ∀ p ∈ timerSettings (F := F), p.2.2 t = numberOf (p.2.1 cv) m p.1 := by
  have cs : ∀ (s : Timeouts) (k : String) (v : Json F) (s' : Timeouts), timerStep cv s k v = .ret s' →
      (k = "metadata" ∧ ∃ x, v = .num x ∧ s' = { s with metadata := cv.int x }) ∨
      (k = "request" ∧ ∃ x, v = .num x ∧ s' = { s with request := cv.int x }) ∨
      (k = "status" ∧ ∃ x, v = .num x ∧ s' = { s with status := cv.int x }) ∨
      (k = "transfer" ∧ ∃ x, v = .num x ∧ s' = { s with transfer := cv.int x }) ∨
      (k = "binterval" ∧ ∃ x, v = .num x ∧ s' = { s with binterval := cv.uint x }) ∨
      (k = "datacounter" ∧ ∃ x, v = .num x ∧ s' = { s with datacounter := cv.int x }) ∨
      (k ∉ timerNames ∧ s' = s) := by
    intro s k v s' h
    unfold timerStep at h
    rcases ite_ret h with ⟨n1, h⟩ | ⟨n1, h⟩
    · exact Or.inl ⟨n1, num_ret h⟩
    rcases ite_ret h with ⟨n2, h⟩ | ⟨n2, h⟩
    · exact Or.inr <| Or.inl ⟨n2, num_ret h⟩
    rcases ite_ret h with ⟨n3, h⟩ | ⟨n3, h⟩
    · exact Or.inr <| Or.inr <| Or.inl ⟨n3, num_ret h⟩
    rcases ite_ret h with ⟨n4, h⟩ | ⟨n4, h⟩
    · exact Or.inr <| Or.inr <| Or.inr <| Or.inl ⟨n4, num_ret h⟩
    rcases ite_ret h with ⟨n5, h⟩ | ⟨n5, h⟩
    · exact Or.inr <| Or.inr <| Or.inr <| Or.inr <| Or.inl ⟨n5, num_ret h⟩
    rcases ite_ret h with ⟨n6, h⟩ | ⟨n6, h⟩
    · exact Or.inr <| Or.inr <| Or.inr <| Or.inr <| Or.inr <| Or.inl ⟨n6, num_ret h⟩
    cases h
    refine Or.inr <| Or.inr <| Or.inr <| Or.inr <| Or.inr <| Or.inr ⟨?_, rfl⟩
    simp only [timerNames, List.mem_cons, List.not_mem_nil, or_false]
    intro h
    rcases h with h | h | h | h | h | h <;> contradiction
  have main : ∀ (π : Timeouts → Int) (κ : String) (conv : F → Int),
      (∀ s v s', timerStep cv s κ v = .ret s' → ∃ x, v = .num x ∧ π s' = conv x) →
      (∀ s k v s', k ≠ κ → timerStep cv s k v = .ret s' → π s' = π s) →
      π ⟨0, 0, 0, 0, 0, 0⟩ = 0 → π t = numberOf conv m κ := by
    intro π κ conv hit miss z
    have := eachMember_read π κ (fun _ v => do let x ← v.asNum; pure (conv x)) (by
      intro s v s' hs
      obtain ⟨x, hv, e⟩ := hit s v s' hs
      rw [hv, e]; rfl) miss d h
    unfold numberOf
    cases hv : assoc κ m with
    | none => rw [hv] at this; exact this.trans z
    | some v =>
      rw [hv] at this
      obtain ⟨x, hx, e⟩ := num_ret this
      subst hx; exact e
  intro p hp
  simp only [timerSettings, List.mem_cons, List.not_mem_nil, or_false] at hp
  rcases hp with rfl | rfl | rfl | rfl | rfl | rfl
  all_goals
    refine main _ _ _ ?_ ?_ rfl
    · intro s v s' hs
      dsimp only at hs
      rcases cs _ _ _ _ hs with ⟨hk, x, hv, e⟩ | ⟨hk, x, hv, e⟩ | ⟨hk, x, hv, e⟩ | ⟨hk, x, hv, e⟩ |
        ⟨hk, x, hv, e⟩ | ⟨hk, x, hv, e⟩ | ⟨hk, e⟩
      all_goals first
        | exact absurd hk (by decide)
        | exact ⟨x, hv, by subst e; rfl⟩
    · intro s k v s' ne hs
      dsimp only at ne
      rcases cs _ _ _ _ hs with ⟨hk, x, hv, e⟩ | ⟨hk, x, hv, e⟩ | ⟨hk, x, hv, e⟩ | ⟨hk, x, hv, e⟩ |
        ⟨hk, x, hv, e⟩ | ⟨hk, x, hv, e⟩ | ⟨hk, e⟩
      all_goals first
        | exact absurd hk ne
        | (subst e; rfl)

end Saratoga
