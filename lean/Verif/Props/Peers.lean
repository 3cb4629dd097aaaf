import Verif.Lemmas.Peers
import Verif.Lemmas.Shipped
/-! # The peer list (`beacon/beacon.go`): C36, C37, C38 -/
namespace Saratoga

/-- The shipped tables read every beacon. -/
theorem shipped_peerTables : PeerTables shipped := by
  refine ⟨?_, by decide⟩
  intro h f hf
  simp only [List.mem_cons, List.not_mem_nil, or_false] at hf
  rcases hf with rfl | rfl | rfl
  · rw [getStr_descriptor]; trivial
  · rw [getStr_rxwilling]; trivial
  · rw [getStr_txwilling]; trivial

/-! ## C37 -/

/-- **C37** The answer is true exactly when the list changed. -/
theorem C37_true_iff_changed (T : Tables) (ok : PeerTables T) (ipText : List Byte → String)
    (clock : GoTime) (peers : List Peer) (b : Beacon) (src : Option UDPAddr) :
    ∃ peers' r, newPeer T ipText clock peers b src = .ret (peers', r) ∧ (r = true ↔ peers' ≠ peers) := by
  cases src with
  | none => exact ⟨peers, false, rfl, by simp⟩
  | some src =>
    rcases newPeer_cases ok ipText clock peers b src with
      ⟨pre, p, post, rfl, hp, hpre, ⟨_, h⟩ | ⟨hn, p', h, _, hs, _⟩⟩ | ⟨_, p, h, _⟩
    · exact ⟨_, _, h, by simp⟩
    · refine ⟨_, _, h, ?_⟩
      simp only [true_iff]
      intro e
      apply hn
      have := List.append_cancel_left e
      simp only [List.cons.injEq, and_true] at this
      rw [← this]; exact hs
    · refine ⟨_, _, h, by simp⟩

example := C37_true_iff_changed shipped shipped_peerTables (fun _ => "peer") ⟨1000, 0⟩ [] ⟨0x20000000#32, 5, [65#8]⟩
  (some ⟨[1], 7, ""⟩)

/-- **C37** The answer is true exactly when the beacon is the first of its address or the entry of the
address does not show what it says. -/
theorem C37_true_iff_news (T : Tables) (ok : PeerTables T) (ipText : List Byte → String) (clock : GoTime)
    (peers : List Peer) (b : Beacon) (src : UDPAddr) (once : (peers.map Peer.addr).Nodup)
    (peers' : List Peer) (r : Bool) (h : newPeer T ipText clock peers b (some src) = .ret (peers', r)) :
    r = true ↔ ∀ p ∈ peers, p.addr = ipText src.ip → ¬ p.Shows T b := by
  have uniq : ∀ {pre p post}, peers = pre ++ p :: post → p.addr = ipText src.ip → ∀ q ∈ peers,
      q.addr = ipText src.ip → q = p := by
    rintro pre p post rfl hp q hq hqa
    simp only [List.map_append, List.map_cons, List.nodup_append, List.nodup_cons, List.mem_map,
      List.mem_cons] at once
    rcases List.mem_append.1 hq with hq | hq
    · exact absurd (hqa.trans hp.symm) (once.2.2 _ ⟨q, hq, rfl⟩ _ (Or.inl rfl))
    · rcases List.mem_cons.1 hq with rfl | hq
      · rfl
      · exact absurd ⟨q, hq, hqa.trans hp.symm⟩ once.2.1.1
  rcases newPeer_cases ok ipText clock peers b src with
      ⟨pre, p, post, hps, hp, hpre, ⟨hs, h'⟩ | ⟨hn, p', h', _⟩⟩ | ⟨hno, p, h', _⟩
  · rw [h'] at h; cases h
    simp only [Bool.false_eq_true, false_iff]
    intro hall
    exact hall p (by rw [hps]; simp) hp hs
  · rw [h'] at h; cases h
    simp only [true_iff]
    intro q hq hqa
    rw [uniq hps hp q hq hqa]
    exact hn
  · rw [h'] at h; cases h
    simp only [true_iff]
    intro q hq hqa
    exact absurd hqa (hno q hq)

example : ∃ peers', newPeer shipped (fun _ => "peer") ⟨1000, 0⟩ [] ⟨0x20000000#32, 5, [65#8]⟩ (some ⟨[1], 7, ""⟩) =
    .ret (peers', true) := ⟨_, rfl⟩

/-- **C37** A beacon touches the entry of its own address only: the others stay, in place, and no entry
disappears. -/
theorem C37_others_untouched (T : Tables) (ok : PeerTables T) (ipText : List Byte → String)
    (clock : GoTime) (peers : List Peer) (b : Beacon) (src : UDPAddr) (peers' : List Peer) (r : Bool)
    (h : newPeer T ipText clock peers b (some src) = .ret (peers', r)) :
    (peers.map Peer.addr).isPrefixOf (peers'.map Peer.addr) = true ∧
    ∀ (i : Nat) (p : Peer), peers[i]? = some p → p.addr ≠ ipText src.ip → peers'[i]? = some p := by
  rcases newPeer_cases ok ipText clock peers b src with
      ⟨pre, p, post, rfl, hp, hpre, ⟨hs, h'⟩ | ⟨hn, p', h', ha, _⟩⟩ | ⟨hno, p, h', _⟩
  · rw [h'] at h; cases h
    exact ⟨by simp, fun i q hq _ => hq⟩
  · rw [h'] at h; cases h
    refine ⟨by simp [ha], ?_⟩
    intro i q hq hqa
    rw [List.getElem?_append] at hq ⊢
    split
    · rename_i hlt
      rw [if_pos hlt] at hq; exact hq
    · rename_i hlt
      rw [if_neg hlt] at hq
      rw [List.getElem?_cons] at hq ⊢
      split
      · rename_i h0
        rw [if_pos h0] at hq
        cases hq
        exact absurd hp hqa
      · rename_i h0
        rw [if_neg h0] at hq; exact hq
  · rw [h'] at h; cases h
    refine ⟨by simp, ?_⟩
    intro i q hq _
    rw [List.getElem?_append_left (List.getElem?_eq_some_iff.1 hq).1]
    exact hq

example : PeerTables shipped := shipped_peerTables

/-! ## C36 -/

/-- **C36** After any beacons, received one after the other: one entry per address, in the order in
which the addresses first appeared, each summing up the beacons of its address. -/
theorem C36_one_entry_per_peer (T : Tables) (ok : PeerTables T) (ipText : List Byte → String)
    (hist : List Sighting) :
    ∃ peers, receiveAll T ipText [] hist = .ret peers ∧
      peers.map Peer.addr = firstSeen (hist.map (Sighting.addr ipText)) ∧
      (peers.map Peer.addr).Nodup ∧
      ∀ p ∈ peers, ∃ first rest, hist.filter (fun s => s.addr ipText = p.addr) = first :: rest ∧
        p.SumsUp T first rest := by
  suffices H : ∃ peers, receiveAll T ipText [] hist = .ret peers ∧
      peers.map Peer.addr = firstSeen (hist.map (Sighting.addr ipText)) ∧
      ∀ p ∈ peers, ∃ first rest, hist.filter (fun s => s.addr ipText = p.addr) = first :: rest ∧
        p.SumsUp T first rest by
    obtain ⟨peers, h1, h2, h3⟩ := H
    exact ⟨peers, h1, h2, by rw [h2]; exact firstSeen_nodup _, h3⟩
  induction hist using snoc_induction with
  | h0 => exact ⟨[], rfl, rfl, by simp⟩
  | h1 hist s ih =>
    obtain ⟨peers, h1, h2, h3⟩ := ih
    have hnd : (peers.map Peer.addr).Nodup := by rw [h2]; exact firstSeen_nodup _
    have hmem : s.addr ipText ∈ hist.map (Sighting.addr ipText) ↔ ∃ p ∈ peers, p.addr = s.addr ipText := by
      rw [← firstSeen_mem, ← h2, List.mem_map]
    have hmap : (hist ++ [s]).map (Sighting.addr ipText) =
        hist.map (Sighting.addr ipText) ++ [s.addr ipText] := by simp
    -- entries of other addresses keep their sum
    have keep : ∀ p : Peer, p.addr ≠ s.addr ipText →
        (∃ first rest, hist.filter (fun s => s.addr ipText = p.addr) = first :: rest ∧
          p.SumsUp T first rest) →
        ∃ first rest, (hist ++ [s]).filter (fun s => s.addr ipText = p.addr) = first :: rest ∧
          p.SumsUp T first rest := by
      rintro p hp ⟨first, rest, e, hs⟩
      refine ⟨first, rest, ?_, hs⟩
      rw [List.filter_append, e, List.filter_cons_of_neg (by simpa using fun h => hp h.symm)]
      simp
    rcases newPeer_cases ok ipText s.time peers s.beacon s.source with
      ⟨pre, p, post, rfl, hp, hpre, hcase⟩ | ⟨hno, p, h', ha, hs, hc, hu⟩
    · have hin : s.addr ipText ∈ hist.map (Sighting.addr ipText) := hmem.2 ⟨p, by simp, hp⟩
      have hother : ∀ q, q ∈ pre ∨ q ∈ post → q.addr ≠ s.addr ipText := by
        intro q hq
        rcases hq with hq | hq
        · exact hpre q hq
        · intro hqa
          simp only [List.map_append, List.map_cons, List.nodup_append, List.nodup_cons] at hnd
          exact hnd.2.1.1 (List.mem_map.2 ⟨q, hq, hqa.trans hp.symm⟩)
      obtain ⟨first, rest, e, hsum⟩ := h3 p (by simp)
      have hpa : s.addr ipText = p.addr := hp.symm
      have e' : (hist ++ [s]).filter (fun x => x.addr ipText = p.addr) = first :: (rest ++ [s]) := by
        rw [List.filter_append, e]
        simp [hpa]
      have hlast : ((first :: (rest ++ [s])).getLast (by simp)).beacon = s.beacon := by
        rw [List.getLast_cons (by simp), List.getLast_append_right (by simp)]; simp
      rcases hcase with ⟨hsh, h'⟩ | ⟨hsh, p', h', ha, hs, hc, hu⟩
      · refine ⟨pre ++ p :: post, ?_, ?_, ?_⟩
        · rw [receiveAll_snoc, h1]; simp only [Out.ret_bind, h', Out.pure_eq]
        · rw [hmap, firstSeen_snoc, if_pos hin, h2]
        · intro q hq
          by_cases hqa : q.addr = s.addr ipText
          · have : q = p := by
              rcases List.mem_append.1 hq with hq | hq
              · exact absurd hqa (hother q (Or.inl hq))
              · rcases List.mem_cons.1 hq with rfl | hq
                · rfl
                · exact absurd hqa (hother q (Or.inr hq))
            subst this
            refine ⟨first, rest ++ [s], e', ?_, hsum.2.1, ?_⟩
            · rw [hlast]; exact hsh
            · rw [newsAfter_snoc, if_pos ((sameNews_of_shows hsum.1).2 hsh)]
              exact hsum.2.2
          · exact keep q hqa (h3 q hq)
      · refine ⟨pre ++ p' :: post, ?_, ?_, ?_⟩
        · rw [receiveAll_snoc, h1]; simp only [Out.ret_bind, h', Out.pure_eq]
        · rw [hmap, firstSeen_snoc, if_pos hin, ← h2]
          simp [ha]
        · intro q hq
          rcases List.mem_append.1 hq with hq | hq
          · exact keep q (hother q (Or.inl hq)) (h3 q (List.mem_append.2 (Or.inl hq)))
          · rcases List.mem_cons.1 hq with rfl | hq
            · refine ⟨first, rest ++ [s], by rw [ha]; exact e', ?_, by rw [hc]; exact hsum.2.1, ?_⟩
              · rw [hlast]; exact hs
              · rw [newsAfter_snoc, if_neg (fun h => hsh ((sameNews_of_shows hsum.1).1 h))]
                exact hu (hsum.2.2.loc ok.2)
            · exact keep q (hother q (Or.inr hq)) (h3 q (by simp [hq]))
    · have hin : s.addr ipText ∉ hist.map (Sighting.addr ipText) := by
        rw [hmem]; rintro ⟨q, hq, hqa⟩; exact hno q hq hqa
      refine ⟨peers ++ [p], ?_, ?_, ?_⟩
      · rw [receiveAll_snoc, h1]; simp only [Out.ret_bind, h', Out.pure_eq]
      · rw [hmap, firstSeen_snoc, if_neg hin, ← h2]
        simp [ha, Sighting.addr]
      · intro q hq
        rcases List.mem_append.1 hq with hq | hq
        · exact keep q (hno q hq) (h3 q hq)
        · simp only [List.mem_singleton] at hq
          subst hq
          have hnil : hist.filter (fun x => x.addr ipText = q.addr) = [] := by
            rw [List.filter_eq_nil_iff]
            intro x hx hxa
            apply hin
            rw [List.mem_map]
            exact ⟨x, hx, by simpa [ha, Sighting.addr] using hxa⟩
          refine ⟨s, [], ?_, ?_, hc, hu⟩
          · rw [List.filter_append, hnil, List.filter_cons_of_pos (by simp [ha, Sighting.addr])]
            rfl
          · simpa using hs

/-- Two addresses, three beacons; the second of the first address says the same. -/
example : (receiveAll shipped (fun ip => toString (ip.map BitVec.toNat)) []
    [⟨⟨[1], 7, ""⟩, ⟨0x20000000#32, 5, [65#8]⟩, ⟨1000, 0⟩⟩, ⟨⟨[2], 7, ""⟩, ⟨0x20000000#32, 6, []⟩, ⟨1001, 0⟩⟩,
     ⟨⟨[1], 9, ""⟩, ⟨0x20000000#32, 5, [65#8]⟩, ⟨1002, 0⟩⟩]).returns := by
  obtain ⟨p, h, _⟩ := C36_one_entry_per_peer shipped shipped_peerTables _ _
  rw [h]; trivial

/-! ## C38 -/

/-- How often an address is in the list. -/
def entries (a : String) (peers : List Peer) : Nat := (peers.map Peer.addr).count a

/-- **C38** fails: two calls for the same new address, both scanning before either takes the lock, make
two entries for it. -/
theorem C38_counterexample :
    ∃ (b : Beacon) (t : GoTime) (a : String) (schedule : List Nat) (peers : List Peer)
      (calls : List PeerCall),
      peerRun shipped ([], [⟨b, a, t, .start⟩, ⟨b, a, t, .start⟩]) schedule = .ret (peers, calls) ∧
      entries a peers = 2 ∧ ∀ c ∈ calls, c.at_ = .done true := by
  refine ⟨⟨0x20000000#32, 0, []⟩, ⟨0, 0⟩, "10.0.0.1", [0, 1, 0, 1], _, _, rfl, ?_, ?_⟩
  · decide
  · decide

/-- **C38** Uninterrupted, the two steps of a call are `NewPeer`. -/
theorem C38_uninterrupted (T : Tables) (ipText : List Byte → String) (peers : List Peer)
    (calls : List PeerCall) (k : Nat) (b : Beacon) (src : UDPAddr) (t : GoTime)
    (call : calls[k]? = some ⟨b, ipText src.ip, t, .start⟩) :
    (do let s ← peerRun T (peers, calls) [k, k]; pure s.1) =
      (do let r ← newPeer T ipText t peers b (some src); pure r.1) := by
  have hk := (List.getElem?_eq_some_iff.1 call).1
  simp only [peerRun, peerStep, call, Out.ret_bind]
  rw [List.getElem?_set_self hk]
  simp only
  unfold newPeer
  simp only
  cases hf : findPeer (ipText src.ip) peers 0 with
  | none =>
    simp only
    cases appendPeer T t peers (ipText src.ip) b <;> rfl
  | some i =>
    simp only
    cases updatePeer T t peers b i <;> rfl

theorem updatePeer_addrs {T : Tables} {t : GoTime} {ps ps' : List Peer} {b : Beacon} {i : Nat} {r : Bool}
    (h : updatePeer T t ps b i = .ret (ps', r)) : ps'.map Peer.addr = ps.map Peer.addr := by
  unfold updatePeer at h
  cases hi : ps[i]? with
  | none => rw [hi] at h; cases h
  | some p =>
    rw [hi] at h
    simp only at h
    obtain ⟨d, _, h⟩ := Out.bind_eq_ret h
    cases d with
    | false => cases h; rfl
    | true =>
      simp only [if_true] at h
      obtain ⟨p', hp', h⟩ := Out.bind_eq_ret h
      cases h
      have ha : p'.addr = p.addr := by
        unfold Peer.refresh at hp'
        obtain ⟨_, _, hp'⟩ := Out.bind_eq_ret hp'
        obtain ⟨_, _, hp'⟩ := Out.bind_eq_ret hp'
        obtain ⟨_, _, hp'⟩ := Out.bind_eq_ret hp'
        obtain ⟨_, _, hp'⟩ := Out.bind_eq_ret hp'
        cases hp'
        rfl
      rw [List.map_set, ha]
      apply List.ext_getElem?
      intro j
      rw [List.getElem?_set]
      split
      · rename_i hj
        subst hj
        have hl := (List.getElem?_eq_some_iff.1 hi).1
        rw [List.getElem?_map, hi]
        simp [hl]
      · rfl

theorem appendPeer_addrs {T : Tables} {t : GoTime} {ps ps' : List Peer} {a : String} {b : Beacon} {r : Bool}
    (h : appendPeer T t ps a b = .ret (ps', r)) : ps'.map Peer.addr = ps.map Peer.addr ++ [a] := by
  unfold appendPeer at h
  obtain ⟨p, hp, h⟩ := Out.bind_eq_ret h
  cases h
  unfold Peer.fresh at hp
  obtain ⟨_, _, hp⟩ := Out.bind_eq_ret hp
  obtain ⟨_, _, hp⟩ := Out.bind_eq_ret hp
  obtain ⟨_, _, hp⟩ := Out.bind_eq_ret hp
  obtain ⟨_, _, hp⟩ := Out.bind_eq_ret hp
  cases hp
  simp

/-- A call for `a` that scanned and found nothing. -/
def Missed (a : String) (c : PeerCall) : Prop := c.addr = a ∧ c.at_ = .scanned none

theorem entries_pos {a : String} {ps : List Peer} (h : 0 < entries a ps) : findPeer a ps 0 ≠ none := by
  intro hf
  have := findPeer_none.1 hf
  unfold entries at h
  rw [List.count_pos_iff, List.mem_map] at h
  obtain ⟨p, hp, hpa⟩ := h
  exact this p hp hpa

theorem entries_zero {a : String} {ps : List Peer} (h : findPeer a ps 0 = none) : entries a ps = 0 := by
  unfold entries
  rw [List.count_eq_zero, List.mem_map]
  rintro ⟨p, hp, hpa⟩
  exact findPeer_none.1 h p hp hpa

/-- One step, seen by address `a`. -/
theorem peerStep_entries {T : Tables} {ps ps' : List Peer} {cs cs' : List PeerCall} {k : Nat} (a : String)
    (h : peerStep T (ps, cs) k = .ret (ps', cs')) :
    (cs'.map PeerCall.addr = cs.map PeerCall.addr) ∧ entries a ps ≤ entries a ps' ∧
    (∀ (j : Nat) (c' : PeerCall), cs'[j]? = some c' → Missed a c' → (cs[j]? = some c' ∨ entries a ps = 0)) ∧
    (entries a ps' = entries a ps ∨
      (entries a ps' = entries a ps + 1 ∧ ∃ c, cs[k]? = some c ∧ Missed a c ∧
        ∀ c', cs'[k]? = some c' → ¬ Missed a c')) := by
  unfold peerStep at h
  simp only at h
  cases hk : cs[k]? with
  | none =>
    rw [hk] at h; cases h
    exact ⟨rfl, Nat.le_refl _, fun j c' hj _ => Or.inl hj, Or.inl rfl⟩
  | some c =>
    rw [hk] at h
    simp only at h
    have hlt := (List.getElem?_eq_some_iff.1 hk).1
    have hmapset : ∀ st, (cs.set k { c with at_ := st }).map PeerCall.addr = cs.map PeerCall.addr := by
      intro st
      rw [List.map_set]
      apply List.ext_getElem?
      intro j
      rw [List.getElem?_set]
      split
      · rename_i hj; subst hj; rw [List.getElem?_map, hk]; simp [hlt]
      · rfl
    have hget : ∀ st (j : Nat) (c' : PeerCall), (cs.set k { c with at_ := st })[j]? = some c' →
        (j = k ∧ c' = { c with at_ := st }) ∨ (j ≠ k ∧ cs[j]? = some c') := by
      intro st j c' hj
      rw [List.getElem?_set] at hj
      split at hj
      · rename_i e; subst e
        simp only [Option.some.injEq] at hj
        exact Or.inl ⟨rfl, hj.symm⟩
      · rename_i e; exact Or.inr ⟨fun h => e h.symm, hj⟩
    cases hst : c.at_ with
    | start =>
      rw [hst] at h; cases h
      refine ⟨hmapset _, Nat.le_refl _, ?_, Or.inl rfl⟩
      intro j c' hj hm
      rcases hget _ _ _ hj with ⟨rfl, rfl⟩ | ⟨_, hj⟩
      · right
        obtain ⟨h1, h2⟩ := hm
        simp only [CallState.scanned.injEq] at h1 h2
        rw [h1] at h2
        exact entries_zero h2
      · exact Or.inl hj
    | done r =>
      rw [hst] at h; cases h
      exact ⟨rfl, Nat.le_refl _, fun j c' hj _ => Or.inl hj, Or.inl rfl⟩
    | scanned found =>
      rw [hst] at h
      cases found with
      | some i =>
        simp only at h
        obtain ⟨⟨ps2, r⟩, hu, h⟩ := Out.bind_eq_ret h
        cases h
        have hadd := updatePeer_addrs hu
        have he : entries a ps2 = entries a ps := by unfold entries; rw [hadd]
        refine ⟨hmapset _, Nat.le_of_eq he.symm, ?_, Or.inl he⟩
        intro j c' hj hm
        rcases hget _ _ _ hj with ⟨rfl, rfl⟩ | ⟨_, hj⟩
        · exact absurd hm.2 (by simp)
        · exact Or.inl hj
      | none =>
        simp only at h
        obtain ⟨⟨ps2, r⟩, hu, h⟩ := Out.bind_eq_ret h
        cases h
        have hadd := appendPeer_addrs hu
        have he : entries a ps2 = entries a ps + if c.addr = a then 1 else 0 := by
          unfold entries
          rw [hadd, List.count_append]
          by_cases hc : c.addr = a <;> simp [hc]
        refine ⟨hmapset _, by show _ ≤ entries a ps2; omega, ?_, ?_⟩
        · intro j c' hj hm
          rcases hget _ _ _ hj with ⟨rfl, rfl⟩ | ⟨_, hj⟩
          · exact absurd hm.2 (by simp)
          · exact Or.inl hj
        · by_cases hc : c.addr = a
          · right
            rw [if_pos hc] at he
            refine ⟨he, c, rfl, ⟨hc, hst⟩, ?_⟩
            intro c' hj hm
            rcases hget _ _ _ hj with ⟨_, rfl⟩ | ⟨h, _⟩
            · exact absurd hm.2 (by simp)
            · exact h rfl
          · left
            rw [if_neg hc] at he
            exact he

theorem peerRun_entries {T : Tables} (a : String) : ∀ (schedule : List Nat) {ps ps' : List Peer}
    {cs cs' : List PeerCall}, peerRun T (ps, cs) schedule = .ret (ps', cs') →
    (entries a ps = 1 ∧ (∀ c ∈ cs, ¬ Missed a c) → entries a ps' = 1) ∧
    ((∀ i j : Nat, ∀ c d, cs[i]? = some c → cs[j]? = some d → c.addr = a → d.addr = a → i = j) ∧
      entries a ps ≤ 1 ∧ (entries a ps = 1 → ∀ c ∈ cs, ¬ Missed a c) → entries a ps' ≤ 1)
  | [], ps, ps', cs, cs', h => by cases h; exact ⟨fun h => h.1, fun h => h.2.1⟩
  | k :: ks, ps, ps', cs, cs', h => by
    unfold peerRun at h
    obtain ⟨⟨ps1, cs1⟩, h1, h2⟩ := Out.bind_eq_ret h
    obtain ⟨e1, e2, e3, e4⟩ := peerStep_entries a h1
    obtain ⟨r1, r2⟩ := peerRun_entries a ks h2
    constructor
    · rintro ⟨q1, q2⟩
      have hno : ∀ c ∈ cs1, ¬ Missed a c := by
        intro c hc hm
        obtain ⟨j, hj, hjc⟩ := List.getElem_of_mem hc
        rcases e3 j c (by rw [List.getElem?_eq_getElem hj, hjc]) hm with hold | h0
        · exact q2 c (List.mem_of_getElem? hold) hm
        · omega
      refine r1 ⟨?_, hno⟩
      rcases e4 with e4 | ⟨_, c, hc, hm, _⟩
      · omega
      · exact absurd hm (q2 c (List.mem_of_getElem? hc))
    · rintro ⟨q1, q2, q3⟩
      refine r2 ⟨?_, ?_, ?_⟩
      · intro i j c d hi hj hca hda
        have hm : ∀ (i : Nat) (c : PeerCall), cs1[i]? = some c → ∃ c', cs[i]? = some c' ∧ c'.addr = c.addr := by
          intro i c hi
          have h' : (cs1.map PeerCall.addr)[i]? = some c.addr := by simp [hi]
          rw [e1, List.getElem?_map] at h'
          cases hc' : cs[i]? with
          | none => rw [hc'] at h'; cases h'
          | some c' => rw [hc'] at h'; exact ⟨c', rfl, by simpa using h'⟩
        obtain ⟨c', hc', hca'⟩ := hm i c hi
        obtain ⟨d', hd', hda'⟩ := hm j d hj
        exact q1 i j c' d' hc' hd' (hca'.trans hca) (hda'.trans hda)
      · rcases e4 with e4 | ⟨e4, c, hc, hm, _⟩
        · omega
        · have : entries a ps ≠ 1 := fun h => q3 h c (List.mem_of_getElem? hc) hm
          omega
      · intro he c hc hm
        obtain ⟨j, hj, hjc⟩ := List.getElem_of_mem hc
        have hj' : cs1[j]? = some c := by rw [List.getElem?_eq_getElem hj, hjc]
        rcases e4 with e4 | ⟨e4, d, hd, hdm, hdn⟩
        · rcases e3 j c hj' hm with hold | h0
          · exact q3 (by omega) c (List.mem_of_getElem? hold) hm
          · omega
        · have hjk : j = k := by
            have h' : (cs.map PeerCall.addr)[j]? = some c.addr := by rw [← e1]; simp [hj']
            rw [List.getElem?_map] at h'
            cases hc' : cs[j]? with
            | none => rw [hc'] at h'; cases h'
            | some c' =>
              rw [hc'] at h'
              exact q1 j k c' d hc' hd ((by simpa using h' : c'.addr = c.addr).trans hm.1) hdm.1
          subst hjk
          exact hdn c hj' hm

/-- **C38** (what is left of it; see `C38_counterexample`). In every schedule of calls that have not
begun, an address that was in the list once stays there once, however many calls there are for it. -/
theorem C38_known_address_partial (T : Tables) (a : String) (schedule : List Nat) (peers peers' : List Peer)
    (calls calls' : List PeerCall) (fresh : ∀ c ∈ calls, c.at_ = .start) (known : entries a peers = 1)
    (run : peerRun T (peers, calls) schedule = .ret (peers', calls')) : entries a peers' = 1 :=
  (peerRun_entries a schedule run).1 ⟨known, fun c hc hm => by have h := hm.2; rw [fresh c hc] at h; cases h⟩

/-- **C38** In every schedule, an address with a single call for it is in the list at most once,
whatever the calls for other addresses do. -/
theorem C38_single_call_partial (T : Tables) (a : String) (schedule : List Nat) (peers peers' : List Peer)
    (calls calls' : List PeerCall) (fresh : ∀ c ∈ calls, c.at_ = .start) (once : entries a peers ≤ 1)
    (single : ∀ i j : Nat, ∀ c d, calls[i]? = some c → calls[j]? = some d → c.addr = a → d.addr = a → i = j)
    (run : peerRun T (peers, calls) schedule = .ret (peers', calls')) : entries a peers' ≤ 1 :=
  (peerRun_entries a schedule run).2
    ⟨single, once, fun _ c hc hm => by have h := hm.2; rw [fresh c hc] at h; cases h⟩

/-- Two calls for two addresses, interleaved. -/
example : ∃ peers calls, peerRun shipped ([], [⟨⟨0x20000000#32, 0, []⟩, "10.0.0.1", ⟨0, 0⟩, .start⟩,
    ⟨⟨0x20000000#32, 0, []⟩, "10.0.0.2", ⟨0, 0⟩, .start⟩]) [0, 1, 1, 0] = .ret (peers, calls) ∧
    peers.length = 2 := by
  refine ⟨_, _, rfl, ?_⟩
  decide

end Saratoga
