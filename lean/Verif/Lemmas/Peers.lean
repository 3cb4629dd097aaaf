import Verif.Spec.Peers
import Verif.Lemmas.Timestamp
import Verif.Lemmas.Shipped
/-! # Helper lemmas for the peer list -/
namespace Saratoga

theorem snoc_induction {α : Type} {P : List α → Prop} (h0 : P []) (h1 : ∀ l a, P l → P (l ++ [a]))
    (l : List α) : P l := by
  rw [← l.reverse_reverse]
  induction l.reverse with
  | nil => exact h0
  | cons a l ih => rw [List.reverse_cons]; exact h1 _ a ih

/-- Names of the willingness numbers. -/
def willingName (k : Nat) : String :=
  if k = 0 then "no" else if k = 1 then "invalid" else if k = 2 then "capable" else "yes"

theorem getStr_rxwilling (h : BitVec 32) :
    getStr shipped h "rxwilling" = .ret (willingName (bitsAt h 16 2)) := by
  unfold getStr
  rw [get_ofNat (by decide) h 16 2 (by decide) (by decide)]
  have hlt : bitsAt h 16 2 < 4 := Nat.mod_lt _ (by decide)
  generalize bitsAt h 16 2 = k at hlt
  have : k = 0 ∨ k = 1 ∨ k = 2 ∨ k = 3 := by omega
  rcases this with rfl | rfl | rfl | rfl <;> rfl

theorem getStr_txwilling (h : BitVec 32) :
    getStr shipped h "txwilling" = .ret (willingName (bitsAt h 18 2)) := by
  unfold getStr
  rw [get_ofNat (by decide) h 18 2 (by decide) (by decide)]
  have hlt : bitsAt h 18 2 < 4 := Nat.mod_lt _ (by decide)
  generalize bitsAt h 18 2 = k at hlt
  have : k = 0 ∨ k = 1 ∨ k = 2 ∨ k = 3 := by omega
  rcases this with rfl | rfl | rfl | rfl <;> rfl

theorem findPeer_none {a : String} : ∀ {ps : List Peer} {k : Nat},
    findPeer a ps k = none ↔ ∀ p ∈ ps, p.addr ≠ a
  | [], k => by simp [findPeer]
  | p :: ps, k => by
    unfold findPeer
    by_cases h : p.addr = a
    · simp [h]
    · simp [h, findPeer_none]

theorem findPeer_some {a : String} : ∀ {ps : List Peer} {k j : Nat},
    findPeer a ps k = some j → ∃ pre p post, ps = pre ++ p :: post ∧ j = k + pre.length ∧ p.addr = a ∧
      ∀ q ∈ pre, q.addr ≠ a
  | [], k, j, h => by simp [findPeer] at h
  | p :: ps, k, j, h => by
    unfold findPeer at h
    by_cases hp : p.addr = a
    · simp only [hp, if_true, Option.some.injEq] at h
      exact ⟨[], p, ps, rfl, by simp [h], hp, by simp⟩
    · simp only [hp, if_false] at h
      obtain ⟨pre, q, post, rfl, rfl, hq, hpre⟩ := findPeer_some h
      refine ⟨p :: pre, q, post, rfl, by simp; omega, hq, ?_⟩
      intro r hr
      rcases List.mem_cons.1 hr with rfl | hr
      · exact hp
      · exact hpre r hr

theorem returns_ret {α : Type} {x : Out α} (h : x.returns) : ∃ a, x = .ret a := by
  cases x with
  | ret a => exact ⟨a, rfl⟩
  | fatal => exact h.elim
  | panic => exact h.elim

theorem differs_eq {T : Tables} (p : Peer) (b : Beacon) {md rx tx : String}
    (h1 : getStr T b.header "descriptor" = .ret md) (h2 : getStr T b.header "rxwilling" = .ret rx)
    (h3 : getStr T b.header "txwilling" = .ret tx) :
    p.differs T b = .ret (decide (¬ (p.freespace = b.freespace ∧ p.eid = b.eid ∧ p.maxdesc = md ∧
      p.canrx = rx ∧ p.cantx = tx))) := by
  unfold Peer.differs orDiffers
  simp only [h1, h2, h3, Out.ret_bind, Out.pure_eq]
  by_cases a1 : p.freespace = b.freespace <;> by_cases a2 : p.eid = b.eid <;>
  by_cases a3 : p.maxdesc = md <;> by_cases a4 : p.canrx = rx <;> by_cases a5 : p.cantx = tx <;>
  simp [a1, a2, a3, a4, a5]

theorem shows_iff {T : Tables} (p : Peer) (b : Beacon) {md rx tx : String}
    (h1 : getStr T b.header "descriptor" = .ret md) (h2 : getStr T b.header "rxwilling" = .ret rx)
    (h3 : getStr T b.header "txwilling" = .ret tx) :
    p.Shows T b ↔ p.freespace = b.freespace ∧ p.eid = b.eid ∧ p.maxdesc = md ∧
      p.canrx = rx ∧ p.cantx = tx := by
  unfold Peer.Shows
  simp only [h1, h2, h3, Out.ret.injEq, eq_comm]

/-- The timestamp of the list, for any variable without a place name it is written to. -/
theorem now_posix32_32 {T : Tables} (h : goodT T "posix32_32" = true) (clock : GoTime) :
    ∃ t e, Timestamp.zero.now T "posix32_32" clock = .ret (t, e) ∧ t.loc = [] ∧
      ∀ t0 : Timestamp, t0.loc = [] → t0.now T "posix32_32" clock = .ret (t, e) := by
  have hs : stripSpaces "posix32_32" = "posix32_32" := by decide
  have hset : ∃ v, setT T 0 "posix32_32" = .ret v := by
    unfold goodT at h
    obtain ⟨v, hv⟩ := Option.isSome_iff_exists.1 h
    unfold setT
    rw [hv]
    exact ⟨_, rfl⟩
  obtain ⟨v, hv⟩ := hset
  have key : ∀ t0 : Timestamp, t0.loc = [] → t0.now T "posix32_32" clock =
      (if clock.unixNano.sdiv 1000000000#64 > maxUint32 then
        .ret (⟨v, clock.unixNano.sdiv 1000000000#64, clock.unixNano.srem 1000000000#64, [], "posix32_32"⟩,
          some "TimeStampNow invalid flag")
      else
        .ret (⟨v, clock.unixNano.sdiv 1000000000#64, clock.unixNano.srem 1000000000#64, [], "posix32_32"⟩,
          none)) := by
    intro t0 h0
    unfold Timestamp.now Timestamp.new
    simp only [hs, hv, Out.ret_bind]
    rw [if_neg (by decide), if_neg (by decide), if_pos trivial]
    split
    · rename_i hgt
      simp only [Out.pure_eq, Out.ret_bind, Option.map_some, h0]
    · rename_i hgt
      simp only [Out.pure_eq, Out.ret_bind, Option.map_none]
  have h0 := key Timestamp.zero rfl
  split at h0
  · rename_i hgt
    exact ⟨_, _, h0, rfl, fun t0 hl => by rw [key t0 hl, if_pos hgt]⟩
  · rename_i hgt
    exact ⟨_, _, h0, rfl, fun t0 hl => by rw [key t0 hl, if_neg hgt]⟩

theorem StampOf.loc {T : Tables} {time : GoTime} {t : Timestamp} (h : goodT T "posix32_32" = true)
    (s : StampOf T time t) : t.loc = [] := by
  obtain ⟨e, he⟩ := s
  obtain ⟨t', e', h1, h2, _⟩ := now_posix32_32 h time
  rw [he] at h1
  cases h1
  exact h2

/-- What one beacon does to the list. -/
theorem newPeer_cases {T : Tables} (ok : PeerTables T) (ipText : List Byte → String) (clock : GoTime)
    (peers : List Peer) (b : Beacon) (src : UDPAddr) :
    (∃ pre p post, peers = pre ++ p :: post ∧ p.addr = ipText src.ip ∧
      (∀ q ∈ pre, q.addr ≠ ipText src.ip) ∧
      ((p.Shows T b ∧ newPeer T ipText clock peers b (some src) = .ret (peers, false)) ∨
       (¬ p.Shows T b ∧ ∃ p', newPeer T ipText clock peers b (some src) = .ret (pre ++ p' :: post, true) ∧
         p'.addr = p.addr ∧ p'.Shows T b ∧ p'.created = p.created ∧
         (p.updated.loc = [] → StampOf T clock p'.updated)))) ∨
    ((∀ q ∈ peers, q.addr ≠ ipText src.ip) ∧ ∃ p,
      newPeer T ipText clock peers b (some src) = .ret (peers ++ [p], true) ∧
      p.addr = ipText src.ip ∧ p.Shows T b ∧ StampOf T clock p.created ∧ StampOf T clock p.updated) := by
  obtain ⟨md, h1⟩ := returns_ret (ok.1 b.header "descriptor" (by simp))
  obtain ⟨rx, h2⟩ := returns_ret (ok.1 b.header "rxwilling" (by simp))
  obtain ⟨tx, h3⟩ := returns_ret (ok.1 b.header "txwilling" (by simp))
  obtain ⟨t, e, ht, hloc, hany⟩ := now_posix32_32 ok.2 clock
  cases hf : findPeer (ipText src.ip) peers 0 with
  | none =>
    right
    refine ⟨findPeer_none.1 hf, ⟨ipText src.ip, b.freespace, b.eid, md, rx, tx, t, t⟩, ?_, rfl,
      ⟨rfl, rfl, h1, h2, h3⟩, ⟨e, ht⟩, ⟨e, ht⟩⟩
    unfold newPeer
    simp only [hf]
    unfold appendPeer Peer.fresh
    simp only [h1, h2, h3, ht, Out.ret_bind, Out.pure_eq]
  | some i =>
    left
    obtain ⟨pre, p, post, rfl, hi, hp, hpre⟩ := findPeer_some hf
    refine ⟨pre, p, post, rfl, hp, hpre, ?_⟩
    have hget : (pre ++ p :: post)[i]? = some p := by
      rw [hi, Nat.zero_add]; simp
    by_cases hsh : p.Shows T b
    · left
      refine ⟨hsh, ?_⟩
      unfold newPeer
      simp only [hf]
      unfold updatePeer
      simp only [hget, differs_eq p b h1 h2 h3, Out.ret_bind]
      rw [(decide_eq_false_iff_not).2 (fun h => h ((shows_iff p b h1 h2 h3).1 hsh))]
      rfl
    · right
      obtain ⟨u, e', hu⟩ : ∃ u e', p.updated.now T "posix32_32" clock = .ret (u, e') ∧
          (p.updated.loc = [] → StampOf T clock u) := by
        by_cases hl : p.updated.loc = []
        · exact ⟨t, e, hany _ hl, fun _ => ⟨e, ht⟩⟩
        · have hnow : (p.updated.now T "posix32_32" clock).returns := by
            unfold Timestamp.now Timestamp.new
            have hs : stripSpaces "posix32_32" = "posix32_32" := by decide
            have hset : ∃ v, setT T 0 "posix32_32" = .ret v := by
              have h := ok.2
              unfold goodT at h
              obtain ⟨v, hv⟩ := Option.isSome_iff_exists.1 h
              unfold setT
              rw [hv]
              exact ⟨_, rfl⟩
            obtain ⟨v, hv⟩ := hset
            simp only [hs, hv, Out.ret_bind]
            rw [if_neg (by decide), if_neg (by decide), if_pos trivial]
            split <;> simp [Out.returns]
          obtain ⟨⟨u, e'⟩, hu⟩ := returns_ret hnow
          exact ⟨u, e', hu, fun h => absurd h hl⟩
      refine ⟨hsh, { p with freespace := b.freespace, eid := b.eid, maxdesc := md, canrx := rx,
                            cantx := tx, updated := u }, ?_, rfl, ⟨rfl, rfl, h1, h2, h3⟩, rfl, hu.2⟩
      unfold newPeer
      simp only [hf]
      unfold updatePeer Peer.refresh
      simp only [hget, differs_eq p b h1 h2 h3, Out.ret_bind]
      have hd : ¬ (p.freespace = b.freespace ∧ p.eid = b.eid ∧ p.maxdesc = md ∧ p.canrx = rx ∧
          p.cantx = tx) := fun h => hsh ((shows_iff p b h1 h2 h3).2 h)
      rw [decide_eq_true hd]
      simp only [if_true, h1, h2, h3, hu.1, Out.ret_bind, Out.pure_eq]
      rw [hi, Nat.zero_add]
      simp

theorem receiveAll_snoc (T : Tables) (ipText : List Byte → String) (s : Sighting) :
    ∀ (hist : List Sighting) (peers : List Peer),
      receiveAll T ipText peers (hist ++ [s]) = (do
        let peers ← receiveAll T ipText peers hist
        let (peers, _) ← newPeer T ipText s.time peers s.beacon (some s.source)
        pure peers)
  | [], peers => rfl
  | x :: hist, peers => by
    simp only [List.cons_append, receiveAll]
    cases hx : newPeer T ipText x.time peers x.beacon (some x.source) with
    | ret r => simp only [Out.ret_bind]; exact receiveAll_snoc T ipText s hist r.1
    | fatal => rfl
    | panic => rfl

theorem firstSeen_mem (a : String) : ∀ l : List String, a ∈ firstSeen l ↔ a ∈ l
  | [] => by simp [firstSeen]
  | x :: l => by
    simp only [firstSeen, List.mem_cons, List.mem_filter, firstSeen_mem a l, decide_eq_true_eq]
    by_cases h : a = x <;> simp [h]

theorem firstSeen_snoc (a : String) : ∀ l : List String,
    firstSeen (l ++ [a]) = if a ∈ l then firstSeen l else firstSeen l ++ [a]
  | [] => by simp [firstSeen]
  | x :: l => by
    simp only [List.cons_append, firstSeen, firstSeen_snoc a l, List.mem_cons]
    by_cases h1 : a ∈ l
    · simp [h1]
    · by_cases h2 : a = x
      · subst h2
        simp [h1]
      · simp [h1, h2]

theorem firstSeen_nodup : ∀ l : List String, (firstSeen l).Nodup
  | [] => List.nodup_nil
  | x :: l => by
    simp only [firstSeen, List.nodup_cons, List.mem_filter, decide_eq_true_eq]
    exact ⟨fun h => h.2 rfl, (firstSeen_nodup l).filter _⟩

theorem newsAfter_snoc (T : Tables) (s : Sighting) : ∀ (rest : List Sighting) (prev : Sighting) (t : GoTime),
    newsAfter T prev.beacon t (rest ++ [s]) =
      if SameNews T ((prev :: rest).getLast (by simp)).beacon s.beacon then newsAfter T prev.beacon t rest
      else s.time
  | [], prev, t => rfl
  | x :: rest, prev, t => by
    simp only [List.cons_append, newsAfter]
    rw [newsAfter_snoc T s rest x]
    simp only [List.getLast_cons (by simp : x :: rest ≠ [])]

theorem sameNews_of_shows {T : Tables} {p : Peer} {a b : Beacon} (ha : p.Shows T a) :
    SameNews T a b ↔ p.Shows T b := by
  obtain ⟨a1, a2, a3, a4, a5⟩ := ha
  simp only [SameNews, Peer.Shows, List.mem_cons, List.not_mem_nil, or_false, forall_eq_or_imp,
    forall_eq, a3, a4, a5, a1, a2]
  constructor
  · rintro ⟨h1, h2, h3, h4, h5⟩; exact ⟨h1, h2, h3.symm, h4.symm, h5.symm⟩
  · rintro ⟨h1, h2, h3, h4, h5⟩; exact ⟨h1, h2, h3.symm, h4.symm, h5.symm⟩

end Saratoga
