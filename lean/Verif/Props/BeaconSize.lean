import Verif.Spec.BeaconSize
import Verif.Props.Discovery
import Verif.Props.PrintText
import Verif.Lemmas.Listing
/-! # C173: beacons are of a size that listeners look at -/
namespace Saratoga

variable {N : Type} [DecidableEq N]

theorem number_length (n : Nat) : (utf8 (toString n)).length = (Nat.toDigits 10 n).length := by
  rw [← decimal_eq]
  unfold decimal
  rw [List.length_map]

theorem built_eid {T : Tables} {env : DiskEnv} {d x : Beacon} {text : String} {info : Binfo}
    (built : d.new T env text info = .ret (x, none)) : x.eid = info.eid := by
  unfold Beacon.new at built
  obtain ⟨h1, a1, built⟩ := Out.bind_eq_ret built
  obtain ⟨h2, a2, built⟩ := Out.bind_eq_ret built
  obtain ⟨⟨d', e⟩, a3, built⟩ := Out.bind_eq_ret built
  cases e with
  | some e => cases built
  | none => exact (Beacon.finish_extra built).1

/-- **C173, exactly.** A beacon on the wire is a header of 4 bytes, 0, 2, 4 or 8 bytes of free space, the local address of
the connection, a dash and the process number in decimal: its length is the sum of these. -/
theorem C173_length (P : Plant N) (hT : ∀ n, (P.machine n).S.T = shipped) (fs : N → FS) (c : N → Cliflags)
    (es : List (NetEvent N)) (w : Network N) (h : NetLeads P fs c es w) (d : Packet N) (hd : d ∈ w.air) :
    ∃ line o source space l, .typed d.sender line o source ∈ es ∧ o.nearby d.dest = .ok l ∧
      (space = 0 ∨ space = 2 ∨ space = 4 ∨ space = 8) ∧
      d.bytes.length = 4 + space + (utf8 l).length + 1 + (Nat.toDigits 10 (P.machine d.sender).pid.toNat).length := by
  obtain ⟨before, after, line, o, source, w0, e, _, h3, h4, _, h6⟩ := C131_log h d hd
  obtain ⟨⟨l, hl⟩, x, b1, b2⟩ := emits_built h6
  have he := built_eid b1
  simp only [BeaconEnv.eid, hl] at he
  have len : x.eid.length = (utf8 l).length + 1 + (Nat.toDigits 10 (P.machine d.sender).pid.toNat).length := by
    rw [he, utf8_append, utf8_append, List.length_append, List.length_append, number_length,
      show (utf8 "-").length = 1 by decide +kernel]
    rfl
  have four : (be32 x.header).length = 4 := rfl
  refine ⟨line, o, source, ?_⟩
  have mem : NetEvent.typed d.sender line o source ∈ es := by rw [e]; simp
  rcases Beacon.encode_inv b2 with ⟨fsd, n, _, _, hn, e⟩ | ⟨fsp, _, _, e⟩
  · have hn' : n = 2 ∨ n = 4 ∨ n = 8 := by
      unfold descSize at hn
      split at hn
      · cases hn; simp
      · split at hn
        · cases hn; simp
        · split at hn
          · cases hn; simp
          · cases hn
    refine ⟨n, l, mem, hl, .inr hn', ?_⟩
    have e : d.bytes = _ := e
    rw [e, List.length_append, List.length_append, numBytes_length hn', len, four]
    omega
  · refine ⟨0, l, mem, hl, .inl rfl, ?_⟩
    have e : d.bytes = _ := e
    rw [e, List.length_append, len, four]
    omega

/-- **C173** Every beacon on the wire is of a size that listeners look at, on every interface that takes 146 bytes at
once. -/
theorem C173_sized (P : Plant N) (hT : ∀ n, (P.machine n).S.T = shipped) (fs : N → FS) (c : N → Cliflags)
    (es : List (NetEvent N)) (w : Network N) (h : NetLeads P fs c es w) (fit : AddressesFit (· ∈ es)) (d : Packet N)
    (hd : d ∈ w.air) (mtu : Nat) (hm : 146 ≤ mtu) : Sized mtu d.bytes := by
  obtain ⟨line, o, source, space, l, h1, h2, h3, h4⟩ := C173_length P hT fs c es w h d hd
  have := fit _ _ _ _ h1 _ _ h2
  have hp := (P.machine d.sender).pid.isLt
  have d1 : 0 < (Nat.toDigits 10 (P.machine d.sender).pid.toNat).length := Nat.length_toDigits_pos
  have d2 : (Nat.toDigits 10 (P.machine d.sender).pid.toNat).length ≤ 10 :=
    (Nat.length_toDigits_le_iff (by omega) (by omega)).2 (by omega)
  unfold Sized
  omega

/-- **C173, found.** So in a network that runs for ever nothing has to be asked of the sizes: whoever again and again sends
beacons to an address that a program hears is listed there in the end and for good. -/
theorem C173_found (P : Plant N) (hT : ∀ n, (P.machine n).S.T = shipped) (fs : N → FS) (c : N → Cliflags)
    (at_ : Nat → Network N) (does : Nat → NetEvent N) (run : NetForever P fs c at_ does)
    (fit : AddressesFit fun e => ∃ i, does i = e) (n : N) (hm : 146 ≤ (P.machine n).S.mtu)
    (running : ∀ i, ¬ ((at_ i).node n).Ended) (fair : SelectFair at_ does n) (s : UDPAddr)
    (network : LosesSome P at_ does n s) (sends : ∀ i, ∃ j, i ≤ j ∧ SentTo P at_ does n s j) :
    ∃ j, ∀ l, j ≤ l → (P.machine n).S.ipText s.ip ∈ ((at_ l).node n).net.peers.map Peer.addr := by
  refine C168_found P hT fs c at_ does run n running fair s network sends fun i d hd _ => ?_
  refine C173_sized P hT fs c _ _ (run.leads i) (fun m line o source h => fit m line o source ?_) d hd _ hm
  obtain ⟨k, _, e⟩ := List.mem_map.1 h
  exact ⟨k, e⟩

/-- Machine 1 sends beacons to machine 2 again and again, for ever, with addresses that fit. -/
example : ∃ at_ does, NetForever examplePlant (fun _ => exampleFS) (fun _ => shippedSettings) at_ does ∧
    AddressesFit (fun e => ∃ i, does i = e) ∧ 146 ≤ (examplePlant.machine 2).S.mtu ∧ (∀ n, (examplePlant.machine n).S.T = shipped) ∧
    (∀ i, ¬ ((at_ i).node 2).Ended) ∧ SelectFair at_ does 2 ∧
    LosesSome examplePlant at_ does 2 ⟨[1#8, 1#8, 1#8, 1#8], 5000, ""⟩ ∧
    (∀ i, ∃ j, i ≤ j ∧ SentTo examplePlant at_ does 2 ⟨[1#8, 1#8, 1#8, 1#8], 5000, ""⟩ j) := by
  obtain ⟨at_, does, h1, h2, h3, h4, h5, _, h7⟩ := two_rounds
  refine ⟨at_, does, h1, fun m line o source ⟨i, e⟩ a l hl => ?_, by decide, fun _ => rfl, h2, h3, h4, h5⟩
  rw [h7 i m line o source e] at hl
  cases hl
  decide +kernel

end Saratoga
