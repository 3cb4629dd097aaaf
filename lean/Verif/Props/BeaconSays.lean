import Verif.Props.BeaconCmd
/-! # What a beacon command says is what it does: C152 -/
namespace Saratoga

/-! ## Specification -/

/-- `k` beacons to an address, each with the pause after it. -/
def sentRounds (addr : UDPAddr) (frame : List Byte) (pause : Int) (k : Nat) : List BeaconAct :=
  (List.replicate k [.send addr frame, .sleep pause]).flatten

/-- What is done and said when `count` beacons are to go to an address. -/
inductive SendSays (E : BeaconEnv) (b : BeaconState) (addr : UDPAddr) : List BeaconAct → Prop
  /-- The address cannot be dialled: an error names it, and nothing is sent. -/
  | noDial {e : Err} (dial : E.dial addr = .error e) :
      SendSays E b addr [.show (.err ("Error:" ++ e ++ "Unable to Dial" ++ E.str addr))]
  /-- No beacon can be made: an error, and nothing is sent. -/
  | noBeacon {l : String} {e : Err} {x : Beacon} (dial : E.dial addr = .ok l)
      (made : Beacon.new E.T E.disk Beacon.zero b.flags ⟨0, utf8 (l ++ "-" ++ toString E.pid)⟩ = .ret (x, some e)) :
      SendSays E b addr [.show (.msg ("Sending beacon to " ++ E.str addr)), .show (.err ("New Beacon Error:" ++ e))]
  /-- All are sent, the same beacon each time, and no error is shown. -/
  | all {l : String} {x : Beacon} {frame : List Byte} (dial : E.dial addr = .ok l)
      (made : Beacon.new E.T E.disk Beacon.zero b.flags ⟨0, utf8 (l ++ "-" ++ toString E.pid)⟩ = .ret (x, none))
      (encoded : b.count ≠ 0 → x.encode E.T = .ret (.ok frame)) (good : ∀ i, i < b.count → E.fails addr i = none) :
      SendSays E b addr (.show (.msg ("Sending beacon to " ++ E.str addr)) :: sentRounds addr frame (sleepTime b.interval) b.count)
  /-- A write fails: the beacons before it are sent, an error names the address and the reason, no more are sent. -/
  | some {l : String} {x : Beacon} {frame : List Byte} {k : Nat} {e : Err} (dial : E.dial addr = .ok l)
      (made : Beacon.new E.T E.disk Beacon.zero b.flags ⟨0, utf8 (l ++ "-" ++ toString E.pid)⟩ = .ret (x, none))
      (encoded : x.encode E.T = .ret (.ok frame)) (few : k < b.count) (good : ∀ i, i < k → E.fails addr i = none)
      (bad : E.fails addr k = some e) :
      SendSays E b addr (.show (.msg ("Sending beacon to " ++ E.str addr)) ::
        (sentRounds addr frame (sleepTime b.interval) k ++
          [.show (.err ("Error:" ++ e ++ " Unable to send beacon to " ++ E.str addr))]))
  /-- The beacon cannot be encoded: an error names the address and the reason, and nothing is sent. -/
  | noEncode {l : String} {x : Beacon} {e : Err} (dial : E.dial addr = .ok l)
      (made : Beacon.new E.T E.disk Beacon.zero b.flags ⟨0, utf8 (l ++ "-" ++ toString E.pid)⟩ = .ret (x, none))
      (encoded : x.encode E.T = .ret (.error e)) (many : 0 < b.count) :
      SendSays E b addr [.show (.msg ("Sending beacon to " ++ E.str addr)),
        .show (.err ("Error:" ++ e ++ " Unable to send beacon to " ++ E.str addr))]

/-- What is done and said for one word that should be an address. -/
inductive WordSays (E : BeaconEnv) (b : BeaconState) (word : String) : List BeaconAct → Prop
  | bad {e : Err} (address : udpAddress E.resolve word = .error e) :
      WordSays E b word [.show (.err ("Invalid IP Address:" ++ word)), .show (.err (prusage E.H "beacon"))]
  | good {addr : UDPAddr} {acts : List BeaconAct} (address : udpAddress E.resolve word = .ok addr) (sent : SendSays E b addr acts) :
      WordSays E b word (.show (.msg ("Sending " ++ toString b.count ++ " beacons to " ++ E.str addr)) :: acts)

/-- What is done and said for several words, one after another. -/
inductive WordsSay (E : BeaconEnv) (b : BeaconState) : List String → List BeaconAct → Prop
  | nil : WordsSay E b [] []
  | cons {w : String} {ws : List String} {acts more : List BeaconAct} (first : WordSays E b w acts) (rest : WordsSay E b ws more) :
      WordsSay E b (w :: ws) (acts ++ more)

/-- The errors shown. -/
def shownErrors (acts : List BeaconAct) : List String :=
  acts.filterMap fun a => match a with
    | .show (.err e) => some e
    | _ => none

/-! ## Proof -/

theorem beaconLoop_says {E : BeaconEnv} {addr : UDPAddr} {x : Beacon} {frame : List Byte} {iv : Nat}
    (enc : x.encode E.T = .ret (.ok frame)) : ∀ (n i : Nat) (acts : List BeaconAct), beaconLoop E addr x iv n i = .ret acts →
      (acts = sentRounds addr frame (sleepTime iv) n ∧ ∀ j, j < n → E.fails addr (i + j) = none) ∨
      ∃ k e, k < n ∧ (∀ j, j < k → E.fails addr (i + j) = none) ∧ E.fails addr (i + k) = some e ∧
        acts = sentRounds addr frame (sleepTime iv) k ++
          [.show (.err ("Error:" ++ e ++ " Unable to send beacon to " ++ E.str addr))]
  | 0, i, acts, h => by
    cases h
    exact .inl ⟨rfl, fun j hj => absurd hj (Nat.not_lt_zero _)⟩
  | n + 1, i, acts, h => by
    unfold beaconLoop at h
    rw [enc, Out.ret_bind] at h
    simp only at h
    cases hf : E.fails addr i with
    | some e =>
      rw [hf] at h
      cases h
      exact .inr ⟨0, e, Nat.succ_pos _, fun j hj => absurd hj (Nat.not_lt_zero _), hf, rfl⟩
    | none =>
      rw [hf] at h
      simp only at h
      obtain ⟨_, -, h⟩ := Out.bind_eq_ret h
      obtain ⟨rest, hr, h⟩ := Out.bind_eq_ret h
      cases h
      have shift : ∀ m, (∀ j, j < m → E.fails addr (i + 1 + j) = none) → ∀ j, j < m + 1 → E.fails addr (i + j) = none := by
        intro m hm j hj
        cases j with
        | zero => exact hf
        | succ j => rw [← hm j (by omega)]; congr 1; omega
      rcases beaconLoop_says enc n (i + 1) rest hr with ⟨rfl, hg⟩ | ⟨k, e, hk, hg, hb, rfl⟩
      · exact .inl ⟨by simp [sentRounds, List.replicate_succ], shift n hg⟩
      · exact .inr ⟨k + 1, e, by omega, shift k hg, by rw [← hb]; congr 1; omega, by simp [sentRounds, List.replicate_succ]⟩

theorem send_says {E : BeaconEnv} {b : BeaconState} {addr : UDPAddr} {acts : List BeaconAct}
    (h : sendBeacons E b addr = .ret acts) : SendSays E b addr acts := by
  unfold sendBeacons at h
  cases hd : E.dial addr with
  | error e => rw [hd] at h; cases h; exact .noDial hd
  | ok l =>
    rw [hd] at h
    simp only at h
    obtain ⟨⟨x, e⟩, hn, h⟩ := Out.bind_eq_ret h
    cases e with
    | some e => cases h; exact .noBeacon hd hn
    | none =>
      simp only at h
      obtain ⟨t, ht, h⟩ := Out.bind_eq_ret h
      cases h
      by_cases h0 : b.count = 0
      · rw [h0] at ht
        cases ht
        have := SendSays.all (E := E) (b := b) (addr := addr) (frame := []) hd hn (fun h => absurd h0 h)
          (fun i hi => absurd hi (by omega))
        rw [h0] at this
        exact this
      · obtain ⟨n, hn'⟩ : ∃ n, b.count = n + 1 := ⟨b.count - 1, by omega⟩
        have henc : ∃ r, x.encode E.T = .ret r := by
          rw [hn'] at ht
          unfold beaconLoop at ht
          obtain ⟨r, hr, -⟩ := Out.bind_eq_ret ht
          exact ⟨r, hr⟩
        obtain ⟨r, hr⟩ := henc
        cases r with
        | error e =>
          rw [hn'] at ht
          unfold beaconLoop at ht
          rw [hr] at ht
          cases ht
          exact .noEncode hd hn hr (by omega)
        | ok frame =>
          rcases beaconLoop_says hr _ _ _ ht with ⟨rfl, hg⟩ | ⟨k, e, hk, hg, hb, rfl⟩
          · exact .all hd hn (fun _ => hr) (fun i hi => by have := hg i hi; rwa [Nat.zero_add] at this)
          · exact .some hd hn hr hk (fun i hi => by have := hg i hi; rwa [Nat.zero_add] at this) (by rwa [Nat.zero_add] at hb)

theorem word_says {E : BeaconEnv} {b b' : BeaconState} {a : String} {acts : List BeaconAct}
    (h : beaconWord E false b a = .ret (b', acts)) : b' = b ∧ WordSays E b a acts := by
  unfold beaconWord at h
  cases ha : udpAddress E.resolve a with
  | error e => rw [ha] at h; cases h; exact ⟨rfl, .bad ha⟩
  | ok addr =>
    rw [ha] at h
    simp only [Bool.false_eq_true, if_false] at h
    obtain ⟨t, ht, h⟩ := Out.bind_eq_ret h
    cases h
    exact ⟨rfl, .good ha (send_says ht)⟩

theorem words_say {E : BeaconEnv} : ∀ {ws : List String} {b b' : BeaconState} {acts : List BeaconAct},
    beaconWords E false b ws = .ret (b', acts) → b' = b ∧ WordsSay E b ws acts
  | [], b, b', acts, h => by cases h; exact ⟨rfl, .nil⟩
  | w :: ws, b, b', acts, h => by
    unfold beaconWords at h
    obtain ⟨⟨b1, a1⟩, h1, h⟩ := Out.bind_eq_ret h
    obtain ⟨⟨b2, a2⟩, h2, h⟩ := Out.bind_eq_ret h
    cases h
    obtain ⟨rfl, s1⟩ := word_says h1
    obtain ⟨rfl, s2⟩ := words_say h2
    exact ⟨rfl, .cons s1 s2⟩

theorem shownErrors_append (a b : List BeaconAct) : shownErrors (a ++ b) = shownErrors a ++ shownErrors b := by
  unfold shownErrors; rw [List.filterMap_append]

theorem rounds_errors (addr : UDPAddr) (frame : List Byte) (p : Int) : ∀ k, shownErrors (sentRounds addr frame p k) = []
  | 0 => rfl
  | k + 1 => by
    have := rounds_errors addr frame p k
    unfold sentRounds at this ⊢
    rw [List.replicate_succ, List.flatten_cons, shownErrors_append, this]
    rfl

theorem rounds_sends (addr : UDPAddr) (frame : List Byte) (p : Int) : ∀ k,
    sends (sentRounds addr frame p k) = List.replicate k (addr, frame)
  | 0 => rfl
  | k + 1 => by
    have := rounds_sends addr frame p k
    unfold sentRounds at this ⊢
    rw [List.replicate_succ, List.flatten_cons, sends_append, this]
    rfl

/-! ## Theorems -/

/-- **C152** A command with one address: what is said and what is done belong together. -/
theorem C152_address (E : BeaconEnv) (c : Cliflags) (b b' : BeaconState) (cmd a : String) (acts : List BeaconAct)
    (address : a ∉ ["?", "off", "v4", "v6"]) (ran : cmdBeacon E c b [cmd, a] = .ret (b', acts)) :
    WordSays E (b.load E c) a acts := by
  simp only [List.mem_cons, List.not_mem_nil, or_false, not_or] at address
  unfold cmdBeacon at ran
  simp only [address, if_false] at ran
  cases ha : udpAddress E.resolve a with
  | error e => rw [ha] at ran; cases ran; exact .bad ha
  | ok addr =>
    rw [ha] at ran
    simp only at ran
    obtain ⟨t, ht, ran⟩ := Out.bind_eq_ret ran
    cases ran
    exact .good ha (send_says ht)

example : (cmdBeacon calmBeacons shippedSettings .init ["beacon", "1.1.1.1"]).returns ∧
    "1.1.1.1" ∉ ["?", "off", "v4", "v6"] := by decide +kernel

/-- **C152** A command with several words: so for each of them from the second on, in order. (The first is skipped, C84.) -/
theorem C152_several (E : BeaconEnv) (c : Cliflags) (b b' : BeaconState) (cmd w a : String) (rest : List String)
    (acts : List BeaconAct) (on : w ≠ "off") (ran : cmdBeacon E c b (cmd :: w :: a :: rest) = .ret (b', acts)) :
    WordsSay E (b.load E c) (a :: rest) acts := by
  unfold cmdBeacon at ran
  simp only at ran
  rw [show (w == "off") = false from by simpa using on] at ran
  exact (words_say ran).2

example : (cmdBeacon calmBeacons shippedSettings .init ["beacon", "v4", "1.1.1.1", "2.2.2.2"]).returns ∧ "v4" ≠ "off" := by
  decide +kernel

/-- **C152 (partial)** The multicast commands: the line says that beacons are sent, and if the group is an address, what is
said and done for it belong together. Missing: a group that is none, for which nothing is sent and nothing more said. -/
theorem C152_multicast_partial (E : BeaconEnv) (c : Cliflags) (b b' : BeaconState) (cmd : String) (six : Bool) (addr : UDPAddr)
    (acts : List BeaconAct) (group : udpAddress E.resolve (if six then c.v6multicast else c.v4multicast) = .ok addr)
    (ran : cmdBeacon E c b [cmd, if six then "v6" else "v4"] = .ret (b', acts)) :
    ∃ tail, acts = .show (.msg (if six then "Sending beacon to IPv6 Multicast" else "Sending beacon to IPv4 Multicast")) :: tail ∧
      SendSays E (b.load E c) addr tail ∧
      b' = (if six then { b.load E c with v6mcast := true } else { b.load E c with v4mcast := true }) := by
  have same : ∀ (u : BeaconState), u.count = (b.load E c).count → u.interval = (b.load E c).interval → u.flags = (b.load E c).flags →
      sendBeacons E u addr = sendBeacons E (b.load E c) addr := by
    intro u h1 h2 h3
    unfold sendBeacons
    rw [h1, h2, h3]
  unfold cmdBeacon at ran
  cases six <;> simp only [Bool.false_eq_true, if_false, if_true] at group ran ⊢
  · rw [if_neg (by decide), if_neg (by decide)] at ran
    unfold beaconMulticast at ran
    rw [group] at ran
    simp only at ran
    obtain ⟨t, ht, ran⟩ := Out.bind_eq_ret ran
    cases ran
    exact ⟨t, rfl, send_says ((same _ rfl rfl rfl).symm.trans ht), rfl⟩
  · rw [if_neg (by decide), if_neg (by decide), if_neg (by decide)] at ran
    unfold beaconMulticast at ran
    rw [group] at ran
    simp only at ran
    obtain ⟨t, ht, ran⟩ := Out.bind_eq_ret ran
    cases ran
    exact ⟨t, rfl, send_says ((same _ rfl rfl rfl).symm.trans ht), rfl⟩

example : (cmdBeacon calmBeacons shippedSettings .init ["beacon", "v6"]).returns ∧
    (udpAddress calmBeacons.resolve shippedSettings.v6multicast).toOption.isSome := by decide +kernel

/-- **C152** No error shown means that the configured number of beacons was sent to that address, all the same, and to no
other; and an error means that fewer were, or none were to be sent. -/
theorem C152_no_error (E : BeaconEnv) (b : BeaconState) (addr : UDPAddr) (acts : List BeaconAct) (h : SendSays E b addr acts) :
    (shownErrors acts = [] → ∃ frame, sends acts = List.replicate b.count (addr, frame)) ∧
    (shownErrors acts ≠ [] → ∃ frame k, sends acts = List.replicate k (addr, frame) ∧ (k < b.count ∨ b.count = 0)) := by
  cases h with
  | noDial dial => exact ⟨fun h => (by cases h), fun _ => ⟨[], 0, rfl, by omega⟩⟩
  | noBeacon dial made => exact ⟨fun h => (by cases h), fun _ => ⟨[], 0, rfl, by omega⟩⟩
  | noEncode dial made enc many => exact ⟨fun h => (by cases h), fun _ => ⟨[], 0, rfl, .inl many⟩⟩
  | all dial made enc good =>
    rename_i l x frame
    refine ⟨fun _ => ⟨frame, by rw [sends_show, rounds_sends]⟩, fun h => absurd ?_ h⟩
    exact rounds_errors ..
  | some dial made enc few good bad =>
    rename_i l x frame k e
    refine ⟨fun h => ?_, fun _ => ⟨frame, k, by simp [rounds_sends], .inl few⟩⟩
    have : shownErrors (sentRounds addr frame (sleepTime b.interval) k ++
        [.show (.err ("Error:" ++ e ++ " Unable to send beacon to " ++ E.str addr))]) = [] := h
    rw [shownErrors_append] at this
    simp [shownErrors] at this

example := C152_no_error { calmBeacons with dial := fun _ => .error "unreachable" } .init ⟨utf8 "1.1.1.1", 7542, ""⟩ _
  (.noDial rfl)

/-- **C152** The other forms: alone it lists what is on, with the configured number; `off` says that beacons are disabled;
a question mark gives help and usage. Nothing is sent. -/
theorem C152_others (E : BeaconEnv) (c : Cliflags) (b : BeaconState) (cmd : String) :
    (∃ b', cmdBeacon E c b [cmd, "off"] = .ret (b', [.show (.msg "Beacons Disabled")]) ∧ b'.hosts = []) ∧
    cmdBeacon E c b [cmd, "?"] =
      .ret (b.load E c, [.show (.msg (prhelp E.H "beacon")), .show (.msg (prusage E.H "beacon"))]) ∧
    (b.hosts = [] → cmdBeacon E c b [cmd] = .ret (b.load E c,
      if b.v4mcast = false ∧ b.v6mcast = false then [.show (.msg "No beacons currently being sent")]
      else
        (if b.v4mcast then [.show (.msg ("Sending " ++ toString c.bcount ++ " IPv4 multicast beacons"))] else []) ++
        (if b.v6mcast then [.show (.msg ("Sending " ++ toString c.bcount ++ " IPv6 multicast beacons"))] else []))) := by
  refine ⟨⟨_, rfl, rfl⟩, rfl, fun h => ?_⟩
  show Out.ret (b.load E c, beaconList E (b.load E c)) = _
  unfold beaconList BeaconState.load
  cases h4 : b.v4mcast <;> cases h6 : b.v6mcast <;> simp [h]

/-- **C152** fails for a multicast group that is no address: the program says that it sends and sends nothing. -/
theorem C152_counterexample (E : BeaconEnv) (c : Cliflags) (b : BeaconState) (e : Err)
    (group : udpAddress E.resolve c.v4multicast = .error e) :
    ∃ b', cmdBeacon E c b ["beacon", "v4"] = .ret (b', [.show (.msg "Sending beacon to IPv4 Multicast")]) := by
  unfold cmdBeacon
  simp only
  rw [if_neg (by decide), if_neg (by decide), if_pos trivial]
  unfold beaconMulticast
  rw [group]
  exact ⟨_, rfl⟩

/-- A world in which no name is known. -/
example : (match udpAddress { calmBeacons with resolve := fun _ => .error "no such host" }.resolve
      shippedSettings.v4multicast with
    | .error _ => true
    | .ok _ => false) = true := by decide +kernel

/-- The second write fails: one beacon, and one error. -/
example : (match cmdBeacon { calmBeacons with fails := fun _ i => if i = 1 then some "refused" else none } shippedSettings
      BeaconState.init ["beacon", "1.1.1.1"] with
    | .ret (_, acts) => (sends acts).length == 1 && (shownErrors acts).length == 1
    | _ => false) = true := by decide +kernel

/-- All goes well: three beacons to each address but the first, and no error. -/
example : (match cmdBeacon calmBeacons shippedSettings BeaconState.init ["beacon", "1.1.1.1", "2.2.2.2", "3.3.3.3"] with
    | .ret (_, acts) => (sends acts).length == 6 && (shownErrors acts).isEmpty
    | _ => false) = true := by decide +kernel

end Saratoga
