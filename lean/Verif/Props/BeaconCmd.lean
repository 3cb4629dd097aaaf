import Verif.Spec.BeaconCmd
import Verif.Props.Sarnet
import Verif.Props.Teach
import Verif.Props.Settings
/-! # C82 - C86: the beacon command -/
namespace Saratoga

/-! ## Helper lemmas -/

@[simp] theorem sends_nil : sends [] = [] := rfl
@[simp] theorem sends_show (s : Shown) (l) : sends (.show s :: l) = sends l := rfl
@[simp] theorem sends_send (d : UDPAddr) (f : List Byte) (l) : sends (.send d f :: l) = (d, f) :: sends l := rfl
@[simp] theorem sends_sleep (n : Int) (l) : sends (.sleep n :: l) = sends l := rfl
@[simp] theorem sends_append (a b : List BeaconAct) : sends (a ++ b) = sends a ++ sends b := by
  unfold sends; rw [List.filterMap_append]
@[simp] theorem sleeps_nil : sleeps [] = [] := rfl
@[simp] theorem sleeps_show (s : Shown) (l) : sleeps (.show s :: l) = sleeps l := rfl
@[simp] theorem sleeps_send (d : UDPAddr) (f : List Byte) (l) : sleeps (.send d f :: l) = sleeps l := rfl
@[simp] theorem sleeps_sleep (n : Int) (l) : sleeps (.sleep n :: l) = n :: sleeps l := rfl
@[simp] theorem sleeps_append (a b : List BeaconAct) : sleeps (a ++ b) = sleeps a ++ sleeps b := by
  unfold sleeps; rw [List.filterMap_append]

theorem sends_bad (E : BeaconEnv) (a : String) : sends (badBeaconAddress E a) = [] := rfl
theorem sends_shows (l : List Shown) : sends (l.map .show) = [] := by
  induction l with
  | nil => rfl
  | cons a l ih => simpa using ih

theorem sends_list (E : BeaconEnv) (b : BeaconState) : sends (beaconList E b) = [] := by
  have : ∀ l : List UDPAddr, sends (l.map fun h => BeaconAct.show (.msg ("\t" ++ E.str h))) = [] := by
    intro l; induction l with
    | nil => rfl
    | cons a l ih => simpa using ih
  unfold beaconList
  split
  · rfl
  · simp only [sends_append]
    split <;> split <;> split <;> simp [this]

/-- The settings a command works with. -/
def BeaconState.load (E : BeaconEnv) (c : Cliflags) (b : BeaconState) : BeaconState :=
  { b with flags := setglobal E.T "beacon" c.global, interval := c.timeout.binterval, count := c.bcount }

theorem beaconLoop_good {E : BeaconEnv} {addr : UDPAddr} {txb : Beacon} {frame : List Byte} {iv : Nat}
    (enc : txb.encode E.T = .ret (.ok frame)) (pr : txb.shortPrint E.T = .ret ())
    (w : ∀ i, E.fails addr i = none) : ∀ n i, ∃ acts, beaconLoop E addr txb iv n i = .ret acts ∧
      sends acts = List.replicate n (addr, frame) ∧ sleeps acts = List.replicate n (sleepTime iv)
  | 0, _ => ⟨[], rfl, rfl, rfl⟩
  | n + 1, i => by
    obtain ⟨acts, h1, h2, h3⟩ := beaconLoop_good (iv := iv) enc pr w n (i + 1)
    refine ⟨.send addr frame :: .sleep (sleepTime iv) :: acts, ?_, ?_, ?_⟩
    · unfold beaconLoop
      simp only [enc, Out.ret_bind, w, pr, h1, Out.pure_eq]
    · simp [h2, List.replicate_succ]
    · simp [h3, List.replicate_succ]

/-- Whatever happens, the loop puts some number of times one frame on the wire, at most as often as asked. -/
theorem beaconLoop_any {E : BeaconEnv} {addr : UDPAddr} {txb : Beacon} {iv : Nat} : ∀ n i acts,
    beaconLoop E addr txb iv n i = .ret acts → ∃ m frame, m ≤ n ∧ sends acts = List.replicate m (addr, frame) ∧
      sleeps acts = List.replicate m (sleepTime iv) ∧ (m ≠ 0 → txb.encode E.T = .ret (.ok frame))
  | 0, _, acts, h => by cases h; exact ⟨0, [], Nat.le_refl _, rfl, rfl, fun h => absurd rfl h⟩
  | n + 1, i, acts, h => by
    unfold beaconLoop at h
    obtain ⟨r, h1, h⟩ := Out.bind_eq_ret h
    cases r with
    | error e => cases h; exact ⟨0, [], Nat.zero_le _, rfl, rfl, fun h => absurd rfl h⟩
    | ok frame =>
      simp only at h
      cases hf : E.fails addr i with
      | some e => rw [hf] at h; cases h; exact ⟨0, [], Nat.zero_le _, rfl, rfl, fun h => absurd rfl h⟩
      | none =>
        rw [hf] at h
        obtain ⟨_, _, h⟩ := Out.bind_eq_ret h
        obtain ⟨rest, h3, h⟩ := Out.bind_eq_ret h
        cases h
        obtain ⟨m, f', hm, hs, hl, he⟩ := beaconLoop_any n (i + 1) rest h3
        refine ⟨m + 1, frame, by omega, ?_, ?_, fun _ => h1⟩
        · cases m with
          | zero => simp [hs]
          | succ m =>
            have := he (by omega)
            rw [h1] at this
            cases this
            simp [hs, List.replicate_succ]
        · simp [hl, List.replicate_succ]

/-- A node that reads the frame as a datagram learns the settings `gl` and the name `eid`. -/
def Teaches (gl : List (String × String)) (eid : List Byte) (bs ba : BitVec 64) (frame : List Byte) : Prop :=
  ∀ (S : Setup), S.T = shipped → Sized S.mtu frame →
  ∀ (w : World) (fam : Fam), w.main = .select → w.listener fam = .reading →
  ∀ (src : UDPAddr) (t0 t1 : GoTime), ∃ w1 w2, w.step S (.recv ⟨fam, t0, frame, src⟩) = some w1 ∧
    w1.step S (.takeRx fam t1) = some w2 ∧ w2.main = .select ∧
    ∃ p ∈ w2.peers, p.addr = S.ipText src.ip ∧ Learned gl ⟨0, eid⟩ bs ba p

theorem shortPrint_shipped (x : Beacon) : x.shortPrint shipped = .ret () := by
  unfold Beacon.shortPrint
  rw [getStr_freespace]
  split <;> rfl

/-- One round of sending when all goes well. -/
theorem sendBeacons_good {E : BeaconEnv} (works : E.Works) {c : Cliflags} (ok : ValidGlobal shipped c.global)
    (b : BeaconState) (addr : UDPAddr) {bs ba : BitVec 64} (st : E.disk.statfs = .ok (bs, ba)) :
    ∃ acts frame, sendBeacons E (b.load E c) addr = .ret acts ∧
      sends acts = List.replicate c.bcount (addr, frame) ∧
      sleeps acts = List.replicate c.bcount (sleepTime c.timeout.binterval) ∧
      Teaches c.global (E.eid addr) bs ba frame := by
  obtain ⟨l, hl⟩ := works.dials addr
  obtain ⟨x, frame, hx, henc, teach⟩ := C61_learns_partial c.global ok E.disk bs ba works.wd st Beacon.zero
    ⟨0, E.eid addr⟩ (by simp)
  have hT := works.tables
  obtain ⟨acts, h1, h2, h3⟩ := beaconLoop_good (E := E) (addr := addr) (iv := c.timeout.binterval)
    (by rw [hT]; exact henc) (by rw [hT]; exact shortPrint_shipped x) (works.writes addr) c.bcount 0
  refine ⟨.show (.msg ("Sending beacon to " ++ E.str addr)) :: acts, frame, ?_, ?_, ?_, teach⟩
  · have he : E.eid addr = utf8 (l ++ "-" ++ toString E.pid) := by unfold BeaconEnv.eid; rw [hl]
    unfold sendBeacons
    rw [hl]
    simp only [BeaconState.load, hT]
    rw [← he, hx]
    simp only [Out.ret_bind, h1, Out.pure_eq]
  · simpa using h2
  · simpa using h3

theorem Beacon.finish_returns (env : DiskEnv) (b : Beacon) (info : Binfo) :
    ∃ r, Beacon.finish shipped env b info = .ret r := by
  have hset : ∀ (h : BitVec 32) (f o : String), valid shipped f o = true → ∃ h', set shipped h f o = .ret h' := by
    intro h f o ho
    rcases set_verdict (T := shipped) h f o with ⟨_, h', a⟩ | ⟨a, _⟩
    · exact ⟨h', a⟩
    · rw [ho] at a; cases a
  obtain ⟨h16, e16⟩ := hset b.header "freespaced" "d16" (by decide +kernel)
  obtain ⟨h32, e32⟩ := hset b.header "freespaced" "d32" (by decide +kernel)
  obtain ⟨h64, e64⟩ := hset b.header "freespaced" "d64" (by decide +kernel)
  obtain ⟨hno, eno⟩ := hset b.header "freespace" "no" (by decide +kernel)
  unfold Beacon.finish
  simp only [getStr_freespace, Out.ret_bind]
  by_cases hy : freeNumber b.header = 1
  · simp only [hy, if_true]
    cases env.getwd with
    | some e => simp only [eno, Out.ret_bind]; exact ⟨_, rfl⟩
    | none =>
      simp only
      generalize (if info.freespace = 0#64 then
          match env.statfs with
          | .error _ => none
          | .ok (bsize, bavail) => some ((bsize * bavail) / 1024#64)
        else some info.freespace : Option (BitVec 64)) = fs
      cases fs with
      | none => simp only [eno, Out.ret_bind]; exact ⟨_, rfl⟩
      | some v =>
        simp only [e16, e32, e64, Out.ret_bind]
        split
        · exact ⟨_, rfl⟩
        · split
          · exact ⟨_, rfl⟩
          · split <;> exact ⟨_, rfl⟩
  · simp only [hy, if_false]
    simp only [show ¬ ("no" = "yes") by decide, if_false, if_true]
    exact ⟨_, rfl⟩

theorem Beacon.encode_returns (b : Beacon) : ∃ r, b.encode shipped = .ret r := by
  by_cases hy : freeNumber b.header = 1
  · have k : getStr shipped b.header "freespace" = .ret "yes" := by rw [getStr_freespace, if_pos hy]
    have hd := getStr_freespaced b.header
    have hsz := descSize_nameOf (freeDescNumber b.header)
    cases hs : descSize (descNameOf (freeDescNumber b.header)) with
    | none =>
      unfold Beacon.encode
      simp only [k, hd, Out.ret_bind, if_true, hs]
      exact ⟨_, rfl⟩
    | some n => exact ⟨_, Beacon.encode_yes k hd hs⟩
  · have k : getStr shipped b.header "freespace" = .ret "no" := by rw [getStr_freespace, if_neg hy]
    exact ⟨_, Beacon.encode_no k (by decide)⟩

theorem beaconLoop_returns {E : BeaconEnv} (hT : E.T = shipped) {addr : UDPAddr} {txb : Beacon} {iv : Nat} :
    ∀ n i, ∃ acts, beaconLoop E addr txb iv n i = .ret acts
  | 0, _ => ⟨[], rfl⟩
  | n + 1, i => by
    obtain ⟨rest, h⟩ := beaconLoop_returns hT (addr := addr) (txb := txb) (iv := iv) n (i + 1)
    obtain ⟨r, hr⟩ := Beacon.encode_returns txb
    unfold beaconLoop
    rw [hT, hr]
    simp only [Out.ret_bind]
    cases r with
    | error e => exact ⟨_, rfl⟩
    | ok frame =>
      simp only
      cases E.fails addr i with
      | some e => exact ⟨_, rfl⟩
      | none => simp only [shortPrint_shipped, Out.ret_bind, h]; exact ⟨_, rfl⟩

/-- Sending never ends the process while the settings are legal, whatever the disk and the network answer, and
puts at most `count` equal frames on the wire, all to the one address. -/
theorem sendBeacons_any {E : BeaconEnv} (hT : E.T = shipped) {c : Cliflags} (ok : ValidGlobal shipped c.global)
    (b : BeaconState) (addr : UDPAddr) :
    ∃ acts m frame, sendBeacons E (b.load E c) addr = .ret acts ∧ m ≤ c.bcount ∧
      sends acts = List.replicate m (addr, frame) := by
  unfold sendBeacons
  cases hl : E.dial addr with
  | error e => exact ⟨_, 0, [], rfl, Nat.zero_le _, rfl⟩
  | ok l =>
    simp only
    generalize (⟨0, utf8 (l ++ "-" ++ toString E.pid)⟩ : Binfo) = info
    have hnew : ∃ r, Beacon.new E.T E.disk Beacon.zero (b.load E c).flags info = .ret r := by
      obtain ⟨x, hx, -⟩ := C14_beacon c.global ok ⟨none, .ok (0, 0)⟩ 0 0 rfl rfl Beacon.zero ⟨0, []⟩ (by simp)
      simp only [BeaconState.load, hT]
      unfold Beacon.new at hx ⊢
      obtain ⟨h1, a1, hx⟩ := Out.bind_eq_ret hx
      obtain ⟨h2, a2, hx⟩ := Out.bind_eq_ret hx
      obtain ⟨⟨d', e⟩, a3, hx⟩ := Out.bind_eq_ret hx
      simp only [a1, a2, a3, Out.ret_bind]
      cases e with
      | some e => exact ⟨_, rfl⟩
      | none => exact Beacon.finish_returns E.disk d' info
    obtain ⟨⟨txb, e⟩, hx⟩ := hnew
    rw [hx]
    simp only [Out.ret_bind]
    cases e with
    | some e => exact ⟨_, 0, [], rfl, Nat.zero_le _, rfl⟩
    | none =>
      obtain ⟨acts, h⟩ := beaconLoop_returns hT (addr := addr) (txb := txb) (iv := (b.load E c).interval)
        (b.load E c).count 0
      obtain ⟨m, frame, hm, hs, -, -⟩ := beaconLoop_any _ _ _ h
      simp only [h, Out.ret_bind]
      exact ⟨_, m, frame, rfl, hm, by simpa using hs⟩

/-! ## C82: what a beacon command sends -/

/-- **C82** A beacon command with one word that means an address (`v4` and `v6` mean the multicast groups) puts
the configured number of frames on the wire, all to that address, pauses after each of them, and every node that
reads one learns this node's settings and name. -/
theorem C82_sends {E : BeaconEnv} (works : E.Works) {c : Cliflags} (ok : ValidGlobal shipped c.global)
    (b : BeaconState) (cmd w : String) (word : w ≠ "?" ∧ w ≠ "off") {addr : UDPAddr}
    (target : meant E c w = some addr) {bs ba : BitVec 64} (st : E.disk.statfs = .ok (bs, ba)) :
    ∃ b' acts frame, cmdBeacon E c b [cmd, w] = .ret (b', acts) ∧
      sends acts = List.replicate c.bcount (addr, frame) ∧
      sleeps acts = List.replicate c.bcount (sleepTime c.timeout.binterval) ∧
      Teaches c.global (E.eid addr) bs ba frame := by
  have res : ∀ {g : String}, (udpAddress E.resolve g).toOption = some addr → udpAddress E.resolve g = .ok addr := by
    intro g h
    cases e : udpAddress E.resolve g with
    | error x => rw [e] at h; cases h
    | ok a => rw [e] at h; cases h; rfl
  unfold meant at target
  unfold cmdBeacon
  simp only [word.1, word.2, if_false]
  by_cases h4 : w = "v4"
  · subst h4
    simp only [if_true] at target ⊢
    obtain ⟨acts, frame, h1, h2, h3, h4⟩ := sendBeacons_good works ok { b with v4mcast := true } addr st
    unfold BeaconState.load at h1
    simp only at h1
    unfold beaconMulticast
    rw [res target]
    simp only [h1, Out.ret_bind, Out.pure_eq]
    exact ⟨_, _, frame, rfl, by simpa using h2, by simpa using h3, h4⟩
  · by_cases h6 : w = "v6"
    · subst h6
      simp only [String.reduceEq, if_true, if_false] at target ⊢
      obtain ⟨acts, frame, h1, h2, h3, h4⟩ := sendBeacons_good works ok { b with v6mcast := true } addr st
      unfold BeaconState.load at h1
      simp only at h1
      unfold beaconMulticast
      rw [res target]
      simp only [h1, Out.ret_bind, Out.pure_eq]
      exact ⟨_, _, frame, rfl, by simpa using h2, by simpa using h3, h4⟩
    · simp only [h4, h6, if_false] at target ⊢
      obtain ⟨acts, frame, h1, h2, h3, h4⟩ := sendBeacons_good works ok b addr st
      unfold BeaconState.load at h1
      rw [res target]
      simp only [h1, Out.ret_bind, Out.pure_eq]
      exact ⟨_, _, frame, rfl, by simpa [sendingLine] using h2, by simpa [sendingLine] using h3, h4⟩

/-- The pause is the interval in seconds. Missing for the full C82: intervals of more than 292 years, see
`C82_counterexample`. -/
theorem C82_interval_partial (n : Nat) (h : n ≤ 9223372036) : sleepTime n = n * 1000000000 := by
  unfold sleepTime
  rw [BitVec.toInt_eq_toNat_of_lt]
  · rw [BitVec.toNat_mul, BitVec.toNat_ofNat]
    show (((n % 2 ^ 64) * 1000000000 % 2 ^ 64 : Nat) : Int) = _
    rw [Nat.mod_eq_of_lt (by omega : n < 2 ^ 64), Nat.mod_eq_of_lt (by omega)]
    omega
  · rw [BitVec.toNat_mul, BitVec.toNat_ofNat]
    show 2 * ((n % 2 ^ 64) * 1000000000 % 2 ^ 64) < 2 ^ 64
    rw [Nat.mod_eq_of_lt (by omega : n < 2 ^ 64), Nat.mod_eq_of_lt (by omega)]
    omega

example := C82_interval_partial 3 (by decide)

/-- C82 as stated fails for the largest intervals: the user can set one for which the program does not pause at
all (a negative time). -/
theorem C82_counterexample (H : CmdTable) (c : Cliflags) :
    (settingCmd H c ["interval", "9223372037"]).1.timeout.binterval = 9223372037 ∧ sleepTime 9223372037 < 0 :=
  ⟨rfl, by decide⟩

/-! ## C83: turning beacons off -/

theorem beaconWord_state {E : BeaconEnv} {off : Bool} {b b' : BeaconState} {a : String} {acts}
    (h : beaconWord E off b a = .ret (b', acts)) :
    b'.v4mcast = b.v4mcast ∧ b'.v6mcast = b.v6mcast ∧ (b.hosts = [] → b'.hosts = []) := by
  unfold beaconWord at h
  split at h
  · cases h; exact ⟨rfl, rfl, id⟩
  · split at h
    · cases h
      refine ⟨rfl, rfl, fun e => ?_⟩
      simp only [e]
      unfold removeUDPAddrValue removeLoop
      rfl
    · obtain ⟨acts', _, h⟩ := Out.bind_eq_ret h
      cases h
      exact ⟨rfl, rfl, id⟩

theorem beaconWords_state {E : BeaconEnv} {off : Bool} {args : List String} : ∀ {b b' : BeaconState} {acts},
    beaconWords E off b args = .ret (b', acts) →
    b'.v4mcast = b.v4mcast ∧ b'.v6mcast = b.v6mcast ∧ (b.hosts = [] → b'.hosts = []) := by
  induction args with
  | nil => intro b b' acts h; cases h; exact ⟨rfl, rfl, id⟩
  | cons a rest ih =>
    intro b b' acts h
    unfold beaconWords at h
    obtain ⟨⟨b1, acts1⟩, h1, h⟩ := Out.bind_eq_ret h
    obtain ⟨⟨b2, acts2⟩, h2, h⟩ := Out.bind_eq_ret h
    cases h
    have x := beaconWord_state h1
    have y := ih h2
    exact ⟨y.1.trans x.1, y.2.1.trans x.2.1, fun e => y.2.2 (x.2.2 e)⟩

theorem cmdBeacon_state {E : BeaconEnv} {c : Cliflags} {b b' : BeaconState} {args : List String} {acts}
    (h : cmdBeacon E c b args = .ret (b', acts)) :
    (b'.v4mcast = true ↔ b.v4mcast = true ∨ args.tail = ["v4"]) ∧
    (b'.v6mcast = true ↔ b.v6mcast = true ∨ args.tail = ["v6"]) ∧
    (b.hosts = [] → b'.hosts = []) := by
  unfold cmdBeacon at h
  simp only at h
  split at h
  · cases h; simp
  · rename_i x a
    simp only [List.tail_cons, List.cons.injEq, and_true]
    split at h
    · rename_i e; subst e; cases h; simp
    · split at h
      · rename_i e; subst e; cases h; simp
      · split at h
        · rename_i e; subst e
          unfold beaconMulticast at h
          split at h
          · cases h; simp
          · obtain ⟨acts', _, h⟩ := Out.bind_eq_ret h
            cases h; simp
        · split at h
          · rename_i e; subst e
            unfold beaconMulticast at h
            split at h
            · cases h; simp
            · obtain ⟨acts', _, h⟩ := Out.bind_eq_ret h
              cases h; simp
          · rename_i n4 n6
            split at h
            · obtain ⟨acts', _, h⟩ := Out.bind_eq_ret h
              cases h; simp [n4, n6]
            · cases h; simp [n4, n6]
  · rename_i x a rest no
    have := beaconWords_state h
    cases rest with
    | nil => exact absurd rfl no
    | cons r rest => rw [this.1, this.2.1]; simpa using this.2.2
  · cases h; simp

theorem beaconRun_state {lines : List (BeaconEnv × Cliflags × List String)} : ∀ {b b' : BeaconState} {acts},
    beaconRun b lines = .ret (b', acts) →
    (b'.v4mcast = true ↔ b.v4mcast = true ∨ ∃ l ∈ lines, l.2.2.tail = ["v4"]) ∧
    (b'.v6mcast = true ↔ b.v6mcast = true ∨ ∃ l ∈ lines, l.2.2.tail = ["v6"]) ∧
    (b.hosts = [] → b'.hosts = []) := by
  induction lines with
  | nil => intro b b' acts h; cases h; simp
  | cons l rest ih =>
    obtain ⟨E, c, args⟩ := l
    intro b b' acts h
    unfold beaconRun at h
    obtain ⟨⟨b1, acts1⟩, h1, h⟩ := Out.bind_eq_ret h
    obtain ⟨⟨b2, acts2⟩, h2, h⟩ := Out.bind_eq_ret h
    cases h
    have x := cmdBeacon_state h1
    have y := ih h2
    refine ⟨?_, ?_, fun e => y.2.2 (x.2.2 e)⟩
    · rw [y.1, x.1]; simp [or_assoc]
    · rw [y.2.1, x.2.1]; simp [or_assoc]

/-- What `beacon` answers after any commands: that none are sent, exactly if neither `beacon v4` nor `beacon v6`
was ever given. Missing for the full C83: `beacon off` does not change that, see `C83_counterexample`. -/
theorem C83_listed_partial {lines : List (BeaconEnv × Cliflags × List String)} {b : BeaconState} {acts}
    (h : beaconRun BeaconState.init lines = .ret (b, acts)) (E : BeaconEnv) (c : Cliflags) (cmd : String) :
    ∃ b' acts', cmdBeacon E c b [cmd] = .ret (b', acts') ∧
      (acts' = [.show (.msg "No beacons currently being sent")] ↔
        ∀ l ∈ lines, l.2.2.tail ≠ ["v4"] ∧ l.2.2.tail ≠ ["v6"]) := by
  have s := beaconRun_state h
  have hosts : b.hosts = [] := s.2.2 rfl
  refine ⟨_, _, rfl, ?_⟩
  have h4 := s.1
  have h6 := s.2.1
  simp only [BeaconState.init, Bool.false_eq_true, false_or] at h4 h6
  unfold beaconList
  simp only [hosts, List.length_nil]
  constructor
  · intro e l hl
    have no : b.v4mcast = false ∧ b.v6mcast = false := by
      apply Classical.byContradiction
      intro no
      rw [if_neg (by simpa using no)] at e
      revert e
      cases h4 : b.v4mcast <;> cases h6 : b.v6mcast <;> simp_all [String.ext_iff]
    constructor
    · intro t; have := h4.2 ⟨l, hl, t⟩; rw [no.1] at this; cases this
    · intro t; have := h6.2 ⟨l, hl, t⟩; rw [no.2] at this; cases this
  · intro no
    have n4 : b.v4mcast = false := by
      cases e : b.v4mcast with
      | false => rfl
      | true => obtain ⟨l, hl, t⟩ := h4.1 e; exact absurd t (no l hl).1
    have n6 : b.v6mcast = false := by
      cases e : b.v6mcast with
      | false => rfl
      | true => obtain ⟨l, hl, t⟩ := h6.1 e; exact absurd t (no l hl).2
    rw [if_pos ⟨n4, n6, trivial⟩]

/-- C83 as stated fails: after `beacon v4` and `beacon off` the program still says that it sends multicast
beacons, whatever the world and the settings. -/
theorem C83_counterexample (E : BeaconEnv) (c : Cliflags) (b : BeaconState) (acts)
    (h : beaconRun BeaconState.init [(E, c, ["beacon", "v4"]), (E, c, ["beacon", "off"])] = .ret (b, acts)) :
    ∃ b', cmdBeacon E c b ["beacon"] =
      .ret (b', [.show (.msg ("Sending " ++ toString c.bcount ++ " IPv4 multicast beacons"))]) := by
  have s := beaconRun_state h
  have h4 : b.v4mcast = true := s.1.2 (Or.inr ⟨(E, c, ["beacon", "v4"]), by simp, rfl⟩)
  have h6 : b.v6mcast = false := by
    cases e : b.v6mcast with
    | false => rfl
    | true =>
      have := s.2.1.1 e
      simp [BeaconState.init] at this
  have hh : b.hosts = [] := s.2.2 rfl
  refine ⟨b.load E c, ?_⟩
  unfold cmdBeacon beaconList BeaconState.load
  simp only [h4, h6, hh]
  rfl

/-! ## C84: several addresses -/

theorem beaconWords_good {E : BeaconEnv} (works : E.Works) {c : Cliflags} (ok : ValidGlobal shipped c.global)
    {bs ba : BitVec 64} (st : E.disk.statfs = .ok (bs, ba)) :
    ∃ frame : UDPAddr → List Byte, (∀ a, Teaches c.global (E.eid a) bs ba (frame a)) ∧
      ∀ (b : BeaconState) (args : List String), ∃ acts,
        beaconWords E false (b.load E c) args = .ret (b.load E c, acts) ∧
        sends acts = (args.filterMap fun w => (udpAddress E.resolve w).toOption).flatMap
          fun a => List.replicate c.bcount (a, frame a) := by
  have one : ∀ a, ∃ frame, Teaches c.global (E.eid a) bs ba frame ∧ ∀ b : BeaconState,
      ∃ acts, sendBeacons E (b.load E c) a = .ret acts ∧ sends acts = List.replicate c.bcount (a, frame) := by
    intro a
    obtain ⟨acts, frame, h1, h2, h3, h4⟩ := sendBeacons_good works ok BeaconState.init a st
    refine ⟨frame, h4, fun b => ⟨acts, ?_, h2⟩⟩
    rw [← h1]
    unfold sendBeacons BeaconState.load
    rfl
  refine ⟨fun a => Classical.choose (one a), fun a => (Classical.choose_spec (one a)).1, fun b args => ?_⟩
  induction args with
  | nil => exact ⟨[], rfl, rfl⟩
  | cons w rest ih =>
    obtain ⟨more, hm, hs⟩ := ih
    unfold beaconWords beaconWord
    cases e : udpAddress E.resolve w with
    | error x =>
      simp only [Out.ret_bind, hm, Out.pure_eq]
      refine ⟨_, rfl, ?_⟩
      simp only [sends_append, sends_bad, hs, List.nil_append]
      simp [e, Except.toOption]
    | ok a =>
      obtain ⟨acts, h1, h2⟩ := (Classical.choose_spec (one a)).2 b
      simp only [Bool.false_eq_true, if_false, h1, Out.ret_bind, hm, Out.pure_eq]
      refine ⟨_, rfl, ?_⟩
      simp only [sends_append, sendingLine, sends_show, h2, hs]
      simp [e, Except.toOption]

/-- With two or more words after the command, the first of them not `off`, the beacons go to the addresses from
the second word on, in order, the configured number to each. Missing for the full C84: the first word, see
`C84_counterexample`. -/
theorem C84_several_partial {E : BeaconEnv} (works : E.Works) {c : Cliflags} (ok : ValidGlobal shipped c.global)
    {bs ba : BitVec 64} (st : E.disk.statfs = .ok (bs, ba)) (b : BeaconState) (cmd w : String)
    (rest : List String) (more : rest ≠ []) (on : w ≠ "off") :
    ∃ (frame : UDPAddr → List Byte) (b' : BeaconState) (acts : List BeaconAct),
      (∀ a, Teaches c.global (E.eid a) bs ba (frame a)) ∧
      cmdBeacon E c b (cmd :: w :: rest) = .ret (b', acts) ∧
      sends acts = (rest.filterMap fun x => (udpAddress E.resolve x).toOption).flatMap
        fun a => List.replicate c.bcount (a, frame a) := by
  obtain ⟨frame, teach, h⟩ := beaconWords_good works ok st
  obtain ⟨acts, h1, h2⟩ := h b rest
  refine ⟨frame, b.load E c, acts, teach, ?_, h2⟩
  cases rest with
  | nil => exact absurd rfl more
  | cons r rest =>
    unfold cmdBeacon
    simp only [beq_eq_false_iff_ne.2 on]
    exact h1

/-- C84 as stated fails: of two addresses only the second gets beacons. -/
theorem C84_counterexample {E : BeaconEnv} (works : E.Works) {c : Cliflags} (ok : ValidGlobal shipped c.global)
    (b : BeaconState) (a1 a2 : UDPAddr) (differ : a1 ≠ a2)
    (r2 : udpAddress E.resolve "2.2.2.2" = .ok a2) :
    ∃ b' acts, cmdBeacon E c b ["beacon", "1.1.1.1", "2.2.2.2"] = .ret (b', acts) ∧
      ∀ f, (a1, f) ∉ sends acts := by
  obtain ⟨bs, ba, st⟩ := works.disk
  obtain ⟨frame, b', acts, _, h1, h2⟩ := C84_several_partial works ok st b "beacon" "1.1.1.1" ["2.2.2.2"]
    (by simp) (by decide)
  refine ⟨b', acts, h1, fun f hf => ?_⟩
  rw [h2] at hf
  simp [r2, Except.toOption] at hf
  exact differ hf.2.1

/-- **C84** `beacon off` forgets all addresses; with addresses it forgets those, every copy, and no others, in whatever
state the list is. -/
theorem C84_off_forgets (E : BeaconEnv) (c : Cliflags) (b : BeaconState) (cmd : String) (rest : List String) :
    ∃ b' acts, cmdBeacon E c b (cmd :: "off" :: rest) = .ret (b', acts) ∧
      b'.hosts = if rest = [] then [] else
        b.hosts.filter fun h => rest.all fun w =>
          match udpAddress E.resolve w with
          | .ok a => E.str h ≠ E.str a
          | .error _ => true := by
  have words : ∀ (l : List String) (b : BeaconState), ∃ b' acts, beaconWords E true b l = .ret (b', acts) ∧
      b'.hosts = b.hosts.filter fun h => l.all fun w =>
          match udpAddress E.resolve w with
          | .ok a => E.str h ≠ E.str a
          | .error _ => true := by
    intro l
    induction l with
    | nil => exact fun b => ⟨b, [], rfl, (List.filter_eq_self.2 fun _ _ => rfl).symm⟩
    | cons w l ih =>
      intro b
      unfold beaconWords beaconWord
      cases hw : udpAddress E.resolve w with
      | error e =>
        obtain ⟨b', acts, h1, h2⟩ := ih b
        simp only [Out.ret_bind, h1, Out.pure_eq]
        refine ⟨_, _, rfl, ?_⟩
        simp only [List.all_cons, hw, Bool.true_and]
        exact h2
      | ok a =>
        obtain ⟨b', acts, h1, h2⟩ := ih { b with hosts := removeUDPAddrValue E.str b.hosts a }
        simp only [if_true, Out.ret_bind, h1, Out.pure_eq]
        refine ⟨_, _, rfl, ?_⟩
        rw [h2]
        dsimp only
        rw [C59_removes_all_copies, List.filter_filter]
        congr 1
        funext x
        simp only [List.all_cons, hw]
        exact Bool.and_comm _ _
  cases rest with
  | nil => exact ⟨_, _, rfl, rfl⟩
  | cons w ws =>
    obtain ⟨b', acts, h1, h2⟩ := words (w :: ws)
      { b with flags := setglobal E.T "beacon" c.global, interval := c.timeout.binterval, count := c.bcount }
    refine ⟨b', acts, ?_, by rw [h2, if_neg (by simp)]⟩
    rw [← h1]
    rfl

/-- `beacon off` with addresses sends nothing, whatever the settings. -/
theorem C84_off (E : BeaconEnv) (c : Cliflags) (b : BeaconState) (cmd : String) (rest : List String) :
    ∃ b' acts, cmdBeacon E c b (cmd :: "off" :: rest) = .ret (b', acts) ∧ sends acts = [] := by
  have words : ∀ (l : List String) (b : BeaconState), ∃ b' acts, beaconWords E true b l = .ret (b', acts) ∧
      sends acts = [] := by
    intro l
    induction l with
    | nil => exact fun b => ⟨b, [], rfl, rfl⟩
    | cons w l ih =>
      intro b
      unfold beaconWords beaconWord
      cases udpAddress E.resolve w with
      | error e =>
        obtain ⟨b', acts, h1, h2⟩ := ih b
        simp only [Out.ret_bind, h1, Out.pure_eq]
        exact ⟨_, _, rfl, by rw [sends_append, h2, sends_bad]; rfl⟩
      | ok a =>
        obtain ⟨b', acts, h1, h2⟩ := ih { b with hosts := removeUDPAddrValue E.str b.hosts a }
        simp only [if_true, Out.ret_bind, h1, Out.pure_eq]
        exact ⟨_, _, rfl, by rw [sends_append, h2]; rfl⟩
  cases rest with
  | nil => exact ⟨_, _, rfl, rfl⟩
  | cons r rest => exact words (r :: rest) _

/-! ## C85: the command always comes back -/

theorem beaconWords_any {E : BeaconEnv} (hT : E.T = shipped) {c : Cliflags} (ok : ValidGlobal shipped c.global)
    (off : Bool) (args : List String) : ∀ b : BeaconState, ∃ b' acts,
      beaconWords E off (b.load E c) args = .ret (b', acts) ∧ (sends acts).length ≤ args.length * c.bcount := by
  induction args with
  | nil => exact fun b => ⟨_, [], rfl, Nat.zero_le _⟩
  | cons w rest ih =>
    intro b
    unfold beaconWords beaconWord
    have e1 : (w :: rest).length * c.bcount = rest.length * c.bcount + c.bcount := by
      rw [List.length_cons, Nat.add_mul, Nat.one_mul]
    cases udpAddress E.resolve w with
    | error x =>
      obtain ⟨b', acts, h1, h2⟩ := ih b
      simp only [Out.ret_bind, h1, Out.pure_eq]
      refine ⟨_, _, rfl, ?_⟩
      rw [sends_append, sends_bad, List.nil_append]
      omega
    | ok a =>
      cases off with
      | true =>
        obtain ⟨b', acts, h1, h2⟩ := ih { b with hosts := removeUDPAddrValue E.str b.hosts a }
        unfold BeaconState.load at h1 ⊢
        simp only at h1 ⊢
        simp only [if_true, Out.ret_bind, h1, Out.pure_eq]
        refine ⟨_, _, rfl, ?_⟩
        rw [sends_append, sends_nil, List.nil_append]
        omega
      | false =>
        obtain ⟨b', more, h1, h2⟩ := ih b
        obtain ⟨acts, m, frame, h3, h4, h5⟩ := sendBeacons_any hT ok b a
        simp only [Bool.false_eq_true, if_false, h3, Out.ret_bind, h1, Out.pure_eq]
        refine ⟨_, _, rfl, ?_⟩
        rw [sends_append, List.length_append]
        simp only [sendingLine, sends_show, h5, List.length_replicate]
        omega

/-- **C85** While the settings are legal a beacon command with any words comes back, whatever the disk and the
network answer, and puts no more than the configured number of frames per word on the wire. -/
theorem C85_returns {E : BeaconEnv} (hT : E.T = shipped) {c : Cliflags} (ok : ValidGlobal shipped c.global)
    (b : BeaconState) (args : List String) :
    ∃ b' acts, cmdBeacon E c b args = .ret (b', acts) ∧ (sends acts).length ≤ args.length * c.bcount := by
  have mc : ∀ (b : BeaconState) (line g : String), ∃ b' acts,
      beaconMulticast E (b.load E c) line g = .ret (b', acts) ∧ (sends acts).length ≤ c.bcount := by
    intro b line g
    unfold beaconMulticast
    cases udpAddress E.resolve g with
    | error x => exact ⟨_, _, rfl, Nat.zero_le _⟩
    | ok a =>
      obtain ⟨acts, m, frame, h3, h4, h5⟩ := sendBeacons_any hT ok b a
      simp only [h3, Out.ret_bind, Out.pure_eq]
      exact ⟨_, _, rfl, by simpa [h5] using h4⟩
  match args with
  | [] => exact ⟨_, _, rfl, Nat.zero_le _⟩
  | [x] => exact ⟨_, _, rfl, by rw [sends_list]; exact Nat.zero_le _⟩
  | [x, a] =>
    have le : c.bcount ≤ [x, a].length * c.bcount := by simp; omega
    unfold cmdBeacon
    simp only
    split
    · exact ⟨_, _, rfl, by rw [sends_shows]; exact Nat.zero_le _⟩
    · split
      · exact ⟨_, _, rfl, Nat.zero_le _⟩
      · split
        · obtain ⟨b', acts, h1, h2⟩ := mc { b with v4mcast := true } "Sending beacon to IPv4 Multicast" c.v4multicast
          exact ⟨b', acts, h1, Nat.le_trans h2 le⟩
        · split
          · obtain ⟨b', acts, h1, h2⟩ := mc { b with v6mcast := true } "Sending beacon to IPv6 Multicast" c.v6multicast
            exact ⟨b', acts, h1, Nat.le_trans h2 le⟩
          · cases udpAddress E.resolve a with
            | error x => exact ⟨_, _, rfl, Nat.zero_le _⟩
            | ok u =>
              obtain ⟨acts, m, frame, h3, h4, h5⟩ := sendBeacons_any hT ok b u
              unfold BeaconState.load at h3
              simp only [h3, Out.ret_bind, Out.pure_eq]
              refine ⟨_, _, rfl, Nat.le_trans ?_ le⟩
              simpa [sendingLine, h5] using h4
  | x :: a :: r :: rest =>
    obtain ⟨b', acts, h1, h2⟩ := beaconWords_any hT ok (a == "off") (r :: rest) b
    refine ⟨b', acts, h1, Nat.le_trans h2 ?_⟩
    apply Nat.mul_le_mul_right
    simp only [List.length_cons]
    omega

/-! ## C86: at least one beacon, and only one without an interval -/

/-- When all goes well a beacon is sent exactly if the count is not zero. Missing for the full C86: a count of
zero means one beacon (comment at sarwin/sarwin.go:1265), and an interval of zero a single one
(sarwin/sarwin.go:717 and the answer to `interval`); see `C86_counterexample`. -/
theorem C86_some_partial {E : BeaconEnv} (works : E.Works) {c : Cliflags} (ok : ValidGlobal shipped c.global)
    (b : BeaconState) (cmd w : String) (word : w ≠ "?" ∧ w ≠ "off") {addr : UDPAddr}
    (target : meant E c w = some addr) :
    ∃ b' acts, cmdBeacon E c b [cmd, w] = .ret (b', acts) ∧ (sends acts ≠ [] ↔ c.bcount ≠ 0) ∧
      (sends acts).length = c.bcount := by
  obtain ⟨bs, ba, st⟩ := works.disk
  obtain ⟨b', acts, frame, h1, h2, -, -⟩ := C82_sends works ok b cmd w word target st
  refine ⟨b', acts, h1, ?_, ?_⟩
  · rw [h2, Ne, List.replicate_eq_nil_iff]
  · rw [h2, List.length_replicate]

/-- C86 as stated fails both ways: a count of zero sends nothing, and with an interval of zero, which the
program calls a single iteration, three beacons are sent. -/
theorem C86_counterexample {E : BeaconEnv} (works : E.Works) (b : BeaconState) {addr : UDPAddr}
    (target : udpAddress E.resolve "1.1.1.1" = .ok addr) (H : CmdTable) :
    let none_ := (settingCmd H shippedSettings ["bcount", "0"]).1
    let once := (settingCmd H shippedSettings ["interval", "0"]).1
    (∃ b' acts, cmdBeacon E none_ b ["beacon", "1.1.1.1"] = .ret (b', acts) ∧ sends acts = []) ∧
    (settingCmd H once ["interval"]).2 = [.msg "Single Beacon Interation"] ∧
    ∃ b' acts, cmdBeacon E once b ["beacon", "1.1.1.1"] = .ret (b', acts) ∧ (sends acts).length = 3 := by
  have ok : ValidGlobal shipped shippedSettings.global := C14_shipped_defaults
  have t : ∀ c, meant E c "1.1.1.1" = some addr := by
    intro c
    unfold meant
    simp only [String.reduceEq, if_false, target, Except.toOption]
  refine ⟨?_, rfl, ?_⟩
  · obtain ⟨b', acts, h1, -, h3⟩ := C86_some_partial works
      (c := (settingCmd H shippedSettings ["bcount", "0"]).1) ok b "beacon" "1.1.1.1" (by decide) (t _)
    exact ⟨b', acts, h1, List.length_eq_zero_iff.1 h3⟩
  · obtain ⟨b', acts, h1, -, h3⟩ := C86_some_partial works
      (c := (settingCmd H shippedSettings ["interval", "0"]).1) ok b "beacon" "1.1.1.1" (by decide) (t _)
    exact ⟨b', acts, h1, h3⟩

/-! ## A concrete case -/

/-- A world in which all goes well. -/
def calmBeacons : BeaconEnv where
  H := []
  T := shipped
  str := fun a => toString a.port
  resolve := fun s => .ok ⟨utf8 s, 7542, ""⟩
  dial := fun _ => .ok "10.0.0.1:5000"
  pid := 42
  disk := ⟨none, .ok (4096, 1000)⟩
  fails := fun _ _ => none

example := C86_some_partial (E := calmBeacons) ⟨rfl, rfl, ⟨_, _, rfl⟩, fun _ => ⟨_, rfl⟩, fun _ _ => rfl⟩
  (c := shippedSettings) C14_shipped_defaults .init "beacon" "1.1.1.1" (by decide)
  (addr := ⟨utf8 "1.1.1.1:7542", 7542, ""⟩) (by decide +kernel)

example := C85_returns (E := calmBeacons) rfl (c := shippedSettings) C14_shipped_defaults .init ["beacon", "1.1.1.1"]

example := C84_counterexample (E := calmBeacons) ⟨rfl, rfl, ⟨_, _, rfl⟩, fun _ => ⟨_, rfl⟩, fun _ _ => rfl⟩
  (c := shippedSettings) C14_shipped_defaults .init ⟨utf8 "1.1.1.1:7542", 7542, ""⟩ ⟨utf8 "2.2.2.2:7542", 7542, ""⟩
  (by decide +kernel) (by rfl)

example := C84_several_partial (E := calmBeacons) ⟨rfl, rfl, ⟨_, _, rfl⟩, fun _ => ⟨_, rfl⟩, fun _ _ => rfl⟩
  (c := shippedSettings) C14_shipped_defaults (bs := 4096) (ba := 1000) rfl .init "beacon" "1.1.1.1" ["2.2.2.2"]
  (by decide) (by decide)

example : (beaconRun .init [(calmBeacons, shippedSettings, ["beacon", "v4"]),
    (calmBeacons, shippedSettings, ["beacon", "off"])]).returns := by decide +kernel

example : (beaconRun .init [(calmBeacons, shippedSettings, ["beacon", "v4"])]).returns := by decide +kernel

example := C82_sends (E := calmBeacons) ⟨rfl, rfl, ⟨_, _, rfl⟩, fun _ => ⟨_, rfl⟩, fun _ _ => rfl⟩
  (c := shippedSettings) C14_shipped_defaults .init "beacon" "v4" (by decide) (addr := ⟨utf8 "224.0.0.108:7542", 7542, ""⟩)
  (by decide +kernel) (bs := 4096) (ba := 1000) rfl

example : calmBeacons.Works := ⟨rfl, rfl, ⟨_, _, rfl⟩, fun _ => ⟨_, rfl⟩, fun _ _ => rfl⟩
example : meant calmBeacons shippedSettings "v4" = some ⟨utf8 "224.0.0.108:7542", 7542, ""⟩ := by decide +kernel
example : meant calmBeacons shippedSettings "1.1.1.1" = some ⟨utf8 "1.1.1.1:7542", 7542, ""⟩ := by decide +kernel
example : ValidGlobal shipped shippedSettings.global := C14_shipped_defaults
example : sleepTime 3 = 3000000000 := by decide
/-- The frames fit a datagram, so `Teaches` says something about them. -/
example : (match cmdBeacon calmBeacons shippedSettings BeaconState.init ["beacon", "1.1.1.1"] with
    | .ret (_, acts) => (sends acts).length == 3 && (sends acts).all fun p => decide (Sized 1500 p.2)
    | _ => false) = true := by decide +kernel

end Saratoga
