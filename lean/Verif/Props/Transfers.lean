import Verif.Lemmas.Transfers
import Verif.Props.Settings
/-!
# Properties of the transfer table

C46: one transfer per file and peer. C47: removal. C67: session numbers. C68: `rmtran`. C69: requests are
never taken up. C70: metadata. C71: a failed dial.
-/
namespace Saratoga

/-- One operation of the table, as far as the lemmas need it. -/
theorem step_table {T : Tables} {env : TranEnv} {w w' : TranWorld} {op : TranOp}
    (h : w.step T env op = .ret w') :
    (w'.transfers.Sublist w.transfers ∧ w'.sessionid = w.sessionid) ∨
    ∃ c ttype peer fname t, op = .initiate c ttype peer fname ∧
      scanTransfers env w.fs ttype peer fname w.transfers = .clear ∧
      addInitiator env c w ttype peer fname = .ret (w', t) := by
  cases op with
  | initiate c ttype peer fname =>
    obtain ⟨⟨w1, r⟩, h1, h⟩ := Out.bind_eq_ret h
    cases h
    rcases newInitiator_ret h1 with ⟨a, b, _⟩ | ⟨a, t, _, b⟩
    · exact .inl ⟨a, b⟩
    · exact .inr ⟨c, ttype, peer, fname, t, rfl, a, b⟩
  | respond c r peer =>
    obtain ⟨⟨ts, e⟩, h1, h⟩ := Out.bind_eq_ret h
    cases h
    exact .inl ⟨by rw [(newResponder_ret h1).1]; exact List.Sublist.refl _, rfl⟩
  | remove t =>
    cases h
    exact .inl ⟨remove_sublist _ _ _, rfl⟩
  | rmtran args =>
    obtain ⟨⟨ts, e⟩, h1, h⟩ := Out.bind_eq_ret h
    cases h
    exact .inl ⟨rmtran_sublist h1, rfl⟩

/-! ## C46 -/

/-- **C46.** However transfers are started, asked for by peers and removed, one after another, the table
never holds two transfers of the same file with the same peer. The file system, the network and the
settings may change from one step to the next. -/
theorem C46_one_per_file (T : Tables) (str : UDPAddr → String) (ops : List (TranEnv × TranOp))
    (same : ∀ e ∈ ops, e.1.str = str) (w w' : TranWorld) (ok : OnePerFile str w.transfers)
    (h : w.run T ops = .ret w') : OnePerFile str w'.transfers := by
  induction ops generalizing w with
  | nil => cases h; exact ok
  | cons e es ih =>
    obtain ⟨env, op⟩ := e
    obtain ⟨w1, h1, h⟩ := Out.bind_eq_ret h
    refine ih (fun x hx => same x (List.mem_cons_of_mem _ hx)) w1 ?_ h
    have hs : env.str = str := same _ List.mem_cons_self
    rcases step_table h1 with ⟨a, _⟩ | ⟨c, ttype, peer, fname, t, _, hc, ha⟩
    · exact List.Pairwise.sublist a ok
    · have hcl := scan_clear _ _ _ _ _ _ hc
      obtain ⟨e1, _, _, e4, e5, _⟩ := addInitiator_ret ha
      rw [e1]
      refine List.pairwise_append.2 ⟨ok, List.pairwise_singleton _ _, ?_⟩
      intro a hm b hb
      rw [List.mem_singleton] at hb
      subst hb
      rintro ⟨f1, f2⟩
      exact (hcl a hm).2 ⟨by rw [f1, e4], by rw [hs, ← e5, f2]⟩

/-- From program start. -/
theorem C46_from_start (T : Tables) (str : UDPAddr → String) (ops : List (TranEnv × TranOp))
    (same : ∀ e ∈ ops, e.1.str = str) (fs : FS) (w' : TranWorld)
    (h : (TranWorld.start fs).run T ops = .ret w') : OnePerFile str w'.transfers :=
  C46_one_per_file T str ops same (TranWorld.start fs) w' List.Pairwise.nil h

/-- A second transfer of the same file with the same peer is refused and leaves everything as it is, if
all transfers in the table have a connection and the file is not in the way. -/
theorem C46_refused (env : TranEnv) (c : Cliflags) (w : TranWorld) (ttype : String) (peer : UDPAddr)
    (fname : List Byte) (conns : ∀ i ∈ w.transfers, i.conn ≠ none)
    (dup : ∃ i ∈ w.transfers, i.filename = fname ∧ env.str i.peer = env.str peer) :
    ∃ e, newInitiator env c w ttype peer fname = .ret (w, .error e) := by
  have : scanTransfers env w.fs ttype peer fname w.transfers = .fileExists ∨
      scanTransfers env w.fs ttype peer fname w.transfers = .inProgress := by
    generalize w.transfers = ts at *
    induction ts with
    | nil => obtain ⟨i, hi, _⟩ := dup; cases hi
    | cons a rest ih =>
      simp only [scanTransfers]
      rw [if_neg (conns a List.mem_cons_self)]
      split
      · exact .inl rfl
      split
      · exact .inr rfl
      · rename_i h1 h2
        refine ih (fun i hi => conns i (List.mem_cons_of_mem _ hi)) ?_
        obtain ⟨i, hi, e1, e2⟩ := dup
        rcases List.mem_cons.1 hi with rfl | hi
        · exact absurd ⟨e1.symm, e2.symm⟩ h2
        · exact ⟨i, hi, e1, e2⟩
  rcases this with h | h <;> exact ⟨_, by unfold newInitiator; rw [h]⟩

/-- A world for the examples: every address prints as its zone, dialling the zone "down" fails, there is
no file. -/
def exampleEnv : TranEnv where
  str a := a.zone
  resolve s := .ok ⟨[], 7542, s⟩
  dial a := if a.zone = "down" then .error "unreachable" else .ok a.zone
  sardir := [slash, 0x64#8]
  pid := 41
  file := ⟨fun _ => .error "", fun _ => .ret (.error "no such file"), fun _ => .error "", id, id, id, ⟨0, 0⟩⟩

def exampleFS : FS := ⟨[([], .dir), ([[0x64#8]], .dir)], [], fun _ _ => false⟩
def hostA : UDPAddr := ⟨[], 7542, "a"⟩
def hostB : UDPAddr := ⟨[], 7542, "b"⟩
def hostDown : UDPAddr := ⟨[], 7542, "down"⟩

example : OnePerFile exampleEnv.str (TranWorld.start exampleFS).transfers := by simp [OnePerFile, TranWorld.start]

/-- What the examples look at. -/
def outline (r : Out TranWorld) : Option (List (BitVec 32 × Option String × List Byte)) :=
  match r with
  | .ret w => some (w.transfers.map fun t => (t.session, t.conn, t.filename))
  | _ => none

/-- Two files to a, the first one again (refused), the first one to b. -/
example : outline ((TranWorld.start exampleFS).run shipped
    [(exampleEnv, .initiate shippedSettings "put" hostA [1]), (exampleEnv, .initiate shippedSettings "put" hostA [2]),
     (exampleEnv, .initiate shippedSettings "give" hostA [1]), (exampleEnv, .initiate shippedSettings "put" hostB [1])]) =
    some [(42, some "a", [1]), (43, some "a", [2]), (44, some "b", [1])] := by decide +kernel

/-- **C46 fails for commands running at the same time** (each command runs in its own goroutine): the table
is scanned before the lock is taken, so two calls can both find it clear. -/
theorem C46_concurrent_counterexample :
    ∃ s, initRun exampleEnv shippedSettings
      (TranWorld.start exampleFS, [⟨"put", hostA, [1], .scanning⟩, ⟨"put", hostA, [1], .scanning⟩])
      [0, 1, 0, 1] = .ret s ∧ ¬ OnePerFile exampleEnv.str s.1.transfers := by
  refine ⟨_, rfl, ?_⟩
  intro h
  rw [OnePerFile, List.pairwise_iff_getElem] at h
  exact h 0 1 (by decide) (by decide) (by omega) ⟨rfl, rfl⟩

/-! ## C67 -/

/-- **C67.** Session numbers of transfers in the table are pairwise different as long as at most
`2^32 - pid` transfers have been started. -/
theorem C67_sessions (T : Tables) (pid : BitVec 32) (ops : List (TranEnv × TranOp))
    (same : ∀ e ∈ ops, e.1.pid = pid) (fs : FS) (w : TranWorld)
    (h : (TranWorld.start fs).run T ops = .ret w) (few : initiations ops ≤ 2 ^ 32 - pid.toNat) :
    w.transfers.Pairwise fun a b => a.session ≠ b.session := by
  have key : ∀ (ops : List (TranEnv × TranOp)), (∀ e ∈ ops, e.1.pid = pid) → ∀ (n : Nat) (w w' : TranWorld),
      w.sessionid = sessAfter pid n →
      (∃ idx : List Nat, w.transfers.map (·.session) = idx.map (fun i => sessAfter pid (i + 1)) ∧
        idx.Pairwise (· < ·) ∧ ∀ i ∈ idx, i < n) → w.run T ops = .ret w' →
      ∃ n' ≤ n + initiations ops, ∃ idx : List Nat,
        w'.transfers.map (·.session) = idx.map (fun i => sessAfter pid (i + 1)) ∧
        idx.Pairwise (· < ·) ∧ ∀ i ∈ idx, i < n' := by
    intro ops
    induction ops with
    | nil => intro _ n w w' _ hx h; cases h; exact ⟨n, by simp [initiations], hx⟩
    | cons e es ih =>
      intro same n w w' hn hx h
      obtain ⟨env, op⟩ := e
      have hp : env.pid = pid := same _ List.mem_cons_self
      obtain ⟨w1, h1, h2⟩ := Out.bind_eq_ret h
      have ih := ih (fun x hx => same x (List.mem_cons_of_mem _ hx))
      rcases step_table h1 with ⟨a, b⟩ | ⟨c, ttype, peer, fname, t, rfl, hc, ha⟩
      · obtain ⟨idx, i1, i2, i3⟩ := hx
        have sub := a.map (·.session)
        rw [i1] at sub
        obtain ⟨idx', s1, s2⟩ := List.sublist_map_iff.1 sub
        obtain ⟨n', hn', r⟩ := ih n w1 w' (b.trans hn)
          ⟨idx', s2, i2.sublist s1, fun i hi => i3 i (s1.mem hi)⟩ h2
        refine ⟨n', Nat.le_trans hn' ?_, r⟩
        cases op <;> simp only [initiations] <;> omega
      · obtain ⟨e1, e2, e3, _⟩ := addInitiator_ret ha
        obtain ⟨idx, i1, i2, i3⟩ := hx
        have hs : newSession env.pid w.sessionid = sessAfter pid (n + 1) := by
          rw [hp, hn]; rfl
        obtain ⟨n', hn', r⟩ := ih (n + 1) w1 w' (e2.trans hs)
          ⟨idx ++ [n], by rw [e1, List.map_append, List.map_append, i1]; simp [e3, hs],
            List.pairwise_append.2 ⟨i2, List.pairwise_singleton _ _, by
              intro a ha b hb; rw [List.mem_singleton] at hb; subst hb; exact i3 a ha⟩,
            by intro i hi; rcases List.mem_append.1 hi with hi | hi
               · have := i3 i hi; omega
               · rw [List.mem_singleton] at hi; omega⟩ h2
        exact ⟨n', by simp only [initiations]; omega, r⟩
  obtain ⟨n, hn, idx, i1, i2, i3⟩ := key ops same 0 _ _ rfl ⟨[], rfl, List.Pairwise.nil, by simp⟩ h
  have hp := pid.isLt
  have : (w.transfers.map (·.session)).Pairwise (· ≠ ·) := by
    rw [i1, List.pairwise_map]
    refine i2.imp_of_mem ?_
    intro a b ha hb hab heq
    have ha := i3 a ha
    have hb := i3 b hb
    have h1 := sessSeq_toNat pid a
    rw [heq, sessSeq_toNat] at h1
    rw [Nat.mod_eq_of_lt (by omega : a < 2 ^ 32 - pid.toNat),
      Nat.mod_eq_of_lt (by omega : b < 2 ^ 32 - pid.toNat)] at h1
    omega
  exact List.pairwise_map.1 this

/-- The sequential `newSession` is what a single call of the concurrent model gives. -/
theorem newSession_alone (pid : BitVec 32) (w : SessWorld) (k : Nat) (free : w.owner = none)
    (out : w.pc k = .out) :
    ∃ n w', w.run pid (List.replicate n k) = some w' ∧
      w'.given = w.given ++ [(k, newSession pid w.sessionid)] ∧
      w'.sessionid = newSession pid w.sessionid ∧ w'.owner = none ∧ w'.pc k = .out := by
  by_cases h : w.sessionid = 0#32
  · refine ⟨5, ?_⟩
    simp [SessWorld.run, SessWorld.step, SessWorld.goto, free, out, h, newSession, List.replicate]
  · refine ⟨6, ?_⟩
    have hb : (w.sessionid == 0#32) = false := by simp [h]
    simp [hb, SessWorld.run, SessWorld.step, SessWorld.goto, free, out, h, newSession, List.replicate]

/-! ## C47 -/

/-- **C47, what happens.** If the table holds a transfer with the same direction, session and peer, the
last transfer of the table is taken off, whichever that is; otherwise there is an error and the table stays
as it is. -/
theorem C47_exact (str : UDPAddr → String) (t : Transfer) (ts : List Transfer) :
    ((∃ u ∈ ts, u.key str = t.key str) → t.remove str ts = (ts.dropLast, none)) ∧
    ((∀ u ∈ ts, u.key str ≠ t.key str) → ∃ e, t.remove str ts = (ts, some e)) := by
  rw [remove_eq]
  have := lookup_isSome str ts t.direction t.session (str t.peer)
  constructor
  · intro h; rw [if_pos (this.2 h)]
  · intro h
    rw [if_neg (fun hs => by obtain ⟨u, hu, e⟩ := this.1 hs; exact h u hu e)]
    exact ⟨_, rfl⟩

theorem without_append (str : UDPAddr → String) (k : Bool × BitVec 32 × String) (ts : List Transfer)
    (h : ∀ u ∈ ts, u.key str ≠ k) (t : Transfer) (ht : t.key str = k) : without str k (ts ++ [t]) = ts := by
  induction ts with
  | nil => simp [without, ht]
  | cons a rest ih =>
    simp only [List.cons_append, without]
    rw [if_neg (h a List.mem_cons_self), ih (fun u hu => h u (List.mem_cons_of_mem _ hu))]

theorem without_length (str : UDPAddr → String) (k : Bool × BitVec 32 × String) (ts : List Transfer)
    (u : Transfer) (hu : u ∈ ts) (e : u.key str = k) : (without str k ts).length + 1 = ts.length := by
  induction ts with
  | nil => cases hu
  | cons a rest ih =>
    simp only [without]
    split
    · rfl
    · rcases List.mem_cons.1 hu with rfl | hu
      · contradiction
      · simp only [List.length_cons]; rw [ih hu]

/-- **C47, the last one.** Removing works for the transfer at the end of the table, if no other has its key.
Missing: all other places, see `C47_counterexample` and `C47_wrong_one`. -/
theorem C47_last_partial (str : UDPAddr → String) (t : Transfer) (ts : List Transfer)
    (only : ∀ u ∈ ts, u.key str ≠ t.key str) :
    t.remove str (ts ++ [t]) = (ts, none) ∧ without str (t.key str) (ts ++ [t]) = ts := by
  refine ⟨?_, without_append str _ ts only t rfl⟩
  rw [(C47_exact str t _).1 ⟨t, by simp, rfl⟩]
  simp

/-- **C47, a transfer that is not in the table.** -/
theorem C47_absent (str : UDPAddr → String) (t : Transfer) (ts : List Transfer)
    (absent : ∀ u ∈ ts, u.key str ≠ t.key str) : ∃ e, t.remove str ts = (ts, some e) :=
  (C47_exact str t ts).2 absent

/-- **C47, when it goes wrong.** With different keys in the table, a removal leaves what it should exactly
when the transfer is the last one. In every other case the transfer stays and the last one, another
transfer, is lost. -/
theorem C47_wrong_one (str : UDPAddr → String) (t : Transfer) (front back : List Transfer) (last : Transfer)
    (distinct : (front ++ t :: back ++ [last]).Pairwise fun a b => a.key str ≠ b.key str) :
    t.remove str (front ++ t :: back ++ [last]) = (front ++ t :: back, none) ∧
    t ∈ (t.remove str (front ++ t :: back ++ [last])).1 ∧
    last ∉ (t.remove str (front ++ t :: back ++ [last])).1 := by
  have h : t.remove str (front ++ t :: back ++ [last]) = (front ++ t :: back, none) := by
    rw [(C47_exact str t _).1 ⟨t, by simp, rfl⟩, List.dropLast_concat]
  refine ⟨h, by rw [h]; simp, ?_⟩
  rw [h]
  intro hm
  have := (List.pairwise_append.1 distinct).2.2 last hm last (by simp)
  exact this rfl

/-- **C47 does not hold as stated**: removing the first of two transfers removes the second. -/
theorem C47_counterexample : ∃ (t u : Transfer), t.key exampleEnv.str ≠ u.key exampleEnv.str ∧
    (t.remove exampleEnv.str [t, u]).1 = [t] ∧ without exampleEnv.str (t.key exampleEnv.str) [t, u] = [u] :=
  ⟨{ Transfer.zero with session := 1 }, { Transfer.zero with session := 2 }, by decide, by decide, by decide⟩

/-! ## C68 -/

/-- The transfer `rmtran` means: the last one in the table with this remote address and session. -/
def Named (ts : List Transfer) (addr : String) (session : BitVec 32) (i : Nat) : Prop :=
  (∃ t, ts[i]? = some t ∧ t.conn = some addr ∧ t.session = session) ∧
  ∀ j t, i < j → ts[j]? = some t → ¬ (t.conn = some addr ∧ t.session = session)

theorem matchLoop_iff (ts : List Transfer) (addr : String) (session : BitVec 32)
    (conns : ∀ t ∈ ts, t.conn ≠ none) (n : Nat) (hn : n ≤ ts.length) :
    ∃ r, matchLoop ts addr session n = .ret r ∧ ∀ i, r = some i ↔ i < n ∧
      (∃ t, ts[i]? = some t ∧ t.conn = some addr ∧ t.session = session) ∧
      ∀ j t, i < j → j < n → ts[j]? = some t → ¬ (t.conn = some addr ∧ t.session = session) := by
  induction n with
  | zero => exact ⟨none, rfl, fun i => ⟨by simp, fun h => absurd h.1 (by omega)⟩⟩
  | succ n ih =>
    obtain ⟨r, hr, hi⟩ := ih (by omega)
    have hlt : n < ts.length := by omega
    have hget : ts[n]? = some ts[n] := List.getElem?_eq_getElem hlt
    simp only [matchLoop, hget]
    cases hc : ts[n].conn with
    | none => exact absurd hc (conns _ (List.getElem_mem hlt))
    | some a =>
      simp only
      by_cases h : addr = a ∧ session = ts[n].session
      · rw [if_pos h]
        refine ⟨some n, rfl, fun i => ⟨?_, ?_⟩⟩
        · intro e
          cases e
          refine ⟨by omega, ⟨_, hget, by rw [hc, h.1], h.2.symm⟩, fun j t h1 h2 => by omega⟩
        · rintro ⟨h1, h2, h3⟩
          by_cases e : i = n
          · rw [e]
          · exact absurd ⟨by rw [hc, h.1], h.2.symm⟩ (h3 n ts[n] (by omega) (by omega) hget)
      · rw [if_neg h]
        refine ⟨r, hr, fun i => ⟨?_, ?_⟩⟩
        · intro e
          obtain ⟨h1, h2, h3⟩ := (hi i).1 e
          refine ⟨by omega, h2, fun j t a1 a2 a3 => ?_⟩
          by_cases e : j = n
          · subst e
            rw [hget] at a3
            cases a3
            rw [hc]
            rintro ⟨b1, b2⟩
            exact h ⟨by cases b1; rfl, b2.symm⟩
          · exact h3 j t a1 (by omega) a3
        · rintro ⟨h1, ⟨t, t1, t2, t3⟩, h3⟩
          refine (hi i).2 ⟨?_, ⟨t, t1, t2, t3⟩, fun j t a1 a2 a3 => h3 j t a1 (by omega) a3⟩
          by_cases e : i = n
          · subst e
            rw [hget] at t1
            cases t1
            rw [hc] at t2
            exact absurd ⟨by cases t2; rfl, t3.symm⟩ h
          · omega

theorem matchTran_iff (ts : List Transfer) (addr : String) (session : BitVec 32)
    (conns : ∀ t ∈ ts, t.conn ≠ none) :
    ∃ r, matchTran ts addr session = .ret r ∧ ∀ i, r = some i ↔ Named ts addr session i := by
  obtain ⟨r, h1, h2⟩ := matchLoop_iff ts addr session conns ts.length (Nat.le_refl _)
  refine ⟨r, h1, fun i => (h2 i).trans ⟨?_, ?_⟩⟩
  · rintro ⟨a, b, c⟩
    refine ⟨b, fun j t hj ht => c j t hj ?_ ht⟩
    exact (List.getElem?_eq_some_iff.1 ht).1
  · rintro ⟨b, c⟩
    refine ⟨?_, b, fun j t hj _ ht => c j t hj ht⟩
    obtain ⟨t, ht, _⟩ := b
    exact (List.getElem?_eq_some_iff.1 ht).1

theorem parseUint32_iff (s : String) (session : BitVec 32) : parseUint32 s = some session ↔ SessionText s session := by
  unfold parseUint32 SessionText
  constructor
  · intro h
    split at h
    · cases h
    · next n hd =>
      split at h
      · next hn =>
        cases h
        obtain ⟨h1, h2, h3⟩ := (digits_iff _ _).1 hd
        refine ⟨h1, h2, ?_⟩
        rw [← h3, BitVec.toNat_ofNat, Nat.mod_eq_of_lt hn]
      · cases h
  · rintro ⟨h1, h2, h3⟩
    rw [(digits_iff _ _).2 ⟨h1, h2, rfl⟩]
    simp only
    rw [h3, if_pos session.isLt]
    simp

/-- **C68, nothing named.** `rmtran` without exactly three words behind it, or with a session that is no decimal text
of a 32 bit number, changes nothing and shows the usage. -/
theorem C68_names_none (str : UDPAddr → String) (ts : List Transfer) (cmd : String) (args : List String)
    (bad : ∀ tt addr s session, args = [tt, addr, s] → ¬ SessionText s session) :
    cmdRmtran str ts (cmd :: args) = .ret (ts, true) := by
  match args, bad with
  | [], _ => rfl
  | [_], _ => rfl
  | [_, _], _ => rfl
  | [tt, addr, s], bad =>
    unfold cmdRmtran
    cases h : parseUint32 s with
    | none => simp only [h]
    | some v => exact absurd ((parseUint32_iff s v).1 h) (bad _ _ _ _ rfl)
  | _ :: _ :: _ :: _ :: _, _ => rfl

/-- **C68, no such transfer.** `rmtran` for a remote address and session not in the table changes nothing
and shows the usage. -/
theorem C68_no_match (str : UDPAddr → String) (ts : List Transfer) (cmd tt addr s : String)
    (session : BitVec 32) (text : SessionText s session) (conns : ∀ t ∈ ts, t.conn ≠ none)
    (none_ : ∀ i, ¬ Named ts addr session i) : cmdRmtran str ts [cmd, tt, addr, s] = .ret (ts, true) := by
  obtain ⟨r, h1, h2⟩ := matchTran_iff ts addr session conns
  have hs := (parseUint32_iff s session).2 text
  unfold cmdRmtran
  simp only [hs, h1, Out.ret_bind]
  cases r with
  | none => rfl
  | some i => exact absurd ((h2 i).1 rfl) (none_ i)

/-- **C68, what happens.** If the named transfer is in the table, the last transfer of the table is taken
off. Missing: that this is the named one, which only holds for the last place, see `C68_counterexample`. -/
theorem C68_removes_last_partial (str : UDPAddr → String) (ts : List Transfer) (cmd tt addr s : String)
    (session : BitVec 32) (text : SessionText s session) (conns : ∀ t ∈ ts, t.conn ≠ none) (i : Nat)
    (named : Named ts addr session i) :
    cmdRmtran str ts [cmd, tt, addr, s] = .ret (ts.dropLast, false) ∧
      (i + 1 = ts.length → ts.dropLast = ts.eraseIdx i) := by
  obtain ⟨r, h1, h2⟩ := matchTran_iff ts addr session conns
  have hs := (parseUint32_iff s session).2 text
  have := (h2 i).2 named
  subst this
  obtain ⟨⟨t, ht, _⟩, _⟩ := named
  constructor
  · unfold cmdRmtran
    simp only [hs, h1, Out.ret_bind, ht]
    rw [(C47_exact str t ts).1 ⟨t, List.mem_of_getElem? ht, rfl⟩]
  · intro e
    rw [List.eraseIdx_eq_take_drop_succ, List.dropLast_eq_take, e, List.drop_eq_nil_of_le (by omega)]
    rw [← e]; simp

/-- **C68 does not hold as stated**: the wrong transfer is removed, and a transfer whose dial failed, when it
comes after the named one, crashes the program. -/
theorem C68_counterexample :
    (∃ t u : Transfer, Named [t, u] "a" 1 0 ∧
      cmdRmtran exampleEnv.str [t, u] ["rmtran", "put", "a", "1"] = .ret ([t], false)) ∧
    (∀ (str : UDPAddr → String) (ts : List Transfer) (t : Transfer) (cmd tt addr s : String) (session : BitVec 32),
      t.conn = none → SessionText s session →
      cmdRmtran str (ts ++ [t]) [cmd, tt, addr, s] = .panic) := by
  constructor
  · refine ⟨{ Transfer.zero with session := 1, conn := some "a" }, { Transfer.zero with session := 2, conn := some "b" },
      ⟨⟨_, rfl, rfl, rfl⟩, ?_⟩, rfl⟩
    intro j t hj ht
    have : j = 1 := by
      have := (List.getElem?_eq_some_iff.1 ht).1
      simp at this; omega
    subst this
    cases ht
    decide
  · intro str ts t cmd tt addr s session hc text
    have hs := (parseUint32_iff s session).2 text
    unfold cmdRmtran
    simp only [hs]
    have : matchTran (ts ++ [t]) addr session = .panic := by
      unfold matchTran
      simp only [List.length_append, List.length_singleton, matchLoop]
      have : (ts ++ [t])[ts.length]? = some t := by simp
      simp only [this, hc]
    rw [this]; rfl

example : Named [{ Transfer.zero with session := 1, conn := some "a" },
    { Transfer.zero with session := 2, conn := some "b" }] "b" 2 1 := by
  refine ⟨⟨_, rfl, rfl, rfl⟩, ?_⟩
  intro j t hj ht
  have := (List.getElem?_eq_some_iff.1 ht).1
  simp at this; omega
example : parseUint32 "4294967295" = some 0xFFFFFFFF ∧ parseUint32 "4294967296" = none ∧
    parseUint32 "+1" = none := by decide +kernel
example : SessionText "4294967295" 0xFFFFFFFF ∧ (∀ v, ¬ SessionText "4294967296" v) ∧ ∀ v, ¬ SessionText "" v :=
  ⟨(parseUint32_iff _ _).1 (by decide +kernel),
    fun v h => (by
      have h := (parseUint32_iff _ _).2 h
      rw [show parseUint32 "4294967296" = none by decide +kernel] at h
      cases h), fun v h => h.1 rfl⟩

/-! ## C69 -/

/-- **C69 does not hold**: `NewResponder` never adds a transfer. With any tables, settings, files and
peers it reports an error and leaves the table alone, or ends the process. -/
theorem C69_counterexample (T : Tables) (env : TranEnv) (c : Cliflags) (ts : List Transfer) (r : Request)
    (peer : String) (ts' : List Transfer) (e : Option Err)
    (h : newResponder T env c ts r peer = .ret (ts', e)) : ts' = ts ∧ e ≠ none := newResponder_ret h

/-- With the shipped tables a request that is new, from a peer that can be dialled, ends the process,
because there is no flag `fileordir`. -/
theorem C69_shipped (env : TranEnv) (c : Cliflags) (ts : List Transfer) (r : Request) (peer : String)
    (fresh : ∀ t ∈ ts, t.key env.str ≠ (responder, r.session, peer)) (a : UDPAddr) (conn : String)
    (res : env.resolve peer = .ok a) (dial : env.dial a = .ok conn) :
    newResponder shipped env c ts r peer = .fatal := by
  unfold newResponder
  rw [if_neg (fun h => by obtain ⟨t, ht, e⟩ := (lookup_isSome _ _ _ _ _).1 h; exact fresh t ht e)]
  simp only [res, dial]
  have g : getStr shipped r.header "fileordir" = .fatal := by
    unfold getStr
    have : (shipped.flag "fileordir").options = [] := by decide +kernel
    rw [this]; rfl
  have g1 : ∀ f, (∃ s, getStr shipped r.header f = .ret s) ∨ getStr shipped r.header f = .fatal := by
    intro f; unfold getStr; split
    · exact .inl ⟨_, rfl⟩
    · exact .inr rfl
  rcases g1 "version" with ⟨s, h⟩ | h
  · rw [h, Out.ret_bind]
    rcases g1 "reqtype" with ⟨s, h⟩ | h
    · rw [h, Out.ret_bind, g]; rfl
    · rw [h]; rfl
  · rw [h]; rfl

/-- **C69, refused duplicates.** A second request with the session and address of a transfer that is
already answered is refused. Missing: no transfer is ever answered. -/
theorem C69_duplicate_partial (T : Tables) (env : TranEnv) (c : Cliflags) (ts : List Transfer) (r : Request)
    (peer : String) (dup : ∃ t ∈ ts, t.key env.str = (responder, r.session, peer)) :
    ∃ e, newResponder T env c ts r peer = .ret (ts, some e) := by
  unfold newResponder
  rw [if_pos ((lookup_isSome _ _ _ _ _).2 dup)]
  exact ⟨_, rfl⟩

example : (newResponder shipped exampleEnv shippedSettings [] ⟨0x22000000, 5, [1], []⟩ "a") = .fatal := rfl
/-- Also with a table that has `fileordir`. -/
example : ∃ e, newResponder { shipped with flags := ("fileordir", ⟨1, 13, [("file", 0), ("directory", 1)]⟩) :: shipped.flags }
    exampleEnv shippedSettings [] ⟨0x22000001, 5, [1], []⟩ "a" = .ret ([], some e) := ⟨_, rfl⟩

/-- **C69, the flags built for a local file.** If they are built at all, a regular file or a directory is called
normal and reliable, everything else special and not reliable. Missing: `DirEnt.New` refuses the text. -/
theorem C69_kind_partial (T : Tables) (env : TranEnv) (ttype descriptor : String) (fname : List Byte) (i : FileInfo)
    (here : ttype ∈ ["get", "getrm", "rm"]) (file : env.file.fileMeta fname = .ret (.ok i)) (flags : String)
    (fm : Option FileInfo) (built : responderFlags T env ttype descriptor fname = .ret (.ok (flags, fm))) :
    fm = some i ∧
    (i.mode = .regular → flags = "property=normalfile,reliability=yes,descriptor=" ++ descriptor) ∧
    (i.mode = .directory ∨ i.mode = .symlink true →
      flags = "property=normaldirectory,reliability=yes,descriptor=" ++ descriptor) ∧
    (i.mode = .pipe ∨ i.mode = .symlink false ∨ i.mode = .other →
      flags = "property=specialfile,reliability=no,descriptor=" ++ descriptor) := by
  unfold responderFlags at built
  rw [if_pos (by simpa using here), file, Out.ret_bind] at built
  have add : ∀ {a f o r}, addFlag T a f o = .ret r → a ≠ "" → r = a ++ "," ++ f ++ "=" ++ o := by
    intro a f o r h hn
    unfold addFlag at h
    split at h
    · cases h; rfl
    · cases h
  have add0 : ∀ {f o r}, addFlag T "" f o = .ret r → r = f ++ "=" ++ o := by
    intro f o r h
    unfold addFlag at h
    split at h
    · rw [if_neg (by simp)] at h; cases h; rfl
    · cases h
  obtain ⟨f1, h1, built⟩ := Out.bind_eq_ret built
  obtain ⟨f2, h2, built⟩ := Out.bind_eq_ret built
  obtain ⟨f3, h3, built⟩ := Out.bind_eq_ret built
  cases built
  have e1 := add0 h1
  subst e1
  have n2 : "property" ++ "=" ++ (responderKind i.mode).1 ≠ "" := by
    intro h
    have := congrArg String.toList h
    simp at this
  have e2 := add h2 n2
  subst e2
  have n3 : "property" ++ "=" ++ (responderKind i.mode).1 ++ "," ++ "reliability" ++ "=" ++ (responderKind i.mode).2 ≠ "" := by
    intro h
    have := congrArg String.toList h
    simp at this
  have e3 := add h3 n3
  subst e3
  refine ⟨rfl, fun m => ?_, fun m => ?_, fun m => ?_⟩
  · rw [m]; apply String.toList_inj.1; simp [responderKind]
  · rcases m with m | m <;> · rw [m]; apply String.toList_inj.1; simp [responderKind]
  · rcases m with m | m | m <;> · rw [m]; apply String.toList_inj.1; simp [responderKind]

/-- With a table in which the words of a directory entry are flags of frames too. -/
example : (match responderFlags { shipped with flags :=
      [("property", ⟨2, 8, [("normalfile", 0), ("normaldirectory", 1), ("specialfile", 2)]⟩),
       ("reliability", ⟨1, 7, [("yes", 0), ("no", 1)]⟩)] ++ shipped.flags }
    { exampleEnv with file := { exampleEnv.file with fileMeta := fun _ => .ret (.ok ⟨.pipe, 0, ⟨0, 0⟩, ⟨0, 0⟩⟩) } }
    "get" "d64" [1] with
    | .ret (.ok (flags, _)) => flags == "property=specialfile,reliability=no,descriptor=d64"
    | _ => false) = true := by decide +kernel

/-! ## C70 -/

/-- **C70, the transfer.** `Change` records checksum and directory entry; if it succeeds the buffer has the
announced size, and a buffer that exists already keeps its bytes. Missing: that this reaches the table, see
`C70_counterexample`. -/
theorem C70_change_partial (T : Tables) (room : Nat) (t t' : Transfer) (m : MetaData) (e : Option Err)
    (h : t.change T room m = .ret (t', e)) :
    getStr T m.header "csumtype" = .ret t'.csumtype ∧ t'.checksum = m.checksum ∧ t'.dir = some m.dir ∧
    (t.data ≠ [] → t'.data = t.data) ∧ (t.data = [] → t'.data = mkBytes m.dir.size.toNat) ∧
    (e = none → t'.havemeta = true ∧ t'.data.length = m.dir.size.toNat) ∧
    (e ≠ none → t'.havemeta = t.havemeta) ∧
    t'.key = t.key ∧ t'.filename = t.filename ∧ t'.conn = t.conn := by
  unfold Transfer.change at h
  obtain ⟨ct, hct, h⟩ := Out.bind_eq_ret h
  obtain ⟨t1, h1, h⟩ := Out.bind_eq_ret h
  have hd : t1 = { t with csumtype := ct, checksum := m.checksum, dir := some m.dir, data := t1.data } ∧
      (t.data ≠ [] → t1.data = t.data) ∧ (t.data = [] → t1.data = mkBytes m.dir.size.toNat) := by
    unfold Transfer.makeBuffer at h1
    by_cases hl : t.data.length = 0
    · rw [if_pos hl] at h1
      have hl' := List.length_eq_zero_iff.1 hl
      split at h1
      · cases h1; exact ⟨rfl, fun h => absurd hl' h, fun _ => rfl⟩
      · cases h1
    · rw [if_neg hl] at h1
      cases h1
      exact ⟨rfl, fun _ => rfl, fun h => absurd (by rw [h]; rfl) hl⟩
  obtain ⟨hd, d1, d2⟩ := hd
  split at h
  · cases h
    refine ⟨?_, ?_, ?_, d1, d2, by simp, ?_, ?_, ?_, ?_⟩ <;> (rw [hd]) <;> first | exact hct | rfl | exact fun _ => rfl
  · rename_i hsize
    cases h
    refine ⟨?_, ?_, ?_, d1, d2, ?_, by simp, ?_, ?_, ?_⟩
    · rw [hd]; exact hct
    · show t1.checksum = _; rw [hd]
    · show t1.dir = _; rw [hd]
    · intro _
      refine ⟨rfl, ?_⟩
      simp only [ne_eq, Classical.not_not] at hsize
      have h63 : 0 ≤ m.dir.size.toInt := by omega
      rw [BitVec.toInt_eq_toNat_cond] at hsize h63
      have hlt := m.dir.size.isLt
      show t1.data.length = _
      split at hsize <;> omega
    · show t1.key = _; rw [hd]; rfl
    · show t1.filename = _; rw [hd]
    · show t1.conn = _; rw [hd]

/-- **C70 does not hold as stated**: metadata handed to a transfer found with `Lookup` never reaches the
table. -/
theorem C70_counterexample (T : Tables) (room : Nat) (str : UDPAddr → String) (ts ts' : List Transfer)
    (direction : Bool) (session : BitVec 32) (peer : String) (m : MetaData) (r : String)
    (h : changeVia T room str ts direction session peer m = .ret (ts', r)) : ts' = ts := by
  unfold changeVia at h
  split at h
  · cases h; rfl
  · obtain ⟨⟨t', e⟩, _, h⟩ := Out.bind_eq_ret h
    cases e <;> (cases h; rfl)

/-- **C70, the answer.** The word that goes back to the sender of the metadata: `badpacket` if there is no such
transfer, otherwise `success` if the buffer is still empty or has the announced size, which is below 2^63, and
`unspecified` if not. -/
theorem C70_answer (T : Tables) (room : Nat) (str : UDPAddr → String) (ts ts' : List Transfer)
    (direction : Bool) (session : BitVec 32) (peer : String) (m : MetaData) (r : String)
    (h : changeVia T room str ts direction session peer m = .ret (ts', r)) :
    (r = "badpacket" ∧ ∀ t ∈ ts, t.key str ≠ (direction, session, peer)) ∨
    (∃ t ∈ ts, t.key str = (direction, session, peer) ∧
      let fits := (t.data = [] ∨ t.data.length = m.dir.size.toNat) ∧ m.dir.size.toNat < 2 ^ 63
      (fits → r = "success") ∧ (¬ fits → r = "unspecified")) := by
  unfold changeVia at h
  split at h
  · rename_i hn
    cases h
    refine .inl ⟨rfl, fun t ht hk => ?_⟩
    have := (lookup_isSome str ts direction session peer).2 ⟨t, ht, hk⟩
    rw [hn] at this
    cases this
  · rename_i t ht
    refine .inr ⟨t, List.mem_of_find?_eq_some ht, ?_, ?_⟩
    · have := List.find?_some ht
      simp only [decide_eq_true_eq] at this
      simp [Transfer.key, this.1, this.2.1, this.2.2]
    obtain ⟨⟨t', e⟩, hc, h⟩ := Out.bind_eq_ret h
    obtain ⟨-, -, -, d1, d2, -⟩ := C70_change_partial T room t t' m e hc
    have size : t'.data.length = if t.data = [] then m.dir.size.toNat else t.data.length := by
      split
      · rename_i h0; rw [d2 h0]; simp [mkBytes]
      · rename_i h0; rw [d1 h0]
    have good : (t'.data.length : Int) = m.dir.size.toInt ↔
        (t.data = [] ∨ t.data.length = m.dir.size.toNat) ∧ m.dir.size.toNat < 2 ^ 63 := by
      rw [size, BitVec.toInt_eq_toNat_cond]
      have hlt := m.dir.size.isLt
      by_cases h1 : t.data = []
      · simp only [h1, if_true, true_or, true_and]; split <;> omega
      · simp only [h1, if_false, false_or]; split <;> omega
    have ans : e = none ↔ (t'.data.length : Int) = m.dir.size.toInt := by
      unfold Transfer.change at hc
      obtain ⟨ct, -, hc⟩ := Out.bind_eq_ret hc
      obtain ⟨t1, -, hc⟩ := Out.bind_eq_ret hc
      split at hc
      · rename_i hne
        cases hc
        exact ⟨fun h => (by cases h), fun h => absurd h hne⟩
      · rename_i heq
        cases hc
        exact ⟨fun _ => Classical.not_not.1 heq, fun _ => rfl⟩
    intro fits
    cases e with
    | none => cases h; exact ⟨fun _ => rfl, fun hf => absurd (good.1 (ans.1 rfl)) hf⟩
    | some e => cases h; exact ⟨fun hf => absurd (ans.2 (good.2 hf)) (by simp), fun _ => rfl⟩

/-- A buffer of another size is reported. -/
example : ∃ ts, changeVia shipped 100 exampleEnv.str [{ Transfer.zero with session := 9, peer := hostA, data := [1, 2] }]
    responder 9 "a" { MetaData.zero with header := 0x22000000, dir := { DirEnt.zero with size := 4 } } =
    .ret (ts, "unspecified") := ⟨_, rfl⟩

example : ∃ ts, changeVia shipped 100 exampleEnv.str [{ Transfer.zero with session := 9, peer := hostA }] responder 9 "a"
    { MetaData.zero with header := 0x22000000, dir := { DirEnt.zero with size := 4 } } = .ret (ts, "success") ∧
    ts.map (·.havemeta) = [false] ∧ ts.map (·.data) = [[]] := ⟨_, rfl, rfl, rfl⟩

/-! ## C71 -/

/-- **C71 does not hold**: once dialling a peer has failed, its transfer stays in the table without a
connection, every later attempt to start any transfer fails, and the table can only get shorter. -/
theorem C71_counterexample (env : TranEnv) (c : Cliflags) (w w' : TranWorld) (ttype : String) (peer : UDPAddr)
    (fname : List Byte) (r : Except Err Transfer) (dead : ∃ t ∈ w.transfers, t.conn = none)
    (h : newInitiator env c w ttype peer fname = .ret (w', r)) :
    (∃ e, r = .error e) ∧ (w'.transfers = w.transfers ∨ w'.transfers = w.transfers.dropLast) ∧
      w'.sessionid = w.sessionid ∧ w'.fs = w.fs := by
  rcases newInitiator_ret h with ⟨a, b, c', e⟩ | ⟨hc, _⟩
  · refine ⟨e, ?_, b, c'⟩
    unfold newInitiator at h
    split at h
    · cases h
      simp only
      rw [remove_eq]
      split
      · exact .inr rfl
      · exact .inl rfl
    · cases h; exact .inl rfl
    · cases h; exact .inl rfl
    · obtain ⟨_, h1, h⟩ := Out.bind_eq_ret h
      obtain ⟨e, he⟩ := e
      rw [he] at h; cases h
  · obtain ⟨t, ht, hn⟩ := dead
    exact absurd hn (scan_clear _ _ _ _ _ _ hc t ht).1

/-- **C71, what holds.** As long as every dial succeeds every transfer in the table has a connection, and
then starting a transfer takes nothing off the table. Missing: after a failed dial. -/
theorem C71_all_dialled_partial (T : Tables) (ops : List (TranEnv × TranOp)) (w w' : TranWorld)
    (dials : ∀ e ∈ ops, ∀ a, ∃ t, e.1.dial a = .ok t) (ok : ∀ t ∈ w.transfers, t.conn ≠ none)
    (h : w.run T ops = .ret w') :
    (∀ t ∈ w'.transfers, t.conn ≠ none) ∧
    ∀ env c ttype peer fname w'' r, newInitiator env c w' ttype peer fname = .ret (w'', r) →
      w'.transfers <+: w''.transfers := by
  have inv : ∀ t ∈ w'.transfers, t.conn ≠ none := by
    induction ops generalizing w with
    | nil => cases h; exact ok
    | cons e es ih =>
      obtain ⟨w1, h1, h⟩ := Out.bind_eq_ret h
      refine ih w1 (fun x hx => dials x (List.mem_cons_of_mem _ hx)) ?_ h
      rcases step_table h1 with ⟨a, _⟩ | ⟨c, ttype, peer, fname, t, _, hc, ha⟩
      · exact fun t ht => ok t (a.mem ht)
      · obtain ⟨e1, _, _, _, _, _, _, _, e9⟩ := addInitiator_ret ha
        intro x hx
        rw [e1] at hx
        rcases List.mem_append.1 hx with hx | hx
        · exact ok x hx
        · rw [List.mem_singleton] at hx
          subst hx
          obtain ⟨a, ha⟩ := dials _ List.mem_cons_self peer
          rw [e9 a ha]; simp
  refine ⟨inv, ?_⟩
  intro env c ttype peer fname w'' r hn
  rcases newInitiator_ret hn with ⟨_, _, _, e, he⟩ | ⟨_, t, _, ha⟩
  · unfold newInitiator at hn
    split at hn
    · rename_i i hs
      exfalso
      have key : ∀ (ts : List Transfer), (∀ t ∈ ts, t.conn ≠ none) →
          ∀ i, scanTransfers env w'.fs ttype peer fname ts ≠ .noConnection i := by
        intro ts
        induction ts with
        | nil => intro _ i; simp [scanTransfers]
        | cons a rest ih =>
          intro hall i
          simp only [scanTransfers]
          rw [if_neg (hall a List.mem_cons_self)]
          split
          · simp
          split
          · simp
          · exact ih (fun t ht => hall t (List.mem_cons_of_mem _ ht)) i
      exact key _ inv i hs
    · cases hn; exact List.prefix_rfl
    · cases hn; exact List.prefix_rfl
    · obtain ⟨_, h1, hn⟩ := Out.bind_eq_ret hn
      rw [he] at hn; cases hn
  · rw [(addInitiator_ret ha).1]; exact List.prefix_append _ _

/-- A dead transfer in front takes the good ones with it. -/
example : outline ((TranWorld.start exampleFS).run shipped
    [(exampleEnv, .initiate shippedSettings "put" hostDown [1]), (exampleEnv, .initiate shippedSettings "put" hostA [2])]) =
    some [] := by decide +kernel
/-- A dead transfer at the end is removed by the next attempt. -/
example : outline ((TranWorld.start exampleFS).run shipped
    [(exampleEnv, .initiate shippedSettings "put" hostA [2]), (exampleEnv, .initiate shippedSettings "put" hostDown [1]),
     (exampleEnv, .initiate shippedSettings "put" hostB [1])]) =
    some [(42, some "a", [2])] := by decide +kernel

end Saratoga
