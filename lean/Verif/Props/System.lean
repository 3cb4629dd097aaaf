import Verif.Model.System
/-! # Properties C120 and C121: the space of a disk, the address of this host -/
namespace Saratoga

/-! ## C120 -/

/-- The disk: its bytes, the free ones, and those free to a user. -/
structure Disk where
  size : Nat
  free : Nat
  available : Nat

/-- The numbers are those of the disk. -/
def DiskUsage.Tells (u : DiskUsage) (d : Disk) : Prop :=
  u.size.toNat = d.size ∧ u.free.toNat = d.free ∧ u.available.toNat = d.available ∧ u.used.toNat = d.size - d.free

/-- What `statfs` says of a disk: all in blocks of one size, and not more free than there is. -/
def Statfs.Of (s : Statfs) (d : Disk) : Prop :=
  d.size = s.blocks.toNat * s.bsize.toNat ∧ d.free = s.bfree.toNat * s.bsize.toNat ∧
  d.available = s.bavail.toNat * s.bsize.toNat ∧ d.available ≤ d.free ∧ d.free ≤ d.size

/-- What windows says of a disk. -/
def WinSpace.Of (s : WinSpace) (d : Disk) : Prop :=
  d.size = s.total.toNat ∧ d.free = s.totalFree.toNat ∧ d.available = s.toCaller.toNat ∧
  d.available ≤ d.free ∧ d.free ≤ d.size

/-- **C120** (partial: on linux and darwin, disks of less than 2^64 bytes.) The numbers are those of the disk. Missing:
larger disks, and windows, see `C120_counterexample`. -/
theorem C120_unix_partial (s : Statfs) (d : Disk) (of : s.Of d) (fits : d.size < 2 ^ 64) :
    (DiskUsage.unix (some s)).Tells d := by
  obtain ⟨h1, h2, h3, h4, h5⟩ := of
  have m : ∀ a b : BitVec 64, a.toNat * b.toNat < 2 ^ 64 → (a * b).toNat = a.toNat * b.toNat := by
    intro a b h
    rw [BitVec.toNat_mul, Nat.mod_eq_of_lt h]
  have e1 := m s.blocks s.bsize (by omega)
  have e2 := m s.bfree s.bsize (by omega)
  have e3 := m s.bavail s.bsize (by omega)
  refine ⟨by show (s.blocks * s.bsize).toNat = _; omega, by show (s.bfree * s.bsize).toNat = _; omega,
    by show (s.bavail * s.bsize).toNat = _; omega, ?_⟩
  show (s.blocks * s.bsize - s.bfree * s.bsize).toNat = _
  rw [BitVec.toNat_sub_of_le (by rw [BitVec.le_def]; omega)]
  omega

example := C120_unix_partial ⟨4096, 1000, 500, 400⟩ ⟨4096000, 2048000, 1638400⟩ (by unfold Statfs.Of; decide) (by decide)

/-- **C120** Used and free are together the size, on every system, whatever it answers. -/
theorem C120_sum (s : Option Statfs) (t : Option WinSpace) :
    (DiskUsage.unix s).used + (DiskUsage.unix s).free = (DiskUsage.unix s).size ∧
    (DiskUsage.windows t).used + (DiskUsage.windows t).free = (DiskUsage.windows t).size :=
  ⟨BitVec.sub_add_cancel _ _, BitVec.sub_add_cancel _ _⟩

/-- **C120** On windows the numbers are those of the disk exactly when the user may use all that is free. -/
theorem C120_windows_partial (s : WinSpace) (d : Disk) (of : s.Of d) :
    (DiskUsage.windows (some s)).Tells d ↔ d.available = d.free := by
  obtain ⟨h1, h2, h3, h4, h5⟩ := of
  unfold DiskUsage.Tells DiskUsage.windows
  simp only [Option.getD_some]
  rw [BitVec.toNat_sub_of_le (by rw [BitVec.le_def]; omega)]
  omega

example := C120_windows_partial ⟨5, 100, 50⟩ ⟨100, 50, 5⟩ (by unfold WinSpace.Of; decide)

/-- **C120** fails: on windows free and available are exchanged, for every disk with a quota; on linux a disk of 2^64
bytes has size zero; and a path that does not exist is a disk of no bytes. -/
theorem C120_counterexample :
    (∀ (s : WinSpace) (d : Disk), s.Of d → d.available < d.free →
      (DiskUsage.windows (some s)).free.toNat = d.available ∧ (DiskUsage.windows (some s)).available.toNat = d.free) ∧
    (∃ (s : Statfs) (d : Disk), s.Of d ∧ d.size = 2 ^ 64 ∧ (DiskUsage.unix (some s)).size = 0) ∧
    DiskUsage.unix none = ⟨0, 0, 0, 0⟩ := by
  refine ⟨fun s d h _ => ⟨h.2.2.1.symm, h.2.1.symm⟩, ⟨⟨4096, 4503599627370496, 5, 4⟩, ⟨2 ^ 64, 20480, 16384⟩, ?_, rfl, ?_⟩, rfl⟩
  · unfold Statfs.Of; decide
  · decide

example : (Statfs.mk 4096 1000 500 400).Of ⟨4096000, 2048000, 1638400⟩ := by unfold Statfs.Of; decide
example : (WinSpace.mk 5 100 50).Of ⟨100, 50, 5⟩ := by unfold WinSpace.Of; decide

/-! ## C121 -/

/-- An IPv4 address as four bytes: the address itself, or what it is behind the prefix `::ffff:`. -/
inductive IsV4 : List Byte → List Byte → Prop
  | plain (ip : List Byte) : ip.length = 4 → IsV4 ip ip
  | mapped (ip : List Byte) : ip.length = 4 → IsV4 ([0, 0, 0, 0, 0, 0, 0, 0, 0, 0, 0xff, 0xff] ++ ip) ip

theorem to4_iff (a ip : List Byte) : to4 a = some ip ↔ IsV4 a ip := by
  unfold to4
  constructor
  · intro h
    split at h
    · cases h; exact .plain _ (by assumption)
    · split at h
      · rename_i h1 h2
        cases h
        have := IsV4.mapped (a.drop 12) (by rw [List.length_drop]; omega)
        have e : ([0, 0, 0, 0, 0, 0, 0, 0, 0, 0, 0xff, 0xff] : List Byte) ++ a.drop 12 = a := by
          have : ([0, 0, 0, 0, 0, 0, 0, 0, 0, 0, 0xff, 0xff] : List Byte) = a.take 12 := h2.2.symm
          rw [this, List.take_append_drop]
        rw [e] at this
        exact this
      · cases h
  · intro h
    cases h with
    | plain _ h => rw [if_pos h]
    | mapped _ h =>
      have l : (([0, 0, 0, 0, 0, 0, 0, 0, 0, 0, 0xff, 0xff] : List Byte) ++ ip).length = 16 := by simp [h]
      rw [if_neg (by omega), if_pos ⟨l, rfl⟩]
      rfl

/-- **C121** Asked for IPv4 it answers the first IPv4 address of the host, and ends the program exactly if there is none. -/
theorem C121_v4 (addrs : List (List Byte)) :
    (∀ ip, outboundIP "IPv4" addrs = .ret ip ↔
      ∃ before a after, addrs = before ++ a :: after ∧ IsV4 a ip ∧ ∀ b ∈ before, ∀ x, ¬ IsV4 b x) ∧
    (outboundIP "IPv4" addrs = .fatal ↔ ∀ a ∈ addrs, ∀ x, ¬ IsV4 a x) := by
  induction addrs with
  | nil =>
    refine ⟨fun ip => ⟨fun h => (by cases h), ?_⟩, fun _ a h => (by cases h), fun _ => rfl⟩
    rintro ⟨before, a, after, e, _⟩
    simp at e
  | cons a rest ih =>
    unfold outboundIP
    cases h : to4 a with
    | some ip =>
      rw [if_pos ⟨rfl, rfl⟩]
      have v := (to4_iff a ip).1 h
      refine ⟨fun x => ⟨?_, ?_⟩, (by intro e; cases e), fun e => absurd v (e a List.mem_cons_self ip)⟩
      · intro e
        cases e
        exact ⟨[], a, rest, rfl, v, fun b hb => (by cases hb)⟩
      · rintro ⟨before, b, after, e, hv, none⟩
        cases before with
        | nil =>
          cases e
          have := (to4_iff _ _).2 hv
          rw [h] at this
          cases this
          rfl
        | cons c before =>
          cases e
          exact absurd v (none _ List.mem_cons_self ip)
    | none =>
      rw [if_neg (by simp), if_neg (by simp)]
      have nv : ∀ x, ¬ IsV4 a x := fun x hx => by rw [(to4_iff a x).2 hx] at h; cases h
      refine ⟨fun ip => ⟨?_, ?_⟩, ?_, ?_⟩
      · intro e
        obtain ⟨before, b, after, e1, e2, e3⟩ := (ih.1 ip).1 e
        refine ⟨a :: before, b, after, by rw [e1]; rfl, e2, fun c hc => ?_⟩
        rcases List.mem_cons.1 hc with rfl | hc
        · exact nv
        · exact e3 c hc
      · rintro ⟨before, b, after, e1, e2, e3⟩
        cases before with
        | nil => cases e1; exact absurd e2 (nv ip)
        | cons c before =>
          cases e1
          exact (ih.1 ip).2 ⟨before, b, after, rfl, e2, fun c hc => e3 c (List.mem_cons_of_mem _ hc)⟩
      · intro e b hb
        rcases List.mem_cons.1 hb with rfl | hb
        · exact nv
        · exact ih.2.1 e b hb
      · intro e
        exact ih.2.2 fun b hb => e b (List.mem_cons_of_mem _ hb)

/-- **C121** (partial.) Asked for IPv6 it answers with the first address of the host, so with an IPv6 address exactly if
that one is not IPv4. Missing: hosts of which the first address is IPv4, see `C121_counterexample`. -/
theorem C121_v6_partial (a : List Byte) (rest : List (List Byte)) (address : a.length = 4 ∨ a.length = 16) :
    ∃ b, outboundIP "IPv6" (a :: rest) = .ret b ∧ b.length = 16 ∧ ((∃ x, IsV4 b x) ↔ ∃ x, IsV4 a x) ∧
      ((∀ x, ¬ IsV4 a x) → b = a) := by
  unfold outboundIP
  rw [if_neg (by simp)]
  rcases address with h | h
  · have : to16 a = some (List.replicate 10 0#8 ++ [0xff#8, 0xff#8] ++ a) := by unfold to16; rw [if_pos h]
    rw [this, if_pos ⟨rfl, rfl⟩]
    exact ⟨_, rfl, by simp [h], ⟨fun _ => ⟨a, .plain a h⟩, fun _ => ⟨a, .mapped a h⟩⟩, fun n => absurd (.plain a h) (n a)⟩
  · have : to16 a = some a := by unfold to16; rw [if_neg (by omega), if_pos h]
    rw [this, if_pos ⟨rfl, rfl⟩]
    exact ⟨_, rfl, h, Iff.rfl, fun _ => rfl⟩

/-- **C121** fails for IPv6: a host with an IPv4 address first answers that one, whatever IPv6 addresses follow; and any
other type ends the program. -/
theorem C121_counterexample (a ip : List Byte) (rest : List (List Byte)) (four : IsV4 a ip) :
    (∃ b, outboundIP "IPv6" (a :: rest) = .ret b ∧ IsV4 b ip) ∧
    ∀ typ, typ ≠ "IPv4" → typ ≠ "IPv6" → ∀ addrs, outboundIP typ addrs = .fatal := by
  constructor
  · unfold outboundIP
    rw [if_neg (by simp)]
    cases four with
    | plain _ h =>
      have : to16 a = some (List.replicate 10 0#8 ++ [0xff#8, 0xff#8] ++ a) := by unfold to16; rw [if_pos h]
      rw [this, if_pos ⟨rfl, rfl⟩]
      exact ⟨_, rfl, .mapped _ h⟩
    | mapped _ h =>
      have l : (([0, 0, 0, 0, 0, 0, 0, 0, 0, 0, 0xff, 0xff] : List Byte) ++ ip).length = 16 := by simp [h]
      have : to16 ([0, 0, 0, 0, 0, 0, 0, 0, 0, 0, 0xff, 0xff] ++ ip) =
          some ([0, 0, 0, 0, 0, 0, 0, 0, 0, 0, 0xff, 0xff] ++ ip) := by
        unfold to16; rw [if_neg (by omega), if_pos l]
      rw [this, if_pos ⟨rfl, rfl⟩]
      exact ⟨_, rfl, .mapped ip h⟩
  · intro typ h4 h6 addrs
    induction addrs with
    | nil => rfl
    | cons b rest ih =>
      unfold outboundIP
      rw [if_neg (by simp [h4]), if_neg (by simp [h6])]
      exact ih

example : outboundIP "IPv6" [[10, 0, 0, 1], List.replicate 15 0 ++ [1]] =
    .ret [0, 0, 0, 0, 0, 0, 0, 0, 0, 0, 0xff, 0xff, 10, 0, 0, 1] := by decide
example : outboundIP "IPv4" [List.replicate 15 0 ++ [1], [10, 0, 0, 1]] = .ret [10, 0, 0, 1] := by decide
example : ∀ x, ¬ IsV4 (List.replicate 15 0 ++ [1]) x := by
  intro x h
  have := (to4_iff _ _).2 h
  rw [show to4 (List.replicate 15 0 ++ [1]) = none by decide] at this
  cases this

end Saratoga
