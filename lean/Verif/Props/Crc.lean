import Verif.Lemmas.Crc
import Verif.Props.MetaNew

/-! Property C141: the `crc32` sent with a file tells it from a damaged one (`fileio/checksum.go`). -/

namespace Saratoga

/-- **C141** The sum does not depend on the pieces the file is read in. -/
theorem C141_pieces (p : List (List Byte)) : crcSum p = crcSum [p.flatten] := by
  unfold crcSum
  rw [crcWrites 0 p]
  rfl

/-- **C141** It has four bytes, as the shipped tables want it (`csumlen` of `crc32` is 1). -/
theorem C141_four_bytes_long (p : List (List Byte)) :
    (crcSum p).length = 4 ∧ value shipped "csumlen" "crc32" * 4 = (crcSum p).length := by
  refine ⟨rfl, ?_⟩
  show _ = ((4 : Nat) : Int)
  rw [show value shipped "csumlen" "crc32" = 1 by decide +kernel]; rfl

theorem crcSum_bits {p q : List (List Byte)} (h : crcSum p = crcSum q) :
    crcBits (~~~ 0) (bitsOf p.flatten) = crcBits (~~~ 0) (bitsOf q.flatten) := by
  have := crcSum_inj h
  rw [crcWrites, crcWrites] at this
  unfold crcWrite at this
  rw [foldl_crcByte, foldl_crcByte] at this
  have := congrArg (~~~ ·) this
  simpa using this

theorem crcSum_eq_of_bits {p q : List (List Byte)}
    (h : crcBits (~~~ 0) (bitsOf p.flatten) = crcBits (~~~ 0) (bitsOf q.flatten)) : crcSum p = crcSum q := by
  unfold crcSum
  rw [crcWrites, crcWrites]
  unfold crcWrite
  rw [foldl_crcByte, foldl_crcByte, h]

/-- **C141** Two files of one length whose differences lie within 32 adjacent bits have different sums. -/
theorem C141_burst (p q : List (List Byte)) (len : p.flatten.length = q.flatten.length)
    (ne : p.flatten ≠ q.flatten) (i : Nat) (burst : ∀ j, DifferAt p.flatten q.flatten j → i ≤ j ∧ j < i + 32) :
    crcSum p ≠ crcSum q := by
  intro h
  have h := crcSum_bits h
  generalize p.flatten = f at *
  generalize q.flatten = g at *
  apply ne
  apply bitsOf_inj
  have lb : (bitsOf f).length = (bitsOf g).length := by rw [bitsOf_length, bitsOf_length, len]
  have same : ∀ j, j < i ∨ i + 32 ≤ j → (bitsOf f)[j]? = (bitsOf g)[j]? := by
    intro j hj
    refine Decidable.byContradiction fun hd => ?_
    have := burst j hd
    omega
  have first : (bitsOf f).take i = (bitsOf g).take i := by
    apply List.ext_getElem?
    intro j
    rw [List.getElem?_take, List.getElem?_take]
    split
    · exact same j (by omega)
    · rfl
  have last : (bitsOf f).drop (i + 32) = (bitsOf g).drop (i + 32) := by
    apply List.ext_getElem?
    intro j
    rw [List.getElem?_drop, List.getElem?_drop]
    exact same _ (by omega)
  have cut : ∀ l : List Bool, l = l.take i ++ ((l.drop i).take 32 ++ l.drop (i + 32)) := by
    intro l
    rw [← List.drop_drop, List.take_append_drop, List.take_append_drop]
  rw [cut (bitsOf f), cut (bitsOf g), crcBits_append, crcBits_append, crcBits_append, crcBits_append, last, first] at h
  have mid := crcBits_short (by simp [List.length_take, List.length_drop, lb])
    (by rw [List.length_take]; omega) _ (crcBits_inj h)
  rw [cut (bitsOf f), cut (bitsOf g), first, mid, last]

/-- **C141** So has a file in which up to four adjacent bytes were replaced. -/
theorem C141_four_bytes (pre a b post : List Byte) (len : a.length = b.length) (few : a.length ≤ 4) (ne : a ≠ b) :
    crcSum [pre ++ a ++ post] ≠ crcSum [pre ++ b ++ post] := by
  intro h
  have h := crcSum_bits h
  simp only [List.flatten_cons, List.flatten_nil, List.append_nil, bitsOf_append, crcBits_append] at h
  exact ne (bitsOf_inj (crcBits_short (by rw [bitsOf_length, bitsOf_length, len])
    (by rw [bitsOf_length]; omega) _ (crcBits_inj h)))

/-! ### Two wrong bits -/

theorem crcRounds_zero (n : Nat) : crcRounds n 0 = 0 := by
  have := crcRounds_xor n 0 0
  rwa [BitVec.xor_self, BitVec.xor_self] at this

/-- A number without small divisors has none. -/
theorem no_divisor {p b : Nat} (pos : 0 < p) (none : ∀ d < b, p % d = 0 → d = 1) (large : p < b * b) {d : Nat}
    (h : d ∣ p) : d = 1 ∨ d = p := by
  obtain ⟨e, he⟩ := h
  by_cases hd : d < b
  · exact .inl (none d hd (by rw [he]; exact Nat.mul_mod_right _ _))
  · right
    have hb : e < b := by
      refine Nat.lt_of_not_le fun hb => ?_
      have := Nat.mul_le_mul (Nat.le_of_not_lt hd) hb
      omega
    have := none e hb (by rw [he]; exact Nat.mul_mod_left _ _)
    rw [he, this, Nat.mul_one]

theorem back_sub {m n : Nat} (hm : crcRounds m 1 = 1) (hn : crcRounds (m + n) 1 = 1) : crcRounds n 1 = 1 := by
  rw [crcRounds_add, hm] at hn
  exact hn

theorem back_mul {m : Nat} (hm : crcRounds m 1 = 1) (k : Nat) : crcRounds (m * k) 1 = 1 := by
  induction k with
  | zero => rfl
  | succ k ih => rw [Nat.mul_succ, crcRounds_add, ih, hm]

theorem back_gcd (m n : Nat) (hm : crcRounds m 1 = 1) (hn : crcRounds n 1 = 1) : crcRounds (Nat.gcd m n) 1 = 1 := by
  induction m, n using Nat.gcd.induction with
  | H0 n => rw [Nat.gcd_zero_left]; exact hn
  | H1 m n pos ih =>
    rw [Nat.gcd_rec]
    refine ih ?_ hm
    have e : n = m * (n / m) + n % m := (Nat.div_add_mod n m).symm
    rw [e] at hn
    exact back_sub (back_mul hm (n / m)) hn

theorem back_full : crcRounds 4294967295 1 = 1 := by
  rw [crcRounds_fast _ (by decide)]; decide +kernel

theorem not_back_3 : crcRounds 1431655765 1 ≠ 1 := by
  rw [crcRounds_fast _ (by decide)]; decide +kernel
theorem not_back_5 : crcRounds 858993459 1 ≠ 1 := by
  rw [crcRounds_fast _ (by decide)]; decide +kernel
theorem not_back_17 : crcRounds 252645135 1 ≠ 1 := by
  rw [crcRounds_fast _ (by decide)]; decide +kernel
theorem not_back_257 : crcRounds 16711935 1 ≠ 1 := by
  rw [crcRounds_fast _ (by decide)]; decide +kernel
theorem not_back_65537 : crcRounds 65535 1 ≠ 1 := by
  rw [crcRounds_fast _ (by decide)]; decide +kernel

/-- The rounds do not come back to 1 before `2^32 - 1` of them. -/
theorem not_back {n : Nat} (pos : 0 < n) (small : n < 4294967295) : crcRounds n 1 ≠ 1 := by
  intro h
  have hg := back_gcd n 4294967295 h back_full
  have hd := Nat.gcd_dvd_right n 4294967295
  have hl : Nat.gcd n 4294967295 ≤ n := Nat.gcd_le_left _ pos
  generalize Nat.gcd n 4294967295 = g at *
  obtain ⟨q, hq⟩ := hd
  have q1 : q ≠ 1 := by
    rintro rfl
    omega
  have byPrime : ∀ p r : Nat, p * r = 4294967295 → crcRounds r 1 ≠ 1 → (∀ d, d ∣ p → d = 1 ∨ d = p) →
      Nat.gcd q p = 1 := by
    intro p r hpr hr prime
    rcases prime _ (Nat.gcd_dvd_right q p) with e | e
    · exact e
    · exfalso
      have : p ∣ q := by rw [← e]; exact Nat.gcd_dvd_left _ _
      obtain ⟨c, rfl⟩ := this
      have pp : 0 < p := Nat.pos_of_ne_zero (by rintro rfl; omega)
      have e2 : r = g * c := by
        have : p * r = p * (g * c) := by rw [hpr, hq, Nat.mul_left_comm]
        exact Nat.eq_of_mul_eq_mul_left pp this
      exact hr (by rw [e2]; exact back_mul hg c)
  have c3 := byPrime 3 1431655765 (by decide) not_back_3 (fun d => no_divisor (b := 2) (by decide) (by decide) (by decide))
  have c5 := byPrime 5 858993459 (by decide) not_back_5 (fun d => no_divisor (b := 3) (by decide) (by decide) (by decide))
  have c17 := byPrime 17 252645135 (by decide) not_back_17
    (fun d => no_divisor (b := 5) (by decide) (by decide) (by decide))
  have c257 := byPrime 257 16711935 (by decide) not_back_257
    (fun d => no_divisor (b := 17) (by decide) (by decide) (by decide))
  have c65537 := byPrime 65537 65535 (by decide) not_back_65537
    (fun d => no_divisor (b := 257) (by decide) (by decide +kernel) (by decide))
  have all : Nat.Coprime q (3 * (5 * (17 * (257 * 65537)))) :=
    Nat.Coprime.mul_right c3 (Nat.Coprime.mul_right c5 (Nat.Coprime.mul_right c17 (Nat.Coprime.mul_right c257 c65537)))
  have : q ∣ 3 * (5 * (17 * (257 * 65537))) := ⟨g, by rw [Nat.mul_comm q g, ← hq]⟩
  have := Nat.gcd_eq_left this
  exact q1 (this.symm.trans all)

/-- **C141** Two files of one length that differ in exactly two bits, wherever these are in a file of less than 512
megabytes, have different sums. -/
theorem C141_two_bits (p q : List (List Byte)) (len : p.flatten.length = q.flatten.length) (i j : Nat) (order : i < j)
    (near : j - i < 2 ^ 32 - 1) (bits : ∀ k, DifferAt p.flatten q.flatten k ↔ k = i ∨ k = j) :
    crcSum p ≠ crcSum q := by
  intro h
  have h := crcSum_bits h
  generalize p.flatten = f at *
  generalize q.flatten = g at *
  have lb : (bitsOf f).length = (bitsOf g).length := by rw [bitsOf_length, bitsOf_length, len]
  have hj : j < (bitsOf f).length := by
    refine Nat.lt_of_not_le fun hn => (bits j).2 (.inr rfl) ?_
    rw [List.getElem?_eq_none hn, List.getElem?_eq_none (by omega)]
  have d : List.zipWith xor (bitsOf f) (bitsOf g) = List.replicate i false ++ (true :: (List.replicate (j - i - 1) false ++
      (true :: List.replicate ((bitsOf f).length - j - 1) false))) := by
    apply List.ext_getElem
    · simp only [List.length_zipWith, List.length_append, List.length_replicate, List.length_cons, ← lb]
      omega
    · intro k h1 h2
      rw [List.getElem_zipWith]
      have hk : k < (bitsOf f).length := by rw [List.length_zipWith] at h1; omega
      have hk' : k < (bitsOf g).length := by omega
      have key := bits k
      unfold DifferAt at key
      rw [List.getElem?_eq_getElem hk, List.getElem?_eq_getElem hk'] at key
      have lhs : xor (bitsOf f)[k] (bitsOf g)[k] = decide (k = i ∨ k = j) := by
        by_cases c : k = i ∨ k = j
        · have := key.2 c
          rw [decide_eq_true c]
          revert this
          cases (bitsOf f)[k] <;> cases (bitsOf g)[k] <;> simp
        · have := fun n => c (key.1 n)
          rw [decide_eq_false c]
          revert this
          cases (bitsOf f)[k] <;> cases (bitsOf g)[k] <;> simp
      rw [lhs]
      rw [List.getElem_append]
      simp only [List.length_replicate, List.getElem_replicate]
      split
      · exact decide_eq_false (by omega)
      rw [List.getElem_cons]
      split
      · exact decide_eq_true (by omega)
      rw [List.getElem_append]
      simp only [List.length_replicate, List.getElem_replicate]
      split
      · exact decide_eq_false (by omega)
      rw [List.getElem_cons]
      split
      · exact decide_eq_true (by omega)
      · rw [List.getElem_replicate]
        exact decide_eq_false (by omega)
  have z := crcBits_xor lb (~~~ 0) (~~~ 0)
  rw [h, BitVec.xor_self, BitVec.xor_self, d, crcBits_append, crcBits_zeros] at z
  rw [show (0#32 : BitVec 32) = 0 from rfl, crcRounds_zero] at z
  have step : ∀ (s : BitVec 32) (l : List Bool), crcBits s (true :: l) = crcBits (crcRound (s ^^^ 1#32)) l := fun _ _ => rfl
  rw [step, crcBits_append, crcBits_zeros, step, crcBits_zeros] at z
  have z1 := crcRounds_inj (z.trans (crcRounds_zero _).symm)
  have z2 := crcRound_zero z1
  have z3 := BitVec.xor_eq_zero_iff.1 z2
  have e : crcRound ((0 : BitVec 32) ^^^ 1#32) = crcRound 1 := rfl
  rw [e] at z3
  have z4 : crcRounds (j - i) 1 = 1 := by
    have : j - i = (j - i - 1) + 1 := by omega
    rw [this]
    exact z3
  exact not_back (by omega) (by omega) z4

/-- **C141** More than that cannot be had: 33 adjacent bits can be changed in every file so that the sum stays. -/
theorem C141_escapes (pre a post : List Byte) (five : a.length = 5) :
    crcSum [pre ++ a ++ post] =
      crcSum [pre ++ List.zipWith (· ^^^ ·) a [0x41#8, 0x06#8, 0x71#8, 0xdb#8, 0x01#8] ++ post] := by
  apply crcSum_eq_of_bits
  simp only [List.flatten_cons, List.flatten_nil, List.append_nil, bitsOf_append, crcBits_append]
  congr 1
  have zipBits : ∀ x y : List Byte, bitsOf (List.zipWith (· ^^^ ·) x y) = List.zipWith xor (bitsOf x) (bitsOf y) := by
    intro x
    induction x with
    | nil => intro y; simp [bitsOf]
    | cons b bs ih =>
      intro y
      cases y with
      | nil => simp [bitsOf]
      | cons c cs =>
        show (List.range 8).map (b ^^^ c).getLsbD ++ bitsOf (List.zipWith (· ^^^ ·) bs cs) =
          List.zipWith xor ((List.range 8).map b.getLsbD ++ bitsOf bs) ((List.range 8).map c.getLsbD ++ bitsOf cs)
        rw [ih, List.zipWith_append (by simp)]
        congr 1
        rw [List.zipWith_map, List.zipWith_self]
        apply List.map_congr_left
        intro i _
        exact BitVec.getLsbD_xor
  generalize crcBits (~~~ 0) (bitsOf pre) = s
  rw [zipBits]
  have := crcBits_xor (a := bitsOf a) (b := bitsOf [0x41#8, 0x06#8, 0x71#8, 0xdb#8, 0x01#8])
    (by rw [bitsOf_length, five]; rfl) s 0#32
  rw [BitVec.xor_zero] at this
  rw [this, show crcBits 0#32 (bitsOf [0x41#8, 0x06#8, 0x71#8, 0xdb#8, 0x01#8]) = 0#32 by decide +kernel, BitVec.xor_zero]

example := C141_escapes [1, 2] [3, 4, 5, 6, 7] [8] rfl

/-- **C141** On the wire: when two nodes set to `crc32` announce files that differ by up to 32 adjacent bits, every reader
of the two frames gets different checksums. -/
theorem C141_announced (gl gl' : List (String × String)) (ok : ValidGlobal shipped gl) (ok' : ValidGlobal shipped gl')
    (crc : ("csumtype", "crc32") ∈ gl) (crc' : ("csumtype", "crc32") ∈ gl') (env env' : FileEnv)
    (info info' : Minfo) (fi fi' : FileInfo) (p q : List (List Byte))
    (sum : env.crc32 p.flatten = crcSum p) (sum' : env'.crc32 q.flatten = crcSum q)
    (file : ReadableFile env info.fname fi p.flatten) (file' : ReadableFile env' info'.fname fi' q.flatten)
    (small : fi.size.toNat < 2 ^ 32) (small' : fi'.size.toNat < 2 ^ 32)
    (noNul : NoNul info.fname) (noNul' : NoNul info'.fname) (ascii : Ascii info.fname) (ascii' : Ascii info'.fname)
    (len : p.flatten.length = q.flatten.length) (ne : p.flatten ≠ q.flatten) (i : Nat)
    (burst : ∀ j, DifferAt p.flatten q.flatten j → i ≤ j ∧ j < i + 32) (m0 : MetaData) :
    ∃ x x' frame frame' y y',
      MetaData.zero.new shipped env (setglobal shipped "metadata" gl) info = .ret (x, none) ∧
      MetaData.zero.new shipped env' (setglobal shipped "metadata" gl') info' = .ret (x', none) ∧
      x.encode shipped = .ret frame ∧ x'.encode shipped = .ret frame' ∧
      m0.decode shipped frame = .ret (y, none) ∧ m0.decode shipped frame' = .ret (y', none) ∧
      y.checksum ≠ y'.checksum := by
  obtain ⟨x, frame, h1, h2, h3, -⟩ := C35_file_announced gl ok env m0 info fi _ file small noNul ascii
  obtain ⟨x', frame', h1', h2', h3', -⟩ := C35_file_announced gl' ok' env' m0 info' fi' _ file' small' noNul' ascii'
  obtain ⟨z, hz, -, hc, -⟩ := C14_metadata gl ok env MetaData.zero info fi _ file (by decide +kernel) rfl
  obtain ⟨z', hz', -, hc', -⟩ := C14_metadata gl' ok' env' MetaData.zero info' fi' _ file' (by decide +kernel) rfl
  rw [h1] at hz
  rw [h1'] at hz'
  cases hz
  cases hz'
  refine ⟨x, x', frame, frame', x, x', h1, h1', h2, h2', h3, h3', ?_⟩
  rw [hc _ crc, hc' _ crc']
  simp only [digest, if_true]
  rw [sum, sum']
  exact C141_burst p q len ne i burst

/-! ### Examples -/

/-- The value by which implementations are checked: the sum of `123456789` is `cbf43926`. -/
example : crcSum [[0x31, 0x32, 0x33], [0x34, 0x35, 0x36, 0x37, 0x38], [0x39]] = [0xcb, 0xf4, 0x39, 0x26] := by
  decide +kernel

/-- Two files that meet the conditions of `C141_burst`. -/
example : ∀ j, DifferAt [1#8, 2#8, 3#8] [1#8, 7#8, 3#8] j → 8 ≤ j ∧ j < 8 + 32 := by
  intro j h
  have : j < 24 := by
    refine Nat.lt_of_not_le fun hn => h ?_
    rw [List.getElem?_eq_none (by rw [bitsOf_length]; exact hn), List.getElem?_eq_none (by rw [bitsOf_length]; exact hn)]
  refine ⟨Nat.le_of_not_lt fun hlt => h ?_, by omega⟩
  have : ∀ k < 8, (bitsOf [1#8, 2#8, 3#8])[k]? = (bitsOf [1#8, 7#8, 3#8])[k]? := by decide
  exact this j hlt

/-- Two that meet those of `C141_two_bits`. -/
example : ∀ k, DifferAt [0#8, 0#8] [1#8, 0x80#8] k ↔ k = 0 ∨ k = 15 := by
  intro k
  by_cases h : k < 16
  · have : ∀ k < 16, (bitsOf [0#8, 0#8])[k]? ≠ (bitsOf [1#8, 0x80#8])[k]? ↔ k = 0 ∨ k = 15 := by decide
    exact this k h
  · constructor
    · intro d
      refine absurd ?_ d
      rw [List.getElem?_eq_none (by rw [bitsOf_length]; simpa using h),
        List.getElem?_eq_none (by rw [bitsOf_length]; simpa using h)]
    · omega

end Saratoga
