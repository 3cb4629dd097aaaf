import Verif.Props.MetaNew
/-!
# Exact conditions: the size and the checksum that metadata announce
-/
namespace Saratoga

private theorem pickDesc_le (a b : BitVec 64) : b.toNat < 2 ^ descBits (pickDesc a) ↔
    (a.toNat < 2 ^ 16 - 1 → b.toNat < 2 ^ 16) ∧ (a.toNat < 2 ^ 32 - 1 → b.toNat < 2 ^ 32) := by
  have h0 := b.isLt
  have e1 : (0xFFFF#64).toNat = 65535 := rfl
  have e2 : (0xFFFFFFFF#64).toNat = 4294967295 := rfl
  unfold pickDesc
  split
  · rename_i h; rw [BitVec.lt_def, e1] at h
    show b.toNat < 2 ^ 16 ↔ _
    omega
  · rename_i h; rw [BitVec.lt_def, e1] at h
    split
    · rename_i h'; rw [BitVec.lt_def, e2] at h'
      show b.toNat < 2 ^ 32 ↔ _
      omega
    · rename_i h'; rw [BitVec.lt_def, e2] at h'
      split
      · show b.toNat < 2 ^ 64 ↔ _
        omega
      · show b.toNat < 2 ^ 128 ↔ _
        omega

/-- **C35** exactly: `seen` is what `Lstat` says about the file name and `sent` what `FileMeta` says; the size in the
entry is that of `sent`, and it fits the descriptor if and only if it is no more than 16 bits long when the size seen
is below 2^16-1 and no more than 32 bits when that is below 2^32-1. -/
theorem C35_size_iff (env : FileEnv) (m x : MetaData) (text : String) (info : Minfo) (seen sent : FileInfo)
    (lstat : env.lstat info.fname = .ok seen) (file : seen.mode ≠ .pipe)
    (fileMeta : env.fileMeta info.fname = .ret (.ok sent))
    (built : m.new shipped env text info = .ret (x, none)) :
    x.dir.size = sent.size ∧ ∃ desc, getDStr shipped x.dir.header "descriptor" = .ret desc ∧
      (x.dir.size.toNat < 2 ^ descBits desc ↔
        (seen.size.toNat < 2 ^ 16 - 1 → sent.size.toNat < 2 ^ 16) ∧
        (seen.size.toNat < 2 ^ 32 - 1 → sent.size.toNat < 2 ^ 32)) := by
  unfold MetaData.new at built
  obtain ⟨h1, a1, built⟩ := Out.bind_eq_ret built
  obtain ⟨h2, a2, built⟩ := Out.bind_eq_ret built
  obtain ⟨⟨⟨d', cs⟩, e⟩, a3, built⟩ := Out.bind_eq_ret built
  cases e with
  | some e => cases built
  | none =>
    obtain ⟨fi', p, d, b1, b2, b3, b4, b5, b6, _⟩ := MetaData.finish_ok built
    rw [lstat] at b1
    cases b1
    obtain ⟨_, c2, c3, c4⟩ := DirEnt.new_metaFlags_ok (kindName_mem b2) (pickDesc_mem _) b3
    have hsize : x.dir.size = sent.size := by
      rw [b6]
      simp only
      rcases c4 with ⟨hp, hz⟩ | ⟨hp, fi', g1, g2, _⟩
      · subst hp
        cases hm : seen.mode <;> rw [hm] at b2 file <;> simp [kindName] at b2 file
      · rw [fileMeta] at g1
        cases g1
        exact g2
    refine ⟨hsize, pickDesc seen.size, ?_, ?_⟩
    · rw [b6]
      simp only
      rw [c2]
      exact (freshHeader_strs _ (kindName_mem b2) _ (pickDesc_mem _)).2
    · rw [hsize]; exact pickDesc_le _ _

example := C35_size_iff ⟨fun _ => .ok ⟨.regular, 10, ⟨1000000000, 0⟩, ⟨1000000000, 0⟩⟩,
    fun _ => .ret (.ok ⟨.regular, 100000, ⟨1000000000, 0⟩, ⟨1000000000, 0⟩⟩),
    fun _ => .ok [], id, id, id, ⟨1000000000, 0⟩⟩ .zero _ "csumtype=none" ⟨1, [97#8]⟩ _ _ rfl (by decide) rfl rfl

/-- **C35** exactly, for a variable used before or not: the checksum length in the header is that of the checksum
carried if and only if, for a stream, the header announces none, and for anything else, where the header announces none
the variable had none. -/
theorem C35_checksum_iff (env : FileEnv) (m x : MetaData) (text : String) (info : Minfo)
    (built : m.new shipped env text info = .ret (x, none)) :
    x.checksum.length = 4 * (get shipped x.header "csumlen").toNat ↔
      if getStr shipped x.header "transfer" = .ret "stream" then get shipped x.header "csumlen" = 0
      else get shipped x.header "csumlen" = 0 → m.checksum = [] := by
  have sep := C11_shipped_separated.2.2.2.1
  unfold MetaData.new at built
  obtain ⟨h1, a1, built⟩ := Out.bind_eq_ret built
  obtain ⟨h2, a2, built⟩ := Out.bind_eq_ret built
  obtain ⟨⟨⟨d', cs⟩, e⟩, a3, built⟩ := Out.bind_eq_ret built
  cases e with
  | some e => cases built
  | none =>
    have inv := flagLoop_inv (fun s : MetaData × String => s.1.checksum = m.checksum ∧
        (s.2 = "" ∨ getStr shipped s.1.header "csumlen" = .ret s.2))
      (fun s f s' hI hs => by
        obtain ⟨hc, hI⟩ := hI
        unfold MetaData.newStep at hs
        simp only at hs
        split at hs
        · rename_i hn
          obtain ⟨v, _, hs⟩ := Out.bind_eq_ret hs
          obtain ⟨h', hset, hs⟩ := Out.bind_eq_ret hs
          cases hs
          have hf : first f ∈ metadataFields ∧ "csumlen" ≠ first f := by
            simp only [metadataNames, List.mem_cons, List.not_mem_nil, or_false] at hn
            rcases hn with h | h | h | h <;> rw [h] <;> decide
          have q1 := (set_carries sep hf.1 hset).2.1 "csumlen" (by decide) hf.2
          refine ⟨hc, ?_⟩
          simp only
          rw [q1.2]
          exact hI
        · split at hs
          · rename_i hn
            obtain ⟨v, _, hs⟩ := Out.bind_eq_ret hs
            obtain ⟨h', hset, hs⟩ := Out.bind_eq_ret hs
            obtain ⟨h'', hset', hs⟩ := Out.bind_eq_ret hs
            cases hs
            exact ⟨hc, Or.inr (set_carries sep (f := "csumlen") (by decide) hset').1⟩
          · cases hs)
      ⟨rfl, Or.inl rfl⟩ a3
    obtain ⟨hc, hI⟩ := inv
    simp only at hc hI
    obtain ⟨fi, p, d, _, _, _, b4, _, _, b7⟩ := MetaData.finish_ok built
    rw [b4]
    simp only at b7 ⊢
    have zero : ∀ b : BitVec 32, b = 0 ↔ b.toNat = 0 := fun b =>
      ⟨fun h => by rw [h]; rfl, fun h => BitVec.eq_of_toNat_eq (by rw [h]; rfl)⟩
    rcases b7 with ⟨s1, _, t1, t2⟩ | ⟨s1, c, b, hcs, hf, hb⟩
    · rw [t2, if_pos s1, zero, List.length_nil]
      omega
    · cases hcs
      rw [if_neg s1]
      obtain ⟨hne, hlen⟩ := fileChecksum_length hf
      have hl := hI.resolve_left hne
      rw [value_csumlen hl] at hlen
      rw [hb, zero]
      split
      · constructor
        · intro _ h; omega
        · intro _; omega
      · rename_i h0
        rw [hc]
        constructor
        · intro h _
          exact List.length_eq_zero_iff.1 (by omega)
        · intro h
          rw [h (by omega), List.length_nil]
          omega

/-- A file that grew between the two looks at it: the size does not fit. -/
example : ∃ (env : FileEnv) (x : MetaData) (seen sent : FileInfo), env.lstat [97#8] = .ok seen ∧
    seen.mode ≠ .pipe ∧ env.fileMeta [97#8] = .ret (.ok sent) ∧
    MetaData.zero.new shipped env "csumtype=none" ⟨1, [97#8]⟩ = .ret (x, none) ∧
    seen.size.toNat < 2 ^ 16 - 1 ∧ ¬ sent.size.toNat < 2 ^ 16 := by
  refine ⟨⟨fun _ => .ok ⟨.regular, 10, ⟨1000000000, 0⟩, ⟨1000000000, 0⟩⟩,
    fun _ => .ret (.ok ⟨.regular, 100000, ⟨1000000000, 0⟩, ⟨1000000000, 0⟩⟩),
    fun _ => .ok [], id, id, id, ⟨1000000000, 0⟩⟩, _, _, _, rfl, ?_, rfl, rfl, ?_, ?_⟩ <;> decide +kernel

end Saratoga
