import Verif.Model.Owner
import Verif.Props.FileMeta
/-! # C187: whose file it is, and its name -/
namespace Saratoga

/-- **C187, owner.** What `FileMeta` tells besides is told of the place the name leads to, of a link and not of what it leads to:
on linux and darwin its owner and group, on windows nothing but zeros. The rest is as in C128. -/
theorem C187_owner (sys : Platform) (owners : Loc → Owner) (sardir : List Byte) (t : Tree) (name : List Byte) (f : FullMeta) :
    fullMeta sys owners sardir t name = .ret (.ok f) ↔
      ∃ l k, t.lstat (fullName sardir name) = .ok (l, k) ∧ fileMeta sardir t name = .ret (.ok f.data) ∧
        f.path = baseName (fullName sardir name) ∧
        (sys ≠ .windows → f.uid = (owners l).uid.toNat ∧ f.gid = (owners l).gid.toNat) ∧
        (sys = .windows → f.uid = 0 ∧ f.gid = 0) := by
  have told : ∀ o : Owner, ∀ a b : Int, (ownerAndGroup sys o = (a, b)) ↔
      (sys ≠ .windows → a = o.uid.toNat ∧ b = o.gid.toNat) ∧ (sys = .windows → a = 0 ∧ b = 0) := by
    intro o a b
    cases sys <;> simp [ownerAndGroup, Prod.ext_iff, eq_comm]
  unfold fullMeta
  constructor
  · intro h
    split at h
    · rename_i m l k h1 h2
      simp only [Out.ret.injEq, Except.ok.injEq] at h
      subst h
      have := (told (owners l) _ _).1 rfl
      exact ⟨l, k, h2, h1, rfl, this.1, this.2⟩
    · cases h
    · cases h
    · cases h
  · rintro ⟨l, k, h1, h2, h3, h4, h5⟩
    rw [h1, h2]
    have := (told (owners l) _ _).2 ⟨h4, h5⟩
    simp only [this, ← h3]

/-- **C187, no more failures.** It fails or panics exactly if it does for the other fields (C128). -/
theorem C187_fails (sys : Platform) (owners : Loc → Owner) (sardir : List Byte) (t : Tree) (name : List Byte) :
    (fullMeta sys owners sardir t name = .panic ↔ fileMeta sardir t name = .panic) ∧
    fullMeta sys owners sardir t name ≠ .fatal ∧
    (∀ e, fullMeta sys owners sardir t name = .ret (.error e) ↔ fileMeta sardir t name = .ret (.error e)) := by
  unfold fullMeta fileMeta
  cases h : t.lstat (fullName sardir name) with
  | error e => cases e <;> simp
  | ok p =>
    obtain ⟨l, k⟩ := p
    cases k with
    | link text => cases h2 : t.lstat text <;> simp [h2]
    | _ => simp

/-- **C187, told apart.** On linux and darwin different owners or groups are told as different ones, and none is negative. -/
theorem C187_apart (sys : Platform) (unix : sys ≠ .windows) (o o' : Owner) :
    (ownerAndGroup sys o = ownerAndGroup sys o' → o = o') ∧ 0 ≤ (ownerAndGroup sys o).1 ∧ 0 ≤ (ownerAndGroup sys o).2 := by
  obtain ⟨u, g⟩ := o
  obtain ⟨u', g'⟩ := o'
  have key : ((u.toNat : Int), (g.toNat : Int)) = ((u'.toNat : Int), (g'.toNat : Int)) → Owner.mk u g = ⟨u', g'⟩ := by
    intro h
    have h1 : (u.toNat : Int) = u'.toNat := congrArg Prod.fst h
    have h2 : (g.toNat : Int) = g'.toNat := congrArg Prod.snd h
    rw [BitVec.eq_of_toNat_eq (by omega : u.toNat = u'.toNat), BitVec.eq_of_toNat_eq (by omega : g.toNat = g'.toNat)]
  cases sys with
  | windows => exact absurd rfl unix
  | linux => exact ⟨key, Int.natCast_nonneg _, Int.natCast_nonneg _⟩
  | darwin => exact ⟨key, Int.natCast_nonneg _, Int.natCast_nonneg _⟩

theorem dropWhile_none {p : Byte → Bool} {l : List Byte} (h : ∀ b ∈ l, p b = true) (r : List Byte) :
    (l ++ r).dropWhile p = r.dropWhile p := by
  induction l with
  | nil => rfl
  | cons a l ih =>
    rw [List.cons_append, List.dropWhile_cons, if_pos (h a (by simp))]
    exact ih fun b hb => h b (by simp [hb])

theorem takeWhile_stop {p : Byte → Bool} {l : List Byte} (h : ∀ b ∈ l, p b = true) (x : Byte) (hx : p x = false)
    (r : List Byte) : (l ++ x :: r).takeWhile p = l := by
  induction l with
  | nil => rw [List.nil_append, List.takeWhile_cons, hx]; rfl
  | cons a l ih =>
    rw [List.cons_append, List.takeWhile_cons, if_pos (h a (by simp)), ih fun b hb => h b (by simp [hb])]

/-- **C187, name.** The name told is the last one of the path asked for, whatever is before it and however many slashes follow. -/
theorem C187_name (before last : List Byte) (n : Nat) (some_ : last ≠ []) (one : slash ∉ last) :
    baseName (before ++ slash :: last ++ List.replicate n slash) = last := by
  have rev : (before ++ slash :: last ++ List.replicate n slash).reverse =
      List.replicate n slash ++ (last.reverse ++ slash :: before.reverse) := by simp
  have drop : (before ++ slash :: last ++ List.replicate n slash).reverse.dropWhile (· == slash) =
      last.reverse ++ slash :: before.reverse := by
    rw [rev, dropWhile_none (fun b hb => by simp [List.eq_of_mem_replicate hb])]
    cases hr : last.reverse with
    | nil => exact absurd (List.reverse_eq_nil_iff.1 hr) some_
    | cons a r =>
      have : a ∈ last := by rw [← List.mem_reverse, hr]; simp
      rw [List.cons_append, List.dropWhile_cons, if_neg]
      intro e
      exact one (by rw [← eq_of_beq e]; exact this)
  unfold baseName
  rw [drop]
  have take := takeWhile_stop (p := (· != slash)) (l := last.reverse)
    (fun b hb => by simp only [bne_iff_ne, ne_eq]; rintro rfl; exact one (List.mem_reverse.1 hb)) slash (by simp) before.reverse
  split
  · rename_i e
    simp at e
  · rename_i r e
    rw [take, List.reverse_reverse]

/-- **C187, name.** So `FileMeta` tells the name asked for, without the directories it was asked for with. -/
theorem C187_path (sys : Platform) (owners : Loc → Owner) (sardir : List Byte) (t : Tree) (dirs last : List Byte) (f : FullMeta)
    (some_ : last ≠ []) (one : slash ∉ last) :
    (fullMeta sys owners sardir t last = .ret (.ok f) → f.path = last) ∧
    (fullMeta sys owners sardir t (dirs ++ slash :: last) = .ret (.ok f) → f.path = last) := by
  constructor
  · intro h
    obtain ⟨_, _, _, _, e, _⟩ := (C187_owner sys owners sardir t _ f).1 h
    have := C187_name sardir last 0 some_ one
    rw [e]
    exact Eq.trans (congrArg baseName (by simp [fullName])) this
  · intro h
    obtain ⟨_, _, _, _, e, _⟩ := (C187_owner sys owners sardir t _ f).1 h
    have := C187_name (sardir ++ slash :: dirs) last 0 some_ one
    rw [e]
    exact Eq.trans (congrArg baseName (by simp [fullName])) this

/-- **C187** Two files of one name in different directories are told by the same name. -/
theorem C187_name_only : ∃ d f : List Byte, d ≠ f ∧ baseName (fullName exampleDir d) = baseName (fullName exampleDir f) :=
  ⟨[0x73#8, slash, 0x66#8], [0x66#8], by decide, by decide⟩

/-- A link of the user 1000 to a directory of the user 0. -/
example : fullMeta .linux (fun l => if l = [[0x64#8], [0x62#8]] then ⟨1000, 1000⟩ else ⟨0, 0⟩) exampleDir exampleTree [0x62#8] =
    .ret (.ok ⟨⟨[slash, 0x64#8, slash, 0x73#8], .link [slash, 0x64#8, slash, 0x73#8], ⟨7, ⟨1000000000, 0⟩, ⟨1000000000, 0⟩⟩, true,
      false, false, true⟩, [0x62#8], 1000, 1000⟩) := rfl

example := C187_name [slash, 0x64#8] [0x66#8] 2 (by decide) (by decide)

example := C187_apart .darwin (by decide) ⟨1000, 1000⟩ ⟨0, 0⟩

end Saratoga
