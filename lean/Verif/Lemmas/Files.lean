import Verif.Spec.Files
import Verif.Props.Holes
namespace Saratoga

theorem snoc_induction' {α : Type} {P : List α → Prop} (nil : P [])
    (snoc : ∀ (l : List α) (a : α), P l → P (l ++ [a])) (l : List α) : P l := by
  rw [← l.reverse_reverse]
  induction l.reverse with
  | nil => exact nil
  | cons a l ih => rw [List.reverse_cons]; exact snoc _ a ih

/-! ## nodes -/

theorem node_put_self (fs : FS) (l : Loc) (n : Node) : (fs.put l n).node l = some n := by
  simp [FS.put, FS.node]

theorem find_filter_ne (nodes : List (Loc × Node)) (l m : Loc) (h : m ≠ l) :
    (nodes.filter fun e => e.1 ≠ l).find? (fun e => e.1 = m) = nodes.find? (fun e => e.1 = m) := by
  induction nodes with
  | nil => rfl
  | cons e es ih =>
    by_cases h1 : e.1 = l
    · have h2 : ¬ (e.1 = m) := by intro h2; exact h (h2.symm.trans h1)
      simp only [List.filter_cons, h1, ne_eq, not_true, decide_false, Bool.false_eq_true, if_false]
      rw [List.find?_cons_of_neg (by simpa using h2), ← ih]
    · simp only [List.filter_cons, h1, ne_eq, not_false_eq_true, decide_true, if_true]
      by_cases h2 : e.1 = m
      · rw [List.find?_cons_of_pos (by simpa using h2), List.find?_cons_of_pos (by simpa using h2)]
      · rw [List.find?_cons_of_neg (by simpa using h2), List.find?_cons_of_neg (by simpa using h2), ← ih]

theorem node_put_other (fs : FS) (l m : Loc) (n : Node) (h : m ≠ l) :
    (fs.put l n).node m = fs.node m := by
  unfold FS.put FS.node
  simp only
  rw [List.find?_cons_of_neg (by simpa using fun e => h e.symm), find_filter_ne _ _ _ h]

theorem node_del_self (fs : FS) (l : Loc) : (fs.del l).node l = none := by
  unfold FS.del FS.node
  simp

theorem node_del_other (fs : FS) (l m : Loc) (h : m ≠ l) : (fs.del l).node m = fs.node m := by
  unfold FS.del FS.node
  simp only
  rw [find_filter_ne _ _ _ h]

/-! ## paths -/

theorem splitSlash_ne_nil (a : List Byte) : splitSlash a ≠ [] := by
  cases a with
  | nil => simp [splitSlash]
  | cons b bs =>
    unfold splitSlash
    split
    · simp
    · split <;> simp

theorem splitSlash_append (a b : List Byte) :
    splitSlash (a ++ [slash] ++ b) = splitSlash a ++ splitSlash b := by
  induction a with
  | nil => simp [splitSlash]
  | cons c cs ih =>
    simp only [List.cons_append]
    have e1 : ∀ t, splitSlash (c :: t) = if c = slash then [] :: splitSlash t
        else match splitSlash t with
          | [] => [[c]]
          | p :: ps => (c :: p) :: ps := fun t => rfl
    rw [e1, e1, ih]
    split
    · simp
    · cases h : splitSlash cs with
      | nil => exact absurd h (splitSlash_ne_nil cs)
      | cons p ps => simp

theorem walk_append (fs : FS) (cur : Loc) (xs ys : List Name) :
    fs.walk cur (xs ++ ys) = (fs.walk cur xs).bind fun d => fs.walk d ys := by
  induction xs generalizing cur with
  | nil => rfl
  | cons x xs ih =>
    simp only [List.cons_append, FS.walk]
    split
    · exact ih _
    · rfl

theorem locate_fullName (fs : FS) (sardir fname : List Byte) (h : sardir ≠ []) :
    fs.locate (fullName sardir fname) = (fs.locate sardir).bind fun d => fs.walk d (splitSlash fname) := by
  cases sardir with
  | nil => exact absurd rfl h
  | cons b rest =>
    have e : fullName (b :: rest) fname = b :: (rest ++ [slash] ++ fname) := by simp [fullName]
    rw [e]
    unfold FS.locate
    simp only
    split
    · rw [splitSlash_append, walk_append]
    · have e2 : b :: (rest ++ [slash] ++ fname) = (b :: rest) ++ [slash] ++ fname := by simp
      rw [e2, splitSlash_append, walk_append]

theorem staysBelow_snoc {xs : List Name} {x : Name} (h : StaysBelow (xs ++ [x])) : StaysBelow xs := by
  intro p hp
  exact h p (hp.trans (List.prefix_append _ _))

/-- Walking names that stay below ends below, exactly as deep as the surplus of real names. -/
theorem walk_below (fs : FS) (d : Loc) (names : List Name) (hs : StaysBelow names) (l : Loc)
    (hw : fs.walk d names = some l) :
    d <+: l ∧ l.length + (names.filter fun c => c = [dot, dot]).length =
      d.length + (names.filter fun c => c ≠ [] ∧ c ≠ [dot] ∧ c ≠ [dot, dot]).length := by
  induction names using snoc_induction' generalizing l with
  | nil => simp [FS.walk] at hw; subst hw; simp
  | snoc xs x ih =>
    rw [walk_append] at hw
    cases hx : fs.walk d xs with
    | none => simp [hx] at hw
    | some m =>
      rw [hx] at hw
      simp only [Option.bind_some, FS.walk] at hw
      split at hw
      · simp only [Option.some.injEq] at hw
        obtain ⟨hp, hl⟩ := ih (staysBelow_snoc hs) m hx
        have hall := hs (xs ++ [x]) (List.prefix_refl _)
        by_cases h1 : x = [] ∨ x = [dot]
        · simp only [h1, if_true] at hw
          subst hw
          refine ⟨hp, ?_⟩
          have hne : x ≠ [dot, dot] := by rcases h1 with h | h <;> subst h <;> decide
          have : ¬ (x ≠ [] ∧ x ≠ [dot] ∧ x ≠ [dot, dot]) := by
            rcases h1 with h | h <;> subst h <;> decide
          simp only [List.filter_append, List.length_append, List.filter_cons, hne, this, decide_false,
            Bool.false_eq_true, if_false, List.filter_nil, List.length_nil]
          omega
        · by_cases h2 : x = [dot, dot]
          · rw [if_neg h1, if_pos h2] at hw
            have a1 : (List.filter (fun c => decide (c = [dot, dot])) [x]).length = 1 := by simp [h2]
            have a2 : (List.filter (fun c => decide (c ≠ [] ∧ c ≠ [dot] ∧ c ≠ [dot, dot])) [x]).length = 0 := by
              simp [h2]
            simp only [List.filter_append, List.length_append, a1, a2] at hall ⊢
            subst hw
            have hlen : d.length < m.length := by omega
            refine ⟨?_, ?_⟩
            · rw [List.dropLast_eq_take]
              obtain ⟨t, ht⟩ := hp
              subst ht
              rw [List.take_append]
              refine ⟨t.take ((d ++ t).length - 1 - d.length), ?_⟩
              rw [List.take_of_length_le (by omega : d.length ≤ (d ++ t).length - 1)]
            · rw [List.length_dropLast]
              omega
          · simp only [h1, if_false, h2] at hw
            subst hw
            have a1 : (List.filter (fun c => decide (c = [dot, dot])) [x]).length = 0 := by simp [h2]
            have h3 : x ≠ [] ∧ x ≠ [dot] ∧ x ≠ [dot, dot] := ⟨fun h => h1 (.inl h), fun h => h1 (.inr h), h2⟩
            have a2 : (List.filter (fun c => decide (c ≠ [] ∧ c ≠ [dot] ∧ c ≠ [dot, dot])) [x]).length = 1 := by
              rw [List.filter_cons, if_pos (by simpa using h3)]; rfl
            simp only [List.filter_append, List.length_append, a1, a2]
            refine ⟨hp.trans (List.prefix_append _ _), ?_⟩
            simp only [List.length_cons, List.length_nil]
            omega
      · cases hw

/-! ## reading and writing -/

theorem mkBytes_length' (n : Nat) : (mkBytes n).length = n := by simp [mkBytes]

theorem writeAt_get (c : List Byte) (pos : Nat) (buf : List Byte) (i : Nat) :
    (writeAt c pos buf)[i]? = byteAfter c pos buf i := by
  unfold writeAt byteAfter
  split
  · subst_vars
    simp only [List.length_nil, ne_eq, not_true, and_false, if_false]
    rw [if_neg (by omega)]
  · rename_i hb
    have hl : ((c ++ mkBytes (pos - c.length)).take pos).length = pos := by
      simp [mkBytes_length']; omega
    by_cases h1 : i < pos
    · rw [if_neg (by omega), List.append_assoc, List.getElem?_append_left (by omega),
        List.getElem?_take, if_pos h1]
      by_cases h2 : i < c.length
      · rw [if_neg (by omega), List.getElem?_append_left h2]
      · rw [if_pos ⟨by omega, h1, hb⟩, List.getElem?_append_right (by omega)]
        simp [mkBytes, List.getElem?_replicate]
        omega
    · by_cases h2 : i < pos + buf.length
      · rw [if_pos ⟨by omega, h2⟩, List.append_assoc, List.getElem?_append_right (by omega), hl,
          List.getElem?_append_left (by omega)]
      · rw [if_neg (by omega), if_neg (by omega), List.getElem?_append_right (by simp; omega),
          List.getElem?_drop, List.length_append, hl]
        congr 1
        omega

theorem writeAt_length (c : List Byte) (pos : Nat) (buf : List Byte) (hb : buf ≠ []) :
    (writeAt c pos buf).length = max c.length (pos + buf.length) := by
  unfold writeAt
  rw [if_neg hb]
  simp [mkBytes_length']
  omega

theorem toInt_nonneg (pos : BitVec 64) : ¬ pos.toInt < 0 ↔ pos.toNat < 2 ^ 63 := by
  rw [BitVec.toInt_eq_toNat_cond]
  have := pos.isLt
  split <;> omega

end Saratoga
namespace Saratoga

theorem fileSeek_ok (h : Handle) (pos : BitVec 64) (hp : pos.toNat < 2 ^ 63) :
    fileSeek (some h) pos = none := by
  simp only [fileSeek, (toInt_nonneg pos).2 hp, if_false]

theorem fileSeek_bad (h : Handle) (pos : BitVec 64) (hp : 2 ^ 63 ≤ pos.toNat) :
    ∃ e, fileSeek (some h) pos = some e := by
  have : pos.toInt < 0 := by
    have := toInt_nonneg pos
    omega
  exact ⟨"fileWrite: pos is > MaxInt64", by simp only [fileSeek, this, if_true]⟩

/-- A write to an open file. -/
theorem fileWrite_eq (fs : FS) (h : Handle) (pos : BitVec 64) (buf c : List Byte) (short : Option Nat)
    (hw : h.writable = true) (hn : fs.node h.loc = some (.file c)) (hp : pos.toNat < 2 ^ 63) :
    fileWrite fs (some h) pos buf short =
      match short with
      | none => (fs.put h.loc (.file (writeAt c pos.toNat buf)), buf.length, none)
      | some n => (fs.put h.loc (.file (writeAt c pos.toNat (buf.take n))), (buf.take n).length, some "write") := by
  unfold fileWrite
  simp only [fileSeek_ok h pos hp, hw, if_true, hn]
  cases short <;> rfl

theorem create_effect (fs : FS) (path : List Byte) :
    ((fs.create path).1 = fs ∨ ∃ l, fs.locate path = some l ∧ (fs.create path).1 = fs.put l (.file [])) ∧
    ∀ h, (fs.create path).2 = .ok h → fs.locate path = some h.loc := by
  unfold FS.create
  cases hl : fs.locate path with
  | none => simp
  | some l =>
    simp only
    split
    · simp
    · split
      · simp
      · refine ⟨.inl rfl, ?_⟩
        intro h hh
        cases hh; rfl
      · refine ⟨.inr ⟨l, rfl, rfl⟩, ?_⟩
        intro h hh
        cases hh; rfl

theorem mkdir_effect (fs : FS) (path : List Byte) :
    (fs.mkdir path).1 = fs ∨ ∃ l, fs.locate path = some l ∧ fs.node l = none ∧
      (fs.mkdir path).1 = fs.put l .dir := by
  unfold FS.mkdir
  cases hl : fs.locate path with
  | none => simp
  | some l =>
    simp only
    split
    · simp
    · cases hn : fs.node l with
      | some n => simp
      | none => right; exact ⟨l, rfl, hn, rfl⟩

theorem chdir_node (fs : FS) (path : List Byte) (m : Loc) : (fs.chdir path).1.node m = fs.node m := by
  unfold FS.chdir
  split
  · rfl
  · split
    · rfl
    · split <;> rfl

theorem remove_effect (fs : FS) (path : List Byte) :
    (∃ e, fs.remove path = (fs, some e)) ∨
    ∃ l, fs.locate path = some l ∧ fs.node l ≠ none ∧ fs.remove path = (fs.del l, none) := by
  unfold FS.remove
  cases hl : fs.locate path with
  | none => simp
  | some l =>
    simp only
    split
    · simp
    · cases hn : fs.node l with
      | none => simp
      | some n =>
        cases n with
        | dir =>
          simp only
          split
          · simp
          · right; exact ⟨l, rfl, by simp [hn], rfl⟩
        | file c => right; exact ⟨l, rfl, by simp [hn], rfl⟩
        | other => right; exact ⟨l, rfl, by simp [hn], rfl⟩

/-- Opening touches at most the place the full name leads to, and gives a handle to that place. -/
theorem fileOpen_effect (sardir : List Byte) (fs : FS) (fname : List Byte) (ttype : String) :
    ((∀ m, (fileOpen sardir fs fname ttype).1.node m = fs.node m) ∨
      ∃ l, fs.locate (fullName sardir fname) = some l ∧
        SameExceptAt l fs (fileOpen sardir fs fname ttype).1) ∧
    ∀ h, (fileOpen sardir fs fname ttype).2 = .ok (some h) →
      fs.locate (fullName sardir fname) = some h.loc := by
  unfold fileOpen
  simp only
  split
  · split
    · simp
    · have hc := create_effect fs (fullName sardir fname)
      cases hr : fs.create (fullName sardir fname) with
      | mk fs' r =>
        rw [hr] at hc
        simp only at hc
        have h1 : (∀ m, fs'.node m = fs.node m) ∨ ∃ l, fs.locate (fullName sardir fname) = some l ∧
            SameExceptAt l fs fs' := by
          rcases hc.1 with h | ⟨l, hl, h⟩
          · left; intro m; rw [h]
          · right; refine ⟨l, hl, ?_⟩; intro m hm; rw [h, node_put_other _ _ _ _ hm]
        cases r with
        | ok h =>
          refine ⟨h1, ?_⟩
          intro h' hh
          simp only [Except.ok.injEq, Option.some.injEq] at hh
          subst hh
          exact hc.2 h rfl
        | error e => exact ⟨h1, by simp⟩
  · split
    · split
      · simp
      · have hc := mkdir_effect fs (fullName sardir fname)
        cases hr : fs.mkdir (fullName sardir fname) with
        | mk fs' r =>
          rw [hr] at hc
          simp only at hc
          have h1 : (∀ m, fs'.node m = fs.node m) ∨ ∃ l, fs.locate (fullName sardir fname) = some l ∧
              SameExceptAt l fs fs' := by
            rcases hc with h | ⟨l, hl, _, h⟩
            · left; intro m; rw [h]
            · right; refine ⟨l, hl, ?_⟩; intro m hm; rw [h, node_put_other _ _ _ _ hm]
          cases r with
          | none =>
            have hn := chdir_node fs' (fullName sardir fname)
            simp only
            cases hd : fs'.chdir (fullName sardir fname) with
            | mk fs2 r2 =>
              rw [hd] at hn
              simp only at hn
              have h2 : (∀ m, fs2.node m = fs.node m) ∨ ∃ l, fs.locate (fullName sardir fname) = some l ∧
                  SameExceptAt l fs fs2 := by
                rcases h1 with h | ⟨l, hl, h⟩
                · left; intro m; rw [hn, h]
                · right; exact ⟨l, hl, fun m hm => by rw [hn, h m hm]⟩
              cases r2 with
              | none => exact ⟨h2, by simp⟩
              | some e => exact ⟨h2, by simp⟩
          | some e => exact ⟨h1, by simp⟩
    · split
      · split
        · simp
        · refine ⟨?_, ?_⟩
          · left; intro m; split <;> rfl
          · intro h hh
            split at hh
            · rename_i h' ho
              simp only [Except.ok.injEq, Option.some.injEq] at hh
              subst hh
              unfold FS.openRead at ho
              split at ho
              · cases ho
              · rename_i l hl
                split at ho
                · cases ho
                · split at ho
                  · cases ho
                  · cases ho; exact hl
            · cases hh
      · split <;> simp

/-! ## storing pieces -/

/-- What the stored bytes have to do with the recorded ranges while pieces of `F` arrive. -/
structure StoreInv (F : List Byte) (c : List Byte) (holes : List Hole) : Prop where
  right : ∀ i : Nat, Covers holes i → i < F.length ∧ c[i]? = F[i]?
  zero : ∀ i : Nat, i < c.length → ¬ Covers holes i → c[i]? = some 0
  last : ∀ n, c.length = n + 1 → Covers holes (n : Int)

/-- How many bytes of the piece are stored. -/
def Arrival.stored (a : Arrival) : Nat :=
  match a.short with
  | none => a.data.length
  | some n => (a.data.take n).length

/-- The `Add` call a stored piece leads to. -/
def Arrival.call (a : Arrival) : AddCall := ⟨a.srt, a.off.toNat, a.off.toNat + a.stored⟩

theorem Arrival.stored_le (a : Arrival) : a.stored ≤ a.data.length := by
  unfold Arrival.stored
  split
  · exact Nat.le_refl _
  · rw [List.length_take]; omega

theorem storeInv_step (F c : List Byte) (hist : List AddCall) (off : Nat) (d : List Byte) (srt : GoSort)
    (hof : off + d.length ≤ F.length) (hd : ∀ i, i < d.length → d[i]? = F[off + i]?)
    (hi : StoreInv F c (Holes.run hist)) :
    StoreInv F (writeAt c off d) (Holes.run (hist ++ [⟨srt, off, (off + d.length : Nat)⟩])) := by
  have cov : ∀ x : Int, Covers (Holes.run (hist ++ [⟨srt, off, (off + d.length : Nat)⟩])) x ↔
      Covers (Holes.run hist) x ∨ ((off : Int) ≤ x ∧ x < ((off + d.length : Nat) : Int)) := by
    intro x
    rw [C01_received_exactly, C01_received_exactly]
    simp only [Received, List.mem_append, List.mem_singleton]
    constructor
    · rintro ⟨cc, h | h, h2⟩
      · exact .inl ⟨cc, h, h2⟩
      · subst h; exact .inr h2
    · rintro (⟨cc, h, h2⟩ | h)
      · exact ⟨cc, .inl h, h2⟩
      · exact ⟨_, .inr rfl, h⟩
  refine ⟨?_, ?_, ?_⟩
  · intro i hc
    rw [writeAt_get]
    unfold byteAfter
    rcases (cov i).1 hc with h | ⟨h1, h2⟩
    · obtain ⟨a, b⟩ := hi.right i h
      refine ⟨a, ?_⟩
      by_cases hr : off ≤ i ∧ i < off + d.length
      · rw [if_pos hr, hd _ (by omega)]; congr 1; omega
      · rw [if_neg hr]
        have : i < c.length := by
          rw [List.getElem?_eq_getElem a] at b
          exact (List.getElem?_eq_some_iff.1 b).1
        rw [if_neg (by omega), b]
    · have h3 : off ≤ i := by omega
      have h4 : i < off + d.length := by omega
      refine ⟨by omega, ?_⟩
      rw [if_pos ⟨h3, h4⟩, hd _ (by omega)]; congr 1; omega
  · intro i hlt hn
    have hn2 : ¬ Covers (Holes.run hist) i := fun h => hn ((cov i).2 (.inl h))
    have hn3 : ¬ (off ≤ i ∧ i < off + d.length) := fun h => hn ((cov i).2 (.inr (by omega)))
    rw [writeAt_get]
    unfold byteAfter
    rw [if_neg hn3]
    split
    · rfl
    · rename_i h4
      refine hi.zero i ?_ hn2
      by_cases hb : d = []
      · subst hb; simpa [writeAt] using hlt
      · rw [writeAt_length _ _ _ hb] at hlt
        have : ¬ (c.length ≤ i ∧ i < off) := fun h => h4 ⟨h.1, h.2, hb⟩
        omega
  · intro n hl
    by_cases hb : d = []
    · subst hb
      exact (cov n).2 (.inl (hi.last n (by simpa [writeAt] using hl)))
    · rw [writeAt_length _ _ _ hb] at hl
      by_cases h : c.length = n + 1
      · exact (cov n).2 (.inl (hi.last n h))
      · have hpos : d.length ≠ 0 := fun h => hb (List.length_eq_zero_iff.1 h)
        exact (cov n).2 (.inr (by omega))

theorem storeAll_snoc (h : Handle) (fs : FS) (as : List Arrival) (a : Arrival) :
    storeAll h fs (as ++ [a]) = store h (storeAll h fs as) a := by
  simp [storeAll]

theorem holesRun_snoc (hist : List AddCall) (c : AddCall) :
    Holes.run (hist ++ [c]) = Holes.add c.srt (Holes.run hist) c.start c.stop := by
  simp [Holes.run]

theorem storeAll_inv (F : List Byte) (hF : F.length < 2 ^ 63) (h : Handle) (hw : h.writable = true)
    (fs : FS) (hn : fs.node h.loc = some (.file [])) (as : List Arrival) (hof : ∀ a ∈ as, a.Of F) :
    (∃ c, (storeAll h fs as).1.node h.loc = some (.file c) ∧ StoreInv F c (storeAll h fs as).2) ∧
    (storeAll h fs as).2 = Holes.run (as.map Arrival.call) ∧
    SameExceptAt h.loc fs (storeAll h fs as).1 := by
  induction as using snoc_induction' with
  | nil =>
    refine ⟨⟨[], hn, ?_⟩, rfl, fun m _ => rfl⟩
    refine ⟨?_, ?_, ?_⟩
    · intro i hc; simp [storeAll, Covers] at hc
    · intro i hi; simp at hi
    · intro n hl; simp at hl
  | snoc as a ih =>
    obtain ⟨⟨c, hc, hi⟩, hr, hs⟩ := ih (fun b hb => hof b (List.mem_append_left _ hb))
    have ha := hof a (List.mem_append_right _ (List.mem_singleton.2 rfl))
    have hfit : a.off.toNat < 2 ^ 63 := by have := ha.1; omega
    rw [storeAll_snoc]
    unfold store
    rw [fileWrite_eq _ h a.off a.data c a.short hw hc hfit]
    rw [List.map_append, List.map_cons, List.map_nil, holesRun_snoc, ← hr]
    rw [hr] at hi
    cases hsh : a.short with
    | none =>
      simp only
      refine ⟨⟨_, node_put_self _ _ _, ?_⟩, ?_, ?_⟩
      · have := storeInv_step F c (as.map Arrival.call) a.off.toNat a.data a.srt ha.1 ha.2 hi
        rw [holesRun_snoc] at this
        rw [hr]
        simpa using this
      · simp [Arrival.call, Arrival.stored, hsh]
      · intro m hm; rw [node_put_other _ _ _ _ hm]; exact hs m hm
    | some n =>
      simp only
      refine ⟨⟨_, node_put_self _ _ _, ?_⟩, ?_, ?_⟩
      · have := storeInv_step F c (as.map Arrival.call) a.off.toNat (a.data.take n) a.srt
          (by have := ha.1; simp; omega)
          (by
            intro i hi2
            simp only [List.length_take] at hi2
            rw [List.getElem?_take, if_pos (by omega)]
            exact ha.2 i (by omega)) hi
        rw [holesRun_snoc] at this
        rw [hr]
        simpa using this
      · simp [Arrival.call, Arrival.stored, hsh]
      · intro m hm; rw [node_put_other _ _ _ _ hm]; exact hs m hm

end Saratoga
