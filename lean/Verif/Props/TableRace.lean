import Verif.Model.TableRace
import Verif.Model.TranCmds
import Verif.Props.Transfers
/-!
# Properties of reading the table of transfers while it changes

C108: listing and matching should not end the program and should show the table as it was.
-/
namespace Saratoga

/-- Something other than a removal. -/
def TableAct.keeps : TableAct → Bool
  | .remove _ => false
  | _ => true

/-- A transfer that is added has a connection. -/
def TableAct.connected : TableAct → Bool
  | .add t => t.conn.isSome
  | _ => true

/-- The readers that were started, in order. -/
def startedReaders (acts : List TableAct) : List TableAct :=
  acts.filter fun
    | .startInfo _ => true
    | .startMatch _ _ => true
    | _ => false

/-- The transfer is the one looked for. -/
def LookedFor (addr : String) (session : BitVec 32) (t : Transfer) : Prop := t.conn = some addr ∧ t.session = session

/-- What a reader has found, if the table is now `ts` and was at least `base` long when the reader started: as things
were at some moment, in a beginning of the table of `len` entries, `Info` has the transfers of its type, and `Match`
the last one that is looked for. -/
inductive Answers (base : Nat) (ts : List Transfer) : TableAct → TableReader → Prop
  | info (ttype : String) (len : Nat) : base ≤ len → len ≤ ts.length →
    Answers base ts (.startInfo ttype) (.listed ((ts.take len).filter fun t => ttype = "" ∨ t.ttype = ttype))
  | found (addr : String) (session : BitVec 32) (len n : Nat) (t : Transfer) : base ≤ len → len ≤ ts.length →
    n < len → ts[n]? = some t → LookedFor addr session t →
    (∀ i x, n < i → i < len → ts[i]? = some x → ¬ LookedFor addr session x) →
    Answers base ts (.startMatch addr session) (.matched (some n))
  | none (addr : String) (session : BitVec 32) (len : Nat) : base ≤ len → len ≤ ts.length →
    (∀ i x, i < len → ts[i]? = some x → ¬ LookedFor addr session x) →
    Answers base ts (.startMatch addr session) (.matched Option.none)

/-- As long as nothing is removed a reader has its answer, or has a part of it. -/
def ReaderGood (base : Nat) (ts : List Transfer) : TableAct → TableReader → Prop
  | .startInfo ttype, .listing ty i len got =>
    ty = ttype ∧ i ≤ len ∧ base ≤ len ∧ len ≤ ts.length ∧
      got = (ts.take i).filter fun t => ttype = "" ∨ t.ttype = ttype
  | .startMatch addr session, .matching a s n =>
    a = addr ∧ s = session ∧ ∃ len, n ≤ len ∧ base ≤ len ∧ len ≤ ts.length ∧
      ∀ i x, n ≤ i → i < len → ts[i]? = some x → ¬ LookedFor addr session x
  | st, r => Answers base ts st r

theorem Answers.more {base : Nat} {ts : List Transfer} {st : TableAct} {r : TableReader} (h : Answers base ts st r)
    (t : Transfer) : Answers base (ts ++ [t]) st r := by
  cases h with
  | info ttype len h1 h2 =>
    have : (ts ++ [t]).take len = ts.take len := List.take_append_of_le_length h2
    rw [← this]
    exact .info ttype len h1 (by simp; omega)
  | found addr session len n x h1 h2 h3 h4 h5 h6 =>
    refine .found addr session len n x h1 (by simp; omega) h3 ?_ h5 fun i y hi hl hy => h6 i y hi hl ?_
    · rw [List.getElem?_append_left (by omega)]; exact h4
    · rw [List.getElem?_append_left (by omega)] at hy; exact hy
  | none addr session len h1 h2 h3 =>
    refine .none addr session len h1 (by simp; omega) fun i y hl hy => h3 i y hl ?_
    rw [List.getElem?_append_left (by omega)] at hy; exact hy

theorem ReaderGood.more {base : Nat} {ts : List Transfer} {st : TableAct} {r : TableReader}
    (h : ReaderGood base ts st r) (t : Transfer) : ReaderGood base (ts ++ [t]) st r := by
  unfold ReaderGood at h
  split at h
  · obtain ⟨h1, h2, h3, h4, h5⟩ := h
    refine ⟨h1, h2, h3, by simp; omega, ?_⟩
    rw [List.take_append_of_le_length (by omega)]; exact h5
  · obtain ⟨h1, h2, len, h3, h4, h5, h6⟩ := h
    refine ⟨h1, h2, len, h3, h4, by simp; omega, fun i x a b c => h6 i x a b ?_⟩
    rw [List.getElem?_append_left (by omega)] at c; exact c
  · have g := h.more t
    cases h <;> exact g

theorem ReaderGood.step {base : Nat} {ts : List Transfer} {st : TableAct} {r : TableReader}
    (h : ReaderGood base ts st r) (conns : ∀ t ∈ ts, t.conn.isSome = true) :
    ∃ r', r.step ts = .ret r' ∧ ReaderGood base ts st r' := by
  unfold ReaderGood at h
  split at h
  · rename_i ttype ty i len got
    obtain ⟨rfl, h1, h0, h2, h3⟩ := h
    simp only [TableReader.step]
    by_cases hi : i < len
    · rw [if_pos hi, List.getElem?_eq_getElem (by omega)]
      refine ⟨_, rfl, rfl, by omega, h0, h2, ?_⟩
      rw [List.take_succ_eq_append_getElem (by omega), List.filter_append, ← h3]
      by_cases c : ty = "" ∨ ts[i].ttype = ty
      · rw [if_pos c]; simp [c]
      · rw [if_neg c]; simp [c]
    · rw [if_neg hi, h3]
      exact ⟨_, rfl, .info ty i (by omega) (by omega)⟩
  · rename_i addr session a s n
    obtain ⟨rfl, rfl, len, h1, h2, h3, h4⟩ := h
    cases n with
    | zero => exact ⟨_, rfl, .none _ _ len h2 h3 fun i x hi hx => h4 i x (Nat.zero_le _) hi hx⟩
    | succ n =>
      simp only [TableReader.step]
      have hn : n < ts.length := by omega
      rw [List.getElem?_eq_getElem hn]
      have := conns ts[n] (List.getElem_mem _)
      cases hc : ts[n].conn with
      | none => rw [hc] at this; cases this
      | some x =>
        simp only
        rw [hc]
        simp only
        by_cases c : a = x ∧ s = ts[n].session
        · rw [if_pos c]
          exact ⟨_, rfl, .found a s len n ts[n] h2 h3 (by omega) (List.getElem?_eq_getElem hn)
            ⟨by rw [hc, c.1], c.2.symm⟩ fun i y hi hl hy => h4 i y hi hl hy⟩
        · rw [if_neg c]
          refine ⟨_, rfl, rfl, rfl, len, by omega, h2, h3, fun i y hi hl hy => ?_⟩
          rcases Nat.eq_or_lt_of_le hi with e | e
          · subst e
            rw [List.getElem?_eq_getElem hn] at hy
            cases hy
            rintro ⟨c1, c2⟩
            rw [hc] at c1
            exact c ⟨(Option.some.inj c1).symm, c2.symm⟩
          · exact h4 i y e hl hy
  · cases h with
    | info ttype len h1 h2 => exact ⟨_, rfl, .info ttype len h1 h2⟩
    | found a s len n x h1 h2 h3 h4 h5 h6 => exact ⟨_, rfl, .found a s len n x h1 h2 h3 h4 h5 h6⟩
    | none a s len h1 h2 h3 => exact ⟨_, rfl, .none a s len h1 h2 h3⟩

/-- The reader has finished. -/
def TableReader.finished : TableReader → Bool
  | .listed _ => true
  | .matched _ => true
  | _ => false

/-- **C108** (partial.) As long as transfers are only added, and have connections, listing and matching never end the
program, however many go on at the same time, and every finished reader answers what was asked with the table as it was
at some moment. Missing: removals, see `C108_counterexample`. -/
theorem C108_adding_partial (str : UDPAddr → String) (ts : List Transfer) (conns : ∀ t ∈ ts, t.conn.isSome = true)
    (acts : List TableAct) (keep : ∀ a ∈ acts, a.keeps = true) (conn : ∀ a ∈ acts, a.connected = true) :
    ∃ w, (TableWorld.mk ts []).run str acts = .ret w ∧ ts <+: w.transfers ∧
      w.readers.length = (startedReaders acts).length ∧
      ∀ (k : Nat) start r, (startedReaders acts)[k]? = some start → w.readers[k]? = some r → r.finished = true →
        Answers ts.length w.transfers start r := by
  have go : ∀ (acts : List TableAct) (w : TableWorld) (sts : List TableAct), (∀ a ∈ acts, a.keeps = true) →
      (∀ a ∈ acts, a.connected = true) → ts <+: w.transfers → (∀ t ∈ w.transfers, t.conn.isSome = true) →
      w.readers.length = sts.length →
      (∀ (k : Nat) st r, sts[k]? = some st → w.readers[k]? = some r → ReaderGood ts.length w.transfers st r) →
      ∃ w', w.run str acts = .ret w' ∧ ts <+: w'.transfers ∧ w'.readers.length = (sts ++ startedReaders acts).length ∧
        ∀ (k : Nat) st r, (sts ++ startedReaders acts)[k]? = some st → w'.readers[k]? = some r →
          ReaderGood ts.length w'.transfers st r := by
    intro acts
    induction acts with
    | nil =>
      intro w sts _ _ h1 _ h2 h3
      refine ⟨w, rfl, h1, ?_, ?_⟩
      · simp [startedReaders, h2]
      · simpa [startedReaders] using h3
    | cons a acts ih =>
      intro w sts keep conn h1 h2 hl h3
      have keep' := fun b hb => keep b (List.mem_cons_of_mem _ hb)
      have conn' := fun b hb => conn b (List.mem_cons_of_mem _ hb)
      have ka := keep a List.mem_cons_self
      have ca := conn a List.mem_cons_self
      have next : ∀ w1 sts1, sts1 ++ startedReaders acts = sts ++ startedReaders (a :: acts) → w.step str a = .ret w1 →
          ts <+: w1.transfers → (∀ t ∈ w1.transfers, t.conn.isSome = true) → w1.readers.length = sts1.length →
          (∀ (k : Nat) st r, sts1[k]? = some st → w1.readers[k]? = some r → ReaderGood ts.length w1.transfers st r) →
          ∃ w', w.run str (a :: acts) = .ret w' ∧ ts <+: w'.transfers ∧
            w'.readers.length = (sts ++ startedReaders (a :: acts)).length ∧
            ∀ (k : Nat) st r, (sts ++ startedReaders (a :: acts))[k]? = some st → w'.readers[k]? = some r →
              ReaderGood ts.length w'.transfers st r := by
        intro w1 sts1 es e g1 g2 g3 g4
        obtain ⟨w', r1, r2⟩ := ih w1 sts1 keep' conn' g1 g2 g3 g4
        rw [es] at r2
        refine ⟨w', ?_, r2⟩
        show ((w.step str a).bind _) = _
        rw [e]; exact r1
      have start : ∀ st r0, (∀ (k : Nat) st' r, (sts ++ [st])[k]? = some st' → (w.readers ++ [r0])[k]? = some r →
          ReaderGood ts.length w.transfers st r0 → ReaderGood ts.length w.transfers st' r) := by
        intro st r0 k st' r e1 e2 g
        rcases Nat.lt_trichotomy k sts.length with hk | hk | hk
        · rw [List.getElem?_append_left hk] at e1
          rw [List.getElem?_append_left (by omega)] at e2
          exact h3 k st' r e1 e2
        · rw [List.getElem?_append_right (by omega), hk, Nat.sub_self] at e1
          rw [List.getElem?_append_right (by omega), hk, hl, Nat.sub_self] at e2
          cases e1; cases e2
          exact g
        · rw [List.getElem?_eq_none (by simp; omega)] at e1; cases e1
      have len := h1.length_le
      cases a with
      | remove t => cases ka
      | add t =>
        refine next _ sts rfl rfl (h1.trans (List.prefix_append _ _)) ?_ hl ?_
        · intro x hx
          rcases List.mem_append.1 hx with hx | hx
          · exact h2 x hx
          · rw [List.mem_singleton] at hx; subst hx; exact ca
        · intro k st r a b; exact (h3 k st r a b).more t
      | startInfo ttype =>
        refine next _ (sts ++ [.startInfo ttype]) (by simp [startedReaders]) rfl h1 h2 (by simp [hl]) ?_
        intro k st r e1 e2
        exact start _ _ k st r e1 e2 ⟨rfl, Nat.zero_le _, len, Nat.le_refl _, rfl⟩
      | startMatch ad s =>
        refine next _ (sts ++ [.startMatch ad s]) (by simp [startedReaders]) rfl h1 h2 (by simp [hl]) ?_
        intro k st r e1 e2
        exact start _ _ k st r e1 e2 ⟨rfl, rfl, _, Nat.le_refl _, len, Nat.le_refl _, fun i x a b => by omega⟩
      | read k =>
        cases hk : w.readers[k]? with
        | none =>
          refine next w sts rfl ?_ h1 h2 hl h3
          simp only [TableWorld.step, hk]
        | some r =>
          have hkl : k < w.readers.length := by
            apply Nat.lt_of_not_le; intro h; rw [List.getElem?_eq_none h] at hk; cases hk
          have hs := List.getElem?_eq_getElem (hl ▸ hkl : k < sts.length)
          obtain ⟨r', e, g⟩ := (h3 k _ r hs hk).step h2
          refine next { w with readers := w.readers.set k r' } sts rfl ?_ h1 h2 (by simp [hl]) ?_
          · simp only [TableWorld.step, hk, e]; rfl
          · intro i st x e1 e2
            by_cases hi : k = i
            · subst hi
              rw [hs] at e1; cases e1
              rw [List.getElem?_set_self hkl] at e2; cases e2
              exact g
            · rw [List.getElem?_set_ne hi] at e2
              exact h3 i st x e1 e2
  obtain ⟨w, r1, r2, r3, r4⟩ := go acts ⟨ts, []⟩ [] keep conn (List.prefix_refl _) conns rfl (fun k _ _ h => by simp at h)
  rw [List.nil_append] at r3 r4
  refine ⟨w, r1, r2, r3, fun k st r e1 e2 f => ?_⟩
  have g := r4 k st r e1 e2
  unfold ReaderGood at g
  split at g
  · cases f
  · cases f
  · exact g

example := C108_adding_partial (fun _ => "") [{ Transfer.zero with conn := some "a" }] (by simp)
  [.startInfo "", .read 0, .add { Transfer.zero with conn := some "b" }, .read 0] (by simp [TableAct.keeps])
  (by simp [TableAct.connected])

/-- The readers of the model agree with the functions that run alone (C68, C100). -/
theorem C108_alone (ts : List Transfer) (ttype : String) :
    ∃ n, ∀ str, ∃ w, (TableWorld.mk ts []).run str (.startInfo ttype :: List.replicate n (.read 0)) = .ret w ∧
      w.transfers = ts ∧ w.readers = [.listed (ts.filter fun t => ttype = "" ∨ t.ttype = ttype)] := by
  refine ⟨ts.length + 1, fun str => ?_⟩
  have go : ∀ (m i : Nat) (got : List Transfer), i + m = ts.length →
      got = ((ts.take i).filter fun t => ttype = "" ∨ t.ttype = ttype) →
      ∃ w, (TableWorld.mk ts [.listing ttype i ts.length got]).run str (List.replicate (m + 1) (.read 0)) = .ret w ∧
        w.transfers = ts ∧ w.readers = [.listed (ts.filter fun t => ttype = "" ∨ t.ttype = ttype)] := by
    intro m
    induction m with
    | zero =>
      intro i got h1 h2
      refine ⟨⟨ts, [.listed got]⟩, ?_, rfl, ?_⟩
      · show ((TableWorld.step str _ _).bind _) = _
        have : TableReader.step ts (.listing ttype i ts.length got) = .ret (.listed got) := by
          simp only [TableReader.step]; rw [if_neg (by omega)]
        simp only [TableWorld.step, List.getElem?_cons_zero, this]
        rfl
      · rw [h2, List.take_of_length_le (by omega)]
    | succ m ih =>
      intro i got h1 h2
      have hi : i < ts.length := by omega
      obtain ⟨w, r1, r2⟩ := ih (i + 1) (if ttype = "" ∨ ts[i].ttype = ttype then got ++ [ts[i]] else got) (by omega) (by
        rw [List.take_succ_eq_append_getElem hi, List.filter_append, ← h2]
        by_cases c : ttype = "" ∨ ts[i].ttype = ttype
        · rw [if_pos c]; simp [c]
        · rw [if_neg c]; simp [c])
      refine ⟨w, ?_, r2⟩
      show ((TableWorld.step str _ _).bind _) = _
      have : TableReader.step ts (.listing ttype i ts.length got) = .ret (.listing ttype (i + 1) ts.length
          (if ttype = "" ∨ ts[i].ttype = ttype then got ++ [ts[i]] else got)) := by
        simp only [TableReader.step]; rw [if_pos hi, List.getElem?_eq_getElem hi]
      simp only [TableWorld.step, List.getElem?_cons_zero, this]
      exact r1
  obtain ⟨w, r1, r2⟩ := go ts.length 0 [] (by omega) rfl
  exact ⟨w, r1, r2⟩

theorem remove_length (str : UDPAddr → String) (t : Transfer) (ts : List Transfer) (mem : t ∈ ts) :
    (t.remove str ts).1.length + 1 = ts.length := by
  unfold Transfer.remove
  cases n : ts.length with
  | zero => rw [List.length_eq_zero_iff.1 n] at mem; cases mem
  | succ n =>
    have : (lookup str ts t.direction t.session (str t.peer)).isSome = true := by
      unfold lookup
      rw [List.find?_isSome]
      exact ⟨t, mem, by simp⟩
    unfold removeTranLoop
    rw [if_pos this]
    simp
    omega

/-- **C108** Listing the transfers, or looking for one, while another command removes one of them ends the program:
whatever the table and whichever transfer is removed. -/
theorem C108_counterexample (str : UDPAddr → String) (ts : List Transfer) (t : Transfer) (mem : t ∈ ts) (ttype : String)
    (addr : String) (session : BitVec 32) :
    (∃ n, (TableWorld.mk ts []).run str (.startInfo ttype :: .remove t :: List.replicate n (.read 0)) = .panic) ∧
    (TableWorld.mk ts []).run str [.startMatch addr session, .remove t, .read 0] = .panic := by
  have len := remove_length str t ts mem
  generalize hr : (t.remove str ts).1 = rs at len
  constructor
  · refine ⟨rs.length + 1, ?_⟩
    show (TableWorld.mk (t.remove str ts).1 [.listing ttype 0 ts.length []]).run str _ = _
    rw [hr]
    have go : ∀ (m i : Nat) (got : List Transfer), i + m = rs.length →
        (TableWorld.mk rs [.listing ttype i ts.length got]).run str (List.replicate (m + 1) (.read 0)) = .panic := by
      intro m
      induction m with
      | zero =>
        intro i got h
        show ((TableWorld.step str _ _).bind _) = _
        have : TableReader.step rs (.listing ttype i ts.length got) = .panic := by
          simp only [TableReader.step]; rw [if_pos (by omega), List.getElem?_eq_none (by omega)]
        simp only [TableWorld.step, List.getElem?_cons_zero, this]
        rfl
      | succ m ih =>
        intro i got h
        have hi : i < rs.length := by omega
        show ((TableWorld.step str _ _).bind _) = _
        have : TableReader.step rs (.listing ttype i ts.length got) = .ret (.listing ttype (i + 1) ts.length
            (if ttype = "" ∨ rs[i].ttype = ttype then got ++ [rs[i]] else got)) := by
          simp only [TableReader.step]; rw [if_pos (by omega), List.getElem?_eq_getElem hi]
        simp only [TableWorld.step, List.getElem?_cons_zero, this]
        exact ih (i + 1) _ (by omega)
    exact go rs.length 0 [] (by omega)
  · show (TableWorld.mk (t.remove str ts).1 [.matching addr session ts.length]).run str [.read 0] = _
    rw [hr]
    show ((TableWorld.step str _ _).bind _) = _
    have : TableReader.step rs (.matching addr session ts.length) = .panic := by
      rw [← len]
      simp only [TableReader.step]
      rw [List.getElem?_eq_none (Nat.le_refl _)]
    simp only [TableWorld.step, List.getElem?_cons_zero, this]
    rfl

/-- The hypotheses are met: a table with one transfer, listed while another is added. -/
example : ∃ w, (TableWorld.mk [{ Transfer.zero with conn := some "a" }] []).run (fun _ => "")
    [.startInfo "", .read 0, .add { Transfer.zero with conn := some "b" }, .read 0] = .ret w ∧
    w.readers = [.listed [{ Transfer.zero with conn := some "a" }]] := ⟨_, rfl, rfl⟩

example : ∃ w, (TableWorld.mk [{ Transfer.zero with conn := some "a" }] []).run (fun _ => "")
    [.startMatch "a" 0, .startMatch "b" 0, .add { Transfer.zero with conn := some "b" }, .read 0, .read 1, .read 1] = .ret w ∧
    w.readers = [.matched (some 0), .matched none] := ⟨_, rfl, rfl⟩

end Saratoga
