import Verif.Spec.Transfers
import Verif.Lemmas.Session
import Verif.Lemmas.Bytes
import Verif.Lemmas.FlagText
/-! # Lemmas about the transfer table -/
namespace Saratoga

theorem lookup_isSome (str : UDPAddr → String) (ts : List Transfer) (d : Bool) (s : BitVec 32) (p : String) :
    (lookup str ts d s p).isSome = true ↔ ∃ t ∈ ts, t.key str = (d, s, p) := by
  unfold lookup
  rw [List.find?_isSome]
  simp only [decide_eq_true_eq, Transfer.key, Prod.mk.injEq]
  constructor
  · rintro ⟨t, ht, a, b, c⟩; exact ⟨t, ht, a.symm, b.symm, c⟩
  · rintro ⟨t, ht, a, b, c⟩; exact ⟨t, ht, a.symm, b.symm, c⟩

theorem removeTranLoop_absent (str : UDPAddr → String) (t : Transfer) (ts : List Transfer)
    (h : ¬ (lookup str ts t.direction t.session (str t.peer)).isSome = true) (n : Nat) :
    removeTranLoop str t ts n = (ts, some "Cannot remove Transfer") := by
  induction n with
  | zero => rfl
  | succ n ih => simp only [removeTranLoop]; rw [if_neg h]; exact ih

/-- What `Remove` does. -/
theorem remove_eq (str : UDPAddr → String) (t : Transfer) (ts : List Transfer) :
    t.remove str ts =
      if (lookup str ts t.direction t.session (str t.peer)).isSome then (ts.dropLast, none)
      else (ts, some "Cannot remove Transfer") := by
  unfold Transfer.remove
  by_cases h : (lookup str ts t.direction t.session (str t.peer)).isSome = true
  · rw [if_pos h]
    cases hl : ts.length with
    | zero =>
      have : ts = [] := List.length_eq_zero_iff.1 hl
      subst this
      simp [lookup] at h
    | succ n =>
      simp only [removeTranLoop]
      rw [if_pos h, List.dropLast_eq_take, hl, List.drop_eq_nil_of_le (by omega)]
      simp
  · rw [if_neg h, removeTranLoop_absent str t ts h]

theorem remove_sublist (str : UDPAddr → String) (t : Transfer) (ts : List Transfer) :
    (t.remove str ts).1.Sublist ts := by
  rw [remove_eq]
  split
  · exact List.dropLast_sublist ts
  · exact List.Sublist.refl ts

theorem scan_clear (env : TranEnv) (fs : FS) (ttype : String) (peer : UDPAddr) (fname : List Byte)
    (ts : List Transfer) (h : scanTransfers env fs ttype peer fname ts = .clear) :
    ∀ i ∈ ts, i.conn ≠ none ∧ ¬ (fname = i.filename ∧ env.str peer = env.str i.peer) := by
  induction ts with
  | nil => intro i hi; cases hi
  | cons a rest ih =>
    simp only [scanTransfers] at h
    by_cases h1 : a.conn = none
    · rw [if_pos h1] at h; cases h
    rw [if_neg h1] at h
    split at h
    · cases h
    split at h
    · cases h
    rename_i h2 h3
    intro i hi
    rcases List.mem_cons.1 hi with rfl | hi
    · exact ⟨h1, h3⟩
    · exact ih h i hi

theorem addInitiator_ret {env : TranEnv} {c : Cliflags} {w w' : TranWorld} {ttype : String}
    {peer : UDPAddr} {fname : List Byte} {t : Transfer}
    (h : addInitiator env c w ttype peer fname = .ret (w', t)) :
    w'.transfers = w.transfers ++ [t] ∧ w'.sessionid = newSession env.pid w.sessionid ∧
      t.session = newSession env.pid w.sessionid ∧ t.filename = fname ∧ t.peer = peer ∧ t.ttype = ttype ∧
      t.direction = initiator ∧ (t.conn = none ↔ ∃ e, env.dial peer = .error e) ∧
      (∀ a, env.dial peer = .ok a → t.conn = some a) := by
  unfold addInitiator at h
  obtain ⟨fm, _, h⟩ := Out.bind_eq_ret h
  cases hc : c.copy with
  | error e => rw [hc] at h; cases h
  | ok fl =>
    rw [hc] at h
    simp only [Out.ret.injEq, Prod.mk.injEq] at h
    obtain ⟨rfl, rfl⟩ := h
    refine ⟨rfl, rfl, rfl, rfl, rfl, rfl, rfl, ?_, ?_⟩
    · cases env.dial peer with
      | error e => simp
      | ok a => simp
    · intro a ha; simp only [ha]

/-- What `NewInitiator` does to the table. -/
theorem newInitiator_ret {env : TranEnv} {c : Cliflags} {w w' : TranWorld} {ttype : String}
    {peer : UDPAddr} {fname : List Byte} {r : Except Err Transfer}
    (h : newInitiator env c w ttype peer fname = .ret (w', r)) :
    (w'.transfers.Sublist w.transfers ∧ w'.sessionid = w.sessionid ∧ w'.fs = w.fs ∧ ∃ e, r = .error e) ∨
    (scanTransfers env w.fs ttype peer fname w.transfers = .clear ∧
      ∃ t, r = .ok t ∧ addInitiator env c w ttype peer fname = .ret (w', t)) := by
  unfold newInitiator at h
  cases hs : scanTransfers env w.fs ttype peer fname w.transfers with
  | noConnection i =>
    rw [hs] at h
    simp only [Out.ret.injEq, Prod.mk.injEq] at h
    obtain ⟨rfl, rfl⟩ := h
    exact .inl ⟨remove_sublist _ _ _, rfl, rfl, _, rfl⟩
  | fileExists =>
    rw [hs] at h
    simp only [Out.ret.injEq, Prod.mk.injEq] at h
    obtain ⟨rfl, rfl⟩ := h
    exact .inl ⟨List.Sublist.refl _, rfl, rfl, _, rfl⟩
  | inProgress =>
    rw [hs] at h
    simp only [Out.ret.injEq, Prod.mk.injEq] at h
    obtain ⟨rfl, rfl⟩ := h
    exact .inl ⟨List.Sublist.refl _, rfl, rfl, _, rfl⟩
  | clear =>
    rw [hs] at h
    obtain ⟨⟨w1, t⟩, h1, h⟩ := Out.bind_eq_ret h
    simp only [Out.ret.injEq, Prod.mk.injEq] at h
    obtain ⟨rfl, rfl⟩ := h
    exact .inr ⟨rfl, t, rfl, h1⟩

theorem rmtran_sublist {str : UDPAddr → String} {ts ts' : List Transfer} {args : List String} {u : Bool}
    (h : cmdRmtran str ts args = .ret (ts', u)) : ts'.Sublist ts := by
  unfold cmdRmtran at h
  have triv : ∀ {b : Bool}, (Out.ret (ts, b) : Out (List Transfer × Bool)) = .ret (ts', u) → ts'.Sublist ts := by
    intro b h; cases h; exact List.Sublist.refl _
  split at h
  · exact triv h
  · exact triv h
  · split at h
    · exact triv h
    · obtain ⟨m, _, h⟩ := Out.bind_eq_ret h
      split at h
      · exact triv h
      · split at h
        · cases h
        · cases h; exact remove_sublist _ _ _
  · exact triv h

/-! ## A responder cannot be added -/

theorem stripped_parts (a b : String) (h : ',' ∉ a.toList) :
    strSplit (stripSpaces (a ++ "," ++ b)) ',' = stripSpaces a :: strSplit (stripSpaces b) ',' := by
  have : ',' ∉ a.toList.filter (· ≠ ' ') := fun hm => h (List.mem_filter.1 hm).1
  simp only [strSplit, stripSpaces, String.toList_append, String.toList_ofList, List.filter_append,
    List.append_assoc]
  rw [show (",".toList.filter (· ≠ ' ')) = [','] from rfl, List.singleton_append, splitChars_sep this]
  rfl

/-- A flag text for `DirEnt.New` with a part it does not know. -/
theorem dirent_new_refuses (T : Tables) (env : FileEnv) (d : DirEnt) (flags : String) (path : List Byte)
    (bad : ∃ p ∈ strSplit (stripSpaces flags) ',',
      first (strSplit p '=') ≠ "descriptor" ∧ first (strSplit p '=') ≠ "property")
    (d' : DirEnt) : DirEnt.new T env d flags path ≠ .ret (d', none) := by
  intro h
  unfold DirEnt.new at h
  obtain ⟨hd, _, h⟩ := Out.bind_eq_ret h
  obtain ⟨⟨d1, e⟩, hl, h⟩ := Out.bind_eq_ret h
  obtain ⟨p, hp, hb⟩ := bad
  have key : ∀ (parts : List String) (s s' : DirEnt) (e : Option Err), p ∈ parts →
      flagLoop (DirEnt.newStep T) s parts = .ret (s', e) → e ≠ none := by
    intro parts
    induction parts with
    | nil => intro s s' e hp; cases hp
    | cons q qs ih =>
      intro s s' e hp hr
      unfold flagLoop at hr
      obtain ⟨⟨s1, e1⟩, h1, hr⟩ := Out.bind_eq_ret hr
      cases e1 with
      | some x =>
        simp only [Out.pure_eq, Out.ret.injEq, Prod.mk.injEq] at hr
        rw [← hr.2]; simp
      | none =>
        rcases List.mem_cons.1 hp with rfl | hp
        · unfold DirEnt.newStep at h1
          rw [if_neg (by rintro (h | h); exact hb.1 h; exact hb.2 h)] at h1
          simp only [Out.pure_eq, Out.ret.injEq, Prod.mk.injEq] at h1
          simp at h1
        · exact ih s1 s' e hp hr
  cases e with
  | none => exact key _ _ _ _ hp hl rfl
  | some e => simp [Out.pure_eq] at h

theorem responder_text {T : Tables} {env : TranEnv} {ttype descriptor : String} {fname : List Byte}
    {flags : String} {fm : Option FileInfo}
    (h : responderFlags T env ttype descriptor fname = .ret (.ok (flags, fm))) :
    ∃ p ∈ strSplit (stripSpaces flags) ',',
      first (strSplit p '=') ≠ "descriptor" ∧ first (strSplit p '=') ≠ "property" := by
  have add : ∀ {a f o r}, addFlag T a f o = .ret r → a ≠ "" → r = a ++ "," ++ f ++ "=" ++ o := by
    intro a f o r h hn
    unfold addFlag at h
    split at h
    · cases h; rfl
    · cases h
  have add0 : ∀ {f o r}, addFlag T "" f o = .ret r → r = f ++ "=" ++ o := by
    intro f o r h
    unfold addFlag at h
    split at h
    · rw [if_neg (by simp)] at h; cases h; rfl
    · cases h
  unfold responderFlags at h
  split at h
  · obtain ⟨i, _, h⟩ := Out.bind_eq_ret h
    cases i with
    | error e => cases h
    | ok i =>
      obtain ⟨c1, c2, n2, hf⟩ : ',' ∉ (responderKind i.mode).1.toList ∧ ',' ∉ (responderKind i.mode).2.toList ∧
          ("property" ++ "=" ++ (responderKind i.mode).1 ≠ "") ∧
          first (strSplit (stripSpaces ("reliability=" ++ (responderKind i.mode).2)) '=') = "reliability" := by
        rcases i.mode with _ | _ | _ | (_ | _) | _ <;> exact ⟨by decide, by decide, by decide, by decide⟩
      obtain ⟨f1, h1, h⟩ := Out.bind_eq_ret h
      obtain ⟨f2, h2, h⟩ := Out.bind_eq_ret h
      obtain ⟨f3, h3, h⟩ := Out.bind_eq_ret h
      cases h
      have e1 := add0 h1
      subst e1
      have e2 := add h2 n2
      have n3 : f2 ≠ "" := by
        rw [e2]; intro h
        have := congrArg String.toList h
        simp at this
      have e3 := add h3 n3
      subst e2; subst e3
      refine ⟨stripSpaces ("reliability=" ++ (responderKind i.mode).2), ?_, ?_, ?_⟩
      · have : "property" ++ "=" ++ (responderKind i.mode).1 ++ "," ++ "reliability" ++ "=" ++ (responderKind i.mode).2 ++ "," ++ "descriptor" ++ "=" ++ descriptor
          = ("property=" ++ (responderKind i.mode).1) ++ "," ++ (("reliability=" ++ (responderKind i.mode).2) ++ "," ++ ("descriptor=" ++ descriptor)) := by
          apply String.toList_inj.1
          simp
        rw [this, stripped_parts _ _ (by simpa using c1), stripped_parts _ _ (by simpa using c2)]
        simp
      · rw [hf]; decide
      · rw [hf]; decide
  · split at h
    · obtain ⟨f1, h1, h⟩ := Out.bind_eq_ret h
      cases h
      rw [add0 h1]
      decide
    · split at h
      · obtain ⟨f1, h1, h⟩ := Out.bind_eq_ret h
        cases h
        rw [add0 h1]
        decide
      · cases h
        decide

theorem newResponder_ret {T : Tables} {env : TranEnv} {c : Cliflags} {ts ts' : List Transfer} {r : Request}
    {peer : String} {e : Option Err} (h : newResponder T env c ts r peer = .ret (ts', e)) :
    ts' = ts ∧ e ≠ none := by
  have triv : ∀ {x : Err}, (Out.ret (ts, some x) : Out (List Transfer × Option Err)) = .ret (ts', e) →
      ts' = ts ∧ e ≠ none := by
    intro x h; cases h; exact ⟨rfl, by simp⟩
  unfold newResponder at h
  split at h
  · exact triv h
  · split at h
    · exact triv h
    · split at h
      · exact triv h
      · obtain ⟨_, _, h⟩ := Out.bind_eq_ret h
        obtain ⟨_, _, h⟩ := Out.bind_eq_ret h
        obtain ⟨_, _, h⟩ := Out.bind_eq_ret h
        obtain ⟨_, _, h⟩ := Out.bind_eq_ret h
        obtain ⟨_, _, h⟩ := Out.bind_eq_ret h
        obtain ⟨_, _, h⟩ := Out.bind_eq_ret h
        obtain ⟨fl, hfl, h⟩ := Out.bind_eq_ret h
        split at h
        · exact triv h
        · obtain ⟨⟨d, e1⟩, hd, h⟩ := Out.bind_eq_ret h
          cases e1 with
          | some x => exact triv h
          | none => exact absurd hd (dirent_new_refuses _ _ _ _ _ (responder_text hfl) _)

end Saratoga
