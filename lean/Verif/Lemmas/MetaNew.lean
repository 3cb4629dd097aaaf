import Verif.Spec.MetaNew
import Verif.Lemmas.New
import Verif.Lemmas.Shipped
import Verif.Props.Metadata
/-! # Helper lemmas about metadata built from a file -/
namespace Saratoga

def metaFlags (p d : String) : String := "property=" ++ p ++ ",descriptor=" ++ d

def kindNames : List String := ["normalfile", "normaldirectory", "specialfile"]
def descNames : List String := ["d16", "d32", "d64", "d128"]

/-- Header word of a fresh entry of kind `p` with descriptor `d`. -/
def freshHeader (p d : String) : BitVec 16 :=
  0x8000#16 ||| (if p = "normaldirectory" then 0x100#16 else if p = "specialfile" then 0x200#16 else 0#16) |||
    (if d = "d32" then 0x40#16 else if d = "d64" then 0x80#16 else if d = "d128" then 0xC0#16 else 0#16)

theorem kindName_mem {m : Mode} {p : String} (h : kindName m = some p) : p ∈ kindNames := by
  cases m <;> simp [kindName] at h <;> subst h <;> decide

theorem pickDesc_mem (s : BitVec 64) : pickDesc s ∈ descNames := by
  unfold pickDesc
  split
  · decide
  · split
    · decide
    · split <;> decide

theorem metaFlags_eq : ∀ p ∈ kindNames, ∀ d ∈ descNames,
    (addFlagD shipped "" "property" p >>= fun fl => addFlagD shipped fl "descriptor" d) =
      .ret (metaFlags p d) := by decide +kernel

theorem direntLoop_eq : ∀ p ∈ kindNames, ∀ d ∈ descNames,
    (setD shipped DirEnt.zero.header "sod" "sod" >>= fun h =>
      flagLoop (DirEnt.newStep shipped) { DirEnt.zero with header := h }
        (strSplit (stripSpaces (metaFlags p d)) ',')) =
      .ret ({ DirEnt.zero with header := freshHeader p d }, none) := by decide +kernel

theorem freshHeader_strs : ∀ p ∈ kindNames, ∀ d ∈ descNames,
    getDStr shipped (freshHeader p d) "property" = .ret p ∧
    getDStr shipped (freshHeader p d) "descriptor" = .ret d := by decide +kernel

/-- The flags `statfile` makes. -/
theorem metaStatfile_ret {env : FileEnv} {fname : List Byte} {h : BitVec 32} {fl : String}
    (ok : metaStatfile shipped env fname h = .ret (fl, none)) :
    ∃ fi p, env.lstat fname = .ok fi ∧ kindName fi.mode = some p ∧ fl = metaFlags p (pickDesc fi.size) ∧
      ∃ tr, getStr shipped h "transfer" = .ret tr ∧
        (tr = "stream" ∧ fi.mode = .pipe ∧ getStr shipped h "csumtype" = .ret "none" ∨
         tr = "file" ∧ fi.mode = .regular ∨ tr = "directory" ∧ fi.mode = .directory) := by
  unfold metaStatfile at ok
  cases hl : env.lstat fname with
  | error e => rw [hl] at ok; cases ok
  | ok fi =>
    rw [hl] at ok
    simp only at ok
    cases hp : kindName fi.mode with
    | none => rw [hp] at ok; cases ok
    | some p =>
      rw [hp] at ok
      simp only at ok
      obtain ⟨f1, a1, ok⟩ := Out.bind_eq_ret ok
      obtain ⟨f2, a2, ok⟩ := Out.bind_eq_ret ok
      obtain ⟨tr, a3, ok⟩ := Out.bind_eq_ret ok
      have e2 : f2 = metaFlags p (pickDesc fi.size) := by
        have := metaFlags_eq p (kindName_mem hp) _ (pickDesc_mem fi.size)
        rw [a1, Out.ret_bind] at this
        rw [a2] at this
        cases this
        rfl
      refine ⟨fi, p, rfl, hp, ?_, tr, a3, ?_⟩
      · split at ok
        · split at ok
          · cases ok
          · obtain ⟨cs, _, ok⟩ := Out.bind_eq_ret ok
            split at ok
            · cases ok
            · cases ok; exact e2
        · split at ok
          · cases ok
          · split at ok
            · split at ok
              · cases ok
              · cases ok; exact e2
            · split at ok
              · split at ok
                · cases ok
                · cases ok; exact e2
              · cases ok
      · split at ok
        · split at ok
          · cases ok
          · obtain ⟨cs, hc, ok⟩ := Out.bind_eq_ret ok
            split at ok
            · cases ok
            · rename_i ht hm _ hcs
              left
              simp only [ne_eq, Decidable.not_not] at hm hcs
              rw [hcs] at hc
              exact ⟨ht, hm, hc⟩
        · split at ok
          · cases ok
          · split at ok
            · split at ok
              · cases ok
              · rename_i ht hm
                simp only [ne_eq, Decidable.not_not] at hm
                exact Or.inr (Or.inl ⟨ht, hm⟩)
            · split at ok
              · split at ok
                · cases ok
                · rename_i ht hm
                  simp only [ne_eq, Decidable.not_not] at hm
                  exact Or.inr (Or.inr ⟨ht, hm⟩)
              · cases ok

theorem bind3 {α β γ : Type} (x : Out α) (f : α → Out β) (g : β → Out γ) :
    (x >>= fun a => f a >>= g) = (x >>= f) >>= g := (Out.bind_assoc x f g).symm

/-- The rest of `DirEnt.New` for a pipe. -/
def direntPipe (env : FileEnv) (h : BitVec 16) (path : List Byte) : Out (DirEnt × Option Err) := do
  let (mt, e) ← Timestamp.zero.now shipped "epoch2000_32" env.clock
  let x : DirEnt := ⟨h, 0, mt, Timestamp.zero, []⟩
  match e with
  | some e => pure (x, some e)
  | none => pure ({ x with ctime := x.mtime, path := path }, none)

/-- The rest of `DirEnt.New` for a file or directory. -/
def direntFile (env : FileEnv) (h : BitVec 16) (path : List Byte) : Out (DirEnt × Option Err) := do
  let (x, e) ← ({ DirEnt.zero with header := h } : DirEnt).statfile shipped env path
  match e with
  | some e => pure (x, some e)
  | none => pure ({ x with path := path }, none)

/-- `DirEnt.New` with the flags `statfile` makes. -/
theorem DirEnt.new_metaFlags {env : FileEnv} {p d : String} (hp : p ∈ kindNames) (hd : d ∈ descNames)
    (path : List Byte) :
    DirEnt.zero.new shipped env (metaFlags p d) path =
      if path.length > 1024 then .ret ({ DirEnt.zero with header := freshHeader p d },
        some "path name exceeds 1024 bytes")
      else if p = "specialfile" then direntPipe env (freshHeader p d) path
      else direntFile env (freshHeader p d) path := by
  have key := direntLoop_eq p hp d hd
  have hs := (freshHeader_strs p hp d hd).1
  unfold DirEnt.new
  rw [bind3, key]
  simp only [Out.ret_bind]
  by_cases hl : path.length > 1024
  · simp only [hl, if_true, Out.pure_eq]
  · simp only [hl, if_false, hs, Out.ret_bind]
    simp only [kindNames, List.mem_cons, List.not_mem_nil, or_false] at hp
    rcases hp with rfl | rfl | rfl
    · simp only [true_or, if_true, show ¬ "normalfile" = "specialfile" by decide, if_false]; rfl
    · simp only [or_true, if_true, show ¬ "normaldirectory" = "specialfile" by decide, if_false]; rfl
    · simp only [show ¬ ("specialfile" = "normalfile" ∨ "specialfile" = "normaldirectory") by decide,
        if_false, if_true, true_or]
      rfl

theorem DirEnt.statfile_ok {T : Tables} {env : FileEnv} {d x : DirEnt} {name : List Byte}
    (h : d.statfile T env name = .ret (x, none)) :
    ∃ fi, env.fileMeta name = .ret (.ok fi) ∧ x.size = fi.size ∧ x.header = d.header ∧ x.path = d.path ∧
      d.mtime.new T "epoch2000_32" fi.mtime = .ret (x.mtime, none) ∧
      d.ctime.new T "epoch2000_32" fi.ctime = .ret (x.ctime, none) := by
  unfold DirEnt.statfile at h
  obtain ⟨r, hr, h⟩ := Out.bind_eq_ret h
  cases r with
  | error e => cases h
  | ok fi =>
    simp only at h
    obtain ⟨⟨mt, e⟩, hm, h⟩ := Out.bind_eq_ret h
    cases e with
    | some e => cases h
    | none =>
      obtain ⟨⟨ct, e⟩, hc, h⟩ := Out.bind_eq_ret h
      cases h
      exact ⟨fi, hr, rfl, rfl, rfl, hm, hc⟩

/-- What a successful `New` puts into the entry. -/
theorem DirEnt.new_metaFlags_ok {env : FileEnv} {p d : String} (hp : p ∈ kindNames) (hd : d ∈ descNames)
    {path : List Byte} {x : DirEnt} (h : DirEnt.zero.new shipped env (metaFlags p d) path = .ret (x, none)) :
    path.length ≤ 1024 ∧ x.header = freshHeader p d ∧ x.path = path ∧
      (p = "specialfile" ∧ x.size = 0 ∨
       p ≠ "specialfile" ∧ ∃ fi, env.fileMeta path = .ret (.ok fi) ∧ x.size = fi.size ∧
        Timestamp.zero.new shipped "epoch2000_32" fi.mtime = .ret (x.mtime, none) ∧
        Timestamp.zero.new shipped "epoch2000_32" fi.ctime = .ret (x.ctime, none)) := by
  rw [DirEnt.new_metaFlags hp hd] at h
  split at h
  · cases h
  · refine ⟨by omega, ?_⟩
    split at h
    · rename_i hsp
      unfold direntPipe at h
      obtain ⟨⟨mt, e⟩, hm, h⟩ := Out.bind_eq_ret h
      cases e with
      | some e => cases h
      | none => cases h; exact ⟨rfl, rfl, Or.inl ⟨hsp, rfl⟩⟩
    · rename_i hsp
      unfold direntFile at h
      obtain ⟨⟨y, e⟩, hm, h⟩ := Out.bind_eq_ret h
      cases e with
      | some e => cases h
      | none =>
        cases h
        obtain ⟨fi, a1, a2, a3, _, a4, a5⟩ := DirEnt.statfile_ok hm
        exact ⟨a3, rfl, Or.inr ⟨hsp, fi, a1, a2, a4, a5⟩⟩

/-- What a successful tail of `MetaData.New` means. -/
theorem MetaData.finish_ok {env : FileEnv} {m x : MetaData} {cs : Out String} {fname : List Byte}
    (h : MetaData.finish shipped env m cs fname = .ret (x, none)) :
    ∃ fi p d, env.lstat fname = .ok fi ∧ kindName fi.mode = some p ∧
      DirEnt.zero.new shipped env (metaFlags p (pickDesc fi.size)) fname = .ret (d, none) ∧
      x.header = m.header ∧ x.session = m.session ∧
      x.dir = { d with mtime := d.ctime } ∧
      (getStr shipped m.header "transfer" = .ret "stream" ∧ fi.mode = .pipe ∧
        getStr shipped m.header "csumtype" = .ret "none" ∧ x.checksum = [] ∨
       getStr shipped m.header "transfer" ≠ .ret "stream" ∧ ∃ c b, cs = .ret c ∧
        fileChecksum shipped env c fname = .ok b ∧
        x.checksum = if b.length > 0 then b else m.checksum) := by
  unfold MetaData.finish at h
  obtain ⟨⟨fl, e⟩, h1, h⟩ := Out.bind_eq_ret h
  cases e with
  | some e => cases h
  | none =>
    obtain ⟨fi, p, a1, a2, rfl, tr, a3, a4⟩ := metaStatfile_ret h1
    obtain ⟨⟨d, e⟩, h2, h⟩ := Out.bind_eq_ret h
    cases e with
    | some e => cases h
    | none =>
      simp only at h
      rw [a3, Out.ret_bind] at h
      split at h
      · rename_i hs
        obtain ⟨c, hc, h⟩ := Out.bind_eq_ret h
        cases hf : fileChecksum shipped env c fname with
        | error e => rw [hf] at h; cases h
        | ok b =>
          rw [hf] at h
          simp only at h
          have hn : getStr shipped m.header "transfer" ≠ .ret "stream" := by
            rw [a3]; intro e; cases e; exact hs rfl
          split at h
          · rename_i hb
            cases h
            exact ⟨fi, p, d, a1, a2, h2, rfl, rfl, rfl, Or.inr ⟨hn, c, b, hc, hf, by rw [if_pos hb]⟩⟩
          · rename_i hb
            cases h
            exact ⟨fi, p, d, a1, a2, h2, rfl, rfl, rfl, Or.inr ⟨hn, c, b, hc, hf, by rw [if_neg hb]⟩⟩
      · rename_i hs
        simp only [ne_eq, Decidable.not_not] at hs
        subst hs
        cases h
        rcases a4 with ⟨_, b1, b2⟩ | ⟨b, _⟩ | ⟨b, _⟩
        · exact ⟨fi, p, d, a1, a2, h2, rfl, rfl, rfl, Or.inl ⟨a3, b1, b2, rfl⟩⟩
        · simp at b
        · simp at b

/-- An invariant of a flag loop. -/
theorem flagLoop_inv {σ : Type} {step : σ → List String → Out (σ × Option Err)} (I : σ → Prop)
    (hstep : ∀ s f s', I s → step s f = .ret (s', none) → I s') {s s' : σ} {parts : List String}
    (h0 : I s) (ok : flagLoop step s parts = .ret (s', none)) : I s' := by
  induction parts generalizing s with
  | nil => simp [flagLoop] at ok; subst ok; exact h0
  | cons p t ih =>
    unfold flagLoop at ok
    obtain ⟨⟨s1, e⟩, h1, ok⟩ := Out.bind_eq_ret ok
    cases e with
    | some e => cases ok
    | none => exact ih (hstep _ _ _ h0 h1) ok

end Saratoga
