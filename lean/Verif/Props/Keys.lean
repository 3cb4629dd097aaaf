import Verif.Model.Keys
import Verif.Lemmas.PrintText
import Verif.Props.Startup
import Verif.Props.Transfers
/-!
# C123 The keys of the program, C124 The text of a transfer
-/
namespace Saratoga

/-! ## Specification -/

/-- What a key is for. -/
def BoundKey.use : BoundKey → KeyAction
  | .ctrlSpace => .switchView
  | .arrowDown => .cursorDown
  | .arrowUp => .cursorUp
  | .arrowLeft => .cursorLeft
  | .arrowRight => .cursorRight
  | .ctrlP => .showPacket
  | .ctrlC => .quit
  | .enter => .getLine
  | .backspace | .backspace2 | .delete => .backSpace

/-- The order in which the keys are bound. -/
def BoundKey.rank : BoundKey → Nat
  | .ctrlSpace => 0
  | .arrowDown => 1
  | .arrowUp => 2
  | .arrowLeft => 3
  | .arrowRight => 4
  | .ctrlP => 5
  | .ctrlC => 6
  | .enter => 7
  | .backspace => 8
  | .backspace2 => 9
  | .delete => 10

/-- The keys whose failure is told. -/
def BoundKey.told : List BoundKey := [.ctrlSpace, .arrowDown, .arrowUp, .ctrlC, .enter]

/-! ## Keys -/

theorem bindKeys_bound (sets : BoundKey → Option Err) (k : BoundKey) (a : KeyAction) :
    ∀ calls : List (BoundKey × KeyAction × Bool), calls.Pairwise (fun c d => c.1 ≠ d.1) →
    (pressed (bindKeys sets calls).1 k = some a ↔
      ∃ pre on post, calls = pre ++ (k, a, on) :: post ∧ sets k = none ∧ ∀ c ∈ pre, sets c.1 = none) := by
  intro calls
  induction calls with
  | nil => intro _; simp [bindKeys, pressed]
  | cons c rest ih =>
    intro hp
    obtain ⟨k', a', on'⟩ := c
    rw [List.pairwise_cons] at hp
    have ih := ih hp.2
    cases hs : sets k' with
    | some e =>
      simp only [bindKeys, hs, pressed, List.find?_nil, Option.map_none, false_iff, reduceCtorEq]
      rintro ⟨pre, on, post, h, hk, hpre⟩
      cases pre with
      | nil => cases h; rw [hs] at hk; cases hk
      | cons p pre => cases h; have := hpre _ List.mem_cons_self; rw [hs] at this; cases this
    | none =>
      by_cases e : k' = k
      · subst e
        simp only [bindKeys, hs, pressed, List.find?_cons, decide_true, Option.map_some, Option.some.injEq]
        constructor
        · rintro rfl; exact ⟨[], on', rest, rfl, trivial, by simp⟩
        · rintro ⟨pre, on, post, h, _, _⟩
          cases pre with
          | nil => cases h; rfl
          | cons p pre => cases h; exact absurd rfl (hp.1 (k', a, on) (by simp))
      · have : pressed (bindKeys sets ((k', a', on') :: rest)).1 k = pressed (bindKeys sets rest).1 k := by
          simp [bindKeys, hs, pressed, List.find?_cons, e]
        rw [this, ih]
        constructor
        · rintro ⟨pre, on, post, h, hk, hpre⟩
          refine ⟨(k', a', on') :: pre, on, post, by rw [h]; rfl, hk, ?_⟩
          intro c hc
          rcases List.mem_cons.1 hc with rfl | hc
          · exact hs
          · exact hpre c hc
        · rintro ⟨pre, on, post, h, hk, hpre⟩
          cases pre with
          | nil => cases h; exact absurd rfl e
          | cons p pre =>
            cases h
            exact ⟨pre, on, post, rfl, hk, fun c hc => hpre c (List.mem_cons_of_mem _ hc)⟩

theorem bindKeys_err (sets : BoundKey → Option Err) (e : Err) :
    ∀ calls : List (BoundKey × KeyAction × Bool),
    ((bindKeys sets calls).2 = some e ↔
      ∃ pre k a post, calls = pre ++ (k, a, true) :: post ∧ sets k = some e ∧ ∀ c ∈ pre, sets c.1 = none) := by
  intro calls
  induction calls with
  | nil => simp [bindKeys]
  | cons c rest ih =>
    obtain ⟨k', a', on'⟩ := c
    cases hs : sets k' with
    | some e' =>
      simp only [bindKeys, hs]
      constructor
      · intro h
        cases on' with
        | false => cases h
        | true => cases h; exact ⟨[], k', a', rest, rfl, hs, by simp⟩
      · rintro ⟨pre, k, a, post, h, hk, hpre⟩
        cases pre with
        | nil => cases h; rw [hs] at hk; simpa using hk
        | cons p pre => cases h; have := hpre _ List.mem_cons_self; rw [hs] at this; cases this
    | none =>
      simp only [bindKeys, hs, ih]
      constructor
      · rintro ⟨pre, k, a, post, h, hk, hpre⟩
        refine ⟨(k', a', on') :: pre, k, a, post, by rw [h]; rfl, hk, ?_⟩
        intro c hc
        rcases List.mem_cons.1 hc with rfl | hc
        · exact hs
        · exact hpre c hc
      · rintro ⟨pre, k, a, post, h, hk, hpre⟩
        cases pre with
        | nil => cases h; rw [hs] at hk; cases hk
        | cons p pre =>
          cases h
          exact ⟨pre, k, a, post, rfl, hk, fun c hc => hpre c (List.mem_cons_of_mem _ hc)⟩

/-- Where a key is in the list. -/
theorem keyCalls_split (k : BoundKey) :
    keyCalls = keyCalls.take k.rank ++ (k, k.use, decide (k ∈ BoundKey.told)) :: keyCalls.drop (k.rank + 1) ∧
      ∀ j : BoundKey, (∃ c ∈ keyCalls.take k.rank, c.1 = j) ↔ j.rank < k.rank := by
  have all : ∀ k : BoundKey, k ∈ [BoundKey.ctrlSpace, .arrowDown, .arrowUp, .arrowLeft, .arrowRight, .ctrlP, .ctrlC, .enter,
      .backspace, .backspace2, .delete] := by intro k; cases k <;> decide
  refine ⟨by cases k <;> decide, fun j => ?_⟩
  cases k <;> cases j <;> decide

theorem keyCalls_unique {k : BoundKey} {a : KeyAction} {on : Bool} {pre post : List (BoundKey × KeyAction × Bool)}
    (h : keyCalls = pre ++ (k, a, on) :: post) :
    pre = keyCalls.take k.rank ∧ a = k.use ∧ on = decide (k ∈ BoundKey.told) := by
  have hlen : pre.length < 11 := by
    have := congrArg List.length h
    simp only [List.length_append, List.length_cons] at this
    have e : keyCalls.length = 11 := rfl
    omega
  have hat : keyCalls[pre.length]? = some (k, a, on) := by rw [h]; simp
  have hpre : pre = keyCalls.take pre.length := by rw [h]; simp
  have all : ∀ n < 11, ∀ c, keyCalls[n]? = some c →
      c.1.rank = n ∧ c.2.1 = c.1.use ∧ c.2.2 = decide (c.1 ∈ BoundKey.told) := by
    intro n hn c hc
    have : ∀ n < 11, ∀ c ∈ keyCalls[n]?, c.1.rank = n ∧ c.2.1 = c.1.use ∧ c.2.2 = decide (c.1 ∈ BoundKey.told) := by decide
    exact this n hn c hc
  obtain ⟨h1, h2, h3⟩ := all _ hlen _ hat
  simp only at h1 h2 h3
  exact ⟨by rw [h1]; exact hpre, h2, h3⟩

/-- **C123** (partial.) A key does what it is for exactly if it and every key bound before it can be bound, and nothing
otherwise. Missing: the keys bound before it. -/
theorem C123_bound_partial (sets : BoundKey → Option Err) (k : BoundKey) :
    ((∀ j : BoundKey, j.rank ≤ k.rank → sets j = none) → pressed (keybindings sets).1 k = some k.use) ∧
    (¬ (∀ j : BoundKey, j.rank ≤ k.rank → sets j = none) → pressed (keybindings sets).1 k = none) := by
  have inj : ∀ j k : BoundKey, j.rank = k.rank → j = k := by intro j k; cases j <;> cases k <;> decide
  have iff : ∀ a, pressed (keybindings sets).1 k = some a ↔ a = k.use ∧ ∀ j : BoundKey, j.rank ≤ k.rank → sets j = none := by
    intro a
    unfold keybindings
    rw [bindKeys_bound sets k a keyCalls (by decide)]
    obtain ⟨split, before⟩ := keyCalls_split k
    constructor
    · rintro ⟨pre, on, post, h, hk, hpre⟩
      obtain ⟨rfl, ha, _⟩ := keyCalls_unique h
      refine ⟨ha, fun j hj => ?_⟩
      by_cases e : j.rank = k.rank
      · rw [inj j k e]; exact hk
      · obtain ⟨c, hc, rfl⟩ := (before j).2 (by omega)
        exact hpre c hc
    · rintro ⟨rfl, h⟩
      refine ⟨_, _, _, split, h k (Nat.le_refl _), fun c hc => h _ (Nat.le_of_lt ((before c.1).1 ⟨c, hc, rfl⟩))⟩
  refine ⟨fun h => (iff _).2 ⟨rfl, h⟩, fun h => ?_⟩
  cases e : pressed (keybindings sets).1 k with
  | none => rfl
  | some a => exact absurd ((iff a).1 e).2 h

/-- **C123** If no key fails, every key does what it is for, and no error is answered. -/
theorem C123_all (sets : BoundKey → Option Err) (free : ∀ k, sets k = none) :
    (keybindings sets).2 = none ∧ ∀ k, pressed (keybindings sets).1 k = some k.use := by
  refine ⟨?_, fun k => (C123_bound_partial sets k).1 fun j _ => free j⟩
  cases e : (keybindings sets).2 with
  | none => rfl
  | some x =>
    obtain ⟨pre, k, a, post, _, hk, _⟩ := (bindKeys_err sets x keyCalls).1 e
    rw [free k] at hk; cases hk

example := C123_all (fun _ => none) (fun _ => rfl)

/-- **C123** The error answered is that of the first key that cannot be bound, and it is answered exactly if that is one
of the five that are told. -/
theorem C123_error (sets : BoundKey → Option Err) (e : Err) :
    (keybindings sets).2 = some e ↔
      ∃ k ∈ BoundKey.told, sets k = some e ∧ ∀ j : BoundKey, j.rank < k.rank → sets j = none := by
  unfold keybindings
  rw [bindKeys_err]
  constructor
  · rintro ⟨pre, k, a, post, h, hk, hpre⟩
    obtain ⟨rfl, _, ho⟩ := keyCalls_unique h
    refine ⟨k, by simpa using ho.symm, hk, fun j hj => ?_⟩
    obtain ⟨c, hc, rfl⟩ := ((keyCalls_split k).2 j).2 hj
    exact hpre c hc
  · rintro ⟨k, ht, hk, h⟩
    obtain ⟨split, before⟩ := keyCalls_split k
    rw [decide_eq_true ht] at split
    exact ⟨_, k, _, _, split, hk, fun c hc => h _ ((before c.1).1 ⟨c, hc, rfl⟩)⟩

theorem start_keys {h : Host} {args : List String} {r : Running} (started : start h args = .ret (some r)) :
    h.keys = true := by
  unfold start at started
  split at started
  · obtain ⟨cfg, _, started⟩ := Out.bind_eq_ret started
    cases hk : h.keys with
    | true => rfl
    | false =>
      simp only [hk] at started
      repeat' split at started
      all_goals first | cases started | (rename_i h1; exact absurd trivial h1)
  · cases started

/-- **C123** (partial.) A program that runs whose keys for left, right and the packets can be bound can be left with
Ctrl-C and takes commands with Enter. Missing: the other three. -/
theorem C123_running_partial (h : Host) (args : List String) (r : Running) (sets : BoundKey → Option Err)
    (started : start (h.withKeys sets) args = .ret (some r))
    (soft : sets .arrowLeft = none ∧ sets .arrowRight = none ∧ sets .ctrlP = none) :
    pressed (keybindings sets).1 .ctrlC = some .quit ∧ pressed (keybindings sets).1 .enter = some .getLine := by
  have quiet : (keybindings sets).2 = none := by
    cases e : (keybindings sets).2 with
    | none => rfl
    | some x =>
      have hk : (h.withKeys sets).keys = false := by simp [Host.withKeys, e]
      rw [start_keys started] at hk; cases hk
  have none_of : ∀ k ∈ BoundKey.told, (∀ j : BoundKey, j.rank < k.rank → sets j = none) → sets k = none := by
    intro k hk hb
    cases e : sets k with
    | none => rfl
    | some x => rw [(C123_error sets x).2 ⟨k, hk, e, hb⟩] at quiet; cases quiet
  have h0 := none_of .ctrlSpace (by decide) (by intro j; cases j <;> simp [BoundKey.rank])
  have h1 := none_of .arrowDown (by decide) (by intro j; cases j <;> simp [BoundKey.rank, h0])
  have h2 := none_of .arrowUp (by decide) (by intro j; cases j <;> simp [BoundKey.rank, h0, h1])
  have h6 := none_of .ctrlC (by decide) (by intro j; cases j <;> simp [BoundKey.rank, h0, h1, h2, soft])
  have h7 := none_of .enter (by decide) (by intro j; cases j <;> simp [BoundKey.rank, h0, h1, h2, h6, soft])
  exact ⟨(C123_bound_partial sets .ctrlC).1 (by intro j; cases j <;> simp [BoundKey.rank, h0, h1, h2, h6, soft]),
    (C123_bound_partial sets .enter).1 (by intro j; cases j <;> simp [BoundKey.rank, h0, h1, h2, h6, h7, soft])⟩

example : ∃ r, start (exampleHost.withKeys fun _ => none) ["saratoga", "saratoga.json", "en0"] = .ret (some r) := ⟨_, rfl⟩

/-- **C123** A program that starts on a host also starts there if the left arrow cannot be bound, but then neither
Ctrl-C nor Enter do anything. -/
theorem C123_counterexample (h : Host) (args : List String) (r : Running) (started : start h args = .ret (some r)) :
    let sets : BoundKey → Option Err := fun k => if k = .arrowLeft then some "unknown key" else none
    start (h.withKeys sets) args = .ret (some r) ∧ (keybindings sets).2 = none ∧
      pressed (keybindings sets).1 .ctrlC = none ∧ pressed (keybindings sets).1 .enter = none := by
  intro sets
  have hk := start_keys started
  have : h.withKeys sets = h := by
    have e : (keybindings sets).2.isNone = true := rfl
    unfold Host.withKeys
    rw [e, ← hk]
  exact ⟨by rw [this]; exact started, rfl, rfl, rfl⟩

example : ∃ r, start exampleHost ["saratoga", "saratoga.json", "en0"] = .ret (some r) := ⟨_, rfl⟩

/-! ## The text of a transfer -/

/-- **C124** Two transfers with the same text go in the same direction, are of the same type, with the same peer, and of
the same file, whatever its name. -/
theorem C124_apart (str : UDPAddr → String) (t t' : Transfer)
    (types : t.ttype ∈ tTypes ∧ t'.ttype ∈ tTypes) (plain : 124#8 ∉ utf8 (str t.peer) ∧ 124#8 ∉ utf8 (str t'.peer))
    (same : t.printText str = t'.printText str) :
    t.direction = t'.direction ∧ t.ttype = t'.ttype ∧ utf8 (str t.peer) = utf8 (str t'.peer) ∧
      t.filename = t'.filename := by
  have bar : utf8 "|" = [124#8] := by decide +kernel
  have cut : ∀ {a a' r r' : List Byte}, 124#8 ∉ a → 124#8 ∉ a' → a ++ 124#8 :: r = a' ++ 124#8 :: r' → a = a' ∧ r = r' := by
    intro a a' r r' h h' e
    have := span_inj (P := (· ≠ 124#8)) (a := a) (a' := a') (r := 124#8 :: r) (r' := 124#8 :: r')
      (fun x hx he => h (he ▸ hx)) (fun x hx he => h' (he ▸ hx)) (by simp) (by simp) e
    exact ⟨this.1, (List.cons.inj this.2).2⟩
  have typ : ∀ s ∈ tTypes, 124#8 ∉ utf8 s := by decide +kernel
  have typInj : ∀ s ∈ tTypes, ∀ s' ∈ tTypes, utf8 s = utf8 s' → s = s' := by decide +kernel
  have dir : ∀ b, 124#8 ∉ utf8 (directionName b) := by decide +kernel
  have dirInj : ∀ b b', utf8 (directionName b) = utf8 (directionName b') → b = b' := by decide +kernel
  unfold Transfer.printText at same
  simp only [bar, List.append_assoc, List.singleton_append] at same
  obtain ⟨h1, same⟩ := cut (dir _) (dir _) same
  obtain ⟨h2, same⟩ := cut (typ _ types.1) (typ _ types.2) same
  obtain ⟨h3, h4⟩ := cut plain.1 plain.2 same
  exact ⟨dirInj _ _ h1, typInj _ types.1 _ types.2 h2, h3, h4⟩

/-! ## Examples -/

/-- The erasing keys cannot be bound: it is not told, and all but they work. -/
example : ∃ r, start (exampleHost.withKeys fun k => if k = .backspace then some "unknown key" else none)
    ["saratoga", "saratoga.json", "en0"] = .ret (some r) := ⟨_, rfl⟩

example : pressed (keybindings fun k => if k = .backspace then some "unknown key" else none).1 .enter = some .getLine ∧
    pressed (keybindings fun k => if k = .backspace then some "unknown key" else none).1 .delete = none := by decide

example : (keybindings fun k => if k = .enter then some "unknown key" else none).2 = some "unknown key" := by decide

/-- A file name with the bar in it. -/
example : let t : Transfer := ⟨false, 7, none, ⟨[10#8, 0#8, 0#8, 1#8], 7542, ""⟩, "get", "posix64", utf8 "a|b", none, none,
      "v1", "file", "no", "d64", "no", "none", false, [], none, [], 0, 0, [], none⟩
    t.printText (fun _ => "10.0.0.1:7542") = utf8 "Responder|get|10.0.0.1:7542|a|b" ∧ t.ttype ∈ tTypes ∧
      124#8 ∉ utf8 "10.0.0.1:7542" := by decide +kernel

end Saratoga
