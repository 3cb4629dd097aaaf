import Verif.Lemmas.FlagText
import Verif.Model.Shipped
/-!
# C13: flag text (`sarflags/sarflags.go`, AddFlag, FlagValue, ReplaceFlag)

Well formed flag text is `render ps` for a list of pairs of plain words.
-/
namespace Saratoga

/-- **C13** `AddFlag` with a valid pair appends exactly that pair. -/
theorem C13_addFlag_appends (T : Tables) (ps : List (String × String)) (n v : String)
    (ok : valid T n v = true) :
    addFlag T (render ps) n v = .ret (render (ps ++ [(n, v)])) := addFlag_render ok ps

example := C13_addFlag_appends shipped [("descriptor", "d16")] "eod" "no" (by decide +kernel)

/-- **C13** `AddFlag` with an invalid pair ends the process, whatever the text. -/
theorem C13_addFlag_invalid (T : Tables) (s n v : String) :
    addFlag T s n v = .fatal ↔ valid T n v = false := by
  unfold addFlag
  cases valid T n v
  · simp
  · simp only [if_true]; split <;> simp

/-- **C13** `FlagValue` reports the first value given to the name, `""` if there is none. Blanks in
the text do not matter. -/
theorem C13_flagValue (ps : List (String × String)) (plain : PlainPairs ps) (ne : ps ≠ [])
    (s : String) (text : stripSpaces s = render ps) (n : String) :
    flagValue s n = .ret (lookupFirst n ps) := flagValue_render plain ne s text n

example := C13_flagValue [("descriptor", "d16"), ("eod", "no")] (by decide +kernel) (by decide)
  " descriptor = d16 , eod=no" (by decide +kernel) "eod"

/-- **C13** After `ReplaceFlag` with a valid pair, `FlagValue` reports the new value for that name and
the old value for every other name. -/
theorem C13_flagValue_after_replace (T : Tables) (ps : List (String × String)) (plain : PlainPairs ps)
    (ne : ps ≠ []) (allValid : ∀ p ∈ ps, valid T p.1 p.2 = true)
    (n v : String) (plainN : Plain n) (plainV : Plain v) (ok : valid T n v = true) :
    ∃ s', replaceFlag T (render ps) n v = .ret s' ∧
      flagValue s' n = .ret v ∧
      ∀ m, m ≠ n → flagValue s' m = flagValue (render ps) m := by
  refine ⟨_, replaceFlag_render ok plain ne allValid, ?_, ?_⟩
  · rw [flagValue_render (plain.replace plainN plainV) (replacePairs_ne ne) _
      (stripSpaces_render (plain.replace plainN plainV)), lookupFirst_replace_same]
  · intro m hm
    rw [flagValue_render (plain.replace plainN plainV) (replacePairs_ne ne) _
      (stripSpaces_render (plain.replace plainN plainV)), lookupFirst_replace_other v hm,
      flagValue_render plain ne _ (stripSpaces_render plain)]

example := C13_flagValue_after_replace shipped [("descriptor", "d16"), ("eod", "no")] (by decide +kernel) (by decide)
  (by decide +kernel) "descriptor" "d64" (by decide +kernel) (by decide +kernel) (by decide +kernel)

/-- **C13** The text `ReplaceFlag` returns, exactly: every occurrence of the name gets the value, all
else stays in place, and the pair is appended when the name was missing. -/
theorem C13_replace_text (T : Tables) (ps : List (String × String)) (plain : PlainPairs ps)
    (ne : ps ≠ []) (allValid : ∀ p ∈ ps, valid T p.1 p.2 = true) (n v : String)
    (ok : valid T n v = true) :
    replaceFlag T (render ps) n v = .ret (render (replacePairs n v ps)) :=
  replaceFlag_render ok plain ne allValid

example := C13_replace_text shipped [("descriptor", "d16"), ("eod", "no")] (by decide +kernel) (by decide)
  (by decide +kernel) "descriptor" "d64" (by decide +kernel)

/-- **C13** Replacing twice equals replacing once with the last value. -/
theorem C13_replace_twice (T : Tables) (ps : List (String × String)) (plain : PlainPairs ps)
    (ne : ps ≠ []) (allValid : ∀ p ∈ ps, valid T p.1 p.2 = true)
    (n v w : String) (plainN : Plain n) (plainV : Plain v) (okv : valid T n v = true)
    (okw : valid T n w = true) :
    (do let s ← replaceFlag T (render ps) n v; replaceFlag T s n w) =
      replaceFlag T (render ps) n w := by
  rw [replaceFlag_render okv plain ne allValid, replaceFlag_render okw plain ne allValid]
  simp only [Out.ret_bind]
  rw [replaceFlag_render okw (plain.replace plainN plainV) (replacePairs_ne ne), replacePairs_twice]
  intro p hp
  unfold replacePairs at hp
  split at hp
  · simp only [List.mem_map] at hp
    obtain ⟨q, hq, rfl⟩ := hp
    split
    · exact okv
    · exact allValid q hq
  · simp only [List.mem_append, List.mem_singleton] at hp
    rcases hp with hp | rfl
    · exact allValid p hp
    · exact okv

example := C13_replace_twice shipped [("descriptor", "d16"), ("eod", "no")] (by decide +kernel) (by decide)
  (by decide +kernel) "descriptor" "d64" "d32" (by decide +kernel) (by decide +kernel) (by decide +kernel) (by decide +kernel)

/-- **C13** The same for directory entry flags. -/
theorem C13_flagValue_after_replaceD (T : Tables) (ps : List (String × String))
    (plain : PlainPairs ps) (ne : ps ≠ []) (allValid : ∀ p ∈ ps, validD T p.1 p.2 = true)
    (n v : String) (plainN : Plain n) (plainV : Plain v) (ok : validD T n v = true) :
    ∃ s', replaceFlagD T (render ps) n v = .ret s' ∧
      flagValue s' n = .ret v ∧
      ∀ m, m ≠ n → flagValue s' m = flagValue (render ps) m := by
  refine ⟨_, replaceFlagD_render ok plain ne allValid, ?_, ?_⟩
  · rw [flagValue_render (plain.replace plainN plainV) (replacePairs_ne ne) _
      (stripSpaces_render (plain.replace plainN plainV)), lookupFirst_replace_same]
  · intro m hm
    rw [flagValue_render (plain.replace plainN plainV) (replacePairs_ne ne) _
      (stripSpaces_render (plain.replace plainN plainV)), lookupFirst_replace_other v hm,
      flagValue_render plain ne _ (stripSpaces_render plain)]

example := C13_flagValue_after_replaceD shipped [("descriptor", "d16")] (by decide +kernel) (by decide)
  (by decide +kernel) "descriptor" "d64" (by decide +kernel) (by decide +kernel) (by decide +kernel)

/-- **C13** The empty text is not a list of pairs: `ReplaceFlag` panics on it for every name. -/
theorem C13_replace_empty_panics (T : Tables) (n v : String) (hn : n ≠ "") :
    replaceFlag T "" n v = .panic := by
  simp [replaceFlag, strSplit, splitChars, replaceLoop, first, second, Ne.symm hn]

/-! ## The hypotheses are met -/

example : let ps := [("descriptor", "d16"), ("eod", "no"), ("reqstatus", "yes")]
    PlainPairs ps ∧ ps ≠ [] ∧ (∀ p ∈ ps, valid shipped p.1 p.2 = true) ∧
    valid shipped "descriptor" "d64" = true := by decide +kernel

example : render [("descriptor", "d16"), ("eod", "no")] = "descriptor=d16,eod=no" := by decide +kernel

example : replaceFlag shipped "descriptor=d16,eod=no" "descriptor" "d64" =
    .ret "descriptor=d64,eod=no" := by decide +kernel

example : stripSpaces " descriptor = d16 , eod=no" = render [("descriptor", "d16"), ("eod", "no")] := by
  decide +kernel

end Saratoga
