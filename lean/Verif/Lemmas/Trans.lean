import Verif.Spec.Trans
import Verif.Lemmas.Files
import Verif.Props.New
namespace Saratoga

/-- A status frame built from a single error code. -/
theorem status_errcode {T : Tables} (clock : GoTime) (s : Status) (info : Sinfo) {text code : String}
    (hv : valid T "version" "v1" = true) (hf : valid T "frametype" "status" = true)
    (hc : valid T "errcode" code = true)
    (h1 : strSplit (stripSpaces text) ',' = [text]) (h2 : strSplit text '=' = ["errcode", code]) :
    ∃ x, s.new T clock text info = .ret (x, none) := by
  unfold Status.new
  obtain ⟨a, ha⟩ : ∃ a, set T s.header "version" "v1" = .ret a := by
    rcases set_verdict (T := T) s.header "version" "v1" with ⟨_, h⟩ | ⟨h, _⟩
    · exact h
    · rw [hv] at h; cases h
  obtain ⟨b, hb⟩ : ∃ b, set T a "frametype" "status" = .ret b := by
    rcases set_verdict (T := T) a "frametype" "status" with ⟨_, h⟩ | ⟨h, _⟩
    · exact h
    · rw [hf] at h; cases h
  obtain ⟨c, hcc⟩ : ∃ c, set T b "errcode" code = .ret c := by
    rcases set_verdict (T := T) b "errcode" code with ⟨_, h⟩ | ⟨h, _⟩
    · exact h
    · rw [hc] at h; cases h
  have hm : "errcode" ∈ statusNames := by decide
  simp only [ha, hb, Out.ret_bind, h1, flagLoop, h2, Status.newStep, first, second, hm, if_true, hcc]
  exact ⟨_, rfl⟩

theorem reply_text : ∀ c ∈ tranCodes,
    strSplit (stripSpaces ("errcode=" ++ c)) ',' = ["errcode=" ++ c] ∧
    strSplit ("errcode=" ++ c) '=' = ["errcode", c] ∧
    flagParts ("errcode=" ++ c) = [("errcode", some c)] := by decide +kernel

/-- An answer: the frame that is sent shows the code and nothing else. -/
structure Status.Answers (T : Tables) (st : Status) (code : String) : Prop where
  code : getStr T st.header "errcode" = .ret code
  frametype : getStr T st.header "frametype" = .ret "status"
  version : getStr T st.header "version" = .ret "v1"
  session : st.session = 0
  progress : st.progress = 0
  inrespto : st.inrespto = 0
  holes : st.holes = []
  plain : ∀ f ∈ ["descriptor", "stream", "metadatarecvd", "allholes", "reqholes", "reqtstamp"],
    get T st.header f = get T 0 f

theorem answerWith_eq {T : Tables} (ht : TranTables T) (clock : GoTime) (fs : FS) (trans : List RxTran)
    (code : String) (hc : code ∈ tranCodes) (result : Bool) :
    ∃ st, Status.Answers T st code ∧
      answerWith T clock fs trans ("errcode=" ++ code) result = .ret ⟨fs, trans, some st, result⟩ := by
  obtain ⟨t1, t2, t3⟩ := reply_text code hc
  obtain ⟨st, hst⟩ := status_errcode (T := T) clock Status.zero ⟨0, 0, 0, []⟩ ht.version ht.frametype
    (ht.codes code hc) t1 t2
  obtain ⟨c1, c2, c3, c4, c5⟩ := C11_status T ht.sep clock Status.zero st _ _ hst
  rw [t3] at c1
  refine ⟨st, ⟨?_, ?_, ?_, c2, c3, c4, c5, ?_⟩, ?_⟩
  · exact c1.1 "errcode" (by decide) code (by simp [statusAssigns, lastValue])
  · exact c1.1 "frametype" (by decide) "status" (by simp [statusAssigns, lastValue])
  · exact c1.1 "version" (by decide) "v1" (by simp [statusAssigns, lastValue])
  · intro f hf
    simp only [List.mem_cons, List.not_mem_nil, or_false] at hf
    rcases hf with rfl | rfl | rfl | rfl | rfl | rfl <;>
      exact c1.2.1 _ (by decide) (by simp [statusAssigns, lastValue])
  · unfold answerWith
    rw [hst]
    rfl

/-- The conclusion of `C39_decision_table`. -/
def TranOutcome (T : Tables) (sardir : List Byte) (fs : FS) (trans : List RxTran) (r : Request)
    (source : UDPAddr) (rt c : String) (x : Out TranEnd) : Prop :=
      ∃ e st, x = .ret e ∧ e.sent = some st ∧ Status.Answers T st c ∧
        e.result = decide (c = "success") ∧
        (c = "success" ∧ rt ≠ "delete" → e.fs = fs ∧ ∃ t, e.transfers = trans ++ [t] ∧ t.peer = source ∧
          t.session = r.session ∧ t.ttype = rt ∧ t.fname = r.fname ∧ t.progress = 0 ∧ t.inrespto = 0 ∧
          t.curFills = []) ∧
        (¬ (c = "success" ∧ rt ≠ "delete") → e.transfers = trans) ∧
        (c = "success" ∧ rt = "delete" → e.fs = (fileRm sardir fs r.fname).1) ∧
        (c ≠ "success" → e.fs = fs)

/-- The last resort applies only if no line does. -/
theorem firstCode_otherwise {o : String} (l : List (Bool × String)) (h : firstCode o l = o)
    (hne : ∀ p ∈ l, p.2 ≠ o) : ∀ p ∈ l, p.1 = false := by
  induction l with
  | nil => intro p hp; cases hp
  | cons a as ih =>
    obtain ⟨c, code⟩ := a
    unfold firstCode at h
    cases c with
    | true => exact absurd h (hne (true, code) (by simp))
    | false =>
      simp only [Bool.false_eq_true, if_false] at h
      intro p hp
      rcases List.mem_cons.1 hp with rfl | hp
      · rfl
      · exact ih h (fun q hq => hne q (by simp [hq])) p hp

theorem epoch_now {T : Tables} (ht : goodT T "epoch_2000_32" = true) (clock : GoTime) :
    ∃ h, setT T 0 "epoch_2000_32" = .ret h ∧
    Timestamp.zero.now T "epoch_2000_32" clock =
      .ret ({ Timestamp.zero with header := h, loc := utf8 "epoch_2000_32", ttype := "epoch_2000_32" }, none) := by
  obtain ⟨h, hh⟩ : ∃ h, setT T 0 "epoch_2000_32" = .ret h := by
    unfold setT
    unfold goodT at ht
    cases ha : assoc "epoch_2000_32" T.ts.options with
    | none => rw [ha] at ht; cases ht
    | some v => exact ⟨_, rfl⟩
  refine ⟨h, hh, ?_⟩
  unfold Timestamp.now Timestamp.new
  have hs : stripSpaces "epoch_2000_32" = "epoch_2000_32" := by decide +kernel
  simp only [hs, hh, Out.ret_bind]
  rw [if_neg (by decide), if_neg (by decide), if_neg (by decide), if_neg (by decide), if_neg (by decide)]
  rfl

end Saratoga
