import Verif.Lemmas.Trans
import Verif.Model.Shipped
/-! # Requests of peers: C39, C40 -/
namespace Saratoga

/-- **C39** Every readable request is answered with exactly one status frame, and its code is the one of
the decision table. Only a request that passes every check and is not a deletion adds a transfer, which
has the request's data; only a deletion that gets as far as removing touches the files. -/
theorem C39_decision_table (T : Tables) (ht : TranTables T) (clock : GoTime) (sardir : List Byte) (fs : FS)
    (trans : List RxTran) (r : Request) (source : UDPAddr) (q : Asked) (hq : Asks T sardir fs r q) :
    ∃ e st, addRxTran T clock sardir fs trans r source = .ret e ∧ e.sent = some st ∧
      Status.Answers T st q.code ∧
      e.result = decide (q.code = "success") ∧
      (q.code = "success" ∧ q.reqtype ≠ "delete" →
        e.fs = fs ∧ ∃ t, e.transfers = trans ++ [t] ∧ t.peer = source ∧ t.session = r.session ∧
          t.ttype = q.reqtype ∧ t.fname = r.fname ∧ t.progress = 0 ∧ t.inrespto = 0 ∧ t.curFills = []) ∧
      (¬ (q.code = "success" ∧ q.reqtype ≠ "delete") → e.transfers = trans) ∧
      (q.code = "success" ∧ q.reqtype = "delete" → e.fs = (fileRm sardir fs r.fname).1) ∧
      (q.code ≠ "success" → e.fs = fs) := by
  obtain ⟨version, udplite, stream, rx, tx, rt, present, removable⟩ := q
  obtain ⟨h1, h2, h3, h4, h5, h6, h7, h8⟩ := hq
  simp only at h1 h2 h3 h4 h5 h6 h7 h8
  have fail : ∀ code, code ∈ tranCodes → code ≠ "success" →
      ∀ (x : Out TranEnd), x = answerWith T clock fs trans ("errcode=" ++ code) false →
      ∀ c, c = code →
      TranOutcome T sardir fs trans r source rt c x := by
    intro code hc hne x hx c hcc
    subst hcc
    obtain ⟨st, ha, he⟩ := answerWith_eq ht clock fs trans c hc false
    exact ⟨_, st, hx.trans he, rfl, ha, by simp [hne], fun h => absurd h.1 hne, fun _ => rfl,
      fun h => absurd h.1 hne, fun _ => rfl⟩
  have start : rt ≠ "delete" → ∀ (x : Out TranEnd), x = startTran T clock fs trans r rt source →
      ∀ c, c = "success" →
      TranOutcome T sardir fs trans r source rt c x := by
    intro hd x hx c hcc
    subst hcc
    obtain ⟨h, _, hnow⟩ := epoch_now ht.epoch clock
    unfold startTran at hx
    rw [hnow] at hx
    simp only [Out.ret_bind] at hx
    obtain ⟨st, ha, he⟩ := answerWith_eq ht clock fs
      (trans ++ [⟨source, r.session, rt, r.fname, "epoch_2000_32",
        { Timestamp.zero with header := h, loc := utf8 "epoch_2000_32", ttype := "epoch_2000_32" },
        "none", 0, 0, []⟩]) "success" (by decide) true
    refine ⟨_, st, hx.trans he, rfl, ha, by simp, fun _ => ⟨rfl, _, rfl, rfl, rfl, rfl, rfl, rfl, rfl, rfl⟩,
      fun hn => absurd ⟨rfl, hd⟩ hn, fun h => absurd h.2 hd, fun h => absurd rfl h⟩
  show TranOutcome T sardir fs trans r source rt
    (Asked.code ⟨version, udplite, stream, rx, tx, rt, present, removable⟩) _
  generalize hcode : Asked.code ⟨version, udplite, stream, rx, tx, rt, present, removable⟩ = c
  unfold Asked.code at hcode
  simp only [firstCode, bne_iff_ne, ne_eq, beq_iff_eq, Bool.not_eq_true', Bool.and_eq_true] at hcode
  unfold addRxTran
  simp only [h1, h2, h3, h4, h5, h6, Out.ret_bind]
  by_cases a1 : version = "v1"
  rotate_left
  · simp only [a1, not_false_eq_true, if_true, ne_eq] at hcode ⊢
    exact fail "badrequest" (by decide) (by decide) _ rfl c hcode.symm
  by_cases a2 : udplite = "no"
  rotate_left
  · simp only [a1, a2, not_true, not_false_eq_true, if_true, if_false, ne_eq] at hcode ⊢
    exact fail "badrequest" (by decide) (by decide) _ rfl c hcode.symm
  by_cases a3 : stream = "no"
  rotate_left
  · simp only [a1, a2, a3, not_true, not_false_eq_true, if_true, if_false, ne_eq] at hcode ⊢
    exact fail "badrequest" (by decide) (by decide) _ rfl c hcode.symm
  by_cases a4 : rx = "invalid"
  · simp only [a1, a2, a3, a4, not_true, if_true, if_false, ne_eq] at hcode ⊢
    exact fail "cantreceive" (by decide) (by decide) _ rfl c hcode.symm
  by_cases a5 : tx = "invalid"
  · simp only [a1, a2, a3, a4, a5, not_true, if_true, if_false, ne_eq] at hcode ⊢
    exact fail "cantsend" (by decide) (by decide) _ rfl c hcode.symm
  simp only [a1, a2, a3, a4, a5, not_true, if_false, ne_eq] at hcode ⊢
  rw [← h7]
  by_cases b1 : rt = "get" ∨ rt = "getdir" ∨ rt = "take"
  · have c1 : ["get", "getdir", "take", "put", "give", "delete"].contains rt = true := by
      rcases b1 with rfl | rfl | rfl <;> decide
    have c2 : ["get", "getdir", "take"].contains rt = true := by
      rcases b1 with rfl | rfl | rfl <;> decide
    have c3 : ["put", "give"].contains rt = false := by rcases b1 with rfl | rfl | rfl <;> decide
    have c4 : ["get", "getdir", "take", "delete"].contains rt = true := by
      rcases b1 with rfl | rfl | rfl <;> decide
    have c5 : ¬ rt = "delete" := by rcases b1 with rfl | rfl | rfl <;> decide
    simp only [c1, c2, c3, c4, c5, Bool.true_eq_false, Bool.false_eq_true, if_false, true_and,
      false_and] at hcode
    simp only [b1, if_true]
    by_cases d1 : rx = "yes"
    · simp only [d1, not_true, if_false] at hcode ⊢
      cases present with
      | false =>
        simp only [if_true] at hcode
        exact fail "filenotfound" (by decide) (by decide) _ rfl c hcode.symm
      | true =>
        simp only [Bool.true_eq_false, if_false] at hcode
        exact start c5 _ rfl c hcode.symm
    · simp only [d1, not_false_eq_true, if_true] at hcode ⊢
      exact fail "cantreceive" (by decide) (by decide) _ rfl c hcode.symm
  · by_cases b2 : rt = "delete"
    · subst b2
      have c1 : ["get", "getdir", "take", "put", "give", "delete"].contains "delete" = true := by decide
      have c2 : ["get", "getdir", "take"].contains "delete" = false := by decide
      have c3 : ["put", "give"].contains "delete" = false := by decide
      have c4 : ["get", "getdir", "take", "delete"].contains "delete" = true := by decide
      simp only [c1, c2, c3, c4, Bool.true_eq_false, Bool.false_eq_true, if_false, true_and,
        false_and] at hcode
      simp only [b1, if_false, if_true]
      cases present with
      | false =>
        simp only [if_true] at hcode
        exact fail "filenotfound" (by decide) (by decide) _ rfl c hcode.symm
      | true =>
        simp only [Bool.true_eq_false, if_false] at hcode
        simp only [Bool.not_true, Bool.false_eq_true, if_false]
        rcases remove_effect fs (fullName sardir r.fname) with ⟨e, he⟩ | ⟨l, _, _, he⟩
        · have hrm : fileRm sardir fs r.fname = (fs, some e) := he
          rw [hrm] at h8 ⊢
          simp only [reduceCtorEq, decide_false] at h8
          simp only [h8, if_true] at hcode
          exact fail "didnotdelete" (by decide) (by decide) _ rfl c hcode.symm
        · have hrm : fileRm sardir fs r.fname = (fs.del l, none) := he
          rw [hrm] at h8 ⊢
          simp only [decide_true] at h8
          simp only [h8, Bool.true_eq_false, if_false] at hcode
          subst hcode
          obtain ⟨st, ha, he2⟩ := answerWith_eq ht clock (fs.del l) trans "success" (by decide) true
          exact ⟨_, st, he2, rfl, ha, by simp, fun h => absurd rfl h.2, fun _ => rfl, fun _ => by rw [hrm],
            fun h => absurd rfl h⟩
    · by_cases b3 : rt = "put" ∨ rt = "give"
      · have c1 : ["get", "getdir", "take", "put", "give", "delete"].contains rt = true := by
          rcases b3 with rfl | rfl <;> decide
        have c2 : ["get", "getdir", "take"].contains rt = false := by
          rcases b3 with rfl | rfl <;> decide
        have c3 : ["put", "give"].contains rt = true := by rcases b3 with rfl | rfl <;> decide
        have c4 : ["get", "getdir", "take", "delete"].contains rt = false := by
          rcases b3 with rfl | rfl <;> decide
        simp only [c1, c2, c3, c4, b2, Bool.true_eq_false, Bool.false_eq_true, if_false, true_and,
          false_and] at hcode
        simp only [b1, b2, b3, if_true, if_false]
        by_cases d1 : tx = "yes"
        · simp only [d1, not_true, if_false] at hcode ⊢
          cases present with
          | true =>
            simp only [if_true] at hcode
            exact fail "fileinuse" (by decide) (by decide) _ rfl c hcode.symm
          | false =>
            simp only [Bool.false_eq_true, if_false] at hcode
            exact start b2 _ rfl c hcode.symm
        · simp only [d1, not_false_eq_true, if_true] at hcode ⊢
          exact fail "cantsend" (by decide) (by decide) _ rfl c hcode.symm
      · have c1 : ["get", "getdir", "take", "put", "give", "delete"].contains rt = false := by
          simp only [List.contains_eq_mem, List.mem_cons, List.not_mem_nil, or_false, decide_eq_false_iff_not]
          rintro (h | h | h | h | h | h)
          · exact b1 (.inl h)
          · exact b1 (.inr (.inl h))
          · exact b1 (.inr (.inr h))
          · exact b3 (.inl h)
          · exact b3 (.inr h)
          · exact b2 h
        simp only [c1, if_true] at hcode
        simp only [b1, b2, b3, if_false]
        exact fail "badrequest" (by decide) (by decide) _ rfl c hcode.symm

/-- **C39** When a peer's deletion succeeds, the named file was there, is gone, and every other file is as
before. -/
theorem C39_deletion (T : Tables) (ht : TranTables T) (clock : GoTime) (sardir : List Byte) (fs : FS)
    (trans : List RxTran) (r : Request) (source : UDPAddr) (q : Asked) (hq : Asks T sardir fs r q)
    (hd : q.reqtype = "delete") (hs : q.code = "success") :
    ∃ e l, addRxTran T clock sardir fs trans r source = .ret e ∧
      fs.locate (fullName sardir r.fname) = some l ∧ fs.node l ≠ none ∧
      e.fs.node l = none ∧ SameExceptAt l fs e.fs := by
  obtain ⟨e, st, he, _, _, _, _, _, h1, _⟩ := C39_decision_table T ht clock sardir fs trans r source q hq
  have h2 := h1 ⟨hs, hd⟩
  have hrem : q.removable = true := by
    cases hb : q.removable with
    | true => rfl
    | false =>
      have := firstCode_otherwise _ hs (by simp) (q.reqtype == "delete" && !q.removable, "didnotdelete")
        (by simp)
      simp [hd, hb] at this
  have hnone : (fileRm sardir fs r.fname).2 = none := by
    have := hq.removable
    rw [hrem] at this
    simpa using this.symm
  rcases remove_effect fs (fullName sardir r.fname) with ⟨e', he'⟩ | ⟨l, hl, hn, he'⟩
  · have : (fileRm sardir fs r.fname).2 = some e' := by unfold fileRm; rw [he']
    rw [this] at hnone
    cases hnone
  · refine ⟨e, l, he, hl, hn, ?_, ?_⟩
    · rw [h2]; unfold fileRm; rw [he']; exact node_del_self _ _
    · rw [h2]; unfold fileRm; rw [he']; exact fun m hm => node_del_other _ _ _ hm

/-- The shipped tables with the two names the handler looks for added. -/
def patched : Tables :=
  { shipped with
    flags := ("request", shipped.flag "reqtype") :: shipped.flags
    ts := { shipped.ts with options := shipped.ts.options ++ [("epoch_2000_32", 6)] } }

theorem patched_tables : TranTables patched where
  sep := by decide +kernel
  version := by decide +kernel
  frametype := by decide +kernel
  codes := by decide +kernel
  epoch := by decide +kernel

/-- Two directories, one file in the second. -/
def tranFS : FS :=
  ⟨[([], .dir), ([[0x64#8]], .dir), ([[0x64#8], [0x66#8]], .file [7#8])], [], fun _ _ => false⟩

/-- A request for deletion of the file "f" that passes all checks, under tables that meet the hypotheses
of `C39_decision_table` and `C39_deletion`. -/
example : let q : Asked := ⟨"v1", "no", "no", "yes", "yes", "delete", true, true⟩
    Asks patched [slash, 0x64#8] tranFS ⟨0x210F0005#32, 5, [0x66#8], []⟩ q ∧ q.code = "success" := by
  refine ⟨⟨?_, ?_, ?_, ?_, ?_, ?_, ?_, ?_⟩, ?_⟩ <;> decide +kernel

/-- **C40** is false: with the shipped tables every request ends the receiving process, whatever it asks
for and whatever the receiver's state. -/
theorem C40_counterexample (clock : GoTime) (sardir : List Byte) (fs : FS) (trans : List RxTran)
    (r : Request) (source : UDPAddr) : addRxTran shipped clock sardir fs trans r source = .fatal := by
  unfold addRxTran
  have : getStr shipped r.header "request" = .fatal := by
    unfold getStr
    have : (shipped.flag "request").options = [] := by decide +kernel
    rw [this]
    rfl
  rw [this]
  rfl

/-- **C40** is false for a second reason: also with a readable request type, starting a transfer ends the
process unless the tables know a timestamp type named `epoch_2000_32`. -/
theorem C40_timestamp_counterexample (T : Tables) (clock : GoTime) (fs : FS) (trans : List RxTran)
    (r : Request) (ttype : String) (source : UDPAddr) (h : goodT T "epoch_2000_32" = false) :
    startTran T clock fs trans r ttype source = .fatal := by
  unfold startTran Timestamp.now Timestamp.new
  have hs : stripSpaces "epoch_2000_32" = "epoch_2000_32" := by decide +kernel
  have : setT T 0 "epoch_2000_32" = .fatal := by
    unfold setT
    unfold goodT at h
    cases ha : assoc "epoch_2000_32" T.ts.options with
    | none => rfl
    | some v => rw [ha] at h; cases h
  simp only [hs, this, Out.fatal_bind]

/-- The shipped tables do not know it. -/
theorem C40_shipped_timestamp : goodT shipped "epoch_2000_32" = false := by decide +kernel

/-- **C40** what holds: with tables that know the two names, a request with readable flags is always
answered.  Missing: the shipped tables, and requests with numbers the tables have no name for (see
`C40_unreadable`). -/
theorem C40_partial (T : Tables) (ht : TranTables T) (clock : GoTime) (sardir : List Byte) (fs : FS)
    (trans : List RxTran) (r : Request) (source : UDPAddr)
    (readable : ∀ f ∈ ["request", "version", "udplite", "stream", "rxwilling", "txwilling"],
      (getStr T r.header f).returns) :
    (addRxTran T clock sardir fs trans r source).returns := by
  have get : ∀ f ∈ ["request", "version", "udplite", "stream", "rxwilling", "txwilling"],
      ∃ v, getStr T r.header f = .ret v := by
    intro f hf
    have := readable f hf
    cases h : getStr T r.header f with
    | ret v => exact ⟨v, rfl⟩
    | fatal => rw [h] at this; exact this.elim
    | panic => rw [h] at this; exact this.elim
  obtain ⟨a, ha⟩ := get "request" (by decide)
  obtain ⟨b, hb⟩ := get "version" (by decide)
  obtain ⟨c, hc⟩ := get "udplite" (by decide)
  obtain ⟨d, hd⟩ := get "stream" (by decide)
  obtain ⟨e, he⟩ := get "rxwilling" (by decide)
  obtain ⟨f, hf⟩ := get "txwilling" (by decide)
  obtain ⟨x, _, hx, _⟩ := C39_decision_table T ht clock sardir fs trans r source
    ⟨b, c, d, e, f, a, fileExists sardir fs r.fname, decide ((fileRm sardir fs r.fname).2 = none)⟩
    ⟨hb, hc, hd, he, hf, ha, rfl, rfl⟩
  rw [hx]
  trivial

/-- **C40** A request type the tables have no name for ends the process with any tables. -/
theorem C40_unreadable (T : Tables) (clock : GoTime) (sardir : List Byte) (fs : FS) (trans : List RxTran)
    (r : Request) (source : UDPAddr)
    (h : ∀ p ∈ (T.flag "request").options, p.2 ≠ get T r.header "request") :
    addRxTran T clock sardir fs trans r source = .fatal := by
  have key : ∀ (v : BitVec 32) (os : List (String × BitVec 32)), (∀ p ∈ os, p.2 ≠ v) → optName v os = none := by
    intro v os
    induction os with
    | nil => intro _; rfl
    | cons p ps ih =>
      intro h
      unfold optName
      rw [if_neg (h p (by simp))]
      exact ih (fun q hq => h q (by simp [hq]))
  have : getStr T r.header "request" = .fatal := by
    unfold getStr
    rw [key _ _ h]
  unfold addRxTran
  rw [this]
  rfl

/-- With the patched tables: request type number 9. -/
example : ∀ p ∈ (patched.flag "request").options, p.2 ≠ get patched 9#32 "request" := by decide +kernel

end Saratoga
