import Verif.Lemmas.PutRun
import Verif.Props.ReadStatus
import Verif.Props.Client
/-! # C132: the goroutines of a put -/
namespace Saratoga

/-- **C132** However the goroutines get on: `cput` hears the words of each in the order they were sent, none twice and
none left out; it ends with the first error it hears, whichever of the two sent it, and hears nothing after it. As it
never hears success as an error, it never ends with success. -/
theorem C132_first_error (numbers : String → Bool) (reader : List Act) (sender : List String) (t : PutRun)
    (reached : (PutRun.start reader sender).LeadsTo numbers t) :
    t.took.filterMap PutEvent.status? <+: wordsOf reader ∧ t.took.filterMap PutEvent.data? <+: sender ∧
    (∀ w, t.at_ = .ended w ↔ t.took.filterMap (PutEvent.errorWord numbers) = [w]) ∧
    ((∀ w, t.at_ ≠ .ended w) ↔ t.took.filterMap (PutEvent.errorWord numbers) = []) ∧
    t.at_ ≠ .ended "success" := by
  have inv := PutInv.reached reached
  have he := inv.errors
  refine ⟨?_, ?_, ?_, ?_, ?_⟩
  · rw [inv.status, List.append_assoc]; exact List.prefix_append _ _
  · have := inv.data
    exact ⟨t.dataerr.toList ++ t.sender, by rw [← List.append_assoc]; exact this.symm⟩
  · intro w
    rw [he]
    cases t.at_ <;> simp
  · rw [he]
    cases t.at_ <;> simp
  · intro h
    rw [h] at he
    have hm : "success" ∈ t.took.filterMap (PutEvent.errorWord numbers) := by rw [he]; simp
    obtain ⟨e, -, he⟩ := List.mem_filterMap.1 hm
    cases e with
    | status w => simp only [PutEvent.errorWord] at he; split at he <;> simp_all
    | data w => simp only [PutEvent.errorWord] at he; split at he <;> simp_all
    | statusPos => cases he
    | dataPos => cases he

/-- **C132** No execution goes on for ever: there are at most four steps for each act of `readstatus` and two for each
word of `senddata`. -/
theorem C132_finite (numbers : String → Bool) (reader : List Act) (sender : List String) (t : PutRun)
    (moves : List PutMove) (ran : (PutRun.start reader sender).run numbers moves = some t) :
    moves.length ≤ 4 * reader.length + 2 * sender.length := by
  have := putRun_left ran
  simp [PutRun.left, PutRun.start] at this
  omega

example : ∃ t, (PutRun.start [.position 7 1, .word "success"] ["success"]).run (fun _ => false)
    [.reads, .takeStatusPos, .reads, .takeStatus, .sends, .takeData] = some t :=
  ⟨⟨.waits, [], [], none, false, false, none, [.statusPos, .status "success", .data "success"]⟩,
    by simp [PutRun.run, PutRun.step, PutRun.reads, PutRun.sends, PutRun.start]⟩

/-- **C132** While `cput` runs nobody blocks anybody for ever: if nobody can get on, both goroutines have done
everything they had to do and all of it has been received. `readstatus` may send two numbers once. -/
theorem C132_no_deadlock (numbers : String → Bool) (reader : List Act) (sender : List String) (t : PutRun)
    (once : ((wordsOf reader).filter numbers).length ≤ 1)
    (reached : (PutRun.start reader sender).LeadsTo numbers t) (still : t.Still numbers)
    (runs : ∀ w, t.at_ ≠ .ended w) :
    t.AllHeard ∧ t.took.filterMap PutEvent.status? = wordsOf reader ∧ t.took.filterMap PutEvent.data? = sender := by
  have inv := PutInv.reached reached
  have hw : t.at_ = .waits := by
    cases hp : t.at_ with
    | waits => rfl
    | ended w => exact absurd hp (runs w)
    | hands =>
      exfalso
      have hd := still_hands still hp
      have hh := inv.handed
      rw [if_pos hp, if_pos hd] at hh
      rw [inv.status, List.filter_append, List.filter_append, List.length_append, List.length_append] at once
      omega
  have all := still_waits still hw
  obtain ⟨h1, h2, h3, h4, h5, h6⟩ := all
  refine ⟨⟨h1, h2, h3, h4, h5, h6⟩, ?_, ?_⟩
  · have := inv.status
    rw [h1, h3] at this
    simpa [wordsOf] using this.symm
  · have := inv.data
    rw [h2, h6] at this
    simpa using this.symm

/-- The word is an error when it comes from `readstatus`. -/
def StatusError (numbers : String → Bool) (w : String) : Prop := w ≠ "success" ∧ numbers w = false

/-- **C132** When nobody can get on any more, `cput` has ended just if one of the two had an error to tell. So with a
network that works and a file that is sent whole it has not: it waits. -/
theorem C132_ends_iff (numbers : String → Bool) (reader : List Act) (sender : List String) (t : PutRun)
    (once : ((wordsOf reader).filter numbers).length ≤ 1)
    (reached : (PutRun.start reader sender).LeadsTo numbers t) (still : t.Still numbers) :
    (∃ w, t.at_ = .ended w) ↔ (∃ w ∈ wordsOf reader, StatusError numbers w) ∨ ∃ w ∈ sender, w ≠ "success" := by
  have inv := PutInv.reached reached
  constructor
  · rintro ⟨w, hw⟩
    have he := inv.errors
    rw [hw] at he
    have hm : w ∈ t.took.filterMap (PutEvent.errorWord numbers) := by rw [he]; simp
    obtain ⟨e, hmem, he⟩ := List.mem_filterMap.1 hm
    obtain ⟨p1, p2, -⟩ := C132_first_error numbers reader sender t reached
    cases e with
    | status v =>
      simp only [PutEvent.errorWord] at he
      split at he
      · rename_i hc
        exact .inl ⟨v, p1.subset (List.mem_filterMap.2 ⟨_, hmem, rfl⟩), hc.1, hc.2⟩
      · cases he
    | data v =>
      simp only [PutEvent.errorWord] at he
      split at he
      · rename_i hc
        exact .inr ⟨v, p2.subset (List.mem_filterMap.2 ⟨_, hmem, rfl⟩), hc⟩
      · cases he
    | statusPos => cases he
    | dataPos => cases he
  · intro h
    refine Classical.byContradiction fun hn => ?_
    have hn : ∀ w, t.at_ ≠ .ended w := fun w hw => hn ⟨w, hw⟩
    obtain ⟨-, a, b⟩ := C132_no_deadlock numbers reader sender t once reached still hn
    have he : t.took.filterMap (PutEvent.errorWord numbers) = [] :=
      ((C132_first_error numbers reader sender t reached).2.2.2.1).1 hn
    rw [List.filterMap_eq_nil_iff] at he
    rcases h with ⟨w, hw, h1, h2⟩ | ⟨w, hw, h1⟩
    · rw [← a] at hw
      obtain ⟨e, hmem, h⟩ := List.mem_filterMap.1 hw
      cases e <;> simp [PutEvent.status?] at h
      subst h
      have := he _ hmem
      simp [PutEvent.errorWord, h1, h2] at this
    · rw [← b] at hw
      obtain ⟨e, hmem, h⟩ := List.mem_filterMap.1 hw
      cases e <;> simp [PutEvent.data?] at h
      subst h
      have := he _ hmem
      simp [PutEvent.errorWord, h1] at this

/-- **C132** From wherever a put has got to it can get to where nobody can get on, so the two theorems above say how
every put ends that is left alone. -/
theorem C132_settles (numbers : String → Bool) (s : PutRun) : ∃ t, s.LeadsTo numbers t ∧ t.Still numbers :=
  leads_still numbers s

/-- **C132** (with C130) What `readstatus` really sends contains two numbers at most once, whatever the words of the
connection are, if `success` is not two numbers. So a put never blocks while it runs. -/
theorem C132_reader (numbers : String → Bool) (plain : numbers "success" = false) (E : ReadEnv) (stat : Bool)
    (reads : List (Option (List Byte))) (acts : List Act) (done : Bool)
    (ran : readStatus shipped E stat reads = .ret (acts, done)) (sender : List String) (t : PutRun)
    (reached : (PutRun.start acts sender).LeadsTo numbers t) (still : t.Still numbers)
    (runs : ∀ w, t.at_ ≠ .ended w) : t.AllHeard := by
  refine (C132_no_deadlock numbers acts sender t ?_ reached still runs).1
  cases done with
  | false =>
    have all : ∀ v ∈ wordsOf acts, v = "success" := by
      unfold readStatus at ran
      split at ran
      · exact (C130_running E 0 reads acts ran).2.2
      · cases ran
    rw [List.filter_eq_nil_iff.2]
    · simp
    · intro v hv
      rw [all v hv, plain]; decide
  | true =>
    obtain ⟨pre, w, e, -, all⟩ := C130_returned E stat reads acts ran
    rw [e, wordsOf, List.filterMap_append, List.filter_append, List.filter_eq_nil_iff.2]
    · simpa [Act.word?] using List.length_filter_le numbers [w]
    · intro v hv
      rw [all v hv, plain]; decide

/-- **C132** What is left when `cput` ends stays: afterwards each goroutine gets rid of at most one more word. One that
has two words to send never returns. -/
theorem C132_left_behind (numbers : String → Bool) (s t : PutRun) (w : String) (ended : s.at_ = .ended w)
    (later : s.LeadsTo numbers t) :
    t.at_ = .ended w ∧ (wordsOf s.reader).length ≤ (wordsOf t.reader).length + 1 ∧
    s.sender.length ≤ t.sender.length + 1 ∧
    (2 ≤ (wordsOf s.reader).length → t.reader ≠ []) ∧ (2 ≤ s.sender.length → t.sender ≠ []) := by
  obtain ⟨a, -, c, d⟩ := ended_run ended later
  have len : ∀ o : Option String, o.toList.length ≤ 1 := fun o => by cases o <;> simp
  have c := congrArg List.length c
  have d := congrArg List.length d
  simp only [List.length_append] at c d
  have l1 := len t.statuserr
  have l2 := len t.dataerr
  have h1 : (wordsOf s.reader).length ≤ (wordsOf t.reader).length + 1 := by omega
  have h2 : s.sender.length ≤ t.sender.length + 1 := by omega
  refine ⟨a, h1, h2, fun h => ?_, fun h => ?_⟩
  · intro hn
    rw [hn] at h1
    simp [wordsOf] at h1 h
    omega
  · intro hn
    rw [hn] at h2
    simp at h2
    omega

/-- Words and positions on their way: in the channel and still to be sent. -/
def PutRun.dataLoad (s : PutRun) : Nat := s.dataerr.toList.length + s.sender.length
def PutRun.wordLoad (s : PutRun) : Nat := s.statuserr.toList.length + (wordsOf s.reader).length
def PutRun.positionLoad (s : PutRun) : Nat :=
  (if s.statuspos then 1 else 0) + (s.reader.filterMap Act.position?).length

/-- **C132** (partial: just these return, see `C132_counterexample`.) Once `cput` has ended and nobody can get on any
more, `senddata` has returned just if no more than one word of it was on its way, and `readstatus` just if no more than
one word and one position. -/
theorem C132_returns_partial (numbers : String → Bool) (s t : PutRun) (w : String) (ended : s.at_ = .ended w)
    (later : s.LeadsTo numbers t) (still : t.Still numbers) :
    (t.sender = [] ↔ s.dataLoad ≤ 1) ∧ (t.reader = [] ↔ s.wordLoad ≤ 1 ∧ s.positionLoad ≤ 1) := by
  obtain ⟨a, -, c, d⟩ := ended_run ended later
  have p := ended_positions ended later
  have len : ∀ o : Option String, o.toList.length ≤ 1 := fun o => by cases o <;> simp
  have c := congrArg List.length c
  have d := congrArg List.length d
  simp only [List.length_append] at c d
  unfold PutRun.dataLoad PutRun.wordLoad PutRun.positionLoad
  rw [c, d, p]
  constructor
  · constructor
    · intro h
      rw [h]
      exact len _
    · intro h
      cases hs : t.sender with
      | nil => rfl
      | cons x rest =>
        exfalso
        have := still .sends
        simp only [PutRun.step, PutRun.sends, hs] at this
        cases he : t.dataerr with
        | none => simp [he] at this
        | some y => rw [he, hs] at h; simp at h; omega
  · constructor
    · intro h
      rw [h]
      refine ⟨len _, ?_⟩
      cases t.statuspos <;> simp
    · rintro ⟨h1, h2⟩
      cases hs : t.reader with
      | nil => rfl
      | cons x rest =>
        exfalso
        have := still .reads
        simp only [PutRun.step, PutRun.reads, hs] at this
        cases x with
        | word v =>
          cases he : t.statuserr with
          | none => simp [he] at this
          | some y => rw [he, hs] at h1; simp [wordsOf, Act.word?] at h1; omega
        | position v v' =>
          cases he : t.statuspos with
          | false => simp [he] at this
          | true => rw [he, hs] at h2; simp [Act.position?] at h2; omega
        | metadata => cases this
        | data v => cases this

/-- **C132** fails when the network is down (with C90): if two frames of a file cannot be sent, `senddata` never
returns, in no execution and whatever `readstatus` does. -/
theorem C132_counterexample (numbers : String → Bool) (reader : List Act)
    (E : SendEnv) (env : E.Fine) (mtu : Int) (file : List Byte) (short : file.length < 2 ^ 63)
    (session : BitVec 32) (ps : List (String × String)) (text : DataText ps) (plen : Nat) (room : 0 < plen)
    (computed : maxPaylen mtu (render ps) = .ret plen) (rounds : Nat) (enough : file.length / plen < rounds)
    (down : 2 ≤ (complaints E (file.length / plen + 1)).length) :
    ∃ s, sendData shipped E mtu file session (render ps) rounds = .ret s ∧ s.done = true ∧
      ∀ t, (PutRun.start reader s.answers).LeadsTo numbers t → t.sender ≠ [] := by
  obtain ⟨s, h1, h2, -, -, -, h3⟩ := C90_sends E env mtu file short session ps text plen room computed rounds enough
  refine ⟨s, h1, h2, fun t reached hn => ?_⟩
  have inv := PutInv.reached reached
  have hd := inv.data
  have he := data_errors numbers t.took
  have hl : (t.took.filterMap (PutEvent.errorWord numbers)).length ≤ 1 := by
    rw [inv.errors]; cases t.at_ <;> simp
  rw [hn, List.append_nil, h3] at hd
  have bad : ∀ v ∈ complaints E (file.length / plen + 1), v ≠ "success" := by
    intro v hv
    have := (List.mem_filter.1 hv).2
    simpa using this
  have key : (t.took.filterMap PutEvent.data?).filter (· ≠ "success") =
      complaints E (file.length / plen + 1) := by
    cases hb : t.dataerr with
    | none =>
      rw [hb] at hd
      rw [show t.took.filterMap PutEvent.data? = complaints E (file.length / plen + 1) ++ ["success"] by
        simpa using hd.symm, List.filter_append, List.filter_eq_self.2 (by simpa using bad)]
      simp
    | some v =>
      rw [hb] at hd
      have := List.append_inj_left' hd (by simp)
      rw [← this, List.filter_eq_self.2 (by simpa using bad)]
  rw [key] at he
  omega

/-- **C132** fails as well if two numbers come twice: `cput` waits for itself to take what it has put on `datapos`, and
nobody can get on although a word has not been heard. (`readstatus` does not do that, see `C132_reader`.) -/
theorem C132_numbers_counterexample (numbers : String → Bool) (w : String) (two : numbers w = true) :
    ∃ t, (PutRun.start [.word w, .word w, .word "cantreceive"] []).LeadsTo numbers t ∧ t.Still numbers ∧
      t.at_ = .hands ∧ ¬ t.AllHeard := by
  refine ⟨⟨.hands, [], [], some "cantreceive", false, true, none, [.status w, .status w]⟩,
    ⟨[.reads, .takeStatus, .hand, .reads, .takeStatus, .reads], ?_⟩, ?_, rfl, ?_⟩
  · simp [PutRun.run, PutRun.step, PutRun.reads, PutRun.start, two]
  · intro m
    cases m <;> rfl
  · intro h
    cases h.2.2.1

/-! The hypotheses are met: a network that is down and a file of three frames. -/

def downEnv : SendEnv := ⟨fun _ => ⟨1000000000, 0⟩, fun _ => false, fun _ => "cantsend"⟩

example : downEnv.Fine ∧ DataText putText ∧ maxPaylen 81 (render putText) = .ret 3 ∧
    (complaints downEnv ([1, 2, 3, 4, 5, 6, 7] : List Byte).length).length = 7 ∧
    2 ≤ (complaints downEnv (7 / 3 + 1)).length :=
  ⟨fun _ => ⟨show (⟨1000000000, 0⟩ : GoTime).InRange by decide, rfl⟩, by decide +kernel, by decide +kernel,
    by decide +kernel, by decide +kernel⟩

/-- A put that works: the other end tells that it has the whole file, and then is silent. It ends with
`cantreceive`. -/
def putSilence : List Act := [.position 7 1, .word "success", .word "success", .word "cantreceive"]

def putHeard : PutRun :=
  ⟨.ended "cantreceive", [], [], none, false, false, none,
    [.status "success", .data "success", .statusPos, .status "success", .status "cantreceive"]⟩

example : (PutRun.start putSilence ["success"]).LeadsTo (fun _ => false) putHeard ∧
    putHeard.Still (fun _ => false) ∧ ((wordsOf putSilence).filter fun _ => false).length ≤ 1 ∧
    ∃ w ∈ wordsOf putSilence, StatusError (fun _ => false) w :=
  ⟨⟨[.reads, .sends, .reads, .takeStatus, .takeData, .reads, .takeStatusPos, .takeStatus, .reads, .takeStatus],
      by simp [PutRun.run, PutRun.step, PutRun.reads, PutRun.sends, PutRun.start, putSilence, putHeard]⟩,
    fun m => by cases m <;> rfl, by decide, "cantreceive", by decide, by decide, rfl⟩

/-- With all frames sent and every status well it waits. -/
example : (PutRun.start [.position 7 1, .word "success"] ["success"]).LeadsTo (fun _ => false)
    ⟨.waits, [], [], none, false, false, none, [.statusPos, .status "success", .data "success"]⟩ :=
  ⟨[.reads, .takeStatusPos, .reads, .takeStatus, .sends, .takeData],
    by simp [PutRun.run, PutRun.step, PutRun.reads, PutRun.sends, PutRun.start]⟩

end Saratoga
