import Verif.Props.Kinds
import Verif.Props.MainCrash
/-! # Property C153: replies go to those who asked, are short, and are not answered -/
namespace Saratoga

/-! ## Specification -/

/-- How many replies were queued for an address: taken by the main loop, held out by the listener, held out by the
main loop. -/
def World.repliesTo (w : World) (fam : Fam) (a : UDPAddr) : Nat :=
  (w.taken.filter fun r => r.fam = fam ∧ r.dest = a).length +
  (match w.listener fam with
    | .sendTx _ b => if b = a then 1 else 0
    | _ => 0) +
  (match w.main with
    | .sending r => if r.fam = fam ∧ r.dest = a then 1 else 0
    | _ => 0)

/-- The datagrams read from an address. -/
def World.readFrom (w : World) (fam : Fam) (a : UDPAddr) : List Datagram :=
  w.read.filter fun d => d.fam = fam ∧ d.source = a

/-- The bytes are a reply some listener queued for some datagram, as it goes on the wire. -/
def IsReply (bytes : List Byte) : Prop :=
  ∃ clock mtu dg st, listenFrame shipped clock mtu dg = .ret (.tx st) ∧ st.encode shipped = .ret (.ok bytes)

/-! ## Lemmas -/

/-- Whether a datagram can lead to a reply. -/
def asks (S : Setup) (d : Datagram) : Bool :=
  match listenFrame S.T d.clock S.mtu d.bytes with
  | .ret (.tx _) => true
  | .ret (.rx (.request _)) => true
  | _ => false

/-- A reply, or a request that may still get one, held out by the listener. -/
def LState.asking (a : UDPAddr) : LState → Nat
  | .sendTx _ b => if b = a then 1 else 0
  | .sendRx (.request _) b => if b = a then 1 else 0
  | _ => 0

def MState.answering (fam : Fam) (a : UDPAddr) : MState → Nat
  | .sending r => if r.fam = fam ∧ r.dest = a then 1 else 0
  | _ => 0

def World.dues (w : World) (fam : Fam) (a : UDPAddr) : Nat :=
  (w.taken.filter fun r => r.fam = fam ∧ r.dest = a).length + (w.listener fam).asking a + w.main.answering fam a

theorem repliesTo_le (w : World) (fam : Fam) (a : UDPAddr) : w.repliesTo fam a ≤ w.dues fam a := by
  unfold World.repliesTo World.dues
  have h1 : (match w.listener fam with
      | .sendTx _ b => if b = a then 1 else 0
      | _ => 0) ≤ (w.listener fam).asking a := by
    cases w.listener fam <;> simp [LState.asking]
  have h2 : (match w.main with
      | .sending r => if r.fam = fam ∧ r.dest = a then 1 else 0
      | _ => 0) = w.main.answering fam a := by
    cases w.main <;> rfl
  rw [h2]
  omega

/-- Handling a frame leaves the main loop at its `select`, ends it, or has it reply to a request. -/
theorem onRx_main (S : Setup) (w : World) (fam : Fam) (clock : GoTime) (f : Frame) (b : UDPAddr)
    (sel : w.main = .select) (g : Fam) (a : UDPAddr) :
    (w.onRx S fam clock f b).main.answering g a ≤ (if g = fam then (LState.sendRx f b).asking a else 0) := by
  unfold World.onRx World.orEnd
  cases f with
  | beacon x => simp only; split <;> simp [MState.answering, World.setListener, sel]
  | data x => simp only; split <;> simp [MState.answering, World.setListener, sel]
  | metadata x => simp only; split <;> simp [MState.answering, World.setListener, sel]
  | status x => simp only; split <;> simp [MState.answering, World.setListener, sel]
  | request x =>
    simp only
    split
    · split
      · simp [MState.answering, World.setListener, sel]
      · simp only [MState.answering, LState.asking]
        by_cases h1 : fam = g
        · subst h1; simp
        · rw [if_neg fun h => h1 h.1]; exact Nat.zero_le _
    · simp [MState.answering]
    · simp [MState.answering]

theorem dues_le (S : Setup) (fs : FS) (w : World) (h : Reachable S fs w) (fam : Fam) (a : UDPAddr) :
    w.dues fam a ≤ ((w.readFrom fam a).filter (asks S)).length := by
  refine reachable_induction (P := fun w => w.dues fam a ≤ ((w.readFrom fam a).filter (asks S)).length) ?_ ?_ h
  · exact Nat.le_refl _
  · intro w x w' ih hs
    unfold World.dues World.readFrom at *
    rcases step_cases hs with ⟨d, -, -, hl, rfl⟩ | ⟨g, -, -, hl, rfl⟩ | ⟨g, clock, f, b, -, hm, hl, rfl⟩ |
      ⟨g, s, b, -, hm, hl, rfl⟩ | ⟨g, -, hm, hl, rfl⟩ | ⟨-, hm, rfl⟩ | ⟨-, hm, rfl⟩ | ⟨fs', -, hm, rfl⟩
    · have more : ((w.read ++ [d]).filter (fun d => d.fam = fam ∧ d.source = a)).filter (asks S) =
          (w.read.filter (fun d => d.fam = fam ∧ d.source = a)).filter (asks S) ++
            ([d].filter (fun d => d.fam = fam ∧ d.source = a)).filter (asks S) := by
        rw [List.filter_append, List.filter_append]
      rcases onRecv_cases S w d with ⟨hr, e⟩ | ⟨hr, e⟩ | ⟨f, hr, e⟩ | ⟨s, hr, e⟩ <;> rw [e]
      · have : w.main.answering fam a ≥ MState.ended.answering fam a := Nat.zero_le _
        simp only at *
        omega
      · simp only [more, List.length_append]
        omega
      · simp only [more, List.length_append]
        by_cases hg : fam = d.fam
        · subst hg
          rw [hl] at ih
          show (w.taken.filter _).length + ((w.setListener d.fam (.sendRx f d.source)).listener d.fam).asking a + w.main.answering d.fam a ≤ _
          rw [setListener_self]
          simp only [LState.asking] at ih ⊢
          cases f with
          | request r =>
            simp only
            by_cases hb : d.source = a
            · have : asks S d = true := by unfold asks; rw [hr]
              subst hb
              simp only [List.filter, decide_true, this, List.length_cons, List.length_nil, and_self, if_true]
              omega
            · rw [if_neg hb]; omega
          | beacon r => simp only; omega
          | data r => simp only; omega
          | metadata r => simp only; omega
          | status r => simp only; omega
        · show (w.taken.filter _).length + ((w.setListener d.fam (.sendRx f d.source)).listener fam).asking a + w.main.answering fam a ≤ _
          rw [setListener_other _ _ hg]
          omega
      · simp only [more, List.length_append]
        by_cases hg : fam = d.fam
        · subst hg
          rw [hl] at ih
          show (w.taken.filter _).length + ((w.setListener d.fam (.sendTx s d.source)).listener d.fam).asking a + w.main.answering d.fam a ≤ _
          rw [setListener_self]
          simp only [LState.asking] at ih ⊢
          by_cases hb : d.source = a
          · have : asks S d = true := by unfold asks; rw [hr]
            subst hb
            simp only [List.filter, decide_true, this, List.length_cons, List.length_nil, and_self, if_true]
            omega
          · rw [if_neg hb]
            omega
        · show (w.taken.filter _).length + ((w.setListener d.fam (.sendTx s d.source)).listener fam).asking a + w.main.answering fam a ≤ _
          rw [setListener_other _ _ hg]
          omega
    · by_cases hg : fam = g
      · subst hg
        rw [setListener_self]
        rw [hl] at ih
        exact ih
      · rw [setListener_other _ _ hg]; exact ih
    · obtain ⟨e1, e2, -, e4, -⟩ := onRx_logs S w g clock f b
      have e5 := onRx_main S w g clock f b hm fam a
      rw [e1, e2, e4]
      rw [hm] at ih
      by_cases hg : fam = g
      · subst hg
        rw [setListener_self]
        rw [hl] at ih
        rw [if_pos rfl] at e5
        simp only [LState.asking, MState.answering] at ih e5 ⊢
        omega
      · rw [setListener_other _ _ hg]
        rw [if_neg hg] at e5
        simp only [MState.answering] at ih e5 ⊢
        omega
    · obtain ⟨e1, e2, -, e4, -⟩ := onTx_logs S w g s b
      have e5 : (w.onTx S g s b).main.answering fam a = 0 := by
        unfold World.onTx World.orEnd
        simp only
        split <;> simp [MState.answering, World.setListener, hm]
      rw [e1, e2, e4, e5]
      rw [hm] at ih
      rw [List.filter_append, List.length_append]
      by_cases hg : fam = g
      · subst hg
        rw [setListener_self]
        rw [hl] at ih
        simp only [LState.asking, MState.answering] at ih ⊢
        by_cases hb : b = a
        · subst hb
          simp only [List.filter, decide_true, and_self, List.length_cons, List.length_nil, if_true] at ih ⊢
          omega
        · rw [if_neg hb] at ih
          have : ([Reply.mk fam s b].filter fun r => r.fam = fam ∧ r.dest = a) = [] := by simp [hb]
          rw [this]
          simpa using ih
      · rw [setListener_other _ _ hg]
        have : ([Reply.mk g s b].filter fun r => r.fam = fam ∧ r.dest = a) = [] := by
          simp only [List.filter_eq_nil_iff, List.mem_singleton, forall_eq, decide_eq_true_eq]
          exact fun h => hg h.1.symm
        rw [this]
        simpa [MState.answering] using ih
    · rw [hm] at ih
      by_cases hg : fam = g
      · subst hg
        show _ + ((w.setListener fam .gone).listener fam).asking a + _ ≤ _
        rw [setListener_self]
        rw [hl] at ih
        exact ih
      · show _ + ((w.setListener g .gone).listener fam).asking a + _ ≤ _
        rw [setListener_other _ _ hg]; exact ih
    · rw [hm] at ih; exact ih
    · have : w.main.answering fam a ≥ MState.ended.answering fam a := Nat.zero_le _
      simp only at *
      omega
    · exact ih

/-- A plain status frame with no holes, as it goes on the wire and is read again. -/
theorem plain_wire (T : Tables) (st : Status) (n : Nat) (rt : String)
    (width : HasWidth T "descriptor" st.header n) (stamp : getStr T st.header "reqtstamp" = .ret rt)
    (noStamp : rt ≠ "yes") (fitsP : st.progress.toNat < 256 ^ n) (irt : st.inrespto = 0) (holes : st.holes = [])
    (type : getStr T st.header "frametype" = .ret "status") :
    ∃ frame, st.encode T = .ret (.ok frame) ∧ frame.length = 8 + 2 * n ∧ headWord frame = st.header ∧
      Says T frame (.status { st with tstamp := Timestamp.zero }) := by
  obtain ⟨frame, h1, h2⟩ := C25_round_trip_partial T st Status.zero n rt width stamp noStamp fitsP
    (by rw [irt]; exact Nat.pow_pos (by decide)) (by rw [holes]; intro h hh; cases hh) rfl
  obtain ⟨rt', n', e1, ⟨d1, e2, e2'⟩, e3, e4, -⟩ := C62_status_layout T st frame h1
  obtain ⟨d2, w1, w2⟩ := width
  rw [stamp] at e1; injection e1 with e1
  rw [w1] at e2; injection e2 with e2
  subst e1 e2
  rw [w2] at e2'; injection e2' with e2'
  subst e2'
  have hh := headWord_of e4
  refine ⟨frame, h1, ?_, hh, ?_, h2⟩
  · rw [e3, holes, if_neg noStamp]; rfl
  · rw [hh]; exact type

/-- What says a status is not answered. -/
theorem said_not_answered {T : Tables} {frame : List Byte} {s : Status} (says : Says T frame (.status s))
    (version : getStr T (headWord frame) "version" = .ret "v1") (clock : GoTime) (mtu : Nat) (x : Status) :
    listenFrame T clock mtu frame ≠ .ret (.tx x) := by
  intro h
  rcases listenFrame_eq T clock mtu frame with ⟨-, e⟩ | ⟨hs, e⟩
  · rw [e] at h; cases h
  · have := C42_delivered T clock mtu frame _ hs version says (by rw [h]; trivial)
    rw [this] at h; cases h

/-- The zero header asks for no time stamp. -/
theorem shipped_unstamped {h : BitVec 32} (e : get shipped h "reqtstamp" = get shipped 0 "reqtstamp") :
    getStr shipped h "reqtstamp" = .ret "no" := by
  unfold getStr; rw [e]; decide +kernel

/-- A reply of a listener with a descriptor of at most 64 bits, on the wire. -/
theorem reply_wire {clock : GoTime} {mtu : Nat} {dg : List Byte} {st : Status} {frame : List Byte}
    (h : listenFrame shipped clock mtu dg = .ret (.tx st)) (enc : st.encode shipped = .ret (.ok frame)) :
    8 ≤ dg.length ∧ frame.length ≤ 24 ∧ versionNumber (headWord frame) = 1 ∧ typeNumber (headWord frame) = 4 ∧
      errcodeNumber (headWord frame) < 19 ∧
      Says shipped frame (.status { st with tstamp := Timestamp.zero }) := by
  obtain ⟨sized, -, hc⟩ := C42_reply clock mtu dg st h
  obtain ⟨session, progress, hr, small⟩ : ∃ session progress, st.Refuses shipped session progress ∧
      progress.toNat < 256 ^ 2 := by
    rcases hc with ⟨-, hr, -⟩ | ⟨-, -, -, -, session, progress, hr, -, hp⟩
    · exact ⟨0, 0, hr, by decide⟩
    · refine ⟨session, progress, hr, ?_⟩
      rcases hp with rfl | ⟨-, hl, hp⟩
      · decide
      · rw [hp]
        have := beNum_lt (dg.drop 24)
        rwa [List.length_drop, hl] at this
  have us := shipped_unstamped hr.unstamped
  obtain ⟨rt, n, e1, width, -⟩ := C62_status_layout shipped st frame enc
  rw [us] at e1; injection e1 with e1; subst e1
  have hn : n = 2 ∨ n = 4 ∨ n = 8 := by
    obtain ⟨d, -, e⟩ := width
    exact descSize_cases (by rw [descSize_eq]; exact e)
  obtain ⟨frame', h1, h2, h3, h4⟩ := plain_wire shipped st n "no" width us (by decide)
    (by rw [hr.progress]; rcases hn with rfl | rfl | rfl <;> omega) hr.inrespto hr.holes hr.frametype
  rw [enc] at h1; injection h1 with h1; injection h1 with h1; subst h1
  rw [h3]
  refine ⟨sized.1, by rcases hn with rfl | rfl | rfl <;> omega, ?_, ?_, ?_, h4⟩
  · rcases getStr_version st.header with ⟨k, _⟩ | ⟨_, k⟩ | ⟨_, k⟩
    · exact k
    · rw [hr.version] at k; exact absurd k (by decide)
    · rw [hr.version] at k; cases k
  · rcases getStr_frametype st.header with ⟨lt, k⟩ | ⟨_, k⟩
    · rw [hr.frametype] at k
      have key : ∀ a : Fin 5, "status" = typeNameOf a.val → a.val = 4 := by decide +kernel
      exact key ⟨_, lt⟩ (by injection k)
    · rw [hr.frametype] at k; cases k
  · rcases getStr_errcode st.header with ⟨lt, _⟩ | ⟨_, k⟩
    · exact lt
    · rw [hr.errcode] at k; cases k

/-! ## The property -/

/-- **C153** Nobody gets more replies than they sent datagrams: in every state of every execution, with any tables. -/
theorem C153_one_each (S : Setup) (fs : FS) (w : World) (h : Reachable S fs w) (fam : Fam) (a : UDPAddr) :
    w.repliesTo fam a ≤ (w.readFrom fam a).length :=
  Nat.le_trans (repliesTo_le w fam a)
    (Nat.le_trans (dues_le S fs w h fam a) (List.length_filter_le _ _))

example : ∃ w, (World.init tranFS).run shippedSetup [.recv ⟨.v4, ⟨0, 0⟩, [0, 0, 0, 0, 0, 0, 0, 0], someone⟩, .takeTx .v4] = some w ∧
    w.repliesTo .v4 someone = 1 := ⟨_, rfl, by decide +kernel⟩

/-- **C153** A reply of a listener is at most 24 bytes long, and what it replies to is at least 8: nobody can be made
to send more than three times what they are sent. -/
theorem C153_short (clock : GoTime) (mtu : Nat) (dg : List Byte) (st : Status) (frame : List Byte)
    (h : listenFrame shipped clock mtu dg = .ret (.tx st)) (enc : st.encode shipped = .ret (.ok frame)) :
    frame.length ≤ 24 ∧ frame.length ≤ 3 * dg.length := by
  obtain ⟨h1, h2, -⟩ := reply_wire h enc
  omega

/-- **C153** A program that reads a reply hands it on as it was sent, whatever its clock; if its MTU is too small it
drops it. It does not answer it. -/
theorem C153_read (clock clock' : GoTime) (mtu mtu' : Nat) (dg : List Byte) (st : Status) (frame : List Byte)
    (h : listenFrame shipped clock mtu dg = .ret (.tx st)) (enc : st.encode shipped = .ret (.ok frame)) :
    listenFrame shipped clock' mtu' frame =
      if frame.length + 60 ≤ mtu' then .ret (.rx (.status { st with tstamp := Timestamp.zero })) else .ret .drop := by
  obtain ⟨-, -, hv, ht, he, says⟩ := reply_wire h enc
  have h12 : 12 ≤ frame.length := by
    obtain ⟨-, hd⟩ := says
    unfold Status.decode at hd
    split at hd
    · injection hd with hd; injection hd with _ hd; cases hd
    · omega
  rcases listenFrame_eq shipped clock' mtu' frame with ⟨hs, e⟩ | ⟨hs, e⟩
  · rw [e, if_neg fun hh => hs ⟨by omega, hh⟩]
  · rw [if_pos hs.2]
    have v1 : getStr shipped (headWord frame) "version" = .ret "v1" := by
      rcases getStr_version (headWord frame) with ⟨_, k⟩ | ⟨k, _⟩ | ⟨k, _⟩
      · exact k
      · omega
      · omega
    refine C42_delivered shipped clock' mtu' frame _ hs v1 says ?_
    rw [C42_returns_iff_partial]
    refine Or.inr (Or.inr ⟨hv, Or.inr (Or.inr (Or.inr (Or.inr ⟨ht, ?_, fun _ => he⟩)))⟩)
    rw [← C31_decode_returns_iff_partial Status.zero, says.2]
    trivial

example : ∃ st frame, listenFrame shipped ⟨0, 0⟩ 1500 [0x24, 0x80, 0, 0, 0, 0, 0, 7] = .ret (.tx st) ∧
    st.encode shipped = .ret (.ok frame) := ⟨_, _, rfl, rfl⟩

/-- **C153** No two programs answer each other for ever: whoever sends nothing but replies gets none. -/
theorem C153_no_echo (S : Setup) (tables : S.T = shipped) (fs : FS) (w : World) (h : Reachable S fs w) (fam : Fam)
    (a : UDPAddr) (only : ∀ d ∈ w.readFrom fam a, IsReply d.bytes) : w.repliesTo fam a = 0 := by
  have h1 := Nat.le_trans (repliesTo_le w fam a) (dues_le S fs w h fam a)
  have : (w.readFrom fam a).filter (asks S) = [] := by
    rw [List.filter_eq_nil_iff]
    intro d hd
    obtain ⟨clock, mtu, dg, st, h2, h3⟩ := only d hd
    unfold asks
    rw [tables, C153_read clock d.clock mtu S.mtu dg st d.bytes h2 h3]
    split
    · rename_i e; split at e <;> cases e
    · rename_i e; split at e <;> cases e
    · exact Bool.false_ne_true
  rw [this] at h1
  exact Nat.le_zero.1 h1

/-- A reply to a request, with tables in which requests can be answered. -/
theorem answered_with {T : Tables} (ht : TranTables T) {clock : GoTime} {sardir : List Byte} {fs : FS}
    {trans : List RxTran} {r : Request} {source : UDPAddr} {e : TranEnd} {st : Status}
    (h : addRxTran T clock sardir fs trans r source = .ret e) (sent : e.sent = some st) :
    ∃ c ∈ tranCodes, st.Answers T c := by
  have key : ∀ fs trans code result, code ∈ tranCodes →
      answerWith T clock fs trans ("errcode=" ++ code) result = .ret e → ∃ c ∈ tranCodes, st.Answers T c := by
    intro fs trans code result hc h
    obtain ⟨st', h1, h2⟩ := answerWith_eq ht clock fs trans code hc result
    rw [h2] at h
    cases h
    injection sent with sent
    subst sent
    exact ⟨code, hc, h1⟩
  have start : ∀ ttype, startTran T clock fs trans r ttype source = .ret e → ∃ c ∈ tranCodes, st.Answers T c := by
    intro ttype h
    unfold startTran at h
    obtain ⟨⟨ts, _⟩, -, h⟩ := Out.bind_eq_ret h
    exact key _ _ "success" _ (by decide) h
  unfold addRxTran at h
  obtain ⟨ttype, -, h⟩ := Out.bind_eq_ret h
  obtain ⟨version, -, h⟩ := Out.bind_eq_ret h
  split at h
  · exact key _ _ "badrequest" _ (by decide) h
  obtain ⟨udplite, -, h⟩ := Out.bind_eq_ret h
  split at h
  · exact key _ _ "badrequest" _ (by decide) h
  obtain ⟨stream, -, h⟩ := Out.bind_eq_ret h
  split at h
  · exact key _ _ "badrequest" _ (by decide) h
  obtain ⟨rxwilling, -, h⟩ := Out.bind_eq_ret h
  split at h
  · exact key _ _ "cantreceive" _ (by decide) h
  obtain ⟨txwilling, -, h⟩ := Out.bind_eq_ret h
  split at h
  · exact key _ _ "cantsend" _ (by decide) h
  simp only at h
  split at h
  · split at h
    · exact key _ _ "cantreceive" _ (by decide) h
    split at h
    · exact key _ _ "filenotfound" _ (by decide) h
    · exact start _ h
  split at h
  · split at h
    · exact key _ _ "filenotfound" _ (by decide) h
    split at h
    · exact key _ _ "didnotdelete" _ (by decide) h
    · exact key _ _ "success" _ (by decide) h
  split at h
  · split at h
    · exact key _ _ "cantsend" _ (by decide) h
    split at h
    · exact key _ _ "fileinuse" _ (by decide) h
    · exact start _ h
  · exact key _ _ "badrequest" _ (by decide) h

/-- **C153** The same of the replies to requests (which the shipped tables never come to, C40), with any tables in
which requests can be answered and in which a header of zeros has a 16 bit descriptor and no time stamp: the reply is
12 bytes long and no program answers it. -/
theorem C153_requests (T : Tables) (ht : TranTables T) (d16 : getStr T 0 "descriptor" = .ret "d16")
    (plain : getStr T 0 "reqtstamp" = .ret "no") (clock : GoTime) (sardir : List Byte) (fs : FS)
    (trans : List RxTran) (r : Request) (source : UDPAddr) (e : TranEnd) (st : Status)
    (h : addRxTran T clock sardir fs trans r source = .ret e) (sent : e.sent = some st) :
    ∃ frame, st.encode T = .ret (.ok frame) ∧ frame.length = 12 ∧
      ∀ clock' mtu x, listenFrame T clock' mtu frame ≠ .ret (.tx x) := by
  obtain ⟨c, -, ha⟩ := answered_with ht h sent
  have same : ∀ f ∈ ["descriptor", "stream", "metadatarecvd", "allholes", "reqholes", "reqtstamp"],
      getStr T st.header f = getStr T 0 f := by
    intro f hf
    unfold getStr
    rw [ha.plain f hf]
  obtain ⟨frame, h1, h2, h3, h4⟩ := plain_wire T st 2 "no"
    ⟨"d16", by rw [same _ (by decide), d16], rfl⟩ (by rw [same _ (by decide), plain]) (by decide)
    (by rw [ha.progress]; decide) ha.inrespto ha.holes ha.frametype
  refine ⟨frame, h1, h2, fun clock' mtu x => said_not_answered h4 (by rw [h3]; exact ha.version) clock' mtu x⟩

/-! ## Examples -/

-- a reply of 24 bytes for a datagram of 8
example : ∃ st frame, listenFrame shipped ⟨0, 0⟩ 1500 [0x24, 0x80, 0, 0, 0, 0, 0, 7] = .ret (.tx st) ∧
    st.encode shipped = .ret (.ok frame) ∧ frame.length = 24 := ⟨_, _, rfl, rfl, rfl⟩

-- a datagram that gets a reply, and its reply coming back from the same address, which gets none
example : ∃ w, (World.init tranFS).run shippedSetup
      [.recv ⟨.v4, ⟨0, 0⟩, [0, 0, 0, 0, 0, 0, 0, 0], someone⟩, .takeTx .v4] = some w ∧
    w.repliesTo .v4 someone = 1 ∧ (w.readFrom .v4 someone).length = 1 := ⟨_, rfl, by decide +kernel, by decide +kernel⟩
example : IsReply [0x24, 0, 0, 0x0A, 0, 0, 0, 0, 0, 0, 0, 0] :=
  ⟨⟨0, 0⟩, 1500, [0, 0, 0, 0, 0, 0, 0, 0], _, rfl, rfl⟩
example : ∃ w, (World.init tranFS).run shippedSetup
      [.recv ⟨.v4, ⟨0, 0⟩, [0x24, 0, 0, 0x0A, 0, 0, 0, 0, 0, 0, 0, 0], someone⟩, .takeRx .v4 ⟨0, 0⟩] = some w ∧
    w.repliesTo .v4 someone = 0 ∧ (w.readFrom .v4 someone).length = 1 := ⟨_, rfl, by decide +kernel, by decide +kernel⟩

-- a request that gets a reply
example : getStr patched 0 "descriptor" = .ret "d16" ∧ getStr patched 0 "reqtstamp" = .ret "no" ∧
    (match addRxTran patched ⟨0, 0⟩ [slash, 0x64#8] tranFS [] ⟨0x210F0005#32, 5, [0x66#8], []⟩ someone with
      | .ret e => e.sent.isSome
      | _ => false) = true := by decide +kernel

end Saratoga
