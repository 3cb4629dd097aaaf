import Verif.Props.Listen
import Verif.Props.New
import Verif.Props.Data
import Verif.Props.Status
import Verif.Props.Request
import Verif.Props.Metadata
import Verif.Props.Beacon
/-! # A frame is taken for what it was sent as: C150 -/
namespace Saratoga

/-! ## Specification -/

/-- The kind of frame, as in the field `frametype`. -/
def Frame.kind : Frame → String
  | .beacon _ => "beacon"
  | .request _ => "request"
  | .data _ => "data"
  | .metadata _ => "metadata"
  | .status _ => "status"

/-- The header of a frame. -/
def Frame.head : Frame → BitVec 32
  | .beacon b => b.header
  | .request r => r.header
  | .data d => d.header
  | .metadata m => m.header
  | .status s => s.header

/-- The session a frame belongs to; beacons have none. -/
def Frame.session? : Frame → Option (BitVec 32)
  | .beacon _ => none
  | .request r => some r.session
  | .data d => some d.session
  | .metadata m => some m.session
  | .status s => some s.session

/-- A frame was built by `New` from any text, in any variable, and encoded into these bytes. The text of a request does not
name the field `frametype`, which only requests take from their text. -/
inductive SentAs : Frame → List Byte → Prop
  | beacon {env : DiskEnv} {d x : Beacon} {text : String} {info : Binfo} {bytes : List Byte}
      (built : d.new shipped env text info = .ret (x, none)) (encoded : x.encode shipped = .ret (.ok bytes)) :
      SentAs (.beacon x) bytes
  | request {d x : Request} {text : String} {info : Rinfo} {bytes : List Byte}
      (built : d.new shipped text info = .ret (x, none)) (encoded : x.encode = .ret bytes)
      (type : ∀ p ∈ flagPartsTrimmed text, p.1 ≠ "frametype") : SentAs (.request x) bytes
  | data {clock : GoTime} {d x : Data} {text : String} {info : Dinfo} {bytes : List Byte}
      (built : d.new shipped clock text info = .ret (x, none)) (encoded : x.encode shipped = .ret (.ok bytes)) :
      SentAs (.data x) bytes
  | metadata {env : FileEnv} {d x : MetaData} {text : String} {info : Minfo} {bytes : List Byte}
      (built : d.new shipped env text info = .ret (x, none)) (encoded : x.encode shipped = .ret bytes) :
      SentAs (.metadata x) bytes
  | status {clock : GoTime} {d x : Status} {text : String} {info : Sinfo} {bytes : List Byte}
      (built : d.new shipped clock text info = .ret (x, none)) (encoded : x.encode shipped = .ret (.ok bytes)) :
      SentAs (.status x) bytes

/-! ## Proof -/

theorem lastValue_absent {f : String} {l : List (String × String)} (h : ∀ p ∈ l, p.1 ≠ f) : lastValue f l = none := by
  induction l with
  | nil => rfl
  | cons p t ih =>
    obtain ⟨a, b⟩ := p
    simp only [lastValue]
    rw [ih fun q hq => h q (List.mem_cons_of_mem _ hq)]
    exact if_neg (h _ (List.mem_cons_self ..))

theorem lastValue_type {k : String} {l : List (String × String)} (h : ∀ p ∈ l, p.1 ≠ "frametype") :
    lastValue "frametype" (("version", "v1") :: ("frametype", k) :: l) = some k := by
  simp [lastValue, lastValue_absent h]

theorem headWord_of {bytes : List Byte} {h : BitVec 32} (e : beNum (bytes.take 4) = h.toNat) : headWord bytes = h := by
  unfold headWord; rw [e]; simp

theorem session_of {bytes : List Byte} {s : BitVec 32} (e : beNum ((bytes.drop 4).take 4) = s.toNat) : sessionOf bytes = s := by
  unfold sessionOf; rw [e]; simp

/-- The bytes of a frame begin with its header and, but for beacons, its session. -/
theorem sent_head {f : Frame} {bytes : List Byte} (h : SentAs f bytes) :
    headWord bytes = f.head ∧ ∀ s, f.session? = some s → sessionOf bytes = s := by
  cases h with
  | beacon built enc => exact ⟨headWord_of (C62_beacon_layout shipped _ _ enc).1, fun s hs => by cases hs⟩
  | request built enc type =>
    rename_i x _ _
    obtain ⟨fr, h1, h2, h3, -⟩ := C62_request_layout x
    rw [enc] at h1; cases h1
    exact ⟨headWord_of h2, fun s hs => by cases hs; exact session_of h3⟩
  | data built enc =>
    obtain ⟨_, _, -, -, -, h2, h3, -⟩ := C62_data_layout shipped _ _ enc
    exact ⟨headWord_of h2, fun s hs => by cases hs; exact session_of h3⟩
  | metadata built enc =>
    rename_i x _ _
    have : ∃ r, x.dir.encode shipped = .ret r := by
      unfold MetaData.encode at enc
      obtain ⟨r, hr, -⟩ := Out.bind_eq_ret enc
      exact ⟨r, hr⟩
    obtain ⟨r, hr⟩ := this
    rw [MetaData.encode_eq hr] at enc
    cases enc
    refine ⟨headWord_of ?_, fun s hs => ?_⟩
    · simp only [List.append_assoc]
      rw [List.take_left' (by simp)]
      exact beNum_be32 _
    · cases hs
      refine session_of ?_
      simp only [List.append_assoc]
      rw [List.drop_left' (by simp), List.take_left' (by simp)]
      exact beNum_be32 _
  | status built enc =>
    obtain ⟨_, _, -, -, -, h2, h3, -⟩ := C62_status_layout shipped _ _ enc
    exact ⟨headWord_of h2, fun s hs => by cases hs; exact session_of h3⟩

theorem sent_type {f : Frame} {bytes : List Byte} (h : SentAs f bytes) : getStr shipped f.head "frametype" = .ret f.kind := by
  obtain ⟨sd, ss, sr, sm, sb⟩ := C11_shipped_separated
  cases h with
  | beacon built enc =>
    obtain ⟨extra, he, hc, -⟩ := C11_beacon_partial shipped sb _ _ _ _ _ built
    refine hc.1 "frametype" (by decide) _ ?_
    refine lastValue_type fun p hp => ?_
    rcases List.mem_append.1 hp with hp | hp
    · obtain ⟨q, -, hq⟩ := List.mem_flatMap.1 hp
      unfold beaconAssigns at hq
      split at hq
      · simp at hq; rcases hq with rfl | rfl <;> simp
      · split at hq
        · rename_i hm
          simp at hq; subst hq
          simp at hm ⊢; rintro e; rw [e] at hm; simp at hm
        · cases hq
    · rcases he with rfl | rfl | ⟨d, rfl⟩
      · cases hp
      · simp at hp; subst hp; simp
      · simp at hp; subst hp; simp
  | request built enc type =>
    obtain ⟨hc, -⟩ := C11_request shipped sr _ _ _ _ built
    refine hc.1 "frametype" (by decide) _ ?_
    refine lastValue_type fun p hp => ?_
    obtain ⟨q, hm, hq⟩ := List.mem_flatMap.1 hp
    unfold requestAssigns at hq
    split at hq
    · simp at hq; subst hq
      exact type q hm
    · cases hq
  | data built enc =>
    obtain ⟨hc, -⟩ := C11_data_partial shipped sd _ _ _ _ _ built
    refine hc.1 "frametype" (by decide) _ ?_
    refine lastValue_type fun p hp => ?_
    obtain ⟨q, -, hq⟩ := List.mem_flatMap.1 hp
    unfold dataAssigns at hq
    split at hq
    · rename_i hm
      simp at hq; subst hq
      simp at hm ⊢; rintro e; rw [e] at hm; simp at hm
    · split at hq
      · simp at hq; subst hq; simp
      · cases hq
  | metadata built enc =>
    obtain ⟨hc, -⟩ := C11_metadata shipped sm _ _ _ _ _ built
    refine hc.1 "frametype" (by decide) _ ?_
    refine lastValue_type fun p hp => ?_
    obtain ⟨q, -, hq⟩ := List.mem_flatMap.1 hp
    unfold metadataAssigns at hq
    split at hq
    · simp at hq; rcases hq with rfl | rfl <;> simp
    · split at hq
      · rename_i hm
        simp at hq; subst hq
        simp at hm ⊢; rintro e; rw [e] at hm; simp at hm
      · cases hq
  | status built enc =>
    obtain ⟨hc, -⟩ := C11_status shipped ss _ _ _ _ _ built
    refine hc.1 "frametype" (by decide) _ ?_
    refine lastValue_type fun p hp => ?_
    obtain ⟨q, -, hq⟩ := List.mem_flatMap.1 hp
    unfold statusAssigns at hq
    split at hq
    · rename_i hm
      simp at hq; subst hq
      simp at hm ⊢; rintro e; rw [e] at hm; simp at hm
    · split at hq
      · simp at hq; subst hq; simp
      · cases hq

theorem says_kind {bytes : List Byte} {f : Frame} (h : Says shipped bytes f) :
    getStr shipped (headWord bytes) "frametype" = .ret f.kind := by
  cases f <;> exact h.1

/-- What is decoded has the header and the session of the bytes. -/
theorem says_head {bytes : List Byte} {f : Frame} (h : Says shipped bytes f) :
    f.head = headWord bytes ∧ ∀ s, f.session? = some s → s = sessionOf bytes := by
  cases f with
  | beacon b =>
    obtain ⟨-, h⟩ := h
    refine ⟨?_, fun s hs => by cases hs⟩
    unfold Beacon.decode at h
    obtain ⟨w, hw, h⟩ := Out.bind_eq_ret h
    have h4 : 4 ≤ bytes.length := by
      rcases Nat.lt_or_ge bytes.length 4 with l | l
      · rw [show readWord bytes 0 = .panic by unfold readWord; rw [slice_bad (by omega)]; rfl] at hw; cases hw
      · exact l
    rw [readWord_head h4] at hw; cases hw
    obtain ⟨fsp, -, h⟩ := Out.bind_eq_ret h
    split at h
    · obtain ⟨fsd, -, h⟩ := Out.bind_eq_ret h
      split at h
      · obtain ⟨v, -, h⟩ := Out.bind_eq_ret h
        obtain ⟨e, -, h⟩ := Out.bind_eq_ret h
        cases h; rfl
      · split at h
        · cases h
        · obtain ⟨e, -, h⟩ := Out.bind_eq_ret h
          cases h
    · obtain ⟨e, -, h⟩ := Out.bind_eq_ret h
      cases h; rfl
  | request r =>
    obtain ⟨-, h⟩ := h
    by_cases h9 : bytes.length < 9
    · unfold Request.decode at h; rw [if_pos h9] at h; cases h
    · rw [Request.decode_eq _ (by omega)] at h
      simp only at h
      split at h
      · cases h; exact ⟨rfl, fun s hs => by cases hs; rfl⟩
      · split at h
        · cases h; exact ⟨rfl, fun s hs => by cases hs; rfl⟩
        · cases h
  | metadata m =>
    obtain ⟨-, h⟩ := h
    by_cases h8 : bytes.length < 8
    · unfold MetaData.decode at h; rw [if_pos h8] at h; cases h
    · rw [MetaData.decode_eq _ (by omega)] at h
      simp only at h
      split at h
      · obtain ⟨⟨d, e⟩, -, h⟩ := Out.bind_eq_ret h
        cases h; exact ⟨rfl, fun s hs => by cases hs; rfl⟩
      · cases h
  | data d =>
    obtain ⟨-, h⟩ := h
    unfold Data.decode at h
    split at h
    · cases h
    rw [readWord_head (by omega), readWord_eq (by omega)] at h
    simp only [Out.ret_bind] at h
    obtain ⟨rt, -, h⟩ := Out.bind_eq_ret h
    split at h
    · obtain ⟨tb, -, h⟩ := Out.bind_eq_ret h
      obtain ⟨⟨ts, e⟩, -, h⟩ := Out.bind_eq_ret h
      cases e with
      | some e => cases h
      | none =>
        simp only at h
        obtain ⟨desc, -, h⟩ := Out.bind_eq_ret h
        split at h
        · cases h
        · obtain ⟨off, -, h⟩ := Out.bind_eq_ret h
          obtain ⟨pay, -, h⟩ := Out.bind_eq_ret h
          split at h
          · cases h
          · cases h; exact ⟨rfl, fun s hs => by cases hs; rfl⟩
    · obtain ⟨desc, -, h⟩ := Out.bind_eq_ret h
      split at h
      · cases h
      · obtain ⟨off, -, h⟩ := Out.bind_eq_ret h
        obtain ⟨pay, -, h⟩ := Out.bind_eq_ret h
        cases h; exact ⟨rfl, fun s hs => by cases hs; rfl⟩
  | status x =>
    obtain ⟨-, h⟩ := h
    unfold Status.decode at h
    split at h
    · cases h
    rw [readWord_head (by omega), readWord_eq (by omega)] at h
    simp only [Out.ret_bind] at h
    obtain ⟨rt, -, h⟩ := Out.bind_eq_ret h
    obtain ⟨⟨s1, e, pos⟩, h1, h⟩ := Out.bind_eq_ret h
    have hs1 : s1.header = headWord bytes ∧ s1.session = sessionOf bytes := by
      split at h1
      · obtain ⟨tb, -, h1⟩ := Out.bind_eq_ret h1
        obtain ⟨⟨ts, e'⟩, -, h1⟩ := Out.bind_eq_ret h1
        cases h1; exact ⟨rfl, rfl⟩
      · cases h1; exact ⟨rfl, rfl⟩
    cases e with
    | some e => cases h
    | none =>
      simp only at h
      obtain ⟨desc, -, h⟩ := Out.bind_eq_ret h
      split at h
      · cases h
      · obtain ⟨p, -, h⟩ := Out.bind_eq_ret h
        obtain ⟨i, -, h⟩ := Out.bind_eq_ret h
        obtain ⟨rest, -, h⟩ := Out.bind_eq_ret h
        obtain ⟨hs, -, h⟩ := Out.bind_eq_ret h
        cases h
        exact ⟨hs1.1, fun s hs => by cases hs; exact hs1.2⟩

/-! ## Theorems -/

/-- **C150** Whatever a listener reads from the bytes of a frame that was built and encoded is of its kind, has its header
and belongs to its session. -/
theorem C150_kind (clock : GoTime) (mtu : Nat) (sent got : Frame) (bytes : List Byte) (h : SentAs sent bytes)
    (read : listenFrame shipped clock mtu bytes = .ret (.rx got)) :
    got.kind = sent.kind ∧ got.head = sent.head ∧ got.session? = sent.session? := by
  obtain ⟨-, -, says⟩ := C42_delivers shipped clock mtu bytes got read
  obtain ⟨hh, hs⟩ := sent_head h
  have hk : got.kind = sent.kind := by
    have a := says_kind says
    rw [hh, sent_type h] at a
    injection a with a
    exact a.symm
  obtain ⟨gh, gs⟩ := says_head says
  refine ⟨hk, gh.trans hh, ?_⟩
  cases sent <;> cases got <;> simp only [Frame.kind, String.reduceEq] at hk <;> first
    | rfl
    | (simp only [Frame.session?] at gs hs ⊢
       rw [gs _ rfl, hs _ rfl])

example : SentAs (.data ⟨0x23008000#32, 7, Timestamp.zero, 0, [1]⟩) [0x23, 0, 0x80, 0, 0, 0, 0, 7, 0, 0, 1] :=
  .data (clock := ⟨1000000000, 0⟩) (d := Data.zero) (text := "descriptor=d32, eod=yes,descriptor=d16")
    (info := ⟨7, 0, [1]⟩) (by decide +kernel) rfl

/-- **C150** No bytes are those of frames of two kinds, headers or sessions. -/
theorem C150_one_kind (one two : Frame) (bytes : List Byte) (h1 : SentAs one bytes) (h2 : SentAs two bytes) :
    one.kind = two.kind ∧ one.head = two.head ∧ one.session? = two.session? := by
  obtain ⟨a1, b1⟩ := sent_head h1
  obtain ⟨a2, b2⟩ := sent_head h2
  have hh : one.head = two.head := a1.symm.trans a2
  have hk : one.kind = two.kind := by
    have := sent_type h1
    rw [hh, sent_type h2] at this
    injection this with this
    exact this.symm
  refine ⟨hk, hh, ?_⟩
  cases one <;> cases two <;> simp only [Frame.kind, String.reduceEq] at hk <;> first
    | rfl
    | (simp only [Frame.session?] at b1 b2 ⊢
       rw [← b1 _ rfl, ← b2 _ rfl])

/-- **C150** Why the text of a request must not name the field: one that does is sent as a frame of that kind, and no
listener reads it as a request. -/
theorem C150_request_text : ∃ x bytes, Request.zero.new shipped "frametype=data" ⟨7, [102], []⟩ = .ret (x, none) ∧
    x.encode = .ret bytes ∧ ∀ clock mtu r, listenFrame shipped clock mtu bytes ≠ .ret (.rx (.request r)) := by
  refine ⟨⟨0x23000000#32, 7, [102], []⟩, [0x23, 0, 0, 0, 0, 0, 0, 7, 102, 0], by decide +kernel, by decide +kernel, ?_⟩
  intro clock mtu r h
  have := says_kind (C42_delivers shipped clock mtu _ _ h).2.2
  revert this
  simp only [Frame.kind]
  decide +kernel

/-- A data frame that is sent and read. -/
example : SentAs (.data ⟨0x23008000#32, 7, Timestamp.zero, 0, [1]⟩) [0x23, 0, 0x80, 0, 0, 0, 0, 7, 0, 0, 1] ∧
    ∃ got, listenFrame shipped ⟨1000000000, 0⟩ 1500 [0x23, 0, 0x80, 0, 0, 0, 0, 7, 0, 0, 1] = .ret (.rx got) := by
  refine ⟨.data (clock := ⟨1000000000, 0⟩) (d := Data.zero) (text := "descriptor=d32, eod=yes,descriptor=d16")
    (info := ⟨7, 0, [1]⟩) (by decide +kernel) rfl, .data ⟨0x23008000#32, 7, Timestamp.zero, 0, [1]⟩, ?_⟩
  decide +kernel

end Saratoga
