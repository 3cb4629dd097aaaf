import Verif.Spec.Listen
import Verif.Lemmas.Shipped
import Verif.Lemmas.Trans
import Verif.Props.Data
import Verif.Props.Request
import Verif.Props.Metadata
import Verif.Props.Status
import Verif.Props.Beacon
namespace Saratoga

theorem getStr_version (h : BitVec 32) :
    (versionNumber h = 1 ∧ getStr shipped h "version" = .ret "v1") ∨
    (versionNumber h = 0 ∧ getStr shipped h "version" = .ret "v0") ∨
    (2 ≤ versionNumber h ∧ getStr shipped h "version" = .fatal) := by
  unfold getStr
  rw [get_ofNat (by decide) h 29 3 (by decide) (by decide)]
  have hlt : bitsAt h 29 3 < 8 := Nat.mod_lt _ (by decide)
  unfold versionNumber
  generalize bitsAt h 29 3 = k at hlt
  have : ∀ k : Fin 8, (k.val = 1 ∧ (match optName (BitVec.ofNat 32 k) (shipped.flag "version").options with
      | some k => Out.ret k | none => .fatal) = .ret "v1") ∨
    (k.val = 0 ∧ (match optName (BitVec.ofNat 32 k) (shipped.flag "version").options with
      | some k => Out.ret k | none => .fatal) = .ret "v0") ∨
    (2 ≤ k.val ∧ (match optName (BitVec.ofNat 32 k) (shipped.flag "version").options with
      | some k => Out.ret k | none => .fatal) = .fatal) := by decide +kernel
  exact this ⟨k, hlt⟩

/-- The names of the frame types. -/
def typeNameOf (k : Nat) : String :=
  if k = 0 then "beacon" else if k = 1 then "request" else if k = 2 then "metadata"
  else if k = 3 then "data" else "status"

theorem getStr_frametype (h : BitVec 32) :
    (typeNumber h < 5 ∧ getStr shipped h "frametype" = .ret (typeNameOf (typeNumber h))) ∨
    (5 ≤ typeNumber h ∧ getStr shipped h "frametype" = .fatal) := by
  unfold getStr
  rw [get_ofNat (by decide) h 24 5 (by decide) (by decide)]
  have hlt : bitsAt h 24 5 < 32 := Nat.mod_lt _ (by decide)
  unfold typeNumber
  generalize bitsAt h 24 5 = k at hlt
  have : ∀ k : Fin 32, (k.val < 5 ∧ (match optName (BitVec.ofNat 32 k) (shipped.flag "frametype").options with
      | some k => Out.ret k | none => .fatal) = .ret (typeNameOf k.val)) ∨
    (5 ≤ k.val ∧ (match optName (BitVec.ofNat 32 k) (shipped.flag "frametype").options with
      | some k => Out.ret k | none => .fatal) = .fatal) := by decide +kernel
  exact this ⟨k, hlt⟩

theorem getStr_errcode (h : BitVec 32) :
    (errcodeNumber h < 19 ∧ ∃ s, getStr shipped h "errcode" = .ret s) ∨
    (19 ≤ errcodeNumber h ∧ getStr shipped h "errcode" = .fatal) := by
  have hg : getStr shipped h "errcode" = match optName (BitVec.ofNat 32 (errcodeNumber h))
      (shipped.flag "errcode").options with | some k => Out.ret k | none => .fatal := by
    unfold getStr
    rw [get_ofNat (by decide) h 0 8 (by decide) (by decide)]
    rfl
  rw [hg]
  have hlt : errcodeNumber h < 256 := Nat.mod_lt _ (by decide)
  generalize errcodeNumber h = k at hlt
  have : ∀ k : Fin 256, (k.val < 19 ∧ (optName (BitVec.ofNat 32 k) (shipped.flag "errcode").options).isSome = true) ∨
    (19 ≤ k.val ∧ optName (BitVec.ofNat 32 k) (shipped.flag "errcode").options = none) := by decide +kernel
  rcases this ⟨k, hlt⟩ with ⟨a, b⟩ | ⟨a, b⟩
  · refine Or.inl ⟨a, ?_⟩
    obtain ⟨s, hs⟩ := Option.isSome_iff_exists.1 b
    exact ⟨s, by rw [hs]⟩
  · exact Or.inr ⟨a, by simp only at b; rw [b]⟩

/-- One bit fields named for both values always have a name. -/
theorem getStr_bit {f : String} (hf : f ∈ ["metadatarecvd", "allholes", "reqholes"]) (h : BitVec 32) :
    ∃ s, getStr shipped h f = .ret s := by
  have hwf : ∀ f ∈ ["metadatarecvd", "allholes", "reqholes"], (shipped.flag f).WF ∧
      (shipped.flag f).len.toNat = 1 ∧ ∀ k : Fin 2, (optName (BitVec.ofNat 32 k) (shipped.flag f).options).isSome = true := by
    decide +kernel
  obtain ⟨w, hl, ho⟩ := hwf f hf
  unfold getStr
  rw [get_ofNat w h _ 1 hl rfl]
  have hlt : bitsAt h (32 - (shipped.flag f).len.toNat - (shipped.flag f).msb.toNat) 1 < 2 :=
    Nat.mod_lt _ (by decide)
  obtain ⟨s, hs⟩ := Option.isSome_iff_exists.1 (ho ⟨_, hlt⟩)
  exact ⟨s, by simp only at hs; rw [hs]⟩

/-- The timestamp read keeps its first byte, which has a name. -/
theorem tsGet_header {T : Tables} {t x : Timestamp} {b : List Byte} {e : Option Err}
    (h : t.get T b = .ret (x, e)) : e = none → ∃ s, getTStr T x.header = .ret s := by
  intro he
  subst he
  unfold Timestamp.get at h
  obtain ⟨hd, h1, h⟩ := Out.bind_eq_ret h
  obtain ⟨tt, h2, h⟩ := Out.bind_eq_ret h
  have key : x.header = hd := by
    repeat' split at h
    all_goals first
      | (cases h; done)
      | (obtain ⟨_, _, h⟩ := Out.bind_eq_ret h
         cases h; done)
      | (obtain ⟨_, _, h⟩ := Out.bind_eq_ret h
         obtain ⟨_, _, h⟩ := Out.bind_eq_ret h
         cases h; rfl)
      | (obtain ⟨_, _, h⟩ := Out.bind_eq_ret h
         obtain ⟨_, _, h⟩ := Out.bind_eq_ret h
         obtain ⟨_, _, h⟩ := Out.bind_eq_ret h
         obtain ⟨_, _, h⟩ := Out.bind_eq_ret h
         cases h; rfl)
  exact ⟨tt, by rw [key]; exact h2⟩

/-- A decoded status frame: its header, the name of its timestamp type, and when there is one. -/
theorem status_decoded {s0 x : Status} {f : List Byte} {e : Option Err}
    (h : s0.decode shipped f = .ret (x, e)) :
    (e = none ↔ StatusComplete f) ∧
    (e = none → x.header = headWord f ∧
      (stampNumber (headWord f) = 1 → ∃ s, getTStr shipped x.tstamp.header = .ret s)) := by
  unfold StatusComplete
  by_cases hshort : f.length < 12
  · simp only [Status.decode, hshort, if_true] at h
    cases h
    simp; omega
  · have hw := readWord_head (f := f) (by omega)
    obtain ⟨sess, hs⟩ := readWord_ok (f := f) (pos := 4) (by omega)
    have hk : descNumber (headWord f) < 4 := Nat.mod_lt _ (by decide)
    have hb : stampNumber (headWord f) < 2 := Nat.mod_lt _ (by decide)
    have hsz := descSize_nameOf (descNumber (headWord f))
    have h12 : 12 ≤ f.length := by omega
    generalize hH : headWord f = hd at *
    unfold Status.decode at h
    rw [if_neg hshort] at h
    simp only [hw, hs, Out.ret_bind, getStr_reqtstamp, getStr_descriptor] at h
    by_cases hst : stampNumber hd = 1
    · simp only [hst, if_true] at h
      obtain ⟨⟨s1, e1, pos⟩, h1, h⟩ := Out.bind_eq_ret h
      obtain ⟨tb, h2, h1⟩ := Out.bind_eq_ret h1
      obtain ⟨⟨ts, e2⟩, h3, h1⟩ := Out.bind_eq_ret h1
      cases h1
      obtain ⟨hlt, hslice⟩ : 24 ≤ f.length ∧ tb = (f.drop 8).take 16 := by
        by_cases h24 : 24 ≤ f.length
        · rw [slice_ok (by decide) h24] at h2; cases h2; exact ⟨h24, rfl⟩
        · rw [slice_bad (by omega)] at h2; cases h2
      obtain ⟨kind, k0, k1⟩ := get16_shipped s0.tstamp (b := tb) (by rw [hslice]; simp; omega)
      have hk8 : f[8]? = some kind := by
        rw [hslice] at k0; rw [← k0]; simp
      rw [h3] at k1
      have hcomp : (e2 = none ↔ kind.toNat ≠ 0) := by
        rcases k1 with ⟨_, k1⟩ | ⟨k1, _, t', k2⟩ | ⟨k1, t', e', k2⟩
        · cases k1
        · cases k2; simp; omega
        · cases k2; simp [k1]
      cases e2 with
      | some e2 =>
        cases h
        have : kind.toNat = 0 := by
          by_cases hz : kind.toNat = 0
          · exact hz
          · exact absurd (hcomp.2 hz) (by simp)
        simp [hst, hk8, this]
      | none =>
        have hne := hcomp.1 rfl
        simp only at h
        split at h
        · rename_i hz
          cases h
          have : ¬ descNumber hd < 3 := by
            intro hc; rw [hsz, if_pos hc] at hz; cases hz
          simp [this]
        · rename_i n hz
          have hlt3 : descNumber hd < 3 := by
            by_cases hc : descNumber hd < 3
            · exact hc
            · rw [hsz, if_neg hc] at hz; cases hz
          obtain ⟨p, _, h⟩ := Out.bind_eq_ret h
          obtain ⟨i, _, h⟩ := Out.bind_eq_ret h
          obtain ⟨rest, _, h⟩ := Out.bind_eq_ret h
          obtain ⟨hs', _, h⟩ := Out.bind_eq_ret h
          cases h
          refine ⟨by simp [h12, hlt3, hk8, hne], fun _ => ⟨rfl, fun _ => tsGet_header h3 rfl⟩⟩
    · have hst0 : stampNumber hd = 0 := by omega
      simp only [hst, if_false] at h
      obtain ⟨⟨s1, e1, pos⟩, h1, h⟩ := Out.bind_eq_ret h
      rw [if_neg (by decide)] at h1
      cases h1
      · simp only at h
        split at h
        · rename_i hz
          cases h
          have : ¬ descNumber hd < 3 := by
            intro hc; rw [hsz, if_pos hc] at hz; cases hz
          simp [this]
        · rename_i n hz
          have hlt3 : descNumber hd < 3 := by
            by_cases hc : descNumber hd < 3
            · exact hc
            · rw [hsz, if_neg hc] at hz; cases hz
          obtain ⟨p, _, h⟩ := Out.bind_eq_ret h
          obtain ⟨i, _, h⟩ := Out.bind_eq_ret h
          obtain ⟨rest, _, h⟩ := Out.bind_eq_ret h
          obtain ⟨hs', _, h⟩ := Out.bind_eq_ret h
          cases h
          exact ⟨by simp [h12, hlt3, hst0], fun _ => ⟨rfl, fun hc => absurd hc hst⟩⟩

/-- A part `name=value` that a status frame takes and that is no timestamp. -/
def PlainPart (T : Tables) (f : List String) : Prop :=
  ∃ n v rest, f = n :: v :: rest ∧ n ∈ statusNames ∧ valid T n v = true

theorem flagLoop_plain {T : Tables} (clock : GoTime) (parts : List String) (s : Status)
    (h : ∀ p ∈ parts, PlainPart T (strSplit p '=')) :
    ∃ s', flagLoop (Status.newStep T clock) s parts = .ret (s', none) ∧ s'.tstamp = s.tstamp := by
  induction parts generalizing s with
  | nil => exact ⟨s, rfl, rfl⟩
  | cons p ps ih =>
    obtain ⟨n, v, rest, hf, hn, hv⟩ := h p (by simp)
    obtain ⟨hd, hh⟩ : ∃ hd, set T s.header n v = .ret hd := by
      rcases set_verdict (T := T) s.header n v with ⟨_, h⟩ | ⟨h, _⟩
      · exact h
      · rw [hv] at h; cases h
    simp only [flagLoop, hf, Status.newStep, first, second, hn, if_true, Out.ret_bind, hh, Out.pure_eq]
    obtain ⟨s', h1, h2⟩ := ih { s with header := hd } (fun q hq => h q (by simp [hq]))
    exact ⟨s', h1, h2⟩

theorem status_plain {T : Tables} (clock : GoTime) (s : Status) (info : Sinfo) (text : String)
    (hv : valid T "version" "v1" = true) (hf : valid T "frametype" "status" = true)
    (h : ∀ p ∈ strSplit (stripSpaces text) ',', PlainPart T (strSplit p '=')) :
    ∃ x, s.new T clock text info = .ret (x, none) ∧ x.tstamp = s.tstamp := by
  unfold Status.new
  obtain ⟨a, ha⟩ : ∃ a, set T s.header "version" "v1" = .ret a := by
    rcases set_verdict (T := T) s.header "version" "v1" with ⟨_, h⟩ | ⟨h, _⟩
    · exact h
    · rw [hv] at h; cases h
  obtain ⟨b, hb⟩ : ∃ b, set T a "frametype" "status" = .ret b := by
    rcases set_verdict (T := T) a "frametype" "status" with ⟨_, h⟩ | ⟨h, _⟩
    · exact h
    · rw [hf] at h; cases h
  obtain ⟨s', h1, h2⟩ := flagLoop_plain clock _ { s with header := b } h
  simp only [ha, hb, Out.ret_bind, h1]
  exact ⟨_, rfl, h2⟩

/-- The text of the reply to a frame that cannot be decoded. -/
def badText (desc : String) : String :=
  "descriptor=" ++ desc ++ ",metadatarecvd=no,allholes=yes,reqholes=requested,errcode=badpacket"

def replyDescNames : List String := ["d16", "d32", "d64", "d128"]

theorem descNameOf_mem (k : Nat) : descNameOf k ∈ replyDescNames := by
  unfold descNameOf replyDescNames
  repeat' split
  all_goals simp

theorem badText_parts : ∀ d ∈ replyDescNames,
    (strSplit (stripSpaces (badText d)) ',').map (fun p => strSplit p '=') =
      [["descriptor", d], ["metadatarecvd", "no"], ["allholes", "yes"], ["reqholes", "requested"],
       ["errcode", "badpacket"]] ∧
    flagParts (badText d) = [("descriptor", some d), ("metadatarecvd", some "no"), ("allholes", some "yes"),
      ("reqholes", some "requested"), ("errcode", some "badpacket")] := by decide +kernel

/-- The names a reply uses. -/
structure ReplyTables (T : Tables) : Prop where
  sep : Separated T statusFields
  version : valid T "version" "v1" = true
  frametype : valid T "frametype" "status" = true
  descriptor : ∀ d ∈ replyDescNames, valid T "descriptor" d = true
  metadatarecvd : valid T "metadatarecvd" "no" = true
  allholes : valid T "allholes" "yes" = true
  reqholes : valid T "reqholes" "requested" = true
  errcode : valid T "errcode" "badpacket" = true

theorem shipped_reply : ReplyTables shipped := by
  constructor <;> decide

/-- What a reply shows. -/
structure Status.Refuses (T : Tables) (st : Status) (session : BitVec 32) (progress : BitVec 64) : Prop where
  version : getStr T st.header "version" = .ret "v1"
  frametype : getStr T st.header "frametype" = .ret "status"
  errcode : getStr T st.header "errcode" = .ret "badpacket"
  session : st.session = session
  progress : st.progress = progress
  inrespto : st.inrespto = 0
  holes : st.holes = []
  unstamped : get T st.header "reqtstamp" = get T 0 "reqtstamp"

theorem badFrame_eq {T : Tables} (rt : ReplyTables T) (clock : GoTime) {header session : BitVec 32}
    {progress : BitVec 64} {desc : String} (hd : getStr T header "descriptor" = .ret desc)
    (hm : desc ∈ replyDescNames) :
    ∃ st, badFrame T clock header session progress = .ret (.tx st) ∧
      Status.Refuses T st session progress ∧ getStr T st.header "descriptor" = .ret desc := by
  obtain ⟨t1, t2⟩ := badText_parts desc hm
  have hp : ∀ p ∈ strSplit (stripSpaces (badText desc)) ',', PlainPart T (strSplit p '=') := by
    intro p hp
    have : strSplit p '=' ∈ (strSplit (stripSpaces (badText desc)) ',').map (fun p => strSplit p '=') :=
      List.mem_map_of_mem hp
    rw [t1] at this
    simp only [List.mem_cons, List.not_mem_nil, or_false] at this
    rcases this with h | h | h | h | h <;> rw [h]
    · exact ⟨_, _, _, rfl, by decide, rt.descriptor _ hm⟩
    · exact ⟨_, _, _, rfl, by decide, rt.metadatarecvd⟩
    · exact ⟨_, _, _, rfl, by decide, rt.allholes⟩
    · exact ⟨_, _, _, rfl, by decide, rt.reqholes⟩
    · exact ⟨_, _, _, rfl, by decide, rt.errcode⟩
  obtain ⟨st, hst, _⟩ := status_plain clock Status.zero ⟨session, progress, 0, []⟩ _ rt.version rt.frametype hp
  obtain ⟨c1, c2, c3, c4, c5⟩ := C11_status T rt.sep clock Status.zero st _ _ hst
  rw [t2] at c1
  refine ⟨st, ?_, ⟨?_, ?_, ?_, c2, c3, c4, c5, ?_⟩, ?_⟩
  · unfold badFrame listenReply
    rw [hd]
    simp only [Out.ret_bind]
    show (Status.new T clock Status.zero (badText desc) ⟨session, progress, 0, []⟩ >>= _) = _
    rw [hst]
    rfl
  · exact c1.1 "version" (by decide) "v1" (by simp [statusAssigns, lastValue])
  · exact c1.1 "frametype" (by decide) "status" (by simp [statusAssigns, lastValue])
  · exact c1.1 "errcode" (by decide) "badpacket" (by simp [statusAssigns, lastValue])
  · exact c1.2.1 "reqtstamp" (by decide) (by simp [statusAssigns, lastValue])
  · exact c1.1 "descriptor" (by decide) desc (by simp [statusAssigns, lastValue])

theorem badVersion_eq {T : Tables} (rt : ReplyTables T) (clock : GoTime) :
    ∃ st, listenReply T clock "errcode=badpacket" ⟨0, 0, 0, []⟩ = .ret (.tx st) ∧
      Status.Refuses T st 0 0 ∧ get T st.header "descriptor" = get T 0 "descriptor" := by
  have hp : ∀ p ∈ strSplit (stripSpaces "errcode=badpacket") ',', PlainPart T (strSplit p '=') := by
    intro p hp
    have h1 : strSplit (stripSpaces "errcode=badpacket") ',' = ["errcode=badpacket"] := by decide
    rw [h1] at hp
    simp only [List.mem_singleton] at hp
    subst hp
    exact ⟨"errcode", "badpacket", [], by decide, by decide, rt.errcode⟩
  obtain ⟨st, hst, _⟩ := status_plain clock Status.zero ⟨0, 0, 0, []⟩ _ rt.version rt.frametype hp
  obtain ⟨c1, c2, c3, c4, c5⟩ := C11_status T rt.sep clock Status.zero st _ _ hst
  have t2 : flagParts "errcode=badpacket" = [("errcode", some "badpacket")] := by decide
  rw [t2] at c1
  refine ⟨st, ?_, ⟨?_, ?_, ?_, c2, c3, c4, c5, ?_⟩, c1.2.1 "descriptor" (by decide) (by simp [statusAssigns, lastValue])⟩
  · unfold listenReply
    rw [hst]
    rfl
  · exact c1.1 "version" (by decide) "v1" (by simp [statusAssigns, lastValue])
  · exact c1.1 "frametype" (by decide) "status" (by simp [statusAssigns, lastValue])
  · exact c1.1 "errcode" (by decide) "badpacket" (by simp [statusAssigns, lastValue])
  · exact c1.2.1 "reqtstamp" (by decide) (by simp [statusAssigns, lastValue])

end Saratoga
