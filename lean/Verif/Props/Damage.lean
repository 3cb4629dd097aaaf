import Verif.Spec.Damage
import Verif.Props.Crc
import Verif.Props.Deliver
/-!
# C171: damage to the bytes of a file on their way is told by its checksum

Composition of `senddata` (C90), the wire form of data frames (C20), the storing of pieces (C57) and the checksum sent
with the metadata (C35, C141), when what arrives is not what was sent.
-/
namespace Saratoga

/-- Bit `j` is bit `j % 8` of byte `j / 8`. -/
theorem bitsOf_get (l : List Byte) (j : Nat) : (bitsOf l)[j]? = l[j / 8]?.map fun b => b.getLsbD (j % 8) := by
  induction l generalizing j with
  | nil => simp [bitsOf]
  | cons b l ih =>
    rw [show b :: l = [b] ++ l by rfl, bitsOf_append]
    by_cases h : j < 8
    · rw [List.getElem?_append_left (by rw [bitsOf_length]; simpa using h)]
      have e : bitsOf [b] = (List.range 8).map b.getLsbD := by simp [bitsOf]
      rw [e, show j / 8 = 0 by omega, show j % 8 = j by omega]
      simp [h]
    · rw [List.getElem?_append_right (by rw [bitsOf_length]; simp; omega), bitsOf_length, ih]
      simp only [List.length_cons, List.length_nil]
      rw [List.getElem?_append_right (by simp; omega)]
      simp only [List.length_cons, List.length_nil]
      rw [show (j - 8 * (0 + 1)) / 8 = j / 8 - (0 + 1) by omega, show (j - 8 * (0 + 1)) % 8 = j % 8 by omega]

/-- Pieces of any bytes that fit: what is stored at a place recorded as received is what some piece has there. -/
theorem storeAll_from (n : Nat) (hF : n < 2 ^ 63) (h : Handle) (hw : h.writable = true)
    (fs : FS) (hn : fs.node h.loc = some (.file [])) (as : List Arrival)
    (fits : ∀ a ∈ as, a.off.toNat + a.data.length ≤ n) :
    (∃ c, (storeAll h fs as).1.node h.loc = some (.file c) ∧ c.length ≤ n ∧
      ∀ i : Nat, Received (as.map Arrival.call) i → ∃ b, c[i]? = some b ∧
        ∃ a ∈ as, a.off.toNat ≤ i ∧ a.data[i - a.off.toNat]? = some b) ∧
    (storeAll h fs as).2 = Holes.run (as.map Arrival.call) := by
  induction as using snoc_induction' with
  | nil => exact ⟨⟨[], hn, by simp, fun i hr => by simp [Received] at hr⟩, rfl⟩
  | snoc as a ih =>
    obtain ⟨⟨c, hc, hl, hi⟩, hr⟩ := ih (fun b hb => fits b (List.mem_append_left _ hb))
    have ha := fits a (List.mem_append_right _ (List.mem_singleton.2 rfl))
    have key : ∀ d : List Byte, d.length = a.stored → (∀ i, i < d.length → d[i]? = a.data[i]?) →
        (writeAt c a.off.toNat d).length ≤ n ∧
        ∀ i : Nat, Received ((as ++ [a]).map Arrival.call) i → ∃ b, (writeAt c a.off.toNat d)[i]? = some b ∧
          ∃ a' ∈ as ++ [a], a'.off.toNat ≤ i ∧ a'.data[i - a'.off.toNat]? = some b := by
      intro d dl dg
      have sl := a.stored_le
      refine ⟨?_, fun i hrec => ?_⟩
      · by_cases e : d = []
        · rw [e]; simpa [writeAt] using hl
        · rw [writeAt_length _ _ _ e]; omega
      · rw [writeAt_get]
        unfold byteAfter
        by_cases here : a.off.toNat ≤ i ∧ i < a.off.toNat + d.length
        · rw [if_pos here]
          have lt : i - a.off.toNat < a.data.length := by omega
          refine ⟨a.data[i - a.off.toNat], ?_, a, by simp, here.1, List.getElem?_eq_getElem lt⟩
          rw [dg _ (by omega)]
          exact List.getElem?_eq_getElem lt
        · rw [if_neg here]
          have old : Received (as.map Arrival.call) i := by
            obtain ⟨cc, hcc, h1, h2⟩ := hrec
            rw [List.map_append] at hcc
            rcases List.mem_append.1 hcc with hcc | hcc
            · exact ⟨cc, hcc, h1, h2⟩
            · rw [List.map_cons, List.map_nil, List.mem_singleton] at hcc
              subst hcc
              simp only [Arrival.call] at h1 h2
              exact absurd ⟨by omega, by omega⟩ here
          obtain ⟨b, hb, a', ha', h1, h2⟩ := hi i old
          have : i < c.length := (List.getElem?_eq_some_iff.1 hb).1
          rw [if_neg (by omega)]
          exact ⟨b, hb, a', List.mem_append_left _ ha', h1, h2⟩
    have hfit : a.off.toNat < 2 ^ 63 := by omega
    rw [storeAll_snoc]
    unfold store
    rw [fileWrite_eq _ h a.off a.data c a.short hw hc hfit]
    cases hsh : a.short with
    | none =>
      obtain ⟨k1, k2⟩ := key a.data (by simp [Arrival.stored, hsh]) (fun _ _ => rfl)
      refine ⟨⟨_, node_put_self _ _ _, k1, k2⟩, ?_⟩
      rw [List.map_append, List.map_cons, List.map_nil, holesRun_snoc, ← hr]
      simp [Arrival.call, Arrival.stored, hsh]
    | some m =>
      obtain ⟨k1, k2⟩ := key (a.data.take m) (by simp [Arrival.stored, hsh])
        (fun i hi => by rw [List.getElem?_take_of_lt (by simp at hi; omega)])
      refine ⟨⟨_, node_put_self _ _ _, k1, k2⟩, ?_⟩
      rw [List.map_append, List.map_cons, List.map_nil, holesRun_snoc, ← hr]
      simp [Arrival.call, Arrival.stored, hsh]

/-- A stamped frame is read only if its stamp is. -/
theorem decode_stamp {T : Tables} {h sess : BitVec 32} {ts rest : List Byte} (d0 y : Data) (hl : ts.length = 16)
    (hrt : getStr T h "reqtstamp" = .ret "yes")
    (read : d0.decode T (be32 h ++ be32 sess ++ ts ++ rest) = .ret (y, none)) :
    ∃ t, d0.tstamp.get T ts = .ret (t, none) := by
  unfold Data.decode at read
  rw [if_neg (by simp [hl]; omega)] at read
  have e1 : readWord (be32 h ++ be32 sess ++ ts ++ rest) 0 = .ret h := by
    simp only [List.append_assoc]; exact readWord_start _ _
  have e2 : readWord (be32 h ++ be32 sess ++ ts ++ rest) 4 = .ret sess := by
    have := readWord_mid (be32 h) (ts ++ rest) sess 4 (by simp)
    simpa only [List.append_assoc] using this
  have e3 : slice (be32 h ++ be32 sess ++ ts ++ rest) 8 24 = .ret ts := by
    have := slice_mid (be32 h ++ be32 sess) ts rest 8 24 (by simp) (by simp [hl])
    simpa only [List.append_assoc] using this
  simp only [e1, e2, e3, Out.ret_bind, hrt, if_true] at read
  obtain ⟨⟨t, e⟩, hg, read⟩ := Out.bind_eq_ret read
  cases e with
  | none => exact ⟨t, hg⟩
  | some e => cases read

/-! ## C171 -/

/-- **C171** No reader notices damage to the payload of a frame: what is read has the header, the session, the place and
the time of the frame, and the damaged bytes. -/
theorem C171_unnoticed (x : Data) (frame got : List Byte) (sent : x.encode shipped = .ret (.ok frame))
    (damaged : SameHead x frame got) (d0 y0 : Data) (readable : d0.decode shipped frame = .ret (y0, none)) :
    ∃ y, d0.decode shipped got = .ret (y, none) ∧ y.header = y0.header ∧ y.session = y0.session ∧
      y.offset = y0.offset ∧ y.tstamp = y0.tstamp ∧ y0.payload = x.payload ∧
      got = frame.take (frame.length - x.payload.length) ++ y.payload ∧ y.payload.length = x.payload.length := by
  obtain ⟨rt, desc, n, ts, hrt, hd, hn, hts, rfl⟩ := Data.encode_inv sent
  obtain ⟨dl, dt⟩ := damaged
  generalize hpre : be32 x.header ++ be32 x.session ++ ts ++ numBytes n x.offset = pre at *
  have hle : (pre ++ x.payload).length - x.payload.length = pre.length := by simp
  rw [hle, List.take_left'] at dt
  · have gd : got = pre ++ got.drop pre.length := by
      conv => lhs; rw [← List.take_append_drop pre.length got, dt]
    have gl : (got.drop pre.length).length = x.payload.length := by simp [dl]
    generalize got.drop pre.length = pay at *
    subst gd
    subst hpre
    rw [hle, List.take_left' rfl]
    by_cases hy : rt = "yes"
    · subst hy
      simp only [if_true] at hts
      obtain ⟨t, ht⟩ := decode_stamp d0 y0 hts.2 hrt (by simpa only [List.append_assoc] using readable)
      have g := fun pay => Data.decode_eq (T := shipped) (h := x.header) (sess := x.session) (off := x.offset) (pay := pay)
        (t := t) (ts := ts) d0 rfl hrt hd hn (by simp [ht, hts.2])
      rw [g] at readable
      have e : ¬ (("yes" : String) = "yes" ∧ n = 2 ∧ x.payload = []) := by
        intro c; rw [if_pos c] at readable; cases readable
      rw [if_neg e] at readable
      cases readable
      have e' : ¬ (("yes" : String) = "yes" ∧ n = 2 ∧ pay = []) := fun c =>
        e ⟨c.1, c.2.1, by rw [← List.length_eq_zero_iff, ← gl, c.2.2]; rfl⟩
      exact ⟨⟨x.header, x.session, t, wireNum n x.offset, pay⟩, by rw [g, if_neg e'], rfl, rfl, rfl, rfl, rfl, rfl, gl⟩
    · simp only [hy, if_false] at hts
      have g := fun pay => Data.decode_eq (T := shipped) (h := x.header) (sess := x.session) (off := x.offset) (pay := pay)
        (t := d0.tstamp) (ts := ts) d0 rfl hrt hd hn (by simp [hy, hts])
      simp only [hy, false_and, if_false] at g
      rw [g] at readable
      cases readable
      exact ⟨_, g _, rfl, rfl, rfl, rfl, rfl, rfl, gl⟩
  · rfl

/-- **C171** If the bytes of a file are damaged on their way in any frames, any number of times, but all wrong bits that
come are within 32 adjacent bits of the file, then what is stored when every frame has come has the right length and
the crc32 of the file sent exactly if it is that file. -/
theorem C171_told (E : SendEnv) (env : E.Fine) (mtu : Int) (file : List Byte) (short : file.length < 2 ^ 63)
    (notEmpty : file ≠ []) (session : BitVec 32) (ps : List (String × String)) (text : DataText ps) (plen : Nat)
    (room : 0 < plen) (computed : maxPaylen mtu (render ps) = .ret plen) (rounds : Nat)
    (enough : file.length / plen < rounds) (s : Sending)
    (ran : sendData shipped E mtu file session (render ps) rounds = .ret s) (w : Nat)
    (width : descWidth ((lastValue "descriptor" ps).getD "d16") = some w) (small : file.length < 256 ^ w)
    (h : Handle) (writable : h.writable = true) (fs : FS) (fresh : fs.node h.loc = some (.file []))
    (arrived : List Arrival) (fromSender : ∀ a ∈ arrived, ∃ x ∈ s.sent, ReadDamaged x a)
    (noneLost : ∀ x ∈ s.sent, x.payload ≠ [] → ∃ a ∈ arrived, a.short = none ∧ ReadDamaged x a)
    (i : Nat) (burst : ∀ a ∈ arrived, ∀ j, WrongAt file a j → i ≤ j ∧ j < i + 32) :
    ∃ stored, (storeAll h fs arrived).1.node h.loc = some (.file stored) ∧ stored.length = file.length ∧
      (storeAll h fs arrived).2 = [⟨0, file.length⟩] ∧ (crcSum [stored] = crcSum [file] ↔ stored = file) := by
  obtain ⟨s', h1, -, h3, h4, -⟩ := C90_sends E env mtu file short session ps text plen room computed rounds enough
  rw [ran] at h1
  cases h1
  have hdm := Nat.div_add_mod file.length plen
  have hmod := Nat.mod_lt file.length room
  have hlen0 := List.length_pos_iff.2 notEmpty
  have piece : ∀ (k : Nat) (x : Data) (a : Arrival), s.sent[k]? = some x → ReadDamaged x a →
      a.off.toNat = k * plen ∧ a.data.length = ((file.drop (k * plen)).take plen).length ∧ k * plen ≤ file.length := by
    rintro k x a nth ⟨frame, got, d0, y, he, hg, hd, ho, hp⟩
    obtain ⟨at_, time⟩ := h4 k x nth
    have hk : k < s.sent.length := by
      rw [List.getElem?_eq_some_iff] at nth; exact nth.1
    have within : k * plen ≤ file.length :=
      Nat.le_trans (Nat.mul_le_mul_right plen (by omega)) (Nat.div_mul_le_self _ _)
    obtain ⟨k1, k2⟩ := frame_known (E := E) at_ time width small within
    by_cases hne : wantsStamp ps ∧ w = 2 ∧ x.payload = []
    · obtain ⟨f, he', hd'⟩ := k2 hne
      rw [he] at he'
      cases he'
      obtain ⟨y', e, hy⟩ := hd' d0
      have same : got = frame := by
        have l0 : x.payload.length = 0 := by rw [hne.2.2]; rfl
        have := hg.2
        rw [l0, Nat.sub_zero, ← hg.1, List.take_length, hg.1, List.take_length] at this
        exact this
      rw [same, hy] at hd
      cases hd
    · obtain ⟨f, he', hd'⟩ := k1 hne
      rw [he] at he'
      cases he'
      obtain ⟨y', hy, -, -, b, c⟩ := hd' d0
      obtain ⟨y2, q1, -, -, q2, -, -, -, q3⟩ := C171_unnoticed x frame got he hg d0 y' hy
      rw [hd] at q1
      cases q1
      exact ⟨by rw [ho, q2, b]; exact at_.offset, by rw [hp, q3, at_.payload], within⟩
  have fits : ∀ a ∈ arrived, a.off.toNat + a.data.length ≤ file.length := by
    intro a ha
    obtain ⟨x, hx, hr⟩ := fromSender a ha
    obtain ⟨k, hk⟩ := List.mem_iff_getElem?.1 hx
    obtain ⟨p1, p2, p3⟩ := piece k x a hk hr
    rw [p1, p2, List.length_take, List.length_drop]; omega
  have cover : ∀ i, i < file.length → ∃ a ∈ arrived, a.short = none ∧ a.off.toNat ≤ i ∧
      i < a.off.toNat + a.data.length := by
    intro i hi
    have hk : i / plen < s.sent.length := by
      rw [h3]
      have := Nat.div_le_div_right (c := plen) (Nat.le_of_lt hi)
      omega
    have nth : s.sent[i / plen]? = some s.sent[i / plen] := List.getElem?_eq_getElem hk
    have im := Nat.div_add_mod i plen
    have imod := Nat.mod_lt i room
    rw [Nat.mul_comm] at im
    have pay := (h4 _ _ nth).1.payload
    have ne : s.sent[i / plen].payload ≠ [] := by
      rw [pay]
      intro hnil
      have := congrArg List.length hnil
      rw [List.length_take, List.length_drop, List.length_nil] at this
      omega
    obtain ⟨a, ha, hs, hr⟩ := noneLost _ (List.getElem_mem hk) ne
    obtain ⟨p1, p2, p3⟩ := piece _ _ a nth hr
    refine ⟨a, ha, hs, by omega, ?_⟩
    rw [p1, p2, List.length_take, List.length_drop]
    omega
  obtain ⟨⟨c, hc, hl, hi⟩, hr⟩ := storeAll_from file.length short h writable fs fresh arrived fits
  have all : ∀ p : Nat, p < file.length → Received (arrived.map Arrival.call) p := by
    intro p hp
    obtain ⟨a, ha, hs, h5, h6⟩ := cover p hp
    refine ⟨a.call, List.mem_map_of_mem ha, ?_, ?_⟩
    · simp only [Arrival.call]; omega
    · simp only [Arrival.call, Arrival.stored, hs]; omega
  have len : c.length = file.length := by
    obtain ⟨b, hb, -⟩ := hi (file.length - 1) (all _ (by omega))
    have := (List.getElem?_eq_some_iff.1 hb).1
    omega
  refine ⟨c, hc, len, ?_, fun eq => ?_, fun eq => by rw [eq]⟩
  · rw [hr, C05_complete_iff _ _ (by omega)]
    intro p
    constructor
    · rintro ⟨cc, hcc, h5, h6⟩
      obtain ⟨a, ha, rfl⟩ := List.mem_map.1 hcc
      have hb := fits a ha
      have hlen := a.stored_le
      simp only [Arrival.call] at h5 h6
      omega
    · rintro ⟨h5, h6⟩
      have := all p.toNat (by omega)
      rwa [Int.toNat_of_nonneg h5] at this
  · refine Classical.byContradiction fun ne => ?_
    refine C141_burst [c] [file] (by simpa using len) (by simpa using ne) i (fun j dif => ?_) eq
    simp only [List.flatten_cons, List.flatten_nil, List.append_nil] at dif
    have hj : j / 8 < file.length := by
      refine Nat.lt_of_not_le fun hge => dif ?_
      rw [List.getElem?_eq_none (by rw [bitsOf_length]; omega), List.getElem?_eq_none (by rw [bitsOf_length]; omega)]
    obtain ⟨b, hb, a, ha, h5, h6⟩ := hi (j / 8) (all _ hj)
    have lt := (List.getElem?_eq_some_iff.1 h6).1
    refine burst a ha j ⟨by omega, by omega, fun same => dif ?_⟩
    rw [← same, bitsOf_get, bitsOf_get, hb, show (j - 8 * a.off.toNat) / 8 = j / 8 - a.off.toNat by omega, h6,
      show (j - 8 * a.off.toNat) % 8 = j % 8 by omega]

/-- **C171** The sum to compare with is what every reader of the metadata of the file gets from a node set to `crc32`. -/
theorem C171_announced (gl : List (String × String)) (ok : ValidGlobal shipped gl) (crc : ("csumtype", "crc32") ∈ gl)
    (env : FileEnv) (info : Minfo) (fi : FileInfo) (file : List Byte) (sum : env.crc32 file = crcSum [file])
    (there : ReadableFile env info.fname fi file) (small : fi.size.toNat < 2 ^ 32) (noNul : NoNul info.fname)
    (ascii : Ascii info.fname) (m0 : MetaData) :
    ∃ x frame y, MetaData.zero.new shipped env (setglobal shipped "metadata" gl) info = .ret (x, none) ∧
      x.encode shipped = .ret frame ∧ m0.decode shipped frame = .ret (y, none) ∧ y.checksum = crcSum [file] := by
  obtain ⟨x, frame, h1, h2, h3, -⟩ := C35_file_announced gl ok env m0 info fi _ there small noNul ascii
  obtain ⟨z, hz, -, hc, -⟩ := C14_metadata gl ok env MetaData.zero info fi _ there (by decide +kernel) rfl
  rw [h1] at hz
  cases hz
  refine ⟨x, frame, x, h1, h2, h3, ?_⟩
  rw [hc _ crc]
  simp only [digest, if_true]
  exact sum

/-- A frame of three bytes whose last byte is damaged. -/
example : SameHead ⟨0x23000000#32, 9, Timestamp.zero, 0, [1, 2, 3]⟩ [0x23, 0, 0, 0, 0, 0, 0, 9, 0, 0, 1, 2, 3]
    [0x23, 0, 0, 0, 0, 0, 0, 9, 0, 0, 1, 2, 7] ∧
    (match Data.encode shipped ⟨0x23000000#32, 9, Timestamp.zero, 0, [1, 2, 3]⟩ with
      | .ret (.ok frame) => frame == [0x23, 0, 0, 0, 0, 0, 0, 9, 0, 0, 1, 2, 3]
      | _ => false) = true ∧
    (Data.zero.decode shipped [0x23, 0, 0, 0, 0, 0, 0, 9, 0, 0, 1, 2, 3]).returns = true := by
  refine ⟨⟨rfl, rfl⟩, ?_, ?_⟩ <;> decide +kernel

/-- A piece of a file with one wrong bit, in a window of 32. -/
example : WrongAt [1, 2, 3, 4, 5] ⟨3, [4, 7], none, exampleSort⟩ 33 ∧
    ∀ j, WrongAt [1, 2, 3, 4, 5] ⟨3, [4, 7], none, exampleSort⟩ j → 10 ≤ j ∧ j < 10 + 32 := by
  refine ⟨by unfold WrongAt; decide, fun j hj => ?_⟩
  have h1 : 24 ≤ j := hj.1
  have h2 : j < 40 := hj.2.1
  omega

end Saratoga
