import Verif.Lemmas.Listing
import Verif.Props.Help
import Verif.Props.MainLists
/-! # Properties C99 and C100: the tables of peers and of transfers -/
namespace Saratoga

/-! ## Specification -/

/-- A line of a table: a mark and blanks before every cell, a mark at the end. -/
inductive RowOf (mark : String) : List String → String → Prop
  | done : RowOf mark [] (mark ++ "\n")
  | cell (k : Nat) {s : String} {rest : List String} {line : String} :
    RowOf mark rest line → RowOf mark (s :: rest) (mark ++ String.ofList (List.replicate k ' ') ++ s ++ line)

/-- A border of a table with `n` columns: a mark and dashes for every column, a mark at the end. -/
inductive BorderOf (mark : String) : Nat → String → Prop
  | done : BorderOf mark 0 (mark ++ "\n")
  | column (k : Nat) {n : Nat} {line : String} :
    BorderOf mark n line → BorderOf mark (n + 1) (mark ++ String.ofList (List.replicate k '-') ++ line)

/-- The text is a table of the entries: border, heading, border, a line for every entry once, in order of the text of
the lines, border. -/
def TableOf {α : Type} (text : String) (heading : List String) (cells : α → List String) (entries : List α)
    (border head : String) (line : α → String) : Prop :=
  RowOf "|" heading head ∧ (∀ a ∈ entries, RowOf "|" (cells a) (line a)) ∧
  ∃ shown : List α, shown.Perm entries ∧ shown.Pairwise (fun a b => line a ≤ line b) ∧
    text = border ++ head ++ border ++ String.join (shown.map line) ++ border

theorem rowOf (mark : String) : ∀ (ws : List Nat) (cells : List String), ws.length = cells.length →
    RowOf mark cells (tableRow mark (ws.zip cells))
  | [], [], _ => .done
  | n :: ws, s :: cells, h => by
    have e : tableRow mark ((n :: ws).zip (s :: cells)) =
        mark ++ String.ofList (List.replicate (n - s.length) ' ') ++ s ++ tableRow mark (ws.zip cells) := by
      show mark ++ (String.ofList _ ++ s) ++ tableRow mark (ws.zip cells) = _
      simp only [String.append_assoc]
    rw [e]
    exact .cell _ (rowOf mark ws cells (by simpa using h))

theorem borderOf (mark : String) : ∀ ws : List Nat,
    BorderOf mark ws.length (tableRow mark (ws.map fun n => (n, dashes n)))
  | [] => .done
  | n :: ws => by
    have e : tableRow mark ((n :: ws).map fun n => (n, dashes n)) =
        mark ++ String.ofList (List.replicate n '-') ++ tableRow mark (ws.map fun n => (n, dashes n)) := by
      show mark ++ (String.ofList (List.replicate (n - (dashes n).length) ' ') ++ dashes n) ++ _ = _
      rw [dashes_length, Nat.sub_self]
      show mark ++ ("" ++ dashes n) ++ _ = _
      rw [String.empty_append]
      rfl
    rw [e]
    exact .column n (borderOf mark ws)

theorem tableOf {α : Type} (srt : TextSort) (ws : List Nat) (heading : List String) (cells : α → List String)
    (entries : List α) (border : String) (h1 : ws.length = heading.length) (h2 : ∀ a, ws.length = (cells a).length) :
    TableOf (tableText srt border (tableRow "|" (ws.zip heading))
      (entries.map fun a => tableRow "|" (ws.zip (cells a)))) heading cells entries border
      (tableRow "|" (ws.zip heading)) (fun a => tableRow "|" (ws.zip (cells a))) := by
  refine ⟨rowOf _ _ _ h1, fun a _ => rowOf _ _ _ (h2 a), ?_⟩
  obtain ⟨e, hp, he⟩ := perm_map_lift (srt.perm (entries.map fun a => tableRow "|" (ws.zip (cells a)))) entries rfl
  refine ⟨e, hp, ?_, by unfold tableText; rw [he]⟩
  have hs := srt.sorted (entries.map fun a => tableRow "|" (ws.zip (cells a)))
  rwa [he, List.pairwise_map] at hs

/-! ## C99 -/

/-- **C99** `peers` lists every peer once, with everything that is known of it, in order of the lines, between
borders of dashes. -/
theorem C99_lists (V : PeerView) (srt : TextSort) (H : CmdTable) (ps : List Peer) (x : String) :
    cmdPeers V srt H [] [x] = [.msg "No Peers"] ∧
    (ps ≠ [] → ∃ text border head line, cmdPeers V srt H ps [x] = [.msg text] ∧
      TableOf text ["IP", "GB", "EID", "Des", "Rx", "Tx", "Created", "Modified"]
        (fun p : Peer => [p.addr, toString (p.freespace.toNat / 2 ^ 20), V.runes.text p.eid, p.maxdesc, p.canrx,
          p.cantx, V.time p.created, V.time p.updated]) ps border head line ∧ BorderOf "+" 8 border) := by
  refine ⟨rfl, fun ne => ?_⟩
  have h := tableOf srt (peerWidths V ps) peerHeading (peerCells V) ps
    (tableRow "+" ((peerWidths V ps).map fun n => (n, dashes n))) rfl (fun _ => rfl)
  have e : (fun p : Peer => [p.addr, toString (p.freespace.toNat / 2 ^ 20), V.runes.text p.eid, p.maxdesc, p.canrx,
      p.cantx, V.time p.created, V.time p.updated]) = peerCells V := by
    funext p; unfold peerCells; rw [Nat.div_div_eq_div_mul]
  rw [e]
  refine ⟨_, _, _, _, ?_, h, borderOf "+" (peerWidths V ps)⟩
  show (if ps.length = 0 then _ else _) = _
  rw [if_neg fun h => ne (List.length_eq_zero_iff.1 h)]
  rfl

/-- **C99** The table does not depend on how Go sorts. -/
theorem C99_order_free (V : PeerView) (s1 s2 : TextSort) (H : CmdTable) (ps : List Peer) (x : String) :
    cmdPeers V s1 H ps [x] = cmdPeers V s2 H ps [x] := by
  simp only [cmdPeers, peerTable, tableText, sort_unique s1 s2 (List.Perm.refl _)]

/-- What the columns of fixed width and the columns as wide as their cells have room for. -/
structure Fits (V : PeerView) (L : Nat) (p : Peer) : Prop where
  space : p.freespace.toNat / 2 ^ 20 < 10 ^ 6
  des : p.maxdesc.length ≤ 3
  addr : 2 ≤ p.addr.length
  rx : 2 ≤ p.canrx.length
  tx : 2 ≤ p.cantx.length
  created : (utf8 (V.time p.created)).length = L
  updated : (utf8 (V.time p.updated)).length = L

theorem peerWidths_fit (V : PeerView) {L : Nat} (long : 8 ≤ L) {ps : List Peer} (fit : ∀ p ∈ ps, Fits V L p)
    {p : Peer} (hp : p ∈ ps) :
    (∀ c ∈ (peerWidths V ps).zip (peerCells V p), c.2.length ≤ c.1) ∧
    ∀ c ∈ (peerWidths V ps).zip peerHeading, c.2.length ≤ c.1 := by
  have hm : modifiedWidth V ps = L := by
    unfold modifiedWidth
    rw [modifiedWidth_same V ps L (fun q hq => ⟨(fit q hq).created, (fit q hq).updated⟩) 0 (Nat.zero_le _),
      if_neg (List.ne_nil_of_mem hp)]
  have fp := fit p hp
  have wide : ∀ f : Peer → List Byte, (f p).length ≤ longest (ps.map fun q => (f q).length) :=
    fun f => le_longest (List.mem_map.2 ⟨p, hp, rfl⟩)
  have g : ∀ f : Peer → String, (f p).length ≤ longest (ps.map fun q => (utf8 (f q)).length) :=
    fun f => Nat.le_trans (length_le_utf8 _) (wide fun q => utf8 (f q))
  have he := Nat.le_trans (V.runes.short p.eid) (wide Peer.eid)
  have h1 := g Peer.addr
  have h2 := g Peer.canrx
  have h3 := g Peer.cantx
  have h4 := g fun q => V.time q.created
  have h5 := length_le_utf8 (V.time p.updated)
  have h6 := wide fun q => utf8 (V.time q.created)
  have h7 : (toString (p.freespace.toNat / 1024 / 1024)).length ≤ 6 := by
    rw [Nat.div_div_eq_div_mul]
    exact (Nat.length_repr_le_iff (by decide)).2 fp.space
  rw [fp.updated] at h5
  rw [show (utf8 (V.time p.created)).length = L from fp.created] at h6
  have a := fp.addr
  have b := fp.rx
  have c := fp.tx
  constructor
  · intro c hc
    simp only [peerWidths, peerCells, List.zip_cons_cons, List.mem_cons, hm] at hc
    rcases hc with rfl | rfl | rfl | rfl | rfl | rfl | rfl | rfl | hc
    · exact h1
    · exact h7
    · show (V.runes.text p.eid).length ≤ if _ then _ else _
      split
      · exact Nat.le_trans he (by omega)
      · exact he
    · exact fp.des
    · exact h2
    · exact h3
    · exact h4
    · exact h5
    · cases hc
  · intro c hc
    simp only [peerWidths, peerHeading, List.zip_cons_cons, List.mem_cons, hm] at hc
    rcases hc with rfl | rfl | rfl | rfl | rfl | rfl | rfl | rfl | hc
    · show "IP".length ≤ _
      exact Nat.le_trans (Nat.le_trans (by decide) a) h1
    · show "GB".length ≤ 6; decide
    · show "EID".length ≤ if _ then _ else _
      rw [show "EID".length = 3 by decide]
      split <;> omega
    · show "Des".length ≤ 3; decide
    · show "Rx".length ≤ _
      exact Nat.le_trans (Nat.le_trans (by decide) b) h2
    · show "Tx".length ≤ _
      exact Nat.le_trans (Nat.le_trans (by decide) c) h3
    · show "Created".length ≤ _
      rw [show "Created".length = 7 by decide]
      exact Nat.le_trans (show 7 ≤ L by omega) h6
    · show "Modified".length ≤ L
      rw [show "Modified".length = 8 by decide]
      exact long
    · cases hc

/-- **C99** If every peer's cells fit their columns, all lines of the table are equally long: the columns are aligned.
Missing: peers that take 128 bit descriptors, disks of a million gigabytes, and times that print differently long. -/
theorem C99_aligned_partial (V : PeerView) (L : Nat) (long : 8 ≤ L) (srt : TextSort) (H : CmdTable) (ps : List Peer)
    (ne : ps ≠ []) (fit : ∀ p ∈ ps, Fits V L p) (x : String) :
    ∃ text border head line width, cmdPeers V srt H ps [x] = [.msg text] ∧
      TableOf text ["IP", "GB", "EID", "Des", "Rx", "Tx", "Created", "Modified"] (peerCells V) ps border head line ∧
      border.length = width ∧ head.length = width ∧ ∀ p ∈ ps, (line p).length = width := by
  have h := tableOf srt (peerWidths V ps) peerHeading (peerCells V) ps
    (tableRow "+" ((peerWidths V ps).map fun n => (n, dashes n))) rfl (fun _ => rfl)
  refine ⟨_, _, _, _, 1 * (8 + 1) + (peerWidths V ps).sum + 1, ?_, h, ?_, ?_, ?_⟩
  · show (if ps.length = 0 then _ else _) = _
    rw [if_neg fun h => ne (List.length_eq_zero_iff.1 h)]
    rfl
  · rw [tableRow_length _ _ fun c hc => by
      obtain ⟨n, _, rfl⟩ := List.mem_map.1 hc
      exact Nat.le_of_eq (dashes_length n)]
    simp only [List.map_map, List.length_map]
    show "+".length * _ + ((peerWidths V ps).map id).sum + 1 = _
    rw [List.map_id]; rfl
  · obtain ⟨p, hp⟩ := List.exists_mem_of_ne_nil ps ne
    rw [tableRow_length _ _ (peerWidths_fit V long fit hp).2]
    rfl
  · intro p hp
    rw [tableRow_length _ _ (peerWidths_fit V long fit hp).1]
    rfl

theorem willingName_length (k : Nat) : 2 ≤ (willingName k).length := by
  unfold willingName
  split
  · decide
  split
  · decide
  split <;> decide

/-- **C99** In a running program, whatever beacons came in, the table is aligned if no peer has 128 bit descriptors, none
a million gigabytes, addresses have two characters and the times print equally long. -/
theorem C99_running_partial (S : Setup) (tables : S.T = shipped) (fs : FS) (w : World) (reach : Reachable S fs w)
    (V : PeerView) (L : Nat) (long : 8 ≤ L) (srt : TextSort) (H : CmdTable) (ne : w.peers ≠ [])
    (known : ∀ p ∈ w.peers, p.maxdesc ≠ "d128" ∧ p.freespace.toNat / 2 ^ 20 < 10 ^ 6 ∧ 2 ≤ p.addr.length ∧
      (utf8 (V.time p.created)).length = L ∧ (utf8 (V.time p.updated)).length = L) (x : String) :
    ∃ text border head line width, cmdPeers V srt H w.peers [x] = [.msg text] ∧
      TableOf text ["IP", "GB", "EID", "Des", "Rx", "Tx", "Created", "Modified"] (peerCells V) w.peers border head
        line ∧
      border.length = width ∧ head.length = width ∧ ∀ p ∈ w.peers, (line p).length = width := by
  refine C99_aligned_partial V L long srt H w.peers ne (fun p hp => ?_) x
  obtain ⟨k1, k2, k3, k4, k5⟩ := known p hp
  obtain ⟨first, rest, _, ⟨_, _, hd, hr, ht⟩, _⟩ := (C66_entries S (by rw [tables]; exact shipped_peerTables)
    (by rw [tables]; exact shipped_shows) fs w reach).2.2 p hp
  rw [tables] at hd hr ht
  rw [getStr_descriptor] at hd
  rw [getStr_rxwilling] at hr
  rw [getStr_txwilling] at ht
  cases hr' : p.canrx
  simp only [Out.ret.injEq] at hd hr ht
  refine ⟨k2, ?_, k3, by rw [← hr]; exact willingName_length _, by rw [← ht]; exact willingName_length _, k4, k5⟩
  rw [← hd] at k1 ⊢
  unfold descNameOf at k1 ⊢
  split
  · decide
  split
  · decide
  split
  · decide
  · rename_i a b c
    rw [if_neg a, if_neg b, if_neg c] at k1
    exact absurd rfl k1

theorem peer_row_long (V : PeerView) (ps : List Peer) (p : Peer) (wide : p.maxdesc = "d128") :
    (tableRow "+" ((peerWidths V ps).map fun n => (n, dashes n))).length <
      (tableRow "|" ((peerWidths V ps).zip (peerCells V p))).length := by
  rw [tableRow_length _ _ fun c hc => by
      obtain ⟨n, _, rfl⟩ := List.mem_map.1 hc
      exact Nat.le_of_eq (dashes_length n)]
  simp only [peerWidths, peerCells, wide]
  generalize (if longest (ps.map fun p => p.eid.length) < 3 then 3 else longest (ps.map fun p => p.eid.length)) = a3
  generalize longest _ = a1
  generalize longest _ = a5
  generalize longest _ = a6
  generalize longest _ = a7
  generalize modifiedWidth V ps = a8
  simp only [List.zip_cons_cons, List.map_cons, List.map_nil, List.zip_nil_left, List.length_cons,
    List.length_nil, List.sum_cons, List.sum_nil]
  simp only [tableRow, String.length_append]
  have h9 : (pad 3 "d128").length = 4 := by decide
  have h1 : "|".length = 1 := by decide
  have h2 : "+".length = 1 := by decide
  have h3 : "\n".length = 1 := by decide
  have g := fun n s => (pad_le n s).1
  have := g a1 p.addr
  have := g 6 (toString (p.freespace.toNat / 1024 / 1024))
  have := g a3 (V.runes.text p.eid)
  have := g a5 p.canrx
  have := g a6 p.cantx
  have := g a7 (V.time p.created)
  have := g a8 (V.time p.updated)
  rw [h9, h1, h2, h3]
  omega

/-- **C99** The line of a peer with 128 bit descriptors is longer than the border, whatever the other peers. -/
theorem C99_counterexample (V : PeerView) (srt : TextSort) (H : CmdTable) (ps : List Peer) (ne : ps ≠ []) (x : String) :
    ∃ text border head line, cmdPeers V srt H ps [x] = [.msg text] ∧
      TableOf text ["IP", "GB", "EID", "Des", "Rx", "Tx", "Created", "Modified"] (peerCells V) ps border head line ∧
      ∀ p ∈ ps, p.maxdesc = "d128" → border.length < (line p).length := by
  have h := tableOf srt (peerWidths V ps) peerHeading (peerCells V) ps
    (tableRow "+" ((peerWidths V ps).map fun n => (n, dashes n))) rfl (fun _ => rfl)
  refine ⟨_, _, _, _, ?_, h, fun p _ wide => peer_row_long V ps p wide⟩
  show (if ps.length = 0 then _ else _) = _
  rw [if_neg fun h => ne (List.length_eq_zero_iff.1 h)]
  rfl

example (V : PeerView) (srt : TextSort) := C99_counterexample V srt [] [⟨"10.0.0.1", 10, [65#8], "d128", "yes", "yes", .zero, .zero⟩]
  (by simp) "peers"

/-- **C97** `peers ?` shows help and usage. -/
theorem C97_peers (V : PeerView) (srt : TextSort) (H : CmdTable) (ps : List Peer) :
    cmdPeers V srt H ps ["peers", "?"] = [.msg (prhelp H "peers"), .msg (prusage H "peers")] := rfl

/-! ## C100 -/

/-- **C100** The table of `Info` lists every transfer of the type asked for once, in order of the lines,
between borders of dashes. Missing: the direction, and aligned columns. -/
theorem C100_lists_partial (R : Runes) (str : UDPAddr → String) (srt : TextSort) (ts : List Transfer) (ttype : String)
    (some : ∃ t ∈ ts, ttype = "" ∨ t.ttype = ttype) :
    ∃ border head line, TableOf (infoText R str srt ts ttype) ["Direct", "Tran Typ", "IP", "Fname"]
      (fun t : Transfer => ["Initiator", t.ttype, str t.peer, R.text t.filename])
      (ts.filter fun t => ttype = "" ∨ t.ttype = ttype) border head line ∧ BorderOf "|" 4 border := by
  obtain ⟨t, ht, hc⟩ := some
  have pos : (ts.filter fun t => ttype = "" ∨ t.ttype = ttype).length > 0 :=
    List.length_pos_of_mem (List.mem_filter.2 ⟨ht, by simpa using hc⟩)
  have h := tableOf srt (tranWidths str (ts.filter fun t => ttype = "" ∨ t.ttype = ttype))
    ["Direct", "Tran Typ", "IP", "Fname"] (tranCells R str) (ts.filter fun t => ttype = "" ∨ t.ttype = ttype)
    (tableRow "|" ((tranWidths str (ts.filter fun t => ttype = "" ∨ t.ttype = ttype)).map fun n => (n, dashes n)))
    rfl (fun _ => rfl)
  have e : infoText R str srt ts ttype = tranTable R str srt (ts.filter fun t => ttype = "" ∨ t.ttype = ttype) :=
    if_pos pos
  rw [e]
  exact ⟨_, _, _, h, borderOf "|" (tranWidths str _)⟩

/-- **C100** If there is no transfer of the type asked for, one line says so and names the type. -/
theorem C100_none (R : Runes) (str : UDPAddr → String) (srt : TextSort) (ts : List Transfer) (ttype : String)
    (none : ∀ t ∈ ts, ttype ≠ "" ∧ t.ttype ≠ ttype) :
    infoText R str srt ts ttype = "No " ++ ttype ++ " transfers currently in progress" := by
  have : (ts.filter fun t => ttype = "" ∨ t.ttype = ttype) = [] := by
    rw [List.filter_eq_nil_iff]
    intro t ht
    simpa using none t ht
  unfold infoText
  simp only [this]
  rfl

example (R : Runes) (str : UDPAddr → String) (srt : TextSort) := C100_none R str srt [] "put" (by simp)

theorem tran_row_long (R : Runes) (str : UDPAddr → String) (ts : List Transfer) (t : Transfer) :
    (tableRow "|" ((tranWidths str ts).map fun n => (n, dashes n))).length + 3 ≤
      (tableRow "|" ((tranWidths str ts).zip (tranCells R str t))).length := by
  rw [tableRow_length _ _ fun c hc => by
      obtain ⟨n, _, rfl⟩ := List.mem_map.1 hc
      exact Nat.le_of_eq (dashes_length n)]
  simp only [tranWidths, tranCells, List.zip_cons_cons, List.map_cons, List.map_nil, List.zip_nil_left, List.length_cons,
    List.length_nil, List.sum_cons, List.sum_nil]
  rw [tableRow, String.length_append, String.length_append]
  have h := tableRow_ge "|" [(8, t.ttype), (longest (ts.map fun t => (utf8 (str t.peer)).length), str t.peer),
    (longest (ts.map fun t => t.filename.length), R.text t.filename)]
  simp only [List.map_cons, List.map_nil, List.length_cons, List.length_nil, List.sum_cons, List.sum_nil] at h
  have h9 : (pad 6 "Initiator").length = 9 := by decide
  have h1 : "|".length = 1 := by decide
  rw [h9, h1] at ⊢
  rw [h1] at h
  omega

/-- **C100** No such table is aligned: every line of a transfer is at least three characters longer than the border.
And the text is the same whoever began the transfers. -/
theorem C100_counterexample (R : Runes) (str : UDPAddr → String) (srt : TextSort) (ts : List Transfer) (ttype : String)
    (some : ∃ t ∈ ts, ttype = "" ∨ t.ttype = ttype) :
    (∃ border head line, TableOf (infoText R str srt ts ttype) ["Direct", "Tran Typ", "IP", "Fname"]
      (fun t : Transfer => ["Initiator", t.ttype, str t.peer, R.text t.filename])
      (ts.filter fun t => ttype = "" ∨ t.ttype = ttype) border head line ∧
      ∀ t, border.length + 3 ≤ (line t).length) ∧
    ∀ began : Transfer → Bool,
      infoText R str srt (ts.map fun t => { t with direction := began t }) ttype = infoText R str srt ts ttype := by
  constructor
  · obtain ⟨t, ht, hc⟩ := some
    have pos : (ts.filter fun t => ttype = "" ∨ t.ttype = ttype).length > 0 :=
      List.length_pos_of_mem (List.mem_filter.2 ⟨ht, by simpa using hc⟩)
    have h := tableOf srt (tranWidths str (ts.filter fun t => ttype = "" ∨ t.ttype = ttype))
      ["Direct", "Tran Typ", "IP", "Fname"] (tranCells R str) (ts.filter fun t => ttype = "" ∨ t.ttype = ttype)
      (tableRow "|" ((tranWidths str (ts.filter fun t => ttype = "" ∨ t.ttype = ttype)).map fun n => (n, dashes n)))
      rfl (fun _ => rfl)
    have e : infoText R str srt ts ttype = tranTable R str srt (ts.filter fun t => ttype = "" ∨ t.ttype = ttype) :=
      if_pos pos
    rw [e]
    exact ⟨_, _, _, h, fun t => tran_row_long R str _ t⟩
  · intro began
    have e : (ts.map fun t => { t with direction := began t }).filter (fun t => ttype = "" ∨ t.ttype = ttype) =
        (ts.filter fun t => ttype = "" ∨ t.ttype = ttype).map fun t => { t with direction := began t } := by
      rw [List.filter_map]
      rfl
    simp only [infoText, e, List.length_map]
    split
    · simp only [tranTable, tranWidths, List.map_map, Function.comp_def, tranCells]
    · rfl

/-! ## Concrete cases -/

/-- Bytes read as they are. -/
def exampleRunes : Runes := ⟨fun b => String.ofList (b.map fun x => Char.ofNat x.toNat), fun b => by simp⟩

/-- Every time prints alike. -/
def exampleView : PeerView := ⟨exampleRunes, fun _ => "Mon Jan  1 00:00:00 2026"⟩

/-- A peer seen once. -/
def examplePeer (addr des : String) : Peer :=
  ⟨addr, 3000000#64, [101#8, 48#8], des, "yes", "no", Timestamp.zero, Timestamp.zero⟩

theorem exampleFits (addr : String) (h : 2 ≤ addr.length) :
    Fits exampleView (utf8 (exampleView.time Timestamp.zero)).length (examplePeer addr "d64") :=
  ⟨show (3000000#64).toNat / 2 ^ 20 < 10 ^ 6 by decide, show "d64".length ≤ 3 by decide, h,
    show 2 ≤ "yes".length by decide, show 2 ≤ "no".length by decide, rfl, rfl⟩

/-- The hypotheses of C99 hold for two peers. -/
example : 8 ≤ (utf8 (exampleView.time Timestamp.zero)).length ∧
    ∀ p ∈ [examplePeer "10.0.0.1" "d64", examplePeer "192.168.0.7" "d64"],
      Fits exampleView (utf8 (exampleView.time Timestamp.zero)).length p := by
  refine ⟨Nat.le_trans (by decide) (length_le_utf8 _), ?_⟩
  intro p hp
  rcases List.mem_cons.1 hp with rfl | hp
  · exact exampleFits _ (by decide)
  · cases List.mem_singleton.1 hp
    exact exampleFits _ (by decide)

/-- A line of the table. -/
example : tableRow "|" [(8, "10.0.0.1"), (6, "2"), (3, "e0")] = "|10.0.0.1|     2| e0|\n" := by decide

end Saratoga
