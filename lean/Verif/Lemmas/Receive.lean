import Verif.Spec.Receive
import Verif.Lemmas.MainLoop
namespace Saratoga

/-- Forgetting the lines. -/
def hushed {α β : Type} (x : Out (α × β)) : Out α := x >>= fun p => .ret p.1

theorem replySays_hushed (T : Tables) (clock : GoTime) (text : String) (info : Sinfo) (b a : List Said) :
    hushed (replySays T clock text info b a) = listenReply T clock text info := by
  unfold hushed replySays listenReply
  cases Status.new T clock Status.zero text info with
  | ret p => obtain ⟨st, e⟩ := p; cases e <;> rfl
  | fatal => rfl
  | panic => rfl

theorem badFrameSays_hushed (T : Tables) (clock : GoTime) (h s : BitVec 32) (pr : BitVec 64) (b : List Said)
    (t : Told) : hushed (badFrameSays T clock h s pr b t) = badFrame T clock h s pr := by
  unfold badFrameSays badFrame
  cases getStr T h "descriptor" with
  | ret d => exact replySays_hushed T clock _ _ _ _
  | fatal => rfl
  | panic => rfl

theorem typedSays_hushed (T : Tables) (clock : GoTime) (h : BitVec 32) (f : List Byte) (a : UDPAddr) :
    hushed (typedSays T clock h f a) = listenTyped T clock h f := by
  unfold typedSays listenTyped
  cases getStr T h "frametype" with
  | fatal => rfl
  | panic => rfl
  | ret ft =>
    simp only [Out.ret_bind]
    split
    · cases Beacon.zero.decode T f with
      | ret p => obtain ⟨b, e⟩ := p; cases e <;> rfl
      | fatal => rfl
      | panic => rfl
    split
    · cases Request.zero.decode f with
      | ret p => obtain ⟨b, e⟩ := p; cases e <;> rfl
      | fatal => rfl
      | panic => rfl
    split
    · cases Data.zero.decode T f with
      | ret p =>
        obtain ⟨b, e⟩ := p
        cases e with
        | none => rfl
        | some e => exact badFrameSays_hushed T clock _ _ _ _ _
      | fatal => rfl
      | panic => rfl
    split
    · cases MetaData.zero.decode T f with
      | ret p =>
        obtain ⟨b, e⟩ := p
        cases e with
        | none => rfl
        | some e =>
          simp only [Out.ret_bind]
          cases readWord f 4 with
          | ret s => exact badFrameSays_hushed T clock _ _ _ _ _
          | fatal => rfl
          | panic => rfl
      | fatal => rfl
      | panic => rfl
    split
    · cases Status.zero.decode T f with
      | ret p =>
        obtain ⟨b, e⟩ := p
        cases e with
        | none =>
          simp only [Out.ret_bind]
          cases b.shortPrint T with
          | ret u =>
            simp only [Out.ret_bind]
            cases b.print T <;> rfl
          | fatal => rfl
          | panic => rfl
        | some e =>
          simp only [Out.ret_bind]
          cases readWord f 4 with
          | ret s => exact badFrameSays_hushed T clock _ _ _ _ _
          | fatal => rfl
          | panic => rfl
      | fatal => rfl
      | panic => rfl
    · rfl

theorem listenSays_hushed (T : Tables) (clock : GoTime) (mtu : Nat) (dg : List Byte) (a : UDPAddr) :
    hushed (listenSays T clock mtu dg a) = listenFrame T clock mtu dg := by
  unfold listenSays listenFrame
  simp only
  split
  · rfl
  split
  · rfl
  · cases readWord (dg.take (mtu + 40)) 0 with
    | fatal => rfl
    | panic => rfl
    | ret h =>
      simp only [Out.ret_bind]
      cases getStr T h "version" with
      | fatal => rfl
      | panic => rfl
      | ret v =>
        simp only [Out.ret_bind]
        split
        · exact replySays_hushed T clock _ _ _ _
        · exact typedSays_hushed T clock _ _ _

theorem answerSays_hushed (T : Tables) (clock : GoTime) (fs : FS) (tr : List RxTran) (text : String) (r : Bool)
    (b : List Told) : hushed (answerSays T clock fs tr text r b) = answerWith T clock fs tr text r := by
  unfold hushed answerSays answerWith
  cases Status.new T clock Status.zero text ⟨0, 0, 0, []⟩ with
  | ret p => obtain ⟨st, e⟩ := p; cases e <;> rfl
  | fatal => rfl
  | panic => rfl

theorem startSays_hushed (T : Tables) (clock : GoTime) (fs : FS) (tr : List RxTran) (r : Request) (tt : String)
    (a : UDPAddr) : hushed (startSays T clock fs tr r tt a) = startTran T clock fs tr r tt a := by
  unfold startSays startTran
  cases Timestamp.zero.now T "epoch_2000_32" clock with
  | ret p => obtain ⟨ts, e⟩ := p; exact answerSays_hushed T clock _ _ _ _ _
  | fatal => rfl
  | panic => rfl

theorem addRxSays_hushed (T : Tables) (clock : GoTime) (sardir : List Byte) (fs : FS) (tr : List RxTran)
    (r : Request) (a : UDPAddr) :
    hushed (addRxSays T clock sardir fs tr r a) = addRxTran T clock sardir fs tr r a := by
  unfold addRxSays addRxTran
  have get : ∀ (f : String) (k : String → Out (TranEnd × List Told)) (k' : String → Out TranEnd),
      (∀ v, hushed (k v) = k' v) → hushed (getStr T r.header f >>= k) = getStr T r.header f >>= k' := by
    intro f k k' h
    cases getStr T r.header f with
    | ret v => exact h v
    | fatal => rfl
    | panic => rfl
  have ite : ∀ (c : Prop) [Decidable c] (a b : Out (TranEnd × List Told)) (a' b' : Out TranEnd),
      hushed a = a' → hushed b = b' → hushed (if c then a else b) = if c then a' else b' := by
    intro c _ a b a' b' h1 h2
    by_cases hc : c
    · rw [if_pos hc, if_pos hc]; exact h1
    · rw [if_neg hc, if_neg hc]; exact h2
  have ans := fun fs tr text r b => answerSays_hushed T clock fs tr text r b
  have go := fun tt => startSays_hushed T clock fs tr r tt a
  apply get; intro ttype
  apply get; intro version
  apply ite _ _ _ _ _ (ans _ _ _ _ _)
  apply get; intro udplite
  apply ite _ _ _ _ _ (ans _ _ _ _ _)
  apply get; intro stream
  apply ite _ _ _ _ _ (ans _ _ _ _ _)
  apply get; intro rxw
  apply ite _ _ _ _ _ (ans _ _ _ _ _)
  apply get; intro txw
  apply ite _ _ _ _ _ (ans _ _ _ _ _)
  apply ite
  · apply ite _ _ _ _ _ (ans _ _ _ _ _)
    exact ite _ _ _ _ _ (ans _ _ _ _ _) (go _)
  apply ite
  · apply ite _ _ _ _ _ (ans _ _ _ _ _)
    cases fileRm sardir fs r.fname with
    | mk fs' e => cases e <;> exact ans _ _ _ _ _
  apply ite
  · apply ite _ _ _ _ _ (ans _ _ _ _ _)
    exact ite _ _ _ _ _ (ans _ _ _ _ _) (go _)
  · exact ans _ _ _ _ _

/-- The lines only the listener prints. -/
def Told.ofListener : Told → Bool
  | .readFailed => true
  | .tooShort _ => true
  | .tooLong _ _ => true
  | .otherVersion _ => true
  | .cannotReply => true
  | .badBeacon _ => true
  | .badRequest _ => true
  | .dataLength _ => true
  | .badData _ _ => true
  | .badMetadata _ _ => true
  | .badStatus _ _ => true
  | .statusShort _ => true
  | .statusLong _ => true
  | .unknownType _ => true
  | _ => false

/-- The lines only the handler of requests prints. -/
def Told.ofHandler : Told → Bool
  | .cannotAnswer => true
  | .udplite => true
  | .streams => true
  | .rxInvalid => true
  | .txInvalid => true
  | .rxUnwilling _ => true
  | .txUnwilling _ => true
  | .missing _ _ => true
  | .notRemoved _ => true
  | .present _ _ => true
  | .unknownRequest => true
  | _ => false

/-- What a call prints satisfies `P`. -/
def PrintsOnly {α β : Type} (P : β → Prop) (x : Out (α × List β)) : Prop := ∀ a ls, x = .ret (a, ls) → ∀ l ∈ ls, P l

theorem prints_ret {α β : Type} {P : β → Prop} {a : α} {ls : List β} (h : ∀ l ∈ ls, P l) :
    PrintsOnly P (.ret (a, ls)) := by
  intro a' ls' e; cases e; exact h

theorem prints_bind {α β γ : Type} {P : β → Prop} {x : Out γ} {f : γ → Out (α × List β)}
    (h : ∀ c, PrintsOnly P (f c)) : PrintsOnly P (x >>= f) := by
  intro a ls e
  obtain ⟨c, _, e⟩ := Out.bind_eq_ret e
  exact h c a ls e

theorem prints_ite {α β : Type} {P : β → Prop} {c : Prop} [Decidable c] {x y : Out (α × List β)}
    (hx : PrintsOnly P x) (hy : PrintsOnly P y) : PrintsOnly P (if c then x else y) := by
  split
  · exact hx
  · exact hy

theorem replySays_prints {P : Said → Prop} {T : Tables} {clock : GoTime} {text : String} {info : Sinfo}
    {b a : List Said} (hb : ∀ l ∈ b, P l) (ha : ∀ l ∈ a, P l) (hc : P ⟨.err, .cannotReply⟩) :
    PrintsOnly P (replySays T clock text info b a) := by
  unfold replySays
  apply prints_bind
  rintro ⟨st, e⟩
  cases e with
  | none =>
    refine prints_ret fun l hl => ?_
    rcases List.mem_append.1 hl with h | h
    · exact hb l h
    · exact ha l h
  | some e =>
    refine prints_ret fun l hl => ?_
    rcases List.mem_append.1 hl with h | h
    · exact hb l h
    · rw [List.mem_singleton.1 h]; exact hc

theorem listenSays_prints (T : Tables) (clock : GoTime) (mtu : Nat) (dg : List Byte) (a : UDPAddr) :
    PrintsOnly (fun l => l.told.ofListener = true) (listenSays T clock mtu dg a) := by
  unfold listenSays
  refine prints_ite (prints_ret (by simp [Told.ofListener])) (prints_ite (prints_ret (by simp [Told.ofListener])) ?_)
  refine prints_bind fun h => prints_bind fun v => prints_ite
    (replySays_prints (by simp [Told.ofListener]) (by simp) rfl) ?_
  unfold typedSays
  have bad : ∀ (h s : BitVec 32) (pr : BitVec 64) (b : List Said) (t : Told), (∀ l ∈ b, l.told.ofListener = true) →
      t.ofListener = true → PrintsOnly (fun l => l.told.ofListener = true) (badFrameSays T clock h s pr b t) := by
    intro h s pr b t hb ht
    unfold badFrameSays
    exact prints_bind fun d => replySays_prints hb (by simpa using ht) rfl
  refine prints_bind fun ft => prints_ite (prints_bind ?_) (prints_ite (prints_bind ?_) (prints_ite (prints_bind ?_)
    (prints_ite (prints_bind ?_) (prints_ite (prints_bind ?_) (prints_ret (by simp [Told.ofListener]))))))
  · rintro ⟨b, e⟩
    cases e <;> exact prints_ret (by simp [Told.ofListener])
  · rintro ⟨b, e⟩
    cases e <;> exact prints_ret (by simp [Told.ofListener])
  · rintro ⟨b, e⟩
    cases e
    · exact prints_ret (by simp [Told.ofListener])
    · exact bad _ _ _ _ _ (by simp [Told.ofListener]) rfl
  · rintro ⟨b, e⟩
    cases e
    · exact prints_ret (by simp [Told.ofListener])
    · exact prints_bind fun s => bad _ _ _ _ _ (by simp) rfl
  · rintro ⟨b, e⟩
    cases e
    · exact prints_bind fun _ => prints_bind fun _ => prints_ret (by simp [Told.ofListener])
    · exact prints_bind fun s => bad _ _ _ _ _ (by simp) rfl

theorem addRxSays_prints (T : Tables) (clock : GoTime) (sardir : List Byte) (fs : FS) (tr : List RxTran)
    (r : Request) (a : UDPAddr) :
    PrintsOnly (fun t => t.ofHandler = true) (addRxSays T clock sardir fs tr r a) := by
  have ans : ∀ fs tr text res b, (∀ t ∈ b, t.ofHandler = true) →
      PrintsOnly (fun t => t.ofHandler = true) (answerSays T clock fs tr text res b) := by
    intro fs tr text res b hb
    unfold answerSays
    apply prints_bind
    rintro ⟨st, e⟩
    cases e with
    | none => exact prints_ret hb
    | some e =>
      refine prints_ret fun l hl => ?_
      rcases List.mem_append.1 hl with h | h
      · exact hb l h
      · rw [List.mem_singleton.1 h]; rfl
  have go : ∀ tt, PrintsOnly (fun t => t.ofHandler = true) (startSays T clock fs tr r tt a) := by
    intro tt
    unfold startSays
    exact prints_bind fun _ => ans _ _ _ _ _ (by simp)
  unfold addRxSays
  refine prints_bind fun ttype => prints_bind fun v => prints_ite (ans _ _ _ _ _ (by simp)) ?_
  refine prints_bind fun u => prints_ite (ans _ _ _ _ _ (by simp [Told.ofHandler])) ?_
  refine prints_bind fun u => prints_ite (ans _ _ _ _ _ (by simp [Told.ofHandler])) ?_
  refine prints_bind fun u => prints_ite (ans _ _ _ _ _ (by simp [Told.ofHandler])) ?_
  refine prints_bind fun u => prints_ite (ans _ _ _ _ _ (by simp [Told.ofHandler])) ?_
  refine prints_ite (prints_ite (ans _ _ _ _ _ (by simp [Told.ofHandler]))
    (prints_ite (ans _ _ _ _ _ (by simp [Told.ofHandler])) (go _))) (prints_ite ?_ (prints_ite
    (prints_ite (ans _ _ _ _ _ (by simp [Told.ofHandler]))
    (prints_ite (ans _ _ _ _ _ (by simp [Told.ofHandler])) (go _))) (ans _ _ _ _ _ (by simp [Told.ofHandler]))))
  refine prints_ite (ans _ _ _ _ _ (by simp [Told.ofHandler])) ?_
  cases fileRm sardir fs r.fname with
  | mk fs' e => cases e <;> exact ans _ _ _ _ _ (by simp [Told.ofHandler])

/-- A transfer is reported as new only if an answer was put on `tx`. -/
theorem addRxSays_sent {T : Tables} {clock : GoTime} {sardir : List Byte} {fs : FS} {tr : List RxTran}
    {r : Request} {a : UDPAddr} {e : TranEnd} {told : List Told}
    (h : addRxSays T clock sardir fs tr r a = .ret (e, told)) : ¬ (e.sent = none ∧ e.result = true) := by
  have h' : addRxTran T clock sardir fs tr r a = .ret e := by
    rw [← addRxSays_hushed, h]; rfl
  let Q : Out TranEnd → Prop := fun x => ∀ e, x = .ret e → ¬ (e.sent = none ∧ e.result = true)
  have ans : ∀ fs tr text res, Q (answerWith T clock fs tr text res) := by
    intro fs tr text res e he
    unfold answerWith at he
    obtain ⟨⟨st, x⟩, _, he⟩ := Out.bind_eq_ret he
    cases x with
    | none => cases he; simp
    | some x => cases he; simp
  have bind : ∀ {γ : Type} (x : Out γ) (f : γ → Out TranEnd), (∀ c, Q (f c)) → Q (x >>= f) := by
    intro γ x f hf e he
    obtain ⟨c, _, he⟩ := Out.bind_eq_ret he
    exact hf c e he
  have ite : ∀ (c : Prop) [Decidable c] (x y : Out TranEnd), Q x → Q y → Q (if c then x else y) := by
    intro c _ x y hx hy
    split
    · exact hx
    · exact hy
  have go : ∀ tt, Q (startTran T clock fs tr r tt a) := fun tt => bind _ _ fun _ => ans _ _ _ _
  have all : Q (addRxTran T clock sardir fs tr r a) := by
    refine bind _ _ fun ttype => bind _ _ fun v => ite _ _ _ (ans _ _ _ _) ?_
    refine bind _ _ fun u => ite _ _ _ (ans _ _ _ _) (bind _ _ fun u => ite _ _ _ (ans _ _ _ _) ?_)
    refine bind _ _ fun u => ite _ _ _ (ans _ _ _ _) (bind _ _ fun u => ite _ _ _ (ans _ _ _ _) ?_)
    refine ite _ _ _ (ite _ _ _ (ans _ _ _ _) (ite _ _ _ (ans _ _ _ _) (go _))) (ite _ _ _ ?_
      (ite _ _ _ (ite _ _ _ (ans _ _ _ _) (ite _ _ _ (ans _ _ _ _) (go _))) (ans _ _ _ _)))
    refine ite _ _ _ (ans _ _ _ _) ?_
    cases fileRm sardir fs r.fname with
    | mk fs' e => cases e <;> exact ans _ _ _ _
  exact all e h'

/-- An answer with the shipped reply texts succeeds. -/
theorem replySays_new {T : Tables} {clock : GoTime} {text : String} {info : Sinfo} {b a : List Said} {st : Status}
    (h : listenReply T clock text info = .ret (.tx st)) :
    replySays T clock text info b a = .ret (.tx st, b ++ a) := by
  unfold replySays
  unfold listenReply at h
  cases hn : Status.new T clock Status.zero text info with
  | ret p =>
    obtain ⟨x, e⟩ := p
    rw [hn] at h
    cases e with
    | none => cases h; rfl
    | some e => cases h
  | fatal => rw [hn] at h; cases h
  | panic => rw [hn] at h; cases h

theorem badFrameSays_new (clock : GoTime) (h s : BitVec 32) (pr : BitVec 64) (b : List Said) (t : Told) :
    ∃ st, badFrameSays shipped clock h s pr b t = .ret (.tx st, b ++ [⟨.err, t⟩]) ∧ st.session = s := by
  obtain ⟨st, h1, h2, _⟩ := badFrame_eq shipped_reply clock (header := h) (session := s)
    (progress := pr) (getStr_descriptor h) (descNameOf_mem _)
  refine ⟨st, ?_, h2.session⟩
  unfold badFrame at h1
  unfold badFrameSays
  rw [getStr_descriptor, Out.ret_bind] at h1 ⊢
  exact replySays_new h1

theorem spoken_append (S : Setup) (k : Spoken) (as bs : List Action) :
    k.run S (as ++ bs) = (k.run S as).bind fun k => k.run S bs := by
  induction as generalizing k with
  | nil => rfl
  | cons a as ih =>
    show (k.step S a).bind (fun k => k.run S (as ++ bs)) = ((k.step S a).bind fun k => k.run S as).bind _
    cases k.step S a with
    | none => rfl
    | some k1 => exact ih k1

/-- Induction over executions. -/
theorem spoken_induction {S : Setup} {P : Spoken → Prop}
    (step : ∀ k a w, P k → k.world.step S a = some w → P ⟨w, k.lines ++ k.world.says S a⟩) :
    ∀ (acts : List Action) {k k' : Spoken}, P k → k.run S acts = some k' → P k'
  | [], k, k', h, hr => by cases hr; exact h
  | a :: as, k, k', h, hr => by
    unfold Spoken.run at hr
    cases h1 : k.world.step S a with
    | none => unfold Spoken.step at hr; rw [h1] at hr; cases hr
    | some w =>
      unfold Spoken.step at hr
      rw [h1] at hr
      exact spoken_induction step as (step _ _ _ h h1) hr

end Saratoga
