import Verif.Model.Memory
import Verif.Model.Shipped
import Verif.Lemmas.Bytes
/-!
# C143: a frame that waits is not changed by the datagrams that come after it
-/
namespace Saratoga

/-- What the listener makes of datagrams when each is looked at for itself. -/
def lookedAt (T : Tables) (mtu : Nat) : List RxEvent → List Frame
  | [] => []
  | .take :: es => lookedAt T mtu es
  | .arrive _ dg clock :: es =>
    match listenFrame T clock mtu dg with
    | .ret (.rx f) => f :: lookedAt T mtu es
    | _ => lookedAt T mtu es

/-- The replies it makes to datagrams when each is looked at for itself. -/
def repliedTo (T : Tables) (mtu : Nat) : List RxEvent → List Status
  | [] => []
  | .take :: es => repliedTo T mtu es
  | .arrive _ dg clock :: es =>
    match listenFrame T clock mtu dg with
    | .ret (.tx s) => s :: repliedTo T mtu es
    | _ => repliedTo T mtu es

/-- The listeners an execution speaks of are there. -/
def RxEvent.Among (n : Nat) : RxEvent → Prop
  | .arrive k _ _ => k < n
  | .take => True

/-! ## Memory -/

theorem view_make_old {m : Memory} {s : Slice} (n : Nat) (h : s.arr < m.length) : (m.make n).1.view s = m.view s := by
  unfold Memory.view Memory.make
  simp only [List.getD_eq_getElem?_getD]
  rw [List.getElem?_append_left h]

theorem view_write_other {m : Memory} {s t : Slice} (src : List Byte) (h : t.arr ≠ s.arr) :
    (m.write s src).view t = m.view t := by
  unfold Memory.view Memory.write
  simp only [List.getD_eq_getElem?_getD]
  rw [List.getElem?_modify_ne _ _ (Ne.symm h)]

theorem write_length (m : Memory) (s : Slice) (src : List Byte) : (m.write s src).length = m.length := by
  unfold Memory.write
  rw [List.length_modify]

theorem make_length (m : Memory) (n : Nat) : (m.make n).1.length = m.length + 1 := by
  unfold Memory.make
  simp

/-- What was written into the front of an array is found there. -/
theorem view_write_front {m : Memory} {k len : Nat} {a : List Byte} (src : List Byte) (ha : m[k]? = some a)
    (fits : a.length = len) :
    (m.write ⟨k, 0, len⟩ src).view ⟨k, 0, min len src.length⟩ = src.take len := by
  unfold Memory.view Memory.write
  simp only [List.getD_eq_getElem?_getD]
  rw [List.getElem?_modify_eq, ha]
  simp only [Option.map_eq_map, Option.map_some, Option.getD_some, List.take_zero, List.nil_append, List.drop_zero,
    Nat.zero_add]
  rw [List.take_append_of_le_length (by simp)]
  rw [List.take_of_length_le (by simp)]

theorem write_array {m : Memory} {k len : Nat} {a : List Byte} (src : List Byte) (ha : m[k]? = some a)
    (fits : a.length = len) :
    ∃ b, (m.write ⟨k, 0, len⟩ src)[k]? = some b ∧ b.length = len := by
  unfold Memory.write
  rw [List.getElem?_modify_eq, ha]
  refine ⟨_, rfl, ?_⟩
  simp only [List.take_zero, List.nil_append, Nat.zero_add, List.length_append, List.length_take, List.length_drop]
  omega

/-- A new array, filled. -/
theorem view_make_write (m : Memory) (src : List Byte) :
    (((m.make src.length).1).write (m.make src.length).2 src).view (m.make src.length).2 = src := by
  have := view_write_front (m := (m.make src.length).1) (k := m.length) (len := src.length)
    (a := List.replicate src.length 0) src (by unfold Memory.make; simp) (by simp)
  rw [Nat.min_self, List.take_length] at this
  exact this

/-! ## The invariant -/

/-- The array a held frame has bytes in. -/
def Held.slice : Held → Option Slice
  | .beacon _ => none
  | .request _ s => some s
  | .data _ s => some s
  | .metadata _ s => some s
  | .status _ => none

/-- The frame's bytes are in an array that exists and is not the buffer of one of the `n` listeners. -/
def Held.Apart (n : Nat) (mem : Memory) (h : Held) : Prop := ∀ s, h.slice = some s → n ≤ s.arr ∧ s.arr < mem.length

theorem read_eq {h : Held} {mem mem' : Memory} (same : ∀ s, h.slice = some s → mem'.view s = mem.view s) :
    h.read mem' = h.read mem := by
  cases h with
  | beacon b => rfl
  | status s => rfl
  | request r s => simp only [Held.read]; rw [same s rfl]
  | data r s => simp only [Held.read]; rw [same s rfl]
  | metadata r s => simp only [Held.read]; rw [same s rfl]

/-- Holding a frame: it is found again, its array is new, and the old arrays stay as they are. -/
theorem hold_spec (mem : Memory) (f : Frame) :
    (hold mem f).2.read (hold mem f).1 = f ∧
    (∀ s, (hold mem f).2.slice = some s → s.arr = mem.length ∧ s.arr < (hold mem f).1.length) ∧
    (∀ k, k < mem.length → (hold mem f).1[k]? = mem[k]?) ∧ mem.length ≤ (hold mem f).1.length := by
  have old : ∀ (src : List Byte) k, k < mem.length →
      (((mem.make src.length).1).write (mem.make src.length).2 src)[k]? = mem[k]? := by
    intro src k hk
    unfold Memory.write Memory.make
    simp only
    rw [List.getElem?_modify_ne _ _ (by omega), List.getElem?_append_left hk]
  have len : ∀ src : List Byte, (((mem.make src.length).1).write (mem.make src.length).2 src).length = mem.length + 1 :=
    fun src => by rw [write_length, make_length]
  cases f with
  | beacon b => exact ⟨rfl, (fun s h => by cases h), fun _ _ => rfl, Nat.le_refl _⟩
  | status b => exact ⟨rfl, (fun s h => by cases h), fun _ _ => rfl, Nat.le_refl _⟩
  | request r =>
    refine ⟨?_, ?_, old r.auth, Nat.le_trans (Nat.le_succ _) (Nat.le_of_eq (len r.auth).symm)⟩
    · exact congrArg (fun x => Frame.request { r with auth := x }) (view_make_write mem r.auth)
    · intro s h
      cases h
      exact ⟨rfl, Nat.lt_of_lt_of_eq (Nat.lt_succ_self _) (len r.auth).symm⟩
  | data r =>
    refine ⟨?_, ?_, old r.payload, Nat.le_trans (Nat.le_succ _) (Nat.le_of_eq (len r.payload).symm)⟩
    · exact congrArg (fun x => Frame.data { r with payload := x }) (view_make_write mem r.payload)
    · intro s h
      cases h
      exact ⟨rfl, Nat.lt_of_lt_of_eq (Nat.lt_succ_self _) (len r.payload).symm⟩
  | metadata r =>
    refine ⟨?_, ?_, old r.checksum, Nat.le_trans (Nat.le_succ _) (Nat.le_of_eq (len r.checksum).symm)⟩
    · exact congrArg (fun x => Frame.metadata { r with checksum := x }) (view_make_write mem r.checksum)
    · intro s h
      cases h
      exact ⟨rfl, Nat.lt_of_lt_of_eq (Nat.lt_succ_self _) (len r.checksum).symm⟩

/-- The buffers of the listeners are the first arrays, and no frame has its bytes there. -/
structure Receivers.Sound (mtu n : Nat) (w : Receivers) : Prop where
  bufs : ∀ k, k < n → ∃ a, w.memory[k]? = some a ∧ a.length = mtu + 40
  apart : ∀ h ∈ w.taken ++ w.queue, h.Apart n w.memory

theorem view_of_arrays {m m' : Memory} {s : Slice} (h : m'[s.arr]? = m[s.arr]?) : m'.view s = m.view s := by
  unfold Memory.view
  rw [List.getD_eq_getElem?_getD, List.getD_eq_getElem?_getD, h]

/-- One round: what it puts into the queue reads as the frame looked at for itself, and nothing else changes. -/
theorem arrive_spec {T : Tables} {mtu n k : Nat} {w w' : Receivers} {dg : List Byte} {clock : GoTime}
    (s : w.Sound mtu n) (hk : k < n) (h : w.arrive T mtu k dg clock = .ret w') :
    w'.Sound mtu n ∧ w'.taken = w.taken ∧
    (w'.queue.map (Held.read w'.memory)) = w.queue.map (Held.read w.memory) ++
      (match listenFrame T clock mtu dg with | .ret (.rx f) => [f] | _ => []) ∧
    w'.taken.map (Held.read w'.memory) = w.taken.map (Held.read w.memory) ∧
    w'.replies = w.replies ++ (match listenFrame T clock mtu dg with | .ret (.tx r) => [r] | _ => []) := by
  obtain ⟨a, ha, hlen⟩ := s.bufs k hk
  -- the buffer after reading
  have far : ∀ q ∈ w.taken ++ w.queue, ∀ mem' : Memory,
      (∀ j, j ≠ k → j < w.memory.length → mem'[j]? = w.memory[j]?) → q.read mem' = q.read w.memory := by
    intro q hq mem' same
    refine read_eq fun t ht => view_of_arrays (same _ ?_ ?_)
    · have := (s.apart q hq t ht).1; omega
    · exact (s.apart q hq t ht).2
  have sound : ∀ (mem' : Memory) (queue : List Held) (replies : List Status),
      (∀ j, j ≠ k → j < w.memory.length → mem'[j]? = w.memory[j]?) →
      (∃ b, mem'[k]? = some b ∧ b.length = mtu + 40) → w.memory.length ≤ mem'.length →
      (∀ q ∈ queue, q ∈ w.queue ∨ q.Apart n mem') → (⟨mem', queue, w.taken, replies⟩ : Receivers).Sound mtu n := by
    intro mem' queue replies same own grow new
    constructor
    · intro j hj
      by_cases e : j = k
      · subst e; exact own
      · obtain ⟨b, hb, hbl⟩ := s.bufs j hj
        exact ⟨b, (same j e (List.getElem?_eq_some_iff.1 hb).1).trans hb, hbl⟩
    · intro q hq
      have keep : q ∈ w.taken ++ w.queue → q.Apart n mem' := fun hq t ht =>
        ⟨(s.apart q hq t ht).1, Nat.lt_of_lt_of_le (s.apart q hq t ht).2 grow⟩
      rcases List.mem_append.1 hq with hq | hq
      · exact keep (List.mem_append.2 (.inl hq))
      · rcases new q hq with hq | hq
        · exact keep (List.mem_append.2 (.inr hq))
        · exact hq
  have hm1 : ∀ j, j ≠ k → (w.memory.write ⟨k, 0, mtu + 40⟩ dg)[j]? = w.memory[j]? := by
    intro j e
    unfold Memory.write
    rw [List.getElem?_modify_ne _ _ (Ne.symm e)]
  have own1 := write_array dg ha hlen
  have front := view_write_front dg ha hlen
  have len1 := write_length w.memory ⟨k, 0, mtu + 40⟩ dg
  unfold Receivers.arrive at h
  unfold listenFrame
  simp only [List.length_take] at h ⊢
  generalize hm : w.memory.write ⟨k, 0, mtu + 40⟩ dg = mem1 at *
  by_cases h8 : min (mtu + 40) dg.length < 8
  · rw [if_pos h8] at h ⊢
    cases h
    refine ⟨sound mem1 _ _ (fun j e _ => hm1 j e) own1 (by omega) (fun q hq => .inl hq), rfl, ?_, ?_, by simp⟩
    · simp only [List.append_nil]
      exact List.map_congr_left fun q hq => far q (List.mem_append.2 (.inr hq)) _ (fun j e _ => hm1 j e)
    · exact List.map_congr_left fun q hq => far q (List.mem_append.2 (.inl hq)) _ (fun j e _ => hm1 j e)
  · rw [if_neg h8] at h ⊢
    by_cases hb : ((min (mtu + 40) dg.length : Nat) : Int) > (mtu : Int) - 60
    · rw [if_pos hb] at h ⊢
      cases h
      refine ⟨sound mem1 _ _ (fun j e _ => hm1 j e) own1 (by omega) (fun q hq => .inl hq), rfl, ?_, ?_, by simp⟩
      · simp only [List.append_nil]
        exact List.map_congr_left fun q hq => far q (List.mem_append.2 (.inr hq)) _ (fun j e _ => hm1 j e)
      · exact List.map_congr_left fun q hq => far q (List.mem_append.2 (.inl hq)) _ (fun j e _ => hm1 j e)
    · rw [if_neg hb] at h ⊢
      have hkl : k < mem1.length := by rw [len1]; exact (List.getElem?_eq_some_iff.1 ha).1
      -- the copy
      have cut : (mem1.make (min (mtu + 40) dg.length)).1.view (Slice.upTo ⟨k, 0, mtu + 40⟩ (min (mtu + 40) dg.length)) =
          dg.take (mtu + 40) := by
        rw [view_make_old _ hkl]
        exact front
      have copied := view_make_write mem1 (dg.take (mtu + 40))
      have old2 : ∀ j, j < mem1.length → (((mem1.make (dg.take (mtu + 40)).length).1).write
          (mem1.make (dg.take (mtu + 40)).length).2 (dg.take (mtu + 40)))[j]? = mem1[j]? := by
        intro j hj
        unfold Memory.write Memory.make
        simp only
        rw [List.getElem?_modify_ne _ _ (by omega), List.getElem?_append_left hj]
      have len2 : (((mem1.make (dg.take (mtu + 40)).length).1).write
          (mem1.make (dg.take (mtu + 40)).length).2 (dg.take (mtu + 40))).length = mem1.length + 1 := by
        rw [write_length, make_length]
      rw [List.length_take] at copied old2 len2
      simp only [cut, copied] at h
      generalize hm2 : ((mem1.make (min (mtu + 40) dg.length)).1).write (mem1.make (min (mtu + 40) dg.length)).2
        (dg.take (mtu + 40)) = mem2 at *
      have same2 : ∀ j, j ≠ k → j < w.memory.length → mem2[j]? = w.memory[j]? := fun j e hj =>
        (old2 j (by omega)).trans (hm1 j e)
      have own2 : ∃ b, mem2[k]? = some b ∧ b.length = mtu + 40 := by
        obtain ⟨b, hb, hl⟩ := own1
        exact ⟨b, (old2 k hkl).trans hb, hl⟩
      obtain ⟨header, hh, h⟩ := Out.bind_eq_ret h
      obtain ⟨version, hv, h⟩ := Out.bind_eq_ret h
      obtain ⟨act, hact, h⟩ := Out.bind_eq_ret h
      simp only [hh, hv, Out.ret_bind]
      rw [hact]
      cases act with
      | drop =>
        cases h
        refine ⟨sound mem2 _ _ same2 own2 (by omega) (fun q hq => .inl hq), rfl, ?_, ?_, by simp⟩
        · simp only [List.append_nil]
          exact List.map_congr_left fun q hq => far q (List.mem_append.2 (.inr hq)) _ same2
        · exact List.map_congr_left fun q hq => far q (List.mem_append.2 (.inl hq)) _ same2
      | tx r =>
        cases h
        refine ⟨sound mem2 _ _ same2 own2 (by omega) (fun q hq => .inl hq), rfl, ?_, ?_, by simp⟩
        · simp only [List.append_nil]
          exact List.map_congr_left fun q hq => far q (List.mem_append.2 (.inr hq)) _ same2
        · exact List.map_congr_left fun q hq => far q (List.mem_append.2 (.inl hq)) _ same2
      | rx f =>
        cases h
        obtain ⟨r1, r2, r3, r4⟩ := hold_spec mem2 f
        have same3 : ∀ j, j ≠ k → j < w.memory.length → (hold mem2 f).1[j]? = w.memory[j]? := fun j e hj =>
          (r3 j (by omega)).trans (same2 j e hj)
        refine ⟨sound _ _ _ same3 ?_ (by omega) ?_, rfl, ?_, ?_, by simp⟩
        · obtain ⟨b, hb, hl⟩ := own2
          exact ⟨b, (r3 k (by omega)).trans hb, hl⟩
        · intro q hq
          rcases List.mem_append.1 hq with hq | hq
          · exact .inl hq
          · rw [List.mem_singleton] at hq
            subst hq
            right
            intro t ht
            refine ⟨?_, (r2 t ht).2⟩
            rw [(r2 t ht).1]
            have : n ≤ w.memory.length := by
              cases n with
              | zero => exact Nat.zero_le _
              | succ n =>
                obtain ⟨b, hb, -⟩ := s.bufs n (Nat.lt_succ_self n)
                exact (List.getElem?_eq_some_iff.1 hb).1
            omega
        · simp only [List.map_append, List.map_cons, List.map_nil, r1]
          congr 1
          exact List.map_congr_left fun q hq => far q (List.mem_append.2 (.inr hq)) _ same3
        · exact List.map_congr_left fun q hq => far q (List.mem_append.2 (.inl hq)) _ same3

theorem run_spec {T : Tables} {mtu n : Nat} : ∀ (es : List RxEvent) {w w' : Receivers}, w.Sound mtu n →
    (∀ e ∈ es, e.Among n) → w.run T mtu es = .ret w' →
    (w'.taken ++ w'.queue).map (Held.read w'.memory) =
      (w.taken ++ w.queue).map (Held.read w.memory) ++ lookedAt T mtu es ∧
    w'.replies = w.replies ++ repliedTo T mtu es
  | [], w, w', _, _, h => by cases h; simp [lookedAt, repliedTo]
  | e :: es, w, w', s, among, h => by
    obtain ⟨w1, h1, h2⟩ := Out.bind_eq_ret h
    cases e with
    | take =>
      have same : w1.memory = w.memory ∧ w1.taken ++ w1.queue = w.taken ++ w.queue ∧ w1.replies = w.replies := by
        simp only [Receivers.step] at h1
        split at h1
        · cases h1; exact ⟨rfl, rfl, rfl⟩
        · rename_i q rest hq
          cases h1
          exact ⟨rfl, by rw [hq]; simp, rfl⟩
      have s1 : w1.Sound mtu n := ⟨by rw [same.1]; exact s.bufs, by rw [same.1, same.2.1]; exact s.apart⟩
      have := run_spec es s1 (fun e he => among e (List.mem_cons_of_mem _ he)) h2
      rw [same.1, same.2.1, same.2.2] at this
      exact this
    | arrive k dg clock =>
      obtain ⟨s1, -, q1, t1, r1⟩ := arrive_spec s (among _ List.mem_cons_self) h1
      have := run_spec es s1 (fun e he => among e (List.mem_cons_of_mem _ he)) h2
      rw [this.1, this.2, r1, List.map_append, q1, t1, List.map_append]
      simp only [lookedAt, repliedTo]
      generalize listenFrame T clock mtu dg = x
      constructor
      · rcases x with (_ | _ | _) | _ | _ <;> simp
      · rcases x with (_ | _ | _) | _ | _ <;> simp

theorem run_sound {T : Tables} {mtu n : Nat} : ∀ (es : List RxEvent) {w w' : Receivers}, w.Sound mtu n →
    (∀ e ∈ es, e.Among n) → w.run T mtu es = .ret w' → w'.Sound mtu n
  | [], w, w', s, _, h => by cases h; exact s
  | e :: es, w, w', s, among, h => by
    obtain ⟨w1, h1, h2⟩ := Out.bind_eq_ret h
    refine run_sound es ?_ (fun e he => among e (List.mem_cons_of_mem _ he)) h2
    cases e with
    | take =>
      simp only [Receivers.step] at h1
      split at h1
      · cases h1; exact s
      · rename_i q rest hq
        cases h1
        exact ⟨s.bufs, fun p hp => s.apart p (by rw [hq]; simpa using hp)⟩
    | arrive k dg clock => exact (arrive_spec s (among _ List.mem_cons_self) h1).1

theorem start_sound (mtu n : Nat) : (Receivers.start mtu n).Sound mtu n where
  bufs := fun k hk => ⟨List.replicate (mtu + 40) 0, by simp [Receivers.start, hk], by simp⟩
  apart := fun q hq => by simp [Receivers.start] at hq

/-- **C143** Any number of listeners, each with one buffer for all its datagrams, and the main loop taking packets at any
time: at every later moment the packets taken and those still waiting read, in the memory of that moment, as what the
listener makes of each datagram by itself, in order; and so do the replies. In particular nothing of a longer datagram
before is left in a shorter one. -/
theorem C143_unchanged (T : Tables) (mtu n : Nat) (es : List RxEvent) (among : ∀ e ∈ es, e.Among n) (w : Receivers)
    (h : (Receivers.start mtu n).run T mtu es = .ret w) :
    (w.taken ++ w.queue).map (Held.read w.memory) = lookedAt T mtu es ∧ w.replies = repliedTo T mtu es := by
  have := run_spec es (start_sound mtu n) among h
  simpa [Receivers.start] using this

example : ∃ w, (Receivers.start 80 1).run shipped 80 [.arrive 0 [0x23, 0, 0, 0, 0, 0, 0, 1, 0, 5, 7, 8, 9] ⟨0, 0⟩] = .ret w ∧
    w.queue.length = 1 := ⟨_, rfl, rfl⟩

/-- **C143** And a round goes on exactly when it does for the datagram by itself, so that nothing is hidden in the
condition that the execution comes back. -/
theorem C143_goes_on (T : Tables) (mtu n : Nat) (es : List RxEvent) (among : ∀ e ∈ es, e.Among n) (w : Receivers)
    (h : (Receivers.start mtu n).run T mtu es = .ret w) (k : Nat) (hk : k < n) (dg : List Byte) (clock : GoTime) :
    (w.step T mtu (.arrive k dg clock)).returns ↔ (listenFrame T clock mtu dg).returns := by
  obtain ⟨a, ha, hlen⟩ := (run_sound es (start_sound mtu n) among h).bufs k hk
  have front := view_write_front dg ha hlen
  have len1 := write_length w.memory ⟨k, 0, mtu + 40⟩ dg
  simp only [Receivers.step]
  unfold Receivers.arrive listenFrame
  simp only [List.length_take]
  generalize hm : w.memory.write ⟨k, 0, mtu + 40⟩ dg = mem1 at *
  by_cases h8 : min (mtu + 40) dg.length < 8
  · rw [if_pos h8, if_pos h8]
    simp [Out.returns]
  · rw [if_neg h8, if_neg h8]
    by_cases hb : ((min (mtu + 40) dg.length : Nat) : Int) > (mtu : Int) - 60
    · rw [if_pos hb, if_pos hb]
      simp [Out.returns]
    · rw [if_neg hb, if_neg hb]
      have hkl : k < mem1.length := by rw [len1]; exact (List.getElem?_eq_some_iff.1 ha).1
      have cut : (mem1.make (min (mtu + 40) dg.length)).1.view (Slice.upTo ⟨k, 0, mtu + 40⟩ (min (mtu + 40) dg.length)) =
          dg.take (mtu + 40) := by
        rw [view_make_old _ hkl]
        exact front
      have copied := view_make_write mem1 (dg.take (mtu + 40))
      rw [List.length_take] at copied
      simp only [cut, copied]
      cases readWord (dg.take (mtu + 40)) 0 with
      | fatal => exact Iff.rfl
      | panic => exact Iff.rfl
      | ret header =>
        simp only [Out.ret_bind]
        cases getStr T header "version" with
        | fatal => exact Iff.rfl
        | panic => exact Iff.rfl
        | ret version =>
          simp only [Out.ret_bind]
          generalize (if version ≠ "v1" then listenReply T clock "errcode=badpacket" ⟨0, 0, 0, []⟩
            else listenTyped T clock header (dg.take (mtu + 40))) = x
          rcases x with (_ | _ | _) | _ | _ <;> exact Iff.rfl

/-- A data frame with three bytes and after it one with a single byte, through the same buffer: both are as they were
sent. -/
example (clock : GoTime) : (match (Receivers.start 80 1).run shipped 80
      [.arrive 0 [0x23, 0, 0, 0, 0, 0, 0, 1, 0, 5, 7, 8, 9] clock, .take,
        .arrive 0 [0x23, 0, 0, 0, 0, 0, 0, 2, 0, 6, 4] clock] with
      | .ret w => (w.taken.map (Held.read w.memory), w.queue.map (Held.read w.memory))
      | _ => ([], [])) =
    ([.data { Data.zero with header := 0x23000000, session := 1, offset := 5, payload := [7, 8, 9] }],
      [.data { Data.zero with header := 0x23000000, session := 2, offset := 6, payload := [4] }]) := by
  rfl

end Saratoga
