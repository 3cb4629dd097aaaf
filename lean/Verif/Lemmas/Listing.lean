import Verif.Model.Listing
import Verif.Lemmas.Peers
/-! # Helper lemmas for the tables -/
namespace Saratoga

theorem toList_loop_length (b : ByteArray) (i : Nat) (r : List UInt8) :
    (ByteArray.toList.loop b i r).length = b.size - i + r.length := by
  unfold ByteArray.toList.loop
  split
  · rw [toList_loop_length b (i + 1) _, List.length_cons]; omega
  · rw [List.length_reverse]; omega
termination_by b.size - i

theorem utf8_length (s : String) : (utf8 s).length = s.utf8ByteSize := by
  unfold utf8
  rw [List.length_map]
  show (ByteArray.toList.loop s.toByteArray 0 []).length = _
  rw [toList_loop_length]
  simp

theorem utf8Encode_size : ∀ l : List Char, l.length ≤ (l.utf8Encode).size
  | [] => by simp
  | c :: l => by
    have h := utf8Encode_size l
    have e : (c :: l).utf8Encode = [c].utf8Encode ++ l.utf8Encode := by rw [← List.utf8Encode_append]; rfl
    have := c.utf8Size_pos
    rw [e, ByteArray.size_append, List.length_cons]
    have : [c].utf8Encode.size = c.utf8Size := by simp [List.utf8Encode_singleton]
    omega

/-- A character takes at least one byte. -/
theorem length_le_utf8 (s : String) : s.length ≤ (utf8 s).length := by
  rw [utf8_length, ← String.size_toByteArray, ← String.utf8Encode_toList]
  exact utf8Encode_size s.toList

theorem longest_from (l : List Nat) (m : Nat) :
    m ≤ l.foldl (fun m n => if n > m then n else m) m ∧
    ∀ n ∈ l, n ≤ l.foldl (fun m n => if n > m then n else m) m := by
  induction l generalizing m with
  | nil => exact ⟨Nat.le_refl _, fun _ h => by cases h⟩
  | cons a l ih =>
    rw [List.foldl_cons]
    obtain ⟨h1, h2⟩ := ih (if a > m then a else m)
    have : m ≤ (if a > m then a else m) ∧ a ≤ (if a > m then a else m) := by split <;> omega
    refine ⟨Nat.le_trans this.1 h1, fun n hn => ?_⟩
    rcases List.mem_cons.1 hn with rfl | hn
    · exact Nat.le_trans this.2 h1
    · exact h2 n hn

theorem le_longest {l : List Nat} {n : Nat} (h : n ∈ l) : n ≤ longest l := (longest_from l 0).2 n h

theorem modifiedWidth_same (V : PeerView) (ps : List Peer) (L : Nat)
    (same : ∀ p ∈ ps, (utf8 (V.time p.created)).length = L ∧ (utf8 (V.time p.updated)).length = L) :
    ∀ m ≤ L, ps.foldl (fun m p => if (utf8 (V.time p.created)).length > m then (utf8 (V.time p.updated)).length
      else m) m = if ps = [] then m else L := by
  induction ps with
  | nil => intro m _; rfl
  | cons p ps ih =>
    intro m hm
    rw [List.foldl_cons, (same p (List.mem_cons_self ..)).1, (same p (List.mem_cons_self ..)).2,
      ih (fun q hq => same q (List.mem_cons_of_mem _ hq)) _ (by split <;> omega), if_neg (List.cons_ne_nil _ _)]
    split
    · split <;> omega
    · rfl

theorem pad_length (n : Nat) (s : String) (h : s.length ≤ n) : (pad n s).length = n := by
  unfold pad
  rw [String.length_append, String.length_ofList, List.length_replicate]; omega

theorem pad_le (n : Nat) (s : String) : n ≤ (pad n s).length ∧ s.length ≤ (pad n s).length := by
  unfold pad
  rw [String.length_append, String.length_ofList, List.length_replicate]; omega

theorem dashes_length (n : Nat) : (dashes n).length = n := by
  unfold dashes; rw [String.length_ofList, List.length_replicate]

/-- The width of a line all of whose cells fit. -/
theorem tableRow_length (mark : String) (cells : List (Nat × String)) (fit : ∀ c ∈ cells, c.2.length ≤ c.1) :
    (tableRow mark cells).length = mark.length * (cells.length + 1) + (cells.map Prod.fst).sum + 1 := by
  induction cells with
  | nil => rw [tableRow, String.length_append]; simp; rfl
  | cons c cells ih =>
    obtain ⟨n, s⟩ := c
    rw [tableRow, String.length_append, String.length_append, pad_length n s (fit (n, s) (List.mem_cons_self ..)),
      ih fun c hc => fit c (List.mem_cons_of_mem _ hc)]
    simp only [List.length_cons, List.map_cons, List.sum_cons, Nat.mul_add]
    omega

theorem tableRow_ge (mark : String) (cells : List (Nat × String)) :
    mark.length * (cells.length + 1) + (cells.map Prod.fst).sum + 1 ≤ (tableRow mark cells).length := by
  induction cells with
  | nil => rw [tableRow, String.length_append]; simp; decide
  | cons c cells ih =>
    obtain ⟨n, s⟩ := c
    have := (pad_le n s).1
    rw [tableRow, String.length_append, String.length_append]
    simp only [List.length_cons, List.map_cons, List.sum_cons, Nat.mul_add] at ih ⊢
    omega

end Saratoga
