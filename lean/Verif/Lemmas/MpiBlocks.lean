import Verif.Lemmas.MpiRounds

/-! Sequences of blocks, each a count of ranks followed by rounds of messages. -/

namespace Verif.Lemmas.Mpi

/-- The kinds of the phases of a block: barrier, accumulation, messages with these tags. -/
def blockKinds (tags : List ℕ) : List Kind := .bar :: .acc :: tags.map .comm
/-- The kinds of the phases of a sequence of blocks. -/
def kindsOf (bs : List (List ℕ)) : List Kind := bs.flatMap blockKinds

theorem kindsOf_append (a b : List (List ℕ)) : kindsOf (a ++ b) = kindsOf a ++ kindsOf b := List.flatMap_append
theorem kindsOf_cons (t : List ℕ) (b : List (List ℕ)) : kindsOf (t :: b) = blockKinds t ++ kindsOf b := List.flatMap_cons
theorem length_blockKinds (t : List ℕ) : (blockKinds t).length = t.length + 2 := by simp [blockKinds]

/-- The number of barriers. -/
def bars (ks : List Kind) : ℕ := (ks.filter Kind.isBar).length

theorem barsBefore_append (a b : List Kind) (i : ℕ) : barsBefore (a ++ b) (a.length + i) = bars a + barsBefore b i := by
  unfold barsBefore bars
  rw [List.take_length_add_append, List.filter_append, List.length_append]

theorem barsBefore_left (a b : List Kind) {i : ℕ} (h : i ≤ a.length) : barsBefore (a ++ b) i = barsBefore a i := by
  unfold barsBefore
  rw [List.take_append_of_le_length h]

theorem bars_block (t : List ℕ) : bars (blockKinds t) = 2 := by
  unfold bars blockKinds
  simp only [List.filter_cons, Kind.isBar, if_true]
  rw [List.filter_eq_nil_iff.mpr]
  · rfl
  · intro k hk
    obtain ⟨x, _, rfl⟩ := List.mem_map.mp hk
    simp [Kind.isBar]

theorem barsBefore_block (t : List ℕ) {i : ℕ} (h : 2 ≤ i) : barsBefore (blockKinds t) i = 2 := by
  unfold barsBefore blockKinds
  obtain ⟨j, rfl⟩ : ∃ j, i = j + 2 := ⟨i - 2, by omega⟩
  simp only [List.take_succ_cons, List.filter_cons, Kind.isBar, if_true]
  rw [List.filter_eq_nil_iff.mpr]
  · rfl
  · intro k hk
    obtain ⟨x, _, rfl⟩ := List.mem_map.mp (List.mem_of_mem_take hk)
    simp [Kind.isBar]

theorem bars_even (bs : List (List ℕ)) : bars (kindsOf bs) % 2 = 0 := by
  induction bs with
  | nil => rfl
  | cons t bs ih =>
    have : bars (kindsOf (t :: bs)) = bars (blockKinds t) + bars (kindsOf bs) := by
      rw [kindsOf_cons]; unfold bars; rw [List.filter_append, List.length_append]
    rw [this, bars_block]; omega

/-- Accumulations happen after an odd number of barriers. -/
theorem acc_odd (bs : List (List ℕ)) : ∀ q, (kindsOf bs)[q]? = some .acc → barsBefore (kindsOf bs) q % 2 = 1 := by
  induction bs with
  | nil => intro q h; simp [kindsOf] at h
  | cons t bs ih =>
    intro q h
    rw [kindsOf_cons] at h ⊢
    by_cases hq : q < (blockKinds t).length
    · rw [List.getElem?_append_left hq] at h
      rw [barsBefore_left _ _ hq.le]
      match q with
      | 0 => simp [blockKinds] at h
      | 1 => rfl
      | q + 2 => simp [blockKinds] at h
    · obtain ⟨j, rfl⟩ : ∃ j, q = (blockKinds t).length + j := ⟨q - (blockKinds t).length, by omega⟩
      rw [List.getElem?_append_right (by omega), Nat.add_sub_cancel_left] at h
      rw [barsBefore_append, bars_block]
      have := ih j h
      omega

theorem quietB_even (bs : List (List ℕ)) (p : ℕ) (h : barsBefore (kindsOf bs) p % 2 = 0) : quietB (kindsOf bs) p = true := by
  simp only [quietB, List.all_eq_true, List.mem_range, decide_eq_true_eq]
  intro q _ hq hacc
  have := acc_odd bs q hacc
  omega

variable (a : List (List ℕ)) (t : List ℕ) (b : List (List ℕ))

theorem quiet_block_start : quietB (kindsOf (a ++ t :: b)) (kindsOf a).length = true := by
  refine quietB_even _ _ ?_
  have := barsBefore_append (kindsOf a) (kindsOf (t :: b)) 0
  rw [Nat.add_zero] at this
  rw [kindsOf_append, this]
  have := bars_even a
  have : barsBefore (kindsOf (t :: b)) 0 = 0 := by simp [barsBefore]
  omega

theorem quiet_block_msgs : quietB (kindsOf (a ++ t :: b)) ((kindsOf a).length + 2) = true := by
  refine quietB_even _ _ ?_
  rw [kindsOf_append, barsBefore_append, kindsOf_cons, barsBefore_left _ _ (by rw [length_blockKinds]; omega), barsBefore_block t le_rfl]
  have := bars_even a
  omega

/-- The first tag of a block is used once in the block. -/
theorem any_block (x : ℕ) (hx : x ∉ t) : anyB (kindsOf (a ++ (x :: t) :: b)) ((kindsOf a).length + 2) x = true := by
  simp only [anyB, List.all_eq_true, List.mem_range, decide_eq_true_eq]
  intro q hq hpq hbars hk
  have hp : barsBefore (kindsOf (a ++ (x :: t) :: b)) ((kindsOf a).length + 2) = bars (kindsOf a) + 2 := by
    rw [kindsOf_append, barsBefore_append, kindsOf_cons, barsBefore_left _ _ (by rw [length_blockKinds]; omega), barsBefore_block _ le_rfl]
  rw [hp] at hbars
  obtain ⟨j, rfl⟩ : ∃ j, q = (kindsOf a).length + j := ⟨q - (kindsOf a).length, by omega⟩
  rw [kindsOf_append, barsBefore_append, kindsOf_cons] at hbars
  rw [kindsOf_append, List.getElem?_append_right (by omega), Nat.add_sub_cancel_left, kindsOf_cons] at hk
  by_cases hj : j < (blockKinds (x :: t)).length
  · rw [List.getElem?_append_left hj] at hk
    obtain ⟨i, rfl⟩ : ∃ i, j = i + 3 := ⟨j - 3, by omega⟩
    simp only [blockKinds, List.map_cons, List.getElem?_cons_succ, List.getElem?_map] at hk
    obtain ⟨y, hy, he⟩ := Option.map_eq_some_iff.mp hk
    cases he
    exact hx (List.mem_of_getElem? hy)
  · obtain ⟨i, rfl⟩ : ∃ i, j = (blockKinds (x :: t)).length + i := ⟨j - (blockKinds (x :: t)).length, by omega⟩
    rw [List.getElem?_append_right (by omega), Nat.add_sub_cancel_left] at hk
    rw [barsBefore_append, bars_block] at hbars
    cases b with
    | nil => simp [kindsOf] at hk
    | cons u b =>
      cases i with
      | zero => simp [kindsOf, blockKinds] at hk
      | succ i =>
        have : 1 ≤ barsBefore (kindsOf (u :: b)) (i + 1) := by
          rw [kindsOf_cons]
          unfold barsBefore blockKinds
          rw [List.cons_append, List.take_succ_cons, List.filter_cons]
          simp [Kind.isBar]
        omega

end Verif.Lemmas.Mpi
