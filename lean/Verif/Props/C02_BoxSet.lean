import Verif.Model.BoundingBox
import Verif.Spec.BoundingBox
import Verif.Lemmas.Fold
import Mathlib.Tactic.Linarith
import Mathlib.Tactic.Ring
import Mathlib.Tactic.NormNum
import Mathlib.Tactic.IntervalCases

namespace Verif.Props.C02
open Verif.Model.BoundingBox Verif.Spec.BoundingBox Verif.Lemmas

variable {K : Type*} [Field K] [LinearOrder K]

theorem boxIntersect_iff (s n : ℕ) (a b : ℕ → K) :
    boxIntersect s n a b = true ↔ ∀ d < n, b d ≤ a (d + s) ∧ a d ≤ b (d + s) := by
  unfold boxIntersect
  induction n with
  | zero => simp
  | succ n ih =>
    rw [List.range_succ, List.foldl_append]
    simp only [List.foldl_cons, List.foldl_nil, Bool.and_eq_true, ih]
    simp only [intervalIntersect, Bool.and_eq_true, decide_eq_true_eq, ge_iff_le]
    constructor
    · rintro ⟨h1, h2⟩ d hd
      rcases Nat.lt_succ_iff_lt_or_eq.1 hd with h | rfl
      · exact h1 d h
      · exact h2
    · exact fun h => ⟨fun d hd => h d (by omega), h n (by omega)⟩

theorem closedBoxes_meet_iff (n : ℕ) (a b : ℕ → K)
    (ha : WellFormed n a (fun d => a (d + 3))) (hb : WellFormed n b (fun d => b (d + 3))) :
    (ClosedBox n a (fun d => a (d + 3)) ∩ ClosedBox n b (fun d => b (d + 3))).Nonempty ↔
      ∀ d < n, b d ≤ a (d + 3) ∧ a d ≤ b (d + 3) := by
  constructor
  · rintro ⟨x, h1, h2⟩ d hd
    have h1 := h1 ⟨d, hd⟩; have h2 := h2 ⟨d, hd⟩
    exact ⟨h2.1.trans h1.2, h1.1.trans h2.2⟩
  · intro h
    refine ⟨fun d => max (a d) (b d), fun d => ⟨le_max_left _ _, ?_⟩, fun d => ⟨le_max_right _ _, ?_⟩⟩
    · exact max_le (ha d d.2) (h d d.2).1
    · exact max_le (h d d.2).2 (hb d d.2)

/-- Folding `expand_bounding_box_array` from any start. -/
theorem hull_lower (boxes : List (ℕ → K)) (acc : ℕ → K) (i : ℕ) (hi : i < 3) :
    (boxes.foldl (fun acc b => expandBox 3 b acc) acc) i =
      boxes.foldl (fun m b => min m (b i)) (acc i) := by
  induction boxes generalizing acc with
  | nil => rfl
  | cons b bs ih => simp only [List.foldl_cons]; rw [ih]; simp [expandBox, hi]

theorem hull_upper (boxes : List (ℕ → K)) (acc : ℕ → K) (i : ℕ) (hi : 3 ≤ i) :
    (boxes.foldl (fun acc b => expandBox 3 b acc) acc) i =
      boxes.foldl (fun m b => max m (b i)) (acc i) := by
  induction boxes generalizing acc with
  | nil => rfl
  | cons b bs ih => simp only [List.foldl_cons]; rw [ih]; simp [expandBox, Nat.not_lt.2 hi]

/-- **C02 (hull).** The accumulated box of a non-empty list of boxes is the smallest box containing
all of them: in every dimension each stored lower (upper) bound is at least (at most) the hull's, and some
stored box attains it. `big` is `numeric_limits<double>::max()`: all coordinates are finite. -/
theorem hull_is_smallest (big : K) (n : ℕ) (boxes : List (ℕ → K)) (hne : boxes ≠ [])
    (hfin : ∀ b ∈ boxes, ∀ i < 6, -big ≤ b i ∧ b i ≤ big) (d : ℕ) (hd : d < 3) :
    (∀ b ∈ boxes, (mkBoxSet big n boxes).hull d ≤ b d) ∧
    (∃ b ∈ boxes, (mkBoxSet big n boxes).hull d = b d) ∧
    (∀ b ∈ boxes, b (d + 3) ≤ (mkBoxSet big n boxes).hull (d + 3)) ∧
    (∃ b ∈ boxes, (mkBoxSet big n boxes).hull (d + 3) = b (d + 3)) := by
  simp only [mkBoxSet]
  rw [hull_lower _ _ _ hd, hull_upper _ _ _ (by omega)]
  obtain ⟨c, hc⟩ := List.exists_mem_of_ne_nil _ hne
  have h1 := foldl_min_le (fun b : ℕ → K => b d) boxes (resetBox 3 big d)
  have h2 := foldl_max_ge (fun b : ℕ → K => b (d + 3)) boxes (resetBox 3 big (d + 3))
  refine ⟨h1.2, ?_, h2.2, ?_⟩
  · rcases foldl_min_mem (fun b : ℕ → K => b d) boxes (resetBox 3 big d) with h | h
    · refine ⟨c, hc, le_antisymm (h1.2 c hc) ?_⟩
      rw [h]; simpa [resetBox, hd] using (hfin c hc d (by omega)).2
    · exact h
  · rcases foldl_max_mem (fun b : ℕ → K => b (d + 3)) boxes (resetBox 3 big (d + 3)) with h | h
    · refine ⟨c, hc, le_antisymm ?_ (h2.2 c hc)⟩
      rw [h]; simpa [resetBox] using (hfin c hc (d + 3) (by omega)).1
    · exact h

/-- **C02 (query).** `intersects(query)` holds exactly when a stored closed box shares a point with
the closed query box, for any list of stored boxes (also the empty one). -/
theorem intersects_iff (big : K) (n : ℕ) (hn : n ≤ 3) (boxes : List (ℕ → K)) (query : ℕ → K)
    (hb : ∀ b ∈ boxes, WellFormed n b (fun d => b (d + 3)))
    (hq : WellFormed n query (fun d => query (d + 3))) :
    intersects (mkBoxSet big n boxes) query = true ↔
      ∃ b ∈ boxes,
        (ClosedBox n b (fun d => b (d + 3)) ∩ ClosedBox n query (fun d => query (d + 3))).Nonempty := by
  have key : (∃ b ∈ boxes, boxIntersect 3 n b query = true) →
      boxIntersect 3 n (mkBoxSet big n boxes).hull query = true := by
    rintro ⟨b, hbm, hb⟩
    rw [boxIntersect_iff] at hb ⊢
    intro d hd
    simp only [mkBoxSet]
    have hd3 : d < 3 := lt_of_lt_of_le hd hn
    rw [hull_lower _ _ _ hd3, hull_upper _ _ (d + 3) (by omega)]
    have h1 := (foldl_min_le (fun b : ℕ → K => b d) boxes (resetBox 3 big d)).2 b hbm
    have h2 := (foldl_max_ge (fun b : ℕ → K => b (d + 3)) boxes (resetBox 3 big (d + 3))).2 b hbm
    exact ⟨(hb d hd).1.trans h2, h1.trans (hb d hd).2⟩
  have h1 : intersects (mkBoxSet big n boxes) query = true ↔
      ∃ b ∈ boxes, boxIntersect 3 n b query = true := by
    unfold intersects
    split
    · rename_i h
      simp only [Bool.false_eq_true, false_iff]
      intro hex
      have := key hex
      simp only [mkBoxSet] at this h
      simp [this] at h
    · simp [mkBoxSet, List.any_eq_true]
  rw [h1]
  refine exists_congr fun b => and_congr_right fun hbm => ?_
  rw [boxIntersect_iff, closedBoxes_meet_iff n b query (hb b hbm) hq]

/-- **C02 (the boxes of the mesh hierarchy).** If the coarse cells are `ncf` fine cells wide, the box of the fine cell with index `coarse * ncf + fine` in each
dimension is the cell of the uniform fine grid with that index. -/
theorem cell_box_exact (n : ℕ) (hn : n ≤ 3) (origin : ℕ → K) (wCoarse wFine : K) (ncf : ℤ) (hw : wCoarse = ncf * wFine) (index : ℕ → ℤ) (d : ℕ) (hd : d < n) :
    mhCellBox n origin wCoarse wFine index d = origin d + ((index d * ncf + index (d + n) : ℤ) : K) * wFine ∧
    mhCellBox n origin wCoarse wFine index (d + 3) = origin d + ((index d * ncf + index (d + n) + 1 : ℤ) : K) * wFine := by
  have h3 : d < 3 := by omega
  unfold mhCellBox
  simp only [h3, hd, if_true, Nat.add_sub_cancel, show ¬ d + 3 < 3 by omega, if_false, hw]
  push_cast
  exact ⟨by ring, by ring⟩

example : mhCellBox (K := ℚ) 2 (fun _ => 1) 4 1 (fun i => [1, 2, 3, 0].getD i 0) 0 = 8 ∧ mhCellBox (K := ℚ) 2 (fun _ => 1) 4 1 (fun i => [1, 2, 3, 0].getD i 0) 4 = 10 := by
  constructor <;> norm_num [mhCellBox]

/-- Non-vacuity: two stored unit squares, a query touching the second one only at a corner. -/
example :
    let b1 : ℕ → ℚ := fun i => if i < 3 then 0 else 1
    let b2 : ℕ → ℚ := fun i => if i < 3 then 2 else 3
    let q : ℕ → ℚ := fun i => if i < 3 then 3 else 5
    (∀ b ∈ [b1, b2], WellFormed 2 b (fun d => b (d + 3))) ∧ WellFormed 2 q (fun d => q (d + 3)) ∧
    intersects (mkBoxSet 100 2 [b1, b2]) q = true ∧ intersects (mkBoxSet 100 2 [b1]) q = false := by
  refine ⟨?_, ?_, ?_, ?_⟩
  · intro b hb; simp at hb; rcases hb with rfl | rfl <;> intro d hd <;> interval_cases d <;> norm_num
  · intro d hd; interval_cases d <;> norm_num
  · norm_num [intersects, mkBoxSet, boxIntersect, intervalIntersect, expandBox, resetBox,
      List.range_succ]
  · norm_num [intersects, mkBoxSet, boxIntersect, intervalIntersect, expandBox, resetBox,
      List.range_succ]

end Verif.Props.C02
