import Verif.Model.BoundingBox
import Verif.Spec.BoundingBox
import Mathlib.MeasureTheory.Measure.Lebesgue.Basic
import Mathlib.Tactic.Linarith
import Mathlib.Tactic.NormNum

namespace Verif.Props.C01
open Verif.Model.BoundingBox Verif.Spec.BoundingBox

variable {K : Type*} [Field K] [LinearOrder K]

theorem boundingBoxIntersection_eq_prod (n : ℕ) (a b : ℕ → K) :
    boundingBoxIntersection n a b =
      ∏ d : Fin n, intervalOverlap (a d) (a (d + 3)) (b d) (b (d + 3)) := by
  unfold boundingBoxIntersection
  induction n with
  | zero => simp
  | succ n ih =>
    rw [List.range_succ, List.foldl_append, ih, Fin.prod_univ_castSucc]
    simp

variable [IsStrictOrderedRing K]

omit [IsStrictOrderedRing K] in
theorem intervalOverlap_comm {la ua lb ub : K} :
    intervalOverlap la ua lb ub = intervalOverlap lb ub la ua := by
  unfold intervalOverlap
  rw [min_comm, max_comm]
  split_ifs <;> first | rfl | (exfalso; linarith)

theorem intervalOverlap_nonneg {la ua lb ub : K} (ha : la ≤ ua) (hb : lb ≤ ub) :
    0 ≤ intervalOverlap la ua lb ub := by
  unfold intervalOverlap
  split_ifs with h1 h2
  · exact le_rfl
  · exact le_rfl
  · have : max lb la ≤ min ub ua := by
      simp only [max_le_iff, le_min_iff]; push Not at h1 h2
      exact ⟨⟨hb, h2.le⟩, ⟨h1.le, ha⟩⟩
    linarith

theorem intervalOverlap_eq {la ua lb ub : K} (ha : la ≤ ua) (hb : lb ≤ ub) :
    intervalOverlap la ua lb ub = max 0 (min ub ua - max lb la) := by
  have h0 := intervalOverlap_nonneg ha hb
  unfold intervalOverlap at *
  split_ifs at * with h1 h2
  · rw [max_eq_left]; have := min_le_right ub ua; have := le_max_left lb la; linarith
  · rw [max_eq_left]; have := min_le_left ub ua; have := le_max_right lb la; linarith
  · rw [max_eq_right h0]

theorem intervalOverlap_pos_iff {la ua lb ub : K} (ha : la ≤ ua) (hb : lb ≤ ub) :
    0 < intervalOverlap la ua lb ub ↔ ∃ x, (la < x ∧ x < ua) ∧ (lb < x ∧ x < ub) := by
  rw [intervalOverlap_eq ha hb]
  rw [lt_max_iff]; simp only [lt_irrefl, false_or, sub_pos, max_lt_iff, lt_min_iff]
  constructor
  · intro h
    obtain ⟨x, h1, h2⟩ := exists_between
      (show max lb la < min ub ua by simp only [max_lt_iff, lt_min_iff]; exact h)
    simp only [max_lt_iff, lt_min_iff] at h1 h2
    exact ⟨x, ⟨h1.2, h2.2⟩, ⟨h1.1, h2.1⟩⟩
  · rintro ⟨x, ⟨h1, h2⟩, h3, h4⟩
    exact ⟨⟨h3.trans h4, h1.trans h4⟩, ⟨h3.trans h2, h1.trans h2⟩⟩

theorem intervalOverlap_le_left {la ua lb ub : K} (ha : la ≤ ua) (hb : lb ≤ ub) :
    intervalOverlap la ua lb ub ≤ ua - la := by
  rw [intervalOverlap_eq ha hb, max_le_iff]
  have := min_le_right ub ua; have := le_max_right lb la
  constructor <;> linarith

omit [IsStrictOrderedRing K] in
/-- **C01 (symmetry).** -/
theorem overlap_symmetric (n : ℕ) (a b : ℕ → K) :
    boundingBoxIntersection n a b = boundingBoxIntersection n b a := by
  rw [boundingBoxIntersection_eq_prod, boundingBoxIntersection_eq_prod]
  exact Finset.prod_congr rfl fun d _ => intervalOverlap_comm

/-- **C01 (sign and upper bound).** The overlap is never negative and never exceeds the volume of a
box; by `overlap_symmetric` the same bound holds for the other box. -/
theorem overlap_bounds (n : ℕ) (a b : ℕ → K)
    (ha : WellFormed n a (fun d => a (d + 3))) (hb : WellFormed n b (fun d => b (d + 3))) :
    0 ≤ boundingBoxIntersection n a b ∧
    boundingBoxIntersection n a b ≤ ∏ d : Fin n, (a (d + 3) - a d) ∧
    boundingBoxIntersection n a b ≤ ∏ d : Fin n, (b (d + 3) - b d) := by
  have key : ∀ a b : ℕ → K, WellFormed n a (fun d => a (d + 3)) →
      WellFormed n b (fun d => b (d + 3)) →
      boundingBoxIntersection n a b ≤ ∏ d : Fin n, (a (d + 3) - a d) := by
    intro a b ha hb
    rw [boundingBoxIntersection_eq_prod]
    exact Finset.prod_le_prod (fun d _ => intervalOverlap_nonneg (ha d d.2) (hb d d.2))
      fun d _ => intervalOverlap_le_left (ha d d.2) (hb d d.2)
  refine ⟨?_, key a b ha hb, overlap_symmetric n a b ▸ key b a hb ha⟩
  rw [boundingBoxIntersection_eq_prod]
  exact Finset.prod_nonneg fun d _ => intervalOverlap_nonneg (ha d d.2) (hb d d.2)

/-- **C01 (positivity).** The overlap is positive exactly when the interiors of the boxes share a
point. -/
theorem overlap_pos_iff (n : ℕ) (a b : ℕ → K)
    (ha : WellFormed n a (fun d => a (d + 3))) (hb : WellFormed n b (fun d => b (d + 3))) :
    0 < boundingBoxIntersection n a b ↔
      (OpenBox n a (fun d => a (d + 3)) ∩ OpenBox n b (fun d => b (d + 3))).Nonempty := by
  rw [boundingBoxIntersection_eq_prod]
  constructor
  · intro h
    have hd : ∀ d : Fin n, ∃ x, (a d < x ∧ x < a (d + 3)) ∧ (b d < x ∧ x < b (d + 3)) := by
      intro d
      rw [← intervalOverlap_pos_iff (ha d d.2) (hb d d.2)]
      refine lt_of_le_of_ne (intervalOverlap_nonneg (ha d d.2) (hb d d.2)) (fun h0 => ?_)
      exact absurd (Finset.prod_eq_zero (Finset.mem_univ d) h0.symm) h.ne'
    choose x hx using hd
    exact ⟨x, fun d => (hx d).1, fun d => (hx d).2⟩
  · rintro ⟨x, h1, h2⟩
    exact Finset.prod_pos fun d _ =>
      (intervalOverlap_pos_iff (ha d d.2) (hb d d.2)).2 ⟨x d, h1 d, h2 d⟩

/-- **C01 (value).** Over the reals the result is the Lebesgue volume of the intersection of the two
boxes. -/
theorem overlap_eq_volume (n : ℕ) (a b : ℕ → ℝ)
    (ha : WellFormed n a (fun d => a (d + 3))) (hb : WellFormed n b (fun d => b (d + 3))) :
    MeasureTheory.volume (ClosedBox n a (fun d => a (d + 3)) ∩ ClosedBox n b (fun d => b (d + 3)))
      = ENNReal.ofReal (boundingBoxIntersection n a b) := by
  have hset : ClosedBox n a (fun d => a (d + 3)) ∩ ClosedBox n b (fun d => b (d + 3)) =
      Set.pi Set.univ (fun d : Fin n => Set.Icc (max (b d) (a d)) (min (b (d+3)) (a (d+3)))) := by
    ext x
    simp only [ClosedBox, Set.mem_inter_iff, Set.mem_ofPred_eq, Set.mem_pi, Set.mem_univ,
      forall_const, Set.mem_Icc, max_le_iff, le_min_iff]
    constructor
    · rintro ⟨h1, h2⟩ d; exact ⟨⟨(h2 d).1, (h1 d).1⟩, (h2 d).2, (h1 d).2⟩
    · intro h; exact ⟨fun d => ⟨(h d).1.2, (h d).2.2⟩, fun d => ⟨(h d).1.1, (h d).2.1⟩⟩
  rw [hset, MeasureTheory.volume_pi_pi, boundingBoxIntersection_eq_prod,
    ENNReal.ofReal_prod_of_nonneg
      fun (d : Fin n) _ => intervalOverlap_nonneg (ha d d.2) (hb d d.2)]
  refine Finset.prod_congr rfl fun d _ => ?_
  rw [Real.volume_Icc, intervalOverlap_eq (ha d d.2) (hb d d.2)]
  rcases le_total 0 (min (b (d+3)) (a (d+3)) - max (b d) (a d)) with h | h
  · rw [max_eq_right h]
  · rw [max_eq_left h, ENNReal.ofReal_of_nonpos h, ENNReal.ofReal_zero]

/-- Non-vacuity: two overlapping rectangles `[0,2]x[0,2]` and `[1,3]x[1,4]`, overlap 1. -/
example :
    let a : ℕ → ℚ := fun i => if i < 3 then 0 else 2
    let b : ℕ → ℚ := fun i => if i < 3 then 1 else if i = 3 then 3 else 4
    WellFormed 2 a (fun d => a (d + 3)) ∧ WellFormed 2 b (fun d => b (d + 3)) ∧
    boundingBoxIntersection 2 a b = 1 := by
  refine ⟨?_, ?_, ?_⟩
  · intro d hd; interval_cases d <;> simp
  · intro d hd; interval_cases d <;> simp
  · norm_num [boundingBoxIntersection, intervalOverlap, List.range_succ]

end Verif.Props.C01
