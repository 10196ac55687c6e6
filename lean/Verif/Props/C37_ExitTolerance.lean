import Verif.Model.NewtonKernel
import Verif.Props.C36_NewtonInverse
import Mathlib.Tactic.Positivity

/-! C37: the residual measure of the Newton iterations. -/

namespace Verif.Props.C37
open Verif.Model.NewtonKernel

variable {K : Type*} [Field K] [LinearOrder K] [IsStrictOrderedRing K]

/-- The scaling is positive for elements whose average Jacobian is positive and whose box is not the point zero. -/
theorem scalingDir_pos (jac : List K) (lo hi : K) (hj : 0 < jac.sum) (hb : lo ≠ 0 ∨ hi ≠ 0) : 0 < scalingDir jac lo hi := by
  unfold scalingDir
  have hne : jac ≠ [] := by rintro rfl; simp at hj
  have hl : (0 : K) < (jac.length : K) := by exact_mod_cast List.length_pos_of_ne_nil hne
  have hm : 0 < max |lo| |hi| := by
    rw [lt_max_iff, abs_pos, abs_pos]
    exact hb
  positivity

/-- **C37 (partial), 2D.** With a positive average Jacobian and a box that is not degenerate at zero the measure is not negative, and it is zero only
for the zero vector. Missing: elements with a negative Jacobian, for which the claim is false, see `negative_jacobian_negative`. -/
theorem residual_norm_2d_partial (jac : List K) (hj : 0 < jac.sum) (box : ℕ → K) (hb : ∀ d < 2, box d ≠ 0 ∨ box (d + 3) ≠ 0) (f0 f1 z : K) :
    let s : V3 K := ⟨scalingDir jac (box 0) (box 3), scalingDir jac (box 1) (box 4), z⟩
    0 ≤ relativeError2d s f0 f1 ∧ (relativeError2d s f0 f1 = 0 ↔ f0 = 0 ∧ f1 = 0) := by
  intro s
  have h0 : 0 < s.x := scalingDir_pos jac _ _ hj (hb 0 (by norm_num))
  have h1 : 0 < s.y := scalingDir_pos jac _ _ hj (hb 1 (by norm_num))
  have a0 : 0 ≤ |f0| * s.x := mul_nonneg (abs_nonneg _) h0.le
  have a1 : 0 ≤ |f1| * s.y := mul_nonneg (abs_nonneg _) h1.le
  unfold relativeError2d
  refine ⟨a0.trans (le_max_left _ _), fun h => ?_, fun h => by simp [h.1, h.2]⟩
  have b0 := (le_max_left (|f0| * s.x) (|f1| * s.y)).trans h.le
  have b1 := (le_max_right (|f0| * s.x) (|f1| * s.y)).trans h.le
  have c0 := le_antisymm b0 a0
  have c1 := le_antisymm b1 a1
  rw [mul_eq_zero, abs_eq_zero] at c0 c1
  exact ⟨c0.resolve_right h0.ne', c1.resolve_right h1.ne'⟩

/-- **C37 (partial), 3D.** -/
theorem residual_norm_3d_partial (jac : List K) (hj : 0 < jac.sum) (box : ℕ → K) (hb : ∀ d < 3, box d ≠ 0 ∨ box (d + 3) ≠ 0) (f0 f1 f2 : K) :
    let s : V3 K := ⟨scalingDir jac (box 0) (box 3), scalingDir jac (box 1) (box 4), scalingDir jac (box 2) (box 5)⟩
    0 ≤ relativeError3d s f0 f1 f2 ∧ (relativeError3d s f0 f1 f2 = 0 ↔ f0 = 0 ∧ f1 = 0 ∧ f2 = 0) := by
  intro s
  have h0 : 0 < s.x := scalingDir_pos jac _ _ hj (hb 0 (by norm_num))
  have h1 : 0 < s.y := scalingDir_pos jac _ _ hj (hb 1 (by norm_num))
  have h2 : 0 < s.z := scalingDir_pos jac _ _ hj (hb 2 (by norm_num))
  have a0 : 0 ≤ |f0| * s.x := mul_nonneg (abs_nonneg _) h0.le
  have a1 : 0 ≤ |f1| * s.y := mul_nonneg (abs_nonneg _) h1.le
  have a2 : 0 ≤ |f2| * s.z := mul_nonneg (abs_nonneg _) h2.le
  unfold relativeError3d
  refine ⟨a2.trans (le_max_right _ _), fun h => ?_, fun h => by simp [h.1, h.2.1, h.2.2]⟩
  have b0 := ((le_max_left (|f0| * s.x) (|f1| * s.y)).trans (le_max_left _ (|f2| * s.z))).trans h.le
  have b1 := ((le_max_right (|f0| * s.x) (|f1| * s.y)).trans (le_max_left _ (|f2| * s.z))).trans h.le
  have b2 := (le_max_right (max (|f0| * s.x) (|f1| * s.y)) (|f2| * s.z)).trans h.le
  have c0 := le_antisymm b0 a0
  have c1 := le_antisymm b1 a1
  have c2 := le_antisymm b2 a2
  rw [mul_eq_zero, abs_eq_zero] at c0 c1 c2
  exact ⟨c0.resolve_right h0.ne', c1.resolve_right h1.ne', c2.resolve_right h2.ne'⟩

/-- What the measure bounds: if it is at most `tol` then in each direction the distance is at most `tol` times the greatest coordinate of the box
times the average Jacobian. -/
theorem residual_bounds_distance (jac : List K) (hj : 0 < jac.sum) (box : ℕ → K) (hb : ∀ d < 3, box d ≠ 0 ∨ box (d + 3) ≠ 0) (f0 f1 f2 tol : K) :
    let s : V3 K := ⟨scalingDir jac (box 0) (box 3), scalingDir jac (box 1) (box 4), scalingDir jac (box 2) (box 5)⟩
    relativeError3d s f0 f1 f2 ≤ tol ↔ (|f0| ≤ tol * (max |box 0| |box 3| * (jac.sum / jac.length)) ∧
      |f1| ≤ tol * (max |box 1| |box 4| * (jac.sum / jac.length)) ∧ |f2| ≤ tol * (max |box 2| |box 5| * (jac.sum / jac.length))) := by
  have key : ∀ d < 3, ∀ f : K, |f| * scalingDir jac (box d) (box (d + 3)) ≤ tol ↔ |f| ≤ tol * (max |box d| |box (d + 3)| * (jac.sum / jac.length)) := by
    intro d hd f
    have hp := scalingDir_pos jac (box d) (box (d + 3)) hj (hb d hd)
    unfold scalingDir at hp ⊢
    dsimp only at hp ⊢
    rw [one_div_pos] at hp
    rw [mul_one_div, div_le_iff₀ hp]
  dsimp only
  unfold relativeError3d
  rw [max_le_iff, max_le_iff, key 0 (by norm_num), key 1 (by norm_num), key 2 (by norm_num), and_assoc]

/-- **C37, finding.** With a negative average Jacobian the measure of every vector that is not zero in both directions is negative, so the iteration
reports success for any point: the absolute value is taken in `scaling_jacobian` and not in `scaling_dir`. -/
theorem negative_jacobian_negative (jac : List K) (hj : jac.sum < 0) (box : ℕ → K) (hb : ∀ d < 3, box d ≠ 0 ∨ box (d + 3) ≠ 0) (f0 f1 f2 : K)
    (h0 : f0 ≠ 0) (h1 : f1 ≠ 0) (h2 : f2 ≠ 0) :
    relativeError3d ⟨scalingDir jac (box 0) (box 3), scalingDir jac (box 1) (box 4), scalingDir jac (box 2) (box 5)⟩ f0 f1 f2 < 0 := by
  have hneg : ∀ d < 3, ∀ f : K, f ≠ 0 → |f| * scalingDir jac (box d) (box (d + 3)) < 0 := by
    intro d hd f hf
    refine mul_neg_of_pos_of_neg (abs_pos.2 hf) ?_
    unfold scalingDir
    have hne : jac ≠ [] := by rintro rfl; simp at hj
    have hl : (0 : K) < (jac.length : K) := by exact_mod_cast List.length_pos_of_ne_nil hne
    have hm : 0 < max |box d| |box (d + 3)| := by
      rw [lt_max_iff, abs_pos, abs_pos]
      exact hb d hd
    exact one_div_neg.2 (mul_neg_of_pos_of_neg hm (div_neg_of_neg_of_pos hj hl))
  unfold relativeError3d
  exact max_lt (max_lt (hneg 0 (by norm_num) f0 h0) (hneg 1 (by norm_num) f1 h1)) (hneg 2 (by norm_num) f2 h2)

/-- The consequence for the iteration: with a measure that is negative at the starting point `x_inverse` reports success there, whatever the
distance to the target. -/
theorem negative_measure_accepts (I : Impl K) (p : V3 K) (n : ℤ) (tol : K) (htol : 0 ≤ tol) (start : V3 K) (hneg : (I.residual start p).1 < 0) :
    xInverse (exactOps K) I p n tol (some start) = (start, true) := by
  have hle : (I.residual start p).1 ≤ tol := hneg.le.trans htol
  unfold xInverse
  dsimp only [Option.getD_some]
  cases n.toNat with
  | zero => simp [iterate, exactOps, hle]
  | succ m => simp [iterate, exactOps, hle, not_lt.2 hle]

/-- A unit cube with Jacobian 1/8, and the same cube with its Jacobian negated. -/
example : scalingDir [(1 / 8 : ℚ), 1 / 8] 0 1 = 8 ∧ relativeError3d ⟨(8 : ℚ), 8, 8⟩ (1 / 4) 0 0 = 2 ∧
    scalingDir [(-1 / 8 : ℚ), -1 / 8] 0 1 = -8 ∧ relativeError3d ⟨(-8 : ℚ), -8, -8⟩ 1 2 3 = -8 := by decide +kernel

end Verif.Props.C37
