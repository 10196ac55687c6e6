import Verif.Lemmas.FloatShapesKernels
import Verif.Model.ExpansionLooping

/-! The error of the collapsed coordinates in floating point arithmetic. -/

namespace Verif.Lemmas.FloatShapes
open Verif.Lemmas.Rounding Verif.Lemmas.FloatExpansion Verif.Lemmas Verif.Spec.Rounding Verif.Spec.FloatExpansion Verif.Spec.FloatBasis Verif.Spec Verif.Model
  Verif.Model.FloatKernels Verif.Model.FloatBasis Verif.Model.FloatShapes Verif.Model.JacobiCoeff Verif.Model.BasisReference Verif.Model.BasisEvaluation
open Verif.Lemmas.FloatBasis hiding Rel

local notation "RelF" => Verif.Lemmas.FloatBasis.Rel

variable {rnd : ℝ → ℝ}

theorem ρ_small : ρ ≤ 1 + 1 / 1024 := by
  have h1 : q ≤ 1 + 1 / 4096 := by unfold q; norm_num
  have h2 : η ≤ 1 / 4096 := by
    unfold η
    calc (2 : ℝ) ^ (-1074 : ℤ) ≤ 2 ^ (-12 : ℤ) := zpow_le_zpow_right₀ (by norm_num) (by norm_num)
      _ = 1 / 4096 := by norm_num
  have h3 := η_pos
  have h4 := q_ge
  unfold ρ
  nlinarith

/-- Rounding a value that is zero or not tiny. -/
theorem round_rel (R : Rounding 53 (-1074) rnd) {k : ℕ} {a A : ℝ} (h : RelF k |A| a A) (ha : a = 0 ∨ (2 : ℝ) ^ (-1000 : ℤ) ≤ |a|) : RelF (k + 1) |A| (rnd a) A := by
  refine ⟨le_rfl, ?_⟩
  have e : |rnd a - a| ≤ (q - 1) * |a| := by
    rcases ha with rfl | ha
    · simp [rnd_zero R]
    · exact rel_err R ha
  have h1 := h.abs_le
  have h2 := h.2
  unfold Accurate at *
  have h3 : |rnd a - A| ≤ |rnd a - a| + |a - A| := abs_sub_le _ _ _
  have hq := q_ge
  have h4 : (q - 1) * |a| ≤ (q - 1) * (ρ ^ k * |A|) := mul_le_mul_of_nonneg_left h1 (by linarith)
  have h5 : q * (ρ ^ k * |A|) ≤ ρ * (ρ ^ k * |A|) := mul_le_mul_of_nonneg_right ρ_ge.1 (mul_nonneg (pow_nonneg (by linarith [ρ_ge.2]) k) (abs_nonneg A))
  rw [pow_succ]
  nlinarith

/-- One divided by a value with the error of one rounding. -/
theorem inv_rel {d D : ℝ} (h : RelF 1 |D| d D) (hD : D ≠ 0) : RelF 2 |1 / D| (1 / d) (1 / D) := by
  refine ⟨le_rfl, ?_⟩
  have h2 := h.2
  unfold Accurate at *
  rw [pow_one] at h2
  have hp : 0 < |D| := abs_pos.mpr hD
  have hr := ρ_ge.2
  have hr' := ρ_small
  have h3 : |D| ≤ |d| + |d - D| := by
    have := abs_sub_le D d 0
    rw [sub_zero, sub_zero, abs_sub_comm D d] at this
    linarith
  have h4 : (2 - ρ) * |D| ≤ |d| := by nlinarith
  have hd : 0 < |d| := lt_of_lt_of_le (mul_pos (by linarith) hp) h4
  have hd0 : d ≠ 0 := abs_pos.mp hd
  have e : 1 / d - 1 / D = (D - d) / (d * D) := by field_simp
  rw [e, abs_div, abs_mul, abs_sub_comm D d, abs_div, abs_one, div_le_iff₀ (mul_pos hd hp)]
  have e2 : (ρ ^ 2 - 1) * (1 / |D|) * (|d| * |D|) = (ρ ^ 2 - 1) * |d| := by field_simp
  rw [e2]
  have h5 : (ρ ^ 2 - 1) * ((2 - ρ) * |D|) ≤ (ρ ^ 2 - 1) * |d| := mul_le_mul_of_nonneg_left h4 (by nlinarith)
  refine h2.trans (le_trans ?_ h5)
  rw [← mul_assoc]
  refine mul_le_mul_of_nonneg_right ?_ hp.le
  nlinarith [mul_nonneg (sub_nonneg.mpr hr) (by nlinarith : (0 : ℝ) ≤ (ρ + 1) * (2 - ρ) - 1)]

theorem float_one : IsFloat 53 (-1074) 1 := by
  have := float_int (p := 53) (emin := -1074) (by norm_num) (by norm_num) (m := 1) (by norm_num)
  simpa using this

theorem rel_of_err {a A : ℝ} (h : |a - A| ≤ (2 : ℝ) ^ (1 - ((53 : ℕ) : ℤ)) * |A|) : RelF 1 |A| a A := by
  refine ⟨le_rfl, ?_⟩
  unfold Accurate
  refine h.trans (mul_le_mul_of_nonneg_right ?_ (abs_nonneg A))
  have := ρ_ge.1
  unfold q at this
  rw [pow_one]
  norm_num at this ⊢
  linarith

/-- The guarded differences: the computed one has the sign and up to one rounding the value of the exact one. -/
theorem guard_rel (R : Rounding 53 (-1074) rnd) {tol x y : ℝ} (ht : IsFloat 53 (-1074) tol) (hx : IsFloat 53 (-1074) x) (hy : IsFloat 53 (-1074) y) :
    RelF 1 |CoordMap.zeroGuard tol (x - y)| (CoordMap.zeroGuard tol (rnd (x - y))) (CoordMap.zeroGuard tol (x - y)) := by
  have herr := rel_of_err (FloatBary.error_sub R (by norm_num) hx hy)
  have hz := sub_eq_zero_iff R (by norm_num) hx hy
  have hself : ∀ t : ℝ, RelF 1 |t| t t := fun t => (rel_self le_rfl).mono (by norm_num) le_rfl
  unfold CoordMap.zeroGuard
  generalize hd : x - y = d at *
  have hz' : rnd d = 0 ↔ d = 0 := by rw [hz, ← hd]; exact sub_eq_zero.symm
  by_cases h1 : |d| < tol
  · rw [if_pos h1]
    have h1' := abs_lt.mp h1
    have hlo : -tol ≤ rnd d := le_rnd R (float_neg ht) h1'.1.le
    have hhi : rnd d ≤ tol := rnd_le R ht h1'.2.le
    by_cases h0 : d ≥ 0
    · rw [if_pos h0]
      have h0' := rnd_nonneg R h0
      by_cases h2 : |rnd d| < tol
      · rw [if_pos h2, if_pos h0']; exact hself _
      · rw [if_neg h2]
        rw [abs_of_nonneg h0'] at h2
        rw [show rnd d = tol by linarith]; exact hself _
    · rw [if_neg h0]
      push Not at h0
      have h0' : rnd d < 0 := lt_of_le_of_ne (rnd_nonpos R h0.le) fun h => h0.ne (hz'.mp h)
      by_cases h2 : |rnd d| < tol
      · rw [if_pos h2, if_neg (not_le.mpr h0')]; exact hself _
      · rw [if_neg h2]
        rw [abs_of_neg h0'] at h2
        rw [show rnd d = -tol by linarith]; exact hself _
  · rw [if_neg h1]
    have h2 : ¬ |rnd d| < tol := by
      push Not at h1 ⊢
      rw [le_abs] at *
      rcases h1 with h | h
      · exact Or.inl (le_rnd R ht h)
      · right
        have := rnd_le R (float_neg ht) (by linarith : d ≤ -tol)
        linarith
    rw [if_neg h2]; exact herr

theorem guard_ne {tol d : ℝ} (ht : 0 < tol) : tol ≤ |CoordMap.zeroGuard tol d| := by
  unfold CoordMap.zeroGuard
  split
  · split
    · rw [abs_of_pos ht]
    · rw [abs_neg, abs_of_pos ht]
  · next h => push Not at h; exact h

theorem guard_le {tol d b : ℝ} (ht : 0 < tol) (h1 : tol ≤ b) (h2 : |d| ≤ b) : |CoordMap.zeroGuard tol d| ≤ b := by
  unfold CoordMap.zeroGuard
  split
  · split
    · rw [abs_of_pos ht]; exact h1
    · rw [abs_neg, abs_of_pos ht]; exact h1
  · exact h2

/-- The error of the quotients. -/
theorem ratio_rel (R : Rounding 53 (-1074) rnd) {x d D : ℝ} (hx : IsFloat 53 (-1074) x) (hd : RelF 1 |D| d D) (hD : D ≠ 0) (hd4 : |d| ≤ 4) (hd0 : d ≠ 0) (hr : |2 * (1 + x) / D - 1| ≤ 9 / 8) :
    RelF 11 (9 / 8) (ratioF rnd x d) (2 * (1 + x) / D - 1) := by
  have h1 := rel_of_err (FloatBary.error_add R (by norm_num) float_one hx)
  have hsmall : ∀ e : ℤ, -1000 ≤ e → (2 : ℝ) ^ (-1000 : ℤ) ≤ 2 ^ e := fun e he => zpow_le_zpow_right₀ (by norm_num) he
  have hz : 1 + x = 0 ∨ (2 : ℝ) ^ (-53 : ℤ) ≤ |1 + x| := by
    by_cases h : 1 + x = 0
    · exact Or.inl h
    · right
      have := one_sub_float (float_neg hx) (fun h' => h (by linarith))
      rwa [sub_neg_eq_add] at this
  have hz1 : rnd (1 + x) = 0 ∨ (2 : ℝ) ^ (-53 : ℤ) ≤ |rnd (1 + x)| := by
    rcases hz with h | h
    · left; rw [h, rnd_zero R]
    · right
      have fl : IsFloat 53 (-1074) ((2 : ℝ) ^ (-53 : ℤ)) := float_pow (by norm_num) (by norm_num)
      rw [le_abs] at *
      rcases h with h | h
      · exact Or.inl (le_rnd R fl h)
      · right
        have := rnd_le R (float_neg fl) (by linarith : 1 + x ≤ -(2 : ℝ) ^ (-53 : ℤ))
        linarith
  have two_rel : RelF 0 |(2 : ℝ)| 2 2 := rel_self le_rfl
  have h2 := two_rel.mul h1
  rw [← abs_mul] at h2
  have h3 := round_rel R h2 (by
    rcases hz1 with h | h
    · left; rw [h, mul_zero]
    · right
      rw [abs_mul, abs_two]
      have := hsmall (-53) (by norm_num)
      have := two_pos (-53)
      linarith)
  have hz3 : rnd (2 * rnd (1 + x)) = 0 ∨ (2 : ℝ) ^ (-53 : ℤ) ≤ |rnd (2 * rnd (1 + x))| := by
    rcases hz1 with h | h
    · left; rw [h, mul_zero, rnd_zero R]
    · right
      have fl : IsFloat 53 (-1074) ((2 : ℝ) ^ (-53 : ℤ)) := float_pow (by norm_num) (by norm_num)
      have hp := two_pos (-53)
      rw [le_abs] at *
      rcases h with h | h
      · exact Or.inl (le_rnd R fl (by linarith))
      · right
        have := rnd_le R (float_neg fl) (by linarith : 2 * rnd (1 + x) ≤ -(2 : ℝ) ^ (-53 : ℤ))
        linarith
  have h4 := h3.mul (inv_rel hd hD)
  rw [← abs_mul, mul_one_div, mul_one_div] at h4
  have h5 := round_rel R h4 (by
    rcases hz3 with h | h
    · left; rw [h, zero_div]
    · right
      rw [abs_div, le_div_iff₀ (abs_pos.mpr hd0)]
      have e : (2 : ℝ) ^ (-1000 : ℤ) * 4 ≤ 2 ^ (-53 : ℤ) := by
        rw [show (2 : ℝ) ^ (-1000 : ℤ) * 4 = 2 ^ (-998 : ℤ) by rw [show (4 : ℝ) = 2 ^ (2 : ℤ) by norm_num, ← zpow_add₀ (by norm_num)]; norm_num]
        exact zpow_le_zpow_right₀ (by norm_num) (by norm_num)
      have := mul_le_mul_of_nonneg_left hd4 (two_pos (-1000)).le
      linarith)
  simp only [Nat.reduceAdd, Nat.zero_add] at h5
  unfold ratioF
  generalize hW : 2 * (1 + x) / D = W at *
  generalize rnd (rnd (2 * rnd (1 + x)) / d) = w at *
  refine FloatBasis.Rel.round R (k := 10) (by norm_num) ⟨hr, ?_⟩
  have hW2 : |W| ≤ 17 / 8 := by rw [abs_le] at *; constructor <;> linarith [hr.1, hr.2]
  have h6 := (h5.mono (l := 5) (by norm_num) hW2).2
  unfold Accurate at *
  rw [show w - 1 - (W - 1) = w - W by ring]
  refine h6.trans ?_
  have hp : 1 ≤ ρ ^ 5 := one_le_pow₀ ρ_ge.2
  rw [show (10 : ℕ) = 5 * 2 by norm_num, pow_mul]
  nlinarith

/-- A value with eleven roundings is not large. -/
theorem rel_le_two {z Z : ℝ} (h : RelF 11 (9 / 8) z Z) : |z| ≤ 2 := by
  have h1 := h.abs_le
  have h2 : ρ ^ 11 ≤ (1 + 1 / 1024 : ℝ) ^ 11 := pow_le_pow_left₀ (by linarith [ρ_ge.2]) ρ_small 11
  have h3 : (1 + 1 / 1024 : ℝ) ^ 11 ≤ 16 / 9 := by norm_num
  linarith

end Verif.Lemmas.FloatShapes
