import Verif.Model.Ionisation
import Mathlib.Analysis.SpecialFunctions.Exp
import Mathlib.Analysis.SpecialFunctions.ExpDeriv
import Mathlib.Analysis.Complex.Exponential
import Mathlib.Tactic.Positivity
import Mathlib.Tactic.FieldSimp
import Mathlib.Tactic.NormNum
import Mathlib.Tactic.Linarith

namespace Verif.Lemmas.Barry
open Verif.Model.Ionisation

theorem gamma_bounds : (577 / 1000 : ℝ) < gammaEM ∧ gammaEM < 578 / 1000 := by
  unfold gammaEM; constructor <;> norm_num

theorem G_lt : barryG < 574 / 1000 := by
  have hg := gamma_bounds.1
  have h1 : (1 : ℝ) + gammaEM + gammaEM ^ 2 / 2 ≤ Real.exp gammaEM :=
    Real.quadratic_le_exp_of_nonneg (by linarith)
  have h2 : (1000 / 574 : ℝ) < Real.exp gammaEM := by nlinarith
  unfold barryG
  rw [Real.exp_neg]
  rw [inv_lt_comm₀ (Real.exp_pos _) (by norm_num)]
  norm_num at h2 ⊢
  exact h2

theorem G_gt : (1 / 2 : ℝ) < barryG := by
  have hg := gamma_bounds.2
  have h1 : 1 - gammaEM / 2 ≤ Real.exp (-(gammaEM / 2)) := by
    have := Real.add_one_le_exp (-(gammaEM / 2)); linarith
  have h2 : barryG = Real.exp (-(gammaEM / 2)) * Real.exp (-(gammaEM / 2)) := by
    unfold barryG; rw [← Real.exp_add]; congr 1; ring
  rw [h2]
  have h3 : (711 / 1000 : ℝ) < Real.exp (-(gammaEM / 2)) := by linarith
  nlinarith

theorem B_sq : barryB * barryB = 2 * (1 - barryG) / barryG / (2 - barryG) := by
  unfold barryB
  apply Real.mul_self_sqrt
  have := G_lt; have := G_gt
  have : 0 < 1 - barryG := by linarith
  have : 0 < 2 - barryG := by linarith
  positivity

theorem B_gt_one : 1 < barryB := by
  unfold barryB
  have h1 := G_lt; have h2 := G_gt
  rw [Real.lt_sqrt (by norm_num), div_div, lt_div_iff₀ (by nlinarith)]
  nlinarith

theorem HInf_gt : (88 / 100 : ℝ) < barryHInf := by
  unfold barryHInf
  have h1 := G_lt; have h2 := G_gt; have hb := B_gt_one
  have hG : 0 < barryG := by linarith
  have h2G : 0 < 2 - barryG := by linarith
  rw [lt_div_iff₀ (by positivity)]
  -- square both sides
  have hN : 0 < (1 - barryG) * (barryG * barryG - 6 * barryG + 12) := by
    apply mul_pos <;> nlinarith
  apply lt_of_pow_lt_pow_left₀ 2 hN.le
  have hB : barryB ^ 2 = 2 * (1 - barryG) / barryG / (2 - barryG) := by rw [pow_two]; exact B_sq
  have e : (88 / 100 * (3 * barryG * ((2 - barryG) * (2 - barryG)) * barryB)) ^ 2 =
      (88 / 100) ^ 2 * 9 * barryG ^ 2 * (2 - barryG) ^ 4 * barryB ^ 2 := by ring
  rw [e, hB]
  have e2 : (88 / 100 : ℝ) ^ 2 * 9 * barryG ^ 2 * (2 - barryG) ^ 4 * (2 * (1 - barryG) / barryG / (2 - barryG)) =
      (1 - barryG) * ((88 / 100) ^ 2 * 18 * (barryG * (2 - barryG) ^ 3)) := by
    field_simp
    ring
  rw [e2]
  have hA : barryG * (2 - barryG) ^ 3 ≤ 27 / 16 := by
    have : 27 / 16 - barryG * (2 - barryG) ^ 3 =
        (barryG - 1 / 2) ^ 2 * ((barryG - 5 / 2) ^ 2 + 1 / 2) := by ring
    have : 0 ≤ (barryG - 1 / 2) ^ 2 * ((barryG - 5 / 2) ^ 2 + 1 / 2) := by positivity
    linarith
  have hC : (88 / 10 : ℝ) < barryG * barryG - 6 * barryG + 12 := by nlinarith
  have hD : (426 / 1000 : ℝ) < 1 - barryG := by linarith
  have hE : (7744 / 100 : ℝ) < (barryG * barryG - 6 * barryG + 12) ^ 2 := by nlinarith
  have hF : (426 / 1000 : ℝ) * (7744 / 100) < (1 - barryG) * (barryG * barryG - 6 * barryG + 12) ^ 2 :=
    mul_lt_mul hD hE.le (by norm_num) (by linarith)
  have hpos : 0 < 1 - barryG := by linarith
  calc (1 - barryG) * ((88 / 100) ^ 2 * 18 * (barryG * (2 - barryG) ^ 3))
      < (1 - barryG) * ((1 - barryG) * (barryG * barryG - 6 * barryG + 12) ^ 2) := by
        apply mul_lt_mul_of_pos_left _ hpos
        nlinarith
    _ = _ := by ring

theorem H_gt (x : ℝ) (hx : 0 < x) : (26 / 100 : ℝ) < barryH x := by
  unfold barryH
  have hH := HInf_gt
  have hq : 0 < barryQ x := by unfold barryQ; positivity
  by_cases h1 : x ≤ 1
  · have hs : Real.sqrt x ≤ 1 := Real.sqrt_le_one.mpr h1
    have hs0 := Real.sqrt_nonneg x
    have : (1 / 2 : ℝ) ≤ 1 / (1 + x * Real.sqrt x) := by
      apply one_div_le_one_div_of_le
      · positivity
      · nlinarith
    have : 0 ≤ barryHInf * barryQ x / (1 + barryQ x) := by
      apply div_nonneg (mul_nonneg (by linarith) hq.le) (by linarith)
    linarith
  · push Not at h1
    have hq1 : (20 / 47 : ℝ) ≤ barryQ x := by
      unfold barryQ
      have : (1 : ℝ) ≤ x ^ Real.sqrt (31 / 26) := Real.one_le_rpow h1.le (Real.sqrt_nonneg _)
      nlinarith
    have h0 : 0 ≤ 1 / (1 + x * Real.sqrt x) := by
      have := Real.sqrt_nonneg x
      positivity
    have : (26 / 100 : ℝ) < barryHInf * barryQ x / (1 + barryQ x) := by
      rw [lt_div_iff₀ (by linarith)]
      nlinarith
    linarith

theorem logArg_gt_one (x : ℝ) (hx : 0 < x) : 1 < barryLogArg x := by
  unfold barryLogArg
  have h1 := G_lt; have h2 := G_gt; have hb := B_gt_one; have hh := H_gt x hx
  have hpos : 0 < barryH x + barryB * x := by nlinarith
  have key : (1 - barryG) / ((barryH x + barryB * x) * (barryH x + barryB * x)) < barryG / x := by
    rw [div_lt_div_iff₀ (by positivity) hx]
    have hbx : x < barryB * x := by nlinarith
    have hsq : 4 * (barryH x * (barryB * x)) ≤ (barryH x + barryB * x) * (barryH x + barryB * x) := by
      nlinarith [sq_nonneg (barryH x - barryB * x)]
    have h3 : 104 / 100 * x < 4 * (barryH x * (barryB * x)) := by
      have : 26 / 100 * x < barryH x * (barryB * x) := mul_lt_mul hh hbx.le hx (by linarith)
      linarith
    have h4 : 104 / 100 * x * barryG < barryG * ((barryH x + barryB * x) * (barryH x + barryB * x)) := by
      nlinarith
    nlinarith
  linarith

/-- The approximation of the exponential integral is positive for every positive argument. -/
theorem expintBarry_pos (x : ℝ) (hx : 0 < x) : 0 < expintBarry x := by
  unfold expintBarry
  apply mul_pos
  · apply div_pos (Real.exp_pos _)
    have h1 := G_lt; have h2 := G_gt
    have : 0 < 1 - barryG := by linarith
    positivity
  · exact Real.log_pos (logArg_gt_one x hx)

end Verif.Lemmas.Barry
