import Verif.Lemmas.JacobiTable
import Mathlib.Data.Rat.Floor

/-! C10: the precomputed coefficients give the Jacobi polynomials. -/

namespace Verif.Props.C10
open Verif.Spec Verif.Model Verif.Model.JacobiCoeff Verif.Model.SpecialFunctions Verif.Lemmas

variable {K : Type*} [Field K] [CharZero K] [DecidableEq K]

/-- `jacobi(p, z, alpha, beta)` is the Jacobi polynomial. -/
theorem jacobi_is_jacobi_polynomial (p alpha beta : ℕ) (z : K) :
    jacobi p z alpha beta = jacobiP p alpha beta z := jacobi_eq_jacobiP p z alpha beta

omit [DecidableEq K] in
/-- The division in the loop of `jacobi` (`px ≥ 3`, so `n ≥ 2`) is never a division by zero. -/
theorem jacobi_never_divides_by_zero (n alpha beta : ℕ) (h : 2 ≤ n) :
    ((coeffPnp1 n alpha beta : ℕ) : K) ≠ 0 := by
  rw [Nat.cast_ne_zero]; unfold coeffPnp1
  have : 0 < 2 * n + alpha + beta := by omega
  positivity

/-- Within the tables each use of the coefficients is in bounds, finite, and continues the recursion: from
the polynomials of order `n-1` and `n-2` it gives the one of order `n`. -/
theorem tables_give_recursion (maxN maxAlpha alpha n : ℕ) (z : K) (hα : alpha ≤ maxAlpha) (h2 : 2 ≤ n)
    (hn : n ≤ maxN) :
    recStep (JacobiCoeff.mk maxN maxAlpha) alpha n z
      (some (jacobiP (n - 1) alpha 1 z)) (some (jacobiP (n - 2) alpha 1 z)) = some (some (jacobiP n alpha 1 z)) :=
  recStep_mk maxN maxAlpha alpha n z hα h2 hn

/-- `host_evaluate` gives the Jacobi polynomial for all orders and parameters in the table and asserts
for all others; it never reads outside of the tables. -/
theorem host_evaluate_is_jacobi_polynomial (maxN maxAlpha : ℕ) (n alpha : ℤ) (z : K) :
    hostEvaluate (JacobiCoeff.mk maxN maxAlpha) n alpha z =
      if 0 ≤ n ∧ n ≤ maxN ∧ 0 ≤ alpha ∧ alpha ≤ maxAlpha then .ok (jacobiP n.toNat alpha.toNat 1 z)
      else .error .assertion := by
  unfold hostEvaluate
  by_cases hn : 0 ≤ n ∧ n ≤ (maxN : ℤ)
  · by_cases ha : 0 ≤ alpha ∧ alpha ≤ (maxAlpha : ℤ)
    · rw [if_pos (c := 0 ≤ n ∧ n ≤ (maxN : ℤ) ∧ 0 ≤ alpha ∧ alpha ≤ (maxAlpha : ℤ)) ⟨hn.1, hn.2, ha.1, ha.2⟩,
        if_pos (by exact hn), if_pos (by exact ha)]
      obtain ⟨m, rfl⟩ := Int.eq_ofNat_of_zero_le hn.1
      obtain ⟨a, rfl⟩ := Int.eq_ofNat_of_zero_le ha.1
      simp only [Int.toNat_natCast]
      split_ifs with h0 h1
      · rw [show m = 0 by omega, jacobiP_zero]
      · rw [show m = 1 by omega, jacobiStart1_eq]
      · have hl : hostLoop (JacobiCoeff.mk maxN maxAlpha) a z (m - 1) =
            some (some (jacobiP (m - 1 + 1) a 1 z), some (jacobiP (m - 1) a 1 z)) := by
          unfold hostLoop
          refine forLoop_eq (m - 1) _ (fun i => (some (jacobiP (i + 1) a 1 z), some (jacobiP i a 1 z))) _ ?_ ?_
          · rw [jacobiStart1_eq, jacobiP_zero]
          · intro i hi
            have := recStep_mk (K := K) maxN maxAlpha a (i + 2) z (by omega) (by omega) (by omega)
            simp only [show i + 2 - 1 = i + 1 by omega, Nat.add_sub_cancel] at this
            simp only [this, Option.bind_some]
        rw [hl]
        simp only [show m - 1 + 1 = m by omega]
    · rw [if_pos (by exact hn), if_neg (by exact ha), if_neg (fun h => ha h.2.2)]
  · rw [if_neg (by exact hn), if_neg (fun h => hn ⟨h.1, h.2.1⟩)]

/-- The two implementations agree. -/
theorem host_evaluate_eq_jacobi (maxN maxAlpha n alpha : ℕ) (z : K) (hn : n ≤ maxN) (ha : alpha ≤ maxAlpha) :
    hostEvaluate (JacobiCoeff.mk maxN maxAlpha) n alpha z = .ok (jacobi n z alpha 1) := by
  rw [host_evaluate_is_jacobi_polynomial, if_pos ⟨by omega, by omega, by omega, by omega⟩, jacobi_eq_jacobiP]
  simp

/-- A concrete table: `P_3^(5,1)(1/3)` from a table of orders up to 4. -/
example : hostEvaluate (K := ℚ) (JacobiCoeff.mk 4 5) 3 5 (1 / 3) = .ok (jacobiP 3 5 1 (1 / 3)) := by
  rw [host_evaluate_is_jacobi_polynomial, if_pos (by decide)]; rfl

/-- The explicit sum at a concrete point. -/
example : jacobiP (K := ℚ) 2 1 1 0 = -3 / 4 := by
  norm_num [jacobiP, Finset.sum_range_succ, Nat.choose]

/-- **C10 (the comparison used with the polynomials).** The minimum of the absolute and the relative error is within a tolerance exactly when one of the two is:
the difference is at most `tol`, or at most `tol` times the size of the correct value. -/
theorem minimum_error_iff {K : Type*} [Field K] [LinearOrder K] [IsStrictOrderedRing K] (correct toTest tol : K) :
    minimumAbsrelError correct toTest ≤ tol ↔ |correct - toTest| ≤ tol ∨ (correct ≠ 0 ∧ |correct - toTest| ≤ tol * |correct|) := by
  unfold minimumAbsrelError absoluteError relativeError
  rw [min_le_iff]
  by_cases h : correct = 0
  · simp [h]
  · have hp : 0 < |correct| := abs_pos.2 h
    rw [if_neg hp.ne', div_le_iff₀ hp]
    simp [h]

example : minimumAbsrelError (100 : ℚ) 101 ≤ 1 / 100 ∧ ¬ minimumAbsrelError (1 / 10 : ℚ) 1 ≤ 1 / 10 := by
  constructor
  · rw [minimum_error_iff]; right; norm_num [abs_of_neg]
  · rw [minimum_error_iff]; norm_num [abs_of_neg, abs_of_pos]

end Verif.Props.C10
