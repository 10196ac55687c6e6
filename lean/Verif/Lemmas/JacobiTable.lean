import Verif.Lemmas.Jacobi
import Verif.Model.JacobiCoeff
import Mathlib.Tactic.NormNum
import Mathlib.Algebra.Order.Field.Basic

/-! The table entries and the recurrence driven by them. -/

namespace Verif.Lemmas
open Verif.Spec Verif.Model Verif.Model.JacobiCoeff Verif.Model.SpecialFunctions

variable {K : Type*} [Field K] [CharZero K]

theorem jacobiStart1_eq (z : K) (α β : ℕ) : jacobiStart1 z α β = jacobiP 1 α β z := by
  rw [jacobiP_one, jacobiStart1]; ring

theorem jacobiP_two (α β : ℕ) (z : K) :
    jacobiP 2 α β z = jacobiStart2 z α β := by
  unfold jacobiP jacobiStart2
  rw [Finset.sum_range_succ, Finset.sum_range_succ, Finset.sum_range_succ, Finset.sum_range_zero]
  have h1 : ((2 + α).choose 2 : K) * 2 = (2 + α) * (1 + α) := by
    have := Nat.choose_two_right (2 + α)
    have h2 : (2 + α).choose 2 * 2 = (2 + α) * (1 + α) := by
      rw [this, show 2 + α - 1 = 1 + α by omega]
      exact Nat.div_mul_cancel (by
        rcases Nat.even_or_odd α with h | h
        · exact Dvd.dvd.mul_right (by obtain ⟨r, hr⟩ := h; exact ⟨1 + r, by omega⟩) _
        · exact Dvd.dvd.mul_left (by obtain ⟨r, hr⟩ := h; exact ⟨1 + r, by omega⟩) _)
    exact_mod_cast h2
  have h3 : ((2 + α + β + 2).choose 2 : K) * 2 = (2 + α + β + 2) * (2 + α + β + 1) := by
    have h2 : (2 + α + β + 2).choose 2 * 2 = (2 + α + β + 2) * (2 + α + β + 1) := by
      rw [Nat.choose_two_right, show 2 + α + β + 2 - 1 = 2 + α + β + 1 by omega]
      exact Nat.div_mul_cancel (by
        rcases Nat.even_or_odd (α + β) with h | h
        · exact Dvd.dvd.mul_right (by obtain ⟨r, hr⟩ := h; exact ⟨2 + r, by omega⟩) _
        · exact Dvd.dvd.mul_left (by obtain ⟨r, hr⟩ := h; exact ⟨2 + r, by omega⟩) _)
    exact_mod_cast h2
  simp only [Nat.choose_zero_right, Nat.choose_one_right, Nat.cast_one, Nat.sub_zero, pow_zero, pow_one,
    show 2 - 1 = 1 from rfl, Nat.sub_self]
  push_cast
  linear_combination (1 / 2) * h1 + (((z - 1) / 2) ^ 2 / 2) * h3

theorem jacobiLoop_eq (z : K) (α β : ℕ) (k : ℕ) :
    jacobiLoop z α β k = (jacobiP (k + 1) α β z, jacobiP (k + 2) α β z) := by
  induction k with
  | zero => rw [jacobiLoop, jacobiStart1_eq, jacobiP_two]
  | succ k ih =>
    rw [jacobiLoop, ih]
    have h := jacobiP_rec (K := K) (k + 1) α β (by omega) z
    refine Prod.ext rfl ?_
    simp only [show k + 3 - 1 = k + 2 by omega]
    have hne : ((coeffPnp1 (k + 2) α β : ℕ) : K) ≠ 0 := by
      rw [Nat.cast_ne_zero]
      unfold coeffPnp1
      positivity
    rw [one_div, inv_mul_eq_iff_eq_mul₀ hne]
    unfold coeffPnp1 coeffPn coeffPnm1
    simp only [pochhammer]
    push_cast at *
    rw [show k + 1 + 2 = k + 3 by omega] at *
    rw [show k + 1 + 1 = k + 2 by omega] at *
    linear_combination -h

theorem jacobi_eq_jacobiP (p : ℕ) (z : K) (α β : ℕ) : jacobi p z α β = jacobiP p α β z := by
  unfold jacobi
  split_ifs with h0 h1 h2
  · rw [h0, jacobiP_zero]
  · rw [h1, jacobiStart1_eq]
  · rw [h2, jacobiP_two]
  · rw [jacobiLoop_eq]
    simp only [show p - 2 + 2 = p by omega]

variable [DecidableEq K]

theorem cPn_ne_zero (α n : ℕ) (h : 1 ≤ n) (h2 : 2 ≤ n ∨ 1 ≤ α) : cPn (K := K) α n ≠ 0 := by
  unfold cPn
  have e : (2 : K) * n * (((n + α : ℕ) : K) + ((n + 1 : ℕ) : K) - n) * (((n + α : ℕ) : K) + ((n + 1 : ℕ) : K) - 2) =
      ((2 * n * (n + α + 1) * (2 * n + α - 1) : ℕ) : K) := by
    rw [Nat.cast_mul, Nat.cast_mul, Nat.cast_mul, Nat.cast_sub (by omega)]
    push_cast; ring
  simp only [e]
  rw [Nat.cast_ne_zero]
  have : 0 < 2 * n + α - 1 := by omega
  positivity

theorem pushTable_getElem? (entry : ℕ → ℕ → Dbl K) (maxN A α n : ℕ) (hα : α < A) (hn : n ≤ maxN) :
    ((List.range A).flatMap fun alphax => (List.range (maxN + 1)).map fun nx => entry alphax nx)[
      (maxN + 1) * α + n]? = some (entry α n) := by
  induction A with
  | zero => omega
  | succ A ih =>
    rw [List.range_succ (n := A), List.flatMap_append]
    have hlen : ((List.range A).flatMap fun alphax => (List.range (maxN + 1)).map fun nx => entry alphax nx).length
        = (maxN + 1) * A := by
      clear ih hα
      induction A with
      | zero => simp
      | succ A ih => rw [List.range_succ (n := A), List.flatMap_append, List.length_append, ih]; simp [Nat.mul_succ]
    rcases Nat.lt_or_ge α A with h | h
    · rw [List.getElem?_append_left]
      · exact ih h
      · rw [hlen]
        calc (maxN + 1) * α + n < (maxN + 1) * α + (maxN + 1) := by omega
          _ = (maxN + 1) * (α + 1) := by ring
          _ ≤ (maxN + 1) * A := Nat.mul_le_mul_left _ h
    · have : α = A := by omega
      subst this
      rw [List.getElem?_append_right (by rw [hlen]; omega), hlen]
      simp [Nat.lt_succ_of_le hn]

theorem read_pushTable (entry : ℕ → ℕ → Dbl K) (maxN maxAlpha α n : ℕ) (hα : α ≤ maxAlpha) (hn : n ≤ maxN) :
    Mem.read (pushTable entry maxN maxAlpha) (((maxN + 1 : ℕ) : ℤ) * α + n) = some (entry α n) := by
  rw [show (((maxN + 1 : ℕ) : ℤ) * α + n) = (((maxN + 1) * α + n : ℕ) : ℤ) by push_cast; ring, Mem.read_ofNat]
  exact pushTable_getElem? entry maxN (maxAlpha + 1) α n (by omega) hn

/-- The tables hold what the recursion needs: one step from the polynomials of order `n-1`, `n-2`. -/
theorem recStep_mk (maxN maxAlpha α n : ℕ) (z : K) (hα : α ≤ maxAlpha) (h2 : 2 ≤ n) (hn : n ≤ maxN) :
    recStep (JacobiCoeff.mk maxN maxAlpha) α n z (some (jacobiP (n - 1) α 1 z)) (some (jacobiP (n - 2) α 1 z)) =
      some (some (jacobiP n α 1 z)) := by
  unfold recStep JacobiCoeff.mk
  simp only []
  rw [read_pushTable _ _ _ _ _ hα hn, read_pushTable _ _ _ _ _ hα hn, read_pushTable _ _ _ _ _ hα hn]
  simp only [Option.bind_some]
  have hc := cPn_ne_zero (K := K) α n (by omega) (Or.inl h2)
  unfold entry10 entry11 entry2 Dbl.div
  simp only [if_neg hc, Dbl.mul_some, Dbl.add_some]
  congr 2
  obtain ⟨m, rfl⟩ : ∃ m, n = m + 2 := ⟨n - 2, by omega⟩
  simp only [show m + 2 - 1 = m + 1 by omega, Nat.add_sub_cancel]
  have h := jacobiP_rec (K := K) m α 1 (by omega) z
  have key : cPn (K := K) α (m + 2) * jacobiP (m + 2) α 1 z =
      ((((m + 2 + α : ℕ) : K) + ((m + 2 + 1 : ℕ) : K) - 1) * (((m + 2 + α : ℕ) : K) + ((m + 2 + 1 : ℕ) : K)) *
        (((m + 2 + α : ℕ) : K) + ((m + 2 + 1 : ℕ) : K) - 2)) * jacobiP (m + 1) α 1 z * z +
      ((((m + 2 + α : ℕ) : K) + ((m + 2 + 1 : ℕ) : K) - 1) * (((m + 2 + α : ℕ) : K) - ((m + 2 + 1 : ℕ) : K)) *
        (((m + 2 + α : ℕ) : K) + ((m + 2 + 1 : ℕ) : K) - 2 * ((m + 2 : ℕ) : K))) * jacobiP (m + 1) α 1 z +
      (-2 * (((m + 2 + α : ℕ) : K) - 1) * (((m + 2 + 1 : ℕ) : K) - 1) *
        (((m + 2 + α : ℕ) : K) + ((m + 2 + 1 : ℕ) : K))) * jacobiP m α 1 z := by
    unfold cPn
    push_cast at *
    linear_combination h
  have hj : jacobiP (m + 2) α 1 z = (1 / cPn (K := K) α (m + 2)) *
      (cPn (K := K) α (m + 2) * jacobiP (m + 2) α 1 z) := by
    rw [one_div, inv_mul_cancel_left₀ hc]
  rw [hj, key]
  ring

end Verif.Lemmas
