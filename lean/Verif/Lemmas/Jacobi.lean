import Verif.Spec.Jacobi
import Mathlib.Algebra.BigOperators.Ring.Finset
import Mathlib.Algebra.BigOperators.Intervals
import Mathlib.Algebra.Order.Ring.Nat
import Mathlib.Algebra.CharZero.Defs
import Mathlib.Data.Nat.Choose.Sum
import Mathlib.Tactic.LinearCombination
import Mathlib.Tactic.FieldSimp
import Mathlib.Tactic.Ring
import Mathlib.Tactic.Linarith
import Mathlib.Tactic.Positivity

/-! The three-term recurrence of the Jacobi polynomials, from the explicit sum. -/

namespace Verif.Lemmas
open Verif.Spec

variable {K : Type*} [Field K] [CharZero K]

/-- Coefficient of `((z-1)/2)^k`, zero above the degree. -/
def jc (K : Type*) [Field K] (n α β k : ℕ) : K :=
  if k ≤ n then ((n + α).choose (n - k) : K) * ((n + α + β + k).choose k : K) else 0

theorem jacobiP_eq (n α β N : ℕ) (z : K) (h : n < N) :
    jacobiP n α β z = ∑ k ∈ Finset.range N, jc K n α β k * ((z - 1) / 2) ^ k := by
  have hs : Finset.range (n + 1) ⊆ Finset.range N := by
    intro x hx; rw [Finset.mem_range] at *; omega
  rw [← Finset.sum_subset hs (f := fun k => jc K n α β k * ((z - 1) / 2) ^ k)]
  · unfold jacobiP
    refine Finset.sum_congr rfl fun k hk => ?_
    rw [Finset.mem_range] at hk
    rw [jc, if_pos (by omega)]
  · intro k _ hk
    rw [Finset.mem_range] at hk
    rw [jc, if_neg (by omega), zero_mul]

/-- `t_n(k) (n+1-k) (n+1+γ) ...`: relation of neighbouring orders. -/
theorem jc_succ (n α β k : ℕ) :
    jc K n α β k * (((n : K) + 1 + α) * ((n : K) + 1 + α + β + k)) =
      jc K (n + 1) α β k * (((n : K) + 1 - k) * ((n : K) + 1 + α + β)) := by
  rcases lt_trichotomy k (n + 1) with h | h | h
  · have hk : k ≤ n := by omega
    rw [jc, jc, if_pos hk, if_pos (by omega)]
    -- C(n+1+α, n+1-k) (n+1-k) = (n+1+α) C(n+α, n-k)
    have h1 : ((n + α + 1).choose (n - k + 1)) * (n - k + 1) = (n + α + 1) * (n + α).choose (n - k) :=
      (Nat.add_one_mul_choose_eq (n + α) (n - k)).symm
    have h2 : (n + α + β + k + 1).choose k * (n + α + β + k + 1 - k) =
        (n + α + β + k).choose k * (n + α + β + k + 1) := (Nat.choose_mul_succ_eq _ _).symm
    have e1 : n + 1 + α = n + α + 1 := by omega
    have e2 : n + 1 - k = n - k + 1 := by omega
    have e3 : n + 1 + α + β + k = n + α + β + k + 1 := by omega
    have e4 : n + α + β + k + 1 - k = n + 1 + α + β := by omega
    rw [e4] at h2
    rw [e1, e2, ← e1, e3]
    have h1' : ((n + 1 + α).choose (n - k + 1) : K) * ((n : K) + 1 - k) =
        ((n : K) + 1 + α) * ((n + α).choose (n - k) : K) := by
      have := congrArg (Nat.cast (R := K)) h1
      push_cast at this
      rw [Nat.cast_sub hk] at this
      rw [e1]
      linear_combination this
    have h2' : ((n + α + β + k + 1).choose k : K) * ((n : K) + 1 + α + β) =
        ((n + α + β + k).choose k : K) * ((n : K) + 1 + α + β + k) := by
      have := congrArg (Nat.cast (R := K)) h2
      push_cast at this
      linear_combination this
    linear_combination (-((n + α + β + k + 1).choose k : K) * ((n : K) + 1 + α + β)) * h1'
      - ((n : K) + 1 + α) * ((n + α).choose (n - k) : K) * h2'
  · subst h
    rw [jc, if_neg (by omega)]
    push_cast; ring
  · rw [jc, if_neg (by omega), jc, if_neg (by omega)]; ring

/-- Relation to the shifted coefficient. -/
theorem jc_shift (n α β k : ℕ) :
    jc K n α β k * (((n : K) + 1 + α) * (((n : K) + 1 + α + β + (k + 1)) * ((n : K) + 1 + α + β + k))) =
      jc K (n + 1) α β (k + 1) * (((α : K) + k + 1) * (((k : K) + 1) * ((n : K) + 1 + α + β))) := by
  rcases le_or_gt k n with hk | hk
  · rw [jc, jc, if_pos hk, if_pos (by omega)]
    have e2 : n + 1 - (k + 1) = n - k := by omega
    rw [e2]
    have h1 : ((n + α) + 1).choose (n - k) * ((n + α) + 1 - (n - k)) = (n + α).choose (n - k) * ((n + α) + 1) :=
      (Nat.choose_mul_succ_eq _ _).symm
    have e3 : (n + α) + 1 - (n - k) = α + k + 1 := by omega
    rw [e3] at h1
    have h1' : ((n + 1 + α).choose (n - k) : K) * ((α : K) + k + 1) =
        ((n + α).choose (n - k) : K) * ((n : K) + 1 + α) := by
      have := congrArg (Nat.cast (R := K)) h1
      push_cast at this
      rw [show n + 1 + α = n + α + 1 by omega]
      linear_combination this
    -- C(N+2, k+1) (k+1) = (N+2) C(N+1, k), N = n+α+β+k
    have h2 : ((n + α + β + k + 1) + 1) * (n + α + β + k + 1).choose k =
        ((n + α + β + k + 1) + 1).choose (k + 1) * (k + 1) := Nat.add_one_mul_choose_eq _ _
    have h2' : ((n + 1 + α + β + (k + 1)).choose (k + 1) : K) * ((k : K) + 1) =
        ((n : K) + 1 + α + β + (k + 1)) * ((n + α + β + k + 1).choose k : K) := by
      have := congrArg (Nat.cast (R := K)) h2
      push_cast at this
      rw [show n + 1 + α + β + (k + 1) = (n + α + β + k + 1) + 1 by omega]
      linear_combination -this
    have h3 : (n + α + β + k + 1).choose k * (n + α + β + k + 1 - k) =
        (n + α + β + k).choose k * (n + α + β + k + 1) := (Nat.choose_mul_succ_eq _ _).symm
    have h3' : ((n + α + β + k + 1).choose k : K) * ((n : K) + 1 + α + β) =
        ((n + α + β + k).choose k : K) * ((n : K) + 1 + α + β + k) := by
      have e4 : n + α + β + k + 1 - k = n + 1 + α + β := by omega
      rw [e4] at h3
      have := congrArg (Nat.cast (R := K)) h3
      push_cast at this
      linear_combination this
    generalize ((n + 1 + α).choose (n - k) : K) = A at *
    generalize ((n + α).choose (n - k) : K) = B at *
    generalize ((n + 1 + α + β + (k + 1)).choose (k + 1) : K) = C at *
    generalize ((n + α + β + k + 1).choose k : K) = D at *
    generalize ((n + α + β + k).choose k : K) = E at *
    linear_combination (-C * ((k : K) + 1) * ((n : K) + 1 + α + β)) * h1'
      - B * ((n : K) + 1 + α) * ((n : K) + 1 + α + β) * h2'
      - B * ((n : K) + 1 + α) * ((n : K) + 1 + α + β + (k + 1)) * h3'
  · rw [jc, if_neg (by omega), jc, if_neg (by omega)]; ring

/-- The recurrence of the coefficients. -/
theorem jc_rec (n α β : ℕ) (h1 : 1 ≤ n + α + β) (k : ℕ) :
    (2 * ((n : K) + 2) * ((n : K) + 2 + α + β) * (2 * n + 2 + α + β)) * jc K (n + 2) α β k =
      ((2 * n + 3 + α + β) * ((2 * n + 4 + α + β) * (2 * n + 2 + α + β) + ((α : K) ^ 2 - (β : K) ^ 2)))
        * jc K (n + 1) α β k
      + (2 * (2 * n + 3 + α + β) * ((2 * n + 4 + α + β) * (2 * n + 2 + α + β)))
        * (if k = 0 then 0 else jc K (n + 1) α β (k - 1))
      - (2 * ((n : K) + 1 + α) * ((n : K) + 1 + β) * (2 * n + 4 + α + β)) * jc K n α β k := by
  have a1 := jc_succ (K := K) n α β k
  have a2 := jc_succ (K := K) (n + 1) α β k
  have p1 : ((n : K) + 1 + α) ≠ 0 := by exact_mod_cast (by omega : n + 1 + α ≠ 0)
  have p2 : ((n : K) + 2 + α) ≠ 0 := by exact_mod_cast (by omega : n + 2 + α ≠ 0)
  have p3 : ((n : K) + 1 + α + β + k) ≠ 0 := by exact_mod_cast (by omega : n + 1 + α + β + k ≠ 0)
  have p4 : ((n : K) + 2 + α + β + k) ≠ 0 := by exact_mod_cast (by omega : n + 2 + α + β + k ≠ 0)
  have p5 : ((n : K) + α + β + k + 1) ≠ 0 := by exact_mod_cast (by omega : n + α + β + k + 1 ≠ 0)
  push_cast at a2
  have hn : jc K n α β k = jc K (n + 1) α β k * (((n : K) + 1 - k) * ((n : K) + 1 + α + β)) /
      (((n : K) + 1 + α) * ((n : K) + 1 + α + β + k)) := by
    rw [eq_div_iff (mul_ne_zero p1 p3)]; exact a1
  have hn1 : jc K (n + 1) α β k = jc K (n + 2) α β k * (((n : K) + 2 - k) * ((n : K) + 2 + α + β)) /
      (((n : K) + 2 + α) * ((n : K) + 2 + α + β + k)) := by
    rw [eq_div_iff (mul_ne_zero p2 p4)]; linear_combination a2
  rw [hn, hn1]
  cases k with
  | zero =>
    simp only [if_true]
    push_cast at *
    field_simp
    ring
  | succ j =>
    rw [if_neg (by omega), Nat.add_sub_cancel]
    have a3 := jc_shift (K := K) (n + 1) α β j
    push_cast at *
    have p6 : ((n : K) + 2 + α + β + j) ≠ 0 := by exact_mod_cast (by omega : n + 2 + α + β + j ≠ 0)
    have p7 : ((n : K) + 2 + α + β + (j + 1)) ≠ 0 := by exact_mod_cast (by omega : n + 2 + α + β + (j + 1) ≠ 0)
    have hs : jc K (n + 1) α β j = jc K (n + 2) α β (j + 1) *
        (((α : K) + j + 1) * (((j : K) + 1) * ((n : K) + 2 + α + β))) /
        (((n : K) + 2 + α) * (((n : K) + 2 + α + β + (j + 1)) * ((n : K) + 2 + α + β + j))) := by
      rw [eq_div_iff (mul_ne_zero p2 (mul_ne_zero p7 p6))]; linear_combination a3
    rw [hs]
    field_simp
    ring

/-- The three-term recurrence. -/
theorem jacobiP_rec (n α β : ℕ) (h1 : 1 ≤ n + α + β) (z : K) :
    (2 * ((n : K) + 2) * ((n : K) + 2 + α + β) * (2 * n + 2 + α + β)) * jacobiP (n + 2) α β z =
      ((2 * n + 3 + α + β) * ((2 * n + 4 + α + β) * (2 * n + 2 + α + β) * z + ((α : K) ^ 2 - (β : K) ^ 2)))
        * jacobiP (n + 1) α β z
      - (2 * ((n : K) + 1 + α) * ((n : K) + 1 + β) * (2 * n + 4 + α + β)) * jacobiP n α β z := by
  set x : K := (z - 1) / 2 with hx
  have hz : z = 1 + 2 * x := by rw [hx]; field_simp; ring
  have hshift : ∑ k ∈ Finset.range (n + 4), (if k = 0 then 0 else jc K (n + 1) α β (k - 1)) * x ^ k =
      x * ∑ k ∈ Finset.range (n + 3), jc K (n + 1) α β k * x ^ k := by
    rw [Finset.sum_range_succ', Finset.mul_sum]
    simp only [if_true, zero_mul, add_zero]
    refine Finset.sum_congr rfl fun k _ => ?_
    rw [if_neg (by omega), Nat.add_sub_cancel]; ring
  rw [jacobiP_eq (n + 2) α β (n + 4) z (by omega), jacobiP_eq n α β (n + 4) z (by omega)]
  have e1 := jacobiP_eq (n + 1) α β (n + 4) z (by omega)
  have e2 := jacobiP_eq (n + 1) α β (n + 3) z (by omega)
  rw [← hx] at *
  rw [hz]
  have hsum : ∑ k ∈ Finset.range (n + 4),
      ((2 * ((n : K) + 2) * ((n : K) + 2 + α + β) * (2 * n + 2 + α + β)) * jc K (n + 2) α β k) * x ^ k =
      ∑ k ∈ Finset.range (n + 4),
      (((2 * n + 3 + α + β) * ((2 * n + 4 + α + β) * (2 * n + 2 + α + β) + ((α : K) ^ 2 - (β : K) ^ 2)))
        * jc K (n + 1) α β k
      + (2 * (2 * n + 3 + α + β) * ((2 * n + 4 + α + β) * (2 * n + 2 + α + β)))
        * (if k = 0 then 0 else jc K (n + 1) α β (k - 1))
      - (2 * ((n : K) + 1 + α) * ((n : K) + 1 + β) * (2 * n + 4 + α + β)) * jc K n α β k) * x ^ k :=
    Finset.sum_congr rfl fun k _ => by rw [jc_rec n α β h1 k]
  simp only [add_mul, sub_mul, mul_assoc, Finset.sum_add_distrib, Finset.sum_sub_distrib,
    ← Finset.mul_sum] at hsum
  simp only [← mul_assoc, ← Finset.mul_sum] at hsum hshift ⊢
  rw [← hz]
  rw [hshift, ← e2] at hsum
  rw [← e1] at hsum
  rw [hz] at hsum ⊢
  linear_combination hsum

theorem jacobiP_zero (α β : ℕ) (z : K) : jacobiP 0 α β z = 1 := by
  simp [jacobiP]

theorem jacobiP_one (α β : ℕ) (z : K) :
    jacobiP 1 α β z = ((α : K) + 1) + ((α : K) + β + 2) * ((z - 1) / 2) := by
  unfold jacobiP
  rw [Finset.sum_range_succ, Finset.sum_range_succ, Finset.sum_range_zero]
  simp
  ring

end Verif.Lemmas
