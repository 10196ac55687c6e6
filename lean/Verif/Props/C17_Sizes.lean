import Verif.Model.Sizes
import Mathlib.Tactic.Linarith
import Mathlib.Tactic.Ring
import Mathlib.Algebra.Order.Ring.Nat

namespace Verif.Props.C17
open Verif.Model.Sizes

theorem pad_props (V L : ℕ) (hV : 0 < V) :
    L ≤ padToVectorLength V L ∧ V ∣ padToVectorLength V L ∧ padToVectorLength V L < L + V := by
  unfold padToVectorLength
  have h1 := Nat.mod_lt L hV
  have h2 := Nat.div_add_mod L V
  dsimp only
  split_ifs with h
  · exact ⟨le_rfl, Nat.dvd_of_mod_eq_zero h, by omega⟩
  · refine ⟨by omega, ⟨L / V + 1, ?_⟩, by omega⟩
    rw [mul_add]; omega

theorem global_eq_pad (N L : ℕ) (hL : 0 < L) : getGlobalSize N L = some (padToVectorLength L N) := by
  unfold getGlobalSize padToVectorLength
  rw [if_neg (by omega)]
  have h2 := Nat.div_add_mod N L
  have h1 := Nat.mod_lt N hL
  dsimp only
  congr 1
  split_ifs with h
  · rw [add_zero, mul_comm]; omega
  · rw [add_mul, mul_comm]; omega

/-- **C17 (padding).** `pad_to_vector_length(L)` is the least multiple of the vector length that is
not below `L`. -/
theorem pad_least (V L : ℕ) (hV : 0 < V) :
    IsLeast {M | L ≤ M ∧ V ∣ M} (padToVectorLength V L) := by
  obtain ⟨h1, h2, h3⟩ := pad_props V L hV
  refine ⟨⟨h1, h2⟩, ?_⟩
  rintro M ⟨hM, k, rfl⟩
  obtain ⟨j, hj⟩ := h2
  rw [hj] at h3 ⊢
  have : j ≤ k := by
    by_contra hc
    push Not at hc
    have : V * (k + 1) ≤ V * j := Nat.mul_le_mul_left V hc
    rw [mul_add] at this
    omega
  exact Nat.mul_le_mul_left V this

/-- **C17 (launch size).** For each positive work-group size `get_global_size(N, L)` is the least
multiple of `L` not below `N`: every index `< N` is launched, with fewer than `L` superfluous work items. -/
theorem global_size_least (N L : ℕ) (hL : 0 < L) :
    ∃ M, getGlobalSize N L = some M ∧ IsLeast {M | N ≤ M ∧ L ∣ M} M ∧ M < N + L :=
  ⟨_, global_eq_pad N L hL, pad_least L N hL, (pad_props L N hL).2.2⟩

/-- A zero local size is a division by zero. -/
theorem global_size_zero (N : ℕ) : getGlobalSize N 0 = none := rfl

example : getGlobalSize 13 4 = some 16 ∧ padToVectorLength 4 13 = 16 ∧ padToVectorLength 4 12 = 12 := by
  decide

end Verif.Props.C17
