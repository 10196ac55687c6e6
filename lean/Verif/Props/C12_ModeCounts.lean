import Verif.Lemmas.ModeCounts
import Verif.Lemmas.BasisKernels
import Mathlib.Data.Rat.Floor

/-! C12: mode counts, and the tables cover the accesses of the kernels. The footprint of the kernels (each
slot below the count is written, no slot above it changes, no access outside of the buffer) is part of the C11 theorems. -/

namespace Verif.Props.C12
open Verif.Spec Verif.Model Verif.Model.JacobiCoeff Verif.Model.BasisReference Verif.Model.BasisEvaluation
  Verif.Model.BasisEvaluateBase Verif.Lemmas

/-- `get_total_num_modes(basis_type, P)` is the documented count and the length of the documented list of modes. -/
theorem basis_total_num_modes (n : ℕ) :
    totalNumModesBasis .modA n = n ∧
    totalNumModesBasis .modB n = n * (n + 1) / 2 ∧ totalNumModesBasis .modB n = (modesB n).length ∧
    totalNumModesBasis .modC n = n * (n + 1) * (n + 2) / 6 ∧ totalNumModesBasis .modC n = (modesC n).length ∧
    totalNumModesBasis .modPyrC n = n * (n + 1) * (2 * n + 1) / 6 ∧
      totalNumModesBasis .modPyrC n = (modesPyr n).length := by
  have hB := sumB n
  have hC := sumC n
  have hP := sumPyr n
  rw [length_modesB, length_modesC, length_modesPyr, totalB, totalC, totalPyr]
  refine ⟨rfl, ?_, ?_, ?_, ?_, ?_, ?_⟩ <;> omega

/-- `get_total_num_modes(shape_type, P)` for each shape. -/
theorem shape_total_num_modes (n : ℕ) :
    (totalNumModesShape .tri n).mode = n * (n + 1) / 2 ∧
    (totalNumModesShape .quad n).mode = n ^ 2 ∧
    (totalNumModesShape .hex n).mode = n ^ 3 ∧
    (totalNumModesShape .prism n).mode = n * (n * (n + 1) / 2) ∧
    (totalNumModesShape .pyr n).mode = n * (n + 1) * (2 * n + 1) / 6 ∧
    (totalNumModesShape .tet n).mode = n * (n + 1) * (n + 2) / 6 := by
  have hB := sumB n
  have hC := sumC n
  have hP := sumPyr n
  refine ⟨?_, ?_, ?_, ?_, ?_, ?_⟩
  · rw [shape_tri]; omega
  · simp only [totalNumModesShape]; ring
  · simp only [totalNumModesShape]; ring
  · rw [shape_prism]
    simp only [Finset.sum_const, Finset.card_range, smul_eq_mul, ← Finset.mul_sum]
    congr 1; omega
  · rw [shape_pyr]; omega
  · rw [shape_tet]; omega

/-- The tables that the constructor of `BasisEvaluateBase` builds for any list of cells reach the orders and the values of
alpha that the kernels of each cell use: the hypotheses of the C11 theorems hold for each cell. -/
theorem tables_cover_kernels (cells : List (Shape × ℕ)) (c : Shape × ℕ) (hc : c ∈ cells) (h1 : 1 ≤ c.2) :
    c.2 ≤ (tableDims cells).1.toNat + 2 ∧ 1 ≤ (tableDims cells).2.toNat ∧
    (c.1 ≠ .quad → c.1 ≠ .hex → 2 * c.2 - 3 ≤ (tableDims cells).2.toNat) ∧
    (c.1 = .pyr → 4 * c.2 - 7 ≤ (tableDims cells).2.toNat) := by
  obtain ⟨h0, h2, h3⟩ := tableDims_ge cells (1, 1)
  obtain ⟨h4, h5⟩ := h3 c hc
  have e : tableDims cells = cells.foldl step (1, 1) := rfl
  rw [← e] at h0 h2 h4 h5
  simp only [] at h0 h2
  obtain ⟨sh, n⟩ := c
  simp only [] at *
  refine ⟨by omega, by omega, fun hq hh => ?_, fun hp => ?_⟩
  · have ha : 2 * (n : ℤ) - 3 ≤ (totalNumModesShape sh n).alpha := by
      cases sh
      · exact tri_alpha n h1
      · exact absurd rfl hq
      · exact absurd rfl hh
      · exact prism_alpha n h1
      · exact (pyr_alpha n h1).1
      · exact tet_alpha n h1
    omega
  · subst hp
    have ha := (pyr_alpha n h1).2
    omega

variable {K : Type*} [Field K] [CharZero K] [DecidableEq K]

/-- With the tables of the constructor the kernels of every cell run without an access outside of the tables or outside
of a buffer of the documented size, for every evaluation point. -/
theorem kernels_in_bounds_partial (cells : List (Shape × ℕ)) (c : Shape × ℕ) (hc : c ∈ cells) (h2 : 2 ≤ c.2) (z : K)
    (bufA bufB bufC bufP : List (Dbl K)) (hA : bufA.length = totalNumModesBasis .modA c.2)
    (hB : bufB.length = totalNumModesBasis .modB c.2) (hC : bufC.length = totalNumModesBasis .modC c.2)
    (hP : bufP.length = totalNumModesBasis .modPyrC c.2) :
    (∃ r, modA (tables K cells) c.2 z bufA = some r ∧ r.length = bufA.length) ∧
    (c.1 = .tri ∨ c.1 = .prism ∨ c.1 = .tet →
      ∃ r, modB (tables K cells) c.2 z bufB = some r ∧ r.length = bufB.length) ∧
    (c.1 = .tet → ∃ r, modC (tables K cells) c.2 z bufC = some r ∧ r.length = bufC.length) ∧
    (c.1 = .pyr → ∃ r, modPyrC (tables K cells) c.2 z bufP = some r ∧ r.length = bufP.length) := by
  obtain ⟨k1, k2, k3, k4⟩ := tables_cover_kernels cells c hc (by omega)
  obtain ⟨_, c1, c2, c3, c4, c5, c6⟩ := basis_total_num_modes c.2
  have lB : (listB c.2 z).length = bufB.length := by rw [length_listB, hB, c1]
  have lC : (listC c.2 z).length = bufC.length := by
    rw [hC, c4]; simp [listC, modesC, length_flatMap_range]
  have lP : (listPyr c.2 z).length = bufP.length := by
    rw [hP, c6]; simp [listPyr, rowPyr, modesPyr, length_flatMap_range]
  have hA' : c.2 = bufA.length := hA.symm
  unfold tables
  refine ⟨⟨_, modA_eq _ _ c.2 z bufA h2 (by omega) (by omega) k2, length_fill _ _ (by simp [listA]; omega)⟩, ?_, ?_, ?_⟩
  · intro h
    exact ⟨_, modB_eq _ _ c.2 z bufB (by omega) k1 k2
      (k3 (by rcases h with h | h | h <;> simp [h]) (by rcases h with h | h | h <;> simp [h])),
      length_fill _ _ (by omega)⟩
  · intro h
    exact ⟨_, modC_eq _ _ c.2 z bufC (by omega) k1 k2 (k3 (by simp [h]) (by simp [h])), length_fill _ _ (by omega)⟩
  · intro h
    exact ⟨_, modPyrC_eq _ _ c.2 z bufP (by omega) (by omega) k1 k2 (k3 (by simp [h]) (by simp [h])) (k4 h),
      length_fill _ _ (by omega)⟩

omit [CharZero K] in
/-- `mod_A` with a single mode writes a second slot: with the documented one slot this is outside of the buffer. -/
theorem mod_A_single_mode_overruns (T : Tables K) (z : K) (x : Dbl K) : modA T 1 z [x] = none := by
  simp [modA, Mem.write]

/-- A mesh of a pyramid and a tetrahedron with five modes each. -/
example : 5 ≤ (tableDims [(.pyr, 5), (.tet, 5)]).1.toNat + 2 ∧ 13 ≤ (tableDims [(.pyr, 5), (.tet, 5)]).2.toNat := by
  have := tables_cover_kernels [(.pyr, 5), (.tet, 5)] (.pyr, 5) (by simp) (by decide)
  exact ⟨this.1, this.2.2.2 rfl⟩

end Verif.Props.C12
