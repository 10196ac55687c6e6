import Verif.Lemmas.BasisKernels
import Verif.Lemmas.ModeCounts
import Mathlib.Data.Rat.Floor

/-!
C11: the basis kernels write the reference values in the documented order.

Each theorem gives the whole buffer after the call: the values of all modes in order, followed by the old
content of the slots that are not used. The hypotheses say that the buffer holds the documented number of slots and that
the tables reach the needed orders; C12 shows that the tables the constructor builds do.
-/

namespace Verif.Props.C11
open Verif.Spec Verif.Model Verif.Model.JacobiCoeff Verif.Model.BasisReference Verif.Model.BasisEvaluation
  Verif.Lemmas

variable {K : Type*} [Field K] [CharZero K] [DecidableEq K]

/-- `mod_A` writes `eval_modA_i(p, z)` to slot `p` for every point `z`. -/
theorem mod_A_is_reference (maxN maxAlpha n : ℕ) (z : K) (buf : List (Dbl K)) (h2 : 2 ≤ n) (hl : n ≤ buf.length)
    (hN : n ≤ maxN + 3) (hA : 1 ≤ maxAlpha) :
    modA (JacobiCoeff.mk maxN maxAlpha) n z buf =
      some ((List.range n).map (fun p => some (evalModA p z)) ++ buf.drop n) := by
  rw [modA_eq maxN maxAlpha n z buf h2 hl hN hA, fill]
  simp [listA]

omit [CharZero K] in
theorem listB_modes (n : ℕ) (z : K) : listB n z = (modesB n).map fun m => valB m.1 m.2 z := by
  simp only [listB, modesB, List.map_flatMap, List.map_map]; rfl

omit [CharZero K] in
theorem listC_modes (n : ℕ) (z : K) : listC n z = (modesC n).map fun m => valB (m.1 + m.2.1) m.2.2 z := by
  simp only [listC, modesC, List.map_flatMap, List.map_map]; rfl

omit [CharZero K] in
theorem listPyr_modes (n : ℕ) (z : K) : listPyr n z = (modesPyr n).map fun m => valPyr m.1 m.2.1 m.2.2 z := by
  simp only [listPyr, rowPyr, modesPyr, List.map_flatMap, List.map_map]; rfl

/-- `mod_B` at every point except the collapsed end `z = 1` (see `mod_B_not_finite_at_one`). -/
theorem mod_B_is_reference_partial (maxN maxAlpha n : ℕ) (z : K) (buf : List (Dbl K)) (hz : z ≠ 1)
    (hl : n * (n + 1) / 2 ≤ buf.length) (hN : n ≤ maxN + 2) (hA : 1 ≤ maxAlpha) (hA2 : 2 * n - 3 ≤ maxAlpha) :
    modB (JacobiCoeff.mk maxN maxAlpha) n z buf =
      some ((modesB n).map (fun m => some (evalModB m.1 m.2 z)) ++ buf.drop (n * (n + 1) / 2)) := by
  rw [modB_eq maxN maxAlpha n z buf (by rw [length_listB]; exact hl) hN hA hA2, fill, length_listB, listB_modes]
  simp [valB, hz]

/-- `mod_C` at every point except the collapsed end `z = 1`. -/
theorem mod_C_is_reference_partial (maxN maxAlpha n : ℕ) (z : K) (buf : List (Dbl K)) (hz : z ≠ 1)
    (hl : n * (n + 1) * (n + 2) / 6 ≤ buf.length) (hN : n ≤ maxN + 2) (hA : 1 ≤ maxAlpha)
    (hA2 : 2 * n - 3 ≤ maxAlpha) :
    modC (JacobiCoeff.mk maxN maxAlpha) n z buf =
      some ((modesC n).map (fun m => some (evalModC m.1 m.2.1 m.2.2 z)) ++ buf.drop (n * (n + 1) * (n + 2) / 6)) := by
  have hlen : (listC n z).length = n * (n + 1) * (n + 2) / 6 := by
    rw [listC_modes, List.length_map, length_modesC]
  rw [modC_eq maxN maxAlpha n z buf (by omega) hN hA hA2, fill, hlen, listC_modes]
  simp [valB, hz, evalModC]

/-- `mod_PyrC` at every point except the collapsed end `z = 1`. -/
theorem mod_PyrC_is_reference_partial (maxN maxAlpha n : ℕ) (z : K) (buf : List (Dbl K)) (hz : z ≠ 1) (h1 : 1 ≤ n)
    (hl : n * (n + 1) * (2 * n + 1) / 6 ≤ buf.length) (hN : n ≤ maxN + 2) (hA : 1 ≤ maxAlpha)
    (hA2 : 2 * n - 3 ≤ maxAlpha) (hA4 : 4 * n - 7 ≤ maxAlpha) :
    modPyrC (JacobiCoeff.mk maxN maxAlpha) n z buf =
      some ((modesPyr n).map (fun m => some (evalModPyrC m.1 m.2.1 m.2.2 z)) ++
        buf.drop (n * (n + 1) * (2 * n + 1) / 6)) := by
  have hlen : (listPyr n z).length = n * (n + 1) * (2 * n + 1) / 6 := by
    rw [listPyr_modes, List.length_map, length_modesPyr]
  rw [modPyrC_eq maxN maxAlpha n z buf h1 (by omega) hN hA hA2 hA4, fill, hlen, listPyr_modes]
  simp [valPyr, hz]

/-- At the collapsed end (`z = 1`, the position of the collapsed vertex) `mod_B` starts its powers with `1.0 / 0.0`:
each slot of a mode with `p ≥ 1` gets a value that is not finite although the reference value is finite. -/
theorem mod_B_not_finite_at_one (maxN maxAlpha n : ℕ) (buf : List (Dbl K))
    (hl : n * (n + 1) / 2 ≤ buf.length) (hN : n ≤ maxN + 2) (hA : 1 ≤ maxAlpha) (hA2 : 2 * n - 3 ≤ maxAlpha) :
    modB (JacobiCoeff.mk maxN maxAlpha) n (1 : K) buf =
      some ((modesB n).map (fun m => if m.1 = 0 then some (evalModB m.1 m.2 1) else none) ++
        buf.drop (n * (n + 1) / 2)) := by
  rw [modB_eq maxN maxAlpha n 1 buf (by rw [length_listB]; exact hl) hN hA hA2, fill, length_listB, listB_modes]
  simp [valB]

/-- The same for `mod_C`. -/
theorem mod_C_not_finite_at_one (maxN maxAlpha n : ℕ) (buf : List (Dbl K))
    (hl : n * (n + 1) * (n + 2) / 6 ≤ buf.length) (hN : n ≤ maxN + 2) (hA : 1 ≤ maxAlpha)
    (hA2 : 2 * n - 3 ≤ maxAlpha) :
    modC (JacobiCoeff.mk maxN maxAlpha) n (1 : K) buf =
      some ((modesC n).map (fun m => if m.1 + m.2.1 = 0 then some (evalModC m.1 m.2.1 m.2.2 1) else none) ++
        buf.drop (n * (n + 1) * (n + 2) / 6)) := by
  have hlen : (listC n (1 : K)).length = n * (n + 1) * (n + 2) / 6 := by
    rw [listC_modes, List.length_map, length_modesC]
  rw [modC_eq maxN maxAlpha n 1 buf (by omega) hN hA hA2, fill, hlen, listC_modes]
  simp [valB, evalModC]

/-- The same for `mod_PyrC`: the modes with `p, q ≥ 2`, whose powers start at one, stay finite. -/
theorem mod_PyrC_not_finite_at_one (maxN maxAlpha n : ℕ) (buf : List (Dbl K)) (h1 : 1 ≤ n)
    (hl : n * (n + 1) * (2 * n + 1) / 6 ≤ buf.length) (hN : n ≤ maxN + 2) (hA : 1 ≤ maxAlpha)
    (hA2 : 2 * n - 3 ≤ maxAlpha) (hA4 : 4 * n - 7 ≤ maxAlpha) :
    modPyrC (JacobiCoeff.mk maxN maxAlpha) n (1 : K) buf =
      some ((modesPyr n).map (fun m => if (m.1 = 0 ∧ m.2.1 = 0) ∨ (2 ≤ m.1 ∧ 2 ≤ m.2.1)
          then some (evalModPyrC m.1 m.2.1 m.2.2 1) else none) ++
        buf.drop (n * (n + 1) * (2 * n + 1) / 6)) := by
  have hlen : (listPyr n (1 : K)).length = n * (n + 1) * (2 * n + 1) / 6 := by
    rw [listPyr_modes, List.length_map, length_modesPyr]
  rw [modPyrC_eq maxN maxAlpha n 1 buf h1 (by omega) hN hA hA2 hA4, fill, hlen, listPyr_modes]
  simp [valPyr]

/-- The claim for every evaluation point is false: with two modes at `z = 1` the slot of mode `(1, 0)` is not finite
while `eval_modB_ij(1, 0, 1) = 0`. -/
theorem mod_B_differs_from_reference :
    modB (K := ℚ) (JacobiCoeff.mk 1 1) 2 1 [some 7, some 7, some 7] = some [some 0, some 1, none] ∧
      evalModB (K := ℚ) 1 0 1 = 0 := by
  constructor
  · have := mod_B_not_finite_at_one (K := ℚ) 1 1 2 [some 7, some 7, some 7] (by decide) (by decide) (by decide)
      (by decide)
    rw [this]
    norm_num [modesB, List.range_succ, evalModB, evalModA]
  · norm_num [evalModB]

/-- Three modes at `z = 0` in a buffer of eight slots: the two slots behind the six modes keep their content. -/
example (buf : List (Dbl ℚ)) (h : buf.length = 8) :
    modB (K := ℚ) (JacobiCoeff.mk 2 3) 3 0 buf =
      some ((modesB 3).map (fun m => some (evalModB m.1 m.2 0)) ++ buf.drop 6) :=
  mod_B_is_reference_partial 2 3 3 0 buf (by norm_num) (by omega) (by decide) (by decide) (by decide)

example (buf : List (Dbl ℚ)) (h : buf.length = 100) :
    modPyrC (K := ℚ) (JacobiCoeff.mk 5 15) 5 (1 / 3) buf =
      some ((modesPyr 5).map (fun m => some (evalModPyrC m.1 m.2.1 m.2.2 (1 / 3))) ++ buf.drop 55) :=
  mod_PyrC_is_reference_partial 5 15 5 _ buf (by norm_num) (by decide) (by omega) (by decide) (by decide) (by decide)
    (by decide)

end Verif.Props.C11
