import Verif.Spec.Rounding
import Mathlib.Data.List.Forall2

/-! What C114 means by computed values of basis functions and by the error of accumulated values. -/

namespace Verif.Spec.FloatExpansion
open Verif.Spec.Rounding

/-- The computed values `l` of the one dimensional functions are within `δ` of the exact ones, which are at most `B` in magnitude. (`none`: no
exact value, nothing is said.) -/
def Space (δ B : ℝ) (l : List ℝ) (L : List (Option ℝ)) : Prop := List.Forall₂ (fun a b => ∀ x, b = some x → |a - x| ≤ δ ∧ |x| ≤ B) l L

/-- The largest relative error of a sum or product of doubles, and one. -/
noncomputable def q : ℝ := 1 + (2 : ℝ) ^ (-52 : ℤ)

/-- The distance of the smallest doubles. -/
noncomputable def η : ℝ := (2 : ℝ) ^ (-1074 : ℤ)

/-- Three values of one dimensional functions are multiplied, each is within `δ` of a number of magnitude at most `B`. -/
noncomputable def growth (δ B : ℝ) : ℝ := (q * (B + δ)) ^ 3

/-- The error of accumulating `k` products on to the value `c`. The exact products are multiples of `weight` in total by at most `B ^ 3`. -/
noncomputable def sumError (δ B : ℝ) (k : ℕ) (c weight : ℝ) : ℝ :=
  q ^ k * (|c| + growth δ B * (weight + 4 * η * (k + weight))) - |c| - B ^ 3 * weight

end Verif.Spec.FloatExpansion
