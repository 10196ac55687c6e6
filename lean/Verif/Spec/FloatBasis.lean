import Verif.Spec.FloatExpansion

/-! What C115 says about the errors of computed values of basis functions. -/

namespace Verif.Spec.FloatBasis
open Verif.Spec.FloatExpansion

/-- One rounding, including that of numbers close to zero: a factor very close to one. -/
noncomputable def ρ : ℝ := q * (1 + η)

/-- The computed value `x` of `X` is as accurate as after `k` roundings of values of magnitude `m`. -/
def Accurate (k : ℕ) (m x X : ℝ) : Prop := |x - X| ≤ (ρ ^ k - 1) * m

end Verif.Spec.FloatBasis
