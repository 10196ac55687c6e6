import Mathlib.Data.Nat.Choose.Basic
import Mathlib.Algebra.BigOperators.Group.Finset.Basic
import Mathlib.Algebra.Order.Field.Basic

/-!
The Jacobi polynomials by their explicit sum
`P_n^(α,β)(z) = Σ_{k=0}^{n} C(n+α, n-k) C(n+α+β+k, k) ((z-1)/2)^k`
(DLMF 18.5.7 for non-negative integers `α`, `β`).
-/

namespace Verif.Spec

/-- The Jacobi polynomial `P_n^(α,β)(z)`. -/
def jacobiP {K : Type*} [Field K] (n α β : ℕ) (z : K) : K :=
  ∑ k ∈ Finset.range (n + 1),
    ((n + α).choose (n - k) : K) * ((n + α + β + k).choose k : K) * ((z - 1) / 2) ^ k

end Verif.Spec
