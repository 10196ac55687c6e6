import Mathlib.Algebra.BigOperators.Group.Finset.Basic
import Mathlib.Algebra.Field.Defs

/-! Polynomial interpolation on a grid of nodes. -/

namespace Verif.Spec

variable {K : Type*} [Field K]

/-- The polynomial with coefficients `c a b`, of degree below `n0` in `x` and below `n1` in `y`. -/
def poly2 (n0 n1 : ℕ) (c : ℕ → ℕ → K) (x y : K) : K :=
  ∑ a ∈ Finset.range n0, ∑ b ∈ Finset.range n1, c a b * x ^ a * y ^ b

/-- The polynomial with coefficients `c a b d`, of degree below `n0`, `n1`, `n2` in `x`, `y`, `t`. -/
def poly3 (n0 n1 n2 : ℕ) (c : ℕ → ℕ → ℕ → K) (x y t : K) : K :=
  ∑ a ∈ Finset.range n0, ∑ b ∈ Finset.range n1, ∑ d ∈ Finset.range n2, c a b d * x ^ a * y ^ b * t ^ d

/-- Nodes and weights of one dimension: at least one node, the nodes are distinct and the weights are the barycentric weights
`1 / ∏_{j ≠ i} (z i - z j)` up to a common factor. -/
structure BaryRule (n : ℕ) (z bw : List K) : Prop where
  pos : 0 < n
  z_length : n ≤ z.length
  bw_length : n ≤ bw.length
  distinct : ∀ i < n, ∀ j < n, z.getD i 0 = z.getD j 0 → i = j
  weights : ∃ κ : K, κ ≠ 0 ∧ ∀ i < n, bw.getD i 0 =
    κ * (∏ j ∈ (Finset.range n).erase i, (z.getD i 0 - z.getD j 0))⁻¹

/-- The values at the nodes are those of `F`; dimension 0 runs fastest. -/
def NodalValues2 (n0 n1 : ℕ) (z0 z1 : List K) (physvals : List K) (F : K → K → K) : Prop :=
  physvals.length = n0 * n1 ∧
    ∀ i1 < n1, ∀ i0 < n0, physvals[i1 * n0 + i0]? = some (F (z0.getD i0 0) (z1.getD i1 0))

def NodalValues3 (n0 n1 n2 : ℕ) (z0 z1 z2 : List K) (physvals : List K) (F : K → K → K → K) : Prop :=
  physvals.length = n0 * n1 * n2 ∧
    ∀ i2 < n2, ∀ i1 < n1, ∀ i0 < n0,
      physvals[i2 * (n0 * n1) + i1 * n0 + i0]? = some (F (z0.getD i0 0) (z1.getD i1 0) (z2.getD i2 0))

/-- `pf` are the `count` values of function `f` of `N` interlaced functions. -/
def IsComponent (N f count : ℕ) (p pf : List K) : Prop :=
  pf.length = count ∧ ∀ k < count, pf[k]? = p[k * N + f]?

end Verif.Spec
