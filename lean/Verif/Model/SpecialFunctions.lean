import Mathlib.Algebra.Order.Field.Basic
import Mathlib.Data.Nat.Cast.Defs
import Verif.Model.Loop

/-!
Model of include/nektar_interface/special_functions.hpp.

Simplifications: `double` is an ordered field and `int` is unbounded (the integer products of lines 72-77 are
evaluated without overflow); the orders and the parameters are natural numbers, which is how every caller in
the repository uses them.
-/

namespace Verif.Model.SpecialFunctions

/-- `pochhammer(m, n)`, special_functions.hpp:35-41: the loop multiplies `m + offset` for `offset = 0..n-1`. -/
def pochhammer (m : ℕ) : ℕ → ℕ
  | 0 => 1
  | n + 1 => pochhammer m n * (m + n)

variable {K : Type*} [Field K]

/-- `coeff_pnp1`, special_functions.hpp:71-72. -/
def coeffPnp1 (n alpha beta : ℕ) : ℕ := 2 * (n + 1) * (n + alpha + beta + 1) * (2 * n + alpha + beta)

/-- `coeff_pn`, special_functions.hpp:73-75. -/
def coeffPn (n alpha beta : ℕ) (z : K) : K :=
  ((2 * n + alpha + beta + 1 : ℕ) : K) * ((alpha : K) * alpha - (beta : K) * beta)
    + (pochhammer (2 * n + alpha + beta) 3 : K) * z

/-- `coeff_pnm1`, special_functions.hpp:76-77. -/
def coeffPnm1 (n alpha beta : ℕ) : K :=
  -2 * ((n + alpha : ℕ) : K) * ((n + beta : ℕ) : K) * ((2 * n + alpha + beta + 2 : ℕ) : K)

/-- Linear start value, special_functions.hpp:56 (also jacobi_coeff_mod_basis.cpp:64). -/
def jacobiStart1 (z : K) (alpha beta : ℕ) : K :=
  (1 / 2) * (2 * ((alpha : K) + 1) + ((alpha : K) + beta + 2) * (z - 1))

/-- Quadratic start value, special_functions.hpp:60-63. -/
def jacobiStart2 (z : K) (alpha beta : ℕ) : K :=
  (1 / 8) * (4 * ((alpha : K) + 1) * ((alpha : K) + 2)
    + 4 * ((alpha : K) + beta + 3) * ((alpha : K) + 2) * (z - 1)
    + ((alpha : K) + beta + 3) * ((alpha : K) + beta + 4) * (z - 1) * (z - 1))

/-- The loop of special_functions.hpp:69-83 after `k` passes (pass `k` has `px = k + 3`);
the state is `(pnm1, pn)`. -/
def jacobiLoop (z : K) (alpha beta : ℕ) : ℕ → K × K
  | 0 => (jacobiStart1 z alpha beta, jacobiStart2 z alpha beta)
  | k + 1 =>
    let s := jacobiLoop z alpha beta k
    let px := k + 3
    let n := px - 1
    let pnp1 := (1 / (coeffPnp1 n alpha beta : K)) * (coeffPn n alpha beta z * s.2 + coeffPnm1 n alpha beta * s.1)
    (s.2, pnp1)

/-- `jacobi(p, z, alpha, beta)`, special_functions.hpp:51-86. -/
def jacobi (p : ℕ) (z : K) (alpha beta : ℕ) : K :=
  if p = 0 then 1
  else if p = 1 then jacobiStart1 z alpha beta
  else if p = 2 then jacobiStart2 z alpha beta
  else (jacobiLoop z alpha beta (p - 2)).2

/-- `relative_error`, special_functions.hpp:95-99. -/
def relativeError [LinearOrder K] (correct toTest : K) : K :=
  if |correct| = 0 then |correct - toTest| else |correct - toTest| / |correct|

/-- `absolute_error`, special_functions.hpp:108-111. -/
def absoluteError [LinearOrder K] (correct toTest : K) : K := |correct - toTest|

/-- `minimum_absrel_error`, special_functions.hpp:121-124. -/
def minimumAbsrelError [LinearOrder K] (correct toTest : K) : K :=
  min (absoluteError correct toTest) (relativeError correct toTest)

end Verif.Model.SpecialFunctions
