import Mathlib.Data.List.Range
import Verif.Model.Mem
import Verif.Model.SpecialFunctions

/-!
Model of src/nektar_interface/expansion_looping/jacobi_coeff_mod_basis.cpp.

A `double` is `Option K`: `none` is a value that is not finite (a division by zero) or indeterminate.
-/

namespace Verif.Model

/-- Arithmetic on doubles whose value may be not finite (`none`); not finite values propagate. In IEEE
arithmetic `inf * 0` is NaN, and no code modelled here turns an infinite value back into a finite one. No code: `double`, jacobi_coeff_mod_basis.cpp:25-60. -/
abbrev Dbl (K : Type*) := Option K

namespace Dbl
variable {K : Type*} [Field K] [DecidableEq K]

/-- `x * y`. Used for jacobi_coeff_mod_basis.cpp:25-40. -/
def mul (x y : Dbl K) : Dbl K := x.bind fun a => y.map fun b => a * b
/-- `x + y`. Used for jacobi_coeff_mod_basis.cpp:25-40. -/
def add (x y : Dbl K) : Dbl K := x.bind fun a => y.map fun b => a + b
/-- `x / y`: not finite when `y` is zero. Used for jacobi_coeff_mod_basis.cpp:35. -/
def div (x y : K) : Dbl K := if y = 0 then none else some (x / y)

@[simp] theorem mul_some (a b : K) : mul (some a) (some b) = some (a * b) := rfl
@[simp] theorem add_some (a b : K) : add (some a) (some b) = some (a + b) := rfl
@[simp] theorem none_mul (b : Dbl K) : mul none b = none := rfl
@[simp] theorem mul_none (b : Dbl K) : mul b none = none := by cases b <;> rfl
end Dbl

namespace JacobiCoeff
variable {K : Type*} [Field K] [DecidableEq K]

/-- `c_pn`, jacobi_coeff_mod_basis.cpp:26-31 (`beta = 1`, line 19). -/
def cPn (alphax nx : ℕ) : K :=
  let a : K := (nx + alphax : ℕ); let b : K := (nx + 1 : ℕ); let c := a + b; let n : K := nx
  2 * n * (c - n) * (c - 2)

/-- `ic_pn * c_pnm10`, jacobi_coeff_mod_basis.cpp:26-37. -/
def entry10 (alphax nx : ℕ) : Dbl K :=
  let a : K := (nx + alphax : ℕ); let b : K := (nx + 1 : ℕ); let c := a + b
  Dbl.mul (Dbl.div 1 (cPn alphax nx)) (some ((c - 1) * c * (c - 2)))

/-- `ic_pn * c_pnm11`, jacobi_coeff_mod_basis.cpp:26-38. -/
def entry11 (alphax nx : ℕ) : Dbl K :=
  let a : K := (nx + alphax : ℕ); let b : K := (nx + 1 : ℕ); let c := a + b; let n : K := nx
  Dbl.mul (Dbl.div 1 (cPn alphax nx)) (some ((c - 1) * (a - b) * (c - 2 * n)))

/-- `ic_pn * c_pnm2`, jacobi_coeff_mod_basis.cpp:26-39. -/
def entry2 (alphax nx : ℕ) : Dbl K :=
  let a : K := (nx + alphax : ℕ); let b : K := (nx + 1 : ℕ); let c := a + b
  Dbl.mul (Dbl.div 1 (cPn alphax nx)) (some (-2 * (a - 1) * (b - 1) * c))

/-- The loops of jacobi_coeff_mod_basis.cpp:24-41: entries are pushed for `alphax = 0..max_alpha` and
`nx = 0..max_n`. -/
def pushTable (entry : ℕ → ℕ → Dbl K) (maxN maxAlpha : ℕ) : List (Dbl K) :=
  (List.range (maxAlpha + 1)).flatMap fun alphax => (List.range (maxN + 1)).map fun nx => entry alphax nx

/-- The members of `JacobiCoeffModBasis`, jacobi_coeff_mod_basis.hpp:40-46. -/
structure Tables (K : Type*) where
  maxN : ℕ
  maxAlpha : ℕ
  strideN : ℕ
  pnm10 : List (Dbl K)
  pnm11 : List (Dbl K)
  pnm2 : List (Dbl K)

/-- The constructor, jacobi_coeff_mod_basis.cpp:16-42. -/
def mk (maxN maxAlpha : ℕ) : Tables K where
  maxN := maxN
  maxAlpha := maxAlpha
  strideN := maxN + 1
  pnm10 := pushTable entry10 maxN maxAlpha
  pnm11 := pushTable entry11 maxN maxAlpha
  pnm2 := pushTable entry2 maxN maxAlpha

/-- One use of the tables: `pn = c_pnm10 * pnm1 * z + c_pnm11 * pnm1 + c_pnm2 * pnm2` with the entries at
`stride_n * alpha + nx`, jacobi_coeff_mod_basis.cpp:71-74 and basis_evaluation.hpp:89-92, 108-112, 166-169,
236-239, 255-258, 374-377. The outcome `none` is an access outside of the tables. -/
def recStep (T : Tables K) (alpha nx : ℕ) (z : K) (pnm1 pnm2 : Dbl K) : Option (Dbl K) :=
  (Mem.read T.pnm10 (T.strideN * alpha + nx)).bind fun c10 =>
  (Mem.read T.pnm11 (T.strideN * alpha + nx)).bind fun c11 =>
  (Mem.read T.pnm2 (T.strideN * alpha + nx)).bind fun c2 =>
    some (Dbl.add (Dbl.add (Dbl.mul (Dbl.mul c10 pnm1) (some z)) (Dbl.mul c11 pnm1)) (Dbl.mul c2 pnm2))

/-- How a call can end without a finite result. jacobi_coeff_mod_basis.cpp:55-58. -/
inductive Fail where
  | assertion | undefinedBehaviour | notFinite
deriving DecidableEq, Repr

/-- The loop of jacobi_coeff_mod_basis.cpp:70-77 after `k` passes (pass `k` has `nx = k + 2`); the state is
`(pnm1, pnm2)`. -/
def hostLoop (T : Tables K) (alpha : ℕ) (z : K) (k : ℕ) : Option (Dbl K × Dbl K) :=
  forLoop k (fun i s => (recStep T alpha (i + 2) z s.1 s.2).bind fun pn => some (pn, s.1))
    (some (SpecialFunctions.jacobiStart1 z alpha 1), some 1)

/-- `host_evaluate(n, alpha, z)`, jacobi_coeff_mod_basis.cpp:52-80. -/
def hostEvaluate (T : Tables K) (n alpha : ℤ) (z : K) : Except Fail K :=
  if 0 ≤ n ∧ n ≤ T.maxN then
    if 0 ≤ alpha ∧ alpha ≤ T.maxAlpha then
      if n = 0 then .ok 1
      else if n = 1 then .ok (SpecialFunctions.jacobiStart1 z alpha.toNat 1)
      else match hostLoop T alpha.toNat z (n.toNat - 1) with
        | none => .error .undefinedBehaviour
        | some (none, _) => .error .notFinite
        | some (some pn, _) => .ok pn
    else .error .assertion
  else .error .assertion

end JacobiCoeff
end Verif.Model
