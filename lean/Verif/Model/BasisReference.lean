import Verif.Model.SpecialFunctions
import Verif.Spec.RefElement

/-! Model of src/nektar_interface/basis_reference.cpp. Exact arithmetic; mode numbers are natural numbers. -/

namespace Verif.Model.BasisReference
open Verif.Model.SpecialFunctions

variable {K : Type*} [Field K]

/-- `eval_modA_i(p, z)`, basis_reference.cpp:12-22. -/
def evalModA (p : ℕ) (z : K) : K :=
  let b0 := (1 / 2) * (1 - z)
  let b1 := (1 / 2) * (1 + z)
  if p = 0 then b0
  else if p = 1 then b1
  else b0 * b1 * jacobi (p - 2) z 1 1

/-- `eval_modB_ij(p, q, z)`, basis_reference.cpp:32-45. -/
def evalModB (p q : ℕ) (z : K) : K :=
  if p = 0 then evalModA q z
  else if q = 0 then ((1 / 2) * (1 - z)) ^ p
  else ((1 / 2) * (1 - z)) ^ p * (1 / 2) * (1 + z) * jacobi (q - 1) z (2 * p - 1) 1

/-- `eval_modC_ijk(p, q, r, z)`, basis_reference.cpp:57-59. -/
def evalModC (p q r : ℕ) (z : K) : K := evalModB (p + q) r z

/-- `eval_modPyrC_ijk(p, q, r, z)`, basis_reference.cpp:71-92. -/
def evalModPyrC (p q r : ℕ) (z : K) : K :=
  if p = 0 then evalModB q r z
  else if p = 1 then
    if q = 0 then evalModB 1 r z else evalModB q r z
  else
    if q < 2 then evalModB p r z
    else
      if r = 0 then ((1 / 2) * (1 - z)) ^ (p + q - 2)
      else ((1 / 2) * (1 - z)) ^ (p + q - 2) * ((1 / 2) * (1 + z)) * jacobi (r - 1) z (2 * p + 2 * q - 3) 1

/-- The basis types of Nektar++ the code supports. basis_reference.cpp:104-124. -/
inductive BasisType where
  | modA | modB | modC | modPyrC
deriving DecidableEq, Repr

/-- `get_total_num_modes(basis_type, P)`, basis_reference.cpp:103-138. -/
def totalNumModesBasis : BasisType → ℕ → ℕ
  | .modA, P => P
  | .modB, P => loop P (fun p mode => loop (P - p) (fun _ mode => mode + 1) mode) 0
  | .modC, P => loop P (fun p mode => loop (P - p) (fun q mode =>
      loop (P - p - q) (fun _ mode => mode + 1) mode) mode) 0
  | .modPyrC, P => loop P (fun p mode => loop P (fun q mode =>
      loop (P - max p q) (fun _ mode => mode + 1) mode) mode) 0

/-- The shapes of Nektar++ the code supports. basis_reference.cpp:255-347. -/
inductive Shape where
  | tri | quad | hex | prism | pyr | tet
deriving DecidableEq, Repr

/-- The variables `mode`, `n`, `alpha` of `get_total_num_modes`, basis_reference.cpp:257-281. -/
structure Counts where
  mode : ℕ
  n : ℤ
  alpha : ℤ

/-- `lambda_A(p)`, basis_reference.cpp:260-263. -/
def lamA (p : ℤ) (s : Counts) : Counts := ⟨s.mode, max s.n (p - 2), max s.alpha 1⟩
/-- `lambda_B(p, q)`, basis_reference.cpp:264-267. -/
def lamB (p q : ℤ) (s : Counts) : Counts := ⟨s.mode, max s.n (q - 1), max s.alpha (2 * p - 1)⟩
/-- `lambda_C(p, q, r)`, basis_reference.cpp:268-270. -/
def lamC (p q r : ℤ) (s : Counts) : Counts := lamB (p + q) r s
/-- `lambda_PyrC(p, q, r)`, basis_reference.cpp:271-277. -/
def lamPyrC (p q r : ℤ) (s : Counts) : Counts :=
  let s := lamB q r s
  let s := lamB 1 r s
  let s := lamB p r s
  ⟨s.mode, max s.n (r - 1), max s.alpha (2 * p + 2 * q - 3)⟩
/-- `mode++`. basis_reference.cpp:110, 119, 129. -/
def bump (s : Counts) : Counts := ⟨s.mode + 1, s.n, s.alpha⟩

/-- `get_total_num_modes(shape_type, P, max_n, max_alpha)`, basis_reference.cpp:254-348. -/
def totalNumModesShape (shape : Shape) (P : ℕ) : Counts :=
  let s0 : Counts := ⟨0, 0, 0⟩
  match shape with
  | .tri => loop P (fun p s => loop (P - p) (fun q s => bump (lamB p q (lamA p s))) s) s0
  | .quad => { lamA ((P : ℤ) - 1) s0 with mode := P * P }
  | .hex => { lamA ((P : ℤ) - 1) s0 with mode := P * P * P }
  | .pyr => loop P (fun p s => loop P (fun q s => loop (P - max p q) (fun r s =>
      bump (lamPyrC p q r (lamA q (lamA p s)))) s) s) s0
  | .prism => loop P (fun p s => loop P (fun q s => loop (P - p) (fun r s =>
      bump (lamB p r (lamA q (lamA p s)))) s) s) s0
  | .tet => loop P (fun p s => loop (P - p) (fun q s => loop (P - p - q) (fun r s =>
      bump (lamC p q r (lamB p q (lamA p s)))) s) s) s0

end Verif.Model.BasisReference
