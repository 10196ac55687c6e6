import Verif.Model.BasisEvaluation
import Verif.Model.BasisReference

/-!
Model of the part of include/nektar_interface/expansion_looping/basis_evaluate_base.hpp that decides the size of
the coefficient tables (lines 170-171, 197-221, 251). A cell is its shape and its number of modes: the number
of modes is the same in each direction (asserted at lines 204-206).
-/

namespace Verif.Model.BasisEvaluateBase
open Verif.Model.BasisReference Verif.Model.JacobiCoeff

/-- The body of the loop over the cells, basis_evaluate_base.hpp:197-221, on `(max_n, max_alpha)`. -/
def step (s : ℤ × ℤ) (cell : Shape × ℕ) : ℤ × ℤ :=
  let maxN := max s.1 ((cell.2 : ℤ) - 1)
  let c := totalNumModesShape cell.1 cell.2
  (max maxN c.n, max s.2 c.alpha)

/-- `max_n` and `max_alpha` after the loop over the cells, basis_evaluate_base.hpp:170-226. -/
def tableDims (cells : List (Shape × ℕ)) : ℤ × ℤ := cells.foldl step (1, 1)

/-- The tables, basis_evaluate_base.hpp:251. -/
def tables (K : Type*) [Field K] [DecidableEq K] (cells : List (Shape × ℕ)) : Tables K :=
  JacobiCoeff.mk (tableDims cells).1.toNat (tableDims cells).2.toNat

end Verif.Model.BasisEvaluateBase
