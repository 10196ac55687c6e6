import Verif.Spec.Modes
import Mathlib.Algebra.Order.Field.Basic

/-!
The basis functions of an element in the order of its degrees of freedom. `a0, a1, a2` are the values of the
modified A functions in each direction, `b` of the modified B functions and `c` of the modified C (or pyramid C)
functions at the collapsed coordinates. The top vertex (and for prisms and tetrahedra the modes of the top edge) drop factors,
as in Nektar++.
-/

namespace Verif.Spec
variable {K : Type*} [Field K]

def expansionQuad (n : ℕ) (a0 a1 : ℕ → K) : List K :=
  (List.range n).flatMap fun q => (List.range n).map fun p => a0 p * a1 q

def expansionTri (n : ℕ) (a0 : ℕ → K) (b : ℕ → ℕ → K) : List K :=
  (modesB n).map fun m => if m.1 = 0 ∧ m.2 = 1 then b m.1 m.2 else a0 m.1 * b m.1 m.2

def expansionHex (n : ℕ) (a0 a1 a2 : ℕ → K) : List K :=
  (List.range n).flatMap fun r => (List.range n).flatMap fun q => (List.range n).map fun p => a0 p * a1 q * a2 r

def expansionPrism (n : ℕ) (a0 a1 : ℕ → K) (b : ℕ → ℕ → K) : List K :=
  (List.range n).flatMap fun p => (List.range n).flatMap fun q => (List.range (n - p)).map fun r =>
    if p = 0 ∧ r = 1 then a1 q * b p r else a0 p * a1 q * b p r

def expansionPyr (n : ℕ) (a0 a1 : ℕ → K) (c : ℕ → ℕ → ℕ → K) : List K :=
  (modesPyr n).map fun m =>
    if m.1 = 0 ∧ m.2.1 = 0 ∧ m.2.2 = 1 then c m.1 m.2.1 m.2.2 else a0 m.1 * a1 m.2.1 * c m.1 m.2.1 m.2.2

def expansionTet (n : ℕ) (a0 : ℕ → K) (b : ℕ → ℕ → K) (c : ℕ → ℕ → ℕ → K) : List K :=
  (modesC n).map fun m =>
    if m.1 = 0 ∧ m.2.1 = 0 ∧ m.2.2 = 1 then c m.1 m.2.1 m.2.2
    else if m.1 = 0 ∧ m.2.1 = 1 then b m.1 m.2.1 * c m.1 m.2.1 m.2.2
    else a0 m.1 * b m.1 m.2.1 * c m.1 m.2.1 m.2.2

/-- `Σ_k dofs[k] * e[k]`. -/
def dot (dofs e : List K) : K := (List.zipWith (· * ·) dofs e).sum

end Verif.Spec
