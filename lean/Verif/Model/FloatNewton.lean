import Verif.Model.FloatLinear
import Verif.Spec.LinearElements
import Verif.Spec.Rounding

/-!
The specialisations of `MappingNewtonIterationBase` for straight-sided elements (newton_quad.hpp, newton_hex.hpp, newton_prism.hpp, newton_pyr.hpp, newton_tet.hpp in
include/nektar_interface/particle_cell_mapping) with `double`. The values are the finite doubles and `none` for infinities and NaN. What is computed is said by relations: every result that is
possible with some contractions of the compiler. The Newton steps, the starting points and the maps to collapsed coordinates are not restricted: they may return any doubles.
-/

namespace Verif.Model.FloatNewton
open Verif.Model.NewtonKernel Verif.Model.FloatExpr Verif.Spec.LinearElements Verif.Spec.Rounding

/-- A finite double, for the type `REAL` of x_map_newton_kernel.hpp:71-75. No upper bound on the exponent: overflow is not modelled. -/
abbrev Fin64 := {x : ℝ // IsFloat 53 (-1074) x}

/-- A double; `none` is an infinity or NaN. x_map_newton_kernel.hpp:71-75. -/
abbrev Double := Option Fin64

/-- The coordinates which the shape uses, if they are finite. No code: for a quadrilateral the third coordinate is constant, newton_quad.hpp:60-128. -/
def finite (s : Shape) (v : V3 Double) : Option (V3 ℝ) :=
  match s, v with
  | .quad, ⟨some x, some y, _⟩ => some ⟨x.1, y.1, 0⟩
  | .quad, _ => none
  | _, ⟨some x, some y, some z⟩ => some ⟨x.1, y.1, z.1⟩
  | _, _ => none

/-- Three numbers as expressions. No code: arguments of the generated functions, newton_hex.hpp:54-130. -/
def lit3 (v : V3 ℝ) : V3 Expr := ⟨lit v.x, lit v.y, lit v.z⟩

/-- The call of the generated function for the shape: newton_quad.hpp:84-92, newton_hex.hpp:78-96, newton_prism.hpp:66-84, newton_pyr.hpp:101-113, newton_tet.hpp:66-80. -/
noncomputable def newtonF (s : Shape) (c : ℕ → V3 ℝ) (xi p : V3 ℝ) : V3 Expr :=
  match s with
  | .quad => FloatLinear.Quad.newtonF (fun i => lit3 (c i)) (lit3 xi) (lit3 p)
  | .hex => FloatLinear.Hex.newtonF (fun i => lit3 (c i)) (lit3 xi) (lit3 p)
  | .prism => FloatLinear.Prism.newtonF (fun i => lit3 (c i)) (lit3 xi) (lit3 p)
  | .pyr => FloatLinear.Pyr.newtonF (fun i => lit3 (c i)) (lit3 xi) (lit3 p)
  | .tet => FloatLinear.Tet.newtonF (fun i => lit3 (c i)) (lit3 xi) (lit3 p)

/-- The measure of the residual: `get_relative_error_2d` and `get_relative_error_3d`, newton_relative_exit_tolerances.hpp:21-41; for hexahedra newton_hex.hpp:91-96, where `sc.x` is
`jacobian_scaling`. Absolute values and maxima are exact. -/
noncomputable def measureF (rnd : ℝ → ℝ) (s : Shape) (sc f : V3 ℝ) : ℝ :=
  match s with
  | .quad => max (rnd (|f.x| * sc.x)) (rnd (|f.y| * sc.y))
  | .hex => rnd (max (max |f.x| |f.y|) |f.z| * sc.x)
  | _ => max (max (rnd (|f.x| * sc.x)) (rnd (|f.y| * sc.y))) (rnd (|f.z| * sc.z))

/-- The tests for the apex of a pyramid, `vt && xt`, newton_pyr.hpp:86-97. -/
def apexF (rnd : ℝ → ℝ) (tol : ℝ) (c : ℕ → V3 ℝ) (xi p : V3 ℝ) : Prop :=
  (|rnd ((c 4).x - p.x)| ≤ tol ∧ |rnd ((c 4).y - p.y)| ≤ tol ∧ |rnd ((c 4).z - p.z)| ≤ tol) ∧ |rnd (xi.x - (-1))| ≤ tol ∧ |rnd (xi.y - (-1))| ≤ tol ∧ |rnd (xi.z - 1)| ≤ tol

/-- What `newton_residual` returns: newton_quad.hpp:76-92, newton_hex.hpp:72-96, newton_prism.hpp:62-84, newton_pyr.hpp:79-113, newton_tet.hpp:62-80. In the generated function for pyramids
a division by `x3` zero gives a NaN in all three directions. -/
def ResidualF (rnd : ℝ → ℝ) (tol : ℝ) (s : Shape) (c : ℕ → V3 ℝ) (sc xi p : V3 ℝ) (out : Double) : Prop :=
  (s = .pyr ∧ apexF rnd tol c xi p → ∃ r, out = some r ∧ r.1 = 0) ∧
  (¬ (s = .pyr ∧ apexF rnd tol c xi p) →
    (s = .pyr ∧ rnd (xi.z - 1) = 0 → out = none) ∧
    (¬ (s = .pyr ∧ rnd (xi.z - 1) = 0) → ∃ f : V3 ℝ, Res rnd (newtonF s c xi p).x false f.x ∧ Res rnd (newtonF s c xi p).y false f.y ∧ Res rnd (newtonF s c xi p).z false f.z ∧
      ∃ r, out = some r ∧ r.1 = measureF rnd s sc f))

/-- `loc_collapsed_to_loc_coord` as expressions: coordinate_mapping.hpp:195-214 (tetrahedra), 251-266, 307-328, 372-379 and 410-415. -/
noncomputable def fromCollapsed (s : Shape) (e : V3 ℝ) : V3 Expr :=
  match s with
  | .quad => ⟨lit e.x, lit e.y, lit 0⟩
  | .hex => ⟨lit e.x, lit e.y, lit e.z⟩
  | .prism => ⟨(lit 1 + lit e.x) * (lit 1 - lit e.z) * lit (1 / 2) - lit 1, lit e.y, lit e.z⟩
  | .pyr => ⟨(lit 1 + lit e.x) * (lit 1 - lit e.z) * lit (1 / 2) - lit 1, (lit 1 + lit e.y) * (lit 1 - lit e.z) * lit (1 / 2) - lit 1, lit e.z⟩
  | .tet =>
    let x1 := (lit 1 + lit e.y) * (lit 1 - lit e.z) * lit (1 / 2) - lit 1
    ⟨(lit 1 + lit e.x) * (-x1 - lit e.z) * lit (1 / 2) - lit 1, x1, lit e.z⟩

/-- An implementation for the element with vertices `c` and scalings `sc`, with `double` arithmetic rounded by `rnd`; `tol` is `kNekZeroTol`. Numbers computed from an infinity or NaN are not
finite: each direction of the residual depends on all coordinates of the reference position. newton_quad.hpp:60-128, newton_hex.hpp:54-130, newton_prism.hpp:47-116, newton_pyr.hpp:47-156,
newton_tet.hpp:47-113. -/
structure FloatImpl (rnd : ℝ → ℝ) (tol : ℝ) (s : Shape) (c : ℕ → V3 ℝ) (sc : V3 ℝ) (I : Impl Double) : Prop where
  residual : ∀ xi p x q, finite s xi = some x → finite s p = some q → ResidualF rnd tol s c sc x q (I.residual xi p).1
  residualNone : ∀ xi p, finite s xi = none → (I.residual xi p).1 = none
  collapsed : ∀ e v, finite s e = some v → ∃ x, finite s (I.fromCollapsed e) = some x ∧
    Res rnd (fromCollapsed s v).x false x.x ∧ Res rnd (fromCollapsed s v).y false x.y ∧ Res rnd (fromCollapsed s v).z false x.z
  collapsedNone : ∀ e, finite s e = none → finite s (I.fromCollapsed e) = none

/-- The operations of x_map_newton_kernel.hpp:106-129 and map_particles_newton.hpp:337-364 on doubles, as far as they matter: comparisons of finite numbers, comparisons with NaN and with the
infinity that a measure can be, and the bounds of a number that is not finite, which may be the other argument. -/
structure FloatOps (o : Ops Double) : Prop where
  le : ∀ a b, o.le (some a) (some b) = decide (a.1 ≤ b.1)
  leNone : ∀ b, o.le none b = false
  kmin : ∀ a b, o.kmin (some a) (some b) = if a.1 ≤ b.1 then some a else some b
  kmax : ∀ a b, o.kmax (some a) (some b) = if a.1 ≤ b.1 then some b else some a
  kminNone : ∀ b, o.kmin none b = none ∨ o.kmin none b = b
  kmaxNone : ∀ b, o.kmax none b = none ∨ o.kmax none b = b

end Verif.Model.FloatNewton
