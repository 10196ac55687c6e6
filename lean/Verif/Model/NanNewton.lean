import Verif.Model.FloatNewton

/-!
The residuals of the specialisations of `MappingNewtonIterationBase` whose measure is computed with `sycl::fmax` (newton_quad.hpp, newton_prism.hpp, newton_pyr.hpp, newton_tet.hpp in
include/nektar_interface/particle_cell_mapping), for arguments that may be NaN. A NaN argument is the expression `0 / 0`, which has no value, so that an expression has a value if the program computes
a number and none if it computes a NaN. Overflow and infinities are not modelled.
-/

namespace Verif.Model.NanNewton
open Verif.Model.NewtonKernel Verif.Model.FloatExpr Verif.Spec.LinearElements

/-- A number or NaN. No code: the type `REAL`, x_map_newton_kernel.hpp:71-75. -/
abbrev Num := Option ℝ

/-- An argument of the generated functions: newton_quad.hpp:84-92. -/
noncomputable def arg : Num → Expr
  | some x => lit x
  | none => lit 0 / lit 0

/-- Three arguments: newton_quad.hpp:84-92. -/
noncomputable def arg3 (v : V3 Num) : V3 Expr := ⟨arg v.x, arg v.y, arg v.z⟩

/-- What a program computes for an expression. No code: floating point semantics of generated_linear/quadrilateral.hpp:126-143. -/
def Computes (rnd : ℝ → ℝ) (e : Expr) (out : Num) : Prop :=
  match out with
  | some v => Res rnd e false v
  | none => ¬ ∃ v, Res rnd e false v

/-- `sycl::fmax`: if one argument is NaN the other one is returned. newton_relative_exit_tolerances.hpp:21-41. -/
noncomputable def fmax : Num → Num → Num
  | some a, some b => some (max a b)
  | some a, none => some a
  | none, b => b

/-- `sycl::fabs(f) * scaling_dir`, newton_relative_exit_tolerances.hpp:23-24. -/
noncomputable def scaled (rnd : ℝ → ℝ) (f : Num) (sc : ℝ) : Num := f.map fun f => rnd (|f| * sc)

/-- The generated residual functions with arguments that may be NaN: newton_quad.hpp:84-92, newton_prism.hpp:66-84, newton_pyr.hpp:101-113, newton_tet.hpp:66-80. Hexahedra use another measure
and are not modelled here. -/
noncomputable def newtonF (s : Shape) (c : ℕ → V3 ℝ) (xi p : V3 Num) : V3 Expr :=
  match s with
  | .quad => FloatLinear.Quad.newtonF (fun i => FloatNewton.lit3 (c i)) (arg3 xi) (arg3 p)
  | .hex => FloatLinear.Hex.newtonF (fun i => FloatNewton.lit3 (c i)) (arg3 xi) (arg3 p)
  | .prism => FloatLinear.Prism.newtonF (fun i => FloatNewton.lit3 (c i)) (arg3 xi) (arg3 p)
  | .pyr => FloatLinear.Pyr.newtonF (fun i => FloatNewton.lit3 (c i)) (arg3 xi) (arg3 p)
  | .tet => FloatLinear.Tet.newtonF (fun i => FloatNewton.lit3 (c i)) (arg3 xi) (arg3 p)

/-- `get_relative_error_2d` and `get_relative_error_3d`, newton_relative_exit_tolerances.hpp:21-41. -/
noncomputable def measureN (rnd : ℝ → ℝ) (s : Shape) (sc : V3 ℝ) (f : V3 Num) : Num :=
  match s with
  | .quad => fmax (scaled rnd f.x sc.x) (scaled rnd f.y sc.y)
  | _ => fmax (fmax (scaled rnd f.x sc.x) (scaled rnd f.y sc.y)) (scaled rnd f.z sc.z)

/-- `ABS(a - b) <= kNekZeroTol`, false for a NaN: newton_pyr.hpp:86-97. -/
def near (rnd : ℝ → ℝ) (tol : ℝ) (a : Num) (b : ℝ) : Prop := ∃ x, a = some x ∧ |rnd (b - x)| ≤ tol

/-- The tests `vt && xt` for the apex of a pyramid, newton_pyr.hpp:86-97. The sign of the difference does not matter. -/
def apex (rnd : ℝ → ℝ) (tol : ℝ) (c : ℕ → V3 ℝ) (xi p : V3 Num) : Prop :=
  (near rnd tol p.x (c 4).x ∧ near rnd tol p.y (c 4).y ∧ near rnd tol p.z (c 4).z) ∧ near rnd tol xi.x (-1) ∧ near rnd tol xi.y (-1) ∧ near rnd tol xi.z 1

/-- What `newton_residual` returns: newton_quad.hpp:76-92, newton_prism.hpp:62-84, newton_pyr.hpp:79-113, newton_tet.hpp:62-80. -/
def Residual (rnd : ℝ → ℝ) (tol : ℝ) (s : Shape) (c : ℕ → V3 ℝ) (sc : V3 ℝ) (xi p : V3 Num) (out : Num) : Prop :=
  (s = .pyr ∧ apex rnd tol c xi p → out = some 0) ∧
  (¬ (s = .pyr ∧ apex rnd tol c xi p) → ∃ f : V3 Num, Computes rnd (newtonF s c xi p).x f.x ∧ Computes rnd (newtonF s c xi p).y f.y ∧ Computes rnd (newtonF s c xi p).z f.z ∧ out = measureN rnd s sc f)

/-- An implementation for the element with vertices `c` and scalings `sc`; its Newton steps, starting points and maps of the coordinates are not restricted.
newton_quad.hpp:60-128, newton_prism.hpp:47-116, newton_pyr.hpp:47-156, newton_tet.hpp:47-113. -/
def NanImpl (rnd : ℝ → ℝ) (tol : ℝ) (s : Shape) (c : ℕ → V3 ℝ) (sc : V3 ℝ) (I : Impl Num) : Prop := ∀ xi p, Residual rnd tol s c sc xi p (I.residual xi p).1

/-- The implementation for a quadrilateral: also the starting point and the maps of the coordinates, newton_quad.hpp:96-128. -/
structure QuadNanImpl (rnd : ℝ → ℝ) (c : ℕ → V3 ℝ) (sc : V3 ℝ) (I : Impl Num) : Prop where
  residual : NanImpl rnd 0 .quad c sc I
  initial : ∀ p, I.initial p = ⟨some 0, some 0, some 0⟩
  toCollapsed : ∀ xi, I.toCollapsed xi = ⟨xi.x, xi.y, some 0⟩
  fromCollapsed : ∀ e, I.fromCollapsed e = ⟨e.x, e.y, some 0⟩

/-- The operations of x_map_newton_kernel.hpp:106-129 and map_particles_newton.hpp:337-364: comparisons of numbers, comparisons with NaN are false. -/
structure NanOps (o : Ops Num) : Prop where
  gt : ∀ a b, o.gt (some a) (some b) = true ↔ a > b
  le : ∀ a b, o.le (some a) (some b) = true ↔ a ≤ b
  leNan : ∀ b, o.le none b = false
  kmin : ∀ a b, o.kmin (some a) (some b) = some (min a b)
  kmax : ∀ a b, o.kmax (some a) (some b) = some (max a b)

end Verif.Model.NanNewton
