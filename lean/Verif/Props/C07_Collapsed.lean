import Verif.Model.CoordinateMapping
import Mathlib.Algebra.Order.AbsoluteValue.Basic
import Mathlib.Algebra.Order.Group.Abs
import Mathlib.Tactic.FieldSimp
import Mathlib.Tactic.Ring
import Mathlib.Tactic.Linarith
import Mathlib.Tactic.NormNum

namespace Verif.Props.C07
open Verif.Model.CoordMap Verif.Spec

variable {K : Type*} [Field K] [LinearOrder K] [IsStrictOrderedRing K]

theorem zeroGuard_of_le {tol d : K} (h : tol ≤ |d|) : zeroGuard tol d = d := by
  unfold zeroGuard; rw [if_neg (not_lt.2 h)]

theorem tri_guard (tol d : K) :
    (if |d| < tol ∧ d ≥ 0 then tol else if |d| < tol ∧ d < 0 then -tol else d) = zeroGuard tol d := by
  unfold zeroGuard
  by_cases h : |d| < tol
  · by_cases h0 : d ≥ 0
    · simp [h, h0]
    · rw [if_neg (fun x => h0 x.2), if_pos ⟨h, not_le.1 h0⟩, if_pos h, if_neg h0]
  · simp [h]

theorem triTo_eq (tol x0 x1 : K) :
    triToCollapsed tol x0 x1 = (2 * (1 + x0) / zeroGuard tol (1 - x1) - 1, x1) := by
  unfold triToCollapsed; simp only [tri_guard]

/-- A reference point is away from the collapsed edge/vertex when the denominators of its collapsed
coordinates are not within the zero tolerance. -/
def Regular3 (tol : K) : Shape3 → K → K → K → Prop
  | .tet, _, x1, x2 => tol ≤ |1 - x2| ∧ tol ≤ |x1 + x2|
  | .pyr, _, _, x2 => tol ≤ |1 - x2|
  | .prism, _, _, x2 => tol ≤ |1 - x2|
  | .hex, _, _, _ => True

/-- As `Regular3` in two dimensions. -/
def Regular2 (tol : K) : Shape2 → K → K → Prop
  | .tri, _, x1 => tol ≤ |1 - x1|
  | .quad, _, _ => True

theorem ne_of_tol {tol d : K} (ht : 0 < tol) (h : tol ≤ |d|) : d ≠ 0 := by
  rintro rfl; rw [abs_zero] at h; exact absurd ht (not_lt.2 h)

/-- **C07 (`ξ → η → ξ`, three dimensions).** -/
theorem local_collapsed_local_3d (tol : K) (ht : 0 < tol) (s : Shape3) (x0 x1 x2 : K)
    (hr : Regular3 tol s x0 x1 x2) :
    (fun e : K × K × K => fromCollapsed3 s e.1 e.2.1 e.2.2) (toCollapsed3 tol s x0 x1 x2) = (x0, x1, x2) := by
  cases s with
  | hex => rfl
  | prism =>
    simp only [Regular3] at hr
    have h := ne_of_tol ht hr
    simp only [fromCollapsed3, toCollapsed3, prismFromCollapsed, prismToCollapsed, zeroGuard_of_le hr, Prod.mk.injEq]
    refine ⟨?_, by trivial⟩
    field_simp; ring
  | pyr =>
    simp only [Regular3] at hr
    have h := ne_of_tol ht hr
    simp only [fromCollapsed3, toCollapsed3, pyrFromCollapsed, pyrToCollapsed, zeroGuard_of_le hr, Prod.mk.injEq]
    refine ⟨?_, ?_, by trivial⟩ <;> (field_simp; ring)
  | tet =>
    simp only [Regular3] at hr
    obtain ⟨h2, h12⟩ := hr
    have h12' : tol ≤ |-x1 - x2| := by rw [← abs_neg]; convert h12 using 2; ring
    have k2 := ne_of_tol ht h2
    have k12 := ne_of_tol ht h12'
    simp only [fromCollapsed3, toCollapsed3, tetFromCollapsed, tetToCollapsed, zeroGuard_of_le h2,
      zeroGuard_of_le h12', Prod.mk.injEq]
    have e1 : (1 + (2 * (1 + x1) / (1 - x2) - 1)) * (1 - x2) * (1 / 2) - 1 = x1 := by field_simp; ring
    rw [e1]
    refine ⟨?_, by trivial⟩
    field_simp; ring

/-- **C07 (`η → ξ → η`, three dimensions).** The condition is on the point `ξ` which is produced. -/
theorem collapsed_local_collapsed_3d (tol : K) (ht : 0 < tol) (s : Shape3) (e0 e1 e2 : K)
    (hr : (fun x : K × K × K => Regular3 tol s x.1 x.2.1 x.2.2) (fromCollapsed3 s e0 e1 e2)) :
    (fun x : K × K × K => toCollapsed3 tol s x.1 x.2.1 x.2.2) (fromCollapsed3 s e0 e1 e2) = (e0, e1, e2) := by
  cases s with
  | hex => rfl
  | prism =>
    simp only [Regular3, fromCollapsed3, prismFromCollapsed] at hr
    have h := ne_of_tol ht hr
    simp only [fromCollapsed3, toCollapsed3, prismFromCollapsed, prismToCollapsed, zeroGuard_of_le hr, Prod.mk.injEq]
    refine ⟨?_, by trivial⟩
    field_simp; ring
  | pyr =>
    simp only [Regular3, fromCollapsed3, pyrFromCollapsed] at hr
    have h := ne_of_tol ht hr
    simp only [fromCollapsed3, toCollapsed3, pyrFromCollapsed, pyrToCollapsed, zeroGuard_of_le hr, Prod.mk.injEq]
    refine ⟨?_, ?_, by trivial⟩ <;> (field_simp; ring)
  | tet =>
    simp only [Regular3, fromCollapsed3, tetFromCollapsed] at hr
    obtain ⟨h2, h12⟩ := hr
    simp only [fromCollapsed3, toCollapsed3, tetFromCollapsed, tetToCollapsed, Prod.mk.injEq]
    generalize hx : (1 + e1) * (1 - e2) * (1 / 2) - 1 = x1 at *
    have h12' : tol ≤ |-x1 - e2| := by rw [← abs_neg]; convert h12 using 2; ring
    have k2 := ne_of_tol ht h2
    have k12 := ne_of_tol ht h12'
    rw [zeroGuard_of_le h2, zeroGuard_of_le h12']
    refine ⟨?_, ?_, by trivial⟩
    · field_simp; ring
    · rw [← hx]; field_simp; ring

/-- **C07 (two dimensions, both directions).** -/
theorem round_trips_2d (tol : K) (ht : 0 < tol) (s : Shape2) :
    (∀ x0 x1, Regular2 tol s x0 x1 →
      (fun e : K × K => fromCollapsed2 s e.1 e.2) (toCollapsed2 tol s x0 x1) = (x0, x1)) ∧
    (∀ e0 e1, (fun x : K × K => Regular2 tol s x.1 x.2) (fromCollapsed2 s e0 e1) →
      (fun x : K × K => toCollapsed2 tol s x.1 x.2) (fromCollapsed2 s e0 e1) = (e0, e1)) := by
  cases s with
  | quad => exact ⟨fun _ _ _ => rfl, fun _ _ _ => rfl⟩
  | tri =>
    constructor
    · intro x0 x1 hr
      simp only [Regular2] at hr
      have h := ne_of_tol ht hr
      simp only [fromCollapsed2, toCollapsed2, triFromCollapsed, triTo_eq, zeroGuard_of_le hr, Prod.mk.injEq]
      refine ⟨?_, by trivial⟩
      field_simp; ring
    · intro e0 e1 hr
      simp only [Regular2, fromCollapsed2, triFromCollapsed] at hr
      have h := ne_of_tol ht hr
      simp only [fromCollapsed2, toCollapsed2, triFromCollapsed, triTo_eq, zeroGuard_of_le hr, Prod.mk.injEq]
      refine ⟨?_, by trivial⟩
      field_simp; ring

/-- **C07 (run-time dispatch).** For distinct shape codes, the generic functions agree with the class of the
shape at every point, also inside the tolerance. -/
theorem dispatch_selects_shape (tol : K) (c3 : Shape3 → ℤ) (h3 : Function.Injective c3) (c2 : Shape2 → ℤ)
    (h2 : Function.Injective c2) :
    (∀ (s : Shape3) (x0 x1 x2 : K), dispatchTo3 c3 tol (c3 s) x0 x1 x2 = toCollapsed3 tol s x0 x1 x2 ∧
      dispatchFrom3 c3 (c3 s) x0 x1 x2 = fromCollapsed3 s x0 x1 x2) ∧
    (∀ (s : Shape2) (x0 x1 : K), dispatchTo2 c2 tol (c2 s) x0 x1 = toCollapsed2 tol s x0 x1 ∧
      dispatchFrom2 c2 (c2 s) x0 x1 = fromCollapsed2 s x0 x1) := by
  have e3 : ∀ s s', (c3 s = c3 s') = (s = s') := fun s s' => propext h3.eq_iff
  have e2 : ∀ s s', (c2 s = c2 s') = (s = s') := fun s s' => propext h2.eq_iff
  constructor
  · intro s x0 x1 x2
    have ring1 : ∀ a b : K, a * (2 / b) = 2 * a / b := fun a b => by ring
    cases s <;>
      simp [dispatchTo3, toCollapsed3, tetToCollapsed, pyrToCollapsed, prismToCollapsed, hexToCollapsed,
        dispatchFrom3, fromCollapsed3, tetFromCollapsed, pyrFromCollapsed, prismFromCollapsed, hexFromCollapsed,
        e3, ring1]
  · intro s x0 x1
    cases s <;>
      simp [dispatchTo2, toCollapsed2, triToCollapsed, quadToCollapsed,
        dispatchFrom2, fromCollapsed2, triFromCollapsed, quadFromCollapsed, e2]

/-- Non-vacuity: an interior point of each reference element is regular. -/
example : ∀ s : Shape3, Regular3 (1 / 10 ^ 12 : ℚ) s (-1 / 2) (-3 / 4) (-1 / 2) ∧ Regular2 (1 / 10 ^ 12 : ℚ) .tri 0 (-1/2) := by
  intro s
  cases s <;> norm_num [Regular3, Regular2, abs_of_neg, abs_of_pos]

end Verif.Props.C07
