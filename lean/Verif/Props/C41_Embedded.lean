import Verif.Spec.Embedded
import Verif.Props.C39_AffineOneStep
import Mathlib.Tactic.Linarith

/-! C41: triangles and quadrilaterals embedded in three dimensions. -/

namespace Verif.Props.C41
open Verif.Model.NewtonKernel Verif.Spec.Embedded Verif.Spec.LinearElements
open Verif.Model.LinearElements Verif.Model.NewtonElements Verif.Props.C38 Verif.Props.C39

variable {K : Type*} [Field K]

/-! ### Triangles -/

section tri
variable [LinearOrder K] [IsStrictOrderedRing K]

theorem normal_ne (u v : V3 K) (h : cross u v = ⟨0, 0, 0⟩) : ∃ s t : K, (s ≠ 0 ∨ t ≠ 0) ∧ s * u.x + t * v.x = 0 ∧ s * u.y + t * v.y = 0 ∧ s * u.z + t * v.z = 0 := by
  simp only [cross, V3.mk.injEq] at h
  obtain ⟨h1, h2, h3⟩ := h
  by_cases hx : u.x = 0 ∧ v.x = 0
  · by_cases hy : u.y = 0 ∧ v.y = 0
    · by_cases hz : u.z = 0 ∧ v.z = 0
      · exact ⟨1, 0, Or.inl one_ne_zero, by rw [hx.1]; simp, by rw [hy.1]; simp, by rw [hz.1]; simp⟩
      · refine ⟨v.z, -u.z, ?_, ?_, ?_, ?_⟩
        · by_contra hc
          push Not at hc
          exact hz ⟨neg_eq_zero.1 hc.2, hc.1⟩
        · rw [hx.1, hx.2]; simp
        · rw [hy.1, hy.2]; simp
        · ring
    · refine ⟨v.y, -u.y, ?_, ?_, ?_, ?_⟩
      · by_contra hc
        push Not at hc
        exact hy ⟨neg_eq_zero.1 hc.2, hc.1⟩
      · linear_combination h3
      · ring
      · linear_combination -h1
  · refine ⟨v.x, -u.x, ?_, ?_, ?_, ?_⟩
    · by_contra hc
      push Not at hc
      exact hx ⟨neg_eq_zero.1 hc.2, hc.1⟩
    · ring
    · linear_combination -h3
    · linear_combination h2

theorem normal_sq_ne (c : ℕ → V3 K) (i j : ℕ) (h : ¬ Collinear c i j) :
    dot (cross (sub (c i) (c 0)) (sub (c j) (c 0))) (cross (sub (c i) (c 0)) (sub (c j) (c 0))) ≠ 0 := by
  intro h0
  apply h
  generalize hn : cross (sub (c i) (c 0)) (sub (c j) (c 0)) = n at h0
  simp only [dot] at h0
  have hx : n.x = 0 := by nlinarith [mul_self_nonneg n.x, mul_self_nonneg n.y, mul_self_nonneg n.z]
  have hy : n.y = 0 := by nlinarith [mul_self_nonneg n.x, mul_self_nonneg n.y, mul_self_nonneg n.z]
  have hz : n.z = 0 := by nlinarith [mul_self_nonneg n.x, mul_self_nonneg n.y, mul_self_nonneg n.z]
  have hn' : cross (sub (c i) (c 0)) (sub (c j) (c 0)) = ⟨0, 0, 0⟩ := by
    rw [hn, ← hx]
    conv_rhs => rw [hx]
    cases n
    simp only at hx hy hz
    simp [hx, hy, hz]
  obtain ⟨s, t, h1, h2, h3, h4⟩ := normal_ne _ _ hn'
  exact ⟨s, t, h1, h2, h3, h4⟩

omit [LinearOrder K] [IsStrictOrderedRing K] in
theorem den0 (u v : V3 K) : dot u (cross (cross u v) v) = - dot (cross u v) (cross u v) := by simp only [dot, cross]; ring
omit [LinearOrder K] [IsStrictOrderedRing K] in
theorem den1 (u v : V3 K) : dot v (cross (cross u v) u) = dot (cross u v) (cross u v) := by simp only [dot, cross]; ring

/-- **C41, triangle.** For a triangle whose vertices are not collinear the initial iterate for a point of its plane is the exact inverse. -/
theorem tri_initial_exact (c : ℕ → V3 K) (h : ¬ Collinear c 1 2) (a b : K) : triInitial c (triPoint c a b) = ⟨a, b, 0⟩ := by
  have hd := normal_sq_ne c 1 2 h
  have e : sub (triPoint c a b) (c 0) = ⟨(1 + a) / 2 * (sub (c 1) (c 0)).x + (1 + b) / 2 * (sub (c 2) (c 0)).x,
      (1 + a) / 2 * (sub (c 1) (c 0)).y + (1 + b) / 2 * (sub (c 2) (c 0)).y, (1 + a) / 2 * (sub (c 1) (c 0)).z + (1 + b) / 2 * (sub (c 2) (c 0)).z⟩ := by
    simp only [sub, triPoint, weightedFrom, V3.mk.injEq]
    refine ⟨?_, ?_, ?_⟩ <;> ring
  unfold triInitial
  dsimp only
  rw [e]
  generalize sub (c 1) (c 0) = u at hd ⊢
  generalize sub (c 2) (c 0) = v at hd ⊢
  have n0 : dot ⟨(1 + a) / 2 * u.x + (1 + b) / 2 * v.x, (1 + a) / 2 * u.y + (1 + b) / 2 * v.y, (1 + a) / 2 * u.z + (1 + b) / 2 * v.z⟩ (cross (cross u v) v) =
      (1 + a) / 2 * dot u (cross (cross u v) v) := by simp only [dot, cross]; ring
  have n1 : dot ⟨(1 + a) / 2 * u.x + (1 + b) / 2 * v.x, (1 + a) / 2 * u.y + (1 + b) / 2 * v.y, (1 + a) / 2 * u.z + (1 + b) / 2 * v.z⟩ (cross (cross u v) u) =
      (1 + b) / 2 * dot v (cross (cross u v) u) := by simp only [dot, cross]; ring
  have d0 : dot u (cross (cross u v) v) ≠ 0 := by rw [den0]; exact neg_ne_zero.2 hd
  have d1 : dot v (cross (cross u v) u) ≠ 0 := by rw [den1]; exact hd
  rw [n0, n1, mul_div_assoc, div_self d0, mul_div_assoc, div_self d1]
  simp only [V3.mk.injEq, and_true]
  constructor <;> ring

/-- The residual vector is the difference of the point of the triangle and the target. -/
theorem tri_residual_exact (c : ℕ → V3 K) (xi p : V3 K) : triResidual c xi p =
    ⟨(triPoint c xi.x xi.y).x - p.x, (triPoint c xi.x xi.y).y - p.y, (triPoint c xi.x xi.y).z - p.z⟩ := by
  simp only [triResidual, triPoint, weightedFrom, sub, V3.mk.injEq]
  refine ⟨?_, ?_, ?_⟩ <;> ring

/-- **C41, triangle, points off the plane.** For every point of space the initial iterate is the reference position of the orthogonal projection to
the plane of the triangle: the residual is orthogonal to both edges. It is the only such position. -/
theorem tri_initial_projects (c : ℕ → V3 K) (h : ¬ Collinear c 1 2) (p : V3 K) :
    dot (triResidual c (triInitial c p) p) (sub (c 1) (c 0)) = 0 ∧ dot (triResidual c (triInitial c p) p) (sub (c 2) (c 0)) = 0 := by
  have hd := normal_sq_ne c 1 2 h
  have d0 := den0 (sub (c 1) (c 0)) (sub (c 2) (c 0))
  have d1 := den1 (sub (c 1) (c 0)) (sub (c 2) (c 0))
  have e : triResidual c (triInitial c p) p = ⟨
      (dot (sub p (c 0)) (cross (cross (sub (c 1) (c 0)) (sub (c 2) (c 0))) (sub (c 2) (c 0))) / dot (sub (c 1) (c 0)) (cross (cross (sub (c 1) (c 0)) (sub (c 2) (c 0))) (sub (c 2) (c 0)))) * (sub (c 1) (c 0)).x
        + (dot (sub p (c 0)) (cross (cross (sub (c 1) (c 0)) (sub (c 2) (c 0))) (sub (c 1) (c 0))) / dot (sub (c 2) (c 0)) (cross (cross (sub (c 1) (c 0)) (sub (c 2) (c 0))) (sub (c 1) (c 0)))) * (sub (c 2) (c 0)).x - (sub p (c 0)).x,
      (dot (sub p (c 0)) (cross (cross (sub (c 1) (c 0)) (sub (c 2) (c 0))) (sub (c 2) (c 0))) / dot (sub (c 1) (c 0)) (cross (cross (sub (c 1) (c 0)) (sub (c 2) (c 0))) (sub (c 2) (c 0)))) * (sub (c 1) (c 0)).y
        + (dot (sub p (c 0)) (cross (cross (sub (c 1) (c 0)) (sub (c 2) (c 0))) (sub (c 1) (c 0))) / dot (sub (c 2) (c 0)) (cross (cross (sub (c 1) (c 0)) (sub (c 2) (c 0))) (sub (c 1) (c 0)))) * (sub (c 2) (c 0)).y - (sub p (c 0)).y,
      (dot (sub p (c 0)) (cross (cross (sub (c 1) (c 0)) (sub (c 2) (c 0))) (sub (c 2) (c 0))) / dot (sub (c 1) (c 0)) (cross (cross (sub (c 1) (c 0)) (sub (c 2) (c 0))) (sub (c 2) (c 0)))) * (sub (c 1) (c 0)).z
        + (dot (sub p (c 0)) (cross (cross (sub (c 1) (c 0)) (sub (c 2) (c 0))) (sub (c 1) (c 0))) / dot (sub (c 2) (c 0)) (cross (cross (sub (c 1) (c 0)) (sub (c 2) (c 0))) (sub (c 1) (c 0)))) * (sub (c 2) (c 0)).z - (sub p (c 0)).z⟩ := by
    simp only [triResidual, triInitial]
    generalize dot (sub p (c 0)) (cross (cross (sub (c 1) (c 0)) (sub (c 2) (c 0))) (sub (c 2) (c 0))) / dot (sub (c 1) (c 0)) (cross (cross (sub (c 1) (c 0)) (sub (c 2) (c 0))) (sub (c 2) (c 0))) = s
    generalize dot (sub p (c 0)) (cross (cross (sub (c 1) (c 0)) (sub (c 2) (c 0))) (sub (c 1) (c 0))) / dot (sub (c 2) (c 0)) (cross (cross (sub (c 1) (c 0)) (sub (c 2) (c 0))) (sub (c 1) (c 0))) = t
    simp only [sub, V3.mk.injEq]
    refine ⟨?_, ?_, ?_⟩ <;> ring
  rw [e, d0, d1]
  generalize sub (c 1) (c 0) = u at hd ⊢
  generalize sub (c 2) (c 0) = v at hd ⊢
  generalize sub p (c 0) = r
  have hd' := hd
  obtain ⟨y, hy⟩ : ∃ y, y * dot (cross u v) (cross u v) = 1 := ⟨(dot (cross u v) (cross u v))⁻¹, inv_mul_cancel₀ hd⟩
  have hy' : (dot (cross u v) (cross u v))⁻¹ = y := by rw [inv_eq_iff_eq_inv, eq_inv_of_mul_eq_one_right hy]
  rw [div_neg, div_eq_mul_inv, div_eq_mul_inv, hy']
  simp only [dot, cross] at hy ⊢
  constructor
  · linear_combination (u.x * r.x + u.y * r.y + u.z * r.z) * hy
  · linear_combination (v.x * r.x + v.y * r.y + v.z * r.z) * hy

theorem tri_initial_unique (c : ℕ → V3 K) (h : ¬ Collinear c 1 2) (p : V3 K) (a b : K)
    (h1 : dot (triResidual c ⟨a, b, 0⟩ p) (sub (c 1) (c 0)) = 0) (h2 : dot (triResidual c ⟨a, b, 0⟩ p) (sub (c 2) (c 0)) = 0) :
    triInitial c p = ⟨a, b, 0⟩ := by
  have hd := normal_sq_ne c 1 2 h
  have d0 : dot (sub (c 1) (c 0)) (cross (cross (sub (c 1) (c 0)) (sub (c 2) (c 0))) (sub (c 2) (c 0))) ≠ 0 := by rw [den0]; exact neg_ne_zero.2 hd
  have d1 : dot (sub (c 2) (c 0)) (cross (cross (sub (c 1) (c 0)) (sub (c 2) (c 0))) (sub (c 1) (c 0))) ≠ 0 := by rw [den1]; exact hd
  have e : triResidual c ⟨a, b, 0⟩ p = ⟨(1 + a) / 2 * (sub (c 1) (c 0)).x + (1 + b) / 2 * (sub (c 2) (c 0)).x - (sub p (c 0)).x,
      (1 + a) / 2 * (sub (c 1) (c 0)).y + (1 + b) / 2 * (sub (c 2) (c 0)).y - (sub p (c 0)).y,
      (1 + a) / 2 * (sub (c 1) (c 0)).z + (1 + b) / 2 * (sub (c 2) (c 0)).z - (sub p (c 0)).z⟩ := by
    simp only [triResidual, sub, V3.mk.injEq]
    refine ⟨?_, ?_, ?_⟩ <;> ring
  rw [e] at h1 h2
  unfold triInitial
  dsimp only
  generalize sub (c 1) (c 0) = u at h1 h2 d0 d1 ⊢
  generalize sub (c 2) (c 0) = v at h1 h2 d0 d1 ⊢
  generalize sub p (c 0) = r at h1 h2 ⊢
  have s0 : dot r (cross (cross u v) v) = (1 + a) / 2 * dot u (cross (cross u v) v) := by
    simp only [dot, cross] at h1 h2 ⊢
    linear_combination (v.x * v.x + v.y * v.y + v.z * v.z) * h1 - (u.x * v.x + u.y * v.y + u.z * v.z) * h2
  have s1 : dot r (cross (cross u v) u) = (1 + b) / 2 * dot v (cross (cross u v) u) := by
    simp only [dot, cross] at h1 h2 ⊢
    linear_combination (u.x * v.x + u.y * v.y + u.z * v.z) * h1 - (u.x * u.x + u.y * u.y + u.z * u.z) * h2
  rw [s0, s1, mul_div_assoc, div_self d0, mul_div_assoc, div_self d1]
  simp only [V3.mk.injEq, and_true]
  constructor <;> ring

/-- **C41, triangle, acceptance.** A point of the triangle away from the collapsed vertex is accepted, with its reference position, without any
iteration. -/
theorem tri_point_accepted (tol : K) (htol : 0 < tol) (c : ℕ → V3 K) (h : ¬ Collinear c 1 2) (sc : V3 K) (t : Settings K) (hlo : t.lo ≤ -1) (hhi : 1 ≤ t.hi)
    (ht : 0 ≤ t.tol) (a b : K) (hw : Verif.Spec.InRef2 0 .tri a b) (hreg : tol ≤ |1 - b|) :
    acceptInitial (exactOps K) (triEmbedImpl tol c sc) t (triPoint c a b) = some ⟨a, b, 0⟩ := by
  have hinit : (triEmbedImpl tol c sc).initial (triPoint c a b) = ⟨a, b, 0⟩ := tri_initial_exact c h a b
  have hres : ((triEmbedImpl tol c sc).residual ⟨a, b, 0⟩ (triPoint c a b)) = (0, ⟨0, 0, 0⟩) := by
    show (relativeError3d sc (triResidual c ⟨a, b, 0⟩ (triPoint c a b)).x _ _, _) = _
    rw [tri_residual_exact]
    simp [relativeError3d]
  refine accept_of_inverse (triEmbedImpl tol c sc) t hlo hhi _ none ⟨a, b, 0⟩ ?_ ?_ ?_ ?_
  · unfold xInverse
    dsimp only
    rw [Option.getD_none, hinit, hres]
    have : ∀ n, iterate (exactOps K) (triEmbedImpl tol c sc) (triPoint c a b) t.tol n ⟨⟨a, b, 0⟩, 0, ⟨0, 0, 0⟩, false⟩ = ⟨⟨a, b, 0⟩, 0, ⟨0, 0, 0⟩, false⟩ := by
      intro n
      cases n with
      | zero => rfl
      | succ n => rw [iterate, if_neg (by simp [exactOps, ht])]
    rw [this]
    simp [exactOps, ht]
  · have := (Verif.Props.C08.element_unit_collapsed_2d tol htol .tri a b).1 hw
    exact ⟨this.1, this.2, by unfold Verif.Spec.InUnit; simp [triEmbedImpl]⟩
  · have := (Verif.Props.C07.round_trips_2d tol htol .tri).1 a b hreg
    exact congrArg (fun t : K × K => (⟨t.1, t.2, 0⟩ : V3 K)) this
  · rw [hres]
    exact ht

/-- An accepted position is a point of the triangle, enlarged by the tolerance of the test, within tolerance of the target. -/
theorem tri_accepted_sound (tol : K) (c : ℕ → V3 K) (sc : V3 K) (t : Settings K) (hc : t.lo ≤ t.hi) (p : V3 K) (start : Option (V3 K)) (xi : V3 K)
    (h : tryCandidate (exactOps K) (triEmbedImpl tol c sc) t p start = some xi) :
    xi.z = 0 ∧ |(triPoint c xi.x xi.y).x - p.x| * sc.x ≤ t.tol ∧ |(triPoint c xi.x xi.y).y - p.y| * sc.y ≤ t.tol ∧
      |(triPoint c xi.x xi.y).z - p.z| * sc.z ≤ t.tol := by
  obtain ⟨h1, eta, h2, _⟩ := Verif.Props.C36.accepted_exact _ t hc p start xi h
  have h1' : relativeError3d sc (triResidual c xi p).x (triResidual c xi p).y (triResidual c xi p).z ≤ t.tol := h1
  rw [tri_residual_exact, relativeError3d, max_le_iff, max_le_iff] at h1'
  exact ⟨by rw [h2]; rfl, h1'.1.1, h1'.1.2, h1'.2⟩

end tri

/-! ### Quadrilaterals -/

section quad

/-- **C41, quadrilateral, residual.** The extended map is the surface map plus `ξ₂` times the plane normal, and the residual its difference to the
target. -/
theorem quad_residual_exact [CharZero K] (c : ℕ → V3 K) (n xi p : V3 K) : QuadEmbed.newtonF (withNormal c n) xi p =
    ⟨(quadPoint c xi.x xi.y).x + xi.z * n.x - p.x, (quadPoint c xi.x xi.y).y + xi.z * n.y - p.y, (quadPoint c xi.x xi.y).z + xi.z * n.z - p.z⟩ := by
  simp only [QuadEmbed.newtonF, withNormal, quadPoint, X, weights, weightedFrom, V3.mk.injEq]
  norm_num
  refine ⟨?_, ?_, ?_⟩ <;> (field_simp; ring)

/-- **C41, quadrilateral, surface.** On `ξ₂ = 0` the map of the implementation (`XMapNewtonKernel::x`) is the surface map. -/
theorem quad_surface [LinearOrder K] [IsStrictOrderedRing K] (c : ℕ → V3 K) (n sc : V3 K) (a b : K) :
    xMap (quadEmbedImpl c n sc) ⟨a, b, 0⟩ = quadPoint c a b := by
  show QuadEmbed.newtonF (withNormal c n) ⟨a, b, 0⟩ ⟨0, 0, 0⟩ = _
  rw [quad_residual_exact]
  simp

/-- The extended map. -/
def extended (c : ℕ → V3 K) (n xi : V3 K) : V3 K :=
  ⟨(quadPoint c xi.x xi.y).x + xi.z * n.x, (quadPoint c xi.x xi.y).y + xi.z * n.y, (quadPoint c xi.x xi.y).z + xi.z * n.z⟩

theorem extended_jac (c : ℕ → V3 ℝ) (n xi : V3 ℝ) : IsJacobian (extended c n) xi (QuadEmbed.jac (withNormal c n) xi) := by
  intro i j
  refine hasDerivAt_affine _ _ (V3.get (extended c n (V3.put xi j 0)) i) _ (fun t => ?_)
  have e : ∀ k, k < 4 → withNormal c n k = c k := fun k hk => by simp [withNormal, Nat.ne_of_lt hk]
  have e4 : withNormal c n 4 = n := rfl
  have e0 := e 0 (by decide); have e1 := e 1 (by decide); have e2 := e 2 (by decide); have e3 := e 3 (by decide)
  fin_cases i <;> fin_cases j <;>
    (simp only [extended, quadPoint, X, weights, weightedFrom, V3.get, V3.put, QuadEmbed.jac, e0, e1, e2, e3, e4, Matrix.cons_val_zero, Matrix.cons_val_one,
        Matrix.cons_val, Matrix.of_apply, Fin.zero_eta, Fin.mk_one, Fin.reduceFinMk]
     ring)

/-- **C41, quadrilateral, step.** If `J` is the matrix of partial derivatives of the extended map and is invertible, the step is `ξ - J⁻¹ f`. -/
theorem quad_step_exact (c : ℕ → V3 ℝ) (n xi p f : V3 ℝ) (J : Matrix (Fin 3) (Fin 3) ℝ) (hJ : IsJacobian (extended c n) xi J) (hdet : J.det ≠ 0) :
    V3.get (QuadEmbed.newtonStep (withNormal c n) xi p f) = V3.get xi - J⁻¹.mulVec (V3.get f) := by
  obtain rfl := jac_unique hJ (extended_jac c n xi)
  exact cramer3_solves _ hdet xi f

variable [LinearOrder K] [IsStrictOrderedRing K]

/-- The plane normal is computed exactly when the first vertex and its two neighbours are not collinear; it is then a non-zero vector
orthogonal to both edges. -/
theorem plane_normal_exists (c : ℕ → V3 K) : (planeNormal c = none ↔ Collinear c 1 3) ∧
    ∀ n, planeNormal c = some n → dot n n ≠ 0 ∧ dot n (sub (c 1) (c 0)) = 0 ∧ dot n (sub (c 3) (c 0)) = 0 := by
  have hc : Collinear c 1 3 → cross (sub (c 1) (c 0)) (sub (c 3) (c 0)) = ⟨0, 0, 0⟩ := by
    rintro ⟨s, t, hst, h1, h2, h3⟩
    simp only [cross, sub, V3.mk.injEq]
    rcases hst with hs | ht
    · refine ⟨?_, ?_, ?_⟩ <;> apply mul_left_cancel₀ hs
      · linear_combination ((c 3).z - (c 0).z) * h2 - ((c 3).y - (c 0).y) * h3
      · linear_combination ((c 3).x - (c 0).x) * h3 - ((c 3).z - (c 0).z) * h1
      · linear_combination ((c 3).y - (c 0).y) * h1 - ((c 3).x - (c 0).x) * h2
    · refine ⟨?_, ?_, ?_⟩ <;> apply mul_left_cancel₀ ht
      · linear_combination ((c 1).y - (c 0).y) * h3 - ((c 1).z - (c 0).z) * h2
      · linear_combination ((c 1).z - (c 0).z) * h1 - ((c 1).x - (c 0).x) * h3
      · linear_combination ((c 1).x - (c 0).x) * h2 - ((c 1).y - (c 0).y) * h1
  refine ⟨⟨fun h => ?_, fun h => ?_⟩, fun n h => ?_⟩
  · by_contra hn
    have hd := normal_sq_ne c 1 3 hn
    unfold planeNormal at h
    dsimp only at h
    split at h
    · simp at h
    · rename_i hle
      generalize cross (sub (c 1) (c 0)) (sub (c 3) (c 0)) = n at hd hle
      have hx : n.x = 0 := abs_eq_zero.1 (le_antisymm (by linarith [not_lt.1 hle, abs_nonneg n.y, abs_nonneg n.z]) (abs_nonneg _))
      have hy : n.y = 0 := abs_eq_zero.1 (le_antisymm (by linarith [not_lt.1 hle, abs_nonneg n.x, abs_nonneg n.z]) (abs_nonneg _))
      have hz : n.z = 0 := abs_eq_zero.1 (le_antisymm (by linarith [not_lt.1 hle, abs_nonneg n.x, abs_nonneg n.y]) (abs_nonneg _))
      exact hd (by simp [dot, hx, hy, hz])
  · unfold planeNormal
    dsimp only
    rw [hc h]
    simp
  · unfold planeNormal at h
    dsimp only at h
    split at h
    · rename_i hlt
      simp only [Option.some.injEq] at h
      subst h
      refine ⟨fun h0 => ?_, ?_, ?_⟩
      · generalize cross (sub (c 1) (c 0)) (sub (c 3) (c 0)) = n at h0 hlt
        simp only [dot] at h0
        have hx : n.x = 0 := by nlinarith [mul_self_nonneg n.x, mul_self_nonneg n.y, mul_self_nonneg n.z]
        have hy : n.y = 0 := by nlinarith [mul_self_nonneg n.x, mul_self_nonneg n.y, mul_self_nonneg n.z]
        have hz : n.z = 0 := by nlinarith [mul_self_nonneg n.x, mul_self_nonneg n.y, mul_self_nonneg n.z]
        simp [hx, hy, hz] at hlt
      · simp only [dot, cross, sub]; ring
      · simp only [dot, cross, sub]; ring
    · simp at h

/-- The normal of the surface at corner `k` with the neighbours `i` (in direction 0) and `j` (in direction 1), with sign. -/
def cornerNormal (c : ℕ → V3 K) : V3 K × V3 K × V3 K × V3 K :=
  (cross (sub (c 1) (c 0)) (sub (c 3) (c 0)), cross (sub (c 1) (c 0)) (sub (c 2) (c 1)), cross (sub (c 2) (c 3)) (sub (c 2) (c 1)),
    cross (sub (c 2) (c 3)) (sub (c 3) (c 0)))

/-- **C41, quadrilateral, solvability.** If at each corner the edges turn in the same sense with respect to the plane normal (for a plane
quadrilateral: it is strictly convex) then the Newton step is well defined at every point above the reference square: the determinant is positive. -/
theorem quad_det_pos (c : ℕ → V3 K) (n : V3 K) (h0 : 0 < dot (cornerNormal c).1 n) (h1 : 0 < dot (cornerNormal c).2.1 n)
    (h2 : 0 < dot (cornerNormal c).2.2.1 n) (h3 : 0 < dot (cornerNormal c).2.2.2 n) (xi : V3 K) (hx : |xi.x| ≤ 1) (hy : |xi.y| ≤ 1) :
    0 < (QuadEmbed.jac (withNormal c n) xi).det := by
  have e : (QuadEmbed.jac (withNormal c n) xi).det = ((1 - xi.x) / 2 * ((1 - xi.y) / 2) * dot (cornerNormal c).1 n
      + (1 + xi.x) / 2 * ((1 - xi.y) / 2) * dot (cornerNormal c).2.1 n + (1 + xi.x) / 2 * ((1 + xi.y) / 2) * dot (cornerNormal c).2.2.1 n
      + (1 - xi.x) / 2 * ((1 + xi.y) / 2) * dot (cornerNormal c).2.2.2 n) / 4 := by
    rw [Matrix.det_fin_three]
    simp only [QuadEmbed.jac, withNormal, cornerNormal, dot, cross, sub, Matrix.of_apply, Matrix.cons_val_zero, Matrix.cons_val_one, Matrix.cons_val]
    norm_num
    ring
  rw [e]
  obtain ⟨a1, a2⟩ := abs_le.1 hx
  obtain ⟨b1, b2⟩ := abs_le.1 hy
  have p1 : 0 ≤ (1 - xi.x) / 2 := by linarith
  have p2 : 0 ≤ (1 + xi.x) / 2 := by linarith
  have q1 : 0 ≤ (1 - xi.y) / 2 := by linarith
  have q2 : 0 ≤ (1 + xi.y) / 2 := by linarith
  have sum1 : (1 - xi.x) / 2 * ((1 - xi.y) / 2) + (1 + xi.x) / 2 * ((1 - xi.y) / 2) + (1 + xi.x) / 2 * ((1 + xi.y) / 2)
      + (1 - xi.x) / 2 * ((1 + xi.y) / 2) = 1 := by ring
  have w0 := mul_nonneg p1 q1
  have w1 := mul_nonneg p2 q1
  have w2 := mul_nonneg p2 q2
  have w3 := mul_nonneg p1 q2
  obtain ⟨m, hm, m0, m1, m2, m3⟩ : ∃ m : K, 0 < m ∧ m ≤ dot (cornerNormal c).1 n ∧ m ≤ dot (cornerNormal c).2.1 n ∧ m ≤ dot (cornerNormal c).2.2.1 n ∧
      m ≤ dot (cornerNormal c).2.2.2 n := ⟨min (min (dot (cornerNormal c).1 n) (dot (cornerNormal c).2.1 n)) (min (dot (cornerNormal c).2.2.1 n) (dot (cornerNormal c).2.2.2 n)),
        lt_min (lt_min h0 h1) (lt_min h2 h3), (min_le_left _ _).trans (min_le_left _ _), (min_le_left _ _).trans (min_le_right _ _),
        (min_le_right _ _).trans (min_le_left _ _), (min_le_right _ _).trans (min_le_right _ _)⟩
  have := mul_le_mul_of_nonneg_left m0 w0
  have := mul_le_mul_of_nonneg_left m1 w1
  have := mul_le_mul_of_nonneg_left m2 w2
  have := mul_le_mul_of_nonneg_left m3 w3
  have hs : m * 1 = m * ((1 - xi.x) / 2 * ((1 - xi.y) / 2) + (1 + xi.x) / 2 * ((1 - xi.y) / 2) + (1 + xi.x) / 2 * ((1 + xi.y) / 2)
      + (1 - xi.x) / 2 * ((1 + xi.y) / 2)) := by rw [sum1]
  apply div_pos _ (by norm_num)
  linarith

/-- **C41, quadrilateral, parallelograms.** For a parallelogram the first step from any point gives the reference position of the orthogonal projection
and its height above the plane in units of the normal; for a point of the plane this is the exact inverse. -/
theorem quad_parallelogram_one_step (c : ℕ → V3 K) (n : V3 K) (hn : planeNormal c = some n) (hp : sub (c 2) (c 1) = sub (c 3) (c 0)) (xi w : V3 K) :
    QuadEmbed.newtonStep (withNormal c n) xi (extended c n w) (QuadEmbed.newtonF (withNormal c n) xi (extended c n w)) = w := by
  have hnn := (plane_normal_exists c).2 n hn
  have hcr : cross (sub (c 1) (c 0)) (sub (c 3) (c 0)) = n := by
    unfold planeNormal at hn
    dsimp only at hn
    split at hn
    · simpa using hn
    · simp at hn
  simp only [sub, V3.mk.injEq] at hp
  have ex : (c 2).x = (c 1).x + (c 3).x - (c 0).x := by linear_combination hp.1
  have ey : (c 2).y = (c 1).y + (c 3).y - (c 0).y := by linear_combination hp.2.1
  have ez : (c 2).z = (c 1).z + (c 3).z - (c 0).z := by linear_combination hp.2.2
  have hJ : QuadEmbed.jac (withNormal c n) xi = !![((c 1).x - (c 0).x) / 2, ((c 3).x - (c 0).x) / 2, n.x; ((c 1).y - (c 0).y) / 2, ((c 3).y - (c 0).y) / 2, n.y;
      ((c 1).z - (c 0).z) / 2, ((c 3).z - (c 0).z) / 2, n.z] := by
    simp only [QuadEmbed.jac, withNormal]
    norm_num
    simp only [ex, ey, ez]
    refine ⟨⟨?_, ?_⟩, ⟨?_, ?_⟩, ?_, ?_⟩ <;> ring
  have hd : (QuadEmbed.jac (withNormal c n) xi).det ≠ 0 := by
    have : (QuadEmbed.jac (withNormal c n) xi).det = dot n n / 4 := by
      rw [hJ, Matrix.det_fin_three]
      conv_rhs => rw [dot]
      have n0 : n.x = _ := congrArg V3.x hcr.symm
      have n1 : n.y = _ := congrArg V3.y hcr.symm
      have n2 : n.z = _ := congrArg V3.z hcr.symm
      simp only [cross, sub] at n0 n1 n2
      simp only [Matrix.of_apply, Matrix.cons_val_zero, Matrix.cons_val_one, Matrix.cons_val]
      linear_combination -(n.x * n0 + n.y * n1 + n.z * n2) / 4
    rw [this]
    exact div_ne_zero hnn.1 (by norm_num)
  have hs := cramer3_solves _ hd xi (QuadEmbed.newtonF (withNormal c n) xi (extended c n w))
  rw [← QuadEmbed.newtonStep_eq _ _ (extended c n w)] at hs
  have hu : IsUnit (QuadEmbed.jac (withNormal c n) xi).det := isUnit_iff_ne_zero.2 hd
  have hf : V3.get (QuadEmbed.newtonF (withNormal c n) xi (extended c n w)) = (QuadEmbed.jac (withNormal c n) xi).mulVec (V3.get xi - V3.get w) := by
    rw [quad_residual_exact, hJ]
    funext i
    fin_cases i <;>
      (simp only [V3.get, extended, quadPoint, X, weights, weightedFrom, Matrix.mulVec, dotProduct, Fin.sum_univ_three, Pi.sub_apply, Matrix.of_apply,
        Matrix.cons_val_zero, Matrix.cons_val_one, Matrix.cons_val, Fin.zero_eta, Fin.mk_one, Fin.reduceFinMk, ex, ey, ez]
       ring)
  rw [hf, Matrix.mulVec_mulVec, Matrix.nonsing_inv_mul _ hu, Matrix.one_mulVec, sub_sub_cancel] at hs
  exact get_inj hs

/-- An accepted position is on the surface within tolerance of the target, with both coordinates within the tolerance of the reference square. -/
theorem quad_accepted_sound (c : ℕ → V3 K) (n sc : V3 K) (t : Settings K) (hc : t.lo ≤ t.hi) (p : V3 K) (start : Option (V3 K)) (xi : V3 K)
    (h : tryCandidate (exactOps K) (quadEmbedImpl c n sc) t p start = some xi) :
    xi.z = 0 ∧ (t.lo ≤ xi.x ∧ xi.x ≤ t.hi) ∧ (t.lo ≤ xi.y ∧ xi.y ≤ t.hi) ∧ |(quadPoint c xi.x xi.y).x - p.x| * sc.x ≤ t.tol ∧
      |(quadPoint c xi.x xi.y).y - p.y| * sc.y ≤ t.tol ∧ |(quadPoint c xi.x xi.y).z - p.z| * sc.z ≤ t.tol := by
  obtain ⟨h1, eta, h2, hx, hy, _⟩ := Verif.Props.C36.accepted_exact _ t hc p start xi h
  have hz : xi.z = 0 := by rw [h2]; rfl
  have h1' : relativeError3d sc (QuadEmbed.newtonF (withNormal c n) xi p).x (QuadEmbed.newtonF (withNormal c n) xi p).y
      (QuadEmbed.newtonF (withNormal c n) xi p).z ≤ t.tol := h1
  rw [quad_residual_exact, relativeError3d, max_le_iff, max_le_iff, hz, zero_mul, zero_mul, zero_mul, add_zero, add_zero, add_zero] at h1'
  exact ⟨hz, by rw [h2]; exact hx, by rw [h2]; exact hy, h1'.1.1, h1'.1.2, h1'.2⟩

end quad

/-! ### Examples -/

/-- A triangle not parallel to a coordinate plane. -/
def exTri : ℕ → V3 ℚ := fun k => ([⟨1, 0, 0⟩, ⟨3, 0, 1⟩, ⟨0, 2, 5⟩] : List (V3 ℚ)).getD k ⟨0, 0, 0⟩

/-- A quadrilateral that is not a parallelogram and not parallel to a coordinate plane (in the plane `x + y + z = 3`). -/
def exQuad : ℕ → V3 ℚ := fun k => ([⟨1, 1, 1⟩, ⟨3, 0, 0⟩, ⟨3, 3, -3⟩, ⟨0, 2, 1⟩] : List (V3 ℚ)).getD k ⟨0, 0, 0⟩

example : (acceptInitial (exactOps ℚ) (triEmbedImpl (1 / 1000000000000) exTri ⟨1, 1, 1⟩) ⟨0, 0, 1, -1⟩ (triPoint exTri (-1 / 2) (-1 / 4))).map
      (fun v => (v.x, v.y, v.z)) = some (-1 / 2, -1 / 4, 0) ∧
    dot (cross (sub (exTri 1) (exTri 0)) (sub (exTri 2) (exTri 0))) (cross (sub (exTri 1) (exTri 0)) (sub (exTri 2) (exTri 0))) ≠ 0 := by decide +kernel

example : (planeNormal exQuad).map (fun n => (n.x, n.y, n.z)) = some (1, 1, 1) ∧
    (let n : V3 ℚ := ⟨1, 1, 1⟩
     0 < dot (cornerNormal exQuad).1 n ∧ 0 < dot (cornerNormal exQuad).2.1 n ∧ 0 < dot (cornerNormal exQuad).2.2.1 n ∧ 0 < dot (cornerNormal exQuad).2.2.2 n) := by
  decide +kernel

end Verif.Props.C41
