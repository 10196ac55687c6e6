import Verif.Spec.LinearElements
import Verif.Lemmas.LinearElements
import Mathlib.Analysis.Calculus.Deriv.Mul
import Mathlib.Analysis.Calculus.Deriv.Add
import Mathlib.Analysis.Calculus.Deriv.Inv
import Mathlib.LinearAlgebra.Matrix.Determinant.Basic
import Mathlib.Tactic.FieldSimp
import Mathlib.Tactic.Ring
import Mathlib.Tactic.FinCases
import Mathlib.Tactic.IntervalCases
import Mathlib.Tactic.NormNum
import Mathlib.Tactic.LinearCombination

/-! C38: the generated functions of the straight-sided elements. -/

namespace Verif.Props.C38
open Verif.Model.NewtonKernel (V3)
open Verif.Model.LinearElements Verif.Spec.LinearElements

variable {K : Type*} [Field K]

/-- The difference of vectors. -/
def V3.sub (a b : V3 K) : V3 K := ⟨a.x - b.x, a.y - b.y, a.z - b.z⟩

/-! ### Residuals -/

section residual
variable [CharZero K]

theorem quad_f (c : ℕ → V3 K) (xi p : V3 K) :
    (Quad.newtonF c xi p).x = (X .quad c xi).x - p.x ∧ (Quad.newtonF c xi p).y = (X .quad c xi).y - p.y ∧ (Quad.newtonF c xi p).z = 0 := by
  simp only [Quad.newtonF, X, weights, weightedFrom]
  refine ⟨?_, ?_, trivial⟩ <;> (field_simp; ring)

theorem hex_f (c : ℕ → V3 K) (xi p : V3 K) : Hex.newtonF c xi p = V3.sub (X .hex c xi) p := by
  simp only [Hex.newtonF, X, weights, weightedFrom, V3.sub, V3.mk.injEq]
  refine ⟨?_, ?_, ?_⟩ <;> (field_simp; ring)

theorem prism_f (c : ℕ → V3 K) (xi p : V3 K) : Prism.newtonF c xi p = V3.sub (X .prism c xi) p := by
  simp only [Prism.newtonF, X, weights, weightedFrom, V3.sub, V3.mk.injEq]
  refine ⟨?_, ?_, ?_⟩ <;> (field_simp; ring)

theorem tet_f (c : ℕ → V3 K) (xi p : V3 K) : Tet.newtonF c xi p = V3.sub (X .tet c xi) p := by
  simp only [Tet.newtonF, X, weights, weightedFrom, V3.sub, V3.mk.injEq]
  refine ⟨?_, ?_, ?_⟩ <;> (field_simp; ring)

theorem pyr_f (c : ℕ → V3 K) (xi p : V3 K) (h : xi.z ≠ 1) : Pyr.newtonF c xi p = V3.sub (X .pyr c xi) p := by
  have h1 : 1 - xi.z ≠ 0 := sub_ne_zero.2 h.symm
  have h2 : xi.z - 1 = -(1 - xi.z) := by ring
  simp only [Pyr.newtonF, X, weights, weightedFrom, V3.sub, V3.mk.injEq, h2, div_neg]
  refine ⟨?_, ?_, ?_⟩ <;> (field_simp; ring)

end residual

/-! ### Interpolation -/

/-- The weights sum to one. -/
theorem weights_sum [CharZero K] (s : Shape) (xi : V3 K) (h : xi.z ≠ 1) : (weights s xi).sum = 1 := by
  have h1 : 1 - xi.z ≠ 0 := sub_ne_zero.2 h.symm
  cases s <;> simp only [weights, List.sum_cons, List.sum_nil] <;> (field_simp; ring)

/-- The reference element is mapped to itself. -/
theorem map_of_reference [CharZero K] (s : Shape) (xi : V3 K) (h : xi.z ≠ 1) :
    X s (fun k => (refVerts s).getD k ⟨0, 0, 0⟩) xi = match s with | .quad => ⟨xi.x, xi.y, 0⟩ | _ => xi := by
  have h1 : 1 - xi.z ≠ 0 := sub_ne_zero.2 h.symm
  obtain ⟨x, y, z⟩ := xi
  dsimp only at h1
  cases s <;> simp only [X, weights, weightedFrom, refVerts, List.getD, List.getElem?_cons_zero, List.getElem?_cons_succ, Option.getD_some, V3.mk.injEq] <;>
    refine ⟨?_, ?_, ?_⟩ <;> (field_simp; ring)

/-- **C38, vertices.** The map takes the reference vertices to the vertices of the element. At the apex of the pyramid, which is excluded here, the
collapsed coordinates are not defined. -/
theorem map_of_vertex [CharZero K] (s : Shape) (c : ℕ → V3 K) (k : ℕ) (v : V3 K) (hv : (refVerts s)[k]? = some v) (hp : s = .pyr → k < 4) :
    X s c v = c k := by
  have hk : k < (refVerts (K := K) s).length := (List.getElem?_eq_some_iff.1 hv).1
  have e : ∀ u : V3 K, (⟨u.x, u.y, u.z⟩ : V3 K) = u := fun _ => rfl
  rw [← e (c k)]
  cases s <;> simp only [refVerts, List.length_cons, List.length_nil] at hk
  case pyr =>
    have hk' := hp rfl
    interval_cases k <;> simp only [refVerts, List.getElem?_cons_zero, List.getElem?_cons_succ, Option.some.injEq] at hv <;> subst hv <;>
      simp only [X, weights, weightedFrom, V3.mk.injEq] <;> norm_num
  all_goals
    interval_cases k <;> simp only [refVerts, List.getElem?_cons_zero, List.getElem?_cons_succ, Option.some.injEq] at hv <;> subst hv <;>
      simp only [X, weights, weightedFrom, V3.mk.injEq] <;> norm_num

/-! ### Newton steps -/

theorem cramer3_solves (J : Matrix (Fin 3) (Fin 3) K) (hJ : J.det ≠ 0) (xi f : V3 K) :
    V3.get (cramer3 J xi f) = V3.get xi - J⁻¹.mulVec (V3.get f) := by
  have key : J.mulVec (V3.get xi - V3.get (cramer3 J xi f)) = V3.get f := by
    rw [Matrix.det_fin_three] at hJ
    have hd : J 0 0 * (J 1 1 * J 2 2) - J 2 0 * (J 0 2 * J 1 1) + J 2 0 * (J 0 1 * J 1 2) + J 1 0 * (J 0 2 * J 2 1) - J 0 0 * (J 1 2 * J 2 1)
        - J 1 0 * (J 0 1 * J 2 2) ≠ 0 := by
      intro h
      apply hJ
      rw [← h]
      ring
    obtain ⟨y, hy, e⟩ : ∃ y : K, y * (J 0 0 * (J 1 1 * J 2 2) - J 2 0 * (J 0 2 * J 1 1) + J 2 0 * (J 0 1 * J 1 2) + J 1 0 * (J 0 2 * J 2 1)
        - J 0 0 * (J 1 2 * J 2 1) - J 1 0 * (J 0 1 * J 2 2)) = 1 ∧ y = 1 / (J 0 0 * (J 1 1 * J 2 2) - J 2 0 * (J 0 2 * J 1 1) + J 2 0 * (J 0 1 * J 1 2)
        + J 1 0 * (J 0 2 * J 2 1) - J 0 0 * (J 1 2 * J 2 1) - J 1 0 * (J 0 1 * J 2 2)) := ⟨_, one_div_mul_cancel hd, rfl⟩
    funext i
    have hi : J.mulVec (V3.get xi - V3.get (cramer3 J xi f)) i = J i 0 * (xi.x - (cramer3 J xi f).x) + J i 1 * (xi.y - (cramer3 J xi f).y)
        + J i 2 * (xi.z - (cramer3 J xi f).z) := by
      simp only [Matrix.mulVec, dotProduct, Fin.sum_univ_three, V3.get, Pi.sub_apply, Matrix.cons_val_zero, Matrix.cons_val_one, Matrix.cons_val]
    rw [hi]
    simp only [cramer3, ← e]
    fin_cases i
    · show _ = f.x
      simp only [Fin.zero_eta]
      linear_combination (f.x - J 0 0 * xi.x - J 0 1 * xi.y - J 0 2 * xi.z) * hy
    · show _ = f.y
      simp only [Fin.mk_one]
      linear_combination (f.y - J 1 0 * xi.x - J 1 1 * xi.y - J 1 2 * xi.z) * hy
    · show _ = f.z
      simp only [Fin.reduceFinMk]
      linear_combination (f.z - J 2 0 * xi.x - J 2 1 * xi.y - J 2 2 * xi.z) * hy
  have hu : IsUnit J.det := isUnit_iff_ne_zero.2 hJ
  rw [← key, Matrix.mulVec_mulVec, Matrix.nonsing_inv_mul _ hu, Matrix.one_mulVec]
  abel

theorem cramer2_solves (J : Matrix (Fin 2) (Fin 2) K) (hJ : J.det ≠ 0) (xi f : V3 K) :
    ![(cramer2 J xi f).x, (cramer2 J xi f).y] = ![xi.x, xi.y] - J⁻¹.mulVec ![f.x, f.y] := by
  have key : J.mulVec (![xi.x, xi.y] - ![(cramer2 J xi f).x, (cramer2 J xi f).y]) = ![f.x, f.y] := by
    rw [Matrix.det_fin_two] at hJ
    obtain ⟨y, hy, e⟩ : ∃ y : K, y * (J 0 0 * J 1 1 - J 0 1 * J 1 0) = 1 ∧ y = 1 / (J 0 0 * J 1 1 - J 0 1 * J 1 0) := ⟨_, one_div_mul_cancel hJ, rfl⟩
    funext i
    have hi : J.mulVec (![xi.x, xi.y] - ![(cramer2 J xi f).x, (cramer2 J xi f).y]) i = J i 0 * (xi.x - (cramer2 J xi f).x)
        + J i 1 * (xi.y - (cramer2 J xi f).y) := by
      simp only [Matrix.mulVec, dotProduct, Fin.sum_univ_two, Pi.sub_apply, Matrix.cons_val_zero, Matrix.cons_val_one]
    rw [hi]
    simp only [cramer2, ← e]
    fin_cases i
    · show _ = f.x
      simp only [Fin.zero_eta]
      linear_combination (f.x - J 0 0 * xi.x - J 0 1 * xi.y) * hy
    · show _ = f.y
      simp only [Fin.mk_one]
      linear_combination (f.y - J 1 0 * xi.x - J 1 1 * xi.y) * hy
  have hu : IsUnit J.det := isUnit_iff_ne_zero.2 hJ
  rw [← key, Matrix.mulVec_mulVec, Matrix.nonsing_inv_mul _ hu, Matrix.one_mulVec]
  abel

theorem hasDerivAt_affine (g : ℝ → ℝ) (a b x : ℝ) (h : ∀ t, g t = a * t + b) : HasDerivAt g a x := by
  have e : g = fun t => a * t + b := funext h
  rw [e]
  simpa using ((hasDerivAt_id x).const_mul a).add_const b

theorem jac_unique {X : V3 ℝ → V3 ℝ} {xi : V3 ℝ} {J J' : Matrix (Fin 3) (Fin 3) ℝ} (h : IsJacobian X xi J) (h' : IsJacobian X xi J') : J = J' := by
  funext i j
  exact (h i j).unique (h' i j)

theorem hex_jac (c : ℕ → V3 ℝ) (xi : V3 ℝ) : IsJacobian (X .hex c) xi (Hex.jac c xi) := by
  intro i j
  refine hasDerivAt_affine _ _ (V3.get (X .hex c (V3.put xi j 0)) i) _ (fun t => ?_)
  fin_cases i <;> fin_cases j <;>
    (simp only [X, weights, weightedFrom, V3.get, V3.put, Hex.jac, Matrix.cons_val_zero, Matrix.cons_val_one, Matrix.cons_val, Matrix.of_apply,
        Fin.zero_eta, Fin.mk_one, Fin.reduceFinMk]
     ring)

theorem prism_jac (c : ℕ → V3 ℝ) (xi : V3 ℝ) : IsJacobian (X .prism c) xi (Prism.jac c xi) := by
  intro i j
  refine hasDerivAt_affine _ _ (V3.get (X .prism c (V3.put xi j 0)) i) _ (fun t => ?_)
  fin_cases i <;> fin_cases j <;>
    (simp only [X, weights, weightedFrom, V3.get, V3.put, Prism.jac, Matrix.cons_val_zero, Matrix.cons_val_one, Matrix.cons_val, Matrix.of_apply,
        Fin.zero_eta, Fin.mk_one, Fin.reduceFinMk]
     ring)

theorem tet_jac (c : ℕ → V3 ℝ) (xi : V3 ℝ) : IsJacobian (X .tet c) xi (Tet.jac c xi) := by
  intro i j
  refine hasDerivAt_affine _ _ (V3.get (X .tet c (V3.put xi j 0)) i) _ (fun t => ?_)
  fin_cases i <;> fin_cases j <;>
    (simp only [X, weights, weightedFrom, V3.get, V3.put, Tet.jac, Matrix.cons_val_zero, Matrix.cons_val_one, Matrix.cons_val, Matrix.of_apply,
        Fin.zero_eta, Fin.mk_one, Fin.reduceFinMk]
     ring)

theorem quad_jac (c : ℕ → V3 ℝ) (xi : V3 ℝ) : IsJacobian2 (X .quad c) xi (Quad.jac c xi) := by
  intro i j
  refine hasDerivAt_affine _ _ (V3.get (X .quad c (V3.put xi (Fin.castSucc j) 0)) (Fin.castSucc i)) _ (fun t => ?_)
  fin_cases i <;> fin_cases j <;>
    (simp only [X, weights, weightedFrom, V3.get, V3.put, Quad.jac, Matrix.cons_val_zero, Matrix.cons_val_one, Matrix.cons_val, Matrix.of_apply,
        Fin.zero_eta, Fin.mk_one, Fin.castSucc_zero, Fin.castSucc_one]
     ring)

/-- The map of the pyramid without collapsed coordinates. -/
theorem pyr_weights (x y z : ℝ) (h : 1 - z ≠ 0) : weights .pyr ⟨x, y, z⟩ =
    [(1 - z - (1 + x) - (1 + y)) / 2 + (1 + x) * (1 + y) / 2 * (1 - z)⁻¹, (1 + x) / 2 - (1 + x) * (1 + y) / 2 * (1 - z)⁻¹,
     (1 + x) * (1 + y) / 2 * (1 - z)⁻¹, (1 + y) / 2 - (1 + x) * (1 + y) / 2 * (1 - z)⁻¹, (1 + z) / 2] := by
  simp only [weights, List.cons.injEq, and_true]
  refine ⟨?_, ?_, ?_, ?_⟩ <;> (field_simp; ring)

theorem hasDerivAt_pyr (g : ℝ → ℝ) (a b e x : ℝ) (hx : x ≠ 1) (h : ∀ t, t ≠ 1 → g t = a * t + b + e * (1 - t)⁻¹) :
    HasDerivAt g (a + e * ((1 - x)⁻¹) ^ 2) x := by
  have h1 : (1 : ℝ) - x ≠ 0 := sub_ne_zero.2 hx.symm
  have d1 : HasDerivAt (fun t : ℝ => 1 - t) (-1) x := by simpa using (hasDerivAt_id x).const_sub 1
  have d2 := (((hasDerivAt_id x).const_mul a).add_const b).add ((d1.fun_inv h1).const_mul e)
  have d3 : HasDerivAt (fun t => a * t + b + e * (1 - t)⁻¹) (a + e * ((1 - x)⁻¹) ^ 2) x := by
    refine HasDerivAt.congr_deriv d2 ?_
    field_simp
    try ring
  refine d3.congr_of_eventuallyEq ?_
  filter_upwards [isOpen_ne.mem_nhds hx] with t ht using h t ht

theorem pyr_jac (c : ℕ → V3 ℝ) (xi : V3 ℝ) (h : xi.z ≠ 1) : IsJacobian (X .pyr c) xi (Pyr.jac c xi) := by
  obtain ⟨x, y, z⟩ := xi
  have h1 : 1 - z ≠ 0 := sub_ne_zero.2 (Ne.symm h)
  have h2 : z - 1 = -(1 - z) := by ring
  intro i j
  have hj : j = 2 ∨ j ≠ 2 := em _
  rcases hj with rfl | hj
  · have := hasDerivAt_pyr (fun t => V3.get (X .pyr c (V3.put ⟨x, y, z⟩ 2 t)) i)
      (-(V3.get (c 0) i) / 2 + (V3.get (c 4) i) / 2)
      (((V3.get (c 0) i) * (-1 - x - y) + (V3.get (c 1) i) * (1 + x) + (V3.get (c 3) i) * (1 + y) + V3.get (c 4) i) / 2)
      ((1 + x) * (1 + y) / 2 * (V3.get (c 0) i - V3.get (c 1) i + V3.get (c 2) i - V3.get (c 3) i)) z h ?_
    · refine HasDerivAt.congr_deriv this ?_
      fin_cases i <;>
        (simp only [V3.get, Pyr.jac, Matrix.cons_val_zero, Matrix.cons_val_one, Matrix.cons_val, Matrix.of_apply, Fin.zero_eta, Fin.mk_one, Fin.reduceFinMk,
            h2, div_neg, neg_mul, mul_neg]
         field_simp
         ring)
    · intro t ht
      have h3 : 1 - t ≠ 0 := sub_ne_zero.2 (Ne.symm ht)
      fin_cases i <;>
        (simp only [V3.put, Matrix.cons_val, X]
         rw [pyr_weights x y t h3]
         simp only [weightedFrom, V3.get, Matrix.cons_val_zero, Matrix.cons_val_one, Matrix.cons_val, Fin.zero_eta, Fin.mk_one, Fin.reduceFinMk]
         ring)
  · refine hasDerivAt_affine _ _ (V3.get (X .pyr c (V3.put ⟨x, y, z⟩ j 0)) i) _ (fun t => ?_)
    fin_cases j
    · simp only [V3.put, Matrix.cons_val_zero, Fin.zero_eta, X]
      rw [pyr_weights _ _ _ h1, pyr_weights _ _ _ h1]
      fin_cases i <;>
        (simp only [weightedFrom, V3.get, Pyr.jac, Matrix.cons_val_zero, Matrix.cons_val_one, Matrix.cons_val, Matrix.of_apply, Fin.zero_eta, Fin.mk_one,
          Fin.reduceFinMk, h2, div_neg, neg_mul, mul_neg]
         field_simp
         ring)
    · simp only [V3.put, Matrix.cons_val_one, Matrix.cons_val_zero, Fin.mk_one, X]
      rw [pyr_weights _ _ _ h1, pyr_weights _ _ _ h1]
      fin_cases i <;>
        (simp only [weightedFrom, V3.get, Pyr.jac, Matrix.cons_val_zero, Matrix.cons_val_one, Matrix.cons_val, Matrix.of_apply, Fin.zero_eta, Fin.mk_one,
          Fin.reduceFinMk, h2, div_neg, neg_mul, mul_neg]
         field_simp
         ring)
    · simp at hj

/-! ### The property -/

/-- `newton_f_linear_3d` (`newton_f_linear_2d` for the quadrilateral) of each shape. -/
def newtonF : Shape → (ℕ → V3 K) → V3 K → V3 K → V3 K
  | .quad => Quad.newtonF
  | .hex => Hex.newtonF
  | .prism => Prism.newtonF
  | .pyr => Pyr.newtonF
  | .tet => Tet.newtonF

/-- `newton_step_linear_3d` (`newton_step_linear_2d` for the quadrilateral) of each shape. -/
def newtonStep : Shape → (ℕ → V3 K) → V3 K → V3 K → V3 K → V3 K
  | .quad => Quad.newtonStep
  | .hex => Hex.newtonStep
  | .prism => Prism.newtonStep
  | .pyr => Pyr.newtonStep
  | .tet => Tet.newtonStep

/-- **C38, residual.** For all vertices, points and targets the function returns the difference of the image of the point and the target (in the plane
for the quadrilateral; for the pyramid the top plane, where the map is not defined, is excluded). -/
theorem newton_f_exact [CharZero K] (s : Shape) (c : ℕ → V3 K) (xi p : V3 K) (hp : s = .pyr → xi.z ≠ 1) :
    newtonF s c xi p = match s with
      | .quad => ⟨(X .quad c xi).x - p.x, (X .quad c xi).y - p.y, 0⟩
      | s => ⟨(X s c xi).x - p.x, (X s c xi).y - p.y, (X s c xi).z - p.z⟩ := by
  cases s
  · obtain ⟨h1, h2, h3⟩ := quad_f c xi p
    show Quad.newtonF c xi p = _
    rw [← h1, ← h2]
    conv_rhs => rw [← h3]
  · exact hex_f c xi p
  · exact prism_f c xi p
  · exact pyr_f c xi p (hp rfl)
  · exact tet_f c xi p

/-- **C38, Newton step.** For all vertices, points, residual vectors and targets: if `J` is the matrix of partial derivatives of the element's map at
the point and is invertible then the step returns `ξ - J⁻¹ f`. -/
theorem newton_step_exact (s : Shape) (hs : s ≠ .quad) (c : ℕ → V3 ℝ) (xi p f : V3 ℝ) (hp : s = .pyr → xi.z ≠ 1) (J : Matrix (Fin 3) (Fin 3) ℝ)
    (hJ : IsJacobian (X s c) xi J) (hdet : J.det ≠ 0) : V3.get (newtonStep s c xi p f) = V3.get xi - J⁻¹.mulVec (V3.get f) := by
  cases s
  · exact absurd rfl hs
  · obtain rfl := jac_unique hJ (hex_jac c xi)
    exact cramer3_solves _ hdet xi f
  · obtain rfl := jac_unique hJ (prism_jac c xi)
    exact cramer3_solves _ hdet xi f
  · obtain rfl := jac_unique hJ (pyr_jac c xi (hp rfl))
    exact cramer3_solves _ hdet xi f
  · obtain rfl := jac_unique hJ (tet_jac c xi)
    exact cramer3_solves _ hdet xi f

theorem newton_step_exact_quad (c : ℕ → V3 ℝ) (xi p f : V3 ℝ) (J : Matrix (Fin 2) (Fin 2) ℝ)
    (hJ : IsJacobian2 (X .quad c) xi J) (hdet : J.det ≠ 0) :
    ![(newtonStep .quad c xi p f).x, (newtonStep .quad c xi p f).y] = ![xi.x, xi.y] - J⁻¹.mulVec ![f.x, f.y] := by
  have e : J = Quad.jac c xi := by
    funext i j
    exact (hJ i j).unique (quad_jac c xi i j)
  subst e
  exact cramer2_solves _ hdet xi f

/-- The Jacobian of the hypotheses exists at every point. -/
theorem jacobian_exists (s : Shape) (c : ℕ → V3 ℝ) (xi : V3 ℝ) (hp : s = .pyr → xi.z ≠ 1) : s = .quad ∨ ∃ J, IsJacobian (X s c) xi J := by
  cases s
  · exact Or.inl rfl
  · exact Or.inr ⟨_, hex_jac c xi⟩
  · exact Or.inr ⟨_, prism_jac c xi⟩
  · exact Or.inr ⟨_, pyr_jac c xi (hp rfl)⟩
  · exact Or.inr ⟨_, tet_jac c xi⟩

/-! ### Examples -/

/-- A hexahedron that is not a parallelepiped. -/
def exHex : ℕ → V3 ℚ := fun k => ([⟨0, 0, 0⟩, ⟨1, 0, 0⟩, ⟨1, 1, 0⟩, ⟨0, 1, 0⟩, ⟨0, 0, 1⟩, ⟨1, 0, 1⟩, ⟨2, 2, 2⟩, ⟨0, 1, 1⟩] : List (V3 ℚ)).getD k ⟨0, 0, 0⟩

/-- A pyramid whose base is not a parallelogram. -/
def exPyr : ℕ → V3 ℚ := fun k => ([⟨0, 0, 0⟩, ⟨1, 0, 0⟩, ⟨2, 2, 0⟩, ⟨0, 1, 0⟩, ⟨0, 0, 1⟩] : List (V3 ℚ)).getD k ⟨0, 0, 0⟩

/-- The Jacobians are invertible at a point inside; the residual vanishes at a vertex; a step changes the point. -/
example : (Hex.jac exHex ⟨1 / 2, 0, -1 / 3⟩).det ≠ 0 ∧ (Pyr.jac exPyr ⟨-1 / 2, -1 / 3, -1 / 4⟩).det ≠ 0 ∧
    (newtonF .hex exHex ⟨1, 1, 1⟩ ⟨2, 2, 2⟩).x = 0 ∧ (newtonStep .hex exHex ⟨0, 0, 0⟩ ⟨1, 1, 1⟩ (newtonF .hex exHex ⟨0, 0, 0⟩ ⟨1, 1, 1⟩)).x ≠ 0 := by
  rw [Matrix.det_fin_three, Matrix.det_fin_three]
  decide +kernel

end Verif.Props.C38
