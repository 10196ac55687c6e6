import Verif.Props.C38_LinearMaps
import Verif.Props.C36_NewtonInverse
import Verif.Props.C07_Collapsed
import Verif.Props.C08_RefElement
import Verif.Model.NewtonElements

/-! C39: Newton's method for affine elements. -/

namespace Verif.Props.C39
open Verif.Model.NewtonKernel
open Verif.Model.LinearElements Verif.Spec.LinearElements Verif.Model.NewtonElements Verif.Props.C38

variable {K : Type*} [Field K]

/-! ### Statement -/

/-- The vertices are the images of the reference vertices under `v ↦ A v + b`. Every tetrahedron, and every parallelepiped, is of this kind. -/
def AffineImage (s : Shape) (A : Matrix (Fin 3) (Fin 3) K) (b : Fin 3 → K) (c : ℕ → V3 K) : Prop :=
  ∀ k v, (refVerts s)[k]? = some v → V3.get (c k) = A.mulVec (V3.get v) + b

theorem components {A : Matrix (Fin 3) (Fin 3) K} {b : Fin 3 → K} {u v : V3 K} (h : V3.get u = A.mulVec (V3.get v) + b) :
    u = ⟨A 0 0 * v.x + A 0 1 * v.y + A 0 2 * v.z + b 0, A 1 0 * v.x + A 1 1 * v.y + A 1 2 * v.z + b 1, A 2 0 * v.x + A 2 1 * v.y + A 2 2 * v.z + b 2⟩ := by
  have h0 := congrFun h 0
  have h1 := congrFun h 1
  have h2 := congrFun h 2
  simp only [V3.get, Matrix.mulVec, dotProduct, Fin.sum_univ_three, Pi.add_apply, Matrix.cons_val_zero, Matrix.cons_val_one, Matrix.cons_val] at h0 h1 h2
  obtain ⟨x, y, z⟩ := u
  simp only [V3.mk.injEq]
  exact ⟨h0, h1, h2⟩

theorem of_components {A : Matrix (Fin 3) (Fin 3) K} {b : Fin 3 → K} {u v : V3 K}
    (h : u = ⟨A 0 0 * v.x + A 0 1 * v.y + A 0 2 * v.z + b 0, A 1 0 * v.x + A 1 1 * v.y + A 1 2 * v.z + b 1, A 2 0 * v.x + A 2 1 * v.y + A 2 2 * v.z + b 2⟩) :
    V3.get u = A.mulVec (V3.get v) + b := by
  subst h
  funext i
  fin_cases i <;>
    simp [V3.get, Matrix.mulVec, dotProduct, Fin.sum_univ_three]

variable [CharZero K]

theorem jac_hex {A : Matrix (Fin 3) (Fin 3) K} {b : Fin 3 → K} {c : ℕ → V3 K} (h : AffineImage .hex A b c) (xi : V3 K) : Hex.jac c xi = A := by
  have h0 := components (h 0 _ rfl)
  have h1 := components (h 1 _ rfl)
  have h2 := components (h 2 _ rfl)
  have h3 := components (h 3 _ rfl)
  have h4 := components (h 4 _ rfl)
  have h5 := components (h 5 _ rfl)
  have h6 := components (h 6 _ rfl)
  have h7 := components (h 7 _ rfl)
  funext i j
  simp only [Hex.jac, h0, h1, h2, h3, h4, h5, h6, h7]
  fin_cases i <;> fin_cases j <;>
    (simp only [Matrix.cons_val_zero, Matrix.cons_val_one, Matrix.cons_val, Matrix.of_apply, Fin.zero_eta, Fin.mk_one, Fin.reduceFinMk]
     field_simp
     ring)

theorem jac_prism {A : Matrix (Fin 3) (Fin 3) K} {b : Fin 3 → K} {c : ℕ → V3 K} (h : AffineImage .prism A b c) (xi : V3 K) : Prism.jac c xi = A := by
  have h0 := components (h 0 _ rfl)
  have h1 := components (h 1 _ rfl)
  have h2 := components (h 2 _ rfl)
  have h3 := components (h 3 _ rfl)
  have h4 := components (h 4 _ rfl)
  have h5 := components (h 5 _ rfl)
  funext i j
  simp only [Prism.jac, h0, h1, h2, h3, h4, h5]
  fin_cases i <;> fin_cases j <;>
    (simp only [Matrix.cons_val_zero, Matrix.cons_val_one, Matrix.cons_val, Matrix.of_apply, Fin.zero_eta, Fin.mk_one, Fin.reduceFinMk]
     field_simp
     ring)

theorem jac_tet {A : Matrix (Fin 3) (Fin 3) K} {b : Fin 3 → K} {c : ℕ → V3 K} (h : AffineImage .tet A b c) (xi : V3 K) : Tet.jac c xi = A := by
  have h0 := components (h 0 _ rfl)
  have h1 := components (h 1 _ rfl)
  have h2 := components (h 2 _ rfl)
  have h3 := components (h 3 _ rfl)
  funext i j
  simp only [Tet.jac, h0, h1, h2, h3]
  fin_cases i <;> fin_cases j <;>
    (simp only [Matrix.cons_val_zero, Matrix.cons_val_one, Matrix.cons_val, Matrix.of_apply, Fin.zero_eta, Fin.mk_one, Fin.reduceFinMk]
     field_simp
     ring)

theorem jac_pyr {A : Matrix (Fin 3) (Fin 3) K} {b : Fin 3 → K} {c : ℕ → V3 K} (h : AffineImage .pyr A b c) (xi : V3 K) (hz : xi.z ≠ 1) :
    Pyr.jac c xi = A := by
  have h0 := components (h 0 _ rfl)
  have h1 := components (h 1 _ rfl)
  have h2 := components (h 2 _ rfl)
  have h3 := components (h 3 _ rfl)
  have h4 := components (h 4 _ rfl)
  have hd : xi.z - 1 ≠ 0 := sub_ne_zero.2 hz
  funext i j
  simp only [Pyr.jac, h0, h1, h2, h3, h4]
  fin_cases i <;> fin_cases j <;>
    (simp only [Matrix.cons_val_zero, Matrix.cons_val_one, Matrix.cons_val, Matrix.of_apply, Fin.zero_eta, Fin.mk_one, Fin.reduceFinMk]
     field_simp
     ring)

/-- The map of the element is `ξ ↦ A ξ + b`. -/
theorem affine_map {s : Shape} {A : Matrix (Fin 3) (Fin 3) K} {b : Fin 3 → K} {c : ℕ → V3 K} (h : AffineImage s A b c) (hs : s ≠ .quad) (xi : V3 K)
    (hp : s = .pyr → xi.z ≠ 1) : V3.get (X s c xi) = A.mulVec (V3.get xi) + b := by
  apply of_components
  cases s
  · exact absurd rfl hs
  · have h0 := components (h 0 _ rfl)
    have h1 := components (h 1 _ rfl)
    have h2 := components (h 2 _ rfl)
    have h3 := components (h 3 _ rfl)
    have h4 := components (h 4 _ rfl)
    have h5 := components (h 5 _ rfl)
    have h6 := components (h 6 _ rfl)
    have h7 := components (h 7 _ rfl)
    simp only [X, weights, weightedFrom, h0, h1, h2, h3, h4, h5, h6, h7, V3.mk.injEq]
    refine ⟨?_, ?_, ?_⟩ <;> (field_simp; ring)
  · have h0 := components (h 0 _ rfl)
    have h1 := components (h 1 _ rfl)
    have h2 := components (h 2 _ rfl)
    have h3 := components (h 3 _ rfl)
    have h4 := components (h 4 _ rfl)
    have h5 := components (h 5 _ rfl)
    simp only [X, weights, weightedFrom, h0, h1, h2, h3, h4, h5, V3.mk.injEq]
    refine ⟨?_, ?_, ?_⟩ <;> (field_simp; ring)
  · have h0 := components (h 0 _ rfl)
    have h1 := components (h 1 _ rfl)
    have h2 := components (h 2 _ rfl)
    have h3 := components (h 3 _ rfl)
    have h4 := components (h 4 _ rfl)
    have hd : 1 - xi.z ≠ 0 := sub_ne_zero.2 (hp rfl).symm
    simp only [X, weights, weightedFrom, h0, h1, h2, h3, h4, V3.mk.injEq]
    refine ⟨?_, ?_, ?_⟩ <;> (field_simp; ring)
  · have h0 := components (h 0 _ rfl)
    have h1 := components (h 1 _ rfl)
    have h2 := components (h 2 _ rfl)
    have h3 := components (h 3 _ rfl)
    simp only [X, weights, weightedFrom, h0, h1, h2, h3, V3.mk.injEq]
    refine ⟨?_, ?_, ?_⟩ <;> (field_simp; ring)

theorem step_of_jac {s : Shape} {A : Matrix (Fin 3) (Fin 3) K} {b : Fin 3 → K} {c : ℕ → V3 K} (h : AffineImage s A b c) (hs : s ≠ .quad)
    (hdet : A.det ≠ 0) (xi p f : V3 K) (hp : s = .pyr → xi.z ≠ 1) : V3.get (newtonStep s c xi p f) = V3.get xi - A⁻¹.mulVec (V3.get f) := by
  cases s
  · exact absurd rfl hs
  · show V3.get (cramer3 (Hex.jac c xi) xi f) = _
    rw [jac_hex h]
    exact cramer3_solves A hdet xi f
  · show V3.get (cramer3 (Prism.jac c xi) xi f) = _
    rw [jac_prism h]
    exact cramer3_solves A hdet xi f
  · show V3.get (cramer3 (Pyr.jac c xi) xi f) = _
    rw [jac_pyr h xi (hp rfl)]
    exact cramer3_solves A hdet xi f
  · show V3.get (cramer3 (Tet.jac c xi) xi f) = _
    rw [jac_tet h]
    exact cramer3_solves A hdet xi f

/-- **C39.** For an affine hexahedron, prism, pyramid or tetrahedron that is not degenerate, from any starting point (for pyramids: not in the plane
of the apex) and for any target, one Newton step gives the point whose image is the target. -/
theorem one_step_exact {s : Shape} {A : Matrix (Fin 3) (Fin 3) K} {b : Fin 3 → K} {c : ℕ → V3 K} (h : AffineImage s A b c) (hs : s ≠ .quad)
    (hdet : A.det ≠ 0) (xi p : V3 K) (hp : s = .pyr → xi.z ≠ 1) :
    A.mulVec (V3.get (newtonStep s c xi p (newtonF s c xi p))) + b = V3.get p := by
  rw [step_of_jac h hs hdet xi p _ hp]
  have e : V3.get (newtonF s c xi p) = A.mulVec (V3.get xi) + b - V3.get p := by
    rw [← affine_map h hs xi hp, newton_f_exact s c xi p hp]
    cases s
    · exact absurd rfl hs
    all_goals
      funext i
      fin_cases i <;> rfl
  have hu : IsUnit A.det := isUnit_iff_ne_zero.2 hdet
  rw [e, Matrix.mulVec_sub, Matrix.mulVec_mulVec, Matrix.mul_nonsing_inv _ hu, Matrix.one_mulVec]
  abel

/-- Every tetrahedron is affine, and its matrix is invertible unless the tetrahedron is degenerate (`e30 · (e10 × e20) = 0`). -/
theorem tet_affine (c : ℕ → V3 K) : ∃ A b, AffineImage .tet A b c ∧
    A.det = ((c 3).x - (c 0).x) / 8 * (((c 1).y - (c 0).y) * ((c 2).z - (c 0).z) - ((c 1).z - (c 0).z) * ((c 2).y - (c 0).y)) +
      ((c 3).y - (c 0).y) / 8 * (((c 1).z - (c 0).z) * ((c 2).x - (c 0).x) - ((c 1).x - (c 0).x) * ((c 2).z - (c 0).z)) +
      ((c 3).z - (c 0).z) / 8 * (((c 1).x - (c 0).x) * ((c 2).y - (c 0).y) - ((c 1).y - (c 0).y) * ((c 2).x - (c 0).x)) := by
  refine ⟨!![((c 1).x - (c 0).x) / 2, ((c 2).x - (c 0).x) / 2, ((c 3).x - (c 0).x) / 2; ((c 1).y - (c 0).y) / 2, ((c 2).y - (c 0).y) / 2,
      ((c 3).y - (c 0).y) / 2; ((c 1).z - (c 0).z) / 2, ((c 2).z - (c 0).z) / 2, ((c 3).z - (c 0).z) / 2],
    ![(c 0).x + ((c 1).x - (c 0).x) / 2 + ((c 2).x - (c 0).x) / 2 + ((c 3).x - (c 0).x) / 2,
      (c 0).y + ((c 1).y - (c 0).y) / 2 + ((c 2).y - (c 0).y) / 2 + ((c 3).y - (c 0).y) / 2,
      (c 0).z + ((c 1).z - (c 0).z) / 2 + ((c 2).z - (c 0).z) / 2 + ((c 3).z - (c 0).z) / 2], ?_, ?_⟩
  · intro k v hv
    have hk : k < (refVerts (K := K) .tet).length := (List.getElem?_eq_some_iff.1 hv).1
    simp only [refVerts, List.length_cons, List.length_nil] at hk
    apply of_components
    have e : ∀ u : V3 K, u = ⟨u.x, u.y, u.z⟩ := fun _ => rfl
    interval_cases k <;> simp only [refVerts, List.getElem?_cons_zero, List.getElem?_cons_succ, Option.some.injEq] at hv <;> subst hv <;>
      (conv_lhs => rw [e (c _)]) <;>
      simp only [Matrix.of_apply, Matrix.cons_val_zero, Matrix.cons_val_one, Matrix.cons_val, V3.mk.injEq] <;>
      refine ⟨?_, ?_, ?_⟩ <;> (field_simp; try ring)
  · rw [Matrix.det_fin_three]
    simp only [Matrix.of_apply, Matrix.cons_val_zero, Matrix.cons_val_one, Matrix.cons_val]
    field_simp
    ring

/-- **C39, quadrilaterals.** For a parallelogram (`v0 + v2 = v1 + v3`) with linearly independent edges one step from any starting point gives the
point whose image is the target. -/
theorem one_step_exact_quad (c : ℕ → V3 K) (hx : (c 0).x + (c 2).x = (c 1).x + (c 3).x) (hy : (c 0).y + (c 2).y = (c 1).y + (c 3).y)
    (hdet : ((c 1).x - (c 0).x) * ((c 3).y - (c 0).y) - ((c 3).x - (c 0).x) * ((c 1).y - (c 0).y) ≠ 0) (xi p : V3 K) :
    (X .quad c (newtonStep .quad c xi p (newtonF .quad c xi p))).x = p.x ∧ (X .quad c (newtonStep .quad c xi p (newtonF .quad c xi p))).y = p.y := by
  have hJ : Quad.jac c xi = !![((c 1).x - (c 0).x) / 2, ((c 3).x - (c 0).x) / 2; ((c 1).y - (c 0).y) / 2, ((c 3).y - (c 0).y) / 2] := by
    have e1 : (c 2).x = (c 1).x + (c 3).x - (c 0).x := by rw [← hx]; ring
    have e2 : (c 2).y = (c 1).y + (c 3).y - (c 0).y := by rw [← hy]; ring
    funext i j
    simp only [Quad.jac, e1, e2]
    fin_cases i <;> fin_cases j <;>
      (simp only [Matrix.cons_val_zero, Matrix.cons_val_one, Matrix.of_apply, Fin.zero_eta, Fin.mk_one]
       field_simp
       ring)
  have hd : (Quad.jac c xi).det ≠ 0 := by
    rw [hJ, Matrix.det_fin_two]
    simp only [Matrix.of_apply, Matrix.cons_val_zero, Matrix.cons_val_one]
    intro h0
    apply hdet
    linear_combination 4 * h0
  set f := newtonF .quad c xi p with hf
  have hs := cramer2_solves (Quad.jac c xi) hd xi f
  have hu : IsUnit (Quad.jac c xi).det := isUnit_iff_ne_zero.2 hd
  have hm : (Quad.jac c xi).mulVec (![xi.x, xi.y] - ![(newtonStep .quad c xi p f).x, (newtonStep .quad c xi p f).y]) = ![f.x, f.y] := by
    show (Quad.jac c xi).mulVec (![xi.x, xi.y] - ![(cramer2 (Quad.jac c xi) xi f).x, (cramer2 (Quad.jac c xi) xi f).y]) = _
    rw [hs, sub_sub_cancel, Matrix.mulVec_mulVec, Matrix.mul_nonsing_inv _ hu, Matrix.one_mulVec]
  obtain ⟨f1, f2, _⟩ := quad_f c xi p
  have m0 := congrFun hm 0
  have m1 := congrFun hm 1
  rw [hJ] at m0 m1
  simp only [Matrix.mulVec, dotProduct, Fin.sum_univ_two, Pi.sub_apply, Matrix.of_apply, Matrix.cons_val_zero, Matrix.cons_val_one] at m0 m1
  have g1 : f.x = (X .quad c xi).x - p.x := f1
  have g2 : f.y = (X .quad c xi).y - p.y := f2
  rw [g1] at m0
  rw [g2] at m1
  generalize newtonStep .quad c xi p f = w at m0 m1 ⊢
  obtain ⟨w0, w1, w2⟩ := w
  obtain ⟨x, y, z⟩ := xi
  simp only [X, weights, weightedFrom] at m0 m1 ⊢
  constructor
  · linear_combination -m0 + (w0 * w1 - x * y + (w0 + w1 - x - y)) / 4 * hx
  · linear_combination -m1 + (w0 * w1 - x * y + (w0 + w1 - x - y)) / 4 * hy

/-! ### The iteration and the acceptance test -/

section iteration
variable [LinearOrder K] [IsStrictOrderedRing K]
open Verif.Props.C36 (next)

omit [CharZero K] in
/-- If the first step reaches a zero of the residual measure then `x_inverse` succeeds with at most one step. -/
theorem inverse_of_one_step (I : Impl K) (p : V3 K) (n : ℤ) (hn : 1 ≤ n) (tol : K) (ht : 0 ≤ tol) (start : Option (V3 K)) (w : V3 K)
    (hw : next I p (start.getD (I.initial p)) = w) (hr : (I.residual w p).1 = 0) :
    xInverse (exactOps K) I p n tol start = (if tol < (I.residual (start.getD (I.initial p)) p).1 then w else start.getD (I.initial p), true) := by
  unfold xInverse
  dsimp only
  obtain ⟨m, hm⟩ : ∃ m, n.toNat = m + 1 := ⟨n.toNat - 1, by omega⟩
  rw [hm, iterate]
  by_cases hc : tol < (I.residual (start.getD (I.initial p)) p).1
  · rw [if_pos (by simp [exactOps, hc]), if_pos hc]
    have hw' : I.step (start.getD (I.initial p)) p (I.residual (start.getD (I.initial p)) p).2 = w := hw
    dsimp only
    rw [hw']
    cases m with
    | zero => simp [iterate, exactOps, hr, ht]
    | succ m =>
      rw [iterate, if_neg (by simp [exactOps, hr, ht])]
      simp [exactOps, hr, ht]
  · rw [if_neg (by simp [exactOps, hc]), if_neg hc]
    simp [exactOps, not_lt.1 hc]

omit [CharZero K] in
theorem clamp_id (lo hi v : K) (hlo : lo ≤ -1) (hhi : 1 ≤ hi) (h : Verif.Spec.InUnit v) : max (min v hi) lo = v := by
  rw [min_eq_left (h.2.trans hhi), max_eq_left (hlo.trans h.1)]

/-- The coordinates are in `[-1, 1]`. -/
def InUnit3 (v : V3 K) : Prop := Verif.Spec.InUnit v.x ∧ Verif.Spec.InUnit v.y ∧ Verif.Spec.InUnit v.z

omit [CharZero K] in
/-- If the inverse is found at a point whose collapsed coordinates are in `[-1, 1]` and give the point back, the candidate is accepted with it. -/
theorem accept_of_inverse (I : Impl K) (c : Settings K) (hlo : c.lo ≤ -1) (hhi : 1 ≤ c.hi) (p : V3 K) (start : Option (V3 K)) (w : V3 K)
    (hw : xInverse (exactOps K) I p c.maxIterations c.tol start = (w, true)) (hu : InUnit3 (I.toCollapsed w))
    (hrt : I.fromCollapsed (I.toCollapsed w) = w) (hr : (I.residual w p).1 ≤ c.tol) : tryCandidate (exactOps K) I c p start = some w := by
  unfold tryCandidate
  have e : (⟨max (min (I.toCollapsed w).x c.hi) c.lo, max (min (I.toCollapsed w).y c.hi) c.lo, max (min (I.toCollapsed w).z c.hi) c.lo⟩ : V3 K) =
      I.toCollapsed w := by
    rw [clamp_id _ _ _ hlo hhi hu.1, clamp_id _ _ _ hlo hhi hu.2.1, clamp_id _ _ _ hlo hhi hu.2.2]
  rw [hw]
  simp only [exactOps, e, hrt, hr, decide_true, Bool.and_self, if_true]

/-- An affine element with its specialisation: shape, vertices, starting point and measure. -/
def impl (tol : K) (s : Shape) (c : ℕ → V3 K) (sc : V3 K) (js : K) : Impl K :=
  match s with
  | .quad => quadImpl c sc
  | .hex => hexImpl c js
  | .prism => prismImpl tol c sc
  | .pyr => pyrImpl tol c sc
  | .tet => tetImpl tol c sc

/-- The corresponding reference shape. -/
def shape3 : Shape → Verif.Spec.Shape3
  | .quad => .hex
  | .hex => .hex
  | .prism => .prism
  | .pyr => .pyr
  | .tet => .tet

theorem get_inj {u v : V3 K} (h : V3.get u = V3.get v) : u = v := by
  obtain ⟨a, b, c⟩ := u
  obtain ⟨d, e, f⟩ := v
  have h0 := congrFun h 0
  have h1 := congrFun h 1
  have h2 := congrFun h 2
  simp only [V3.get, Matrix.cons_val_zero, Matrix.cons_val_one, Matrix.cons_val] at h0 h1 h2
  subst h0 h1 h2
  rfl

theorem next_exact (tol : K) {s : Shape} {A : Matrix (Fin 3) (Fin 3) K} {b : Fin 3 → K} {c : ℕ → V3 K} (h : AffineImage s A b c)
    (hs : s = .hex ∨ s = .prism ∨ s = .tet) (hdet : A.det ≠ 0) (sc : V3 K) (js : K) (start w : V3 K) :
    next (impl tol s c sc js) (X s c w) start = w := by
  have hq : s ≠ .quad := by rcases hs with rfl | rfl | rfl <;> simp
  have hp : s = .pyr → ∀ z : K, z ≠ 1 := by rintro rfl; simp at hs
  have e : next (impl tol s c sc js) (X s c w) start = newtonStep s c start (X s c w) (newtonF s c start (X s c w)) := by
    rcases hs with rfl | rfl | rfl <;> rfl
  rw [e]
  have h1 := one_step_exact h hq hdet start (X s c w) (fun h => hp h _)
  rw [affine_map h hq w (fun h => hp h _), add_left_inj] at h1
  apply get_inj
  have hu : IsUnit A.det := isUnit_iff_ne_zero.2 hdet
  have := congrArg (A⁻¹.mulVec) h1
  rwa [Matrix.mulVec_mulVec, Matrix.mulVec_mulVec, Matrix.nonsing_inv_mul _ hu, Matrix.one_mulVec, Matrix.one_mulVec] at this

theorem residual_zero (tol : K) {s : Shape} (c : ℕ → V3 K) (hs : s = .hex ∨ s = .prism ∨ s = .tet) (sc : V3 K) (js : K) (w : V3 K) :
    ((impl tol s c sc js).residual w (X s c w)).1 = 0 := by
  have e : newtonF s c w (X s c w) = ⟨0, 0, 0⟩ := by
    rw [newton_f_exact s c w _ (by rcases hs with rfl | rfl | rfl <;> simp)]
    rcases hs with rfl | rfl | rfl <;> simp
  rcases hs with rfl | rfl | rfl
  · show max (max |(Hex.newtonF c w (X .hex c w)).x| |(Hex.newtonF c w (X .hex c w)).y|) |(Hex.newtonF c w (X .hex c w)).z| * js = 0
    have e' : Hex.newtonF c w (X .hex c w) = ⟨0, 0, 0⟩ := e
    simp [e']
  · show relativeError3d sc (Prism.newtonF c w (X .prism c w)).x (Prism.newtonF c w (X .prism c w)).y (Prism.newtonF c w (X .prism c w)).z = 0
    have e' : Prism.newtonF c w (X .prism c w) = ⟨0, 0, 0⟩ := e
    simp [e', relativeError3d]
  · show relativeError3d sc (Tet.newtonF c w (X .tet c w)).x (Tet.newtonF c w (X .tet c w)).y (Tet.newtonF c w (X .tet c w)).z = 0
    have e' : Tet.newtonF c w (X .tet c w) = ⟨0, 0, 0⟩ := e
    simp [e', relativeError3d]

/-- **C39, acceptance.** A point of an affine hexahedron, prism or tetrahedron (the image of a point `w` of the reference element away from its
collapsed edge) is accepted by the Newton mapping of that element, whatever the starting point, as soon as one iteration is allowed: with the exact
reference point `w`, unless the residual measure of the starting point is already within the tolerance. -/
theorem affine_point_accepted (tol : K) (htol : 0 < tol) {s : Shape} {A : Matrix (Fin 3) (Fin 3) K} {b : Fin 3 → K} {c : ℕ → V3 K}
    (h : AffineImage s A b c) (hs : s = .hex ∨ s = .prism ∨ s = .tet) (hdet : A.det ≠ 0) (sc : V3 K) (js : K) (t : Settings K)
    (hlo : t.lo ≤ -1) (hhi : 1 ≤ t.hi) (ht : 0 ≤ t.tol) (hn : 1 ≤ t.maxIterations) (start : Option (V3 K)) (w : V3 K)
    (hw : Verif.Spec.InRef3 0 (shape3 s) w.x w.y w.z) (hreg : Verif.Props.C07.Regular3 tol (shape3 s) w.x w.y w.z)
    (hstart : t.tol < ((impl tol s c sc js).residual (start.getD ⟨0, 0, 0⟩) (X s c w)).1) :
    tryCandidate (exactOps K) (impl tol s c sc js) t (X s c w) start = some w := by
  have hinit : (impl tol s c sc js).initial (X s c w) = ⟨0, 0, 0⟩ := by rcases hs with rfl | rfl | rfl <;> rfl
  have hi := inverse_of_one_step (impl tol s c sc js) (X s c w) t.maxIterations hn t.tol ht start w
    (next_exact tol h hs hdet sc js _ w) (residual_zero tol c hs sc js w)
  rw [hinit, if_pos hstart] at hi
  refine accept_of_inverse _ t hlo hhi _ start w hi ?_ ?_ ?_
  · have := Verif.Props.C08.element_has_unit_collapsed_3d tol htol (shape3 s) w.x w.y w.z hw
    rcases hs with rfl | rfl | rfl <;> exact this
  · have := Verif.Props.C07.local_collapsed_local_3d tol htol (shape3 s) w.x w.y w.z hreg
    rcases hs with rfl | rfl | rfl
    · rfl
    · exact congrArg ofTriple this
    · exact congrArg ofTriple this
  · rw [residual_zero tol c hs sc js w]
    exact ht

/-- **C39, acceptance, apex of a pyramid.** A point within `kNekZeroTol` of the apex of a pyramid is accepted with the reference position of the apex,
without any iteration. -/
theorem pyr_apex_accepted (tol : K) (htol : 0 < tol) (c : ℕ → V3 K) (sc : V3 K) (t : Settings K) (hlo : t.lo ≤ -1) (hhi : 1 ≤ t.hi) (ht : 0 ≤ t.tol)
    (p : V3 K) (hx : |(c 4).x - p.x| ≤ tol) (hy : |(c 4).y - p.y| ≤ tol) (hz : |(c 4).z - p.z| ≤ tol) :
    acceptInitial (exactOps K) (pyrImpl tol c sc) t p = some ⟨-1, -1, 1⟩ := by
  have hv : pyrVt tol c p = true := by simp [pyrVt, hx, hy, hz]
  have hxt : pyrXt tol (⟨-1, -1, 1⟩ : V3 K) = true := by simp [pyrXt, htol.le]
  have hres : (pyrImpl tol c sc).residual ⟨-1, -1, 1⟩ p = (0, ⟨0, 0, 0⟩) := by simp [pyrImpl, hv, hxt]
  have hinit : (pyrImpl tol c sc).initial p = ⟨-1, -1, 1⟩ := by simp [pyrImpl, hv]
  have hcol : (pyrImpl tol c sc).toCollapsed ⟨-1, -1, 1⟩ = ⟨-1, -1, 1⟩ := by
    simp [pyrImpl, ofTriple, Verif.Model.CoordMap.pyrToCollapsed]
  refine accept_of_inverse (pyrImpl tol c sc) t hlo hhi p none ⟨-1, -1, 1⟩ ?_ ?_ ?_ ?_
  · unfold xInverse
    dsimp only
    rw [Option.getD_none, hinit, hres]
    have : ∀ n, iterate (exactOps K) (pyrImpl tol c sc) p t.tol n ⟨⟨-1, -1, 1⟩, 0, ⟨0, 0, 0⟩, false⟩ = ⟨⟨-1, -1, 1⟩, 0, ⟨0, 0, 0⟩, false⟩ := by
      intro n
      cases n with
      | zero => rfl
      | succ n => rw [iterate, if_neg (by simp [exactOps, ht])]
    rw [this]
    simp [exactOps, ht]
  · rw [hcol]
    unfold InUnit3 Verif.Spec.InUnit
    norm_num
  · rw [hcol]
    simp only [pyrImpl, ofTriple, Verif.Model.CoordMap.pyrFromCollapsed, V3.mk.injEq]
    norm_num
  · rw [hres]
    exact ht

/-- **C39, acceptance, other points of an affine pyramid.** -/
theorem affine_point_accepted_pyr (tol : K) (htol : 0 < tol) {A : Matrix (Fin 3) (Fin 3) K} {b : Fin 3 → K} {c : ℕ → V3 K}
    (h : AffineImage .pyr A b c) (hdet : A.det ≠ 0) (sc : V3 K) (t : Settings K)
    (hlo : t.lo ≤ -1) (hhi : 1 ≤ t.hi) (ht : 0 ≤ t.tol) (hn : 1 ≤ t.maxIterations) (start : Option (V3 K)) (w : V3 K)
    (hw : Verif.Spec.InRef3 0 .pyr w.x w.y w.z) (hreg : tol ≤ |1 - w.z|) (hv : pyrVt tol c (X .pyr c w) = false)
    (hz : (start.getD ⟨0, 0, 0⟩).z ≠ 1)
    (hstart : t.tol < ((pyrImpl tol c sc).residual (start.getD ⟨0, 0, 0⟩) (X .pyr c w)).1) :
    tryCandidate (exactOps K) (pyrImpl tol c sc) t (X .pyr c w) start = some w := by
  have hwz : w.z ≠ 1 := by
    intro e
    rw [e, sub_self, abs_zero] at hreg
    exact absurd htol (not_lt.2 hreg)
  have hinit : (pyrImpl tol c sc).initial (X .pyr c w) = ⟨0, 0, 0⟩ := by simp [pyrImpl, hv]
  have hres : ∀ xi : V3 K, ((pyrImpl tol c sc).residual xi (X .pyr c w)) =
      (relativeError3d sc (Pyr.newtonF c xi (X .pyr c w)).x (Pyr.newtonF c xi (X .pyr c w)).y (Pyr.newtonF c xi (X .pyr c w)).z,
        Pyr.newtonF c xi (X .pyr c w)) := by
    intro xi
    simp [pyrImpl, hv]
  have hzero : ((pyrImpl tol c sc).residual w (X .pyr c w)).1 = 0 := by
    rw [hres, pyr_f c w _ hwz]
    simp [relativeError3d, V3.sub]
  have hnext : next (pyrImpl tol c sc) (X .pyr c w) (start.getD ⟨0, 0, 0⟩) = w := by
    have e : next (pyrImpl tol c sc) (X .pyr c w) (start.getD ⟨0, 0, 0⟩) =
        newtonStep .pyr c (start.getD ⟨0, 0, 0⟩) (X .pyr c w) (newtonF .pyr c (start.getD ⟨0, 0, 0⟩) (X .pyr c w)) := by
      unfold next
      rw [hres]
      simp [pyrImpl, hv, newtonStep, newtonF]
    rw [e]
    have h1 := one_step_exact h (by simp) hdet (start.getD ⟨0, 0, 0⟩) (X .pyr c w) (fun _ => hz)
    rw [affine_map h (by simp) w (fun _ => hwz), add_left_inj] at h1
    apply get_inj
    have hu : IsUnit A.det := isUnit_iff_ne_zero.2 hdet
    have := congrArg (A⁻¹.mulVec) h1
    rwa [Matrix.mulVec_mulVec, Matrix.mulVec_mulVec, Matrix.nonsing_inv_mul _ hu, Matrix.one_mulVec, Matrix.one_mulVec] at this
  have hi := inverse_of_one_step (pyrImpl tol c sc) (X .pyr c w) t.maxIterations hn t.tol ht start w (by rw [hinit]; exact hnext) hzero
  rw [hinit, if_pos hstart] at hi
  refine accept_of_inverse _ t hlo hhi _ start w hi ?_ ?_ ?_
  · exact Verif.Props.C08.element_has_unit_collapsed_3d tol htol .pyr w.x w.y w.z hw
  · exact congrArg ofTriple (Verif.Props.C07.local_collapsed_local_3d tol htol .pyr w.x w.y w.z hreg)
  · rw [hzero]
    exact ht

end iteration

/-! ### An example -/

/-- A tetrahedron. -/
def exTet : ℕ → V3 ℚ := fun k => ([⟨1, 0, 0⟩, ⟨3, 0, 1⟩, ⟨0, 2, 0⟩, ⟨1, 1, 4⟩] : List (V3 ℚ)).getD k ⟨0, 0, 0⟩

/-- The Newton mapping with one iteration finds the reference point `(-1/2, -1/2, -1/2)`. -/
example : (tryCandidate (exactOps ℚ) (impl (1 / 1000000000000) .tet exTet ⟨1, 1, 1⟩ 1) ⟨1 / 10000000000, 1, 1, -1⟩
      (X .tet exTet ⟨-1 / 2, -1 / 2, -1 / 2⟩) none).map (fun v => (v.x, v.y, v.z)) = some (-1 / 2, -1 / 2, -1 / 2) ∧
    (1 / 10000000000 : ℚ) < ((impl (1 / 1000000000000) .tet exTet ⟨1, 1, 1⟩ 1).residual ⟨0, 0, 0⟩ (X .tet exTet ⟨-1 / 2, -1 / 2, -1 / 2⟩)).1 := by
  decide +kernel

end Verif.Props.C39
