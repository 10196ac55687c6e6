import Verif.Lemmas.Generic3D
import Verif.Lemmas.PolyElement
import Verif.Props.C36_NewtonInverse
import Mathlib.LinearAlgebra.Matrix.Determinant.Basic
import Mathlib.Tactic.LinearCombination

/-!
C81. Curved three-dimensional elements: the Newton iteration evaluates the element's map and its exact Jacobian.

`Interpolates`, `PolynomialElement`, `jacobian` and the assumptions `GeomOk` on Nektar++ are in `Verif.Spec.Generic3D`. `tol` is `kNekZeroTol`, `code` the shape codes of Nektar++.
-/

namespace Verif.Props.C81
open Verif.Spec Verif.Spec.Generic3D Verif.Lemmas Verif.Lemmas.Generic3D Verif.Lemmas.PolyElement Verif.Lemmas.NewtonMemory Verif.Model Verif.Model.Bary
  Verif.Model.JacobiCoeff Verif.Model.Generic3D Verif.Model.NewtonKernel Verif.Model.NewtonMemory Verif.Model.CoordMap Verif.Props.C07 MvPolynomial

variable {K : Type*} [Field K] [LinearOrder K]

theorem fin3_finite (v : V3 K) : fin3 (finite v) = some v := rfl

/-- `write_data` accepts every element and asks for `n0 + n1 + n2` values of local memory; if the numbers of points do not match it stops. -/
theorem write_data_succeeds (g : Geom3 K) (n : Fin 3 → ℕ) (z w : Fin 3 → List K) (h : GeomOk g n z w) :
    ∃ d, writeData g = some (d, n 0 + n 1 + n 2) := by
  obtain ⟨d, e, _⟩ := writeData_ok g n z w h
  exact ⟨d, e⟩

theorem write_data_checks (g : Geom3 K) (b0 b1 b2 : List K × List K) (hb : g.base = [b0, b1, b2]) (h : g.totPoints ≠ b0.1.length * b1.1.length * b2.1.length) :
    writeData g = none := by
  unfold writeData
  rw [hb]
  dsimp only
  rw [if_neg h]

theorem dev_ok (g : Geom3 K) (n : Fin 3 → ℕ) (z w : Fin 3 → List K) (h : GeomOk g n z w) (d : Dev K) (size : ℕ) (hd : writeData g = some (d, size)) :
    DevOk g n z w d ∧ size = n 0 + n 1 + n 2 := by
  obtain ⟨d', e, h'⟩ := writeData_ok g n z w h
  rw [e, Option.some.injEq, Prod.mk.injEq] at hd
  obtain ⟨rfl, rfl⟩ := hd
  exact ⟨h', rfl⟩

/-- **C81, the residual.** At every point, whatever the contents of the local memory, `newton_residual` accesses only its arrays; it returns `X(ξ) - p`, where the map `X` has in the collapsed
coordinates the polynomials with the values of the element's coordinates at the quadrature points, and the relative error of that vector. -/
theorem residual_exact (code : Shape3 → ℤ) (tol : K) (g : Geom3 K) (n : Fin 3 → ℕ) (z w : Fin 3 → List K) (h : GeomOk g n z w) (d : Dev K) (size : ℕ)
    (hd : writeData g = some (d, size)) (X : Fin 3 → K → K → K → K) (hX : ∀ i : Fin 3, Interpolates n z (g.phys i) (X i)) (xi p : V3 K) (mem : Arr K) (hm : size ≤ mem.size) :
    ∃ mem' f, residualM code tol d (finite xi) (finite p) mem = some ((some (relativeError3d g.scaling f.x f.y f.z), finite f), mem') ∧
      ∀ i, comp f i = (fun e : K × K × K => X i e.1 e.2.1 e.2.2) (dispatchTo3 code tol g.shape xi.x xi.y xi.z) - comp p i := by
  obtain ⟨hdev, rfl⟩ := dev_ok g n z w h d size hd
  have hJ : ∀ i j : Fin 3, ∃ F, Interpolates n z (g.deriv i j) F := by
    intro i j
    obtain ⟨c, hc⟩ := interpolant3 (n 0) (n 1) (n 2) (z 0) (z 1) (z 2) (h.rule 0).distinct (h.rule 1).distinct (h.rule 2).distinct
      (fun i2 i1 i0 => (g.deriv i j).getD (i2 * (n 0 * n 1) + i1 * n 0 + i0) 0)
    refine ⟨poly3 (n 0) (n 1) (n 2) c, ⟨h.deriv i j, fun i2 hi2 i1 hi1 i0 hi0 => ?_⟩, c, rfl⟩
    rw [hc i2 hi2 i1 hi1 i0 hi0]
    exact (getElem?_getD_of_lt _ _ (by rw [h.deriv]; exact idx3_lt hi0 hi1 hi2)).symm
  choose J hJ using hJ
  obtain ⟨m', e, _, _⟩ := (generic_refines code tol g n z w h d hdev ⟨X, J⟩ hX hJ).residual (finite xi) (finite p) mem hm
  refine ⟨m', ⟨_, _, _⟩, e, fun i => ?_⟩
  fin_cases i <;> rfl

/-- **C81, the step.** A step after a residual at the same point uses the polynomials with the values of the derivatives: it solves `J (ξ' - ξ) = -f` if `J` is not singular and is not finite if it
is. The local memory before the two calls does not matter. -/
theorem step_exact (code : Shape3 → ℤ) (tol : K) (g : Geom3 K) (n : Fin 3 → ℕ) (z w : Fin 3 → List K) (h : GeomOk g n z w) (d : Dev K) (size : ℕ)
    (hd : writeData g = some (d, size)) (J : Fin 3 → Fin 3 → K → K → K → K) (hJ : ∀ i j : Fin 3, Interpolates n z (g.deriv i j) (J i j)) (xi p f : V3 K) (mem : Arr K)
    (hm : size ≤ mem.size) :
    ∃ r mem', residualM code tol d (finite xi) (finite p) mem = some (r, mem') ∧
      ∀ A : Matrix (Fin 3) (Fin 3) K, (A = fun i j => (fun e : K × K × K => J i j e.1 e.2.1 e.2.2) (dispatchTo3 code tol g.shape xi.x xi.y xi.z)) →
        (A.det = 0 → stepM d (finite xi) (finite f) mem' = some ⟨none, none, none⟩) ∧
        (A.det ≠ 0 → ∃ xi', stepM d (finite xi) (finite f) mem' = some (finite xi') ∧ A.mulVec (comp xi' - comp xi) = -comp f) := by
  obtain ⟨hdev, rfl⟩ := dev_ok g n z w h d size hd
  have hX : ∀ i : Fin 3, ∃ F, Interpolates n z (g.phys i) F := by
    intro i
    obtain ⟨c, hc⟩ := interpolant3 (n 0) (n 1) (n 2) (z 0) (z 1) (z 2) (h.rule 0).distinct (h.rule 1).distinct (h.rule 2).distinct
      (fun i2 i1 i0 => (g.phys i).getD (i2 * (n 0 * n 1) + i1 * n 0 + i0) 0)
    refine ⟨poly3 (n 0) (n 1) (n 2) c, ⟨h.phys i, fun i2 hi2 i1 hi1 i0 hi0 => ?_⟩, c, rfl⟩
    rw [hc i2 hi2 i1 hi1 i0 hi0]
    exact (getElem?_getD_of_lt _ _ (by rw [h.phys]; exact idx3_lt hi0 hi1 hi2)).symm
  choose X hX using hX
  have R := generic_refines code tol g n z w h d hdev ⟨X, J⟩ hX hJ
  obtain ⟨m', e, hm', ha⟩ := R.residual (finite xi) (finite p) mem hm
  have es := R.step (finite xi) (finite p) (finite f) m' hm' ha
  refine ⟨_, m', e, fun A hA => ?_⟩
  change stepM d (finite xi) (finite f) m' = _ at es
  rw [es]
  simp only [pureImpl, fin3_finite, Option.bind_some]
  set E := entries ⟨X, J⟩ (collapsed code tol g.shape xi) with hE
  have hEA : ∀ i j : Fin 3, A i j = E (3 * i.val + j.val) := by
    intro i j
    subst hA
    fin_cases i <;> fin_cases j <;> rfl
  have hdet : A.det = E 0 * (E 4 * E 8 - E 5 * E 7) - E 1 * (E 3 * E 8 - E 5 * E 6) + E 2 * (E 3 * E 7 - E 4 * E 6) := by
    rw [Matrix.det_fin_three]
    simp only [hEA]
    norm_num
    ring
  constructor
  · intro h0
    simp only [cramerStep, Nat.reduceAdd]
    rw [← hdet, h0, Dbl.div, if_pos rfl]
    rfl
  · intro h0
    simp only [cramerStep, Nat.reduceAdd]
    rw [← hdet, Dbl.div, if_neg h0, Option.map_some]
    refine ⟨_, rfl, ?_⟩
    obtain ⟨y, hy, ey⟩ : ∃ y : K, y * A.det = 1 ∧ y = 1 / A.det := ⟨_, one_div_mul_cancel h0, rfl⟩
    rw [← ey]
    rw [hdet] at hy
    have e00 := hEA 0 0; have e01 := hEA 0 1; have e02 := hEA 0 2
    have e10 := hEA 1 0; have e11 := hEA 1 1; have e12 := hEA 1 2
    have e20 := hEA 2 0; have e21 := hEA 2 1; have e22 := hEA 2 2
    norm_num at e00 e01 e02 e10 e11 e12 e20 e21 e22 hy
    funext i
    fin_cases i
    · simp only [Matrix.mulVec, dotProduct, Fin.sum_univ_three, comp, Pi.sub_apply, Pi.neg_apply, Fin.zero_eta, Matrix.cons_val_zero, Matrix.cons_val_one, Matrix.cons_val, e00, e01, e02]
      norm_num
      linear_combination (-f.x) * hy
    · simp only [Matrix.mulVec, dotProduct, Fin.sum_univ_three, comp, Pi.sub_apply, Pi.neg_apply, Fin.mk_one, Matrix.cons_val_zero, Matrix.cons_val_one, Matrix.cons_val, e10, e11, e12]
      norm_num
      linear_combination (-f.y) * hy
    · simp only [Matrix.mulVec, dotProduct, Fin.sum_univ_three, comp, Pi.sub_apply, Pi.neg_apply, Fin.reduceFinMk, Matrix.cons_val_zero, Matrix.cons_val_one, Matrix.cons_val, e20, e21, e22]
      norm_num
      linear_combination (-f.z) * hy

/-- **C81, polynomial elements.** For an element of any of the four shapes whose map is a polynomial `q` of the expansion space, at every point that is not at the collapsed edge or vertex: the
residual is `q(ξ) - p`, and the step is the exact Newton step, with the Jacobian matrix of `q` at the point. -/
theorem newton_on_polynomial_element [IsStrictOrderedRing K] (code : Shape3 → ℤ) (hcode : Function.Injective code) (tol : K) (ht : 0 < tol) (s : Shape3) (g : Geom3 K)
    (hs : g.shape = code s) (n : Fin 3 → ℕ) (z w : Fin 3 → List K) (h : GeomOk g n z w) (q : Fin 3 → MvPolynomial (Fin 3) K) (hq : PolynomialElement s g n z q) (d : Dev K) (size : ℕ)
    (hd : writeData g = some (d, size)) (xi p : V3 K) (hr : Regular3 tol s xi.x xi.y xi.z) (mem : Arr K) (hm : size ≤ mem.size) :
    ∃ mem' f, residualM code tol d (finite xi) (finite p) mem = some ((some (relativeError3d g.scaling f.x f.y f.z), finite f), mem') ∧
      (∀ i, comp f i = eval (comp xi) (q i) - comp p i) ∧
      ((jacobian q xi).det = 0 → stepM d (finite xi) (finite f) mem' = some ⟨none, none, none⟩) ∧
      ((jacobian q xi).det ≠ 0 → ∃ xi', stepM d (finite xi) (finite f) mem' = some (finite xi') ∧ (jacobian q xi).mulVec (comp xi' - comp xi) = -comp f) := by
  have hn : ∀ j, 0 < n j := fun j => (h.rule j).pos
  have c2 : Function.Injective (fun t : Shape2 => if t = .tri then (0 : ℤ) else 1) := by
    intro a b; cases a <;> cases b <;> simp
  have hto : ∀ a b c, dispatchTo3 code tol g.shape a b c = toCollapsed3 tol s a b c := fun a b c => by
    rw [hs]; exact ((dispatch_selects_shape tol code hcode _ c2).1 s a b c).1
  have hev : ∀ P : MvPolynomial (Fin 3) K, (fun e : K × K × K => eval (refPoint s e.1 e.2.1 e.2.2) P) (dispatchTo3 code tol g.shape xi.x xi.y xi.z) = eval (comp xi) P := by
    intro P
    rw [hto]
    show eval (refPoint s _ _ _) P = _
    rw [refPoint_collapsed tol ht s _ _ _ hr]
    rfl
  have hX : ∀ i : Fin 3, Interpolates n z (g.phys i) fun a b c => eval (refPoint s a b c) (q i) := fun i => by
    obtain ⟨c, hc⟩ := space_poly3 s n hn (q i) (hq.space i)
    exact ⟨hq.phys i, c, by funext x y t; exact hc x y t⟩
  have hJ : ∀ i j : Fin 3, Interpolates n z (g.deriv i j) fun a b c => eval (refPoint s a b c) (pderiv j (q i)) := fun i j => by
    obtain ⟨c, hc⟩ := space_poly3 s n hn (pderiv j (q i)) (space_pderiv s n (q i) (hq.space i) j)
    exact ⟨hq.deriv i j, c, by funext x y t; exact hc x y t⟩
  obtain ⟨mem', f, e, hf⟩ := residual_exact code tol g n z w h d size hd _ hX xi p mem hm
  obtain ⟨r, mem'', e', hstep⟩ := step_exact code tol g n z w h d size hd _ hJ xi p f mem hm
  rw [e, Option.some.injEq, Prod.mk.injEq] at e'
  obtain ⟨-, rfl⟩ := e'
  refine ⟨mem', f, e, fun i => ?_, hstep (jacobian q xi) ?_⟩
  · rw [hf i, ← hev (q i)]
  · funext i j
    rw [jacobian, ← hev (pderiv j (q i))]

/-- **C81, the iteration.** `x_inverse` of a curved element accesses only its arrays, and its result does not depend on the contents of the local memory: each step uses the weights that the residual
before it stored. If it reports success, the returned point is finite and the relative error of `X(ξ) - p` is at most the tolerance. -/
theorem inverse_sound (code : Shape3 → ℤ) (tol : K) (g : Geom3 K) (n : Fin 3 → ℕ) (z w : Fin 3 → List K) (h : GeomOk g n z w) (d : Dev K) (size : ℕ)
    (hd : writeData g = some (d, size)) (X : Fin 3 → K → K → K → K) (hX : ∀ i : Fin 3, Interpolates n z (g.phys i) (X i)) (p : V3 K) (maxIterations : ℤ) (newtonTol : K)
    (start : Option (V3 (Dbl K))) :
    ∃ r : V3 (Dbl K) × Bool,
      (∀ mem : Arr K, size ≤ mem.size → ∃ mem', xInverseM (dblOps K) (generic3D code tol d) (finite p) maxIterations (some newtonTol) start mem = some (r, mem')) ∧
      (r.2 = true → ∃ x f : V3 K, r.1 = finite x ∧
        (∀ i, comp f i = (fun e : K × K × K => X i e.1 e.2.1 e.2.2) (dispatchTo3 code tol g.shape x.x x.y x.z) - comp p i) ∧
        relativeError3d g.scaling f.x f.y f.z ≤ newtonTol) := by
  obtain ⟨hdev, rfl⟩ := dev_ok g n z w h d size hd
  have hJ : ∀ i j : Fin 3, ∃ F, Interpolates n z (g.deriv i j) F := by
    intro i j
    obtain ⟨c, hc⟩ := interpolant3 (n 0) (n 1) (n 2) (z 0) (z 1) (z 2) (h.rule 0).distinct (h.rule 1).distinct (h.rule 2).distinct
      (fun i2 i1 i0 => (g.deriv i j).getD (i2 * (n 0 * n 1) + i1 * n 0 + i0) 0)
    refine ⟨poly3 (n 0) (n 1) (n 2) c, ⟨h.deriv i j, fun i2 hi2 i1 hi1 i0 hi0 => ?_⟩, c, rfl⟩
    rw [hc i2 hi2 i1 hi1 i0 hi0]
    exact (getElem?_getD_of_lt _ _ (by rw [h.deriv]; exact idx3_lt hi0 hi1 hi2)).symm
  choose J hJ using hJ
  have R := generic_refines code tol g n z w h d hdev ⟨X, J⟩ hX hJ
  refine ⟨xInverse (dblOps K) (pureImpl code tol g.shape g.scaling ⟨X, J⟩) (finite p) maxIterations (some newtonTol) start, fun mem hm => ?_, fun hr => ?_⟩
  · obtain ⟨m', e, _⟩ := xInverseM_eq R (dblOps K) (finite p) maxIterations (some newtonTol) start mem hm
    exact ⟨m', e⟩
  · obtain ⟨k, _, _, h2, _⟩ := Verif.Props.C36.newton_inverse_sound (dblOps K) (pureImpl code tol g.shape g.scaling ⟨X, J⟩) (finite p) maxIterations (some newtonTol) start
    have h3 := h2.1 hr
    generalize (xInverse (dblOps K) (pureImpl code tol g.shape g.scaling ⟨X, J⟩) (finite p) maxIterations (some newtonTol) start).1 = xi at h3 ⊢
    cases hx : fin3 xi with
    | none =>
      simp only [pureImpl, hx] at h3
      simp [relativeErrorD, fin3, dblOps] at h3
    | some x =>
      refine ⟨x, ⟨atEta (X 0) (collapsed code tol g.shape x) - p.x, atEta (X 1) (collapsed code tol g.shape x) - p.y,
        atEta (X 2) (collapsed code tol g.shape x) - p.z⟩, fin3_some hx, ?_, ?_⟩
      · intro i; fin_cases i <;> rfl
      · simp only [pureImpl, hx] at h3
        simpa [relativeErrorD, subD, finite, fin3, dblOps] using h3

/-! ### The hypotheses are met -/

/-- The geometry of Nektar++ for a polynomial map: the values at the nodes. -/
noncomputable def geomOf (code : Shape3 → ℤ) (s : Shape3) (n : Fin 3 → ℕ) (z w : Fin 3 → List K) (q : Fin 3 → MvPolynomial (Fin 3) K) : Geom3 K where
  base := [(z 0, w 0), (z 1, w 1), (z 2, w 2)]
  totPoints := n 0 * n 1 * n 2
  phys i := (List.range (n 0 * n 1 * n 2)).map fun k =>
    eval (refPoint s ((z 0).getD (k % n 0) 0) ((z 1).getD (k / n 0 % n 1) 0) ((z 2).getD (k / n 0 / n 1) 0)) (q (Fin.ofNat 3 i))
  deriv i j := (List.range (n 0 * n 1 * n 2)).map fun k =>
    eval (refPoint s ((z 0).getD (k % n 0) 0) ((z 1).getD (k / n 0 % n 1) 0) ((z 2).getD (k / n 0 / n 1) 0)) (pderiv (Fin.ofNat 3 j) (q (Fin.ofNat 3 i)))
  shape := code s
  scaling := ⟨1, 1, 1⟩

theorem nodal_of (s : Shape3) (n : Fin 3 → ℕ) (z : Fin 3 → List K) (P : MvPolynomial (Fin 3) K) :
    NodalValues3 (n 0) (n 1) (n 2) (z 0) (z 1) (z 2) ((List.range (n 0 * n 1 * n 2)).map fun k =>
      eval (refPoint s ((z 0).getD (k % n 0) 0) ((z 1).getD (k / n 0 % n 1) 0) ((z 2).getD (k / n 0 / n 1) 0)) P) fun e0 e1 e2 => eval (refPoint s e0 e1 e2) P := by
  refine ⟨by simp, fun i2 hi2 i1 hi1 i0 hi0 => ?_⟩
  have hk := idx3_lt hi0 hi1 hi2
  rw [List.getElem?_map, List.getElem?_range hk, Option.map_some]
  have h0 : (i2 * (n 0 * n 1) + i1 * n 0 + i0) % n 0 = i0 := by
    rw [show i2 * (n 0 * n 1) + i1 * n 0 + i0 = i0 + n 0 * (i2 * n 1 + i1) from by ring, Nat.add_mul_mod_self_left, Nat.mod_eq_of_lt hi0]
  have h1 : (i2 * (n 0 * n 1) + i1 * n 0 + i0) / n 0 = i1 + n 1 * i2 := by
    rw [show i2 * (n 0 * n 1) + i1 * n 0 + i0 = i0 + n 0 * (i1 + n 1 * i2) from by ring, Nat.add_mul_div_left _ _ (by omega), Nat.div_eq_of_lt hi0, Nat.zero_add]
  rw [h0, h1, Nat.add_mul_mod_self_left, Nat.mod_eq_of_lt hi1, Nat.add_mul_div_left _ _ (by omega), Nat.div_eq_of_lt hi1, Nat.zero_add]

/-- Every polynomial map of the space and every choice of nodes is an element that meets the hypotheses. -/
theorem element_exists (code : Shape3 → ℤ) (s : Shape3) (n : Fin 3 → ℕ) (z w : Fin 3 → List K) (hz : ∀ i, (z i).length = n i) (hw : ∀ i, (w i).length = n i)
    (hr : ∀ i, BaryRule (n i) (z i) (w i)) (q : Fin 3 → MvPolynomial (Fin 3) K) (hq : ∀ i, ∀ m ∈ (q i).support, Admissible s n m) :
    GeomOk (geomOf code s n z w q) n z w ∧ PolynomialElement s (geomOf code s n z w q) n z q := by
  refine ⟨⟨rfl, hz, hw, hr, rfl, fun i => by simp [geomOf], fun i j => by simp [geomOf]⟩, hq, fun i => ?_, fun i j => ?_⟩
  · have hi : (Fin.ofNat 3 (i : ℕ) : Fin 3) = i := Fin.ext (Nat.mod_eq_of_lt i.isLt)
    simp only [geomOf, hi]
    exact nodal_of s n z _
  · have hi : (Fin.ofNat 3 (i : ℕ) : Fin 3) = i := Fin.ext (Nat.mod_eq_of_lt i.isLt)
    have hj : (Fin.ofNat 3 (j : ℕ) : Fin 3) = j := Fin.ext (Nat.mod_eq_of_lt j.isLt)
    simp only [geomOf, hi, hj]
    exact nodal_of s n z _

/-- Shape numbers for the example. -/
def exCode : Shape3 → ℤ
  | .tet => 5
  | .pyr => 6
  | .prism => 7
  | .hex => 8

theorem exCode_injective : Function.Injective exCode := by
  intro a b h
  cases a <;> cases b <;> first | rfl | exact absurd h (by decide)

/-- A curved tetrahedron with `x ↦ (x₀ + x₁ x₂ / 10, x₁, x₂)` and three nodes in each direction; at the origin the residual for the point `p` is `-p`. -/
example (p : V3 ℚ) : ∃ (g : Geom3 ℚ) (d : Dev ℚ) (mem' : Arr ℚ) (f : V3 ℚ), writeData g = some (d, 9) ∧
    residualM exCode (1 / 10 ^ 12) d (finite ⟨0, 0, -1 / 2⟩) (finite p) ⟨9, fun _ => none⟩ =
      some ((some (relativeError3d ⟨1, 1, 1⟩ f.x f.y f.z), finite f), mem') ∧ f.x = -p.x ∧ f.z = -1 / 2 - p.z := by
  have hadm : ∀ i, ∀ m ∈ ((![X 0 + C (1 / 10) * (X 1 * X 2), X 1, X 2] : Fin 3 → MvPolynomial (Fin 3) ℚ) i).support, Admissible .tet (fun _ => 3) m := by
    intro i m hm
    have hd : m.degree ≤ 2 := by
      have h1 : (((![X 0 + C (1 / 10) * (X 1 * X 2), X 1, X 2] : Fin 3 → MvPolynomial (Fin 3) ℚ) i)).totalDegree ≤ 2 := by
        fin_cases i
        · refine (totalDegree_add _ _).trans (max_le ?_ ((totalDegree_mul _ _).trans ?_))
          · rw [totalDegree_X]; omega
          · rw [totalDegree_C]
            refine (Nat.add_le_add_left (totalDegree_mul _ _) _).trans ?_
            rw [totalDegree_X, totalDegree_X]
        · show totalDegree (X 1) ≤ 2
          rw [totalDegree_X]; omega
        · show totalDegree (X 2) ≤ 2
          rw [totalDegree_X]; omega
      exact (le_totalDegree hm).trans h1
    have : m.degree = m 0 + m 1 + m 2 := by
      rw [Finsupp.degree_eq_sum, Fin.sum_univ_three]
    simp only [Admissible]
    omega
  obtain ⟨h1, h2⟩ := element_exists exCode .tet (fun _ => 3) (fun _ => [-1, 0, 1]) (fun _ => [1, -2, 1])
    (fun _ => rfl) (fun _ => rfl) (fun _ => Verif.Props.C15.rule_example) ![X 0 + C (1 / 10) * (X 1 * X 2), X 1, X 2] hadm
  obtain ⟨d, hd⟩ := write_data_succeeds _ _ _ _ h1
  obtain ⟨mem', f, e, hf, _⟩ := newton_on_polynomial_element _ exCode_injective (1 / 10 ^ 12) (by norm_num) .tet _ rfl _ _ _ h1 _ h2 d _ hd ⟨0, 0, -1 / 2⟩ p
    (by simp only [Regular3]; norm_num [abs_of_pos]) ⟨9, fun _ => none⟩ (by norm_num)
  refine ⟨_, d, mem', f, hd, e, ?_, ?_⟩
  · have := hf 0
    simpa [comp] using this
  · have := hf 2
    simpa [comp] using this

end Verif.Props.C81
