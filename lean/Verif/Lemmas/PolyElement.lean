import Verif.Spec.Generic3D
import Verif.Props.C07_Collapsed
import Mathlib.Algebra.MvPolynomial.Degrees
import Mathlib.Algebra.MvPolynomial.CommRing
import Mathlib.Algebra.MvPolynomial.Monad

/-! Polynomials in the local coordinates are polynomials in the collapsed coordinates, for C81. -/

namespace Verif.Lemmas.PolyElement
open Verif.Spec Verif.Spec.Generic3D Verif.Model.CoordMap Verif.Props.C07 MvPolynomial

variable {K : Type*} [Field K]

/-- A polynomial of degree below `n i` in each variable is a `poly3`. -/
theorem eval_eq_poly3 (n : Fin 3 → ℕ) (Q : MvPolynomial (Fin 3) K) (h : ∀ m ∈ Q.support, ∀ j, m j < n j) :
    ∃ c, ∀ x y t, eval ![x, y, t] Q = poly3 (n 0) (n 1) (n 2) c x y t := by
  let mk : ℕ × ℕ × ℕ → (Fin 3 →₀ ℕ) := fun a => Finsupp.equivFunOnFinite.symm ![a.1, a.2.1, a.2.2]
  refine ⟨fun a b d => coeff (mk (a, b, d)) Q, fun x y t => ?_⟩
  have hinj : Function.Injective mk := by
    intro a b e
    have e' := Finsupp.equivFunOnFinite.symm.injective e
    have h0 := congrFun e' 0
    have h1 := congrFun e' 1
    have h2 := congrFun e' 2
    simp only [Matrix.cons_val_zero, Matrix.cons_val_one, Matrix.cons_val] at h0 h1 h2
    exact Prod.ext h0 (Prod.ext h1 h2)
  have hsub : Q.support ⊆ ((Finset.range (n 0)) ×ˢ ((Finset.range (n 1)) ×ˢ (Finset.range (n 2)))).image mk := by
    intro m hm
    rw [Finset.mem_image]
    refine ⟨(m 0, m 1, m 2), ?_, ?_⟩
    · simp only [Finset.mem_product, Finset.mem_range]
      exact ⟨h m hm 0, h m hm 1, h m hm 2⟩
    · ext j
      fin_cases j <;> rfl
  rw [eval_eq', Finset.sum_subset hsub (fun m _ hm => by rw [notMem_support_iff.1 hm, zero_mul]), Finset.sum_image (fun a _ b _ e => hinj e), Finset.sum_product]
  unfold poly3
  refine Finset.sum_congr rfl fun a _ => ?_
  rw [Finset.sum_product]
  refine Finset.sum_congr rfl fun b _ => Finset.sum_congr rfl fun d _ => ?_
  rw [Fin.prod_univ_three]
  show coeff (mk (a, b, d)) Q * (x ^ a * y ^ b * t ^ d) = _
  ring

/-- The local coordinates as polynomials in the collapsed coordinates. -/
noncomputable def pull (s : Shape3) : Fin 3 → MvPolynomial (Fin 3) K :=
  match s with
  | .hex => ![X 0, X 1, X 2]
  | .prism => ![C (1 / 2) * ((1 + X 0) * (1 - X 2)) - 1, X 1, X 2]
  | .pyr => ![C (1 / 2) * ((1 + X 0) * (1 - X 2)) - 1, C (1 / 2) * ((1 + X 1) * (1 - X 2)) - 1, X 2]
  | .tet => ![C (1 / 4) * ((1 + X 0) * (1 - X 1) * (1 - X 2)) - 1, C (1 / 2) * ((1 + X 1) * (1 - X 2)) - 1, X 2]

theorem eval_pull (s : Shape3) (x y t : K) (i : Fin 3) : eval ![x, y, t] (pull s i) = refPoint s x y t i := by
  cases s <;> fin_cases i <;>
    simp only [pull, refPoint, Fin.zero_eta, Fin.mk_one, Fin.reduceFinMk, Matrix.cons_val_zero, Matrix.cons_val_one, Matrix.cons_val, map_sub, map_mul, map_add, map_one,
      eval_C, eval_X] <;> ring

/-- The degrees of the local coordinates in the collapsed coordinates. -/
def degs : Shape3 → Fin 3 → Fin 3 → ℕ
  | .hex => ![![1, 0, 0], ![0, 1, 0], ![0, 0, 1]]
  | .prism => ![![1, 0, 1], ![0, 1, 0], ![0, 0, 1]]
  | .pyr => ![![1, 0, 1], ![0, 1, 1], ![0, 0, 1]]
  | .tet => ![![1, 1, 1], ![0, 1, 1], ![0, 0, 1]]

theorem deg_one_add_X (i j : Fin 3) : degreeOf j (1 + X i : MvPolynomial (Fin 3) K) ≤ if j = i then 1 else 0 := by
  refine (degreeOf_add_le _ _ _).trans ?_
  rw [degreeOf_one, degreeOf_X]
  simp

theorem deg_one_sub_X (i j : Fin 3) : degreeOf j (1 - X i : MvPolynomial (Fin 3) K) ≤ if j = i then 1 else 0 := by
  refine (degreeOf_sub_le _ _ _).trans ?_
  rw [degreeOf_one, degreeOf_X]
  simp

theorem deg_shift (j : Fin 3) (a : K) (p : MvPolynomial (Fin 3) K) (k : ℕ) (h : degreeOf j p ≤ k) : degreeOf j (C a * p - 1) ≤ k := by
  refine (degreeOf_sub_le _ _ _).trans ?_
  rw [degreeOf_one]
  exact max_le ((degreeOf_C_mul_le _ _ _).trans h) (Nat.zero_le _)

theorem deg_mul (j : Fin 3) (p q : MvPolynomial (Fin 3) K) (a b : ℕ) (hp : degreeOf j p ≤ a) (hq : degreeOf j q ≤ b) : degreeOf j (p * q) ≤ a + b :=
  (degreeOf_mul_le _ _ _).trans (Nat.add_le_add hp hq)

theorem deg_pull (s : Shape3) (i j : Fin 3) : degreeOf j (pull s i : MvPolynomial (Fin 3) K) ≤ degs s i j := by
  have hX : ∀ i j : Fin 3, degreeOf j (X i : MvPolynomial (Fin 3) K) ≤ if j = i then 1 else 0 := fun i j => by rw [degreeOf_X]
  have h2 : ∀ a b j : Fin 3, degreeOf j (C (1 / 2) * ((1 + X a) * (1 - X b)) - 1 : MvPolynomial (Fin 3) K) ≤ (if j = a then 1 else 0) + if j = b then 1 else 0 :=
    fun a b j => deg_shift j _ _ _ (deg_mul j _ _ _ _ (deg_one_add_X a j) (deg_one_sub_X b j))
  have h3 : ∀ a b c j : Fin 3, degreeOf j (C (1 / 4) * ((1 + X a) * (1 - X b) * (1 - X c)) - 1 : MvPolynomial (Fin 3) K) ≤
      ((if j = a then 1 else 0) + if j = b then 1 else 0) + if j = c then 1 else 0 :=
    fun a b c j => deg_shift j _ _ _ (deg_mul j _ _ _ _ (deg_mul j _ _ _ _ (deg_one_add_X a j) (deg_one_sub_X b j)) (deg_one_sub_X c j))
  cases s
  · fin_cases i
    · exact (h3 0 1 2 j).trans (by revert j; decide)
    · exact (h2 1 2 j).trans (by revert j; decide)
    · exact (hX 2 j).trans (by revert j; decide)
  · fin_cases i
    · exact (h2 0 2 j).trans (by revert j; decide)
    · exact (h2 1 2 j).trans (by revert j; decide)
    · exact (hX 2 j).trans (by revert j; decide)
  · fin_cases i
    · exact (h2 0 2 j).trans (by revert j; decide)
    · exact (hX 1 j).trans (by revert j; decide)
    · exact (hX 2 j).trans (by revert j; decide)
  · fin_cases i
    · exact (hX 0 j).trans (by revert j; decide)
    · exact (hX 1 j).trans (by revert j; decide)
    · exact (hX 2 j).trans (by revert j; decide)

/-- A polynomial of the expansion space is a polynomial in the collapsed coordinates of degree below the numbers of nodes. -/
theorem space_poly3 (s : Shape3) (n : Fin 3 → ℕ) (hn : ∀ j, 0 < n j) (q : MvPolynomial (Fin 3) K) (h : ∀ m ∈ q.support, Admissible s n m) :
    ∃ c, ∀ x y t, eval (refPoint s x y t) q = poly3 (n 0) (n 1) (n 2) c x y t := by
  have hdeg : ∀ j, degreeOf j (bind₁ (pull s) q) < n j := by
    intro j
    have hq : bind₁ (pull s) q = ∑ m ∈ q.support, C (coeff m q) * ∏ i, pull s i ^ m i := by
      conv_lhs => rw [← support_sum_monomial_coeff q]
      rw [map_sum]
      refine Finset.sum_congr rfl fun m _ => ?_
      rw [bind₁_monomial]
      congr 1
      exact Finsupp.prod_fintype _ _ fun i => pow_zero _
    rw [hq]
    refine lt_of_le_of_lt (degreeOf_sum_le _ _ _) ?_
    rw [Finset.sup_lt_iff (hn j)]
    intro m hm
    refine lt_of_le_of_lt (degreeOf_C_mul_le _ _ _) ?_
    rw [Fin.prod_univ_three]
    have hp : ∀ i, degreeOf j (pull s i ^ m i : MvPolynomial (Fin 3) K) ≤ m i * degs s i j := fun i =>
      (degreeOf_pow_le _ _ _).trans (Nat.mul_le_mul_left _ (deg_pull s i j))
    refine lt_of_le_of_lt (deg_mul j _ _ _ _ (deg_mul j _ _ _ _ (hp 0) (hp 1)) (hp 2)) ?_
    have ha := h m hm
    cases s <;> simp only [Admissible] at ha <;> fin_cases j <;>
      simp only [degs, Fin.zero_eta, Fin.mk_one, Fin.reduceFinMk, Matrix.cons_val_zero, Matrix.cons_val_one, Matrix.cons_val, Nat.mul_one, Nat.mul_zero, Nat.add_zero, Nat.zero_add] <;> omega
  obtain ⟨c, hc⟩ := eval_eq_poly3 n (bind₁ (pull s) q) fun m hm j => (degreeOf_lt_iff (hn j)).1 (hdeg j) m hm
  refine ⟨c, fun x y t => ?_⟩
  rw [← hc x y t, show eval ![x, y, t] (bind₁ (pull s) q) = eval (fun i => eval ![x, y, t] (pull s i)) q from by
    rw [← coe_aeval_eq_eval, RingHom.coe_coe, aeval_bind₁]; rfl]
  congr 2
  funext i
  rw [eval_pull]

/-- The partial derivatives of a polynomial of the space are in the space. -/
theorem space_pderiv (s : Shape3) (n : Fin 3 → ℕ) (q : MvPolynomial (Fin 3) K) (h : ∀ m ∈ q.support, Admissible s n m) (j : Fin 3) :
    ∀ m ∈ (pderiv j q).support, Admissible s n m := by
  intro m hm
  have : ∃ m' ∈ q.support, m = m' - Finsupp.single j 1 := by
    have e : pderiv j q = ∑ m ∈ q.support, monomial (m - Finsupp.single j 1) (coeff m q * (m j : K)) := by
      conv_lhs => rw [← support_sum_monomial_coeff q]
      rw [map_sum]
      exact Finset.sum_congr rfl fun m _ => pderiv_monomial
    rw [e] at hm
    obtain ⟨m', h1, h2⟩ := Finset.mem_biUnion.1 (support_sum hm)
    exact ⟨m', h1, Finset.mem_singleton.1 (support_monomial_subset h2)⟩
  obtain ⟨m', h1, rfl⟩ := this
  have h0 := h m' h1
  have hle : ∀ i, (m' - Finsupp.single j 1 : Fin 3 →₀ ℕ) i ≤ m' i := fun i => by
    rw [Finsupp.tsub_apply]
    exact Nat.sub_le _ _
  have a0 := hle 0
  have a1 := hle 1
  have a2 := hle 2
  cases s <;> simp only [Admissible] at h0 ⊢ <;> omega

/-- The collapsed coordinates of a point that is away from the collapsed edge are mapped to the point. -/
theorem refPoint_collapsed [LinearOrder K] [IsStrictOrderedRing K] (tol : K) (ht : 0 < tol) (s : Shape3) (x0 x1 x2 : K) (hr : Regular3 tol s x0 x1 x2) :
    refPoint s (toCollapsed3 tol s x0 x1 x2).1 (toCollapsed3 tol s x0 x1 x2).2.1 (toCollapsed3 tol s x0 x1 x2).2.2 = ![x0, x1, x2] := by
  have h := local_collapsed_local_3d tol ht s x0 x1 x2 hr
  generalize toCollapsed3 tol s x0 x1 x2 = e at h
  obtain ⟨e0, e1, e2⟩ := e
  have h0 := congrArg Prod.fst h
  have h1 := congrArg (fun v => v.2.1) h
  have h2 := congrArg (fun v => v.2.2) h
  funext i
  cases s <;> simp only [fromCollapsed3, tetFromCollapsed, pyrFromCollapsed, prismFromCollapsed, hexFromCollapsed] at h0 h1 h2 <;> fin_cases i <;>
    simp only [refPoint, Fin.zero_eta, Fin.mk_one, Fin.reduceFinMk, Matrix.cons_val_zero, Matrix.cons_val_one, Matrix.cons_val] <;>
    first | assumption | (rw [← h0]; ring) | (rw [← h1]; ring)

end Verif.Lemmas.PolyElement
