import Verif.Spec.Interp
import Verif.Lemmas.BaryCompute
import Mathlib.LinearAlgebra.Lagrange

/-! The weights are the values of the Lagrange basis. -/

namespace Verif.Lemmas
open Verif.Spec Verif.Model Verif.Model.Bary Verif.Model.JacobiCoeff Polynomial

variable {K : Type*} [Field K] [DecidableEq K]

/-- The Lagrange polynomial of node `i`. -/
noncomputable def lag (n : ℕ) (z : List K) (i : ℕ) : K[X] := Lagrange.basis (Finset.range n) (fun i => z.getD i 0) i

theorem sum_map_range (n : ℕ) (f : ℕ → K) : ((List.range n).map f).sum = ∑ i ∈ Finset.range n, f i := by
  induction n with
  | zero => simp
  | succ n ih => rw [map_range_succ, List.sum_append, ih, Finset.sum_range_succ]; simp

theorem injOn_of_distinct {n : ℕ} {z : List K} (h : Distinct n z) :
    Set.InjOn (fun i => z.getD i 0) (Finset.range n : Finset ℕ) := by
  intro i hi j hj e
  simp only [Finset.coe_range, Set.mem_Iio] at hi hj
  exact h i hi j hj e

theorem wt_eq (n : ℕ) (z bw : List K) (x : K) (h : BaryRule n z bw) (i : ℕ) (hi : i < n) :
    wt n z bw x i = some ((lag n z i).eval x) := by
  have hd : Distinct n z := h.distinct
  have hinj := injOn_of_distinct hd
  have him : i ∈ Finset.range n := Finset.mem_range.mpr hi
  unfold wt
  by_cases hx : ∃ j < n, z.getD j 0 = x
  · rw [if_pos hx]
    obtain ⟨j, hj, rfl⟩ := hx
    have hjm : j ∈ Finset.range n := Finset.mem_range.mpr hj
    by_cases hij : i = j
    · subst hij
      rw [if_pos rfl, lag]
      exact congrArg some (Lagrange.eval_basis_self hinj him).symm
    · rw [if_neg (fun e => hij (hd i hi j hj e)), lag]
      exact congrArg some (Lagrange.eval_basis_of_ne (v := fun i => z.getD i 0) hij hjm).symm
  · rw [if_neg hx]
    push Not at hx
    obtain ⟨κ, hκ, hw⟩ := h.weights
    set v : ℕ → K := fun i => z.getD i 0 with hv
    have hxv : ∀ j ∈ Finset.range n, x ≠ v j := fun j hj e => hx j (Finset.mem_range.mp hj) e.symm
    set w := Lagrange.nodalWeight (Finset.range n) v with hwdef
    have hbw : ∀ j < n, bw.getD j 0 = κ * w j := by
      intro j hj
      rw [hw j hj, hwdef, Lagrange.nodalWeight, Finset.prod_inv_distrib]
    have hq : ∀ j < n, quot z bw x j = some (-κ * (w j * (x - v j)⁻¹)) := by
      intro j hj
      have h1 : z.getD j 0 - x ≠ 0 := sub_ne_zero.mpr (hx j hj)
      have h2 : x - v j ≠ 0 := sub_ne_zero.mpr (hxv j (Finset.mem_range.mpr hj))
      rw [quot, Dbl.div, if_neg h1, hbw j hj]
      congr 1
      rw [show z.getD j 0 - x = -(x - v j) by rw [hv]; ring, div_neg, div_eq_mul_inv]
      ring
    have hs : dsum ((List.range n).map (quot z bw x)) = some (-κ * ∑ j ∈ Finset.range n, w j * (x - v j)⁻¹) := by
      rw [show (List.range n).map (quot z bw x) = ((List.range n).map fun j => -κ * (w j * (x - v j)⁻¹)).map some by
        rw [List.map_map]
        refine List.map_congr_left fun j hj => ?_
        rw [hq j (List.mem_range.mp hj)]; rfl]
      rw [dsum_some, Finset.mul_sum, sum_map_range]
    have hS : ∑ j ∈ Finset.range n, w j * (x - v j)⁻¹ ≠ 0 := Lagrange.sum_nodalWeight_mul_inv_sub_ne_zero hinj hxv ⟨0, Finset.mem_range.mpr h.pos⟩
    have hb : ∀ j ∈ Finset.range n, (Lagrange.basis (Finset.range n) v j).eval x =
        (Lagrange.nodal (Finset.range n) v).eval x * (w j * (x - v j)⁻¹) :=
      fun j hj => Lagrange.eval_basis_not_at_node hj (hxv j hj)
    have h1 : (Lagrange.nodal (Finset.range n) v).eval x * ∑ j ∈ Finset.range n, w j * (x - v j)⁻¹ = 1 := by
      rw [Finset.mul_sum, ← Finset.sum_congr rfl hb, ← Polynomial.eval_finset_sum,
        Lagrange.sum_basis hinj ⟨0, Finset.mem_range.mpr h.pos⟩, Polynomial.eval_one]
    rw [hs, hq i hi, recip, Option.bind_some, Dbl.div, if_neg (mul_ne_zero (neg_ne_zero.mpr hκ) hS), Dbl.mul_some, lag, hb i him]
    congr 1
    rw [eq_div_of_mul_eq hS h1]
    field_simp

/-- A polynomial of degree below the number of nodes is the combination of its nodal values. -/
theorem lag_exact (n : ℕ) (z : List K) (h : Distinct n z) (q : K[X]) (hq : q.degree < n) (x : K) :
    ∑ i ∈ Finset.range n, (lag n z i).eval x * q.eval (z.getD i 0) = q.eval x := by
  have := Lagrange.eq_interpolate (s := Finset.range n) (f := q) (injOn_of_distinct h) (by simpa using hq)
  conv_rhs => rw [this, Lagrange.interpolate_apply, Polynomial.eval_finset_sum]
  refine Finset.sum_congr rfl fun i _ => ?_
  rw [Polynomial.eval_mul, Polynomial.eval_C, mul_comm]; rfl

theorem lag_pow (n : ℕ) (z : List K) (h : Distinct n z) (a : ℕ) (ha : a < n) (x : K) :
    ∑ i ∈ Finset.range n, (lag n z i).eval x * (z.getD i 0) ^ a = x ^ a := by
  have := lag_exact n z h (X ^ a) (by rw [Polynomial.degree_X_pow]; exact_mod_cast ha) x
  simpa only [Polynomial.eval_pow, Polynomial.eval_X] using this

theorem lag_node (n : ℕ) (z : List K) (h : Distinct n z) (i j : ℕ) (hi : i < n) (hj : j < n) :
    (lag n z i).eval (z.getD j 0) = if i = j then 1 else 0 := by
  by_cases hij : i = j
  · subst hij; rw [if_pos rfl]; exact Lagrange.eval_basis_self (injOn_of_distinct h) (Finset.mem_range.mpr hi)
  · rw [if_neg hij]; exact Lagrange.eval_basis_of_ne (v := fun i => z.getD i 0) hij (Finset.mem_range.mpr hj)

theorem lag_coeff (n : ℕ) (z : List K) (h : Distinct n z) (i : ℕ) (hi : i < n) (x : K) :
    (lag n z i).eval x = ∑ a ∈ Finset.range n, (lag n z i).coeff a * x ^ a := by
  have hd := Lagrange.natDegree_basis (injOn_of_distinct h) (Finset.mem_range.mpr hi)
  refine Polynomial.eval_eq_sum_range' ?_ x
  rw [lag, hd]; simp; omega

/-! Tensor products -/

theorem tensor2_exact (n0 n1 : ℕ) (z0 z1 : List K) (h0 : Distinct n0 z0) (h1 : Distinct n1 z1) (c : ℕ → ℕ → K) (x y : K) :
    ∑ i1 ∈ Finset.range n1, ∑ i0 ∈ Finset.range n0, poly2 n0 n1 c (z0.getD i0 0) (z1.getD i1 0) *
      ((lag n0 z0 i0).eval x * (lag n1 z1 i1).eval y) = poly2 n0 n1 c x y := by
  unfold poly2
  simp only [Finset.sum_mul]
  rw [Finset.sum_comm]
  rw [Finset.sum_congr rfl fun i0 _ => Finset.sum_comm]
  rw [Finset.sum_comm]
  refine Finset.sum_congr rfl fun a ha => ?_
  rw [Finset.sum_congr rfl fun i0 _ => Finset.sum_comm]
  rw [Finset.sum_comm]
  refine Finset.sum_congr rfl fun b hb => ?_
  rw [← lag_pow n0 z0 h0 a (Finset.mem_range.mp ha) x, ← lag_pow n1 z1 h1 b (Finset.mem_range.mp hb) y,
    mul_assoc, Finset.sum_mul_sum, Finset.mul_sum]
  refine Finset.sum_congr rfl fun i0 _ => ?_
  rw [Finset.mul_sum]
  exact Finset.sum_congr rfl fun i1 _ => by ring

theorem tensor3_exact (n0 n1 n2 : ℕ) (z0 z1 z2 : List K) (h0 : Distinct n0 z0) (h1 : Distinct n1 z1)
    (h2 : Distinct n2 z2) (c : ℕ → ℕ → ℕ → K) (x y t : K) :
    ∑ i2 ∈ Finset.range n2, ∑ i1 ∈ Finset.range n1, ∑ i0 ∈ Finset.range n0,
      poly3 n0 n1 n2 c (z0.getD i0 0) (z1.getD i1 0) (z2.getD i2 0) *
      ((lag n0 z0 i0).eval x * (lag n1 z1 i1).eval y * (lag n2 z2 i2).eval t) = poly3 n0 n1 n2 c x y t := by
  have key : ∀ w, poly3 n0 n1 n2 c x y w =
      poly2 n0 n1 (fun a b => ∑ d ∈ Finset.range n2, c a b d * w ^ d) x y := by
    intro w; unfold poly3 poly2
    refine Finset.sum_congr rfl fun a _ => Finset.sum_congr rfl fun b _ => ?_
    rw [Finset.sum_mul, Finset.sum_mul]
    exact Finset.sum_congr rfl fun d _ => by ring
  have key' : ∀ u v w, poly3 n0 n1 n2 c u v w =
      poly2 n0 n1 (fun a b => ∑ d ∈ Finset.range n2, c a b d * w ^ d) u v := by
    intro u v w; unfold poly3 poly2
    refine Finset.sum_congr rfl fun a _ => Finset.sum_congr rfl fun b _ => ?_
    rw [Finset.sum_mul, Finset.sum_mul]
    exact Finset.sum_congr rfl fun d _ => by ring
  have step : ∀ i2 ∈ Finset.range n2, ∑ i1 ∈ Finset.range n1, ∑ i0 ∈ Finset.range n0,
      poly3 n0 n1 n2 c (z0.getD i0 0) (z1.getD i1 0) (z2.getD i2 0) *
      ((lag n0 z0 i0).eval x * (lag n1 z1 i1).eval y * (lag n2 z2 i2).eval t) =
      poly3 n0 n1 n2 c x y (z2.getD i2 0) * (lag n2 z2 i2).eval t := by
    intro i2 _
    rw [key, ← tensor2_exact n0 n1 z0 z1 h0 h1 _ x y, Finset.sum_mul]
    refine Finset.sum_congr rfl fun i1 _ => ?_
    rw [Finset.sum_mul]
    refine Finset.sum_congr rfl fun i0 _ => ?_
    rw [key']; ring
  rw [Finset.sum_congr rfl step]
  unfold poly3
  simp only [Finset.sum_mul]
  rw [Finset.sum_comm]
  refine Finset.sum_congr rfl fun a _ => ?_
  rw [Finset.sum_comm]
  refine Finset.sum_congr rfl fun b _ => ?_
  rw [Finset.sum_comm]
  refine Finset.sum_congr rfl fun d hd => ?_
  rw [← lag_pow n2 z2 h2 d (Finset.mem_range.mp hd) t, Finset.mul_sum]
  exact Finset.sum_congr rfl fun i2 _ => by ring

/-- The interpolant of any nodal values. -/
theorem interpolant2 (n0 n1 : ℕ) (z0 z1 : List K) (h0 : Distinct n0 z0) (h1 : Distinct n1 z1) (p : ℕ → ℕ → K) :
    ∃ c, ∀ i1 < n1, ∀ i0 < n0, poly2 n0 n1 c (z0.getD i0 0) (z1.getD i1 0) = p i1 i0 := by
  have key : ∀ x y, poly2 n0 n1 (fun a b => ∑ i1 ∈ Finset.range n1, ∑ i0 ∈ Finset.range n0,
      p i1 i0 * ((lag n0 z0 i0).coeff a * (lag n1 z1 i1).coeff b)) x y =
      ∑ i1 ∈ Finset.range n1, ∑ i0 ∈ Finset.range n0, p i1 i0 * ((lag n0 z0 i0).eval x * (lag n1 z1 i1).eval y) := by
    intro x y
    unfold poly2
    simp only [Finset.sum_mul]
    rw [Finset.sum_congr rfl fun a _ => Finset.sum_comm]
    rw [Finset.sum_comm]
    refine Finset.sum_congr rfl fun i1 hi1 => ?_
    rw [Finset.sum_congr rfl fun a _ => Finset.sum_comm]
    rw [Finset.sum_comm]
    refine Finset.sum_congr rfl fun i0 hi0 => ?_
    rw [lag_coeff n0 z0 h0 i0 (Finset.mem_range.mp hi0), lag_coeff n1 z1 h1 i1 (Finset.mem_range.mp hi1), Finset.sum_mul_sum,
      Finset.mul_sum]
    refine Finset.sum_congr rfl fun a _ => ?_
    rw [Finset.mul_sum]
    exact Finset.sum_congr rfl fun b _ => by ring
  refine ⟨_, fun j1 hj1 j0 hj0 => (key _ _).trans ?_⟩
  rw [Finset.sum_eq_single j1 (fun i1 hi1 hne => Finset.sum_eq_zero fun i0 _ => by
      rw [lag_node n1 z1 h1 i1 j1 (Finset.mem_range.mp hi1) hj1, if_neg hne]; simp) (fun h => absurd (Finset.mem_range.mpr hj1) h),
    Finset.sum_eq_single j0 (fun i0 hi0 hne => by
      rw [lag_node n0 z0 h0 i0 j0 (Finset.mem_range.mp hi0) hj0, if_neg hne]; simp) (fun h => absurd (Finset.mem_range.mpr hj0) h),
    lag_node n0 z0 h0 j0 j0 hj0 hj0, lag_node n1 z1 h1 j1 j1 hj1 hj1]
  simp

theorem interpolant3 (n0 n1 n2 : ℕ) (z0 z1 z2 : List K) (h0 : Distinct n0 z0) (h1 : Distinct n1 z1) (h2 : Distinct n2 z2)
    (p : ℕ → ℕ → ℕ → K) :
    ∃ c, ∀ i2 < n2, ∀ i1 < n1, ∀ i0 < n0,
      poly3 n0 n1 n2 c (z0.getD i0 0) (z1.getD i1 0) (z2.getD i2 0) = p i2 i1 i0 := by
  choose c hc using fun i2 => interpolant2 n0 n1 z0 z1 h0 h1 (p i2)
  refine ⟨fun a b d => ∑ i2 ∈ Finset.range n2, c i2 a b * (lag n2 z2 i2).coeff d, fun j2 hj2 i1 hi1 i0 hi0 => ?_⟩
  have key : ∀ x y t, poly3 n0 n1 n2 (fun a b d => ∑ i2 ∈ Finset.range n2, c i2 a b * (lag n2 z2 i2).coeff d) x y t =
      ∑ i2 ∈ Finset.range n2, poly2 n0 n1 (c i2) x y * (lag n2 z2 i2).eval t := by
    intro x y t
    unfold poly3 poly2
    simp only [Finset.sum_mul]
    symm
    rw [Finset.sum_comm]
    refine Finset.sum_congr rfl fun a _ => ?_
    rw [Finset.sum_comm]
    refine Finset.sum_congr rfl fun b _ => ?_
    symm
    rw [Finset.sum_comm]
    refine Finset.sum_congr rfl fun i2 hi2 => ?_
    rw [lag_coeff n2 z2 h2 i2 (Finset.mem_range.mp hi2), Finset.mul_sum]
    exact Finset.sum_congr rfl fun d _ => by ring
  rw [key, Finset.sum_eq_single j2 (fun i2 hi2 hne => by
      rw [lag_node n2 z2 h2 i2 j2 (Finset.mem_range.mp hi2) hj2, if_neg hne]; simp) (fun h => absurd (Finset.mem_range.mpr hj2) h),
    lag_node n2 z2 h2 j2 j2 hj2 hj2, hc j2 i1 hi1 i0 hi0]
  simp

/-! The sums of the kernels -/

theorem sum_flatMap_range (n : ℕ) (f : ℕ → List K) :
    ((List.range n).flatMap f).sum = ∑ i ∈ Finset.range n, (f i).sum := by
  induction n with
  | zero => simp
  | succ n ih => rw [flatMap_range_succ, List.sum_append, ih, Finset.sum_range_succ]

theorem dsum_rows2 (n : ℕ) (m : ℕ → ℕ) (e : ℕ → ℕ → Dbl K) (g : ℕ → ℕ → K)
    (h : ∀ i < n, ∀ j < m i, e i j = some (g i j)) :
    dsum (rows2 n 0 m e) = some (∑ i ∈ Finset.range n, ∑ j ∈ Finset.range (m i), g i j) := by
  have : rows2 n 0 m e = (rows2 n 0 m g).map some := by
    rw [rows2_zero, rows2_zero, List.map_flatMap]
    refine List.flatMap_congr fun i hi => ?_
    rw [List.map_map]
    exact List.map_congr_left fun j hj => h i (List.mem_range.mp hi) j (List.mem_range.mp hj)
  rw [this, dsum_some, rows2_zero, sum_flatMap_range]
  simp only [sum_map_range]

theorem dsum_rows3 (n : ℕ) (m : ℕ → ℕ) (k : ℕ → ℕ → ℕ) (e : ℕ → ℕ → ℕ → Dbl K) (g : ℕ → ℕ → ℕ → K)
    (h : ∀ i < n, ∀ j < m i, ∀ l < k i j, e i j l = some (g i j l)) :
    dsum (rows3 n 0 0 m k e) =
      some (∑ i ∈ Finset.range n, ∑ j ∈ Finset.range (m i), ∑ l ∈ Finset.range (k i j), g i j l) := by
  have : rows3 n 0 0 m k e = (rows3 n 0 0 m k g).map some := by
    simp only [rows3, rows2_nil, List.append_nil]
    rw [List.map_flatMap]
    refine List.flatMap_congr fun i hi => ?_
    rw [List.map_flatMap]
    refine List.flatMap_congr fun j hj => ?_
    rw [List.map_map]
    exact List.map_congr_left fun l hl =>
      h i (List.mem_range.mp hi) j (List.mem_range.mp hj) l (List.mem_range.mp hl)
  rw [this, dsum_some]
  simp only [rows3, rows2_nil, List.append_nil]
  rw [sum_flatMap_range]
  congr 1
  refine Finset.sum_congr rfl fun i _ => ?_
  rw [sum_flatMap_range]
  exact Finset.sum_congr rfl fun j _ => sum_map_range _ _

end Verif.Lemmas
