import Verif.Props.C116_Edge
import Verif.Props.C86_Moments
import Mathlib.Algebra.BigOperators.Group.Finset.Basic
import Mathlib.Algebra.Order.BigOperators.Group.Finset

/-! C117: in floating point arithmetic constants are evaluated and the total charge is deposited up to an explicit error. -/

namespace Verif.Props.C117
open Verif.Lemmas.RoundingModes Verif.Spec.Rounding Verif.Spec.FloatExpansion Verif.Spec.VertexModes Verif.Spec Verif.Model
  Verif.Model.FloatKernels Verif.Model.FloatBasis Verif.Model.FloatShapes Verif.Model.FloatExpansion Verif.Model.JacobiCoeff Verif.Model.ExpansionLooping Verif.Model.BasisReference
  Verif.Model.BasisEvaluation Verif.Model.BasisEvaluateBase Verif.Lemmas Verif.Props.C13 Verif.Props.C114 Verif.Props.C116 Verif.Props.C86

variable {rnd : ℝ → ℝ}

/-- The number of vertices of an element. -/
def vertices : Shape → ℕ
  | .tri => 3
  | .quad => 4
  | .hex => 8
  | .prism => 6
  | .pyr => 5
  | .tet => 4

/-- The pairing of degrees of freedom with the function that is one on the whole element: the charge a projection has deposited there. -/
noncomputable def charge (shape : Shape) (n : ℕ) (dofs : List ℝ) : ℝ := dot (vertexCoeffs shape n fun _ => (1 : ℝ)) dofs

theorem coeffs_sum (shape : Shape) (n : ℕ) (hn : 2 ≤ n) (b : ℝ) : (vertexCoeffs shape n fun _ => b).sum = vertices shape * b := by
  have h := vertex_sum shape n hn (fun _ => b) (fun _ => (1 : ℝ))
  simp only [mul_one] at h
  unfold vertexCoeffs
  rw [h]
  cases shape <;> simp only [vertices] <;> push_cast <;> ring

theorem coeffs_abs (shape : Shape) (n : ℕ) (b : ℝ) : (vertexCoeffs shape n fun _ => b).map (|·|) = vertexCoeffs shape n fun _ => |b| := by
  unfold vertexCoeffs
  rw [List.map_map]
  refine List.map_congr_left fun m _ => ?_
  cases h : vertexOf shape m <;> simp [h]

theorem coeffs_length (shape : Shape) (n : ℕ) (b : ℝ) : (vertexCoeffs shape n fun _ => b).length = (totalNumModesShape shape n).mode := by
  rw [← (eval_modes_is_basis (K := ℝ) shape n 0 0 0).2, basisAt_eq shape n ((0 : ℝ), (0 : ℝ), (0 : ℝ))]
  simp [vertexCoeffs]

theorem coeffs_nonneg (shape : Shape) (n : ℕ) (k : ℕ) : 0 ≤ (vertexCoeffs shape n fun _ => (1 : ℝ)).getD k 0 := by
  by_cases h : k < (vertexCoeffs shape n fun _ => (1 : ℝ)).length
  · rw [List.getD_eq_getElem _ _ h]
    simp only [vertexCoeffs, List.getElem_map]
    cases vertexOf shape _ <;> simp
  · rw [List.getD_eq_default _ _ (by omega)]

/-- **C117, evaluation.** A field that has the value `b` at all vertices of the element is evaluated to `b` up to an explicit error, at every position of C116. -/
theorem constant_evaluated (R : Rounding 53 (-1074) rnd) (o : Build) (contract : ℕ → Bool) {tol : ℝ} (ht : Tolerance tol) (cells : List (Shape × ℕ)) (shape : Shape) (n : ℕ)
    (hc : (shape, n) ∈ cells) (h2 : 2 ≤ n) (hn : n ≤ 20000) (p : Particle) (hp : Stored rnd o tol cells shape n p) (hi : Position rnd tol shape p.xi) (b : ℝ) :
    ∃ v, loopEvaluateF rnd contract shape n (vertexCoeffs shape n fun _ => b) p.l0 p.l1 p.l2 = some v ∧
      |v - b| ≤ sumError (basisError shape n) (bound shape n) (totalNumModesShape shape n).mode 0 (vertices shape * |b|) := by
  obtain ⟨v, hv, he⟩ := C116.evaluation_error R o contract ht cells shape n hc h2 hn p hp hi (vertexCoeffs shape n fun _ => b) (coeffs_length shape n b)
  rw [(eval_modes_is_basis shape n _ _ _).1, constant_modes two_ne shape n h2 b p.e, coeffs_abs, coeffs_sum shape n h2, coeffs_length] at he
  exact ⟨v, hv, he⟩

theorem sum_range (N : ℕ) (f : ℕ → ℝ) : ((List.range N).map f).sum = ∑ k ∈ Finset.range N, f k := by
  induction N with
  | zero => simp
  | succ N ih => rw [List.range_succ, List.map_append, List.sum_append, ih, Finset.sum_range_succ]; simp

theorem charge_eq (shape : Shape) (n : ℕ) (l : List ℝ) (h : (totalNumModesShape shape n).mode ≤ l.length) :
    charge shape n l = ∑ k ∈ Finset.range (totalNumModesShape shape n).mode, (vertexCoeffs shape n fun _ => (1 : ℝ)).getD k 0 * l.getD k 0 := by
  unfold charge
  rw [dot_eq_sum, sum_range]
  symm
  refine Finset.sum_subset (Finset.range_subset_range.mpr h) fun k _ hk => ?_
  rw [Finset.mem_range, not_lt] at hk
  rw [List.getD_eq_default _ _ (by rw [coeffs_length]; exact hk), zero_mul]

/-- In exact arithmetic a particle deposits its value. -/
theorem charge_of_basis (shape : Shape) (n : ℕ) (h2 : 2 ≤ n) (e : ℝ × ℝ × ℝ) : charge shape n (evalModes shape n e.1 e.2.1 e.2.2) = 1 := by
  unfold charge
  rw [(eval_modes_is_basis shape n _ _ _).1, constant_modes two_ne shape n h2 1 e]

/-- **C117, projection.** After any number of particles have deposited, in any order of the atomic additions, the charge in the element has increased by the sum of their values, up to an explicit error. -/
theorem charge_deposited (R : Rounding 53 (-1074) rnd) (o : Build) {tol : ℝ} (ht : Tolerance tol) (cells : List (Shape × ℕ)) (shape : Shape) (n : ℕ) (hc : (shape, n) ∈ cells)
    (h2 : 2 ≤ n) (hn : n ≤ 20000) (ps : List Particle) (hp : ∀ p ∈ ps, Stored rnd o tol cells shape n p ∧ Position rnd tol shape p.xi) :
    ∃ all : Particle → List (ℕ × ℝ), (∀ p ∈ ps, loopProjectF rnd shape n p.value p.l0 p.l1 p.l2 = some (all p)) ∧
      ∀ adds : List (ℕ × ℝ), adds.Perm (ps.flatMap all) → ∀ c : List ℝ, (totalNumModesShape shape n).mode ≤ c.length →
      ∃ out, applyAddsF rnd c adds = some out ∧ out.length = c.length ∧
        |charge shape n out - (charge shape n c + (ps.map (·.value)).sum)| ≤
          charge shape n (c.map fun x => sumError (basisError shape n) (bound shape n) ps.length x (ps.map fun p => |p.value|).sum) := by
  obtain ⟨all, h1, h⟩ := C116.projection_error R o ht cells shape n hc h2 hn ps hp
  refine ⟨all, h1, fun adds ha c hcl => ?_⟩
  obtain ⟨out, g1, g2, g3, -⟩ := h adds ha c hcl
  refine ⟨out, g1, g2, ?_⟩
  have hex : (ps.map (·.value)).sum = ∑ k ∈ Finset.range (totalNumModesShape shape n).mode, (vertexCoeffs shape n fun _ => (1 : ℝ)).getD k 0 *
      (ps.map fun p => p.value * (evalModes shape n p.e.1 p.e.2.1 p.e.2.2).getD k 0).sum := by
    clear hp h1 h ha g1 g3
    induction ps with
    | nil => simp
    | cons p ps ih =>
      simp only [List.map_cons, List.sum_cons, mul_add]
      rw [Finset.sum_add_distrib, ← ih]
      congr 1
      have hb := charge_of_basis shape n h2 p.e
      rw [charge_eq shape n _ (by rw [(eval_modes_is_basis shape n _ _ _).1, (eval_modes_is_basis shape n _ _ _).2])] at hb
      have hb' := congrArg (p.value * ·) hb
      simp only [mul_one, Finset.mul_sum] at hb'
      exact hb'.symm.trans (Finset.sum_congr rfl fun k _ => by ring)
  rw [charge_eq shape n out (by omega), charge_eq shape n c hcl, charge_eq shape n _ (by simpa using hcl), hex, ← Finset.sum_add_distrib, ← Finset.sum_sub_distrib]
  refine (Finset.abs_sum_le_sum_abs _ _).trans (Finset.sum_le_sum fun k hk => ?_)
  rw [Finset.mem_range] at hk
  rw [← mul_add, ← mul_sub, abs_mul, abs_of_nonneg (coeffs_nonneg shape n k)]
  refine mul_le_mul_of_nonneg_left ((g3 k hk).trans_eq ?_) (coeffs_nonneg shape n k)
  have hk' : k < c.length := by omega
  rw [List.getD_eq_getElem _ _ hk', List.getD_eq_getElem _ _ (by rw [List.length_map]; exact hk'), List.getElem_map]

/-- **C117, from zero.** If the degrees of freedom are zero before, the charge is the sum of the values up to an explicit error. -/
theorem total_charge (R : Rounding 53 (-1074) rnd) (o : Build) {tol : ℝ} (ht : Tolerance tol) (cells : List (Shape × ℕ)) (shape : Shape) (n : ℕ) (hc : (shape, n) ∈ cells)
    (h2 : 2 ≤ n) (hn : n ≤ 20000) (ps : List Particle) (hp : ∀ p ∈ ps, Stored rnd o tol cells shape n p ∧ Position rnd tol shape p.xi) :
    ∃ all : Particle → List (ℕ × ℝ), (∀ p ∈ ps, loopProjectF rnd shape n p.value p.l0 p.l1 p.l2 = some (all p)) ∧
      ∀ adds : List (ℕ × ℝ), adds.Perm (ps.flatMap all) →
      ∃ out, applyAddsF rnd (List.replicate (totalNumModesShape shape n).mode 0) adds = some out ∧ out.length = (totalNumModesShape shape n).mode ∧
        |charge shape n out - (ps.map (·.value)).sum| ≤ vertices shape * sumError (basisError shape n) (bound shape n) ps.length 0 (ps.map fun p => |p.value|).sum := by
  obtain ⟨all, h1, h⟩ := charge_deposited R o ht cells shape n hc h2 hn ps hp
  refine ⟨all, h1, fun adds ha => ?_⟩
  obtain ⟨out, g1, g2, g3⟩ := h adds ha (List.replicate (totalNumModesShape shape n).mode 0) (by simp)
  refine ⟨out, g1, by simpa using g2, ?_⟩
  have hconst : ∀ x : ℝ, charge shape n (List.replicate (totalNumModesShape shape n).mode x) = vertices shape * x := by
    intro x
    unfold charge
    have hs := coeffs_sum shape n h2 1
    rw [mul_one] at hs
    rw [← hs, ← coeffs_length shape n 1]
    generalize (vertexCoeffs shape n fun _ => (1 : ℝ)) = l
    unfold dot
    induction l with
    | nil => simp
    | cons a l ih => simp only [List.length_cons, List.replicate_succ, List.zipWith_cons_cons, List.sum_cons, ih]; ring
  rw [hconst, mul_zero, zero_add, List.map_replicate, hconst] at g3
  exact g3

/-! ### The hypotheses can be met -/

/-- In an element of any shape two particles with the values three and four deposit, the second first: the charge is seven up to the error. A field that is five at all vertices is evaluated there. -/
example (o : Build) (contract : ℕ → Bool) (shape : Shape) : ∃ p r : Particle, p.xi = inner ∧ r.xi = inner ∧ p.value = 3 ∧ r.value = 4 ∧
    ∃ all : Particle → List (ℕ × ℝ), loopProjectF (nearestEven 53 (-1074)) shape 4 p.value p.l0 p.l1 p.l2 = some (all p) ∧
      loopProjectF (nearestEven 53 (-1074)) shape 4 r.value r.l0 r.l1 r.l2 = some (all r) ∧
    (∃ out, applyAddsF (nearestEven 53 (-1074)) (List.replicate (totalNumModesShape shape 4).mode 0) (all r ++ all p) = some out ∧
      |charge shape 4 out - 7| ≤ vertices shape * sumError (basisError shape 4) (bound shape 4) 2 0 7) ∧
    ∃ v, loopEvaluateF (nearestEven 53 (-1074)) contract shape 4 (vertexCoeffs shape 4 fun _ => 5) p.l0 p.l1 p.l2 = some v ∧
      |v - 5| ≤ sumError (basisError shape 4) (bound shape 4) (totalNumModesShape shape 4).mode 0 (vertices shape * 5) := by
  have R := nearest_rounding (nearestEven_spec (p := 53) (emin := -1074) (by norm_num)).toNearest
  have hc : (shape, 4) ∈ [(Shape.tri, 4), (.quad, 4), (.hex, 4), (.prism, 4), (.pyr, 4), (.tet, 4)] := by cases shape <;> simp
  have hi := inner_position shape R
  obtain ⟨p, p1, p2, p3⟩ := stored_exists R o tolerance_ex _ shape 4 hc (by norm_num) (by norm_num) 3 inner hi
  obtain ⟨r, r1, r2, r3⟩ := stored_exists R o tolerance_ex _ shape 4 hc (by norm_num) (by norm_num) 4 inner hi
  have hps : ∀ x ∈ [p, r], Stored (nearestEven 53 (-1074)) o (1 / 2 ^ 40) [(Shape.tri, 4), (.quad, 4), (.hex, 4), (.prism, 4), (.pyr, 4), (.tet, 4)] shape 4 x ∧
      Position (nearestEven 53 (-1074)) (1 / 2 ^ 40) shape x.xi := by
    intro x hx
    rcases List.mem_pair.mp hx with rfl | rfl
    · exact ⟨p3, by rw [p2]; exact hi⟩
    · exact ⟨r3, by rw [r2]; exact hi⟩
  obtain ⟨all, h1, h2⟩ := total_charge R o tolerance_ex _ shape 4 hc (by norm_num) (by norm_num) [p, r] hps
  obtain ⟨out, h3, -, h4⟩ := h2 (all r ++ all p) (by simpa using List.perm_append_comm)
  obtain ⟨v, h5, h6⟩ := constant_evaluated R o contract tolerance_ex _ shape 4 hc (by norm_num) (by norm_num) p p3 (by rw [p2]; exact hi) 5
  refine ⟨p, r, p2, r2, p1, r1, all, h1 p (by simp), h1 r (by simp), ⟨out, h3, ?_⟩, v, h5, ?_⟩
  · simp only [List.map_cons, List.map_nil, List.sum_cons, List.sum_nil, p1, r1, List.length_cons, List.length_nil] at h4
    norm_num at h4 ⊢
    exact h4
  · rwa [abs_of_pos (by norm_num : (0 : ℝ) < 5)] at h6

end Verif.Props.C117
