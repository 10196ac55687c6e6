import Verif.Model.ImplicitHelper
import Mathlib.Tactic.FieldSimp
import Mathlib.Tactic.Ring
import Mathlib.Tactic.Positivity
import Mathlib.Tactic.Linarith

namespace Verif.Props.C50
open Verif.Model.ImplicitHelper

theorem flatten_eq (nFields nPts : ℕ) (inPts : ℕ → ℕ → ℝ) (junk : ℕ → ℝ) (f i : ℕ) (hi : i < nPts) :
    flatten nFields nPts inPts junk (f * nPts + i) =
      if f < nFields then inPts f i else junk (f * nPts + i) := by
  induction nFields with
  | zero => simp [flatten]
  | succ n ih =>
    have hstep : flatten (n + 1) nPts inPts junk =
        vcopyTo nPts (inPts n) (n * nPts) (flatten n nPts inPts junk) := by
      simp [flatten, List.range_succ, List.foldl_append]
    rw [hstep]
    unfold vcopyTo
    rcases lt_trichotomy f n with h | h | h
    · have : (f + 1) * nPts ≤ n * nPts := Nat.mul_le_mul_right _ h
      rw [if_neg (by rw [add_mul] at this; omega), ih, if_pos h, if_pos (by omega)]
    · subst h
      rw [if_pos (by omega), if_pos (by omega)]
      congr 1; omega
    · have : (n + 1) * nPts ≤ f * nPts := Nat.mul_le_mul_right _ h
      rw [if_neg (by rw [add_mul] at this; omega), ih, if_neg (by omega), if_neg (by omega)]

theorem unflatten_eq (nFields nPts : ℕ) (flat : ℕ → ℝ) (out0 : ℕ → ℕ → ℝ) (f i : ℕ) :
    unflatten nFields nPts flat out0 f i =
      if f < nFields ∧ i < nPts then flat (f * nPts + i) else out0 f i := by
  induction nFields with
  | zero => simp [unflatten]
  | succ n ih =>
    have hstep : unflatten (n + 1) nPts flat out0 = fun g => if g = n then
        vcopyTo nPts (fun i => flat (n * nPts + i)) 0 (unflatten n nPts flat out0 g)
        else unflatten n nPts flat out0 g := by
      simp [unflatten, List.range_succ, List.foldl_append]
    rw [hstep]
    simp only
    by_cases h : f = n
    · subst h
      rw [if_pos rfl]
      unfold vcopyTo
      by_cases hi : i < nPts
      · rw [if_pos (by omega), if_pos (by omega), Nat.sub_zero]
      · rw [if_neg (by omega), ih, if_neg (by omega), if_neg (by omega)]
    · rw [if_neg h, ih]
      by_cases hc : f < n ∧ i < nPts
      · rw [if_pos hc, if_pos (by omega)]
      · rw [if_neg hc, if_neg (by omega)]

/-- **C50 (flattening).** The solver gets, in position `f * nPts + i`, value `i` of field `f`; output field `f`
value `i` is position `f * nPts + i` of the solver's result; nothing else in the output arrays is changed. In
particular a solver which returns its input leaves all fields as they were. -/
theorem flatten_round_trip (nFields nPts : ℕ) (solve : (ℕ → ℝ) → (ℕ → ℝ)) (inPts : ℕ → ℕ → ℝ) (junk : ℕ → ℝ)
    (out0 : ℕ → ℕ → ℝ) :
    (∀ f < nFields, ∀ i < nPts, flatten nFields nPts inPts junk (f * nPts + i) = inPts f i) ∧
    (∀ f < nFields, ∀ i < nPts, implicitTimeInt nFields nPts solve inPts junk out0 f i =
      solve (flatten nFields nPts inPts junk) (f * nPts + i)) ∧
    (∀ f i, ¬ (f < nFields ∧ i < nPts) → implicitTimeInt nFields nPts solve inPts junk out0 f i = out0 f i) ∧
    (∀ f < nFields, ∀ i < nPts, implicitTimeInt nFields nPts id inPts junk out0 f i = inPts f i) := by
  refine ⟨?_, ?_, ?_, ?_⟩
  · intro f hf i hi; rw [flatten_eq _ _ _ _ _ _ hi, if_pos hf]
  · intro f hf i hi; unfold implicitTimeInt; rw [unflatten_eq, if_pos ⟨hf, hi⟩]
  · intro f i h; unfold implicitTimeInt; rw [unflatten_eq, if_neg h]
  · intro f hf i hi
    unfold implicitTimeInt
    rw [unflatten_eq, if_pos ⟨hf, hi⟩, id, flatten_eq _ _ _ _ _ _ hi, if_pos hf]

/-- **C50 (residual).** The residual in position `f * nPts + i` is `u - lambda * rhs(proj(u)) - source`. -/
theorem residual_formula (nPts : ℕ) (proj rhs : (ℕ → ℕ → ℝ) → (ℕ → ℕ → ℝ)) (lambda : ℝ) (src u : ℕ → ℝ)
    (f i : ℕ) (hi : i < nPts) :
    evaluator1D nPts proj rhs lambda src u (f * nPts + i) =
      u (f * nPts + i) - lambda * rhs (proj (fun g j => u (g * nPts + j))) f i - src (f * nPts + i) := by
  have h1 : (f * nPts + i) / nPts = f := by
    rw [Nat.mul_comm, Nat.mul_add_div (by omega), Nat.div_eq_of_lt hi, Nat.add_zero]
  have h2 : (f * nPts + i) % nPts = i := by
    rw [Nat.mul_comm, Nat.mul_add_mod, Nat.mod_eq_of_lt hi]
  unfold evaluator1D evaluator views
  rw [h1, h2]
  ring

theorem dotSelf_nonneg (n : ℕ) (x : ℕ → ℝ) : 0 ≤ dotSelf n x := by
  unfold dotSelf
  induction n with
  | zero => simp
  | succ n ih =>
    rw [List.range_succ, List.map_append, List.sum_append]
    have := mul_self_nonneg (x n)
    simp only [List.map_cons, List.map_nil, List.sum_cons, List.sum_nil]
    linarith

theorem dotSelf_pos (n : ℕ) (x : ℕ → ℝ) (h : ∃ k < n, x k ≠ 0) : 0 < dotSelf n x := by
  obtain ⟨k, hk, hx⟩ := h
  induction n with
  | zero => omega
  | succ n ih =>
    have hs : dotSelf (n + 1) x = dotSelf n x + x n * x n := by
      simp [dotSelf, List.range_succ]
    rw [hs]
    have h1 := dotSelf_nonneg n x
    have h2 := mul_self_nonneg (x n)
    by_cases hkn : k = n
    · subst hkn
      have := mul_self_pos.2 hx
      linarith
    · have := ih (by omega)
      linarith

/-- **C50 (matrix-free product).** If the right-hand side after projection is affine, with linear part `L`, then
for every non-zero vector `v` (on some rank) the matrix-free product at the reference solution
is exactly the Jacobian-vector product `v - lambda * L v` of the residual, whatever the value of the
finite-difference parameter. The reference residual is the residual of the reference solution. -/
theorem matrix_free_exact (nFields nPts : ℕ) (proj rhs L : (ℕ → ℕ → ℝ) → (ℕ → ℕ → ℝ)) (lambda : ℝ)
    (src refSln : ℕ → ℝ) (jacobiFreeEps norm : ℝ) (v : ℕ → ℝ) (others : ℝ)
    (haff : ∀ (x y : ℕ → ℕ → ℝ) (c : ℝ) f i,
      rhs (proj (fun g j => c * y g j + x g j)) f i = rhs (proj x) f i + c * L y f i)
    (heps : 0 < jacobiFreeEps) (hothers : 0 ≤ others)
    (hv : (∃ k < nFields * nPts, v k ≠ 0) ∨ 0 < others) :
    ∃ out, matrixMultiplyMF nFields nPts proj rhs lambda src refSln
        (evaluator1D nPts proj rhs lambda src refSln) jacobiFreeEps norm v others = some out ∧
      ∀ f < nFields, ∀ i < nPts, out (f * nPts + i) =
        v (f * nPts + i) - lambda * L (fun g j => v (g * nPts + j)) f i := by
  have hmagn : 0 < dotSelf (nFields * nPts) v + others := by
    rcases hv with h | h
    · have := dotSelf_pos _ _ h; linarith
    · have := dotSelf_nonneg (nFields * nPts) v; linarith
  have hpos : 0 < jacobiFreeEps * √((√norm + 1) / (dotSelf (nFields * nPts) v + others)) := by
    have h0 : 0 ≤ √norm := Real.sqrt_nonneg _
    have : 0 < √((√norm + 1) / (dotSelf (nFields * nPts) v + others)) := by
      apply Real.sqrt_pos.2
      positivity
    positivity
  refine ⟨_, by unfold matrixMultiplyMF mfEps; simp only; rw [if_neg hmagn.ne']; rfl, ?_⟩
  intro f hf i hi
  simp only
  rw [residual_formula _ _ _ _ _ _ _ _ hi, residual_formula _ _ _ _ _ _ _ _ hi]
  have h2 := haff (fun g j => refSln (g * nPts + j)) (fun g j => v (g * nPts + j))
    (jacobiFreeEps * √((√norm + 1) / (dotSelf (nFields * nPts) v + others))) f i
  rw [h2]
  generalize jacobiFreeEps * √((√norm + 1) / (dotSelf (nFields * nPts) v + others)) = e at hpos ⊢
  have : e ≠ 0 := hpos.ne'
  field_simp
  ring

/-- Finding: for a vector that is zero on all ranks the code divides by zero. -/
theorem matrix_free_zero_vector (nFields nPts : ℕ) (proj rhs : (ℕ → ℕ → ℝ) → (ℕ → ℕ → ℝ)) (lambda : ℝ)
    (src refSln refRes : ℕ → ℝ) (e norm : ℝ) :
    matrixMultiplyMF nFields nPts proj rhs lambda src refSln refRes e norm (fun _ => 0) 0 = none := by
  have : dotSelf (nFields * nPts) (fun _ => 0) = 0 := by simp [dotSelf]
  unfold matrixMultiplyMF mfEps
  simp [this]

theorem foldl_add_eq (l : List ℕ) (g : ℕ → ℝ) (a : ℝ) :
    l.foldl (fun acc f => acc + g f) a = a + (l.map g).sum := by
  induction l generalizing a with
  | nil => simp
  | cons x xs ih => simp [ih, add_assoc]

/-- **C50 (norm).** The reference norm is the sum of squares over all fields and points on all ranks. -/
theorem array_norm_formula (nFields nPts : ℕ) (x : ℕ → ℝ) (others : ℕ → ℝ) :
    arrayNorm nFields nPts x others = dotSelf (nFields * nPts) x + ((List.range nFields).map others).sum := by
  unfold arrayNorm
  rw [foldl_add_eq, zero_add]
  induction nFields with
  | zero => simp [dotSelf]
  | succ n ih =>
    rw [List.range_succ, List.map_append, List.sum_append, ih, List.map_append, List.sum_append]
    have : dotSelf ((n + 1) * nPts) x = dotSelf (n * nPts) x + dotSelf nPts (fun i => x (n * nPts + i)) := by
      unfold dotSelf
      rw [Nat.add_mul, Nat.one_mul, List.range_add, List.map_append, List.sum_append, List.map_map]
      rfl
    rw [this]
    simp only [List.map_cons, List.map_nil, List.sum_cons, List.sum_nil]
    ring

/-- Non-vacuity of `matrix_free_exact`: a right-hand side with two coupled fields and a source. -/
example : ∀ (x y : ℕ → ℕ → ℝ) (c : ℝ) (f i : ℕ),
    (fun (u : ℕ → ℕ → ℝ) f i => 3 * u (1 - f) i - u f (i + 1) + 7) (id (fun g j => c * y g j + x g j)) f i
      = (fun (u : ℕ → ℕ → ℝ) f i => 3 * u (1 - f) i - u f (i + 1) + 7) (id x) f i
        + c * (fun (u : ℕ → ℕ → ℝ) f i => 3 * u (1 - f) i - u f (i + 1)) y f i := by
  intro x y c f i; simp only [id]; ring

end Verif.Props.C50
