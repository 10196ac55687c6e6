import Verif.Model.CoordinateMapping
import Mathlib.Algebra.Order.AbsoluteValue.Basic
import Mathlib.Tactic.Linarith
import Mathlib.Tactic.NormNum
import Mathlib.Data.Rat.Floor

namespace Verif.Props.C09
open Verif.Model.CoordMap

variable {K : Type*} [Field K] [LinearOrder K] [IsStrictOrderedRing K]

/-- A coordinate which is finite and within `[-1-tol, 1+tol]`. -/
def Inside (tol : K) (c : Option K) : Prop := ∃ x, c = some x ∧ -(1 + tol) ≤ x ∧ x ≤ 1 + tol

/-- **C09 (one coordinate).** The result is inside; the flag tells exactly whether the input was not; an
inside input is unchanged; other finite inputs move to the nearest end; non-finite values become 0. -/
theorem clamp_one (tol : K) (ht : 0 ≤ tol) (c : Option K) :
    Inside tol (clampLocCoord tol c).1 ∧ ((clampLocCoord tol c).2 = false ↔ Inside tol c) ∧
    (Inside tol c → (clampLocCoord tol c).1 = c) ∧
    (∀ x, c = some x → (clampLocCoord tol c).1 = some (max (-(1 + tol)) (min x (1 + tol)))) ∧
    (c = none → (clampLocCoord tol c).1 = some 0) := by
  unfold clampLocCoord Inside
  cases c with
  | none => simp; constructor <;> linarith
  | some x =>
    simp only [Option.some.injEq, exists_eq_left', forall_eq', reduceCtorEq, false_imp_iff, and_true]
    split_ifs with h1 h2
    · refine ⟨⟨_, rfl, le_rfl, by linarith⟩, by simp; intro h; linarith, fun h => by linarith [h.1], ?_⟩
      rw [max_eq_left]; exact (min_le_left _ _).trans h1.le
    · refine ⟨⟨_, rfl, by linarith, le_rfl⟩, by simp; intro _; exact h2, fun h => by linarith [h.2], ?_⟩
      rw [min_eq_right h2.le, max_eq_right (by linarith)]
    · have h1' := not_lt.1 h1
      have h2' := not_lt.1 h2
      refine ⟨⟨_, rfl, h1', h2'⟩, ⟨fun _ => ⟨h1', h2'⟩, fun _ => rfl⟩, fun _ => rfl, ?_⟩
      rw [min_eq_left h2', max_eq_right h1']

/-- The full claim C09 for three coordinates, as a statement about the function. -/
def FullClaim3 (K : Type*) [Field K] [LinearOrder K] : Prop :=
  ∀ (tol : K), 0 ≤ tol → ∀ c0 c1 c2 : Option K,
    let r := clampLocCoords3 tol c0 c1 c2
    Inside tol r.1.1 ∧ Inside tol r.1.2.1 ∧ Inside tol r.1.2.2

/-- **Finding.** The full claim is false: with `||` the coordinates after the first one that is
clamped are left as they are, e.g. `(2, 2, 2)` becomes `(1, 2, 2)`. -/
theorem clamp_skips_later_coordinates :
    ¬ FullClaim3 ℚ ∧ clampLocCoords3 (0 : ℚ) (some 2) (some 2) (some 2) = ((some 1, some 2, some 2), true) ∧
    clampLocCoords2 (0 : ℚ) (some 2) none = ((some 1, none), true) := by
  have h : clampLocCoords3 (0 : ℚ) (some 2) (some 2) (some 2) = ((some 1, some 2, some 2), true) := by
    norm_num [clampLocCoords3, clampLocCoord]
  refine ⟨?_, h, by norm_num [clampLocCoords2, clampLocCoord]⟩
  intro hf
  have := (hf 0 le_rfl (some 2) (some 2) (some 2)).2.1
  rw [h] at this
  obtain ⟨x, hx, -, hx2⟩ := this
  simp only [Option.some.injEq] at hx
  subst hx
  norm_num at hx2

/-- **C09 (partial, three coordinates).** The flag is right, inside coordinates are never altered, and all
coordinates are inside afterwards provided at most one was outside before. In general exactly the first outside
coordinate is clamped. Missing: clamping of the later outside coordinates. -/
theorem clamp_three_partial (tol : K) (ht : 0 ≤ tol) (c0 c1 c2 : Option K) :
    let r := clampLocCoords3 tol c0 c1 c2
    (r.2 = true ↔ ¬ (Inside tol c0 ∧ Inside tol c1 ∧ Inside tol c2)) ∧
    (Inside tol c0 → r.1.1 = c0) ∧ (Inside tol c1 → r.1.2.1 = c1) ∧ (Inside tol c2 → r.1.2.2 = c2) ∧
    (¬ Inside tol c0 → r.1 = ((clampLocCoord tol c0).1, c1, c2)) ∧
    (Inside tol c0 → ¬ Inside tol c1 → r.1 = (c0, (clampLocCoord tol c1).1, c2)) ∧
    (Inside tol c0 → Inside tol c1 → r.1 = (c0, c1, (clampLocCoord tol c2).1)) := by
  obtain ⟨-, f0, u0, -, -⟩ := clamp_one tol ht c0
  obtain ⟨-, f1, u1, -, -⟩ := clamp_one tol ht c1
  obtain ⟨-, f2, u2, -, -⟩ := clamp_one tol ht c2
  simp only [clampLocCoords3, clampLocCoords2]
  have t0 : (clampLocCoord tol c0).2 = true ↔ ¬ Inside tol c0 := by rw [← f0]; simp
  have t1 : (clampLocCoord tol c1).2 = true ↔ ¬ Inside tol c1 := by rw [← f1]; simp
  have t2 : (clampLocCoord tol c2).2 = true ↔ ¬ Inside tol c2 := by rw [← f2]; simp
  by_cases h0 : Inside tol c0
  · rw [if_neg (fun h => t0.1 h h0)]
    by_cases h1 : Inside tol c1
    · rw [if_neg (fun h => t1.1 h h1)]
      simp [t2, h0, h1, u0 h0, u1 h1]
      exact u2
    · rw [if_pos (t1.2 h1)]
      simp [h0, h1, u0 h0]
  · rw [if_pos (t0.2 h0)]
    simp [h0]

/-- **C09 (partial, two coordinates).** As above. -/
theorem clamp_two_partial (tol : K) (ht : 0 ≤ tol) (c0 c1 : Option K) :
    let r := clampLocCoords2 tol c0 c1
    (r.2 = true ↔ ¬ (Inside tol c0 ∧ Inside tol c1)) ∧
    (Inside tol c0 → r.1.1 = c0) ∧ (Inside tol c1 → r.1.2 = c1) ∧
    (¬ Inside tol c0 → r.1 = ((clampLocCoord tol c0).1, c1)) ∧
    (Inside tol c0 → r.1 = (c0, (clampLocCoord tol c1).1)) := by
  obtain ⟨-, f0, u0, -, -⟩ := clamp_one tol ht c0
  obtain ⟨-, f1, u1, -, -⟩ := clamp_one tol ht c1
  simp only [clampLocCoords2]
  have t0 : (clampLocCoord tol c0).2 = true ↔ ¬ Inside tol c0 := by rw [← f0]; simp
  have t1 : (clampLocCoord tol c1).2 = true ↔ ¬ Inside tol c1 := by rw [← f1]; simp
  by_cases h0 : Inside tol c0
  · rw [if_neg (fun h => t0.1 h h0)]
    simp [t1, h0, u0 h0]
    exact u1
  · rw [if_pos (t0.2 h0)]
    simp [h0]

example : Inside (1 / 100 : ℚ) (some 1) ∧ ¬ Inside (1 / 100 : ℚ) (some 2) := by
  constructor
  · exact ⟨1, rfl, by norm_num, by norm_num⟩
  · rintro ⟨x, hx, -, h2⟩
    simp only [Option.some.injEq] at hx
    subst hx; norm_num at h2

end Verif.Props.C09
