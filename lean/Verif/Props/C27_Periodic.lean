import Verif.Model.Periodic
import Mathlib.Algebra.Order.Field.Basic
import Mathlib.Data.Rat.Floor
import Mathlib.Tactic.Linarith
import Mathlib.Tactic.Ring
import Mathlib.Tactic.FieldSimp
import Mathlib.Tactic.NormNum
import Mathlib.Tactic.Positivity

/-! C27: the periodic boundary. -/

namespace Verif.Props.C27
open Verif.Model Verif.Model.Periodic

variable {K : Type*} [Field K] [LinearOrder K] [IsStrictOrderedRing K] [FloorRing K]

/-- The two positions differ by an integer number of periods. -/
def SameModulo (extent p q : K) : Prop := ∃ n : ℤ, q = p + n * extent

/-- The claim for one component: the new position is in the domain and is the old one up to periods. -/
def InDomain (origin extent p : K) : Prop := origin ≤ p ∧ p < origin + extent

theorem fmod_of_nonneg {x y : K} (hy : 0 < y) (hx : 0 ≤ x) : 0 ≤ fmod x y ∧ fmod x y < y := by
  have h : 0 ≤ x / y := div_nonneg hx hy.le
  unfold fmod
  rw [truncZ_of_nonneg h]
  have h1 := Int.floor_le (x / y)
  have h2 := Int.lt_floor_add_one (x / y)
  rw [le_div_iff₀ hy] at h1
  rw [div_lt_iff₀ hy] at h2
  constructor
  · linarith
  · nlinarith

/-- The position moves by an integer number of periods, for every extent and every position. -/
theorem wrap_same_modulo (origin extent p : K) : SameModulo extent p (wrap origin extent p) := by
  refine ⟨truncZ (|p - origin| + 2) - truncZ ((p - origin + truncZ (|p - origin| + 2) * extent) / extent), ?_⟩
  unfold wrap fmod
  push_cast
  ring

theorem offset_nonneg {origin extent p : K} (he : 0 < extent) (h : 1 ≤ extent ∨ origin ≤ p) :
    0 ≤ p - origin + truncZ (|p - origin| + 2) * extent := by
  have ha : 0 ≤ |p - origin| := abs_nonneg _
  have hn : |p - origin| + 1 ≤ (truncZ (|p - origin| + 2) : K) := by
    rw [truncZ_of_nonneg (by linarith)]
    have := Int.lt_floor_add_one (|p - origin| + 2)
    linarith
  rcases h with h | h
  · have h1 : (truncZ (|p - origin| + 2) : K) * 1 ≤ truncZ (|p - origin| + 2) * extent := mul_le_mul_of_nonneg_left h (by linarith)
    have := neg_abs_le (p - origin)
    linarith
  · have : 0 ≤ (truncZ (|p - origin| + 2) : K) * extent := mul_nonneg (by linarith) he.le
    linarith

/-- The partial form of C27: the position is in the domain if the period is at least one or the particle has not left at the lower end. Missing: particles
below the origin of domains with a period less than one, for which the claim is false (`wrap_leaves_domain`). -/
theorem wrap_in_domain_partial {origin extent : K} (he : 0 < extent) (p : K) (h : 1 ≤ extent ∨ origin ≤ p) :
    InDomain origin extent (wrap origin extent p) := by
  have := fmod_of_nonneg he (offset_nonneg he h)
  unfold InDomain wrap
  constructor
  · linarith [this.1]
  · linarith [this.2]

/-- A position is determined by the domain and its class modulo the period. -/
theorem in_domain_unique {origin extent : K} (he : 0 < extent) {p q : K} (hp : InDomain origin extent p) (hq : InDomain origin extent q)
    (h : SameModulo extent p q) : q = p := by
  obtain ⟨n, rfl⟩ := h
  obtain ⟨p1, p2⟩ := hp
  obtain ⟨q1, q2⟩ := hq
  have h1 : (n : K) * extent < 1 * extent := by linarith
  have h2 : (-1 : K) * extent < n * extent := by linarith
  have h3 : (n : K) < 1 := lt_of_mul_lt_mul_right h1 he.le
  have h4 : (-1 : K) < n := lt_of_mul_lt_mul_right h2 he.le
  have h5 : n < 1 := by exact_mod_cast h3
  have h6 : -1 < n := by exact_mod_cast h4
  have : n = 0 := by omega
  rw [this]; simp

/-- A particle in the domain is not moved, for every extent. -/
theorem wrap_fixes_domain {origin extent p : K} (he : 0 < extent) (h : InDomain origin extent p) : wrap origin extent p = p :=
  in_domain_unique he h (wrap_in_domain_partial he p (Or.inr h.1)) (wrap_same_modulo origin extent p)

/-- Applying the boundary condition twice is applying it once. (`_partial`: same restriction as `wrap_in_domain_partial`.) -/
theorem wrap_idempotent_partial {origin extent : K} (he : 0 < extent) (p : K) (h : 1 ≤ extent ∨ origin ≤ p) :
    wrap origin extent (wrap origin extent p) = wrap origin extent p := wrap_fixes_domain he (wrap_in_domain_partial he p h)

theorem fmod_of_neg {x y : K} (hy : 0 < y) (hx : x < 0) : fmod x y ≤ 0 ∧ (fmod x y = 0 → ∃ n : ℤ, x = n * y) := by
  have h : x / y < 0 := div_neg_of_neg_of_pos hx hy
  unfold fmod
  have e : truncZ (x / y) = ⌈x / y⌉ := if_neg (not_le.mpr h)
  rw [e]
  have h1 := Int.le_ceil (x / y)
  rw [div_le_iff₀ hy] at h1
  exact ⟨by linarith, fun h => ⟨⌈x / y⌉, by linarith⟩⟩

/-- Exactly when the particle ends in the domain, for every extent: the code adds `⌊|p - origin|⌋ + 2` periods, so the particle ends in the domain if
this is enough to be above the origin, or if the particle is a whole number of periods from the origin. -/
theorem wrap_in_domain_iff {origin extent : K} (he : 0 < extent) (p : K) :
    InDomain origin extent (wrap origin extent p) ↔ origin ≤ p + (⌊|p - origin|⌋ + 2 : ℤ) * extent ∨ SameModulo extent origin p := by
  have hn : truncZ (|p - origin| + 2) = ⌊|p - origin|⌋ + 2 := by
    rw [truncZ_of_nonneg (by positivity)]
    exact_mod_cast Int.floor_add_natCast (|p - origin|) 2
  have hw : wrap origin extent p = fmod (p - origin + (⌊|p - origin|⌋ + 2 : ℤ) * extent) extent + origin := by
    unfold wrap; dsimp only; rw [hn]
  constructor
  · intro h
    by_cases hx : p - origin + (⌊|p - origin|⌋ + 2 : ℤ) * extent < 0
    · right
      obtain ⟨h1, h2⟩ := fmod_of_neg he hx
      rw [hw] at h
      obtain ⟨n, hn⟩ := h2 (le_antisymm h1 (by have := h.1; linarith))
      refine ⟨n - (⌊|p - origin|⌋ + 2), ?_⟩
      push_cast at hn ⊢
      linarith
    · left; linarith
  · rintro (h | ⟨n, hn⟩)
    · have := fmod_of_nonneg he (x := p - origin + (⌊|p - origin|⌋ + 2 : ℤ) * extent) (by linarith)
      rw [hw]
      exact ⟨by linarith [this.1], by linarith [this.2]⟩
    · have e : wrap origin extent p = origin := by
        rw [hw]
        unfold fmod
        have e1 : (p - origin + (⌊|p - origin|⌋ + 2 : ℤ) * extent) = (n + (⌊|p - origin|⌋ + 2) : ℤ) * extent := by
          rw [hn]; push_cast; ring
        have e2 : truncZ ((n + (⌊|p - origin|⌋ + 2) : ℤ) * extent / extent) = n + (⌊|p - origin|⌋ + 2) := by
          rw [mul_div_cancel_right₀ _ he.ne']
          unfold truncZ
          split_ifs
          · exact Int.floor_intCast _
          · exact Int.ceil_intCast _
        rw [e1, e2]; ring
      rw [e]
      exact ⟨le_rfl, by linarith⟩

/-- Finding: in a domain with a period below one a particle below the origin can stay outside. -/
theorem wrap_leaves_domain : ∃ origin extent p : ℚ, 0 < extent ∧ ¬ InDomain origin extent (wrap origin extent p) := by
  refine ⟨0, 1 / 10, -(11 / 20), by norm_num, ?_⟩
  have e : wrap (0 : ℚ) (1 / 10) (-(11 / 20)) = -(1 / 20) := by
    unfold wrap fmod truncZ
    norm_num [abs_of_neg, Int.floor_eq_iff, Int.ceil_eq_iff]
  rw [e]
  unfold InDomain
  norm_num

/-- The whole loop: each component below the number of dimensions is wrapped with its own origin and extent, and no other is changed. -/
theorem kernel_wraps_each (origin extent : ℕ → K) (n : ℕ) (p : ℕ → K) (i : ℕ) :
    kernelLoop origin extent n p i = if i < n then wrap (origin i) (extent i) (p i) else p i := by
  induction n with
  | zero => simp [kernelLoop]
  | succ n ih =>
    rw [kernelLoop]
    dsimp only
    by_cases h : i = n
    · subst h
      rw [if_pos rfl, ih, if_neg (by omega), if_pos (by omega)]
    · rw [if_neg h, ih]
      by_cases h2 : i < n
      · rw [if_pos h2, if_pos (by omega)]
      · rw [if_neg h2, if_neg (by omega)]

/-- C27 for all dimensions. (`_partial`: as above.) -/
theorem kernel_in_domain_partial (origin extent : ℕ → K) (n : ℕ) (p : ℕ → K) (he : ∀ i < n, 0 < extent i)
    (h : ∀ i < n, 1 ≤ extent i ∨ origin i ≤ p i) :
    (∀ i < n, InDomain (origin i) (extent i) (kernelLoop origin extent n p i) ∧ SameModulo (extent i) (p i) (kernelLoop origin extent n p i)) ∧
    (∀ i, n ≤ i → kernelLoop origin extent n p i = p i) ∧
    kernelLoop origin extent n (kernelLoop origin extent n p) = kernelLoop origin extent n p := by
  refine ⟨fun i hi => ?_, fun i hi => ?_, funext fun i => ?_⟩
  · rw [kernel_wraps_each, if_pos hi]
    exact ⟨wrap_in_domain_partial (he i hi) _ (h i hi), wrap_same_modulo _ _ _⟩
  · rw [kernel_wraps_each, if_neg (by omega)]
  · rw [kernel_wraps_each, kernel_wraps_each origin extent n p]
    by_cases hi : i < n
    · rw [if_pos hi, if_pos hi]; exact wrap_idempotent_partial (he i hi) _ (h i hi)
    · rw [if_neg hi, if_neg hi]

example : wrap (-1 : ℚ) 2 (-15 / 2) = 1 / 2 := by
  unfold wrap fmod truncZ
  norm_num [abs_of_neg, Int.floor_eq_iff]

end Verif.Props.C27
