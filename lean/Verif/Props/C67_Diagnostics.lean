import Verif.Model.Electrostatic
import Verif.Props.C65_Neutral
import Verif.Props.C66_Verlet
import Mathlib.Data.List.Nodup
import Mathlib.Data.List.ProdSigma

/-!
# C67: the diagnostics of the electrostatic solver

The potential of a periodic Poisson problem is only known up to a constant, so energies must not depend on it.
-/

namespace Verif.Props.C67
open Verif.Model.Electrostatic Verif.Props.C65

variable {N M : ℕ} {ι : Type*}

/-- Specification: volume of the domain. -/
def volume (S : Space N M) : ℝ := ∑ i, S.w i

/-- Subtracting the mean gives a field of zero integral, "the value to subtract from the field such that the integral over the
domain of the field is zero"; and it is the only such constant. -/
theorem mean_spec (S : Space N M) (hV : volume S ≠ 0) (phys : Fin N → ℝ) (a : ℝ) :
    S.integral (fun i => phys i - a) = 0 ↔ a = fieldMean S phys := by
  have h : S.integral (fun i => phys i - a) = S.integral phys - volume S * a := by
    have := integral_add S phys (fun _ => 1) (-a)
    rw [integral_const] at this
    calc S.integral (fun i => phys i - a) = S.integral (fun i => phys i + 1 * -a) := by congr 1; funext i; ring
      _ = _ := by rw [this]; simp only [volume]; ring
  have h1 : S.integral (fun _ => (1 : ℝ)) = volume S := by rw [integral_const, mul_one]; rfl
  rw [h, fieldMean, h1, eq_div_iff hV]
  constructor <;> intro h <;> linarith

theorem mean_shift (S : Space N M) (hV : volume S ≠ 0) (phys : Fin N → ℝ) (a : ℝ) :
    fieldMean S (fun i => phys i + a) = fieldMean S phys + a := by
  symm
  rw [← mean_spec S hV]
  have := (mean_spec S hV phys (fieldMean S phys)).mpr rfl
  rw [← this]
  congr 1
  funext i
  ring

/-- The field energy is the integral of the squared deviation from the mean. -/
theorem fieldEnergy_spec (S : Space N M) (phys : Fin N → ℝ) :
    fieldEnergy S phys = S.integral fun i => (phys i - fieldMean S phys) ^ 2 := by
  unfold fieldEnergy
  simp only
  congr 1
  funext i
  ring

/-- The field energy does not depend on the constant of the potential. -/
theorem fieldEnergy_shift (S : Space N M) (hV : volume S ≠ 0) (phys : Fin N → ℝ) (a : ℝ) :
    fieldEnergy S (fun i => phys i + a) = fieldEnergy S phys := by
  rw [fieldEnergy_spec, fieldEnergy_spec, mean_shift S hV]
  congr 1
  funext i
  ring

/-- It is not negative, and zero only for constant potentials. -/
theorem fieldEnergy_nonneg (S : Space N M) (hw : ∀ i, 0 < S.w i) (phys : Fin N → ℝ) :
    0 ≤ fieldEnergy S phys ∧ (fieldEnergy S phys = 0 ↔ ∀ i, phys i = fieldMean S phys) := by
  rw [fieldEnergy_spec]
  have h0 : ∀ i ∈ Finset.univ, 0 ≤ S.w i * (phys i - fieldMean S phys) ^ 2 := fun i _ => mul_nonneg (hw i).le (sq_nonneg _)
  refine ⟨Finset.sum_nonneg h0, ?_⟩
  unfold Space.integral
  rw [Finset.sum_eq_zero_iff_of_nonneg h0]
  constructor
  · intro h i
    have := h i (Finset.mem_univ i)
    rcases mul_eq_zero.mp this with h1 | h1
    · exact absurd h1 (hw i).ne'
    · have := pow_eq_zero_iff (two_ne_zero) |>.mp h1
      linarith
  · intro h i _
    rw [h i]
    ring

/-- The potential energy is half the sum of the charges times the potential relative to its mean. -/
theorem potentialEnergy_spec [Fintype ι] (S : Space N M) (phys : Fin N → ℝ) (phi : ι → ℝ) (ps : ι → Particle) :
    potentialEnergy S phys phi ps = 1 / 2 * ∑ i, (ps i).q * (phi i - fieldMean S phys) := by
  unfold potentialEnergy
  simp only [← sub_eq_add_neg]
  ring

/-- The potential energy does not depend on the constant of the potential. -/
theorem potentialEnergy_shift [Fintype ι] (S : Space N M) (hV : volume S ≠ 0) (phys : Fin N → ℝ) (phi : ι → ℝ)
    (ps : ι → Particle) (a : ℝ) :
    potentialEnergy S (fun i => phys i + a) (fun i => phi i + a) ps = potentialEnergy S phys phi ps := by
  rw [potentialEnergy_spec, potentialEnergy_spec, mean_shift S hV]
  congr 1
  refine Finset.sum_congr rfl fun i _ => ?_
  ring

/-- Specification: the kinetic energy of the particles. -/
noncomputable def kinetic [Fintype ι] (ps : ι → Particle) : ℝ :=
  ∑ i, 1 / 2 * (ps i).m * ((ps i).v0 ^ 2 + (ps i).v1 ^ 2 + (ps i).v2 ^ 2)

/-- The kinetic energy is right if all particles have the mass given to the constructor. Missing: other masses. -/
theorem kineticEnergy_partial [Fintype ι] (mass : ℝ) (ps : ι → Particle) (h : ∀ i, (ps i).m = mass) :
    kineticEnergy mass ps = kinetic ps := by
  unfold kineticEnergy kinetic
  refine Finset.sum_congr rfl fun i _ => ?_
  rw [h i]
  ring

/-- Finding: the masses of the particles are not read. A heavy particle (as in distribution 3, with a mass of 1000000) is counted
with the mass one. -/
theorem kineticEnergy_ignores_mass : ∃ ps : Unit → Particle, kineticEnergy 1 ps ≠ kinetic ps := by
  refine ⟨fun _ => ⟨(0, 0), 1, 0, 0, 1, 1000000, (0, 0)⟩, ?_⟩
  norm_num [kineticEnergy, kinetic]

/-! ### The sample points -/

/-- The sample points are the centres of the `nx * ny` boxes of the domain, each with its index and each index exactly once. -/
theorem samplePoints_spec (origin extent : ℝ × ℝ) (nx ny : ℕ) :
    (samplePoints origin extent nx ny).map (·.2) = (List.range nx) ×ˢ (List.range ny) ∧
    (∀ p ∈ samplePoints origin extent nx ny,
      p.1 = (origin.1 + extent.1 * (2 * p.2.1 + 1) / (2 * nx), origin.2 + extent.2 * (2 * p.2.2 + 1) / (2 * ny))) := by
  refine ⟨?_, ?_⟩
  · unfold samplePoints
    simp only [List.map_flatMap, List.map_map, Function.comp_def]
    rfl
  · intro p hp
    simp only [samplePoints, List.mem_flatMap, List.mem_range, List.mem_map] at hp
    obtain ⟨px, hx, py, hy, rfl⟩ := hp
    have hx' : (nx : ℝ) ≠ 0 := by
      have : 0 < nx := by omega
      exact_mod_cast this.ne'
    have hy' : (ny : ℝ) ≠ 0 := by
      have : 0 < ny := by omega
      exact_mod_cast this.ne'
    apply Prod.ext
    · simp only; field_simp; ring
    · simp only; field_simp; ring

/-- There are `nx * ny` of them, with distinct indices, and they are inside of the domain. -/
theorem samplePoints_inside (origin extent : ℝ × ℝ) (nx ny : ℕ) (h1 : 0 < extent.1) (h2 : 0 < extent.2) :
    (samplePoints origin extent nx ny).length = nx * ny ∧ ((samplePoints origin extent nx ny).map (·.2)).Nodup ∧
    ∀ p ∈ samplePoints origin extent nx ny, origin.1 < p.1.1 ∧ p.1.1 < origin.1 + extent.1 ∧
      origin.2 < p.1.2 ∧ p.1.2 < origin.2 + extent.2 := by
  obtain ⟨s1, s2⟩ := samplePoints_spec origin extent nx ny
  refine ⟨?_, ?_, ?_⟩
  · rw [← List.length_map (·.2), s1, List.length_product, List.length_range, List.length_range]
  · rw [s1]
    exact List.nodup_range.product List.nodup_range
  · intro p hp
    have hmem : p.2 ∈ (List.range nx) ×ˢ (List.range ny) := by rw [← s1]; exact List.mem_map_of_mem hp
    have hxy := List.mem_product.mp hmem
    rw [List.mem_range, List.mem_range] at hxy
    obtain ⟨hx, hy⟩ := hxy
    have hx' : (p.2.1 : ℝ) + 1 ≤ nx := by exact_mod_cast hx
    have hy' : (p.2.2 : ℝ) + 1 ≤ ny := by exact_mod_cast hy
    have px : (0 : ℝ) ≤ p.2.1 := Nat.cast_nonneg _
    have py : (0 : ℝ) ≤ p.2.2 := Nat.cast_nonneg _
    have hnx : (0 : ℝ) < 2 * nx := by linarith
    have hny : (0 : ℝ) < 2 * ny := by linarith
    rw [s2 p hp]
    simp only
    refine ⟨?_, ?_, ?_, ?_⟩
    · have : 0 < extent.1 * (2 * p.2.1 + 1) / (2 * nx) := div_pos (mul_pos h1 (by linarith)) hnx
      linarith
    · have : extent.1 * (2 * p.2.1 + 1) / (2 * nx) < extent.1 := by
        rw [div_lt_iff₀ hnx]
        exact mul_lt_mul_of_pos_left (by linarith) h1
      linarith
    · have : 0 < extent.2 * (2 * p.2.2 + 1) / (2 * ny) := div_pos (mul_pos h2 (by linarith)) hny
      linarith
    · have : extent.2 * (2 * p.2.2 + 1) / (2 * ny) < extent.2 := by
        rw [div_lt_iff₀ hny]
        exact mul_lt_mul_of_pos_left (by linarith) h2
      linarith

/-! ### Initial positions -/

open Verif.Props.C27 in
/-- Positions sampled in the extents are put into the domain (distributions 2 to 5), for every origin. -/
theorem positions_in_domain (origin extent x : ℝ) (h0 : 0 ≤ x) (h1 : x < extent) :
    InDomain origin extent (positionOther origin x) := by
  unfold positionOther InDomain
  constructor <;> linarith

open Verif.Props.C27 in
/-- The streams of distribution 1 are in the domain if it is at least 0.02 wide. -/
theorem streams_in_domain (origin extent x : ℝ) (species : Bool) (h0 : 0 ≤ x) (h1 : x < extent) (he : 1 / 50 ≤ extent) :
    InDomain origin extent (position1 origin extent x species) := by
  have hp : 0 < extent := by linarith
  have a : 0 ≤ x / extent := div_nonneg h0 hp.le
  have b : x / extent < 1 := (div_lt_one hp).mpr h1
  unfold position1 InDomain
  cases species <;> simp only [Bool.false_eq_true, if_true, if_false] <;> constructor <;> linarith

open Verif.Props.C27 in
/-- Distribution 0, "square in lower left", is the lower left quarter of the domain exactly for domains which start at zero.
Missing: other domains. -/
theorem square_partial (extent x : ℝ) (h0 : 0 ≤ x) (h1 : x < extent) : InDomain 0 (extent / 4) (position0 0 x) := by
  unfold position0 InDomain
  constructor <;> linarith

/-- Distribution 0 covers all of the lower left quarter. -/
theorem square_onto (extent y : ℝ) (h0 : 0 ≤ y) (h1 : y < extent / 4) : ∃ x, 0 ≤ x ∧ x < extent ∧ position0 0 x = y :=
  ⟨4 * y, by linarith, by linarith, by unfold position0; ring⟩

/-- Distribution 1 puts the two species on bands of width 0.01 about one and three quarters of the domain: every position is in its band,
and all of the band is used. -/
theorem streams_band (origin extent : ℝ) (he : 0 < extent) (species : Bool) (y : ℝ) :
    (∃ x, 0 ≤ x ∧ x < extent ∧ position1 origin extent x species = y) ↔
      -0.005 ≤ y - (origin + (if species then 0.25 else 0.75) * extent) ∧
        y - (origin + (if species then 0.25 else 0.75) * extent) < 0.005 := by
  unfold position1
  constructor
  · rintro ⟨x, h0, h1, rfl⟩
    have a : 0 ≤ x / extent := div_nonneg h0 he.le
    have b : x / extent < 1 := (div_lt_one he).mpr h1
    cases species <;> simp only [Bool.false_eq_true, if_true, if_false] <;> constructor <;> norm_num <;> linarith
  · intro h
    refine ⟨100 * (y - (origin + (if species then 0.25 else 0.75) * extent) + 0.005) * extent, ?_, ?_, ?_⟩
    · exact mul_nonneg (by linarith [h.1]) he.le
    · have : 100 * (y - (origin + (if species then 0.25 else 0.75) * extent) + 0.005) < 1 := by
        have := h.2; norm_num at this ⊢; linarith
      nlinarith
    · rw [mul_div_assoc, div_self he.ne']
      cases species <;> simp only [Bool.false_eq_true, if_true, if_false] <;> norm_num <;> ring

example : ∃ x, 0 ≤ x ∧ x < (2 : ℝ) ∧ position1 0 2 x true = 0.5 := (streams_band 0 2 (by norm_num) true 0.5).mpr (by norm_num)

open Verif.Props.C27 in
/-- Finding: for other domains the origin is scaled as well; all of the particles can be outside of the domain. -/
theorem square_outside : ∃ origin extent : ℝ, 0 < extent ∧ ∀ x, 0 ≤ x → x < extent → ¬ InDomain origin extent (position0 origin x) := by
  refine ⟨4, 1, one_pos, ?_⟩
  intro x h0 h1 h
  unfold position0 InDomain at h
  linarith [h.1]

/-! ### Concrete cases -/

/-- Two points of weights 1/2 and 3/2 with potential (4, 0): mean 1, energy 6. -/
example : fieldMean (⟨![1 / 2, 3 / 2], fun f => ![f 0], fun c => fun _ => c 0⟩ : Space 2 1) ![4, 0] = 1 ∧
    fieldEnergy (⟨![1 / 2, 3 / 2], fun f => ![f 0], fun c => fun _ => c 0⟩ : Space 2 1) ![4, 0] = 6 := by
  constructor <;> norm_num [fieldEnergy, fieldMean, Space.integral, Fin.sum_univ_two]

example : samplePoints (1, 0) (2, 1) 2 1 = [((3 / 2, 1 / 2), (0, 0)), ((5 / 2, 1 / 2), (1, 0))] := by
  norm_num [samplePoints, List.range_succ]

end Verif.Props.C67
