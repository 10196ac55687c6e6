import Verif.Model.Sampling
import Mathlib.Data.Rat.Floor
import Mathlib.Tactic.FieldSimp
import Mathlib.Tactic.Linarith
import Mathlib.Tactic.Positivity
import Mathlib.Tactic.NormNum

namespace Verif.Props.C47
open Verif.Model Verif.Model.Sampling Verif.Model.Mem

variable {K : Type*} [Field K] [LinearOrder K] [IsStrictOrderedRing K] [FloorRing K]

theorem rsequence_range (i : ℕ) (irr seed : K) (hirr : 0 ≤ irr) (hseed : 0 ≤ seed) :
    0 ≤ rsequence i irr seed ∧ rsequence i irr seed < 1 := by
  have hx : 0 ≤ (i : K) * irr + seed := by positivity
  unfold rsequence fmod
  rw [div_one, mul_one, truncZ_of_nonneg hx]
  exact ⟨sub_nonneg.2 (Int.floor_le _), by have := Int.lt_floor_add_one ((i : K) * irr + seed); linarith⟩

/-- **C47 (partial: non-negative seed).** For every number of points, every `ndim` up to the ten tabulated
ratios, all positive extents and any non-negative seed, exactly `N` positions are generated in each
dimension and each lies in `[0, extent)`. Missing: negative seeds, see `rsequence_negative_seed`, and
`ndim > 10`, see `rsequence_ndim_limit`. -/
theorem rsequence_in_extents_partial (table : List K) (htable : ∀ x ∈ table, 0 ≤ x) (N ndim : ℕ)
    (hn : ndim ≤ table.length) (extents : ℕ → K) (hext : ∀ d < ndim, 0 < extents d) (seed : K)
    (hseed : 0 ≤ seed) :
    ∃ pos, rsequenceWithinExtents table N ndim extents seed = some pos ∧ pos.length = ndim ∧
      ∀ (d : ℕ) (col : List K), pos[d]? = some col → col.length = N ∧
        ∀ x ∈ col, 0 ≤ x ∧ x < extents d := by
  have hm : ∀ d ∈ List.range ndim, (Verif.Model.Mem.read table d).map
      (fun igr => (List.range N).map fun px => rsequence px igr seed * extents d) =
      some ((List.range N).map fun px => rsequence px (table.getD d 0) seed * extents d) := by
    intro d hd
    have hd' : d < table.length := lt_of_lt_of_le (List.mem_range.1 hd) hn
    rw [read_ofNat, List.getElem?_eq_getElem hd']
    simp [List.getD_eq_getElem?_getD, hd']
  have hgen : ∀ (l : List ℕ) (f : ℕ → Option (List K)) (g : ℕ → List K), (∀ d ∈ l, f d = some (g d)) →
      l.mapM f = some (l.map g) := by
    intro l f g
    induction l with
    | nil => intro _; rfl
    | cons a as ih =>
      intro h
      rw [List.mapM_cons, h a (by simp), ih fun d hd => h d (List.mem_cons_of_mem _ hd)]
      rfl
  refine ⟨_, hgen _ _ _ hm, by simp, ?_⟩
  intro d col hcol
  rw [List.getElem?_map] at hcol
  obtain ⟨d', hd', rfl⟩ := Option.map_eq_some_iff.1 hcol
  obtain ⟨hlt, hd''⟩ := List.getElem?_eq_some_iff.1 hd'
  have hdn : d < ndim := by simpa using hlt
  have hdd : d' = d := by simpa using hd''.symm
  subst hdd
  refine ⟨by simp, ?_⟩
  intro x hx
  obtain ⟨px, -, rfl⟩ := List.mem_map.1 hx
  have htab : 0 ≤ table.getD d' 0 := by
    rw [List.getD_eq_getElem?_getD, List.getElem?_eq_getElem (lt_of_lt_of_le hdn hn)]
    exact htable _ (List.getElem_mem _)
  have hr := rsequence_range px (table.getD d' 0) seed htab hseed
  have he := hext d' hdn
  exact ⟨mul_nonneg hr.1 he.le, by nlinarith⟩

/-- The table in the code satisfies the hypothesis, and supports ten dimensions. -/
theorem golden_table_ok : (∀ x ∈ inverseGoldenRatios, 0 ≤ x ∧ x < 1) ∧ inverseGoldenRatios.length = 10 := by
  constructor
  · intro x hx
    simp only [inverseGoldenRatios, List.map_cons, List.map_nil, List.mem_cons, List.not_mem_nil,
      or_false] at hx
    rcases hx with rfl | rfl | rfl | rfl | rfl | rfl | rfl | rfl | rfl | rfl <;> norm_num
  · rfl

/-- **C47 (the constants).** The entry for `d` dimensions (from 1) is the inverse of the generalised golden ratio up to less than one unit of its last digit (two units
for the eighth entry): the function `y^d + y^(d+1)`, which is increasing for positive `y` and is one exactly at the inverse ratio, is below one at the entry less one
unit and above one at the entry plus one (two) units. -/
theorem golden_digits : ∀ i < 10, (fun y : ℚ => y ^ (i + 1) + y ^ (i + 2)) (inverseGoldenRatios.getD i 0 - 1 / 10 ^ 16) < 1 ∧
    1 < (fun y : ℚ => y ^ (i + 1) + y ^ (i + 2)) (inverseGoldenRatios.getD i 0 + (if i = 7 then 2 else 1) / 10 ^ 16) := by
  decide +kernel

/-- The roots are unique: the function is strictly increasing. -/
theorem golden_unique (d : ℕ) (y y' : K) (h0 : 0 < y) (h : y < y') : y ^ (d + 1) + y ^ (d + 2) < y' ^ (d + 1) + y' ^ (d + 2) :=
  add_lt_add (pow_lt_pow_left₀ h h0.le (by omega)) (pow_lt_pow_left₀ h h0.le (by omega))

/-- **Finding.** With a negative seed points fall outside `[0, extent)`: the full claim is false. -/
theorem rsequence_negative_seed :
    ∃ pos : List (List ℚ), rsequenceWithinExtents inverseGoldenRatios 1 1 (fun _ => 1) (-1/2) = some pos ∧
      ∃ col ∈ pos, ∃ x ∈ col, x < 0 := by
  refine ⟨_, rfl, _, List.mem_singleton.2 rfl, _, List.mem_singleton.2 rfl, ?_⟩
  have : ⌈(-1/2 : ℚ)⌉ = 0 := by norm_num [Int.ceil_eq_iff]
  norm_num [rsequence, fmod, truncZ, this]

/-- **Finding.** More than ten dimensions read the constant table out of bounds. -/
theorem rsequence_ndim_limit (N : ℕ) (extents : ℕ → ℚ) (seed : ℚ) :
    rsequenceWithinExtents inverseGoldenRatios N 11 extents seed = none := by
  rfl

example : (∀ x ∈ inverseGoldenRatios, 0 ≤ x) ∧ 3 ≤ inverseGoldenRatios.length ∧
    (∀ d < 3, (0 : ℚ) < (fun d : ℕ => (d : ℚ) + 1) d) ∧ (0 : ℚ) ≤ 1 / 2 :=
  ⟨fun x hx => (golden_table_ok.1 x hx).1, by decide, fun d _ => by
    have : (0 : ℚ) ≤ (d : ℚ) := Nat.cast_nonneg d
    show (0 : ℚ) < (d : ℚ) + 1
    linarith, by norm_num⟩

end Verif.Props.C47
