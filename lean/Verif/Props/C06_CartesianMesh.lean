import Verif.Model.CartesianMesh
import Mathlib.Algebra.Order.Floor.Ring
import Mathlib.Algebra.BigOperators.Fin
import Mathlib.Algebra.Order.BigOperators.Ring.Finset
import Mathlib.Tactic.FieldSimp
import Mathlib.Tactic.Linarith
import Mathlib.Tactic.Ring
import Mathlib.Tactic.Positivity
import Mathlib.Tactic.NormNum
import Mathlib.Data.Rat.Floor

namespace Verif.Props.C06
open Verif.Model Verif.Model.CartesianMesh

theorem clampCell_range (count cell : ℤ) (h : 0 < count) :
    0 ≤ clampCell count cell ∧ clampCell count cell < count := by
  unfold clampCell; dsimp only; split_ifs <;> omega

theorem clampCell_of_mem (count cell : ℤ) (h0 : 0 ≤ cell) (h1 : cell < count) :
    clampCell count cell = cell := by
  unfold clampCell; dsimp only; split_ifs <;> omega

/-! ### linear index -/

/-- The mathematical mixed-radix index `∑ d, t d * ∏ e < d, counts e`. -/
def mixedRadix (counts t : ℕ → ℤ) (n : ℕ) : ℤ :=
  ∑ d ∈ Finset.range n, t d * ∏ e ∈ Finset.range d, counts e

theorem foldl_linear (counts t : ℕ → ℤ) (n : ℕ) (x : ℤ) :
    ((List.range n).reverse).foldl (fun idx d => idx * counts d + t d) x =
      x * ∏ e ∈ Finset.range n, counts e + mixedRadix counts t n := by
  induction n generalizing x with
  | zero => simp [mixedRadix]
  | succ n ih =>
    rw [List.range_succ, List.reverse_append]
    simp only [List.reverse_cons, List.reverse_nil, List.nil_append, List.cons_append,
      List.foldl_cons]
    rw [ih]
    simp only [mixedRadix, Finset.sum_range_succ, Finset.prod_range_succ]
    ring

theorem linearIndex_eq (counts t : ℕ → ℤ) (n : ℕ) (hn : 0 < n) :
    linearIndex n counts t = mixedRadix counts t n := by
  obtain ⟨k, rfl⟩ : ∃ k, n = k + 1 := ⟨n - 1, by omega⟩
  unfold linearIndex
  rw [Nat.add_sub_cancel, foldl_linear]
  simp only [mixedRadix, Finset.sum_range_succ]; ring

theorem cellCount_eq (counts : ℕ → ℤ) (n : ℕ) :
    cellCount n counts = ∏ e ∈ Finset.range n, counts e := by
  unfold cellCount
  induction n with
  | zero => simp
  | succ n ih => rw [List.range_succ, List.foldl_append, ih]; simp [Finset.prod_range_succ]

theorem mixedRadix_range (counts t : ℕ → ℤ) (n : ℕ) (ht : ∀ d < n, 0 ≤ t d ∧ t d < counts d) :
    0 ≤ mixedRadix counts t n ∧ mixedRadix counts t n < ∏ e ∈ Finset.range n, counts e := by
  induction n with
  | zero => simp [mixedRadix]
  | succ n ih =>
    obtain ⟨h1, h2⟩ := ih fun d hd => ht d (by omega)
    obtain ⟨h3, h4⟩ := ht n (by omega)
    simp only [mixedRadix, Finset.sum_range_succ, Finset.prod_range_succ] at *
    set P := ∏ e ∈ Finset.range n, counts e
    constructor
    · have : 0 ≤ P := by omega
      positivity
    · nlinarith

theorem mixedRadix_inj (counts t t' : ℕ → ℤ) (n : ℕ) (ht : ∀ d < n, 0 ≤ t d ∧ t d < counts d)
    (ht' : ∀ d < n, 0 ≤ t' d ∧ t' d < counts d)
    (h : mixedRadix counts t n = mixedRadix counts t' n) : ∀ d < n, t d = t' d := by
  induction n with
  | zero => simp
  | succ n ih =>
    have r := mixedRadix_range counts t n fun d hd => ht d (by omega)
    have r' := mixedRadix_range counts t' n fun d hd => ht' d (by omega)
    have hs : ∀ t : ℕ → ℤ, mixedRadix counts t (n + 1) =
        mixedRadix counts t n + t n * ∏ e ∈ Finset.range n, counts e := fun t => by
      simp [mixedRadix, Finset.sum_range_succ]
    rw [hs, hs] at h
    set P := ∏ e ∈ Finset.range n, counts e with hP
    have hPpos : 0 < P := by omega
    have htn : t n = t' n := by
      have e1 : (mixedRadix counts t n + t n * P) / P = t n := by
        rw [Int.add_mul_ediv_right _ _ hPpos.ne', Int.ediv_eq_zero_of_lt r.1 r.2, zero_add]
      have e2 : (mixedRadix counts t' n + t' n * P) / P = t' n := by
        rw [Int.add_mul_ediv_right _ _ hPpos.ne', Int.ediv_eq_zero_of_lt r'.1 r'.2, zero_add]
      rw [← e1, h, e2]
    rw [htn] at h
    have := ih (fun d hd => ht d (by omega)) (fun d hd => ht' d (by omega)) (by linarith)
    intro d hd
    rcases Nat.lt_succ_iff_lt_or_eq.1 hd with h' | rfl
    · exact this d h'
    · exact htn

theorem mixedRadix_surj (counts : ℕ → ℤ) (n : ℕ) (hc : ∀ d < n, 0 < counts d) (i : ℤ) (h0 : 0 ≤ i)
    (h1 : i < ∏ e ∈ Finset.range n, counts e) :
    ∃ t : ℕ → ℤ, (∀ d < n, 0 ≤ t d ∧ t d < counts d) ∧ mixedRadix counts t n = i := by
  induction n generalizing i with
  | zero => exact ⟨fun _ => 0, by simp, by simp [mixedRadix] at h1 ⊢; omega⟩
  | succ n ih =>
    rw [Finset.prod_range_succ] at h1
    set P := ∏ e ∈ Finset.range n, counts e with hP
    have hPpos : 0 < P := Finset.prod_pos fun d hd => hc d (by have := Finset.mem_range.1 hd; omega)
    obtain ⟨t, ht, hti⟩ := ih (fun d hd => hc d (by omega)) (i % P) (Int.emod_nonneg _ hPpos.ne')
      (Int.emod_lt_of_pos _ hPpos)
    refine ⟨fun d => if d = n then i / P else t d, ?_, ?_⟩
    · intro d hd
      by_cases hdn : d = n
      · subst hdn
        simp only [if_true]
        exact ⟨Int.ediv_nonneg h0 hPpos.le, Int.ediv_lt_of_lt_mul hPpos (by rw [mul_comm]; exact h1)⟩
      · simp only [if_neg hdn]; exact ht d (by omega)
    · have : ∀ d ∈ Finset.range n, (if d = n then i / P else t d) * ∏ e ∈ Finset.range d, counts e =
          t d * ∏ e ∈ Finset.range d, counts e := fun d hd => by
        rw [if_neg (by have := Finset.mem_range.1 hd; omega)]
      simp only [mixedRadix, Finset.sum_range_succ, if_true]
      rw [Finset.sum_congr rfl this]
      simp only [mixedRadix] at hti
      rw [hti, ← hP, add_comm, mul_comm]
      exact Int.mul_ediv_add_emod i P

/-- **C06 (bijection).** `get_linear_cell_index` maps in-range index tuples into
`[0, get_cell_count())`, different tuples get different indices, and each linear index is hit. -/
theorem linear_index_bijective (n : ℕ) (hn : 0 < n) (counts : ℕ → ℤ) (hc : ∀ d < n, 0 < counts d) :
    (∀ t : ℕ → ℤ, (∀ d < n, 0 ≤ t d ∧ t d < counts d) →
      0 ≤ linearIndex n counts t ∧ linearIndex n counts t < cellCount n counts) ∧
    (∀ t t' : ℕ → ℤ, (∀ d < n, 0 ≤ t d ∧ t d < counts d) → (∀ d < n, 0 ≤ t' d ∧ t' d < counts d) →
      linearIndex n counts t = linearIndex n counts t' → ∀ d < n, t d = t' d) ∧
    (∀ i : ℤ, 0 ≤ i → i < cellCount n counts →
      ∃ t : ℕ → ℤ, (∀ d < n, 0 ≤ t d ∧ t d < counts d) ∧ linearIndex n counts t = i) := by
  refine ⟨fun t ht => ?_, fun t t' ht ht' h => ?_, fun i h0 h1 => ?_⟩
  · rw [linearIndex_eq _ _ _ hn, cellCount_eq]; exact mixedRadix_range counts t n ht
  · rw [linearIndex_eq _ _ _ hn, linearIndex_eq _ _ _ hn] at h
    exact mixedRadix_inj counts t t' n ht ht' h
  · rw [cellCount_eq] at h1
    obtain ⟨t, ht, hti⟩ := mixedRadix_surj counts n hc i h0 h1
    exact ⟨t, ht, by rw [linearIndex_eq _ _ _ hn, hti]⟩

/-! ### geometry -/

variable {K : Type*} [Field K] [LinearOrder K] [IsStrictOrderedRing K]

theorem mk?_pos {ndim : ℕ} {origin extents : ℕ → K} {counts : ℕ → ℤ} {m : Mesh K}
    (h : mk? ndim origin extents counts = some m) :
    (∀ d < ndim, 0 < extents d ∧ 0 < counts d) ∧ m.ndim = ndim ∧ m.origin = origin ∧
    m.extents = extents ∧ m.cellCounts = counts ∧
    m.cellWidths = (fun d => extents d / (counts d : K)) ∧
    m.inverseCellWidths = (fun d => 1 / (extents d / (counts d : K))) := by
  unfold mk? at h
  split_ifs at h with hc
  simp only [Option.some.injEq] at h
  subst h
  refine ⟨fun d hd => ?_, rfl, rfl, rfl, rfl, rfl, rfl⟩
  have := List.all_eq_true.1 hc d (List.mem_range.2 hd)
  simpa using this

/-- **C06 (location).** For every mesh the constructor accepts and each point of the closed domain in
dimension `d`, `get_cell_in_dimension` succeeds with an in-range cell, `get_bounding_box` accepts this
cell, and the point lies in the cell's bounds; it lies strictly below the cell's upper bound
unless it is the upper end of the domain. -/
theorem cell_contains_point [FloorRing K] {ndim : ℕ} {origin extents : ℕ → K} {counts : ℕ → ℤ}
    {m : Mesh K} (hm : mk? ndim origin extents counts = some m) (d : ℕ) (hd : d < ndim) (p : K)
    (h0 : origin d ≤ p) (h1 : p ≤ origin d + extents d) :
    ∃ c lb ub, getCellInDimension m d p = some c ∧ 0 ≤ c ∧ c < counts d ∧
      cellBounds m d c = some (lb, ub) ∧ lb ≤ p ∧ p ≤ ub ∧ (p < origin d + extents d → p < ub) := by
  obtain ⟨hpos, e1, e2, e3, e4, e5, e6⟩ := mk?_pos hm
  obtain ⟨he, hc⟩ := hpos d hd
  have hcK : (0 : K) < (counts d : K) := by exact_mod_cast hc
  set w : K := extents d / (counts d : K) with hw
  have hwpos : 0 < w := div_pos he hcK
  have hext : extents d = (counts d : K) * w := by rw [hw]; field_simp
  set x : K := (p - origin d) * (1 / w) with hx
  have hx0 : 0 ≤ x := mul_nonneg (by linarith) (by positivity)
  have hpx : p = origin d + x * w := by rw [hx]; field_simp; ring
  have htol : (0 : K) < 1 / 10 ^ 8 := by positivity
  have hget : getCellInDimension m d p = some (clampCell (counts d) ⌊x⌋) := by
    unfold getCellInDimension
    rw [e2, e3, e1, e4, e6]
    rw [if_pos ⟨by linarith, by linarith, hd⟩]
    change some (clampCell (counts d) (truncZ x)) = _
    rw [truncZ_of_nonneg hx0]
  have hr := clampCell_range (counts d) ⌊x⌋ hc
  refine ⟨_, origin d + (clampCell (counts d) ⌊x⌋ : K) * w,
    origin d + ((clampCell (counts d) ⌊x⌋ + 1 : ℤ) : K) * w, hget, hr.1, hr.2, ?_, ?_⟩
  · unfold cellBounds
    rw [e4, if_pos ⟨hr.1, hr.2⟩, e2, e5]
  · have hxc : x ≤ (counts d : K) := by
      by_contra hcon; push Not at hcon
      have : origin d + (counts d : K) * w < origin d + x * w := by
        have := mul_lt_mul_of_pos_right hcon hwpos; linarith
      rw [← hpx] at this; linarith
    have hf0 : (0 : ℤ) ≤ ⌊x⌋ := Int.floor_nonneg.2 hx0
    rcases lt_or_ge ⌊x⌋ (counts d) with hlt | hge
    · rw [clampCell_of_mem _ _ hf0 hlt]
      have f1 := Int.floor_le x
      have f2 := Int.lt_floor_add_one x
      have g2 : p < origin d + ((⌊x⌋ + 1 : ℤ) : K) * w := by
        rw [hpx]; push_cast
        have := mul_lt_mul_of_pos_right f2 hwpos; linarith
      refine ⟨?_, g2.le, fun _ => g2⟩
      rw [hpx]
      have := mul_le_mul_of_nonneg_right f1 hwpos.le; linarith
    · have hcl : clampCell (counts d) ⌊x⌋ = counts d - 1 := by
        unfold clampCell; dsimp only; split_ifs <;> omega
      have hx' : x = (counts d : K) := by
        refine le_antisymm hxc ?_
        calc ((counts d : ℤ) : K) ≤ (⌊x⌋ : K) := by exact_mod_cast hge
          _ ≤ x := Int.floor_le x
      have hp : p = origin d + extents d := by rw [hpx, hx', hext]
      rw [hcl]
      refine ⟨?_, ?_, fun h => absurd hp h.ne⟩
      · rw [hp, hext]; push_cast; linarith
      · rw [hp, hext]; push_cast; linarith

/-- **C06 (every accepted point).** Whatever the point, if the assertions pass then the returned cell is
in range (so the derived linear index is in bounds). Points further than `1e-8` outside fail. -/
theorem cell_in_range [FloorRing K] {ndim : ℕ} {origin extents : ℕ → K} {counts : ℕ → ℤ}
    {m : Mesh K} (hm : mk? ndim origin extents counts = some m) (d : ℕ) (p : K) :
    (∀ c, getCellInDimension m d p = some c → 0 ≤ c ∧ c < counts d) ∧
    (getCellInDimension m d p = none ↔
      p < origin d - 1 / 10 ^ 8 ∨ origin d + extents d + 1 / 10 ^ 8 < p ∨ ndim ≤ d) := by
  obtain ⟨hpos, e1, e2, e3, e4, e5, e6⟩ := mk?_pos hm
  unfold getCellInDimension
  rw [e1, e2, e3, e4]
  constructor
  · intro c hc
    split_ifs at hc with h1
    simp only [Option.some.injEq] at hc
    subst hc
    exact clampCell_range _ _ (hpos d h1.2.2).2
  · split_ifs with h1
    · simp only [reduceCtorEq, false_iff]
      push Not; exact h1
    · simp only [true_iff]
      by_contra hcon
      push Not at hcon
      exact h1 hcon

/-- **C06 (tiling).** The cells of a dimension tile the domain: the first starts at the origin, the
last ends at `origin + extent`, neighbours share their face, and every cell has positive width. Hence
distinct cells have disjoint interiors. -/
theorem cells_tile {ndim : ℕ} {origin extents : ℕ → K} {counts : ℕ → ℤ}
    {m : Mesh K} (hm : mk? ndim origin extents counts = some m) (d : ℕ) (hd : d < ndim) :
    (∃ ub, cellBounds m d 0 = some (origin d, ub)) ∧
    (∃ lb, cellBounds m d (counts d - 1) = some (lb, origin d + extents d)) ∧
    (∀ c, 0 ≤ c → c + 1 < counts d → ∃ a b e, cellBounds m d c = some (a, b) ∧
      cellBounds m d (c + 1) = some (b, e)) ∧
    (∀ c a b, cellBounds m d c = some (a, b) → a < b) ∧
    (∀ c c' a b a' b', cellBounds m d c = some (a, b) → cellBounds m d c' = some (a', b') → c < c' →
      b ≤ a') := by
  obtain ⟨hpos, e1, e2, e3, e4, e5, e6⟩ := mk?_pos hm
  obtain ⟨he, hc⟩ := hpos d hd
  have hcK : (0 : K) < (counts d : K) := by exact_mod_cast hc
  set w : K := extents d / (counts d : K) with hw
  have hwpos : 0 < w := div_pos he hcK
  have hb : ∀ c, 0 ≤ c → c < counts d → cellBounds m d c =
      some (origin d + (c : K) * w, origin d + ((c + 1 : ℤ) : K) * w) := by
    intro c h0 h1
    unfold cellBounds
    rw [e4, if_pos ⟨h0, h1⟩, e2, e5]
  have hb' : ∀ c a b, cellBounds m d c = some (a, b) → 0 ≤ c ∧ c < counts d ∧
      a = origin d + (c : K) * w ∧ b = origin d + ((c + 1 : ℤ) : K) * w := by
    intro c a b h
    have h2 := h
    unfold cellBounds at h2
    rw [e4] at h2
    split_ifs at h2 with h3
    rw [hb c h3.1 h3.2] at h
    simp only [Option.some.injEq, Prod.mk.injEq] at h
    exact ⟨h3.1, h3.2, h.1.symm, h.2.symm⟩
  refine ⟨⟨origin d + w, by rw [hb 0 le_rfl hc]; simp⟩, ⟨origin d + ((counts d - 1 : ℤ) : K) * w, ?_⟩, ?_, ?_, ?_⟩
  · rw [hb _ (by omega) (by omega)]
    congr 2
    have : ((counts d - 1 + 1 : ℤ) : K) = (counts d : K) := by push_cast; ring
    rw [this, hw]; field_simp
  · intro c h0 h1
    exact ⟨_, _, _, hb c h0 (by omega), hb (c + 1) (by omega) h1⟩
  · intro c a b h
    obtain ⟨-, -, ha, hb⟩ := hb' c a b h
    rw [ha, hb]; push_cast; nlinarith
  · intro c c' a b a' b' h h' hlt
    obtain ⟨-, -, -, hb⟩ := hb' c a b h
    obtain ⟨-, -, ha', -⟩ := hb' c' a' b' h'
    rw [hb, ha']
    have : ((c + 1 : ℤ) : K) ≤ (c' : K) := by exact_mod_cast hlt
    have := mul_le_mul_of_nonneg_right this hwpos.le
    linarith

/-- Non-vacuity: a 4x5 mesh on `[-1,1]x[0,1]`; the point 1/2 is in cell 3 of dimension 0. -/
example : (mk? 2 (fun d => if d = 0 then -1 else 0) (fun d => if d = 0 then 2 else 1)
    (fun d => if d = 0 then 4 else 5) : Option (Mesh ℚ)).bind
      (fun m => getCellInDimension m 0 (1/2)) = some 3 := by
  have h : ((1 / 2 : ℚ) + 1) * 2 = 3 := by norm_num
  norm_num [mk?, List.range_succ, getCellInDimension, clampCell, truncZ]

end Verif.Props.C06
