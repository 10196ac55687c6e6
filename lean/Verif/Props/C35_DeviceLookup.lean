import Verif.Props.C34_CoarseLookup

/-! C35: the grid cell of a position computed in the kernels. -/

namespace Verif.Props.C35
open Verif.Model Verif.Model.CartesianMesh Verif.Model.CoarseLookup Verif.Props.C06 Verif.Props.C34

variable {K : Type*} [Field K] [LinearOrder K] [IsStrictOrderedRing K] [FloorRing K]

/-- The scaled position fits in the 32 bit integer of the kernel. -/
def Fits (m : Mesh K) (d : ℕ) (p : K) : Prop :=
  -2147483648 ≤ truncZ (m.inverseCellWidths d * (p - m.origin d)) ∧ truncZ (m.inverseCellWidths d * (p - m.origin d)) ≤ 2147483647

omit [IsStrictOrderedRing K] in
theorem kernelCell_fits (m : Mesh K) (d : ℕ) (p : K) (h : Fits m d p) :
    kernelCell m d p = some (clampCell (m.cellCounts d) (truncZ (m.inverseCellWidths d * (p - m.origin d)))) := by
  unfold Fits at h
  unfold kernelCell toInt
  rw [if_pos h]
  rfl

omit [IsStrictOrderedRing K] in
theorem kernelCell_none (m : Mesh K) (d : ℕ) (p : K) (h : ¬ Fits m d p) : kernelCell m d p = none := by
  unfold Fits at h
  unfold kernelCell toInt
  rw [if_neg h]
  rfl

/-- The index of the kernels is the index of the host for the clamped cells. -/
theorem kernelLinear_fits {ndim : ℕ} {origin extents : ℕ → K} {counts : ℕ → ℤ} {m : Mesh K} (hm : mk? ndim origin extents counts = some m)
    (hn : 0 < ndim) (h3 : ndim ≤ 3) (p : ℕ → K) (hf : ∀ d < ndim, Fits m d (p d)) :
    kernelLinear m p = some (linearIndex ndim counts fun d => clampCell (counts d) (truncZ (m.inverseCellWidths d * (p d - m.origin d)))) := by
  obtain ⟨_, e1, e2, e3, e4, e5, e6⟩ := mk?_pos hm
  unfold kernelLinear
  rw [kernelCell_fits m 0 _ (hf 0 hn), e1, e4]
  obtain rfl | rfl | rfl : ndim = 1 ∨ ndim = 2 ∨ ndim = 3 := by omega
  · simp [linearIndex]
  · rw [if_pos (by norm_num), kernelCell_fits m 1 _ (hf 1 (by norm_num)), e4]
    simp [linearIndex]
    ring
  · rw [if_pos (by norm_num), if_pos (by norm_num), kernelCell_fits m 1 _ (hf 1 (by norm_num)), kernelCell_fits m 2 _ (hf 2 (by norm_num)), e4]
    simp [linearIndex, List.range_succ]
    ring

/-- **C35 (partial).** For any mesh and any position, in or out of the mesh, whose scaled coordinates fit in the integers of the kernel, the
index is that of a cell of the grid, and it is the index that the host uses for the cells it finds for that position. Missing: positions so far
from the mesh that the conversion overflows, see `far_position_undefined`. -/
theorem device_index_partial {ndim : ℕ} {origin extents : ℕ → K} {counts : ℕ → ℤ} {m : Mesh K} (hm : mk? ndim origin extents counts = some m)
    (hn : 0 < ndim) (h3 : ndim ≤ 3) (p : ℕ → K) (hf : ∀ d < ndim, Fits m d (p d)) :
    ∃ c, kernelLinear m p = some c ∧ 0 ≤ c ∧ c < cellCount ndim counts ∧
      ∀ t : ℕ → ℤ, (∀ d < ndim, getCellInDimension m d (p d) = some (t d)) → c = linearIndex ndim counts t := by
  obtain ⟨hpos, e1, e2, e3, e4, e5, e6⟩ := mk?_pos hm
  have bij := linear_index_bijective ndim hn counts fun d hd => (hpos d hd).2
  refine ⟨_, kernelLinear_fits hm hn h3 p hf, ?_⟩
  have := bij.1 (fun d => clampCell (counts d) (truncZ (m.inverseCellWidths d * (p d - m.origin d)))) fun d hd => clampCell_range _ _ (hpos d hd).2
  refine ⟨this.1, this.2, fun t ht => Lemmas.linearIndex_congr hn fun d hd => ?_⟩
  have h := ht d hd
  unfold getCellInDimension at h
  split_ifs at h
  simp only [Option.some.injEq] at h
  rw [← h, mul_comm, e4]

/-- Positions in the mesh fit if the grid has fewer than 2^31 cells in each dimension. -/
theorem inside_fits {ndim : ℕ} {origin extents : ℕ → K} {counts : ℕ → ℤ} {m : Mesh K} (hm : mk? ndim origin extents counts = some m)
    (p : ℕ → K) (hin : ∀ d < ndim, origin d ≤ p d ∧ p d ≤ origin d + extents d) (hc : ∀ d < ndim, counts d ≤ 2147483647) :
    ∀ d < ndim, Fits m d (p d) := by
  intro d hd
  obtain ⟨hpos, e1, e2, e3, e4, e5, e6⟩ := mk?_pos hm
  obtain ⟨he, hcp⟩ := hpos d hd
  obtain ⟨h1, h2⟩ := hin d hd
  have hcK : (0 : K) < (counts d : K) := by exact_mod_cast hcp
  have hx : m.inverseCellWidths d * (p d - m.origin d) = (p d - origin d) * (counts d : K) / extents d := by
    rw [e6, e2]
    field_simp
  have h0 : 0 ≤ (p d - origin d) * (counts d : K) / extents d := div_nonneg (mul_nonneg (by linarith) hcK.le) he.le
  have hle : (p d - origin d) * (counts d : K) / extents d ≤ (counts d : K) := by
    rw [div_le_iff₀ he]
    nlinarith
  unfold Fits
  rw [hx]
  unfold truncZ
  rw [if_pos h0]
  have f0 : 0 ≤ ⌊(p d - origin d) * (counts d : K) / extents d⌋ := Int.floor_nonneg.2 h0
  have f1 : ⌊(p d - origin d) * (counts d : K) / extents d⌋ ≤ counts d := by
    have := Int.floor_le_floor hle
    simpa using this
  have := hc d hd
  omega

/-- **C35 with C34.** For a position in the mesh of the lookup the kernel reads exactly the candidates of the cell that contains the position. -/
theorem device_reads_host_cell {ndim : ℕ} {origin extents : ℕ → K} {counts : ℕ → ℤ} {m : Mesh K} (hm : mk? ndim origin extents counts = some m)
    (hn : 0 < ndim) (h3 : ndim ≤ 3) (p : ℕ → K) (hin : ∀ d < ndim, origin d ≤ p d ∧ p d ≤ origin d + extents d) (hc : ∀ d < ndim, counts d ≤ 2147483647) :
    ∃ t : ℕ → ℤ, InMesh m t ∧ kernelLinear m p = some (linearIndex ndim counts t) ∧ ∀ d < ndim, gridBox m t d ≤ p d ∧ p d ≤ gridBox m t (d + 3) := by
  obtain ⟨hpos, e1, e2, e3, e4, e5, e6⟩ := mk?_pos hm
  obtain ⟨c, h1, h2, h4, h5⟩ := device_index_partial hm hn h3 p (inside_fits hm p hin hc)
  have hex : ∀ d, ∃ t : ℤ, d < ndim → getCellInDimension m d (p d) = some t ∧ 0 ≤ t ∧ t < counts d ∧
      ∃ lb ub, cellBounds m d t = some (lb, ub) ∧ lb ≤ p d ∧ p d ≤ ub := by
    intro d
    by_cases hd : d < ndim
    · obtain ⟨t, lb, ub, q1, q2, q3, q4, q5, q6, _⟩ := cell_contains_point hm d hd (p d) (hin d hd).1 (hin d hd).2
      exact ⟨t, fun _ => ⟨q1, q2, q3, lb, ub, q4, q5, q6⟩⟩
    · exact ⟨0, fun h => absurd h hd⟩
  choose t ht using hex
  have hM : InMesh m t := fun d hd => by
    rw [e4]
    rw [e1] at hd
    exact ⟨(ht d hd).2.1, (ht d hd).2.2.1⟩
  refine ⟨t, hM, by rw [h1, h5 t fun d hd => (ht d hd).1], fun d hd => ?_⟩
  obtain ⟨_, _, _, lb, ub, q1, q2, q3⟩ := ht d hd
  rw [bounds_grid m (by omega) t hM d (by omega), Option.some.injEq, Prod.mk.injEq] at q1
  rw [q1.1, q1.2]
  exact ⟨q2, q3⟩

/-- A grid of 4 × 5 cells. -/
def exMesh : Option (Mesh ℚ) := mk? 2 (fun _ => 0) (fun d => if d = 0 then 2 else 1) (fun d => if d = 0 then 4 else 5)

/-- A position in the grid, and positions out of it, which are clamped. -/
example : (exMesh.bind fun m => kernelLinear m fun d => if d = 0 then 3 / 4 else 9 / 10) = some 17 ∧
    (exMesh.bind fun m => kernelLinear m fun d => if d = 0 then -7 else 100) = some 16 := by decide +kernel

/-- **C35, finding.** The claim for all finite positions is false: for a position far from the mesh the conversion to `int` overflows, which is
undefined behaviour. -/
theorem far_position_undefined : ∃ m : Mesh ℚ, mk? 2 (fun _ => 0) (fun d => if d = 0 then 2 else 1) (fun d => if d = 0 then 4 else 5) = some m ∧
    kernelLinear m (fun d => if d = 0 then 2000000000 else 0) = none := by
  refine ⟨_, rfl, ?_⟩
  decide +kernel

end Verif.Props.C35
