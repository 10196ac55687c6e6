import Verif.Props.C75_MeshHierarchy
import Mathlib.Analysis.Complex.ExponentialBounds
import Mathlib.Algebra.Order.Archimedean.Basic

/-! C76: the subdivision order of the mesh hierarchy built by `ParticleMeshInterface`. -/

namespace Verif.Props.C76
open Verif.Model.MeshConstruct Verif.Model.BoundingBox Verif.Model.Claims Verif.Model.MeshHierarchy Verif.Spec Verif.Props.C75

theorem log_arg_le {n : ℕ} (hn : 0 < n) {N M : ℤ} (hN : 0 < N) (hM : 0 < M) (k : ℤ) :
    (Real.log N - Real.log M) * (1 / (n : ℝ)) ≤ k ↔ (N : ℝ) ≤ M * Real.exp (n * k) := by
  have hn' : (0 : ℝ) < n := by exact_mod_cast hn
  have hN' : (0 : ℝ) < N := by exact_mod_cast hN
  have hM' : (0 : ℝ) < M := by exact_mod_cast hM
  rw [mul_one_div, div_le_iff₀ hn', ← Real.log_le_log_iff hN' (by positivity), Real.log_mul hM'.ne' (Real.exp_pos _).ne', Real.log_exp]
  constructor <;> intro h <;> linarith

/-- `matching_subdivision_order` is the least integer `k` such that `M e^(nk)` is at least the number of elements, for `M` coarse cells in `n` dimensions. -/
theorem matchingOrder_least {n : ℕ} (hn : 0 < n) {N M : ℤ} (hN : 0 < N) (hM : 0 < M) :
    IsLeast {k : ℤ | (N : ℝ) ≤ M * Real.exp (n * k)} (matchingOrder n N M) := by
  constructor
  · exact (log_arg_le hn hN hM _).mp (Int.le_ceil _)
  · intro k hk
    exact Int.ceil_le.mpr ((log_arg_le hn hN hM k).mpr hk)

/-- **C76 (offset).** The offset is added to the matching order, and the order is never negative. -/
theorem offset_added (n : ℕ) (N M offset : ℤ) : subdivisionOrder n N M offset = max 0 (matchingOrder n N M + offset) := rfl

/-- **C76 (order).** With the offset 0 the order is the least natural number `s` such that `M e^(ns)` is at least the number of elements. -/
theorem order_least {n : ℕ} (hn : 0 < n) {N M : ℤ} (hN : 0 < N) (hM : 0 < M) :
    IsLeast {s : ℤ | 0 ≤ s ∧ (N : ℝ) ≤ M * Real.exp (n * s)} (subdivisionOrder n N M 0) := by
  have h := matchingOrder_least hn hN hM
  have hM' : (0 : ℝ) < M := by exact_mod_cast hM
  unfold subdivisionOrder
  rw [add_zero]
  constructor
  · refine ⟨le_max_left _ _, h.1.trans ?_⟩
    have : ((matchingOrder n N M : ℤ) : ℝ) ≤ ((max 0 (matchingOrder n N M) : ℤ) : ℝ) := by exact_mod_cast le_max_right _ _
    gcongr
  · rintro s ⟨h0, hs⟩
    exact max_le h0 (h.2 hs)

/-- With more elements the order is not smaller. -/
theorem order_mono (n : ℕ) {N N' M offset : ℤ} (hN : 0 < N) (h : N ≤ N') : subdivisionOrder n N M offset ≤ subdivisionOrder n N' M offset := by
  have hN' : (0 : ℝ) < N := by exact_mod_cast hN
  have h' : (N : ℝ) ≤ N' := by exact_mod_cast h
  unfold subdivisionOrder matchingOrder
  gcongr

/-- A mesh with no more elements than coarse cells is not subdivided. -/
theorem no_subdivision {n : ℕ} (hn : 0 < n) {N M : ℤ} (hN : 0 < N) (h : N ≤ M) : subdivisionOrder n N M 0 = 0 := by
  have hl := order_least hn hN (lt_of_lt_of_le hN h)
  refine le_antisymm (hl.2 ⟨le_rfl, ?_⟩) hl.1.1
  have : (N : ℝ) ≤ M := by exact_mod_cast h
  simpa using this

/-- **C76 (not too fine).** With the offset 0 the number of fine cells is at most `2^n` times the number of elements or of coarse cells, whichever is larger. -/
theorem fine_cells_le {n : ℕ} (hn : 0 < n) {N M : ℤ} (hN : 0 < N) (hM : 0 < M) :
    M * (2 ^ (subdivisionOrder n N M 0).toNat) ^ n ≤ 2 ^ n * max N M := by
  have hl := order_least hn hN hM
  generalize subdivisionOrder n N M 0 = s at hl
  obtain ⟨⟨h0, _⟩, hmin⟩ := hl
  obtain ⟨k, rfl⟩ := Int.eq_ofNat_of_zero_le h0
  simp only [Int.ofNat_eq_natCast, Int.toNat_natCast]
  have hM' : (0 : ℝ) < M := by exact_mod_cast hM
  cases k with
  | zero =>
    have h1 : (1 : ℤ) ≤ 2 ^ n := one_le_pow₀ (by norm_num)
    have h2 : M ≤ max N M := le_max_right _ _
    simp only [pow_zero, one_pow, mul_one]
    nlinarith
  | succ k =>
    have hlt : M * Real.exp (n * k) < N := by
      by_contra hc
      have := hmin ⟨by positivity, (not_lt.mp hc : _)⟩ (a := (k : ℤ))
      push_cast at this
      omega
    have h2e : (2 : ℝ) ≤ Real.exp 1 := by linarith [Real.exp_one_gt_d9]
    have hp : ((2 : ℝ) ^ k) ^ n ≤ Real.exp (n * k) := by
      rw [← pow_mul, show (n : ℝ) * k = ((k * n : ℕ) : ℝ) * 1 by push_cast; ring, Real.exp_nat_mul]
      exact pow_le_pow_left₀ (by norm_num) h2e _
    have hfin : (M : ℝ) * (2 ^ k) ^ n ≤ N := by
      have := mul_le_mul_of_nonneg_left hp hM'.le
      linarith
    have hfin' : M * (2 ^ k) ^ n ≤ N := by exact_mod_cast hfin
    calc M * (2 ^ (k + 1)) ^ n = 2 ^ n * (M * (2 ^ k) ^ n) := by rw [pow_succ, mul_pow]; ring
      _ ≤ 2 ^ n * max N M := by
        have := hfin'.trans (le_max_left N M)
        gcongr

/-- The natural logarithm is used where the number of fine cells is a power of two: with one coarse cell and enough elements, there are fewer fine cells
than elements by any factor. -/
theorem order_too_small {n : ℕ} (hn : 0 < n) (C : ℕ) : ∃ N0 : ℕ, ∀ N : ℕ, N0 ≤ N → C * (2 ^ (subdivisionOrder n N 1 0).toNat) ^ n < N := by
  obtain ⟨N0, hN0⟩ := exists_nat_ge (Real.exp (4 * (C * 2 ^ n + 1)))
  have hN0' : 0 < N0 := by
    have := lt_of_lt_of_le (Real.exp_pos _) hN0
    exact_mod_cast this
  refine ⟨N0, fun N hN => ?_⟩
  have hNpos : 0 < N := by omega
  have hNr : (0 : ℝ) < N := by exact_mod_cast hNpos
  have hx : 4 * ((C : ℝ) * 2 ^ n + 1) ≤ Real.log N := by
    rw [Real.le_log_iff_exp_le hNr]
    exact hN0.trans (by exact_mod_cast hN)
  have hl := order_least hn (N := (N : ℤ)) (M := 1) (by exact_mod_cast hNpos) one_pos
  generalize subdivisionOrder n N 1 0 = s at hl
  obtain ⟨⟨h0, _⟩, hmin⟩ := hl
  obtain ⟨k, rfl⟩ := Int.eq_ofNat_of_zero_le h0
  simp only [Int.ofNat_eq_natCast, Int.toNat_natCast]
  have key : (C : ℝ) * 2 ^ n * Real.exp (7 / 10 * Real.log N) < N := by
    have h1 : (C : ℝ) * 2 ^ n < Real.exp (3 / 10 * Real.log N) := by
      have := Real.add_one_le_exp (3 / 10 * Real.log N)
      have hc : (0 : ℝ) ≤ C * 2 ^ n := by positivity
      linarith
    calc (C : ℝ) * 2 ^ n * Real.exp (7 / 10 * Real.log N) < Real.exp (3 / 10 * Real.log N) * Real.exp (7 / 10 * Real.log N) :=
          mul_lt_mul_of_pos_right h1 (Real.exp_pos _)
      _ = N := by rw [← Real.exp_add, show 3 / 10 * Real.log N + 7 / 10 * Real.log N = Real.log N by ring, Real.exp_log hNr]
  have hlog : 0 ≤ Real.log N := le_trans (by positivity) hx
  have pw : ((2 : ℝ) ^ k) ^ n ≤ 2 ^ n * Real.exp (7 / 10 * Real.log N) := by
    cases k with
    | zero =>
      have h1 : (1 : ℝ) ≤ 2 ^ n := one_le_pow₀ (by norm_num)
      have h2 : 1 ≤ Real.exp (7 / 10 * Real.log N) := Real.one_le_exp (by positivity)
      simp only [pow_zero, one_pow]
      nlinarith
    | succ k =>
      have hlt : Real.exp (n * k) < N := by
        by_contra hc
        have := hmin ⟨by positivity, (by simpa using not_lt.mp hc)⟩ (a := (k : ℤ))
        push_cast at this
        omega
      have hk : (n : ℝ) * k ≤ Real.log N := ((Real.lt_log_iff_exp_lt hNr).mpr hlt).le
      have h2 : ((2 : ℝ) ^ k) ^ n ≤ Real.exp (7 / 10 * Real.log N) := by
        rw [← pow_mul]
        have : (2 : ℝ) ^ (k * n) = Real.exp (((k * n : ℕ) : ℝ) * Real.log 2) := by
          rw [Real.exp_nat_mul, Real.exp_log (by norm_num)]
        rw [this]
        apply Real.exp_le_exp.mpr
        have l2 := Real.log_two_lt_d9
        have l0 : (0 : ℝ) ≤ n * k := by positivity
        push_cast
        nlinarith
      rw [pow_succ, mul_pow, mul_comm]
      gcongr
  have : (C : ℝ) * ((2 : ℝ) ^ k) ^ n < N := by
    calc (C : ℝ) * ((2 : ℝ) ^ k) ^ n ≤ C * (2 ^ n * Real.exp (7 / 10 * Real.log N)) := by gcongr
      _ = (C : ℝ) * 2 ^ n * Real.exp (7 / 10 * Real.log N) := by ring
      _ < N := key
  exact_mod_cast this

/-! ### On a mesh -/

/-- The unit square. -/
def unitBox : Box := fun i => if i = 3 then 1 else if i = 4 then 1 else 0

theorem cellCount_one (n : ℕ) (dims : ℕ → ℤ) (h : ∀ d < n, dims d = 1) : Verif.Model.CartesianMesh.cellCount n dims = 1 := by
  unfold Verif.Model.CartesianMesh.cellCount
  induction n with
  | zero => rfl
  | succ n ih => rw [List.range_succ, List.foldl_append, List.foldl_cons, List.foldl_nil, ih fun d hd => h d (by omega), h n (by omega)]; rfl

/-- **C76 (hierarchy).** The order of the hierarchy is computed from the number of elements of all ranks and its number of coarse cells, and each coarse cell has two to
the power of the order cells per dimension. -/
theorem hierarchy_order {big : ℝ} {ndim : ℕ} {offset : ℤ} {ranks : List (List Box)} {m : MHGeom ℝ} (h : construct big ndim offset ranks = some m) :
    m.ncf = 2 ^ (subdivisionOrder ndim ranks.flatten.length (Verif.Model.CartesianMesh.cellCount ndim m.dims) offset).toNat := by
  obtain ⟨_, g, _, _, rfl⟩ := construct_some h
  rfl

/-- With the offset 0 the number of fine cells of the hierarchy of a mesh is at most `2^ndim` times the number of its elements or of the coarse cells. -/
theorem hierarchy_not_too_fine {big : ℝ} (hbig : 0 < big) {ndim : ℕ} {ranks : List (List Box)} (hfin : Finite big ranks) {m : MHGeom ℝ}
    (h : construct big ndim 0 ranks = some m) :
    ncellsGlobal m.toMH ≤ 2 ^ ndim * max (ranks.flatten.length : ℤ) (Verif.Model.CartesianMesh.cellCount ndim m.dims) := by
  have hne := nonempty_of_some hbig h
  obtain ⟨hg, hd, _⟩ := hierarchy_covers hbig hfin h
  have hn : 0 < ndim := hd ▸ hg.1.1
  have hM : 0 < Verif.Model.CartesianMesh.cellCount ndim m.dims := by
    have : ∀ k ≤ ndim, 0 < Verif.Model.CartesianMesh.cellCount k m.dims := by
      intro k; induction k with
      | zero => intro _; exact one_pos
      | succ k ih =>
        intro hk
        have := ih (by omega)
        unfold Verif.Model.CartesianMesh.cellCount at this ⊢
        rw [List.range_succ, List.foldl_append, List.foldl_cons, List.foldl_nil]
        exact mul_pos this (hg.1.2.1 k (by omega))
    exact this ndim le_rfl
  have hN : 0 < (ranks.flatten.length : ℤ) := by exact_mod_cast List.length_pos_of_ne_nil hne
  have := fine_cells_le hn hN hM
  unfold ncellsGlobal
  rw [hierarchy_order h, hd]
  exact this

theorem unit_finite (N : ℕ) : Finite 100 [List.replicate N unitBox] := by
  intro b hb i hi
  simp only [List.flatten_cons, List.flatten_nil, List.append_nil] at hb
  rw [List.eq_of_mem_replicate hb]
  unfold unitBox
  constructor <;> split_ifs <;> norm_num

/-- **C76 (finding).** The constructor documents that an offset of 0 matches the order of the number of elements. It does not: for each factor `C` there is a mesh of the
unit square whose hierarchy has more than `C` times fewer fine cells than the mesh has elements. -/
theorem does_not_match (C : ℕ) : ∃ (ranks : List (List Box)) (m : MHGeom ℝ), construct 100 2 0 ranks = some m ∧ C * ncellsGlobal m.toMH < ranks.flatten.length := by
  obtain ⟨N0, h0⟩ := order_too_small (n := 2) (by norm_num) C
  have hmem : unitBox ∈ [List.replicate (N0 + 1) unitBox].flatten := by simp
  have hs : (construct 100 2 0 [List.replicate (N0 + 1) unitBox]).isSome := by
    rw [constructs_iff (by norm_num) (unit_finite _)]
    refine ⟨Or.inl rfl, fun d hd => ⟨_, hmem, _, hmem, ?_⟩⟩
    interval_cases d <;> norm_num [unitBox]
  obtain ⟨m, hm⟩ := Option.isSome_iff_exists.mp hs
  refine ⟨_, m, hm, ?_⟩
  have hext : ∀ d < 2, IsExtent [List.replicate (N0 + 1) unitBox] d 0 1 := by
    intro d hd
    refine ⟨⟨⟨_, hmem, ?_⟩, ?_⟩, ⟨⟨_, hmem, ?_⟩, ?_⟩⟩
    · interval_cases d <;> norm_num [unitBox]
    · rintro x ⟨b, hb, rfl⟩
      simp only [List.flatten_cons, List.flatten_nil, List.append_nil] at hb
      rw [List.eq_of_mem_replicate hb]
      interval_cases d <;> norm_num [unitBox]
    · interval_cases d <;> norm_num [unitBox]
    · rintro x ⟨b, hb, rfl⟩
      simp only [List.flatten_cons, List.flatten_nil, List.append_nil] at hb
      rw [List.eq_of_mem_replicate hb]
      interval_cases d <;> norm_num [unitBox]
  obtain ⟨_, _, _, _, _, _, hone⟩ := coarse_cells (by norm_num) (unit_finite _) hm (fun _ => 0) (fun _ => 1) hext
  have hdims := (hone (by norm_num)).2
  have hc := cellCount_one 2 m.dims hdims
  have hdim := (hierarchy_covers (by norm_num) (unit_finite _) hm).2.1
  have hncf := hierarchy_order hm
  rw [hc] at hncf
  unfold ncellsGlobal
  rw [hdim, hc, one_mul, hncf]
  have := h0 (N0 + 1) (by omega)
  simp only [List.flatten_cons, List.flatten_nil, List.append_nil, List.length_replicate]
  exact_mod_cast this

end Verif.Props.C76
