import Verif.Lemmas.BaryInterp
import Mathlib.Tactic.NormNum
import Mathlib.Data.Rat.Defs
import Mathlib.Tactic.IntervalCases

/-!
C15. Barycentric interpolation is polynomial interpolation.

`BaryRule`, `poly2`, `poly3` and `NodalValues` are in `Verif.Spec.Interp`. The scratch array is arbitrary and as large as the
documentation asks for.
-/

namespace Verif.Props.C15
open Verif.Spec Verif.Lemmas Verif.Model Verif.Model.Bary Verif.Model.JacobiCoeff

variable {K : Type*} [Field K] [DecidableEq K]

/-- The two calls of `preprocess_weights` of `evaluate_2d`. -/
theorem weights2 (x y : K) (n0 n1 : ℕ) (z0 z1 bw0 bw1 : List K) (stride off0 off1 : ℕ) (a : Arr K)
    (h0 : BaryRule n0 z0 bw0) (h1 : BaryRule n1 z1 bw1) (hs : 0 < stride) (hoff : off0 + n0 * stride ≤ off1)
    (ha : off1 + n1 * stride ≤ a.size) :
    ∃ a1 a2, preprocessWeights n0 x z0 bw0 off0 stride a = some a1 ∧
      preprocessWeights n1 y z1 bw1 off1 stride a1 = some a2 ∧ a2.size = a.size ∧
      HoldsW n0 a2 off0 stride (fun i => some ((lag n0 z0 i).eval x)) ∧
      HoldsW n1 a2 off1 stride (fun i => some ((lag n1 z1 i).eval y)) := by
  have b0 : ∀ i < n0, off0 + i * stride < off0 + n0 * stride := fun i hi =>
    Nat.add_lt_add_left (Nat.mul_lt_mul_of_pos_right hi hs) _
  have b1 : ∀ i < n1, off1 + i * stride < off1 + n1 * stride := fun i hi =>
    Nat.add_lt_add_left (Nat.mul_lt_mul_of_pos_right hi hs) _
  obtain ⟨a1, e1, f1, v1⟩ := preprocessWeights_eq n0 x z0 bw0 off0 stride a hs h0.z_length h0.bw_length h0.distinct
    (fun i hi => by have := b0 i hi; omega)
  obtain ⟨a2, e2, f2, v2⟩ := preprocessWeights_eq n1 y z1 bw1 off1 stride a1 hs h1.z_length h1.bw_length h1.distinct
    (fun i hi => by have := b1 i hi; rw [f1.1]; omega)
  refine ⟨a1, a2, e1, e2, f2.1.trans f1.1, fun i hi => ?_, fun i hi => ?_⟩
  · have := b0 i hi
    rw [read_ok _ _ (by rw [f2.1, f1.1]; omega), f2.2 _ (fun j _ => by dsimp only; omega), v1 i hi, wt_eq n0 z0 bw0 x h0 i hi]
  · have := b1 i hi
    rw [read_ok _ _ (by rw [f2.1, f1.1]; omega), v2 i hi, wt_eq n1 z1 bw1 y h1 i hi]

/-- The three calls of `preprocess_weights` of `evaluate_3d`. -/
theorem weights3 (x y t : K) (n0 n1 n2 : ℕ) (z0 z1 z2 bw0 bw1 bw2 : List K) (stride off0 off1 off2 : ℕ) (a : Arr K)
    (h0 : BaryRule n0 z0 bw0) (h1 : BaryRule n1 z1 bw1) (h2 : BaryRule n2 z2 bw2) (hs : 0 < stride)
    (hoff : off0 + n0 * stride ≤ off1) (hoff' : off1 + n1 * stride ≤ off2) (ha : off2 + n2 * stride ≤ a.size) :
    ∃ a1 a2 a3, preprocessWeights n0 x z0 bw0 off0 stride a = some a1 ∧
      preprocessWeights n1 y z1 bw1 off1 stride a1 = some a2 ∧
      preprocessWeights n2 t z2 bw2 off2 stride a2 = some a3 ∧ a3.size = a.size ∧
      HoldsW n0 a3 off0 stride (fun i => some ((lag n0 z0 i).eval x)) ∧
      HoldsW n1 a3 off1 stride (fun i => some ((lag n1 z1 i).eval y)) ∧
      HoldsW n2 a3 off2 stride (fun i => some ((lag n2 z2 i).eval t)) := by
  obtain ⟨a1, a2, e1, e2, s2, v0, v1⟩ := weights2 x y n0 n1 z0 z1 bw0 bw1 stride off0 off1 a h0 h1 hs hoff (by omega)
  have b0 : ∀ i < n0, off0 + i * stride < off0 + n0 * stride := fun i hi =>
    Nat.add_lt_add_left (Nat.mul_lt_mul_of_pos_right hi hs) _
  have b1 : ∀ i < n1, off1 + i * stride < off1 + n1 * stride := fun i hi =>
    Nat.add_lt_add_left (Nat.mul_lt_mul_of_pos_right hi hs) _
  have b2 : ∀ i < n2, off2 + i * stride < off2 + n2 * stride := fun i hi =>
    Nat.add_lt_add_left (Nat.mul_lt_mul_of_pos_right hi hs) _
  obtain ⟨a3, e3, f3, v3⟩ := preprocessWeights_eq n2 t z2 bw2 off2 stride a2 hs h2.z_length h2.bw_length h2.distinct
    (fun i hi => by have := b2 i hi; omega)
  refine ⟨a1, a2, a3, e1, e2, e3, f3.1.trans s2, fun i hi => ?_, fun i hi => ?_, fun i hi => ?_⟩
  · have := b0 i hi
    have h' := v0 i hi
    rw [read_ok _ _ (by omega)] at h'
    rw [read_ok _ _ (by rw [f3.1]; omega), f3.2 _ (fun j _ => by dsimp only; omega)]; exact h'
  · have := b1 i hi
    have h' := v1 i hi
    rw [read_ok _ _ (by omega)] at h'
    rw [read_ok _ _ (by rw [f3.1]; omega), f3.2 _ (fun j _ => by dsimp only; omega)]; exact h'
  · have := b2 i hi
    rw [read_ok _ _ (by rw [f3.1]; omega), v3 i hi, wt_eq n2 z2 bw2 t h2 i hi]

theorem getD_of_some {l : List K} {i : ℕ} {v : K} (h : l[i]? = some v) : l.getD i 0 = v := by
  rw [List.getD_eq_getElem?_getD, h]; rfl

/-- `evaluate_2d` reproduces every polynomial of degree below the number of nodes in each variable, at every point. No access is
outside of its array and the result is finite. -/
theorem evaluate_2d_exact (x y : K) (n0 n1 : ℕ) (z0 z1 bw0 bw1 physvals : List K) (stride : ℕ) (divSpace : Arr K)
    (h0 : BaryRule n0 z0 bw0) (h1 : BaryRule n1 z1 bw1) (hs : 0 < stride)
    (hd : n0 * stride + n1 * stride ≤ divSpace.size) (c : ℕ → ℕ → K)
    (hp : NodalValues2 n0 n1 z0 z1 physvals (poly2 n0 n1 c)) :
    evaluate2d x y n0 n1 physvals divSpace z0 z1 bw0 bw1 stride = some (some (poly2 n0 n1 c x y)) := by
  obtain ⟨a1, a2, e1, e2, -, v0, v1⟩ := weights2 x y n0 n1 z0 z1 bw0 bw1 stride 0 (n0 * stride) divSpace h0 h1 hs (by omega) hd
  unfold evaluate2d
  dsimp only
  rw [e1, Option.bind_some, e2, Option.bind_some, computeDir10_eq n0 n1 physvals a2 0 (n0 * stride) stride _ _ v0 v1 hp.1.ge,
    ← tensor2_exact n0 n1 z0 z1 h0.distinct h1.distinct c x y]
  refine congrArg some (dsum_rows2 n1 (fun _ => n0) _ _ fun i1 hi1 i0 hi0 => ?_)
  rw [term2, Dbl.mul_some, Dbl.mul_some, Nat.mul_one, Nat.add_zero, getD_of_some (hp.2 i1 hi1 i0 hi0)]

theorem evaluate_3d_exact (x y t : K) (n0 n1 n2 : ℕ) (z0 z1 z2 bw0 bw1 bw2 physvals : List K) (stride : ℕ)
    (divSpace : Arr K) (h0 : BaryRule n0 z0 bw0) (h1 : BaryRule n1 z1 bw1) (h2 : BaryRule n2 z2 bw2) (hs : 0 < stride)
    (hd : n0 * stride + n1 * stride + n2 * stride ≤ divSpace.size) (c : ℕ → ℕ → ℕ → K)
    (hp : NodalValues3 n0 n1 n2 z0 z1 z2 physvals (poly3 n0 n1 n2 c)) :
    evaluate3d x y t n0 n1 n2 physvals divSpace z0 z1 z2 bw0 bw1 bw2 stride = some (some (poly3 n0 n1 n2 c x y t)) := by
  obtain ⟨a1, a2, a3, e1, e2, e3, -, v0, v1, v2⟩ := weights3 x y t n0 n1 n2 z0 z1 z2 bw0 bw1 bw2 stride 0 (n0 * stride)
    (n0 * stride + n1 * stride) divSpace h0 h1 h2 hs (by omega) (by omega) hd
  unfold evaluate3d
  dsimp only
  rw [e1, Option.bind_some, e2, Option.bind_some, e3, Option.bind_some,
    computeDir210_eq n0 n1 n2 physvals a3 0 (n0 * stride) (n0 * stride + n1 * stride) stride _ _ _ v0 v1 v2 hp.1.ge,
    ← tensor3_exact n0 n1 n2 z0 z1 z2 h0.distinct h1.distinct h2.distinct c x y t]
  refine congrArg some (dsum_rows3 n2 (fun _ => n1) (fun _ _ => n0) _ _ fun i2 hi2 i1 hi1 i0 hi0 => ?_)
  rw [term3, Dbl.mul_some, Dbl.mul_some, Dbl.mul_some, Nat.mul_one, Nat.add_zero, getD_of_some (hp.2 i2 hi2 i1 hi1 i0 hi0)]
  congr 1; ring

/-- Any nodal values have an interpolating polynomial of degree below the number of nodes in each variable and `evaluate_2d` is
its value at every point; it is unique as a function since every interpolating polynomial has these values. -/
theorem evaluate_2d_is_interpolant (n0 n1 : ℕ) (z0 z1 bw0 bw1 physvals : List K) (stride : ℕ) (divSpace : Arr K)
    (h0 : BaryRule n0 z0 bw0) (h1 : BaryRule n1 z1 bw1) (hs : 0 < stride)
    (hd : n0 * stride + n1 * stride ≤ divSpace.size) (hp : physvals.length = n0 * n1) :
    ∃ c, NodalValues2 n0 n1 z0 z1 physvals (poly2 n0 n1 c) ∧
      (∀ x y, evaluate2d x y n0 n1 physvals divSpace z0 z1 bw0 bw1 stride = some (some (poly2 n0 n1 c x y))) ∧
      ∀ c', NodalValues2 n0 n1 z0 z1 physvals (poly2 n0 n1 c') → ∀ x y, poly2 n0 n1 c' x y = poly2 n0 n1 c x y := by
  obtain ⟨c, hc⟩ := interpolant2 n0 n1 z0 z1 h0.distinct h1.distinct (fun i1 i0 => physvals.getD (i1 * n0 + i0) 0)
  have hn : NodalValues2 n0 n1 z0 z1 physvals (poly2 n0 n1 c) := by
    refine ⟨hp, fun i1 hi1 i0 hi0 => ?_⟩
    have := idx2_lt hi0 hi1
    rw [hc i1 hi1 i0 hi0, List.getElem?_eq_getElem (by omega), List.getD_eq_getElem _ _ (by omega)]
  refine ⟨c, hn, fun x y => evaluate_2d_exact x y n0 n1 z0 z1 bw0 bw1 physvals stride divSpace h0 h1 hs hd c hn,
    fun c' hc' x y => ?_⟩
  have e1 := evaluate_2d_exact x y n0 n1 z0 z1 bw0 bw1 physvals stride divSpace h0 h1 hs hd c hn
  have e2 := evaluate_2d_exact x y n0 n1 z0 z1 bw0 bw1 physvals stride divSpace h0 h1 hs hd c' hc'
  rw [e1] at e2
  exact (Option.some.inj (Option.some.inj e2)).symm

theorem evaluate_3d_is_interpolant (n0 n1 n2 : ℕ) (z0 z1 z2 bw0 bw1 bw2 physvals : List K) (stride : ℕ) (divSpace : Arr K)
    (h0 : BaryRule n0 z0 bw0) (h1 : BaryRule n1 z1 bw1) (h2 : BaryRule n2 z2 bw2) (hs : 0 < stride)
    (hd : n0 * stride + n1 * stride + n2 * stride ≤ divSpace.size) (hp : physvals.length = n0 * n1 * n2) :
    ∃ c, NodalValues3 n0 n1 n2 z0 z1 z2 physvals (poly3 n0 n1 n2 c) ∧
      (∀ x y t, evaluate3d x y t n0 n1 n2 physvals divSpace z0 z1 z2 bw0 bw1 bw2 stride =
        some (some (poly3 n0 n1 n2 c x y t))) ∧
      ∀ c', NodalValues3 n0 n1 n2 z0 z1 z2 physvals (poly3 n0 n1 n2 c') →
        ∀ x y t, poly3 n0 n1 n2 c' x y t = poly3 n0 n1 n2 c x y t := by
  obtain ⟨c, hc⟩ := interpolant3 n0 n1 n2 z0 z1 z2 h0.distinct h1.distinct h2.distinct
    (fun i2 i1 i0 => physvals.getD (i2 * (n0 * n1) + i1 * n0 + i0) 0)
  have hn : NodalValues3 n0 n1 n2 z0 z1 z2 physvals (poly3 n0 n1 n2 c) := by
    refine ⟨hp, fun i2 hi2 i1 hi1 i0 hi0 => ?_⟩
    have := idx3_lt hi0 hi1 hi2
    rw [hc i2 hi2 i1 hi1 i0 hi0, List.getElem?_eq_getElem (by omega), List.getD_eq_getElem _ _ (by omega)]
  have ex := fun c hn x y t => evaluate_3d_exact x y t n0 n1 n2 z0 z1 z2 bw0 bw1 bw2 physvals stride divSpace h0 h1 h2 hs hd c hn
  refine ⟨c, hn, ex c hn, fun c' hc' x y t => ?_⟩
  have e1 := ex c hn x y t
  rw [ex c' hc' x y t] at e1
  exact Option.some.inj (Option.some.inj e1)

/-- At a node the nodal value is returned. -/
theorem evaluate_2d_at_node (n0 n1 : ℕ) (z0 z1 bw0 bw1 physvals : List K) (stride : ℕ) (divSpace : Arr K)
    (h0 : BaryRule n0 z0 bw0) (h1 : BaryRule n1 z1 bw1) (hs : 0 < stride)
    (hd : n0 * stride + n1 * stride ≤ divSpace.size) (hp : physvals.length = n0 * n1) (i0 i1 : ℕ) (hi0 : i0 < n0)
    (hi1 : i1 < n1) :
    evaluate2d (z0.getD i0 0) (z1.getD i1 0) n0 n1 physvals divSpace z0 z1 bw0 bw1 stride =
      (physvals[i1 * n0 + i0]?).map some := by
  obtain ⟨c, hn, he, _⟩ := evaluate_2d_is_interpolant n0 n1 z0 z1 bw0 bw1 physvals stride divSpace h0 h1 hs hd hp
  rw [he, hn.2 i1 hi1 i0 hi0]; rfl

theorem evaluate_3d_at_node (n0 n1 n2 : ℕ) (z0 z1 z2 bw0 bw1 bw2 physvals : List K) (stride : ℕ) (divSpace : Arr K)
    (h0 : BaryRule n0 z0 bw0) (h1 : BaryRule n1 z1 bw1) (h2 : BaryRule n2 z2 bw2) (hs : 0 < stride)
    (hd : n0 * stride + n1 * stride + n2 * stride ≤ divSpace.size) (hp : physvals.length = n0 * n1 * n2) (i0 i1 i2 : ℕ)
    (hi0 : i0 < n0) (hi1 : i1 < n1) (hi2 : i2 < n2) :
    evaluate3d (z0.getD i0 0) (z1.getD i1 0) (z2.getD i2 0) n0 n1 n2 physvals divSpace z0 z1 z2 bw0 bw1 bw2 stride =
      (physvals[i2 * (n0 * n1) + i1 * n0 + i0]?).map some := by
  obtain ⟨c, hn, he, _⟩ := evaluate_3d_is_interpolant n0 n1 n2 z0 z1 z2 bw0 bw1 bw2 physvals stride divSpace h0 h1 h2 hs hd hp
  rw [he, hn.2 i2 hi2 i1 hi1 i0 hi0]; rfl

/-- The weights written by `preprocess_weights` are finite and sum to one. -/
theorem weights_sum_to_one (n : ℕ) (x : K) (z bw : List K) (off stride : ℕ) (a : Arr K) (h : BaryRule n z bw)
    (hs : 0 < stride) (ha : off + n * stride ≤ a.size) :
    ∃ (a' : Arr K) (w : ℕ → K), preprocessWeights n x z bw off stride a = some a' ∧ (∀ i < n, a'.val (off + i * stride) = some (w i)) ∧
      ∑ i ∈ Finset.range n, w i = 1 := by
  have b0 : ∀ i < n, off + i * stride < off + n * stride := fun i hi =>
    Nat.add_lt_add_left (Nat.mul_lt_mul_of_pos_right hi hs) _
  obtain ⟨a1, e1, f1, v1⟩ := preprocessWeights_eq n x z bw off stride a hs h.z_length h.bw_length h.distinct
    (fun i hi => by have := b0 i hi; omega)
  refine ⟨a1, fun i => (lag n z i).eval x, e1, fun i hi => by rw [v1 i hi, wt_eq n z bw x h i hi], ?_⟩
  have := lag_pow n z h.distinct 0 h.pos x
  simpa using this

/-- Interpolation in one dimension: `preprocess_weights` then `compute_dir_0`. -/
theorem dir_0_exact (n : ℕ) (x : K) (z bw physvals : List K) (off stride : ℕ) (a : Arr K) (h : BaryRule n z bw)
    (hs : 0 < stride) (ha : off + n * stride ≤ a.size) (c : ℕ → K) (hp : physvals.length = n)
    (hv : ∀ i < n, physvals[i]? = some (∑ k ∈ Finset.range n, c k * (z.getD i 0) ^ k)) :
    ((preprocessWeights n x z bw off stride a).bind fun d => computeDir0 n physvals d off stride) =
      some (some (∑ k ∈ Finset.range n, c k * x ^ k)) := by
  have b0 : ∀ i < n, off + i * stride < off + n * stride := fun i hi =>
    Nat.add_lt_add_left (Nat.mul_lt_mul_of_pos_right hi hs) _
  obtain ⟨a1, e1, f1, v1⟩ := preprocessWeights_eq n x z bw off stride a hs h.z_length h.bw_length h.distinct
    (fun i hi => by have := b0 i hi; omega)
  rw [e1, Option.bind_some]
  unfold computeDir0
  have hsum : ∑ k ∈ Finset.range n, c k * x ^ k =
      ∑ i ∈ Finset.range n, (lag n z i).eval x * physvals.getD i 0 := by
    symm
    have : ∀ i ∈ Finset.range n, (lag n z i).eval x * physvals.getD i 0 =
        ∑ k ∈ Finset.range n, (lag n z i).eval x * (c k * z.getD i 0 ^ k) := fun i hi => by
      rw [getD_of_some (hv i (Finset.mem_range.mp hi)), Finset.mul_sum]
    rw [Finset.sum_congr rfl this, Finset.sum_comm]
    refine Finset.sum_congr rfl fun k hk => ?_
    rw [← lag_pow n z h.distinct k (Finset.mem_range.mp hk) x, Finset.mul_sum]
    exact Finset.sum_congr rfl fun i _ => by ring
  rw [hsum]
  refine forLoop_eq n _ (fun j => some (∑ i ∈ Finset.range j, (lag n z i).eval x * physvals.getD i 0)) _ (by simp) fun i hi => ?_
  have := b0 i hi
  rw [read_getD physvals _ (by omega), read_ok _ _ (by rw [f1.1]; omega), v1 i hi, wt_eq n z bw x h i hi, Finset.sum_range_succ]
  simp only [Option.bind_some, Dbl.mul_some, Dbl.add_some]

/-- Nodes `-1, 0, 1` with their weights. -/
theorem rule_example : BaryRule (K := ℚ) 3 [-1, 0, 1] [1, -2, 1] where
  pos := by norm_num
  z_length := by simp
  bw_length := by simp
  distinct := by
    intro i hi j hj
    interval_cases i <;> interval_cases j <;> simp <;> norm_num
  weights := by
    refine ⟨2, by norm_num, fun i hi => ?_⟩
    interval_cases i
    · rw [show (Finset.range 3).erase 0 = {1, 2} from by decide]; norm_num
    · rw [show (Finset.range 3).erase 1 = {0, 2} from by decide]; norm_num
    · rw [show (Finset.range 3).erase 2 = {0, 1} from by decide]; norm_num

/-- The hypotheses are met: 3 by 3 nodes, any values. -/
example (p : List ℚ) (hp : p.length = 3 * 3) (x y : ℚ) :
    ∃ c, evaluate2d x y 3 3 p ⟨6, fun _ => none⟩ [-1, 0, 1] [-1, 0, 1] [1, -2, 1] [1, -2, 1] 1 = some (some (poly2 3 3 c x y)) := by
  obtain ⟨c, _, h, _⟩ := evaluate_2d_is_interpolant 3 3 [-1, 0, 1] [-1, 0, 1] [1, -2, 1] [1, -2, 1] p 1
    ⟨6, fun _ => none⟩ rule_example rule_example (by norm_num) (by norm_num) hp
  exact ⟨c, h x y⟩

end Verif.Props.C15
