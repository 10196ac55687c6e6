import Verif.Model.MeshHierarchy
import Verif.Props.C06_CartesianMesh

namespace Verif.Lemmas
open Verif.Model.CartesianMesh Verif.Model.MeshHierarchy Verif.Props.C06

theorem mixedRadix_succ' (counts t : ℕ → ℤ) (n : ℕ) :
    mixedRadix counts t (n + 1) = t 0 + counts 0 * mixedRadix (fun e => counts (e + 1)) (fun e => t (e + 1)) n := by
  unfold mixedRadix
  rw [Finset.sum_range_succ', Finset.mul_sum, add_comm]
  congr 1
  · simp
  · refine Finset.sum_congr rfl fun d _ => ?_
    rw [Finset.prod_range_succ']
    ring

theorem digits_mixedRadix (counts t : ℕ → ℤ) (n : ℕ) (ht : ∀ d < n, 0 ≤ t d ∧ t d < counts d) :
    ∀ d < n, digits counts (mixedRadix counts t n) d = t d := by
  induction n generalizing counts t with
  | zero => intro d hd; omega
  | succ n ih =>
    intro d hd
    have h0 := ht 0 (by omega)
    rw [mixedRadix_succ']
    cases d with
    | zero =>
      rw [digits, Int.add_mul_emod_self_left, Int.emod_eq_of_lt h0.1 h0.2]
    | succ d =>
      rw [digits, Int.add_mul_ediv_left _ _ (by omega), Int.ediv_eq_zero_of_lt h0.1 h0.2, zero_add]
      exact ih _ _ (fun e he => ht (e + 1) (by omega)) d (by omega)

theorem digits_linear (counts t : ℕ → ℤ) (n : ℕ) (hn : 0 < n) (ht : ∀ d < n, 0 ≤ t d ∧ t d < counts d) :
    ∀ d < n, digits counts (linearIndex n counts t) d = t d := by
  rw [linearIndex_eq _ _ _ hn]; exact digits_mixedRadix counts t n ht

theorem linear_digits (counts : ℕ → ℤ) (n : ℕ) (hn : 0 < n) (hc : ∀ d < n, 0 < counts d) (i : ℤ) (h0 : 0 ≤ i)
    (h1 : i < cellCount n counts) :
    (∀ d < n, 0 ≤ digits counts i d ∧ digits counts i d < counts d) ∧ linearIndex n counts (digits counts i) = i := by
  obtain ⟨t, ht, rfl⟩ := (linear_index_bijective n hn counts hc).2.2 i h0 h1
  have hd := digits_linear counts t n hn ht
  refine ⟨fun d hdn => by rw [hd d hdn]; exact ht d hdn, ?_⟩
  have hcg : ∀ (s : ℕ → ℤ), (∀ d < n, s d = t d) → linearIndex n counts s = linearIndex n counts t := by
    intro s hs
    rw [linearIndex_eq _ _ _ hn, linearIndex_eq _ _ _ hn]
    unfold mixedRadix
    exact Finset.sum_congr rfl fun d hdn => by rw [hs d (Finset.mem_range.mp hdn)]
  exact hcg _ hd

theorem linearIndex_congr {n : ℕ} (hn : 0 < n) {counts s t : ℕ → ℤ} (h : ∀ d < n, s d = t d) :
    linearIndex n counts s = linearIndex n counts t := by
  rw [linearIndex_eq _ _ _ hn, linearIndex_eq _ _ _ hn]
  unfold mixedRadix
  exact Finset.sum_congr rfl fun d hdn => by rw [h d (Finset.mem_range.mp hdn)]

theorem cellCount_const (n : ℕ) (c : ℤ) : cellCount n (fun _ => c) = c ^ n := by
  rw [cellCount_eq]; simp

/-- A mesh hierarchy has at least one dimension and at least one cell. -/
structure MHOk (m : MH) : Prop where
  hn : 0 < m.ndim
  hd : ∀ d < m.ndim, 0 < m.dims d
  hf : 0 < m.ncf

/-- A tuple (coarse, fine) in range. -/
def TupleOk (m : MH) (t : ℕ → ℤ) : Prop :=
  ∀ d < m.ndim, (0 ≤ t d ∧ t d < m.dims d) ∧ (0 ≤ t (d + m.ndim) ∧ t (d + m.ndim) < m.ncf)

variable {m : MH}

theorem tupleToLinear_range (hm : MHOk m) {t : ℕ → ℤ} (ht : TupleOk m t) :
    0 ≤ tupleToLinearGlobal m t ∧ tupleToLinearGlobal m t < ncellsGlobal m := by
  have h1 := (linear_index_bijective m.ndim hm.hn m.dims hm.hd).1 t fun d hd => (ht d hd).1
  have h2 := (linear_index_bijective m.ndim hm.hn (fun _ => m.ncf) fun _ _ => hm.hf).1 (fun d => t (d + m.ndim)) fun d hd => (ht d hd).2
  rw [cellCount_const] at h2
  unfold tupleToLinearGlobal ncellsGlobal
  have hp : 0 < m.ncf ^ m.ndim := pow_pos hm.hf _
  constructor
  · nlinarith [mul_nonneg h1.1 hp.le]
  · nlinarith

theorem linearToTuple_tupleToLinear (hm : MHOk m) {t : ℕ → ℤ} (ht : TupleOk m t) :
    ∀ d < m.ndim + m.ndim, linearToTupleGlobal m (tupleToLinearGlobal m t) d = t d := by
  have h2 := (linear_index_bijective m.ndim hm.hn (fun _ => m.ncf) fun _ _ => hm.hf).1 (fun d => t (d + m.ndim)) fun d hd => (ht d hd).2
  rw [cellCount_const] at h2
  have hp : 0 < m.ncf ^ m.ndim := pow_pos hm.hf _
  intro d hd
  unfold linearToTupleGlobal tupleToLinearGlobal
  by_cases h : d < m.ndim
  · rw [if_pos h, add_comm, Int.add_mul_ediv_right _ _ hp.ne', Int.ediv_eq_zero_of_lt h2.1 h2.2, zero_add]
    exact digits_linear _ _ _ hm.hn (fun d hd => (ht d hd).1) d h
  · rw [if_neg h, add_comm, Int.add_mul_emod_self_right, Int.emod_eq_of_lt h2.1 h2.2]
    rw [digits_linear _ _ _ hm.hn (fun d hd => (ht d hd).2) (d - m.ndim) (by omega)]
    congr 1; omega

theorem tupleToLinear_linearToTuple (hm : MHOk m) {i : ℤ} (h0 : 0 ≤ i) (h1 : i < ncellsGlobal m) :
    TupleOk m (linearToTupleGlobal m i) ∧ tupleToLinearGlobal m (linearToTupleGlobal m i) = i := by
  have hp : 0 < m.ncf ^ m.ndim := pow_pos hm.hf _
  have hq0 : 0 ≤ i / m.ncf ^ m.ndim := Int.ediv_nonneg h0 hp.le
  have hq1 : i / m.ncf ^ m.ndim < cellCount m.ndim m.dims := Int.ediv_lt_of_lt_mul hp h1
  obtain ⟨c1, c2⟩ := linear_digits m.dims m.ndim hm.hn hm.hd _ hq0 hq1
  obtain ⟨f1, f2⟩ := linear_digits (fun _ => m.ncf) m.ndim hm.hn (fun _ _ => hm.hf) (i % m.ncf ^ m.ndim) (Int.emod_nonneg _ hp.ne')
    (by rw [cellCount_const]; exact Int.emod_lt_of_pos _ hp)
  constructor
  · intro d hd
    unfold linearToTupleGlobal
    rw [if_pos hd, if_neg (by omega)]
    refine ⟨c1 d hd, ?_⟩
    rw [Nat.add_sub_cancel]
    exact f1 d hd
  · unfold tupleToLinearGlobal
    rw [linearIndex_congr hm.hn (t := digits m.dims (i / m.ncf ^ m.ndim)) fun d hd => by unfold linearToTupleGlobal; rw [if_pos hd], c2]
    rw [linearIndex_congr hm.hn (t := digits (fun _ => m.ncf) (i % m.ncf ^ m.ndim)) fun d hd => by
      unfold linearToTupleGlobal; rw [if_neg (by omega), Nat.add_sub_cancel], f2]
    rw [mul_comm]
    exact Int.mul_ediv_add_emod i _

theorem tupleToLinear_congr (hm : MHOk m) {s t : ℕ → ℤ} (h : ∀ d < m.ndim + m.ndim, s d = t d) :
    tupleToLinearGlobal m s = tupleToLinearGlobal m t := by
  unfold tupleToLinearGlobal
  rw [linearIndex_congr hm.hn fun d hd => h d (by omega)]
  congr 1
  exact linearIndex_congr hm.hn fun d hd => h (d + m.ndim) (by omega)

end Verif.Lemmas
