import Verif.Lemmas.MeshHierarchy
import Verif.Spec.Cells

/-! C25: fine cell tuples and mesh hierarchy tuples correspond one to one. -/

namespace Verif.Props.C25
open Verif.Model.CartesianMesh Verif.Model.MeshHierarchy Verif.Lemmas Verif.Spec

theorem Grid.ok {m : MH} (h : Grid m) : MHOk m := ⟨h.1, h.2.1, h.2.2⟩

/-- The coarse part is a coarse cell, the fine part is a cell of it, and together they give the index back. -/
theorem split_exact (m : MH) (hm : Grid m) (c : ℕ → ℤ) (hc : InGrid m c) (d : ℕ) (hd : d < m.ndim) :
    (0 ≤ meshTupleToMhTuple m c d ∧ meshTupleToMhTuple m c d < m.dims d) ∧
    (0 ≤ meshTupleToMhTuple m c (d + m.ndim) ∧ meshTupleToMhTuple m c (d + m.ndim) < m.ncf) ∧
    meshTupleToMhTuple m c d * m.ncf + meshTupleToMhTuple m c (d + m.ndim) = c d := by
  have hf := hm.2.2
  obtain ⟨h0, h1⟩ := hc d hd
  unfold meshTupleToMhTuple
  rw [if_pos hd, if_neg (by omega), Nat.add_sub_cancel, Int.tdiv_eq_ediv_of_nonneg h0, Int.tmod_eq_emod_of_nonneg h0]
  refine ⟨⟨Int.ediv_nonneg h0 hf.le, Int.ediv_lt_of_lt_mul hf h1⟩, ⟨Int.emod_nonneg _ hf.ne', Int.emod_lt_of_pos _ hf⟩, ?_⟩
  rw [mul_comm]; exact Int.mul_ediv_add_emod _ _

theorem tupleOk (m : MH) (hm : Grid m) (c : ℕ → ℤ) (hc : InGrid m c) : TupleOk m (meshTupleToMhTuple m c) :=
  fun d hd => ⟨(split_exact m hm c hc d hd).1, (split_exact m hm c hc d hd).2.1⟩

/-- The pair of parts determines the cell. -/
theorem split_injective (m : MH) (hm : Grid m) (c c' : ℕ → ℤ) (hc : InGrid m c) (hc' : InGrid m c')
    (h : ∀ d < m.ndim + m.ndim, meshTupleToMhTuple m c d = meshTupleToMhTuple m c' d) : ∀ d < m.ndim, c d = c' d := by
  intro d hd
  rw [← (split_exact m hm c hc d hd).2.2, ← (split_exact m hm c' hc' d hd).2.2, h d (by omega), h (d + m.ndim) (by omega)]

/-- Each pair of parts in range is hit. -/
theorem split_surjective (m : MH) (hm : Grid m) (t : ℕ → ℤ)
    (ht : ∀ d < m.ndim, (0 ≤ t d ∧ t d < m.dims d) ∧ 0 ≤ t (d + m.ndim) ∧ t (d + m.ndim) < m.ncf) :
    ∃ c, InGrid m c ∧ ∀ d < m.ndim + m.ndim, meshTupleToMhTuple m c d = t d := by
  have hf := hm.2.2
  refine ⟨fun d => t d * m.ncf + t (d + m.ndim), ?_, ?_⟩
  · intro d hd
    obtain ⟨⟨a, b⟩, e, f⟩ := ht d hd
    exact ⟨by positivity, by nlinarith⟩
  · intro d hd
    unfold meshTupleToMhTuple
    dsimp only
    by_cases h : d < m.ndim
    · obtain ⟨⟨a, b⟩, e, f⟩ := ht d h
      rw [if_pos h, Int.tdiv_eq_ediv_of_nonneg (by positivity), add_comm, Int.add_mul_ediv_right _ _ hf.ne', Int.ediv_eq_zero_of_lt e f,
        zero_add]
    · obtain ⟨⟨a, b⟩, e, f⟩ := ht (d - m.ndim) (by omega)
      rw [show d - m.ndim + m.ndim = d by omega] at e f
      rw [if_neg h, show d - m.ndim + m.ndim = d by omega, Int.tmod_eq_emod_of_nonneg (by positivity), add_comm,
        Int.add_mul_emod_self_right, Int.emod_eq_of_lt e f]

/-- The global cell index of a cell: in range, different for different cells, and each index belongs to a cell. -/
theorem cell_index_bijective (m : MH) (hm : Grid m) :
    (∀ c, InGrid m c → HasLinearIndex m c (tupleToLinearGlobal m (meshTupleToMhTuple m c)) ∧
      0 ≤ tupleToLinearGlobal m (meshTupleToMhTuple m c) ∧ tupleToLinearGlobal m (meshTupleToMhTuple m c) < ncellsGlobal m) ∧
    (∀ c c', InGrid m c → InGrid m c' → tupleToLinearGlobal m (meshTupleToMhTuple m c) = tupleToLinearGlobal m (meshTupleToMhTuple m c') →
      ∀ d < m.ndim, c d = c' d) ∧
    (∀ i, 0 ≤ i → i < ncellsGlobal m → ∃ c, InGrid m c ∧ tupleToLinearGlobal m (meshTupleToMhTuple m c) = i) := by
  have ok := Grid.ok hm
  refine ⟨fun c hc => ⟨⟨_, fun d hd => ?_, rfl⟩, tupleToLinear_range ok (tupleOk m hm c hc)⟩, fun c c' hc hc' h => ?_, fun i h0 h1 => ?_⟩
  · exact ⟨(split_exact m hm c hc d hd).2.2.symm, (split_exact m hm c hc d hd).2.1⟩
  · refine split_injective m hm c c' hc hc' fun d hd => ?_
    rw [← linearToTuple_tupleToLinear ok (tupleOk m hm c hc) d hd, h, linearToTuple_tupleToLinear ok (tupleOk m hm c' hc') d hd]
  · obtain ⟨hT, hi⟩ := tupleToLinear_linearToTuple ok h0 h1
    obtain ⟨c, hc, hct⟩ := split_surjective m hm _ hT
    exact ⟨c, hc, by rw [tupleToLinear_congr ok hct, hi]⟩

/-- A 3 by 2 grid of coarse cells, each divided into 4 by 4: cell (9, 5). -/
example : meshTupleToMhTuple ⟨2, fun d => if d = 0 then 3 else 2, 4⟩ (fun d => if d = 0 then 9 else 5) 0 = 2 ∧
    meshTupleToMhTuple ⟨2, fun d => if d = 0 then 3 else 2, 4⟩ (fun d => if d = 0 then 9 else 5) 3 = 1 := by decide
example : Grid ⟨2, fun d => if d = 0 then 3 else 2, 4⟩ ∧ InGrid ⟨2, fun d => if d = 0 then 3 else 2, 4⟩ (fun d => if d = 0 then 9 else 5) := by
  refine ⟨⟨by decide, fun d _ => ?_, by decide⟩, fun d hd => ?_⟩
  · dsimp only; split_ifs <;> omega
  · dsimp only at *; split_ifs <;> omega

end Verif.Props.C25
