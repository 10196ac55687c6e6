import Verif.Model.Launch
import Mathlib.Tactic.Ring
import Mathlib.Algebra.BigOperators.Group.List.Basic
import Mathlib.Data.List.Flatten
import Mathlib.Tactic.NormNum
import Mathlib.Tactic.Linarith

/-!
C103: kernel launches. Every particle is handled by exactly one work item, work items without a particle do nothing, and the work items of a group do not share
local memory, so that the interleaving has no effect.
-/

namespace Verif.Props.C103
open Verif.Model.Launch Verif.Model.FieldCoupling Verif.Model.ExpansionLooping

/-- **C103, sizes.** The global size is the smallest multiple of the local size which is not below the number of particles. -/
theorem global_size (N L : ℕ) (hL : 0 < L) : ∃ M, globalSize N L = some M ∧ N ≤ M ∧ L ∣ M ∧ ∀ M', N ≤ M' → L ∣ M' → M ≤ M' := by
  have hd := Nat.div_add_mod N L
  have hm := Nat.mod_lt N hL
  refine ⟨_, by rw [globalSize, if_neg (by omega)], ?_, ⟨_, Nat.mul_comm _ _⟩, ?_⟩
  · split_ifs with h
    · rw [h] at hd; rw [Nat.add_zero, Nat.mul_comm]; omega
    · rw [Nat.add_mul, Nat.one_mul, Nat.mul_comm]; omega
  · rintro M' hN ⟨k, rfl⟩
    rw [Nat.mul_comm]
    apply Nat.mul_le_mul_left
    by_contra hk
    push Not at hk
    split_ifs at hk with h
    · have : L * (k + 1) ≤ L * (N / L) := Nat.mul_le_mul_left _ (by omega)
      rw [Nat.mul_add, Nat.mul_one] at this
      omega
    · have : L * k ≤ L * (N / L) := Nat.mul_le_mul_left _ (by omega)
      omega

/-- A local size of zero is the only failure. -/
theorem global_size_fails (N L : ℕ) : globalSize N L = none ↔ L = 0 := by
  unfold globalSize
  split_ifs with h <;> simp [h]

/-- **C103, padding.** The padded length is the smallest multiple of the vector length which is not below the length. -/
theorem padding (L : ℕ) : L ≤ padToVectorLength L ∧ vectorLength ∣ padToVectorLength L ∧
    ∀ M, L ≤ M → vectorLength ∣ M → padToVectorLength L ≤ M := by
  unfold padToVectorLength vectorLength
  dsimp only
  split_ifs with h
  · exact ⟨le_rfl, Nat.dvd_of_mod_eq_zero h, fun M hM _ => hM⟩
  · refine ⟨by omega, by omega, fun M hM hd => by omega⟩

/-! ### Every particle once -/

theorem range_blocks (q L : ℕ) : ((List.range q).flatMap fun g => (List.range L).map fun l => g * L + l) = List.range (q * L) := by
  induction q with
  | zero => simp
  | succ q ih =>
    rw [List.range_succ, List.flatMap_append, ih, Nat.add_mul, Nat.one_mul, List.range_add]
    simp

theorem row_items {α : Type*} (f : ℕ → ℕ → Option α) {M L : ℕ} (hLM : L ∣ M) (hL : 0 < L) (r : ℕ) :
    (((List.range (M / L)).flatMap fun g => (List.range L).map fun l => (⟨r, g, l⟩ : Item)).filterMap fun w => f w.row (w.globalId L))
      = (List.range M).filterMap (f r) := by
  obtain ⟨q, rfl⟩ := hLM
  rw [Nat.mul_div_cancel_left q hL, Nat.mul_comm L q, ← range_blocks q L]
  rw [List.filterMap_flatMap, List.filterMap_flatMap]
  congr 1
  funext g
  rw [List.filterMap_map, List.filterMap_map]
  rfl

theorem filter_lt {α : Type*} (g : ℕ → α) {n M : ℕ} (h : n ≤ M) :
    ((List.range M).filterMap fun l => if l < n then some (g l) else none) = (List.range n).map g := by
  obtain ⟨k, rfl⟩ := Nat.exists_eq_add_of_le h
  rw [List.range_add, List.filterMap_append]
  have h1 : ((List.range n).filterMap fun l => if l < n then some (g l) else none) = (List.range n).map g := by
    rw [← List.filterMap_eq_map]
    apply List.filterMap_congr
    intro l hl
    rw [List.mem_range] at hl
    simp [hl]
  have h2 : (((List.range k).map (n + ·)).filterMap fun l => if l < n then some (g l) else none) = [] := by
    rw [List.filterMap_eq_nil_iff]
    intro l hl
    simp only [List.mem_map] at hl
    obtain ⟨j, _, rfl⟩ := hl
    rw [if_neg (by omega)]
  rw [h1, h2, List.append_nil]

/-- **C103, evaluation and projection.** The launch over the cells of a shape handles every particle of these cells exactly once, cell by cell, and no other,
for any local size of work groups. -/
theorem basis_launch (cells : List ℕ) (npart : ℕ → ℕ) (nrowMax L : ℕ) (hL : 0 < L) (hmax : ∀ c ∈ cells, npart c ≤ nrowMax) :
    basisLaunch cells npart nrowMax L = some (cells.flatMap fun c => (List.range (npart c)).map fun l => (c, l)) := by
  unfold basisLaunch
  split_ifs with h0
  · rw [List.length_eq_zero_iff] at h0
    rw [h0]; rfl
  obtain ⟨M, hM, hN, hd, _⟩ := global_size nrowMax L hL
  rw [hM, Option.map_some]
  congr 1
  unfold items
  rw [List.filterMap_flatMap]
  have hrow : ∀ r, (((List.range (M / L)).flatMap fun g => (List.range L).map fun l => (⟨r, g, l⟩ : Item)).filterMap fun w =>
      (cells[w.row]?).bind fun cellx => if w.globalId L < npart cellx then some (cellx, w.globalId L) else none)
      = ((cells[r]?).toList).flatMap fun c => (List.range (npart c)).map fun l => (c, l) := by
    intro r
    rw [row_items (fun r x => (cells[r]?).bind fun cellx => if x < npart cellx then some (cellx, x) else none) hd hL r]
    cases hc : cells[r]? with
    | none => simp
    | some c =>
      simp only [Option.bind_some, Option.toList_some, List.flatMap_cons, List.flatMap_nil, List.append_nil]
      exact filter_lt (fun x => (c, x)) (le_trans (hmax c (List.mem_of_getElem? hc)) hN)
  rw [show (fun r => ((List.range (M / L)).flatMap fun g => (List.range L).map fun l => (⟨r, g, l⟩ : Item)).filterMap fun w =>
      (cells[w.row]?).bind fun cellx => let layerx := w.globalId L; if layerx < npart cellx then some (cellx, layerx) else none)
      = fun r => ((cells[r]?).toList).flatMap fun c => (List.range (npart c)).map fun l => (c, l) from funext hrow]
  rw [← List.flatMap_assoc]
  congr 1
  apply List.ext_getElem?
  intro n
  have : (List.range cells.length).flatMap (fun r => (cells[r]?).toList) = cells := by
    have h : ∀ r ∈ List.range cells.length, (cells[r]?).toList = [cells.getD r 0] := by
      intro r hr
      rw [List.mem_range] at hr
      simp [List.getElem?_eq_getElem hr]
    rw [List.flatMap_congr h, ← List.map_eq_flatMap]
    apply List.ext_getElem
    · simp
    · intro k h1 h2; simp [h2]
  rw [this]

/-- The launches over all shapes handle exactly the work items with which C78 and C79 describe the projection and the evaluation of a particle group. -/
theorem launches_are_work_items (s : Base) (ndim : ℕ) (npart : ℕ → ℕ) (nrowMax L : ℕ) (hL : 0 < L) (hmax : ∀ c, npart c ≤ nrowMax) :
    (launchShapes ndim).mapM (fun sh => (basisLaunch (s.cells sh) npart nrowMax L).map fun l => l.map fun x => (sh, x.1, x.2))
      = some ((launchShapes ndim).map fun sh => (s.cells sh).flatMap fun c => (List.range (npart c)).map fun l => (sh, c, l)) ∧
    workItems s ndim (fun c => List.range (npart c))
      = ((launchShapes ndim).map fun sh => (s.cells sh).flatMap fun c => (List.range (npart c)).map fun l => (sh, c, l)).flatten := by
  refine ⟨?_, by rw [workItems, List.flatMap_def]⟩
  have : ∀ (l : List Verif.Model.BasisReference.Shape), l.mapM (fun sh => (basisLaunch (s.cells sh) npart nrowMax L).map fun l => l.map fun x => (sh, x.1, x.2))
      = some (l.map fun sh => (s.cells sh).flatMap fun c => (List.range (npart c)).map fun l => (sh, c, l)) := by
    intro l
    induction l with
    | nil => rfl
    | cons sh t ih =>
      rw [List.mapM_cons, basis_launch _ _ _ _ hL fun c _ => hmax c, ih]
      simp [List.map_flatMap, Function.comp_def]
  exact this _

/-- **C103, mapping.** `map` visits every particle of every cell once, or every particle of the requested cell once. -/
theorem regular_launch (mapCell : ℤ) (ncells : ℕ) (npart : ℕ → ℕ) (nrowMax L : ℕ) (hL : 0 < L) (hmax : ∀ c < ncells, npart c ≤ nrowMax) :
    regularLaunch mapCell ncells npart nrowMax L = some ((if 0 ≤ mapCell then [mapCell.toNat] else List.range ncells).flatMap fun c =>
      (List.range (npart c)).map fun l => (c, l)) := by
  unfold regularLaunch
  by_cases hc : mapCell > -1
  · simp only [if_pos hc, if_pos (show (0 : ℤ) ≤ mapCell by omega)]
    obtain ⟨M, hM, hN, hd, _⟩ := global_size (npart mapCell.toNat) L hL
    rw [hM, Option.map_some]
    congr 1
    unfold items
    rw [List.filterMap_flatMap]
    have hone : List.range 1 = [0] := rfl
    rw [hone]
    simp only [List.flatMap_cons, List.flatMap_nil, List.append_nil]
    rw [row_items (fun r x => if x < npart (r + mapCell.toNat) then some (r + mapCell.toNat, x) else none) hd hL 0]
    rw [Nat.zero_add]
    exact filter_lt (fun x => (mapCell.toNat, x)) hN
  · simp only [if_neg hc, if_neg (show ¬ (0 : ℤ) ≤ mapCell by omega)]
    obtain ⟨M, hM, hN, hd, _⟩ := global_size nrowMax L hL
    rw [hM, Option.map_some]
    congr 1
    unfold items
    rw [List.filterMap_flatMap]
    apply List.flatMap_congr
    intro r hr
    rw [List.mem_range] at hr
    rw [row_items (fun r x => if x < npart (r + 0) then some (r + 0, x) else none) hd hL r, Nat.add_zero]
    exact filter_lt (fun x => (r, x)) (le_trans (hmax r hr) hN)

example : basisLaunch [4, 2] (fun c => if c = 4 then 3 else 1) 3 2 = some [(4, 0), (4, 1), (4, 2), (2, 0)] := by decide

/-! ### Local memory -/

/-- **C103, local memory.** The parts of the local memory of different work items of a group are disjoint and lie in the memory allocated for the group. -/
theorem scratch_disjoint {stride L i j a : ℕ} (hi : i < L) (hj : j < L) (hij : i ≠ j)
    (ha : scratchStart stride i ≤ a ∧ a < scratchStart stride i + stride) :
    a < scratchSize stride L ∧ ¬ (scratchStart stride j ≤ a ∧ a < scratchStart stride j + stride) := by
  unfold scratchStart scratchSize at *
  constructor
  · have : (i + 1) * stride ≤ L * stride := Nat.mul_le_mul_right _ (by omega)
    rw [Nat.add_mul, Nat.one_mul] at this
    rw [Nat.mul_comm]
    omega
  · rintro ⟨h1, h2⟩
    rcases Nat.lt_or_gt_of_ne hij with h | h
    · have : (i + 1) * stride ≤ j * stride := Nat.mul_le_mul_right _ (by omega)
      rw [Nat.add_mul, Nat.one_mul] at this
      omega
    · have : (j + 1) * stride ≤ i * stride := Nat.mul_le_mul_right _ (by omega)
      rw [Nat.add_mul, Nat.one_mul] at this
      omega

/-- The regions of a work item of the evaluation in blocks do not overlap and fill its part of the memory. -/
theorem block_regions (ndim maxPhys nf : ℕ) :
    (blockRegions ndim maxPhys nf).Pairwise (fun x y => x.1 + x.2 ≤ y.1) ∧
    (∀ x ∈ blockRegions ndim maxPhys nf, x.1 + x.2 ≤ blockStride ndim maxPhys nf) ∧
    ((blockRegions ndim maxPhys nf).map (·.2)).sum = blockStride ndim maxPhys nf := by
  unfold blockRegions blockStride
  generalize blockSize = B
  refine ⟨?_, ?_, ?_⟩
  · rw [List.pairwise_cons]
    refine ⟨fun y hy => ?_, ?_⟩
    · simp only [List.mem_map, List.mem_range] at hy
      obtain ⟨d, _, rfl⟩ := hy
      dsimp only
      omega
    · rw [List.pairwise_map]
      refine List.Pairwise.imp (fun {a b} hab => ?_) List.pairwise_lt_range
      have : (a + 1) * (B * maxPhys) ≤ b * (B * maxPhys) := Nat.mul_le_mul_right _ (by omega)
      rw [Nat.add_mul, Nat.one_mul] at this
      dsimp only
      omega
  · intro x hx
    have e : (ndim * maxPhys + nf) * B = ndim * (B * maxPhys) + B * nf := by ring
    rw [e]
    simp only [List.mem_cons, List.mem_map, List.mem_range] at hx
    rcases hx with rfl | ⟨d, hd, rfl⟩
    · dsimp only; omega
    · have : (d + 1) * (B * maxPhys) ≤ ndim * (B * maxPhys) := Nat.mul_le_mul_right _ (by omega)
      rw [Nat.add_mul, Nat.one_mul] at this
      dsimp only
      omega
  · rw [List.map_cons, List.sum_cons, List.map_map]
    have : ((fun x : ℕ × ℕ => x.2) ∘ fun d => (B * nf + d * (B * maxPhys), B * maxPhys)) = fun _ => B * maxPhys := rfl
    rw [this, List.map_const', List.sum_replicate, List.length_range]
    simp only [nsmul_eq_mul, Nat.cast_id]
    ring

theorem step_other {R α : Type} {S : ℕ} (s : GroupState R α) (x : ℕ × Step R α S) {j : ℕ} (h : j ≠ x.1) :
    (s.step x).regs j = s.regs j ∧ (s.step x).slice S j = s.slice S j := by
  refine ⟨by simp [GroupState.step, h], ?_⟩
  funext k
  have hk := k.isLt
  simp only [GroupState.slice, GroupState.step]
  rw [dif_neg]
  rintro ⟨h1, h2⟩
  have := (scratch_disjoint (stride := S) (L := j + x.1 + 1) (i := j) (j := x.1) (a := scratchStart S j + k) (by omega) (by omega) h
    ⟨by omega, by omega⟩).2
  exact this ⟨h1, by omega⟩

theorem step_self {R α : Type} {S : ℕ} (s : GroupState R α) (x : ℕ × Step R α S) :
    ((s.step x).regs x.1, (s.step x).slice S x.1) = x.2 (s.regs x.1, s.slice S x.1) := by
  have h1 : (s.step x).regs x.1 = (x.2 (s.regs x.1, s.slice S x.1)).1 := by simp [GroupState.step]
  have h2 : (s.step x).slice S x.1 = (x.2 (s.regs x.1, s.slice S x.1)).2 := by
    funext k
    simp only [GroupState.slice, GroupState.step]
    rw [dif_pos ⟨by omega, by have := k.isLt; omega⟩]
    have e : ∀ (g : Fin S → α) (a : ℕ) (ha : a < S), a = k.1 → g ⟨a, ha⟩ = g k := by
      rintro g a ha rfl; rfl
    exact e _ _ _ (by omega)
  rw [h1, h2]

/-- **C103, interleavings.** Whatever the order in which the steps of the work items of a group are interleaved, each work item ends with the registers and the local
memory it would have if it ran alone: its own steps, in their order, on its own memory. -/
theorem interleaving_has_no_effect {R α : Type} {S : ℕ} (s : GroupState R α) (sched : List (ℕ × Step R α S)) (i : ℕ) :
    ((sched.foldl GroupState.step s).regs i, (sched.foldl GroupState.step s).slice S i)
      = ((sched.filter fun x => x.1 = i).map (·.2)).foldl (fun st f => f st) (s.regs i, s.slice S i) := by
  induction sched generalizing s with
  | nil => rfl
  | cons x t ih =>
    rw [List.foldl_cons, ih]
    by_cases h : x.1 = i
    · subst h
      rw [List.filter_cons_of_pos (by simp), List.map_cons, List.foldl_cons, step_self]
    · obtain ⟨a, b⟩ := step_other s x (Ne.symm h)
      rw [List.filter_cons_of_neg (by simpa using h), a, b]

/-- Two schedules of the same programs end in the same state for every work item. -/
theorem schedules_agree {R α : Type} {S : ℕ} (s : GroupState R α) (sched sched' : List (ℕ × Step R α S))
    (h : ∀ i, (sched.filter fun x => x.1 = i).map (·.2) = (sched'.filter fun x => x.1 = i).map (·.2)) (i : ℕ) :
    (sched.foldl GroupState.step s).regs i = (sched'.foldl GroupState.step s).regs i ∧
    (sched.foldl GroupState.step s).slice S i = (sched'.foldl GroupState.step s).slice S i := by
  have h1 := interleaving_has_no_effect s sched i
  have h2 := interleaving_has_no_effect s sched' i
  rw [h i, ← h2] at h1
  exact ⟨congrArg Prod.fst h1, congrArg Prod.snd h1⟩

/-- Two work items which store their number and read it back, interleaved. -/
example : ((([(0, fun st => (st.1, fun _ => 7)), (1, fun st => (st.1, fun _ => 8)), (0, fun st => (st.2 0, st.2)), (1, fun st => (st.2 0, st.2))] :
    List (ℕ × Step ℕ ℕ 1)).foldl GroupState.step ⟨fun _ => 0, fun _ => 0⟩).regs 0) = 7 := by decide

end Verif.Props.C103
