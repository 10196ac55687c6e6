import Verif.Spec.Interp
import Verif.Lemmas.BaryCompute
import Mathlib.Tactic.NormNum
import Mathlib.Data.Rat.Defs
import Mathlib.Tactic.IntervalCases

/-!
C16. Blocked and interlaced Bary evaluation equals the scalar evaluation.

The results are compared as doubles: also where a value is not finite, and for any contents of the weight arrays. `IsComponent N f` (in
`Verif.Spec.Interp`) relates interlaced values to the values of function `f`.
-/

namespace Verif.Props.C16
open Verif.Spec Verif.Lemmas Verif.Model Verif.Model.Bary Verif.Model.JacobiCoeff

variable {K : Type*} [Field K] [DecidableEq K]

theorem rows2_congr {α : Type*} (n : ℕ) (m : ℕ → ℕ) (e g : ℕ → ℕ → α) (h : ∀ i < n, ∀ j < m i, e i j = g i j) :
    rows2 n 0 m e = rows2 n 0 m g := by
  rw [rows2_zero, rows2_zero]
  exact List.flatMap_congr fun i hi =>
    List.map_congr_left fun j hj => h i (List.mem_range.mp hi) j (List.mem_range.mp hj)

theorem rows3_congr {α : Type*} (n : ℕ) (m : ℕ → ℕ) (k : ℕ → ℕ → ℕ) (e g : ℕ → ℕ → ℕ → α)
    (h : ∀ i < n, ∀ j < m i, ∀ l < k i j, e i j l = g i j l) : rows3 n 0 0 m k e = rows3 n 0 0 m k g := by
  simp only [rows3, rows2_nil, List.append_nil]
  exact List.flatMap_congr fun i hi => List.flatMap_congr fun j hj =>
    List.map_congr_left fun l hl => h i (List.mem_range.mp hi) j (List.mem_range.mp hj) l (List.mem_range.mp hl)

theorem component2 {n0 n1 N f : ℕ} {p pf : List K} (h : IsComponent N f (n0 * n1) p pf) (w0 w1 : ℕ → Dbl K) :
    rows2 n1 0 (fun _ => n0) (term2 n0 p N f w0 w1) = rows2 n1 0 (fun _ => n0) (term2 n0 pf 1 0 w0 w1) := by
  refine rows2_congr _ _ _ _ fun i1 hi1 i0 hi0 => ?_
  rw [term2, term2, List.getD_eq_getElem?_getD, List.getD_eq_getElem?_getD, Nat.mul_one, Nat.add_zero,
    h.2 _ (idx2_lt hi0 hi1)]

theorem component3 {n0 n1 n2 N f : ℕ} {p pf : List K} (h : IsComponent N f (n0 * n1 * n2) p pf) (w0 w1 w2 : ℕ → Dbl K) :
    rows3 n2 0 0 (fun _ => n1) (fun _ _ => n0) (term3 n0 n1 p N f w0 w1 w2) =
      rows3 n2 0 0 (fun _ => n1) (fun _ _ => n0) (term3 n0 n1 pf 1 0 w0 w1 w2) := by
  refine rows3_congr _ _ _ _ _ fun i2 hi2 i1 hi1 i0 hi0 => ?_
  rw [term3, term3, List.getD_eq_getElem?_getD, List.getD_eq_getElem?_getD, Nat.mul_one, Nat.add_zero,
    h.2 _ (idx3_lt hi0 hi1 hi2)]

theorem holds_self {n : ℕ} {d : Arr K} {off stride : ℕ} (h : ∀ i < n, off + i * stride < d.size) :
    HoldsW n d off stride (fun i => d.val (off + i * stride)) := fun i hi => read_ok _ _ (h i hi)

/-- Each lane of `preprocess_weights_block` holds the weights `preprocess_weights` gives for the lane's coordinate. -/
theorem block_weights_equal_scalar (N n : ℕ) (coord z bw : List K) (a : Arr K) (hc : N ≤ coord.length)
    (hz : n ≤ z.length) (hbw : n ≤ bw.length) (hd : ∀ i < n, ∀ j < n, z.getD i 0 = z.getD j 0 → i = j)
    (hs : n * N ≤ a.size) :
    ∃ a', preprocessWeightsBlock N n coord z bw a = some a' ∧ ∀ b < N, ∀ s : Arr K, n ≤ s.size →
      ∃ s', preprocessWeights n (coord.getD b 0) z bw 0 1 s = some s' ∧ ∀ i < n, a'.val (i * N + b) = s'.val i := by
  obtain ⟨a', e, _, _, v⟩ := preprocessWeightsBlock_eq N n coord z bw a hc hz hbw hs
  refine ⟨a', e, fun b hb s hss => ?_⟩
  obtain ⟨s', e', _, v'⟩ := preprocessWeights_eq n (coord.getD b 0) z bw 0 1 s (by omega) hz hbw hd (by intros; omega)
  refine ⟨s', e', fun i hi => ?_⟩
  have := v' i hi
  rw [Nat.zero_add, Nat.mul_one] at this
  rw [v i hi b hb, this]

/-- `compute_dir_10_interlaced<N>`: entry `f` of the output is `compute_dir_10` of function `f`; only these entries are written. -/
theorem interlaced_template_2d_equals_scalar (N n0 n1 : ℕ) (p : List K) (d : Arr K) (off0 off1 stride : ℕ) (output : Arr K)
    (h0 : ∀ i < n0, off0 + i * stride < d.size) (h1 : ∀ i < n1, off1 + i * stride < d.size)
    (hp : N * (n0 * n1) ≤ p.length) (ho : N ≤ output.size) :
    ∃ o, computeDir10InterlacedT N n0 n1 p d off0 off1 stride output = some o ∧
      (∀ f < N, ∀ pf, IsComponent N f (n0 * n1) p pf →
        computeDir10 n0 n1 pf d off0 off1 stride = some (o.val f)) ∧
      ∀ x, N ≤ x → o.val x = output.val x := by
  obtain ⟨o, e, fr, v⟩ := computeDir10InterlacedT_eq N n0 n1 p d off0 off1 stride _ _ output (holds_self h0) (holds_self h1) hp ho
  refine ⟨o, e, fun f hf pf hpf => ?_, fun x hx => fr.2 x fun i hi => by simp only [id]; omega⟩
  rw [computeDir10_eq n0 n1 pf d off0 off1 stride _ _ (holds_self h0) (holds_self h1) hpf.1.ge, v f hf, component2 hpf]

/-- `compute_dir_10_interlaced` with a run-time number of functions. -/
theorem interlaced_2d_equals_scalar (nf n0 n1 : ℕ) (p : List K) (d : Arr K) (off0 off1 stride : ℕ) (output : Arr K)
    (so : ℕ) (hso : 0 < so)
    (h0 : ∀ i < n0, off0 + i * stride < d.size) (h1 : ∀ i < n1, off1 + i * stride < d.size)
    (hp : nf * (n0 * n1) ≤ p.length) (ho : ∀ f < nf, f * so < output.size) :
    ∃ o, computeDir10Interlaced nf n0 n1 p d off0 off1 stride output so = some o ∧
      (∀ f < nf, ∀ pf, IsComponent nf f (n0 * n1) p pf →
        computeDir10 n0 n1 pf d off0 off1 stride = some (o.val (f * so))) ∧
      ∀ x, (∀ f < nf, x ≠ f * so) → o.val x = output.val x := by
  obtain ⟨o, e, fr, v⟩ := computeDir10Interlaced_eq nf n0 n1 p d off0 off1 stride _ _ output so hso (holds_self h0)
    (holds_self h1) hp ho
  refine ⟨o, e, fun f hf pf hpf => ?_, fr.2⟩
  rw [computeDir10_eq n0 n1 pf d off0 off1 stride _ _ (holds_self h0) (holds_self h1) hpf.1.ge, v f hf, component2 hpf]

/-- `compute_dir_210_interlaced<N>`. -/
theorem interlaced_template_3d_equals_scalar (N n0 n1 n2 : ℕ) (p : List K) (d : Arr K) (off0 off1 off2 stride : ℕ)
    (output : Arr K)
    (h0 : ∀ i < n0, off0 + i * stride < d.size) (h1 : ∀ i < n1, off1 + i * stride < d.size)
    (h2 : ∀ i < n2, off2 + i * stride < d.size)
    (hp : N * (n0 * n1 * n2) ≤ p.length) (ho : N ≤ output.size) :
    ∃ o, computeDir210InterlacedT N n0 n1 n2 p d off0 off1 off2 stride output = some o ∧
      (∀ f < N, ∀ pf, IsComponent N f (n0 * n1 * n2) p pf →
        computeDir210 n0 n1 n2 pf d off0 off1 off2 stride = some (o.val f)) ∧
      ∀ x, N ≤ x → o.val x = output.val x := by
  obtain ⟨o, e, fr, v⟩ := computeDir210InterlacedT_eq N n0 n1 n2 p d off0 off1 off2 stride _ _ _ output (holds_self h0)
    (holds_self h1) (holds_self h2) hp ho
  refine ⟨o, e, fun f hf pf hpf => ?_, fun x hx => fr.2 x fun i hi => by simp only [id]; omega⟩
  rw [computeDir210_eq n0 n1 n2 pf d off0 off1 off2 stride _ _ _ (holds_self h0) (holds_self h1) (holds_self h2) hpf.1.ge,
    v f hf, component3 hpf]

/-- `compute_dir_210_interlaced` with a run-time number of functions. -/
theorem interlaced_3d_equals_scalar (nf n0 n1 n2 : ℕ) (p : List K) (d : Arr K) (off0 off1 off2 stride : ℕ)
    (output : Arr K) (so : ℕ) (hso : 0 < so)
    (h0 : ∀ i < n0, off0 + i * stride < d.size) (h1 : ∀ i < n1, off1 + i * stride < d.size)
    (h2 : ∀ i < n2, off2 + i * stride < d.size)
    (hp : nf * (n0 * n1 * n2) ≤ p.length) (ho : ∀ f < nf, f * so < output.size) :
    ∃ o, computeDir210Interlaced nf n0 n1 n2 p d off0 off1 off2 stride output so = some o ∧
      (∀ f < nf, ∀ pf, IsComponent nf f (n0 * n1 * n2) p pf →
        computeDir210 n0 n1 n2 pf d off0 off1 off2 stride = some (o.val (f * so))) ∧
      ∀ x, (∀ f < nf, x ≠ f * so) → o.val x = output.val x := by
  obtain ⟨o, e, fr, v⟩ := computeDir210Interlaced_eq nf n0 n1 n2 p d off0 off1 off2 stride _ _ _ output so hso (holds_self h0)
    (holds_self h1) (holds_self h2) hp ho
  refine ⟨o, e, fun f hf pf hpf => ?_, fr.2⟩
  rw [computeDir210_eq n0 n1 n2 pf d off0 off1 off2 stride _ _ _ (holds_self h0) (holds_self h1) (holds_self h2) hpf.1.ge,
    v f hf, component3 hpf]

theorem evaluate3d_eq (x y t : K) (n0 n1 n2 : ℕ) (p : List K) (a : Arr K) (z0 z1 z2 bw0 bw1 bw2 : List K) (stride : ℕ)
    (hs : 0 < stride) (hz0 : n0 ≤ z0.length) (hb0 : n0 ≤ bw0.length) (hd0 : Distinct n0 z0)
    (hz1 : n1 ≤ z1.length) (hb1 : n1 ≤ bw1.length) (hd1 : Distinct n1 z1)
    (hz2 : n2 ≤ z2.length) (hb2 : n2 ≤ bw2.length) (hd2 : Distinct n2 z2)
    (ha : n0 * stride + n1 * stride + n2 * stride ≤ a.size) (hp : n0 * n1 * n2 ≤ p.length) :
    evaluate3d x y t n0 n1 n2 p a z0 z1 z2 bw0 bw1 bw2 stride =
      some (dsum (rows3 n2 0 0 (fun _ => n1) (fun _ _ => n0)
        (term3 n0 n1 p 1 0 (wt n0 z0 bw0 x) (wt n1 z1 bw1 y) (wt n2 z2 bw2 t)))) := by
  have b : ∀ {n i : ℕ}, i < n → i * stride < n * stride := fun h => Nat.mul_lt_mul_of_pos_right h hs
  obtain ⟨a1, e1, f1, v1⟩ := preprocessWeights_eq n0 x z0 bw0 0 stride a hs hz0 hb0 hd0 (fun i hi => by have := b hi; omega)
  obtain ⟨a2, e2, f2, v2⟩ := preprocessWeights_eq n1 y z1 bw1 (n0 * stride) stride a1 hs hz1 hb1 hd1
    (fun i hi => by have := b hi; rw [f1.1]; omega)
  obtain ⟨a3, e3, f3, v3⟩ := preprocessWeights_eq n2 t z2 bw2 (n0 * stride + n1 * stride) stride a2 hs hz2 hb2 hd2
    (fun i hi => by have := b hi; rw [f2.1, f1.1]; omega)
  unfold evaluate3d
  dsimp only
  rw [e1, Option.bind_some, e2, Option.bind_some, e3, Option.bind_some]
  refine computeDir210_eq n0 n1 n2 p a3 0 (n0 * stride) (n0 * stride + n1 * stride) stride _ _ _ (fun i hi => ?_) (fun i hi => ?_)
    (fun i hi => ?_) hp
  · have := b hi
    rw [read_ok _ _ (by rw [f3.1, f2.1, f1.1]; omega), f3.2 _ (fun j _ => by dsimp only; omega),
      f2.2 _ (fun j _ => by dsimp only; omega), v1 i hi]
  · have := b hi
    rw [read_ok _ _ (by rw [f3.1, f2.1, f1.1]; omega), f3.2 _ (fun j _ => by dsimp only; omega), v2 i hi]
  · have := b hi
    rw [read_ok _ _ (by rw [f3.1, f2.1, f1.1]; omega), v3 i hi]

theorem evaluate2d_eq (x y : K) (n0 n1 : ℕ) (p : List K) (a : Arr K) (z0 z1 bw0 bw1 : List K) (stride : ℕ)
    (hs : 0 < stride) (hz0 : n0 ≤ z0.length) (hb0 : n0 ≤ bw0.length) (hd0 : Distinct n0 z0)
    (hz1 : n1 ≤ z1.length) (hb1 : n1 ≤ bw1.length) (hd1 : Distinct n1 z1)
    (ha : n0 * stride + n1 * stride ≤ a.size) (hp : n0 * n1 ≤ p.length) :
    evaluate2d x y n0 n1 p a z0 z1 bw0 bw1 stride =
      some (dsum (rows2 n1 0 (fun _ => n0) (term2 n0 p 1 0 (wt n0 z0 bw0 x) (wt n1 z1 bw1 y)))) := by
  have b : ∀ {n i : ℕ}, i < n → i * stride < n * stride := fun h => Nat.mul_lt_mul_of_pos_right h hs
  obtain ⟨a1, e1, f1, v1⟩ := preprocessWeights_eq n0 x z0 bw0 0 stride a hs hz0 hb0 hd0 (fun i hi => by have := b hi; omega)
  obtain ⟨a2, e2, f2, v2⟩ := preprocessWeights_eq n1 y z1 bw1 (n0 * stride) stride a1 hs hz1 hb1 hd1
    (fun i hi => by have := b hi; rw [f1.1]; omega)
  unfold evaluate2d
  dsimp only
  rw [e1, Option.bind_some, e2, Option.bind_some]
  refine computeDir10_eq n0 n1 p a2 0 (n0 * stride) stride _ _ (fun i hi => ?_) (fun i hi => ?_) hp
  · have := b hi
    rw [read_ok _ _ (by rw [f2.1, f1.1]; omega), f2.2 _ (fun j _ => by dsimp only; omega), v1 i hi]
  · have := b hi
    rw [read_ok _ _ (by rw [f2.1, f1.1]; omega), v2 i hi]

theorem mapM_range_some {α : Type*} (n : ℕ) (f : ℕ → Option α) (g : ℕ → α) (h : ∀ i < n, f i = some (g i)) :
    (List.range n).mapM f = some ((List.range n).map g) := by
  have key : ∀ l : List ℕ, (∀ i ∈ l, f i = some (g i)) → l.mapM f = some (l.map g) := by
    intro l
    induction l with
    | nil => intro _; rfl
    | cons i l ih =>
      intro hl
      rw [List.mapM_cons, hl i (by simp), ih fun j hj => hl j (by simp [hj])]
      rfl
  exact key _ fun i hi => h i (List.mem_range.mp hi)

/-- `BaryEvaluateBase` in two dimensions: the value stored for function `f` is `evaluate_2d` of that function. -/
theorem dispatch_2d_equals_scalar (x y : K) (nf maxPhys n0 n1 : ℕ) (p : List K) (mem scratch : Arr K) (z0 z1 bw0 bw1 : List K)
    (stride : ℕ) (hs : 0 < stride) (hz0 : n0 ≤ z0.length) (hb0 : n0 ≤ bw0.length)
    (hd0 : ∀ i < n0, ∀ j < n0, z0.getD i 0 = z0.getD j 0 → i = j)
    (hz1 : n1 ≤ z1.length) (hb1 : n1 ≤ bw1.length) (hd1 : ∀ i < n1, ∀ j < n1, z1.getD i 0 = z1.getD j 0 → i = j)
    (hm0 : n0 ≤ maxPhys) (hm1 : n1 ≤ maxPhys)
    (hm : (nf + 2 * maxPhys) * stride < mem.size + stride) (hsc : n0 + n1 ≤ scratch.size) (hp : nf * (n0 * n1) ≤ p.length) :
    ∃ out, dispatch2d x y nf maxPhys n0 n1 p mem z0 z1 bw0 bw1 stride = some out ∧ out.length = nf ∧
      ∀ f < nf, ∀ pf, IsComponent nf f (n0 * n1) p pf →
        evaluate2d x y n0 n1 pf scratch z0 z1 bw0 bw1 1 = out[f]? := by
  have b : ∀ {n i : ℕ}, i < n → i * stride < n * stride := fun h => Nat.mul_lt_mul_of_pos_right h hs
  have b' : ∀ {n i : ℕ}, i < n → i * stride + stride ≤ n * stride := fun h => by
    rw [← Nat.succ_mul]; exact Nat.mul_le_mul_right _ h
  have c0 : n0 * stride ≤ maxPhys * stride := Nat.mul_le_mul_right _ hm0
  have c1 : n1 * stride ≤ maxPhys * stride := Nat.mul_le_mul_right _ hm1
  have s0 : (nf + maxPhys) * stride = nf * stride + maxPhys * stride := by ring
  have s1 : (nf + 2 * maxPhys) * stride = nf * stride + maxPhys * stride + maxPhys * stride := by ring
  obtain ⟨a1, e1, f1, v1⟩ := preprocessWeights_eq n0 x z0 bw0 (nf * stride) stride mem hs hz0 hb0 hd0
    (fun i hi => by have := b' hi; omega)
  obtain ⟨a2, e2, f2, v2⟩ := preprocessWeights_eq n1 y z1 bw1 ((nf + maxPhys) * stride) stride a1 hs hz1 hb1 hd1
    (fun i hi => by have := b' hi; rw [f1.1]; omega)
  have w0 : HoldsW n0 a2 (nf * stride) stride (wt n0 z0 bw0 x) := fun i hi => by
    have := b' hi
    rw [read_ok _ _ (by rw [f2.1, f1.1]; omega), f2.2 _ (fun j _ => by dsimp only; omega), v1 i hi]
  have w1 : HoldsW n1 a2 ((nf + maxPhys) * stride) stride (wt n1 z1 bw1 y) := fun i hi => by
    have := b' hi
    rw [read_ok _ _ (by rw [f2.1, f1.1]; omega), v2 i hi]
  obtain ⟨o, e3, f3, v3⟩ := computeDir10Interlaced_eq nf n0 n1 p a2 (nf * stride) ((nf + maxPhys) * stride) stride _ _
    ⟨nf * stride, a2.val⟩ stride hs w0 w1 hp (fun f hf => b hf)
  refine ⟨(List.range nf).map fun f => o.val (f * stride), ?_, by simp, fun f hf pf hpf => ?_⟩
  · unfold dispatch2d
    dsimp only
    rw [e1, Option.bind_some, e2, Option.bind_some, e3, Option.bind_some]
    exact mapM_range_some nf _ _ fun f hf => read_ok _ _ (by rw [f3.1]; exact b hf)
  · rw [evaluate2d_eq x y n0 n1 pf scratch z0 z1 bw0 bw1 1 (by omega) hz0 hb0 hd0 hz1 hb1 hd1 (by omega) hpf.1.ge,
      List.getElem?_map, List.getElem?_range hf, Option.map_some, v3 f hf, component2 hpf]

/-- `BaryEvaluateBase` in three dimensions. -/
theorem dispatch_3d_equals_scalar (x y t : K) (nf maxPhys n0 n1 n2 : ℕ) (p : List K) (mem scratch : Arr K)
    (z0 z1 z2 bw0 bw1 bw2 : List K) (stride : ℕ) (hs : 0 < stride) (hz0 : n0 ≤ z0.length) (hb0 : n0 ≤ bw0.length)
    (hd0 : ∀ i < n0, ∀ j < n0, z0.getD i 0 = z0.getD j 0 → i = j)
    (hz1 : n1 ≤ z1.length) (hb1 : n1 ≤ bw1.length) (hd1 : ∀ i < n1, ∀ j < n1, z1.getD i 0 = z1.getD j 0 → i = j)
    (hz2 : n2 ≤ z2.length) (hb2 : n2 ≤ bw2.length) (hd2 : ∀ i < n2, ∀ j < n2, z2.getD i 0 = z2.getD j 0 → i = j)
    (hm0 : n0 ≤ maxPhys) (hm1 : n1 ≤ maxPhys) (hm2 : n2 ≤ maxPhys)
    (hm : (nf + 3 * maxPhys) * stride < mem.size + stride) (hsc : n0 + n1 + n2 ≤ scratch.size)
    (hp : nf * (n0 * n1 * n2) ≤ p.length) :
    ∃ out, dispatch3d x y t nf maxPhys n0 n1 n2 p mem z0 z1 z2 bw0 bw1 bw2 stride = some out ∧ out.length = nf ∧
      ∀ f < nf, ∀ pf, IsComponent nf f (n0 * n1 * n2) p pf →
        evaluate3d x y t n0 n1 n2 pf scratch z0 z1 z2 bw0 bw1 bw2 1 = out[f]? := by
  have b : ∀ {n i : ℕ}, i < n → i * stride < n * stride := fun h => Nat.mul_lt_mul_of_pos_right h hs
  have b' : ∀ {n i : ℕ}, i < n → i * stride + stride ≤ n * stride := fun h => by
    rw [← Nat.succ_mul]; exact Nat.mul_le_mul_right _ h
  have c0 : n0 * stride ≤ maxPhys * stride := Nat.mul_le_mul_right _ hm0
  have c1 : n1 * stride ≤ maxPhys * stride := Nat.mul_le_mul_right _ hm1
  have c2 : n2 * stride ≤ maxPhys * stride := Nat.mul_le_mul_right _ hm2
  have s0 : (nf + maxPhys) * stride = nf * stride + maxPhys * stride := by ring
  have s1 : (nf + 2 * maxPhys) * stride = nf * stride + maxPhys * stride + maxPhys * stride := by ring
  have s2 : (nf + 3 * maxPhys) * stride = nf * stride + maxPhys * stride + maxPhys * stride + maxPhys * stride := by ring
  obtain ⟨a1, e1, f1, v1⟩ := preprocessWeights_eq n0 x z0 bw0 (nf * stride) stride mem hs hz0 hb0 hd0
    (fun i hi => by have := b' hi; omega)
  obtain ⟨a2, e2, f2, v2⟩ := preprocessWeights_eq n1 y z1 bw1 ((nf + maxPhys) * stride) stride a1 hs hz1 hb1 hd1
    (fun i hi => by have := b' hi; rw [f1.1]; omega)
  obtain ⟨a3, e3, f3, v3⟩ := preprocessWeights_eq n2 t z2 bw2 ((nf + 2 * maxPhys) * stride) stride a2 hs hz2 hb2 hd2
    (fun i hi => by have := b' hi; rw [f2.1, f1.1]; omega)
  have w0 : HoldsW n0 a3 (nf * stride) stride (wt n0 z0 bw0 x) := fun i hi => by
    have := b' hi
    rw [read_ok _ _ (by rw [f3.1, f2.1, f1.1]; omega), f3.2 _ (fun j _ => by dsimp only; omega),
      f2.2 _ (fun j _ => by dsimp only; omega), v1 i hi]
  have w1 : HoldsW n1 a3 ((nf + maxPhys) * stride) stride (wt n1 z1 bw1 y) := fun i hi => by
    have := b' hi
    rw [read_ok _ _ (by rw [f3.1, f2.1, f1.1]; omega), f3.2 _ (fun j _ => by dsimp only; omega), v2 i hi]
  have w2 : HoldsW n2 a3 ((nf + 2 * maxPhys) * stride) stride (wt n2 z2 bw2 t) := fun i hi => by
    have := b' hi
    rw [read_ok _ _ (by rw [f3.1, f2.1, f1.1]; omega), v3 i hi]
  obtain ⟨o, e4, f4, v4⟩ := computeDir210Interlaced_eq nf n0 n1 n2 p a3 (nf * stride) ((nf + maxPhys) * stride)
    ((nf + 2 * maxPhys) * stride) stride _ _ _ ⟨nf * stride, a3.val⟩ stride hs w0 w1 w2 hp (fun f hf => b hf)
  refine ⟨(List.range nf).map fun f => o.val (f * stride), ?_, by simp, fun f hf pf hpf => ?_⟩
  · unfold dispatch3d
    dsimp only
    rw [e1, Option.bind_some, e2, Option.bind_some, e3, Option.bind_some, e4, Option.bind_some]
    exact mapM_range_some nf _ _ fun f hf => read_ok _ _ (by rw [f4.1]; exact b hf)
  · rw [evaluate3d_eq x y t n0 n1 n2 pf scratch z0 z1 z2 bw0 bw1 bw2 1 (by omega) hz0 hb0 hd0 hz1 hb1 hd1 hz2 hb2 hd2
        (by omega) hpf.1.ge,
      List.getElem?_map, List.getElem?_range hf, Option.map_some, v4 f hf, component3 hpf]

/-- `BaryEvaluateBase::dispatch_3d_cpu`: the value of lane `b` and function `f` is `evaluate_3d` of that function at the coordinates of
the lane, whatever the other lanes hold. -/
theorem block_evaluation_equals_scalar (N nf n0 n1 n2 : ℕ) (eta0 eta1 eta2 p : List K) (d0 d1 d2 scratch out : Arr K)
    (z0 z1 z2 bw0 bw1 bw2 : List K) (hc0 : N ≤ eta0.length) (hc1 : N ≤ eta1.length) (hc2 : N ≤ eta2.length)
    (hz0 : n0 ≤ z0.length) (hb0 : n0 ≤ bw0.length)
    (hd0 : ∀ i < n0, ∀ j < n0, z0.getD i 0 = z0.getD j 0 → i = j)
    (hz1 : n1 ≤ z1.length) (hb1 : n1 ≤ bw1.length) (hd1 : ∀ i < n1, ∀ j < n1, z1.getD i 0 = z1.getD j 0 → i = j)
    (hz2 : n2 ≤ z2.length) (hb2 : n2 ≤ bw2.length) (hd2 : ∀ i < n2, ∀ j < n2, z2.getD i 0 = z2.getD j 0 → i = j)
    (hs0 : n0 * N ≤ d0.size) (hs1 : n1 * N ≤ d1.size) (hs2 : n2 * N ≤ d2.size) (hso : nf * N ≤ out.size)
    (hsc : n0 + n1 + n2 ≤ scratch.size) (hp : nf * (n0 * n1 * n2) ≤ p.length) :
    ∃ o, dispatch3dCpu N eta0 eta1 eta2 nf n0 n1 n2 p d0 d1 d2 z0 z1 z2 bw0 bw1 bw2 out = some o ∧ o.size = out.size ∧
      ∀ f < nf, ∀ b < N, ∀ pf, IsComponent nf f (n0 * n1 * n2) p pf →
        evaluate3d (eta0.getD b 0) (eta1.getD b 0) (eta2.getD b 0) n0 n1 n2 pf scratch z0 z1 z2 bw0 bw1 bw2 1 =
          some (o.val (f * N + b)) := by
  obtain ⟨a0, e0, t0, _, v0⟩ := preprocessWeightsBlock_eq N n0 eta0 z0 bw0 d0 hc0 hz0 hb0 hs0
  obtain ⟨a1, e1, t1, _, v1⟩ := preprocessWeightsBlock_eq N n1 eta1 z1 bw1 d1 hc1 hz1 hb1 hs1
  obtain ⟨a2, e2, t2, _, v2⟩ := preprocessWeightsBlock_eq N n2 eta2 z2 bw2 d2 hc2 hz2 hb2 hs2
  obtain ⟨o, e3, so, _, v3⟩ := computeDir210InterlacedBlock_eq N nf n0 n1 n2 p a0 a1 a2
    (fun b => wt n0 z0 bw0 (eta0.getD b 0)) (fun b => wt n1 z1 bw1 (eta1.getD b 0)) (fun b => wt n2 z2 bw2 (eta2.getD b 0)) out
    (fun i hi b hb => by rw [read_ok _ _ (by have := block_lt hi hb; omega), v0 i hi b hb])
    (fun i hi b hb => by rw [read_ok _ _ (by have := block_lt hi hb; omega), v1 i hi b hb])
    (fun i hi b hb => by rw [read_ok _ _ (by have := block_lt hi hb; omega), v2 i hi b hb]) hp hso
  refine ⟨o, ?_, so, fun f hf b hb pf hpf => ?_⟩
  · unfold dispatch3dCpu
    rw [e0, Option.bind_some, e1, Option.bind_some, e2, Option.bind_some, e3]
  · rw [evaluate3d_eq _ _ _ n0 n1 n2 pf scratch z0 z1 z2 bw0 bw1 bw2 1 (by omega) hz0 hb0 hd0 hz1 hb1 hd1 hz2 hb2 hd2
        (by omega) hpf.1.ge, v3 f hf b hb, component3 hpf]

/-- The hypotheses are met: two lanes, two functions, 2 by 1 by 1 nodes. -/
example : ∃ o, dispatch3dCpu (K := ℚ) 2 [0, 1] [0, 0] [0, 0] 2 2 1 1 [1, 2, 3, 4] ⟨4, fun _ => none⟩ ⟨2, fun _ => none⟩
    ⟨2, fun _ => none⟩ [-1, 1] [0] [0] [-1, 1] [1] [1] ⟨4, fun _ => none⟩ = some o := by
  obtain ⟨o, h, _⟩ := block_evaluation_equals_scalar (K := ℚ) 2 2 2 1 1 [0, 1] [0, 0] [0, 0] [1, 2, 3, 4] ⟨4, fun _ => none⟩
    ⟨2, fun _ => none⟩ ⟨2, fun _ => none⟩ ⟨4, fun _ => none⟩ ⟨4, fun _ => none⟩ [-1, 1] [0] [0] [-1, 1] [1] [1]
    (by simp) (by simp) (by simp) (by simp) (by simp)
    (by intro i hi j hj; interval_cases i <;> interval_cases j <;> simp <;> norm_num) (by simp) (by simp)
    (by intro i hi j hj; omega) (by simp) (by simp) (by intro i hi j hj; omega) (by simp) (by simp) (by simp) (by simp)
    (by simp) (by simp)
  exact ⟨o, h⟩

end Verif.Props.C16
