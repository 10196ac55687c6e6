import Verif.Props.C79_Evaluation
import Verif.Spec.VertexModes
import Mathlib.Tactic.IntervalCases

/-! C86: constants and positions are represented exactly; the projection conserves the total and the centre of the charge. -/

namespace Verif.Props.C86
open Verif.Spec Verif.Model Verif.Model.JacobiCoeff Verif.Model.BasisReference Verif.Model.BasisEvaluation
  Verif.Model.BasisEvaluateBase Verif.Model.ExpansionLooping Verif.Model.FieldCoupling Verif.Spec.FieldCoupling
  Verif.Spec.VertexModes Verif.Props.C13 Verif.Props.C78 Verif.Props.C79

section algebra
variable {K : Type*} [Field K]

/-- Only the first two terms count. -/
theorem sum_two (n : ℕ) (hn : 2 ≤ n) (f : ℕ → K) (h : ∀ i, 2 ≤ i → f i = 0) : ((List.range n).map f).sum = f 0 + f 1 := by
  obtain ⟨k, rfl⟩ : ∃ k, n = 2 + k := ⟨n - 2, by omega⟩
  rw [List.range_add, List.map_append, List.sum_append, List.map_map]
  have : ((List.range k).map (f ∘ fun x => 2 + x)).sum = 0 :=
    List.sum_eq_zero fun x hx => by
      obtain ⟨i, -, rfl⟩ := List.mem_map.1 hx
      exact h _ (by simp)
  rw [this]
  simp [List.range_succ]

/-- Only the first term counts. -/
theorem sum_one (n : ℕ) (hn : 1 ≤ n) (f : ℕ → K) (h : ∀ i, 1 ≤ i → f i = 0) : ((List.range n).map f).sum = f 0 := by
  obtain ⟨k, rfl⟩ : ∃ k, n = 1 + k := ⟨n - 1, by omega⟩
  rw [List.range_add, List.map_append, List.sum_append, List.map_map]
  have : ((List.range k).map (f ∘ fun x => 1 + x)).sum = 0 :=
    List.sum_eq_zero fun x hx => by
      obtain ⟨i, -, rfl⟩ := List.mem_map.1 hx
      exact h _ (by simp)
  rw [this]
  simp

theorem sum_flatMap' {α β : Type*} (l : List α) (f : α → List β) (g : β → K) :
    ((l.flatMap f).map g).sum = (l.map fun a => ((f a).map g).sum).sum := by
  induction l with
  | nil => rfl
  | cons a l ih => simp [ih]

/-- The value of the mode `m` at a point. -/
def modeFn [DecidableEq K] (shape : Shape) (e : K × K × K) (m : ℕ × ℕ × ℕ) : K :=
  match shape with
  | .tri => if m.1 = 0 ∧ m.2.1 = 1 then evalModB m.1 m.2.1 e.2.1 else evalModA m.1 e.1 * evalModB m.1 m.2.1 e.2.1
  | .quad => evalModA m.1 e.1 * evalModA m.2.1 e.2.1
  | .hex => evalModA m.1 e.1 * evalModA m.2.1 e.2.1 * evalModA m.2.2 e.2.2
  | .prism => if m.1 = 0 ∧ m.2.2 = 1 then evalModA m.2.1 e.2.1 * evalModB m.1 m.2.2 e.2.2
      else evalModA m.1 e.1 * evalModA m.2.1 e.2.1 * evalModB m.1 m.2.2 e.2.2
  | .pyr => if m.1 = 0 ∧ m.2.1 = 0 ∧ m.2.2 = 1 then evalModPyrC m.1 m.2.1 m.2.2 e.2.2
      else evalModA m.1 e.1 * evalModA m.2.1 e.2.1 * evalModPyrC m.1 m.2.1 m.2.2 e.2.2
  | .tet => if m.1 = 0 ∧ m.2.1 = 0 ∧ m.2.2 = 1 then evalModC m.1 m.2.1 m.2.2 e.2.2
      else if m.1 = 0 ∧ m.2.1 = 1 then evalModB m.1 m.2.1 e.2.1 * evalModC m.1 m.2.1 m.2.2 e.2.2
      else evalModA m.1 e.1 * evalModB m.1 m.2.1 e.2.1 * evalModC m.1 m.2.1 m.2.2 e.2.2

theorem basisAt_eq [DecidableEq K] (shape : Shape) (n : ℕ) (e : K × K × K) :
    basisAt shape n e.1 e.2.1 e.2.2 = (modesOf shape n).map (modeFn shape e) := by
  cases shape <;>
    simp only [basisAt, expansionTri, expansionQuad, expansionHex, expansionPrism, expansionPyr, expansionTet, modesOf, modeFn,
      List.map_map, List.map_flatMap, Function.comp_def] <;> rfl

theorem dot_map {α : Type*} (l : List α) (f g : α → K) : dot (l.map f) (l.map g) = (l.map fun m => f m * g m).sum := by
  unfold dot
  rw [List.zipWith_map, List.zipWith_self]

theorem vertexOf_none (shape : Shape) (p q r : ℕ) (h : 2 ≤ p ∨ 2 ≤ q ∨ (2 ≤ r ∧ dimOf shape = 3)) : vertexOf shape (p, q, r) = none := by
  rcases p with _ | _ | p <;> rcases q with _ | _ | q <;> rcases r with _ | _ | r <;> cases shape <;> first | rfl | (simp [dimOf] at h)

theorem evalModB_zero (q : ℕ) (z : K) : evalModB 0 q z = evalModA q z := by simp [evalModB]
theorem evalModB_one_zero (z : K) : evalModB 1 0 z = 1 / 2 * (1 - z) := by simp [evalModB]
theorem evalModA_zero (z : K) : evalModA 0 z = 1 / 2 * (1 - z) := by simp [evalModA]
theorem evalModA_one (z : K) : evalModA 1 z = 1 / 2 * (1 + z) := by simp [evalModA]
theorem evalModPyrC_000 (z : K) : evalModPyrC 0 0 0 z = 1 / 2 * (1 - z) := by simp [evalModPyrC, evalModB_zero, evalModA_zero]
theorem evalModPyrC_001 (z : K) : evalModPyrC 0 0 1 z = 1 / 2 * (1 + z) := by simp [evalModPyrC, evalModB_zero, evalModA_one]
theorem evalModPyrC_010 (z : K) : evalModPyrC 0 1 0 z = 1 / 2 * (1 - z) := by simp [evalModPyrC, evalModB_one_zero]
theorem evalModPyrC_100 (z : K) : evalModPyrC 1 0 0 z = 1 / 2 * (1 - z) := by simp [evalModPyrC, evalModB_one_zero]
theorem evalModPyrC_110 (z : K) : evalModPyrC 1 1 0 z = 1 / 2 * (1 - z) := by simp [evalModPyrC, evalModB_one_zero]

theorem zero_left {o : Option ℕ} {a : ℕ → K} {b : K} (h : o = none) : (o.map a).getD 0 * b = 0 := by subst h; simp

/-- The sum over the modes is the sum over the vertices. -/
theorem vertex_sum (shape : Shape) (n : ℕ) (hn : 2 ≤ n) (a : ℕ → K) (g : ℕ × ℕ × ℕ → K) :
    ((modesOf shape n).map fun m => ((vertexOf shape m).map a).getD 0 * g m).sum =
      match shape with
      | .tri => a 0 * g (0, 0, 0) + a 2 * g (0, 1, 0) + a 1 * g (1, 0, 0)
      | .quad => a 0 * g (0, 0, 0) + a 1 * g (1, 0, 0) + (a 3 * g (0, 1, 0) + a 2 * g (1, 1, 0))
      | .hex => a 0 * g (0, 0, 0) + a 1 * g (1, 0, 0) + (a 3 * g (0, 1, 0) + a 2 * g (1, 1, 0)) +
          (a 4 * g (0, 0, 1) + a 5 * g (1, 0, 1) + (a 7 * g (0, 1, 1) + a 6 * g (1, 1, 1)))
      | .prism => a 0 * g (0, 0, 0) + a 4 * g (0, 0, 1) + (a 3 * g (0, 1, 0) + a 5 * g (0, 1, 1)) +
          (a 1 * g (1, 0, 0) + a 2 * g (1, 1, 0))
      | .pyr => a 0 * g (0, 0, 0) + a 4 * g (0, 0, 1) + a 3 * g (0, 1, 0) + (a 1 * g (1, 0, 0) + a 2 * g (1, 1, 0))
      | .tet => a 0 * g (0, 0, 0) + a 3 * g (0, 0, 1) + a 2 * g (0, 1, 0) + a 1 * g (1, 0, 0) := by
  have h0 : ∀ l : List ℕ, (l.map fun _ => (0 : K)).sum = 0 := fun l => by simp
  have z1 : ∀ p q r, 2 ≤ p → ((vertexOf shape (p, q, r)).map a).getD 0 = 0 := fun p q r h => by rw [vertexOf_none _ _ _ _ (Or.inl h)]; rfl
  have z2 : ∀ p q r, 2 ≤ q → ((vertexOf shape (p, q, r)).map a).getD 0 = 0 := fun p q r h => by rw [vertexOf_none _ _ _ _ (Or.inr (Or.inl h))]; rfl
  have z3 : dimOf shape = 3 → ∀ p q r, 2 ≤ r → ((vertexOf shape (p, q, r)).map a).getD 0 = 0 :=
    fun hd p q r h => by rw [vertexOf_none _ _ _ _ (Or.inr (Or.inr ⟨h, hd⟩))]; rfl
  cases shape with
  | tri =>
    simp only [modesOf, modesB, List.map_map, sum_flatMap', Function.comp_def]
    rw [sum_two n hn _ fun p hp => by simp only [z1 _ _ _ hp, zero_mul, h0],
      sum_two (n - 0) (by omega) _ fun q hq => by simp only [z2 _ _ _ hq, zero_mul],
      sum_one (n - 1) (by omega) _ fun q hq => by
        rcases q with _ | _ | q
        · omega
        · simp [vertexOf]
        · simp only [z2 _ _ _ (show 2 ≤ q + 1 + 1 by omega), zero_mul]]
    simp [vertexOf]
  | quad =>
    simp only [modesOf, List.map_map, sum_flatMap', Function.comp_def]
    rw [sum_two n hn _ fun q hq => by simp only [z2 _ _ _ hq, zero_mul, h0],
      sum_two n hn _ fun p hp => by simp only [z1 _ _ _ hp, zero_mul], sum_two n hn _ fun p hp => by simp only [z1 _ _ _ hp, zero_mul]]
    simp [vertexOf]
  | hex =>
    have z3 := z3 rfl
    have e1 : ∀ q r, ((List.range n).map fun p => ((vertexOf .hex (p, q, r)).map a).getD 0 * g (p, q, r)).sum = _ :=
      fun q r => sum_two n hn _ fun p hp => by simp only [z1 _ _ _ hp, zero_mul]
    simp only [modesOf, List.map_map, sum_flatMap', Function.comp_def, e1]
    rw [sum_two n hn _ fun r hr => by simp only [z3 _ _ _ hr, zero_mul, add_zero, h0],
      sum_two n hn _ fun q hq => by simp only [z2 _ _ _ hq, zero_mul, add_zero], sum_two n hn _ fun q hq => by simp only [z2 _ _ _ hq, zero_mul, add_zero]]
    simp [vertexOf]
  | prism =>
    have z3 := z3 rfl
    simp only [modesOf, List.map_map, sum_flatMap', Function.comp_def]
    rw [sum_two n hn _ fun r hr => by simp only [z1 _ _ _ hr, zero_mul, h0],
      sum_two n hn _ fun q hq => by simp only [z2 _ _ _ hq, zero_mul, h0], sum_two n hn _ fun q hq => by simp only [z2 _ _ _ hq, zero_mul, h0]]
    have e0 : ∀ q, ((List.range (n - 0)).map fun r => ((vertexOf .prism (0, q, r)).map a).getD 0 * g (0, q, r)).sum = _ :=
      fun q => sum_two (n - 0) (by omega) _ fun r hr => by simp only [z3 _ _ _ hr, zero_mul]
    simp only [e0]
    have e1 : ∀ q < 2, ((List.range (n - 1)).map fun r => ((vertexOf .prism (1, q, r)).map a).getD 0 * g (1, q, r)).sum =
        ((vertexOf .prism (1, q, 0)).map a).getD 0 * g (1, q, 0) := fun q hq =>
      sum_one (n - 1) (by omega) _ fun r hr => by
        rcases r with _ | _ | r
        · omega
        · interval_cases q <;> simp [vertexOf]
        · simp only [z3 _ _ _ (show 2 ≤ r + 1 + 1 by omega), zero_mul]
    rw [e1 0 (by omega), e1 1 (by omega)]
    simp [vertexOf]
  | pyr =>
    have z3 := z3 rfl
    simp only [modesOf, modesPyr, List.map_map, sum_flatMap', Function.comp_def]
    rw [sum_two n hn _ fun r hr => by simp only [z1 _ _ _ hr, zero_mul, h0],
      sum_two n hn _ fun q hq => by simp only [z2 _ _ _ hq, zero_mul, h0], sum_two n hn _ fun q hq => by simp only [z2 _ _ _ hq, zero_mul, h0]]
    have e1 : ∀ p < 2, ∀ q < 2, 1 ≤ max p q → ((List.range (n - max p q)).map fun r => ((vertexOf .pyr (p, q, r)).map a).getD 0 * g (p, q, r)).sum =
        ((vertexOf .pyr (p, q, 0)).map a).getD 0 * g (p, q, 0) := fun p hp q hq h =>
      sum_one (n - max p q) (by omega) _ fun r hr => by
        rcases r with _ | _ | r
        · omega
        · interval_cases p <;> interval_cases q <;> simp [vertexOf] at h ⊢
        · simp only [z3 _ _ _ (show 2 ≤ r + 1 + 1 by omega), zero_mul]
    rw [e1 0 (by omega) 1 (by omega) (by omega), e1 1 (by omega) 0 (by omega) (by omega), e1 1 (by omega) 1 (by omega) (by omega),
      sum_two (n - max 0 0) (by omega) _ fun r hr => by simp only [z3 _ _ _ hr, zero_mul]]
    simp [vertexOf]
  | tet =>
    have z3 := z3 rfl
    simp only [modesOf, modesC, List.map_map, sum_flatMap', Function.comp_def]
    have e1 : ∀ p < 2, ∀ q < 2, p + q = 1 → ((List.range (n - p - q)).map fun r => ((vertexOf .tet (p, q, r)).map a).getD 0 * g (p, q, r)).sum =
        ((vertexOf .tet (p, q, 0)).map a).getD 0 * g (p, q, 0) := fun p hp q hq h =>
      sum_one (n - p - q) (by omega) _ fun r hr => by
        rcases r with _ | _ | r
        · omega
        · interval_cases p <;> interval_cases q <;> simp [vertexOf] at h ⊢
        · simp only [z3 _ _ _ (show 2 ≤ r + 1 + 1 by omega), zero_mul]
    rw [sum_two n hn _ fun r hr => by simp only [z1 _ _ _ hr, zero_mul, h0],
      sum_two (n - 0) (by omega) _ fun q hq => by simp only [z2 _ _ _ hq, zero_mul, h0],
      sum_one (n - 1) (by omega) _ fun q hq => by
        rcases q with _ | _ | q
        · omega
        · refine List.sum_eq_zero fun x hx => ?_
          obtain ⟨r, -, rfl⟩ := List.mem_map.1 hx
          simp [vertexOf]
        · simp only [z2 _ _ _ (show 2 ≤ q + 1 + 1 by omega), zero_mul, h0],
      e1 0 (by omega) 1 (by omega) rfl, e1 1 (by omega) 0 (by omega) rfl,
      sum_two (n - 0 - 0) (by omega) _ fun r hr => by simp only [z3 _ _ _ hr, zero_mul]]
    simp [vertexOf]

/-- **Vertex modes.** For every shape and every number of modes from two on: the function whose vertex modes have the coefficients `a v` interpolates the values at the
vertices. -/
theorem vertex_modes [DecidableEq K] (h2 : (2 : K) ≠ 0) (shape : Shape) (n : ℕ) (hn : 2 ≤ n) (a : ℕ → K) (x e : K × K × K)
    (hx : CollapsedOf shape x e) (hnx : NotApex shape x) :
    dot (vertexCoeffs shape n a) (basisAt shape n e.1 e.2.1 e.2.2) = interpolate shape a x := by
  rw [basisAt_eq, vertexCoeffs, dot_map, vertex_sum shape n hn]
  obtain ⟨x0, x1, x2⟩ := x
  obtain ⟨e0, e1, e2⟩ := e
  cases shape with
  | tri =>
    obtain ⟨h1, rfl⟩ := hx
    simp [modeFn, interpolate, shapeFunctions, List.range_succ, evalModB_zero, evalModB_one_zero, evalModA_zero, evalModA_one] at h1 ⊢
    field_simp
    linear_combination (a 0 - a 1) * h1
  | quad =>
    obtain ⟨rfl, rfl⟩ := hx
    simp [modeFn, interpolate, shapeFunctions, LinearElements.weights, List.range_succ, evalModA_zero, evalModA_one]
    field_simp
    ring
  | hex =>
    cases hx
    simp [modeFn, interpolate, shapeFunctions, LinearElements.weights, List.range_succ, evalModA_zero, evalModA_one]
    field_simp
    ring
  | prism =>
    obtain ⟨h1, rfl, rfl⟩ := hx
    simp [modeFn, interpolate, shapeFunctions, LinearElements.weights, List.range_succ, evalModB_zero, evalModB_one_zero, evalModA_zero, evalModA_one] at h1 ⊢
    field_simp
    linear_combination ((a 0 - a 1) * (1 - e1) + (a 3 - a 2) * (1 + e1)) * h1
  | pyr =>
    obtain ⟨h1, h1', rfl⟩ := hx
    simp only [NotApex] at hnx h1 h1'
    have hz : 1 - e2 ≠ 0 := sub_ne_zero.2 (Ne.symm hnx)
    have ea : 2 * (1 + x0) / (1 - e2) - 1 = e0 := by rw [h1]; field_simp; ring
    have eb : 2 * (1 + x1) / (1 - e2) - 1 = e1 := by rw [h1']; field_simp; ring
    simp [modeFn, interpolate, shapeFunctions, LinearElements.weights, List.range_succ, evalModPyrC_000, evalModPyrC_001, evalModPyrC_010,
      evalModPyrC_100, evalModPyrC_110, evalModA_zero, evalModA_one, ea, eb]
    field_simp
    ring
  | tet =>
    obtain ⟨h1, h1', rfl⟩ := hx
    simp [modeFn, interpolate, shapeFunctions, LinearElements.weights, List.range_succ, evalModC, evalModB_zero, evalModB_one_zero, evalModA_zero, evalModA_one] at h1 h1' ⊢
    field_simp
    linear_combination 2 * (a 0 - a 1) * h1 + ((a 1 - a 0) * (1 + e0) + 2 * (a 0 - a 2)) * h1'

/-- **Constants.** The function whose vertex modes have all the coefficient `b` is the constant `b`, at every point. -/
theorem constant_modes [DecidableEq K] (h2 : (2 : K) ≠ 0) (shape : Shape) (n : ℕ) (hn : 2 ≤ n) (b : K) (e : K × K × K) :
    dot (vertexCoeffs shape n fun _ => b) (basisAt shape n e.1 e.2.1 e.2.2) = b := by
  rw [basisAt_eq, vertexCoeffs, dot_map, vertex_sum shape n hn]
  cases shape <;>
  · simp [modeFn, evalModPyrC_000, evalModPyrC_001, evalModPyrC_010, evalModPyrC_100, evalModPyrC_110, evalModC, evalModB_zero, evalModB_one_zero,
      evalModA_zero, evalModA_one]
    field_simp
    ring

theorem dot_eq_sum (u B : List K) : dot u B = ((List.range B.length).map fun k => u.getD k 0 * B.getD k 0).sum := by
  unfold dot
  induction B generalizing u with
  | nil => simp
  | cons b B ih =>
    rw [List.length_cons, List.range_succ_eq_map, List.map_cons, List.sum_cons, List.map_map]
    cases u with
    | nil =>
      simp [Function.comp_def]
    | cons a u =>
      rw [List.zipWith_cons_cons, List.sum_cons, ih u]
      rfl

/-- Such a field exists for every choice of values at the vertices of each element. -/
theorem exists_vertexField (exps : List Expansion) (ndim N : ℕ) (hf : FieldOk exps ndim N) (hd : DisjointBlocks exps) (a : Expansion → ℕ → K) :
    ∃ v, IsVertexField exps N a v := by
  refine ⟨(List.range N).map fun i => ((exps.find? fun e => e.offset ≤ i ∧ i < e.offset + e.ncoeffs).map fun e =>
    (vertexCoeffs e.shape (order e) (a e)).getD (i - e.offset) 0).getD 0, by simp, fun e he k hk => ?_⟩
  have hb := hf.block e he
  have hk' : e.offset + k < N := by omega
  have : (exps.find? fun x => x.offset ≤ e.offset + k ∧ e.offset + k < x.offset + x.ncoeffs) = some e := by
    cases hfind : exps.find? fun x => x.offset ≤ e.offset + k ∧ e.offset + k < x.offset + x.ncoeffs with
    | none =>
      have := List.find?_eq_none.1 hfind e he
      simp at this
      omega
    | some e' =>
      have h1 := List.find?_some hfind
      have h2 := List.mem_of_find?_eq_some hfind
      simp only [decide_eq_true_eq] at h1
      by_cases hid : e.elmtId = e'.elmtId
      · have hnd : (exps.map (·.elmtId)).Nodup := by rw [hf.ids]; exact List.nodup_range
        rw [List.inj_on_of_nodup_map hnd he h2 hid]
      · rcases hd e he e' h2 hid with h | h <;> omega
  rw [List.getD_eq_getElem?_getD, List.getElem?_map, List.getElem?_range hk', Option.map_some, Option.getD_some, this]
  simp

end algebra

/-! ### Evaluation -/

section field
variable {K : Type*} [Field K] [LinearOrder K] [IsStrictOrderedRing K]

/-- The value of a vertex field in an element. -/
theorem valueAt_vertexField (exps : List Expansion) (ndim N : ℕ) (hf : FieldOk exps ndim N) (a : Expansion → ℕ → K) (v : List K)
    (hv : IsVertexField exps N a v) (e : Expansion) (he : e ∈ exps) (eta : K × K × K) :
    valueAt e eta v = dot (vertexCoeffs e.shape (order e) (a e)) (basisAt e.shape (order e) eta.1 eta.2.1 eta.2.2) := by
  have hl := (eval_modes_is_basis e.shape (order e) eta.1 eta.2.1 eta.2.2).2
  have hb := hf.block e he
  have hnc := hf.ncoeffs e he
  rw [← dot_eq_valueAt e eta v (by rw [hl, hv.length]; omega), dot_eq_sum, dot_eq_sum]
  congr 1
  refine List.map_congr_left fun k hk => ?_
  rw [List.mem_range, hl, ← hnc] at hk
  rw [← hv.coeffs e he k hk]
  congr 1
  simp [List.getD_eq_getElem?_getD]

theorem two_ne : (2 : K) ≠ 0 := two_ne_zero

theorem elementOf_mem (exps cells : List Expansion) (hc : ∀ e ∈ cells, e ∈ exps) (c : ℕ) (h : c < cells.length) : elementOf cells c ∈ exps := by
  have : elementOf cells c = cells[c] := by simp [elementOf, h]
  rw [this]
  exact hc _ (List.getElem_mem h)

theorem notApex_of_away (tol : K) (ht : 0 < tol) (shape : Shape) (x : K × K × K) (h : AwayFromCollapsed tol shape x) : NotApex shape x := by
  cases shape <;> simp only [NotApex, AwayFromCollapsed] at h ⊢
  rintro h1
  rw [h1, sub_self, abs_zero] at h
  exact absurd ht (not_lt.2 h)

/-- **C86, evaluation.** A field with the value `b` at all vertices is evaluated to `b` at every particle that is not exactly at a collapsed end (there it is not a number, C79), whatever the shapes and orders of the elements. -/
theorem evaluate_constant (tol : K) (exps : List Expansion) (ndim N : ℕ) (hf : FieldOk exps ndim N) (cells : List Expansion)
    (hc : ∀ e ∈ cells, e ∈ exps) (parts : ℕ → List (Particle K)) (layers : ℕ → List ℕ) (eta : ℕ → ℕ → K × K × K)
    (hp : LocatedAt tol cells ndim parts layers eta) (component : ℕ) (b : K) (coeffs : List K) (hv : IsVertexField exps N (fun _ _ => b) coeffs) :
    ∃ s, Base.build exps (cells.map (·.gid)) = some s ∧
    ∀ mem : Shape × ℕ × ℕ → List (Dbl K), (∀ w, sumMaxModes s w.1 ≤ (mem w).length) →
      ∀ before after : Dat K, EvaluatesTo tol s ndim parts layers component coeffs mem before after →
        ∀ c < cells.length, ∀ l ∈ layers c, OffCollapsed (elementOf cells c).shape (eta c l).2.1 (eta c l).2.2 → after c l component = some b := by
  obtain ⟨s, hs, h⟩ := evaluation_stores_values tol exps ndim N hf cells hc parts layers eta hp component coeffs hv.length
  refine ⟨s, hs, fun mem hm before after hev c hcl l hl hoff => ?_⟩
  have he := elementOf_mem exps cells hc c hcl
  rw [(h mem hm before after).1 hev c l component, if_pos ⟨rfl, hcl, hl⟩, stored, if_pos hoff,
    valueAt_vertexField exps ndim N hf _ coeffs hv _ he, constant_modes two_ne _ _ (hf.two _ he)]

/-- **C86, evaluation of positions.** A field with the values `a e v` at the vertices is evaluated to the interpolation of these values at the reference position of the particle. With
a coordinate of the vertices this is the coordinate of the position of the particle in the straight-sided element. -/
theorem evaluate_vertex_field (tol : K) (ht : 0 < tol) (exps : List Expansion) (ndim N : ℕ) (hf : FieldOk exps ndim N) (cells : List Expansion)
    (hc : ∀ e ∈ cells, e ∈ exps) (parts : ℕ → List (Particle K)) (layers : ℕ → List ℕ) (eta : ℕ → ℕ → K × K × K)
    (hp : Located tol cells ndim parts layers eta) (component : ℕ) (a : Expansion → ℕ → K) (coeffs : List K) (hv : IsVertexField exps N a coeffs) :
    ∃ s, Base.build exps (cells.map (·.gid)) = some s ∧
    ∀ mem : Shape × ℕ × ℕ → List (Dbl K), (∀ w, sumMaxModes s w.1 ≤ (mem w).length) →
      ∀ before after : Dat K, EvaluatesTo tol s ndim parts layers component coeffs mem before after →
        ∀ c < cells.length, ∀ l ∈ layers c, ∀ p, (parts c)[l]? = some p →
          after c l component = some (interpolate (elementOf cells c).shape (a (elementOf cells c)) (refPoint ndim p.ref)) := by
  obtain ⟨s, hs, h⟩ := evaluation_stores_values_partial tol ht exps ndim N hf cells hc parts layers eta hp component coeffs hv.length
  refine ⟨s, hs, fun mem hm before after hev c hcl l hl p hpl => ?_⟩
  have he := elementOf_mem exps cells hc c hcl
  rw [(h mem hm before after).1 hev c l component, if_pos ⟨rfl, hcl, hl⟩, valueAt_vertexField exps ndim N hf _ coeffs hv _ he]
  obtain ⟨p', hp', -, hcol, haway⟩ := hp.ok c (elementOf cells c) (by simp [elementOf, hcl]) l hl
  rw [hpl] at hp'; cases hp'
  rw [vertex_modes two_ne _ _ (hf.two _ he) _ _ _ hcol (notApex_of_away tol ht _ _ haway)]

/-! ### Projection -/

theorem sum_congr_map {α : Type*} (l : List α) (f g : α → K) (h : ∀ x ∈ l, f x = g x) : (l.map f).sum = (l.map g).sum := by
  rw [List.map_congr_left h]

/-- **C86, the total.** The integral of the projected field is the sum of the weights of the particles, for every field (discontinuous or continuous) whose space contains the constant one. No condition on
the positions is needed. -/
theorem total_charge (exps : List Expansion) (ndim N : ℕ) (hf : FieldOk exps ndim N) (cells : List Expansion) (hc : ∀ e ∈ cells, e ∈ exps)
    (parts : ℕ → List (FullParticle K)) (layers : ℕ → List ℕ) (eta : ℕ → ℕ → K × K × K) (f : FieldOps K) (x : String × ℤ) (V : Set (List K))
    (rule : Expansion → List (QPoint K)) (hs : SolvesMass N V (inner exps rule) f.solve)
    (one : List K) (hone : IsVertexField exps N (fun _ _ => 1) one) (hV : one ∈ V) :
    integral exps rule (fun _ _ => 1) (f.solve (rhsOf cells N parts layers eta x)) =
      overParticles cells.length layers fun c l => weight (view x.1 parts) x.2.toNat c l := by
  have hval : ∀ e ∈ exps, ∀ p, valueAt e p one = 1 := fun e he p => by
    rw [valueAt_vertexField exps ndim N hf _ one hone e he, constant_modes two_ne _ _ (hf.two e he)]
  have h := (projected_field_weak_form cells N parts layers eta f x V (inner exps rule) hs).2.2 one hV hone.length
    fun c hcl l _ => hval _ (elementOf_mem exps cells hc c hcl) _
  rw [← h]
  unfold inner integral
  refine sum_congr_map _ _ _ fun e he => sum_congr_map _ _ _ fun p _ => ?_
  simp only [hval e he]

/-- **C86, the moments.** The integral of the projected field times the interpolation of any values at the vertices is the sum over the particles of the weight times the interpolation at the position of the
particle, if this function is in the space of the field. With a coordinate of the vertices: the centre of the charge of the field is the one of the particles. -/
theorem moments (exps : List Expansion) (ndim N : ℕ) (hf : FieldOk exps ndim N) (cells : List Expansion) (hc : ∀ e ∈ cells, e ∈ exps)
    (parts : ℕ → List (FullParticle K)) (layers : ℕ → List ℕ) (eta : ℕ → ℕ → K × K × K) (xi : ℕ → ℕ → K × K × K)
    (hxi : ∀ c < cells.length, ∀ l ∈ layers c, CollapsedOf (elementOf cells c).shape (xi c l) (eta c l) ∧ NotApex (elementOf cells c).shape (xi c l))
    (f : FieldOps K) (x : String × ℤ) (V : Set (List K)) (rule : Expansion → List (QPoint K))
    (hrule : ∀ e ∈ exps, ∀ p ∈ rule e, CollapsedOf e.shape p.xi p.eta ∧ NotApex e.shape p.xi) (hs : SolvesMass N V (inner exps rule) f.solve)
    (a : Expansion → ℕ → K) (v : List K) (hv : IsVertexField exps N a v) (hV : v ∈ V) :
    integral exps rule (fun e p => interpolate e.shape (a e) p.xi) (f.solve (rhsOf cells N parts layers eta x)) =
      overParticles cells.length layers fun c l => weight (view x.1 parts) x.2.toNat c l *
        interpolate (elementOf cells c).shape (a (elementOf cells c)) (xi c l) := by
  have h := (projected_field_weak_form cells N parts layers eta f x V (inner exps rule) hs).2.1 v hV hv.length
  have h1 : inner exps rule v (f.solve (rhsOf cells N parts layers eta x)) =
      integral exps rule (fun e p => interpolate e.shape (a e) p.xi) (f.solve (rhsOf cells N parts layers eta x)) := by
    unfold inner integral
    refine sum_congr_map _ _ _ fun e he => sum_congr_map _ _ _ fun p hp => ?_
    beta_reduce
    rw [valueAt_vertexField exps ndim N hf _ v hv e he,
      vertex_modes two_ne _ _ (hf.two e he) _ p.xi p.eta (hrule e he p hp).1 (hrule e he p hp).2]
  rw [← h1, h]
  refine overParticles_congr _ _ _ _ fun c hcl l hl => ?_
  have he := elementOf_mem exps cells hc c hcl
  rw [valueAt_vertexField exps ndim N hf _ v hv _ he, vertex_modes two_ne _ _ (hf.two _ he) _ _ _ (hxi c hcl l hl).1 (hxi c hcl l hl).2]

/-- **C86, element by element.** For a discontinuous field the integral over each single element is the sum of the weights of the particles in its cell(s). -/
theorem element_charge (exps : List Expansion) (ndim N : ℕ) (hf : FieldOk exps ndim N) (hd : DisjointBlocks exps) (cells : List Expansion)
    (hc : ∀ e ∈ cells, e ∈ exps) (parts : ℕ → List (FullParticle K)) (layers : ℕ → List ℕ) (eta : ℕ → ℕ → K × K × K) (f : FieldOps K)
    (x : String × ℤ) (rule : Expansion → List (QPoint K)) (hs : SolvesMass N Set.univ (inner exps rule) f.solve) (e : Expansion) (he : e ∈ exps) :
    ((rule e).map fun p => p.w * valueAt e p.eta (f.solve (rhsOf cells N parts layers eta x))).sum =
      overParticles cells.length layers fun c l => if (elementOf cells c).elmtId = e.elmtId then weight (view x.1 parts) x.2.toNat c l else 0 := by
  classical
  obtain ⟨v, hv⟩ := exists_vertexField exps ndim N hf hd fun e' _ => if e'.elmtId = e.elmtId then (1 : K) else 0
  have hval : ∀ e' ∈ exps, ∀ p, valueAt e' p v = if e'.elmtId = e.elmtId then 1 else 0 := fun e' he' p => by
    rw [valueAt_vertexField exps ndim N hf _ v hv e' he', constant_modes two_ne _ _ (hf.two e' he')]
  have h := (projected_field_weak_form cells N parts layers eta f x _ (inner exps rule) hs).2.1 v trivial hv.length
  have hr : (overParticles cells.length layers fun c l => weight (view x.1 parts) x.2.toNat c l * valueAt (elementOf cells c) (eta c l) v) =
      overParticles cells.length layers fun c l => if (elementOf cells c).elmtId = e.elmtId then weight (view x.1 parts) x.2.toNat c l else 0 := by
    refine overParticles_congr _ _ _ _ fun c hcl l _ => ?_
    rw [hval _ (elementOf_mem exps cells hc c hcl)]
    split_ifs <;> simp
  rw [← hr, ← h]
  generalize f.solve (rhsOf cells N parts layers eta x) = u
  unfold inner integral
  have hnd : (exps.map (·.elmtId)).Nodup := by rw [hf.ids]; exact List.nodup_range
  have hz : ∀ e' ∈ exps, ((rule e').map fun p => p.w * valueAt e' p.eta v * valueAt e' p.eta u).sum =
      if e' = e then ((rule e).map fun p => p.w * valueAt e p.eta u).sum else 0 := by
    intro e' he'
    by_cases hid : e'.elmtId = e.elmtId
    · have := List.inj_on_of_nodup_map hnd he' he hid
      subst this
      rw [if_pos rfl]
      refine sum_congr_map _ _ _ fun p _ => ?_
      rw [hval _ he', if_pos rfl, mul_one]
    · rw [if_neg (fun h => hid (by rw [h]))]
      refine List.sum_eq_zero fun y hy => ?_
      obtain ⟨p, -, rfl⟩ := List.mem_map.1 hy
      rw [hval _ he', if_neg hid, mul_zero, zero_mul]
  rw [sum_congr_map _ _ _ hz]
  have hndl : exps.Nodup := List.Nodup.of_map _ hnd
  clear hz hval hr h hv hnd hs hc hf hd
  induction exps with
  | nil => simp at he
  | cons a l ih =>
    rw [List.map_cons, List.sum_cons]
    have hnd := List.nodup_cons.1 hndl
    by_cases ha : a = e
    · subst ha
      rw [if_pos rfl]
      have : (l.map fun e' => if e' = a then ((rule a).map fun p => p.w * valueAt a p.eta u).sum else 0).sum = 0 := by
        refine List.sum_eq_zero fun y hy => ?_
        obtain ⟨b, hb, rfl⟩ := List.mem_map.1 hy
        rw [if_neg]
        rintro rfl
        exact hnd.1 hb
      rw [this, add_zero]
    · rw [if_neg ha, zero_add]
      exact ih ((List.mem_cons.1 he).resolve_left (Ne.symm ha)) hnd.2

/-- **C86, the call.** Whatever the positions of the particles and the order of the atomic additions: if projecting components of the particles onto fields completes, the integral of each field is the sum of its component over exactly the
selected particles. -/
theorem projection_conserves (tol : K) (exps : List Expansion) (ndim N : ℕ) (hf : FieldOk exps ndim N) (cells : List Expansion)
    (hc : ∀ e ∈ cells, e ∈ exps) (parts : ℕ → List (FullParticle K)) (layers : ℕ → List ℕ) (ncomp : String → Option ℕ)
    (hp : ∀ c < cells.length, ∀ l ∈ layers c, ∃ p, (parts c)[l]? = some p ∧ ndim ≤ p.ref.length ∧
      ∀ sym n, ncomp sym = some n → (p.dats sym).length = n)
    (fields : List (FieldOps K)) (syms : List String) (components : List ℤ)
    (V : Set (List K)) (rule : Expansion → List (QPoint K)) (hs : ∀ f ∈ fields, SolvesMass N V (inner exps rule) f.solve)
    (one : List K) (hone : IsVertexField exps N (fun _ _ => 1) one) (hV : one ∈ V) :
    ∃ s, Base.build exps (cells.map (·.gid)) = some s ∧
    ∀ mem : Shape × ℕ × ℕ → List (Dbl K), (∀ w, sumMaxModes s w.1 ≤ (mem w).length) →
      ∀ res, ProjectFieldsTo tol s ndim fields ncomp parts layers syms components mem N res →
        res.map (fun r => integral exps rule (fun _ _ => 1) r.coeffs) = (syms.zip components).map fun x =>
          overParticles cells.length layers fun c l => weight (view x.1 parts) x.2.toNat c l := by
  obtain ⟨s, hs', h⟩ := project_fields tol exps ndim N hf cells hc parts layers
    (fun c l => let x := refPoint ndim ((((parts c)[l]?).map (·.ref)).getD []); collapse tol (elementOf cells c).shape x.1 x.2.1 x.2.2) ncomp
    (fun c e he l hl => by
      obtain ⟨p, h1, h2, h3⟩ := hp c (List.getElem?_eq_some_iff.1 he).1 l hl
      refine ⟨p, h1, h2, h3, ?_⟩
      rw [show elementOf cells c = e by simp [elementOf, he], h1]
      exact ⟨rfl, rfl, fun _ _ => rfl⟩) fields syms components
  refine ⟨s, hs', fun mem hm res hr => ?_⟩
  obtain ⟨⟨l1, l2, -⟩, -, rfl⟩ := (h mem hm res).1 hr
  rw [List.map_map]
  refine List.ext_getElem (by simp; omega) fun i h1 h2 => ?_
  simp only [List.getElem_map, List.getElem_zip, Function.comp_apply]
  exact total_charge exps ndim N hf cells hc parts layers _ _ _ V rule (hs _ (List.getElem_mem _)) one hone hV

end field

/-! ### The example of C78: a triangle and a quadrilateral of order two -/

/-- The vertices as quadrature points. -/
def exRule (e : Expansion) : List (QPoint ℚ) :=
  match e.shape with
  | .tri => [⟨1, (-1, -1, 0), (-1, -1, 0)⟩, ⟨1, (1, -1, 0), (1, -1, 0)⟩, ⟨1, (-1, 1, 0), (-1, 1, 0)⟩]
  | _ => [⟨1, (-1, -1, 0), (-1, -1, 0)⟩, ⟨1, (1, -1, 0), (1, -1, 0)⟩, ⟨1, (1, 1, 0), (1, 1, 0)⟩, ⟨1, (-1, 1, 0), (-1, 1, 0)⟩]

/-- With these points the mass matrix is the identity: the contract of the solver is met. -/
theorem exSolves : SolvesMass (K := ℚ) 7 Set.univ (inner exampleField exRule) id := by
  intro b hb
  refine ⟨trivial, fun v _ hv => ?_⟩
  match b, hb, v, hv with
  | [b0, b1, b2, b3, b4, b5, b6], _, [v0, v1, v2, v3, v4, v5, v6], _ =>
    simp [Verif.Spec.dot, inner, integral, exampleField, exRule, valueAt, List.range_succ, modeAt, basisAt, order, expansionQuad, expansionTri, modesB, evalModA, evalModB]
    norm_num
    ring

theorem exDisjoint : DisjointBlocks exampleField := by unfold DisjointBlocks; decide

theorem exRule_ok : ∀ e ∈ exampleField, ∀ p ∈ exRule e, CollapsedOf e.shape p.xi p.eta ∧ NotApex e.shape p.xi := by
  simp [exampleField, exRule, CollapsedOf, NotApex]
  norm_num

/-- Two particles of weights 3 and 4 in the quadrilateral and one of weight 5 in the triangle: the field has the integrals 7 and 5. -/
def exParts (c : ℕ) : List (FullParticle ℚ) :=
  if c = 0 then [⟨[1 / 2, -1 / 2], fun _ => [3]⟩, ⟨[0, 0], fun _ => [4]⟩] else [⟨[0, -1 / 2], fun _ => [5]⟩]

example (eta : ℕ → ℕ → ℚ × ℚ × ℚ) :
    (((exRule ⟨7, 1, .quad, [2, 2], 4, 0⟩).map fun p => p.w * valueAt ⟨7, 1, .quad, [2, 2], 4, 0⟩ p.eta
      (rhsOf exampleField.reverse 7 exParts (fun c => if c = 0 then [0, 1] else [0]) eta ("Q", 0))).sum = 7) := by
  have := element_charge exampleField 2 7 exampleField_ok exDisjoint exampleField.reverse (by simp) exParts (fun c => if c = 0 then [0, 1] else [0]) eta
    ⟨id, id⟩ ("Q", 0) exRule exSolves ⟨7, 1, .quad, [2, 2], 4, 0⟩ (by simp [exampleField])
  rw [show (⟨id, id⟩ : FieldOps ℚ).solve = id from rfl, id] at this
  rw [this]
  simp [overParticles, exampleField, List.range_succ, elementOf, weight, view, exParts]
  norm_num

/-- The constant one of this field is the vector of ones. -/
example : IsVertexField (K := ℚ) exampleField 7 (fun _ _ => 1) [1, 1, 1, 1, 1, 1, 1] where
  length := rfl
  coeffs := by
    intro e he k hk
    simp only [exampleField, List.mem_cons, List.not_mem_nil, or_false] at he
    rcases he with rfl | rfl <;> simp only at hk <;> interval_cases k <;>
      simp [vertexCoeffs, modesOf, modesB, order, List.range_succ, vertexOf]

/-- With four modes the vector of a tetrahedron has zeros: its vertex modes are the modes 0, 1, 4 and 10. -/
example : vertexCoeffs (K := ℚ) .tet 4 (fun v => v + 1) = [1, 4, 0, 0, 3, 0, 0, 0, 0, 0, 2, 0, 0, 0, 0, 0, 0, 0, 0, 0] := by
  simp [vertexCoeffs, modesOf, modesC, List.range_succ, vertexOf]
  norm_num

end Verif.Props.C86
