import Verif.Lemmas.Expansion2
import Mathlib.Algebra.Order.Field.Basic
import Mathlib.Tactic.Linarith
import Mathlib.Tactic.NormNum

/-! C13: the kernels that evaluate a field at a particle. -/

namespace Verif.Props.C13
open Verif.Spec Verif.Model Verif.Model.JacobiCoeff Verif.Model.BasisReference Verif.Model.BasisEvaluation
  Verif.Model.BasisEvaluateBase Verif.Model.ExpansionLooping Verif.Lemmas

variable {K : Type*} [Field K]

/-- The basis functions of an element at a collapsed point, in the order of the degrees of freedom (Spec/Expansion.lean), made of the
reference functions in one direction. -/
def basisAt [DecidableEq K] (shape : Shape) (n : ℕ) (e0 e1 e2 : K) : List K :=
  let a := fun (z : K) (p : ℕ) => evalModA p z
  match shape with
  | .tri => expansionTri n (a e0) fun p q => evalModB p q e1
  | .quad => expansionQuad n (a e0) (a e1)
  | .hex => expansionHex n (a e0) (a e1) (a e2)
  | .prism => expansionPrism n (a e0) (a e1) fun p q => evalModB p q e2
  | .pyr => expansionPyr n (a e0) (a e1) fun p q r => evalModPyrC p q r e2
  | .tet => expansionTet n (a e0) (fun p q => evalModB p q e1) fun p q r => evalModC p q r e2

/-- The collapsed point is not at the collapsed end of a direction with a modified B, C or pyramid C basis. -/
def OffCollapsed (shape : Shape) (e1 e2 : K) : Prop :=
  match shape with
  | .tri => e1 ≠ 1
  | .quad | .hex => True
  | .prism | .pyr => e2 ≠ 1
  | .tet => e1 ≠ 1 ∧ e2 ≠ 1

section
variable [DecidableEq K]

theorem dotMap (dofs e : List K) : ddot dofs (e.map some) = some (dot dofs e) := by
  unfold ddot dot
  rw [List.zipWith_map_right]
  have : ∀ (l : List K) (m : List K) (x : K),
      (List.zipWith (fun c e => Dbl.mul (some c) (some e)) l m).foldl Dbl.add (some x) =
        some (x + (List.zipWith (· * ·) l m).sum) := by
    intro l
    induction l with
    | nil => intro m x; simp
    | cons c cs ih =>
      intro m x
      cases m with
      | nil => simp
      | cons y ys =>
        rw [List.zipWith_cons_cons, List.foldl_cons, Dbl.mul_some, Dbl.add_some, ih, List.zipWith_cons_cons,
          List.sum_cons, add_assoc]
  rw [this, zero_add]

theorem dExpansion_eq (shape : Shape) (n : ℕ) (e0 e1 e2 : K) (h : OffCollapsed shape e1 e2) :
    dExpansion shape n e0 e1 e2 = (basisAt shape n e0 e1 e2).map some := by
  cases shape <;> simp only [OffCollapsed] at h <;>
    simp only [dExpansion, basisAt, rows2_zero, rows3, List.range_zero, List.flatMap_nil, List.append_nil, expansionTri, expansionQuad,
      expansionHex, expansionPrism, expansionPyr, expansionTet, modesB, modesC, modesPyr, List.map_flatMap,
      List.map_map]
  · refine List.flatMap_congr fun p _ => List.map_congr_left fun q _ => ?_
    simp only [dTri, valB, h, ne_eq, not_false_eq_true, or_true, if_true, Function.comp_apply]
    split_ifs <;> simp
  · refine List.flatMap_congr fun p _ => List.map_congr_left fun q _ => ?_
    simp [dQuad]
  · refine List.flatMap_congr fun p _ => List.flatMap_congr fun q _ => List.map_congr_left fun r _ => ?_
    simp [dHex]
  · refine List.flatMap_congr fun p _ => List.flatMap_congr fun q _ => List.map_congr_left fun r _ => ?_
    simp only [dPrism, valB, h, ne_eq, not_false_eq_true, or_true, if_true, Function.comp_apply, Dbl.mul_some]
    split_ifs <;> rfl
  · refine List.flatMap_congr fun p _ => List.flatMap_congr fun q _ => List.map_congr_left fun r _ => ?_
    simp only [dPyr, valPyr, h, ne_eq, not_false_eq_true, or_true, if_true, Function.comp_apply, Dbl.mul_some]
    split_ifs <;> rfl
  · refine List.flatMap_congr fun p _ => List.flatMap_congr fun q _ => List.map_congr_left fun r _ => ?_
    simp only [dTet, valB, h.1, h.2, ne_eq, not_false_eq_true, or_true, if_true, Function.comp_apply, Dbl.mul_some,
      evalModC]
    split_ifs <;> rfl

theorem loop_nest2 (n : ℕ) (m : ℕ → ℕ) (e : ℕ → ℕ → K) (body : ℕ → ℕ → List K → List K)
    (h : ∀ p < n, ∀ q < m p, body p q (rows2 p q m e) = rows2 p (q + 1) m e) :
    loop n (fun p b => loop (m p) (body p) b) [] = rows2 n 0 m e := by
  refine loop_eq n _ (fun p => rows2 p 0 m e) _ rfl fun p hp => ?_
  rw [loop_eq (m p) (body p) (fun q => rows2 p q m e) _ rfl (h p hp), rows2_full]

theorem loop_nest3 (n : ℕ) (m : ℕ → ℕ) (k : ℕ → ℕ → ℕ) (e : ℕ → ℕ → ℕ → K) (body : ℕ → ℕ → ℕ → List K → List K)
    (h : ∀ p < n, ∀ q < m p, ∀ r < k p q, body p q r (rows3 p q r m k e) = rows3 p q (r + 1) m k e) :
    loop n (fun p b => loop (m p) (fun q b => loop (k p q) (body p q) b) b) [] = rows3 n 0 0 m k e := by
  refine loop_eq n _ (fun p => rows3 p 0 0 m k e) _ rfl fun p hp => ?_
  rw [← rows3_full']
  refine loop_eq (m p) _ (fun q => rows3 p q 0 m k e) _ rfl fun q hq => ?_
  rw [← rows3_full]
  exact loop_eq (k p q) _ (fun r => rows3 p q r m k e) _ rfl (h p hp q hq)

/-- The reference implementation `eval_modes` computes the basis functions in the order of the degrees of freedom,
one for each of them. -/
theorem eval_modes_is_basis (shape : Shape) (n : ℕ) (e0 e1 e2 : K) :
    evalModes shape n e0 e1 e2 = basisAt shape n e0 e1 e2 ∧
    (basisAt shape n e0 e1 e2).length = (totalNumModesShape shape n).mode := by
  have hl : evalModes shape n e0 e1 e2 = basisAt shape n e0 e1 e2 := by
    cases shape <;> simp only [evalModes, basisAt, expansionTri, expansionQuad,
      expansionHex, expansionPrism, expansionPyr, expansionTet, modesB, modesC, modesPyr, List.map_flatMap,
      List.map_map]
    · refine (loop_nest2 n (fun p => n - p) (fun p q => if p = 0 ∧ q = 1 then evalModB p q e1
          else evalModA p e0 * evalModB p q e1) _ ?_).trans (by rw [rows2_zero]; rfl)
      intro p hp q hq
      rw [rows2_succ, length_rows2]
      by_cases h : p = 0 ∧ q = 1
      · rw [if_pos ((one_iff2 hp).mpr h), if_pos h, one_mul]
      · rw [if_neg fun h' => h ((one_iff2 hp).mp h'), if_neg h]
    · refine (loop_nest2 n (fun _ => n) (fun q p => evalModA p e0 * evalModA q e1) _ ?_).trans (by rw [rows2_zero])
      intro p hp q hq
      rw [rows2_succ]
    · refine (loop_nest3 n (fun _ => n) (fun _ _ => n) (fun r q p => evalModA p e0 * evalModA q e1 * evalModA r e2) _
        ?_).trans (by rw [rows3, rows2_nil, List.append_nil])
      intro p hp q hq r hr
      rw [rows3_succ]
    · refine (loop_nest3 n (fun _ => n) (fun p _ => n - p) (fun p q r => if p = 0 ∧ r = 1 then
        evalModA q e1 * evalModB p r e2 else evalModA p e0 * evalModA q e1 * evalModB p r e2) _
        ?_).trans (by rw [rows3, rows2_nil, List.append_nil])
      intro p hp q hq r hr
      rw [rows3_succ]
    · refine (loop_nest3 n (fun _ => n) (fun p q => n - max p q) (fun p q r => if p = 0 ∧ q = 0 ∧ r = 1 then
        evalModPyrC p q r e2 else evalModA p e0 * evalModA q e1 * evalModPyrC p q r e2) _
        ?_).trans (by rw [rows3, rows2_nil, List.append_nil]; rfl)
      intro p hp q hq r hr
      have hone := one_iff3 (r := r) (fun _ => n) (fun p q => n - max p q) hp hq rfl (by simp) (fun _ => hq)
      rw [rows3_succ, length_rows3]
      by_cases h : p = 0 ∧ q = 0 ∧ r = 1
      · rw [if_pos (hone.mpr h), if_pos h]
      · rw [if_neg fun h' => h (hone.mp h'), if_neg h]
    · refine (loop_nest3 n (fun p => n - p) (fun p q => n - p - q) (fun p q r => if p = 0 ∧ q = 0 ∧ r = 1 then
        evalModC p q r e2 else if p = 0 ∧ q = 1 then evalModB p q e1 * evalModC p q r e2
        else evalModA p e0 * evalModB p q e1 * evalModC p q r e2) _
        ?_).trans (by rw [rows3, rows2_nil, List.append_nil]; rfl)
      intro p hp q hq r hr
      have hone := one_iff3 (r := r) (fun p => n - p) (fun p q => n - p - q) hp hq rfl (by simp) (fun _ => by omega)
      rw [rows3_succ, length_rows3]
      by_cases h : p = 0 ∧ q = 0 ∧ r = 1
      · rw [if_pos (hone.mpr h), if_pos h]
      · rw [if_neg fun h' => h (hone.mp h'), if_neg h]
  refine ⟨hl, ?_⟩
  cases shape <;> simp only [basisAt, expansionTri, expansionQuad, expansionHex, expansionPrism, expansionPyr,
    expansionTet, List.length_map, length_flatMap_range, List.length_range]
  · rw [shape_tri]; simp only [modesB, length_flatMap_range, List.length_map, List.length_range]
  · rw [sum_const']; simp [totalNumModesShape]
  · rw [sum_const', sum_const', ← Nat.mul_assoc]; simp [totalNumModesShape]
  · rw [shape_prism]
  · rw [shape_pyr]; simp only [modesPyr, length_flatMap_range, List.length_map, List.length_range]
  · rw [shape_tet]; simp only [modesC, length_flatMap_range, List.length_map, List.length_range]

end

variable [LinearOrder K] [IsStrictOrderedRing K]

/-- The evaluation of a field at a particle: for every mesh (list of cells), every cell of it with at least two modes in each direction, local memory of the allocated
size with any content, degrees of freedom and reference position whose collapsed coordinates are not at the collapsed
end, the kernel has no access outside of its buffers or tables and returns the expansion of `eval_modes`. What is missing for the full claim:
the collapsed end, where the value is not finite (`evaluate_not_finite_triangle_vertex`, `evaluate_not_finite_tet_edge`). -/
theorem evaluate_is_reference_partial (tol : K) (cells : List (Shape × ℕ)) (shape : Shape) (n : ℕ)
    (hc : (shape, n) ∈ cells) (h2 : 2 ≤ n) (xi : K × K × K) (s0 s1 s2 : List (Dbl K))
    (hs0 : spaceSize shape n 0 ≤ s0.length) (hs1 : spaceSize shape n 1 ≤ s1.length)
    (hs2 : spaceSize shape n 2 ≤ s2.length) (dofs : List K) (hd : (totalNumModesShape shape n).mode ≤ dofs.length)
    (e0 e1 e2 : K) (he : collapse tol shape xi.1 xi.2.1 xi.2.2 = (e0, e1, e2)) (hoff : OffCollapsed shape e1 e2) :
    evaluateParticle tol (tables K cells) shape n xi s0 s1 s2 dofs =
      some (some (dot dofs (evalModes shape n e0 e1 e2))) := by
  obtain ⟨l, hl, hev, _⟩ := particle_loops tol cells shape n hc h2 xi s0 s1 s2 hs0 hs1 hs2
  rw [evaluateParticle, hl, Option.bind_some, hev dofs hd, he, dExpansion_eq _ _ _ _ _ hoff, dotMap,
    (eval_modes_is_basis shape n e0 e1 e2).1]

/-! ### The collapsed coordinates of a reference position, independently of the code -/

/-- `e` are the collapsed coordinates of the reference position `x`: each collapsed direction maps `[-1, 1]` affinely onto the extent of the reference element at
the remaining coordinates. (The third coordinates of two dimensional shapes play no role.) -/
def CollapsedOf (shape : Shape) (x e : K × K × K) : Prop :=
  match shape with
  | .tri => 2 * (1 + x.1) = (1 + e.1) * (1 - x.2.1) ∧ e.2.1 = x.2.1
  | .quad => e.1 = x.1 ∧ e.2.1 = x.2.1
  | .hex => e = x
  | .prism => 2 * (1 + x.1) = (1 + e.1) * (1 - x.2.2) ∧ e.2.1 = x.2.1 ∧ e.2.2 = x.2.2
  | .pyr => 2 * (1 + x.1) = (1 + e.1) * (1 - x.2.2) ∧ 2 * (1 + x.2.1) = (1 + e.2.1) * (1 - x.2.2) ∧ e.2.2 = x.2.2
  | .tet => 2 * (1 + x.1) = (1 + e.1) * (-x.2.1 - x.2.2) ∧ 2 * (1 + x.2.1) = (1 + e.2.1) * (1 - x.2.2) ∧ e.2.2 = x.2.2

/-- The reference position is at least `tol` away from the collapsed edges and vertices of the element. -/
def AwayFromCollapsed (tol : K) (shape : Shape) (x : K × K × K) : Prop :=
  match shape with
  | .tri => tol ≤ |1 - x.2.1|
  | .quad | .hex => True
  | .prism | .pyr => tol ≤ |1 - x.2.2|
  | .tet => tol ≤ |1 - x.2.2| ∧ tol ≤ |x.2.1 + x.2.2|

omit [IsStrictOrderedRing K] in
theorem zeroGuard_eq {tol d : K} (h : tol ≤ |d|) : CoordMap.zeroGuard tol d = d := by
  unfold CoordMap.zeroGuard; rw [if_neg (not_lt.2 h)]

/-- Away from the collapsed end the code computes the collapsed coordinates, and they are off the collapsed end. -/
theorem collapse_spec (tol : K) (ht : 0 < tol) (shape : Shape) (x e : K × K × K) (he : CollapsedOf shape x e) (ha : AwayFromCollapsed tol shape x) :
    ((collapse tol shape x.1 x.2.1 x.2.2).1 = e.1 ∧ (collapse tol shape x.1 x.2.1 x.2.2).2.1 = e.2.1 ∧
      (shape ≠ .tri → shape ≠ .quad → (collapse tol shape x.1 x.2.1 x.2.2).2.2 = e.2.2)) ∧ OffCollapsed shape e.2.1 e.2.2 := by
  obtain ⟨x0, x1, x2⟩ := x
  obtain ⟨e0, e1, e2⟩ := e
  have ne : ∀ d : K, tol ≤ |d| → d ≠ 0 := by
    rintro d h rfl; rw [abs_zero] at h; exact absurd ht (not_lt.2 h)
  have quot : ∀ a b d : K, d ≠ 0 → 2 * (1 + a) = (1 + b) * d → 2 * (1 + a) / d - 1 = b := by
    intro a b d hd h; rw [h, mul_div_assoc, div_self hd]; ring
  cases shape with
  | quad => exact ⟨⟨he.1.symm, he.2.symm, fun _ h => absurd rfl h⟩, trivial⟩
  | hex =>
    obtain ⟨rfl, rfl, rfl⟩ : e0 = x0 ∧ e1 = x1 ∧ e2 = x2 := by
      have := he; simp only [CollapsedOf, Prod.mk.injEq] at this; exact this
    exact ⟨⟨rfl, rfl, fun _ _ => rfl⟩, trivial⟩
  | tri =>
    simp only [CollapsedOf] at he
    simp only [AwayFromCollapsed] at ha
    obtain ⟨h0, rfl⟩ := he
    have k := ne _ ha
    refine ⟨⟨?_, rfl, fun h => absurd rfl h⟩, fun h => ?_⟩
    · simp only [collapse, CoordMap.triToCollapsed]
      rw [if_neg (fun h => not_lt.2 ha h.1), if_neg (fun h => not_lt.2 ha h.1)]
      exact quot _ _ _ k h0
    · exact k (by dsimp only at h; rw [h]; ring)
  | prism =>
    simp only [CollapsedOf] at he
    simp only [AwayFromCollapsed] at ha
    obtain ⟨h0, rfl, rfl⟩ := he
    have k := ne _ ha
    refine ⟨⟨?_, rfl, fun _ _ => rfl⟩, fun h => ?_⟩
    · simp only [collapse, CoordMap.prismToCollapsed, zeroGuard_eq ha]
      exact quot _ _ _ k h0
    · exact k (by dsimp only at h; rw [h]; ring)
  | pyr =>
    simp only [CollapsedOf] at he
    simp only [AwayFromCollapsed] at ha
    obtain ⟨h0, h1, rfl⟩ := he
    have k := ne _ ha
    refine ⟨⟨?_, ?_, fun _ _ => rfl⟩, fun h => ?_⟩
    · simp only [collapse, CoordMap.pyrToCollapsed, zeroGuard_eq ha]
      exact quot _ _ _ k h0
    · simp only [collapse, CoordMap.pyrToCollapsed, zeroGuard_eq ha]
      exact quot _ _ _ k h1
    · exact k (by dsimp only at h; rw [h]; ring)
  | tet =>
    simp only [CollapsedOf] at he
    simp only [AwayFromCollapsed] at ha
    obtain ⟨h0, h1, rfl⟩ := he
    have ha2 : tol ≤ |-x1 - e2| := by rw [← abs_neg]; convert ha.2 using 2; ring
    have k := ne _ ha.1
    have k2 := ne _ ha2
    refine ⟨⟨?_, ?_, fun _ _ => rfl⟩, fun h => ?_, fun h => ?_⟩
    · simp only [collapse, CoordMap.tetToCollapsed, zeroGuard_eq ha2]
      exact quot _ _ _ k2 h0
    · simp only [collapse, CoordMap.tetToCollapsed, zeroGuard_eq ha.1]
      exact quot _ _ _ k h1
    · refine k2 ?_
      dsimp only at h
      rw [h] at h1
      have h2 : (2 : K) * (-x1 - e2) = 0 := by linear_combination -h1
      exact (mul_eq_zero.1 h2).resolve_left (by norm_num)
    · exact k (by dsimp only at h; rw [h]; ring)

omit [LinearOrder K] [IsStrictOrderedRing K] in
theorem evalModes_2d [DecidableEq K] (shape : Shape) (n : ℕ) (e0 e1 e2 e2' : K) (h : shape = .tri ∨ shape = .quad) :
    evalModes shape n e0 e1 e2 = evalModes shape n e0 e1 e2' := by
  rcases h with rfl | rfl <;> rfl

/-- **C13, in terms of reference positions.** As `evaluate_is_reference_partial`, for every reference position at least the tolerance away from the collapsed
edges and vertices, with its collapsed coordinates given by the definition of `CollapsedOf`. -/
theorem evaluate_at_reference_position_partial (tol : K) (ht : 0 < tol) (cells : List (Shape × ℕ)) (shape : Shape) (n : ℕ)
    (hc : (shape, n) ∈ cells) (h2 : 2 ≤ n) (xi : K × K × K) (s0 s1 s2 : List (Dbl K))
    (hs0 : spaceSize shape n 0 ≤ s0.length) (hs1 : spaceSize shape n 1 ≤ s1.length)
    (hs2 : spaceSize shape n 2 ≤ s2.length) (dofs : List K) (hd : (totalNumModesShape shape n).mode ≤ dofs.length)
    (e : K × K × K) (he : CollapsedOf shape xi e) (ha : AwayFromCollapsed tol shape xi) :
    evaluateParticle tol (tables K cells) shape n xi s0 s1 s2 dofs =
      some (some (dot dofs (evalModes shape n e.1 e.2.1 e.2.2))) := by
  obtain ⟨⟨g0, g1, g2⟩, hoff⟩ := collapse_spec tol ht shape xi e he ha
  by_cases h3 : shape = .tri ∨ shape = .quad
  · rw [evaluate_is_reference_partial tol cells shape n hc h2 xi s0 s1 s2 hs0 hs1 hs2 dofs hd e.1 e.2.1
      (collapse tol shape xi.1 xi.2.1 xi.2.2).2.2 (by rw [← g0, ← g1]) (by rcases h3 with rfl | rfl <;> exact hoff),
      evalModes_2d shape n e.1 e.2.1 _ e.2.2 h3]
  · have g2' := g2 (fun h => h3 (Or.inl h)) (fun h => h3 (Or.inr h))
    exact evaluate_is_reference_partial tol cells shape n hc h2 xi s0 s1 s2 hs0 hs1 hs2 dofs hd e.1 e.2.1 e.2.2
      (by rw [← g0, ← g1, ← g2']) hoff

section
omit [LinearOrder K] [IsStrictOrderedRing K]
variable [DecidableEq K]

theorem foldl_add_none (l : List (Dbl K)) : l.foldl Dbl.add none = none := by
  induction l with
  | nil => rfl
  | cons a l ih => rw [List.foldl_cons]; exact ih

theorem foldl_none_of_mem (l : List (Dbl K)) (x : Dbl K) (h : none ∈ l) : l.foldl Dbl.add x = none := by
  induction l generalizing x with
  | nil => simp at h
  | cons a l ih =>
    rw [List.foldl_cons]
    rcases List.mem_cons.mp h with h | h
    · rw [← h, show Dbl.add x none = none by cases x <;> rfl, foldl_add_none]
    · exact ih _ h

theorem ddot_none (dofs : List K) (e : List (Dbl K)) (i : ℕ) (hi : i < dofs.length) (h : e[i]? = some none) :
    ddot dofs e = none := by
  unfold ddot
  refine foldl_none_of_mem _ _ ?_
  obtain ⟨hi', he⟩ := List.getElem?_eq_some_iff.mp h
  rw [List.mem_iff_getElem]
  exact ⟨i, by simp; omega, by simp [he]⟩
end

omit [LinearOrder K] [IsStrictOrderedRing K] in
/-- At the collapsed end some mode is not finite. -/
theorem dExpansion_none [DecidableEq K] (shape : Shape) (n : ℕ) (h2 : 2 ≤ n) (e0 e1 e2 : K) (h : ¬ OffCollapsed shape e1 e2) :
    none ∈ dExpansion shape n e0 e1 e2 := by
  cases shape with
  | quad => exact absurd trivial h
  | hex => exact absurd trivial h
  | tri =>
    simp only [OffCollapsed, ne_eq, not_not] at h
    rw [dExpansion]
    refine List.mem_of_getElem? ((getElem?_rows2 n (fun p => n - p) _ 1 0 (by omega) (by omega)).trans ?_)
    simp [dTri, valB, h]
  | prism =>
    simp only [OffCollapsed, ne_eq, not_not] at h
    rw [dExpansion]
    refine List.mem_of_getElem? ((getElem?_rows3 n (fun _ => n) (fun p _ => n - p) _ 1 0 0 (by omega) (by omega) (by omega)).trans ?_)
    simp [dPrism, valB, h]
  | pyr =>
    simp only [OffCollapsed, ne_eq, not_not] at h
    rw [dExpansion]
    refine List.mem_of_getElem? ((getElem?_rows3 n (fun _ => n) (fun p q => n - max p q) _ 1 0 0 (by omega) (by omega) (by simp; omega)).trans ?_)
    simp [dPyr, valPyr, h]
  | tet =>
    rw [dExpansion]
    refine List.mem_of_getElem? ((getElem?_rows3 n (fun p => n - p) (fun p q => n - p - q) _ 1 0 0 (by omega) (by omega) (by omega)).trans ?_)
    simp only [OffCollapsed, ne_eq, not_and_or, not_not] at h
    rcases h with h | h <;> simp [dTet, valB, h]

/-- `e` are the collapsed coordinates the code computes for the reference position `x` (third coordinates of two dimensional shapes play no role). Away from the collapsed edges and
vertices these are the collapsed coordinates (`collapse_spec`); closer than the tolerance the distance is replaced by the tolerance (see C07). -/
def CodeEta (tol : K) (shape : Shape) (x e : K × K × K) : Prop :=
  (collapse tol shape x.1 x.2.1 x.2.2).1 = e.1 ∧ (collapse tol shape x.1 x.2.1 x.2.2).2.1 = e.2.1 ∧
    (shape ≠ .tri → shape ≠ .quad → (collapse tol shape x.1 x.2.1 x.2.2).2.2 = e.2.2)

omit [LinearOrder K] [IsStrictOrderedRing K] in
theorem offCollapsed_2d (shape : Shape) (e1 e2 e2' : K) (h : shape = .tri ∨ shape = .quad) : OffCollapsed shape e1 e2 ↔ OffCollapsed shape e1 e2' := by
  rcases h with rfl | rfl <;> rfl

open Classical in
/-- **C13, all reference positions.** The evaluation never has an access outside of its buffers; its value is the expansion at the collapsed coordinates the code computes if these are not exactly at the collapsed
end, and not finite otherwise. -/
theorem evaluate_all (tol : K) (cells : List (Shape × ℕ)) (shape : Shape) (n : ℕ)
    (hc : (shape, n) ∈ cells) (h2 : 2 ≤ n) (xi : K × K × K) (s0 s1 s2 : List (Dbl K))
    (hs0 : spaceSize shape n 0 ≤ s0.length) (hs1 : spaceSize shape n 1 ≤ s1.length)
    (hs2 : spaceSize shape n 2 ≤ s2.length) (dofs : List K) (hd : (totalNumModesShape shape n).mode ≤ dofs.length)
    (e : K × K × K) (he : CodeEta tol shape xi e) :
    evaluateParticle tol (tables K cells) shape n xi s0 s1 s2 dofs =
      some (if OffCollapsed shape e.2.1 e.2.2 then some (dot dofs (evalModes shape n e.1 e.2.1 e.2.2)) else none) := by
  have key : ∀ e0 e1 e2 : K, collapse tol shape xi.1 xi.2.1 xi.2.2 = (e0, e1, e2) →
      evaluateParticle tol (tables K cells) shape n xi s0 s1 s2 dofs =
      some (if OffCollapsed shape e1 e2 then some (dot dofs (evalModes shape n e0 e1 e2)) else none) := by
    intro e0 e1 e2 h
    by_cases hoff : OffCollapsed shape e1 e2
    · rw [if_pos hoff]
      exact evaluate_is_reference_partial tol cells shape n hc h2 xi s0 s1 s2 hs0 hs1 hs2 dofs hd e0 e1 e2 h hoff
    · rw [if_neg hoff]
      obtain ⟨l, hl, hev, _⟩ := particle_loops tol cells shape n hc h2 xi s0 s1 s2 hs0 hs1 hs2
      rw [evaluateParticle, hl, Option.bind_some, hev dofs hd, h]
      obtain ⟨i, hi⟩ := List.getElem?_of_mem (dExpansion_none shape n h2 e0 e1 e2 hoff)
      have hil := (List.getElem?_eq_some_iff.1 hi).1
      rw [length_dExpansion] at hil
      rw [ddot_none _ _ i (by omega) hi]
  obtain ⟨g0, g1, g2⟩ := he
  rw [key e.1 e.2.1 (collapse tol shape xi.1 xi.2.1 xi.2.2).2.2 (by rw [← g0, ← g1])]
  by_cases h3 : shape = .tri ∨ shape = .quad
  · rw [evalModes_2d shape n e.1 e.2.1 _ e.2.2 h3, if_congr (offCollapsed_2d shape e.2.1 _ e.2.2 h3) rfl rfl]
  · rw [g2 (fun h => h3 (Or.inl h)) (fun h => h3 (Or.inr h))]

/-- At the top vertex of a triangle the evaluation is not finite, whatever the degrees of freedom are, although the reference value is. -/
theorem evaluate_not_finite_triangle_vertex (tol : K) (cells : List (Shape × ℕ)) (n : ℕ)
    (hc : (.tri, n) ∈ cells) (h2 : 2 ≤ n) (x0 x2 : K) (s0 s1 s2 : List (Dbl K))
    (hs0 : spaceSize .tri n 0 ≤ s0.length) (hs1 : spaceSize .tri n 1 ≤ s1.length)
    (dofs : List K) (hd : (totalNumModesShape .tri n).mode ≤ dofs.length) :
    evaluateParticle tol (tables K cells) .tri n (x0, 1, x2) s0 s1 s2 dofs = some none := by
  obtain ⟨l, hl, hev, _⟩ := particle_loops tol cells .tri n hc h2 (x0, 1, x2) s0 s1 s2 hs0 hs1 (by simp [spaceSize])
  rw [evaluateParticle, hl, Option.bind_some, hev dofs hd]
  congr 1
  rw [shape_tri] at hd
  refine ddot_none _ _ _ (Nat.lt_of_lt_of_le (sum_lt_of (fun p => n - p) (p := 1) (q := 0) (by omega) (by omega)) hd) ?_
  rw [dExpansion]
  refine (getElem?_rows2 n (fun p => n - p) _ 1 0 (by omega) (by omega)).trans ?_
  simp [dTri, valB, collapse, CoordMap.triToCollapsed]

/-- On the edge `ξ₁ + ξ₂ = 0` of a tetrahedron the evaluation is not finite. -/
theorem evaluate_not_finite_tet_edge (tol : K) (ht : 0 < tol) (cells : List (Shape × ℕ)) (n : ℕ)
    (hc : (.tet, n) ∈ cells) (h2 : 2 ≤ n) (x2 : K) (hx : x2 ≤ 1 - tol) (s0 s1 s2 : List (Dbl K))
    (hs0 : spaceSize .tet n 0 ≤ s0.length) (hs1 : spaceSize .tet n 1 ≤ s1.length)
    (hs2 : spaceSize .tet n 2 ≤ s2.length)
    (dofs : List K) (hd : (totalNumModesShape .tet n).mode ≤ dofs.length) :
    evaluateParticle tol (tables K cells) .tet n (-1, -x2, x2) s0 s1 s2 dofs = some none := by
  obtain ⟨l, hl, hev, _⟩ := particle_loops tol cells .tet n hc h2 (-1, -x2, x2) s0 s1 s2 hs0 hs1 hs2
  rw [evaluateParticle, hl, Option.bind_some, hev dofs hd]
  congr 1
  rw [shape_tet] at hd
  refine ddot_none _ _ _ (Nat.lt_of_lt_of_le (sum_lt_of3 (fun p => n - p) (fun p q => n - p - q) (p := 1) (q := 0)
    (r := 0) (by omega) (by omega) (by omega)) hd) ?_
  rw [dExpansion]
  refine (getElem?_rows3 n (fun p => n - p) (fun p q => n - p - q) _ 1 0 0 (by omega) (by omega) (by omega)).trans ?_
  have hg : CoordMap.zeroGuard tol (1 - x2) = 1 - x2 := by
    unfold CoordMap.zeroGuard
    rw [if_neg]
    rw [abs_of_nonneg (by linarith)]; linarith
  have h1 : 2 * (1 + -x2) / (1 - x2) - 1 = 1 := by
    have : 1 - x2 ≠ 0 := by linarith
    rw [← sub_eq_add_neg, mul_div_assoc, div_self this]; norm_num
  simp [dTet, valB, collapse, CoordMap.tetToCollapsed, hg, h1]

/-- A tetrahedron with three modes and ten degrees of freedom meets the hypotheses of the theorem, at an interior point. -/
example : evaluateParticle (K := ℚ) (1 / 100) (tables ℚ [(.tri, 4), (.tet, 3)]) .tet 3 (-1 / 2, -1 / 2, -1 / 2)
    (List.replicate 3 none) (List.replicate 6 none) (List.replicate 10 none) [1, 2, 3, 4, 5, 6, 7, 8, 9, 10] =
    some (some (dot [1, 2, 3, 4, 5, 6, 7, 8, 9, 10] (evalModes .tet 3 0 (-1 / 3) (-1 / 2)))) := by
  refine evaluate_is_reference_partial _ _ .tet 3 (by simp) (by omega) _ _ _ _ (by decide) (by decide) (by decide) _
    (by decide) 0 (-1 / 3) (-1 / 2) ?_ ?_
  · simp [collapse, CoordMap.tetToCollapsed, CoordMap.zeroGuard, abs_of_pos]; norm_num
  · constructor <;> norm_num

/-- The same point, with the hypotheses in terms of the reference position. -/
example : CollapsedOf (K := ℚ) .tet (-1 / 2, -1 / 2, -1 / 2) (0, -1 / 3, -1 / 2) ∧ AwayFromCollapsed (K := ℚ) (1 / 100) .tet (-1 / 2, -1 / 2, -1 / 2) := by
  refine ⟨⟨by norm_num, by norm_num, by norm_num⟩, ?_, ?_⟩ <;> norm_num [abs_of_pos, abs_of_neg]

/-- A position in a triangle closer to the collapsed vertex than the tolerance: the hypotheses of `evaluate_all` are met, and the value is finite. -/
example : CodeEta (K := ℚ) (1 / 100) .tri (-1, 999 / 1000, 0) (-1, 999 / 1000, 0) ∧ OffCollapsed (K := ℚ) .tri (999 / 1000) 0 := by
  constructor
  · simp only [CodeEta, collapse, CoordMap.triToCollapsed]
    norm_num [abs_of_pos]
  · simp only [OffCollapsed]; norm_num

end Verif.Props.C13
