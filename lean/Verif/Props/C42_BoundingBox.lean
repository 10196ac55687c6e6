import Verif.Model.XMapBox
import Verif.Props.C38_LinearMaps
import Verif.Model.NewtonElements
import Mathlib.Data.List.Perm.Basic
import Mathlib.Tactic.Linarith
import Mathlib.Tactic.Positivity

/-! C42: the bounding boxes of elements. -/

namespace Verif.Props.C42
open Verif.Model.NewtonKernel Verif.Model.XMapBox
open Verif.Spec.LinearElements (Shape X weights weightedFrom)

variable {K : Type*} [Field K] [LinearOrder K] [IsStrictOrderedRing K]

/-! ### Statement -/

/-- The component of a vector. -/
def comp (v : V3 K) : ℕ → K
  | 0 => v.x
  | 1 => v.y
  | _ => v.z

/-- A function on the reference cube is affine in each coordinate. -/
def MultiAffine (f : V3 K → K) : Prop :=
  (∀ x y z, f ⟨x, y, z⟩ = (1 - x) / 2 * f ⟨-1, y, z⟩ + (1 + x) / 2 * f ⟨1, y, z⟩) ∧
  (∀ x y z, f ⟨x, y, z⟩ = (1 - y) / 2 * f ⟨x, -1, z⟩ + (1 + y) / 2 * f ⟨x, 1, z⟩) ∧
  (∀ x y z, f ⟨x, y, z⟩ = (1 - z) / 2 * f ⟨x, y, -1⟩ + (1 + z) / 2 * f ⟨x, y, 1⟩)

/-- A point of the reference cube. -/
def InCube (e : V3 K) : Prop := (-1 ≤ e.x ∧ e.x ≤ 1) ∧ (-1 ≤ e.y ∧ e.y ≤ 1) ∧ (-1 ≤ e.z ∧ e.z ≤ 1)

/-! ### The reduction -/

omit [Field K] [IsStrictOrderedRing K] in
/-- The value of an entry after the operations: the maximum or minimum of the values for it, in any order. -/
theorem fold_slot (i : ℕ) : ∀ (ops : List (Op K)) (buf : ℕ → K), (ops.foldl applyOp buf) i =
    ((ops.filter fun o => o.slot = i).map Op.value).foldl (fun a v => if 3 ≤ i then max a v else min a v) (buf i)
  | [], buf => rfl
  | o :: l, buf => by
    rw [List.foldl_cons, fold_slot i l, List.filter_cons]
    by_cases h : o.slot = i
    · subst h
      simp [applyOp]
    · simp only [h, decide_false, Bool.false_eq_true, if_false]
      rw [applyOp, Function.update_of_ne (Ne.symm h)]

omit [Field K] [IsStrictOrderedRing K] in
theorem foldl_max_le (l : List K) (a b : K) : l.foldl max a ≤ b ↔ a ≤ b ∧ ∀ v ∈ l, v ≤ b := by
  induction l generalizing a with
  | nil => simp
  | cons x l ih => rw [List.foldl_cons, ih, max_le_iff]; simp only [List.mem_cons, forall_eq_or_imp]; tauto

omit [Field K] [IsStrictOrderedRing K] in
theorem le_foldl_min (l : List K) (a b : K) : b ≤ l.foldl min a ↔ b ≤ a ∧ ∀ v ∈ l, b ≤ v := by
  induction l generalizing a with
  | nil => simp
  | cons x l ih => rw [List.foldl_cons, ih, le_min_iff]; simp only [List.mem_cons, forall_eq_or_imp]; tauto

omit [IsStrictOrderedRing K] in
/-- Which operations there are for an entry. -/
theorem mem_slot (I : Impl K) (n i : ℕ) (hi : i < 6) (ops : List (Op K)) (hp : ops.Perm (allOps I n)) (v : K) :
    v ∈ ((ops.filter fun o => o.slot = i).map Op.value) ↔ ∃ e ∈ samples n, v = comp (xMap I (I.fromCollapsed e)) (i % 3) := by
  simp only [List.mem_map, List.mem_filter, decide_eq_true_eq]
  constructor
  · rintro ⟨o, ⟨ho, rfl⟩, rfl⟩
    rw [hp.mem_iff, allOps, List.mem_flatMap] at ho
    obtain ⟨e, he, ho⟩ := ho
    refine ⟨e, he, ?_⟩
    simp only [opsOf, List.mem_cons, List.not_mem_nil, or_false] at ho
    rcases ho with rfl | rfl | rfl | rfl | rfl | rfl <;> simp [comp]
  · rintro ⟨e, he, rfl⟩
    refine ⟨⟨i, comp (xMap I (I.fromCollapsed e)) (i % 3)⟩, ⟨?_, rfl⟩, rfl⟩
    rw [hp.mem_iff, allOps, List.mem_flatMap]
    refine ⟨e, he, ?_⟩
    simp only [opsOf, List.mem_cons, List.not_mem_nil, or_false]
    interval_cases i <;> simp [comp]

omit [IsStrictOrderedRing K] in
/-- **C42, samples.** For every order of the atomic operations: the box before padding contains the image of every sample, and each of its sides is
either the largest representable value or attained by a sample. -/
theorem box_of_samples (big : K) (I : Impl K) (n : ℕ) (ops : List (Op K)) (hp : ops.Perm (allOps I n)) (d : ℕ) (hd : d < 3) :
    (∀ e ∈ samples n, reduce big ops d ≤ comp (xMap I (I.fromCollapsed e)) d ∧ comp (xMap I (I.fromCollapsed e)) d ≤ reduce big ops (d + 3)) ∧
    (reduce big ops d = big ∨ ∃ e ∈ samples n, reduce big ops d = comp (xMap I (I.fromCollapsed e)) d) ∧
    (reduce big ops (d + 3) = -big ∨ ∃ e ∈ samples n, reduce big ops (d + 3) = comp (xMap I (I.fromCollapsed e)) d) := by
  have elo := fold_slot d ops fun i => if i < 3 then big else -big
  have ehi := fold_slot (d + 3) ops fun i => if i < 3 then big else -big
  rw [if_pos hd] at elo
  rw [if_neg (by omega)] at ehi
  have flo : (fun a v : K => if 3 ≤ d then max a v else min a v) = min := by funext a v; rw [if_neg (by omega)]
  have fhi : (fun a v : K => if 3 ≤ d + 3 then max a v else min a v) = max := by funext a v; rw [if_pos (by omega)]
  rw [flo] at elo
  rw [fhi] at ehi
  have mlo := fun v => mem_slot I n d (by omega) ops hp v
  have mhi := fun v => mem_slot I n (d + 3) (by omega) ops hp v
  have e1 : d % 3 = d := Nat.mod_eq_of_lt hd
  have e2 : (d + 3) % 3 = d := by omega
  rw [e1] at mlo
  rw [e2] at mhi
  have alo : ∀ (l : List K) (a : K), l.foldl min a = a ∨ l.foldl min a ∈ l := by
    intro l
    induction l with
    | nil => intro a; exact Or.inl rfl
    | cons x l ih =>
      intro a
      rw [List.foldl_cons]
      rcases ih (min a x) with h | h
      · rw [h]
        rcases min_choice a x with h' | h' <;> rw [h'] <;> simp
      · exact Or.inr (List.mem_cons_of_mem _ h)
  have ahi : ∀ (l : List K) (a : K), l.foldl max a = a ∨ l.foldl max a ∈ l := by
    intro l
    induction l with
    | nil => intro a; exact Or.inl rfl
    | cons x l ih =>
      intro a
      rw [List.foldl_cons]
      rcases ih (max a x) with h | h
      · rw [h]
        rcases max_choice a x with h' | h' <;> rw [h'] <;> simp
      · exact Or.inr (List.mem_cons_of_mem _ h)
  unfold reduce
  rw [elo, ehi]
  refine ⟨fun e he => ⟨?_, ?_⟩, ?_, ?_⟩
  · exact ((le_foldl_min _ _ _).1 le_rfl).2 _ ((mlo _).2 ⟨e, he, rfl⟩)
  · exact ((foldl_max_le _ _ _).1 le_rfl).2 _ ((mhi _).2 ⟨e, he, rfl⟩)
  · rcases alo _ big with h | h
    · exact Or.inl h
    · exact Or.inr ((mlo _).1 h)
  · rcases ahi _ (-big) with h | h
    · exact Or.inl h
    · exact Or.inr ((mhi _).1 h)

/-- All samples are on the boundary of the cube. -/
theorem samples_on_boundary (n : ℕ) (hn : 2 ≤ n) : ∀ e ∈ samples (K := K) n, InCube e ∧ (e.x = -1 ∨ e.x = 1 ∨ e.y = -1 ∨ e.y = 1 ∨ e.z = -1 ∨ e.z = 1) := by
  intro e he
  rw [samples, List.mem_flatMap] at he
  obtain ⟨f, hf, he⟩ := he
  rw [List.mem_map] at he
  obtain ⟨g, hg, rfl⟩ := he
  rw [List.mem_range] at hf hg
  have hpos : (0 : K) < ((n - 1 : ℕ) : K) := by exact_mod_cast (by omega : 0 < n - 1)
  have bound : ∀ k : ℕ, k ≤ n - 1 → (-1 : K) ≤ -1 + (k : K) * (2 / ((n - 1 : ℕ) : K)) ∧ -1 + (k : K) * (2 / ((n - 1 : ℕ) : K)) ≤ 1 := by
    intro k hk
    have hk' : (k : K) ≤ ((n - 1 : ℕ) : K) := by exact_mod_cast hk
    have h0 : (0 : K) ≤ k := Nat.cast_nonneg k
    have hw : 0 ≤ 2 / ((n - 1 : ℕ) : K) := by positivity
    constructor
    · have := mul_nonneg h0 hw; linarith
    · have := mul_le_mul_of_nonneg_right hk' hw
      rw [mul_div_cancel₀ _ hpos.ne'] at this
      linarith
  have b1 := bound (g % n) (by have := Nat.mod_lt g (show 0 < n by omega); omega)
  have b2 := bound (g / n) (by have := (Nat.div_lt_iff_lt_mul (show 0 < n by omega)).2 hg; omega)
  unfold InCube
  interval_cases f <;> simp only [faceEta, kc, kcx, kcy, List.getD_cons_zero, List.getD_cons_succ, zero_mul, one_mul, add_zero, zero_add] <;>
    simp [b1, b2]

/-- The corners of the cube are samples. -/
theorem corner_mem (n : ℕ) (hn : 2 ≤ n) (a b c : K) (ha : a = -1 ∨ a = 1) (hb : b = -1 ∨ b = 1) (hc : c = -1 ∨ c = 1) : (⟨a, b, c⟩ : V3 K) ∈ samples n := by
  rw [samples, List.mem_flatMap]
  have hn' : ((n - 1 : ℕ) : K) ≠ 0 := by exact_mod_cast (by omega : n - 1 ≠ 0)
  obtain ⟨i, hi, ei⟩ : ∃ i, i < n ∧ (-1 : K) + (i : K) * (2 / ((n - 1 : ℕ) : K)) = b := by
    rcases hb with rfl | rfl
    · exact ⟨0, by omega, by simp⟩
    · exact ⟨n - 1, by omega, by rw [mul_div_cancel₀ _ hn']; norm_num⟩
  obtain ⟨j, hj, ej⟩ : ∃ j, j < n ∧ (-1 : K) + (j : K) * (2 / ((n - 1 : ℕ) : K)) = c := by
    rcases hc with rfl | rfl
    · exact ⟨0, by omega, by simp⟩
    · exact ⟨n - 1, by omega, by rw [mul_div_cancel₀ _ hn']; norm_num⟩
  have hg : i + j * n < n * n := by nlinarith
  have h1 : (i + j * n) % n = i := by rw [Nat.add_mul_mod_self_right, Nat.mod_eq_of_lt hi]
  have h2 : (i + j * n) / n = j := by rw [Nat.add_mul_div_right _ _ (by omega), Nat.div_eq_of_lt hi, Nat.zero_add]
  rcases ha with rfl | rfl
  · refine ⟨0, by simp, List.mem_map.2 ⟨i + j * n, List.mem_range.2 hg, ?_⟩⟩
    simp only [faceEta, h1, h2, kc, kcx, kcy, List.getD_cons_zero, ei, ej, zero_mul, one_mul, add_zero, zero_add]
  · refine ⟨1, by simp, List.mem_map.2 ⟨i + j * n, List.mem_range.2 hg, ?_⟩⟩
    simp only [faceEta, h1, h2, kc, kcx, kcy, List.getD_cons_zero, List.getD_cons_succ, ei, ej, zero_mul, one_mul, add_zero, zero_add]

/-- An affine combination is between bounds of its ends. -/
theorem between (x a b lo hi : K) (h0 : -1 ≤ x) (h1 : x ≤ 1) (ha : lo ≤ a ∧ a ≤ hi) (hb : lo ≤ b ∧ b ≤ hi) :
    lo ≤ (1 - x) / 2 * a + (1 + x) / 2 * b ∧ (1 - x) / 2 * a + (1 + x) / 2 * b ≤ hi := by
  have p : 0 ≤ (1 - x) / 2 := by linarith
  have q : 0 ≤ (1 + x) / 2 := by linarith
  have e : ∀ t : K, t = (1 - x) / 2 * t + (1 + x) / 2 * t := fun t => by ring
  constructor
  · have := mul_le_mul_of_nonneg_left ha.1 p
    have := mul_le_mul_of_nonneg_left hb.1 q
    rw [e lo]; linarith
  · have := mul_le_mul_of_nonneg_left ha.2 p
    have := mul_le_mul_of_nonneg_left hb.2 q
    rw [e hi]; linarith

/-- A function affine in each coordinate is bounded on the cube by its values at the corners. -/
theorem corner_bounds (f : V3 K → K) (h : MultiAffine f) (lo hi : K)
    (hc : ∀ a b c : K, (a = -1 ∨ a = 1) → (b = -1 ∨ b = 1) → (c = -1 ∨ c = 1) → lo ≤ f ⟨a, b, c⟩ ∧ f ⟨a, b, c⟩ ≤ hi) (e : V3 K) (he : InCube e) :
    lo ≤ f e ∧ f e ≤ hi := by
  obtain ⟨x, y, z⟩ := e
  obtain ⟨hx, hy, hz⟩ := he
  have l : (-1 : K) = -1 ∨ (-1 : K) = 1 := Or.inl rfl
  have r : (1 : K) = -1 ∨ (1 : K) = 1 := Or.inr rfl
  have edge : ∀ b c : K, (b = -1 ∨ b = 1) → (c = -1 ∨ c = 1) → lo ≤ f ⟨x, b, c⟩ ∧ f ⟨x, b, c⟩ ≤ hi := by
    intro b c hb hc'
    rw [h.1 x b c]
    exact between x _ _ lo hi hx.1 hx.2 (hc _ _ _ l hb hc') (hc _ _ _ r hb hc')
  have face : ∀ c : K, (c = -1 ∨ c = 1) → lo ≤ f ⟨x, y, c⟩ ∧ f ⟨x, y, c⟩ ≤ hi := by
    intro c hc'
    rw [h.2.1 x y c]
    exact between y _ _ lo hi hy.1 hy.2 (edge _ _ l hc') (edge _ _ r hc')
  rw [h.2.2 x y z]
  exact between z _ _ lo hi hz.1 hz.2 (face _ l) (face _ r)

/-- **C42, padding.** Non-negative padding only enlarges a box, by the same amount at both ends. -/
theorem pad_enlarges (ndim : ℕ) (padRel padAbs : K) (hr : 0 ≤ padRel) (ha : 0 ≤ padAbs) (out : ℕ → K) (d : ℕ) (hd : d < 3) (hw : out d ≤ out (d + 3)) :
    padBox ndim padRel padAbs out d ≤ out d ∧ out (d + 3) ≤ padBox ndim padRel padAbs out (d + 3) ∧
    out d - padBox ndim padRel padAbs out d = padBox ndim padRel padAbs out (d + 3) - out (d + 3) ∧
    (d < ndim → out d - padBox ndim padRel padAbs out d = padRel * (out (d + 3) - out d) + padAbs) := by
  have e1 : d % 3 = d := Nat.mod_eq_of_lt hd
  have e2 : (d + 3) % 3 = d := by omega
  have hp : 0 ≤ padRel * (out (d + 3) - out d) + padAbs := add_nonneg (mul_nonneg hr (sub_nonneg.2 hw)) ha
  unfold padBox
  simp only [e1, e2]
  by_cases h : d < ndim
  · simp only [h, if_true, hd, if_neg (show ¬ d + 3 < 3 by omega)]
    refine ⟨by linarith, by linarith, by ring, fun _ => by ring⟩
  · simp only [h, if_false]
    refine ⟨le_rfl, le_rfl, by ring, fun hc => absurd hc (by simp)⟩

/-- **C42.** For every map that is affine in each collapsed coordinate, every grid size of at least two, every order of the atomic operations and every
non-negative padding: the box contains the image of the whole reference element. -/
theorem box_contains (big : K) (I : Impl K) (hI : ∀ d, d < 3 → MultiAffine fun e => comp (xMap I (I.fromCollapsed e)) d) (n : ℕ) (hn : 2 ≤ n)
    (ops : List (Op K)) (hp : ops.Perm (allOps I n)) (ndim : ℕ) (padRel padAbs : K) (hr : 0 ≤ padRel) (ha : 0 ≤ padAbs) (e : V3 K) (he : InCube e)
    (d : ℕ) (hd : d < 3) :
    padBox ndim padRel padAbs (reduce big ops) d ≤ comp (xMap I (I.fromCollapsed e)) d ∧
      comp (xMap I (I.fromCollapsed e)) d ≤ padBox ndim padRel padAbs (reduce big ops) (d + 3) := by
  have hs := (box_of_samples big I n ops hp d hd).1
  have hb := corner_bounds _ (hI d hd) (reduce big ops d) (reduce big ops (d + 3)) (fun a b c ha hb hc => hs _ (corner_mem n hn a b c ha hb hc))
  have hw : reduce big ops d ≤ reduce big ops (d + 3) := (hb e he).1.trans (hb e he).2
  have hpad := pad_enlarges ndim padRel padAbs hr ha (reduce big ops) d hd hw
  exact ⟨hpad.1.trans (hb e he).1, (hb e he).2.trans hpad.2.1⟩

/-- Without padding, if the coordinates are representable, each side of the box is attained by a point of the element: the box is the smallest. -/
theorem box_tight (big : K) (I : Impl K) (n : ℕ) (hn : 2 ≤ n) (ops : List (Op K)) (hp : ops.Perm (allOps I n)) (d : ℕ) (hd : d < 3)
    (hbig : ∀ e, InCube e → |comp (xMap I (I.fromCollapsed e)) d| < big) :
    (∃ e, InCube e ∧ reduce big ops d = comp (xMap I (I.fromCollapsed e)) d) ∧
      ∃ e, InCube e ∧ reduce big ops (d + 3) = comp (xMap I (I.fromCollapsed e)) d := by
  obtain ⟨h1, h2, h3⟩ := box_of_samples big I n ops hp d hd
  have hc := corner_mem (K := K) n hn (-1) (-1) (-1) (Or.inl rfl) (Or.inl rfl) (Or.inl rfl)
  have hcube := (samples_on_boundary n hn _ hc).1
  have hlt := abs_lt.1 (hbig _ hcube)
  constructor
  · rcases h2 with h | ⟨e, he, h⟩
    · have := (h1 _ hc).1
      rw [h] at this
      exact absurd hlt.2 (not_lt.2 this)
    · exact ⟨e, (samples_on_boundary n hn e he).1, h⟩
  · rcases h3 with h | ⟨e, he, h⟩
    · have := (h1 _ hc).2
      rw [h] at this
      exact absurd hlt.1 (not_lt.2 this)
    · exact ⟨e, (samples_on_boundary n hn e he).1, h⟩

/-! ### Straight-sided elements -/

/-- The collapsed coordinates of each shape. -/
def fromCollapsedOf : Shape → V3 K → V3 K
  | .quad, e => e
  | .hex, e => e
  | .prism, e => ⟨(1 + e.x) * (1 - e.z) * (1 / 2) - 1, e.y, e.z⟩
  | .pyr, e => ⟨(1 + e.x) * (1 - e.z) * (1 / 2) - 1, (1 + e.y) * (1 - e.z) * (1 / 2) - 1, e.z⟩
  | .tet, e => ⟨(1 + e.x) * (-((1 + e.y) * (1 - e.z) * (1 / 2) - 1) - e.z) * (1 / 2) - 1, (1 + e.y) * (1 - e.z) * (1 / 2) - 1, e.z⟩

/-- **C42, straight-sided elements.** The map of every tetrahedron, prism, pyramid and hexahedron with straight edges is affine in each collapsed
coordinate. -/
theorem linear_multi_affine (s : Shape) (c : ℕ → V3 K) (d : ℕ) (hd : d < 3) : MultiAffine fun e : V3 K => comp (X s c (fromCollapsedOf s e)) d := by
  have pyr : ∀ e : V3 K, weights .pyr (fromCollapsedOf .pyr e) = ((weights .hex (⟨e.x, e.y, e.z⟩ : V3 K)).take 4).append [(1 + e.z) / 2] := by
    intro e
    simp only [weights, fromCollapsedOf, List.take, List.append, List.cons.injEq, and_true]
    by_cases hz : 1 - e.z = 0
    · simp [hz]
    · refine ⟨?_, ?_, ?_, ?_⟩ <;> (field_simp; ring)
  cases s with
  | pyr =>
    have e : ∀ e : V3 K, X .pyr c (fromCollapsedOf .pyr e) = weightedFrom c 0 (((weights .hex (⟨e.x, e.y, e.z⟩ : V3 K)).take 4).append [(1 + e.z) / 2]) := by
      intro e; rw [X, pyr]
    interval_cases d <;> (refine ⟨?_, ?_, ?_⟩ <;> intro x y z <;> dsimp only <;> rw [e, e, e] <;>
      simp only [comp, weights, List.take, List.append, weightedFrom] <;> ring)
  | _ =>
    interval_cases d <;> (refine ⟨?_, ?_, ?_⟩ <;> intro x y z <;> simp only [comp, X, weights, weightedFrom, fromCollapsedOf] <;> ring)

/-- The points of the reference element of a three-dimensional shape. -/
def InReference : Shape → V3 K → Prop
  | .tet, w => -1 ≤ w.x ∧ -1 ≤ w.y ∧ -1 ≤ w.z ∧ w.x + w.y + w.z ≤ -1
  | .pyr, w => -1 ≤ w.x ∧ -1 ≤ w.y ∧ -1 ≤ w.z ∧ w.x + w.z ≤ 0 ∧ w.y + w.z ≤ 0
  | .prism, w => -1 ≤ w.x ∧ (-1 ≤ w.y ∧ w.y ≤ 1) ∧ -1 ≤ w.z ∧ w.x + w.z ≤ 0
  | _, w => InCube w

/-- Every point of the reference element has collapsed coordinates in the cube. -/
theorem reference_covered (s : Shape) (w : V3 K) (hs : s ≠ .quad) (hw : InReference s w) : ∃ e, InCube e ∧ fromCollapsedOf s e = w := by
  obtain ⟨x, y, z⟩ := w
  have key : ∀ d t : K, 0 ≤ t → t ≤ d → ∃ e : K, (-1 ≤ e ∧ e ≤ 1) ∧ (1 + e) * d * (1 / 2) = t := by
    intro d t h0 h1
    by_cases hd : d = 0
    · exact ⟨-1, ⟨le_rfl, by norm_num⟩, by rw [hd] at h1; have := le_antisymm h1 h0; rw [this]; ring⟩
    · have hp : 0 < d := lt_of_le_of_ne (h0.trans h1) (Ne.symm hd)
      refine ⟨2 * t / d - 1, ⟨?_, ?_⟩, ?_⟩
      · have := div_nonneg (mul_nonneg (by norm_num : (0 : K) ≤ 2) h0) hp.le; linarith
      · have : 2 * t / d ≤ 2 := by rw [div_le_iff₀ hp]; linarith
        linarith
      · field_simp; ring
  cases s with
  | quad => exact absurd rfl hs
  | hex => exact ⟨⟨x, y, z⟩, hw, rfl⟩
  | prism =>
    obtain ⟨h0, h1, h2, h3⟩ := hw
    dsimp only at h0 h1 h2 h3
    obtain ⟨e, he, h⟩ := key (1 - z) (1 + x) (by linarith) (by linarith)
    exact ⟨⟨e, y, z⟩, ⟨he, h1, h2, by dsimp only; linarith⟩, by simp only [fromCollapsedOf, h, V3.mk.injEq, and_true]; ring⟩
  | pyr =>
    obtain ⟨h0, h1, h2, h3, h4⟩ := hw
    dsimp only at h0 h1 h2 h3 h4
    obtain ⟨e, he, h⟩ := key (1 - z) (1 + x) (by linarith) (by linarith)
    obtain ⟨e', he', h'⟩ := key (1 - z) (1 + y) (by linarith) (by linarith)
    exact ⟨⟨e, e', z⟩, ⟨he, he', h2, by dsimp only; linarith⟩, by simp only [fromCollapsedOf, h, h', V3.mk.injEq, and_true]; constructor <;> ring⟩
  | tet =>
    obtain ⟨h0, h1, h2, h3⟩ := hw
    dsimp only at h0 h1 h2 h3
    obtain ⟨e', he', h'⟩ := key (1 - z) (1 + y) (by linarith) (by linarith)
    obtain ⟨e, he, h⟩ := key (-y - z) (1 + x) (by linarith) (by linarith)
    have hy : (1 + e') * (1 - z) * (1 / 2) - 1 = y := by rw [h']; ring
    exact ⟨⟨e, e', z⟩, ⟨he, he', h2, by dsimp only; linarith⟩, by simp only [fromCollapsedOf, hy, h, V3.mk.injEq, and_true]; ring⟩

/-- The settings that are accepted have at least two points per direction and non-negative padding; those of a linear geometry use two points. -/
theorem settings_valid (isLinear : Bool) (modes : ℕ) (store : Option (Store K)) (r : ℕ × K × K) (h : boxSettings isLinear modes store = some r) :
    2 ≤ r.1 ∧ 0 ≤ r.2.1 ∧ 0 ≤ r.2.2 ∧ (isLinear = true → r.1 = 2) := by
  unfold boxSettings at h
  dsimp only at h
  split_ifs at h with hl hc
  · rw [Option.some.injEq] at h
    subst h
    refine ⟨hc.1, hc.2.1, hc.2.2, fun _ => ?_⟩
    cases store <;> rfl
  · rw [Option.some.injEq] at h
    subst h
    exact ⟨by rename_i hc; exact hc.1, by rename_i hc; exact hc.2.1, by rename_i hc; exact hc.2.2, fun h' => absurd h' hl⟩

/-- **C42, entry point.** `BoundingBox::get_bounding_box` of a three-dimensional geometry whose map is affine in each collapsed coordinate: if no
assertion fails the box contains the image of the reference element, for all parameters, roundings up of the grid size and orders of the operations. -/
theorem get_bounding_box_contains (big : K) (I : Impl K) (hI : ∀ d, d < 3 → MultiAffine fun e => comp (xMap I (I.fromCollapsed e)) d) (isLinear : Bool)
    (modes : ℕ) (store : Option (Store K)) (round : ℕ → ℕ) (hround : ∀ n, n ≤ round n) (order : ℕ → List (Op K)) (horder : ∀ n, (order n).Perm (allOps I n))
    (nb box : ℕ → K) (ndim : ℕ) (hdim : 3 ≤ ndim) (h : getBoundingBox big ndim isLinear modes store round order nb = some box) (e : V3 K) (he : InCube e)
    (d : ℕ) (hd : d < 3) : box d ≤ comp (xMap I (I.fromCollapsed e)) d ∧ comp (xMap I (I.fromCollapsed e)) d ≤ box (d + 3) := by
  unfold getBoundingBox at h
  rw [if_neg (by omega), Option.map_eq_some_iff] at h
  obtain ⟨s, hs, rfl⟩ := h
  obtain ⟨h1, h2, h3, _⟩ := settings_valid isLinear modes store s hs
  exact box_contains big I hI (round s.1) (h1.trans (hround _)) _ (horder _) 3 s.2.1 s.2.2 h2 h3 e he d hd

/-- **C42, straight-sided elements, entry point.** If the map evaluated by the kernel is that of a straight-sided element of vertices `c`: the box
contains the image of every point of the reference element. -/
theorem linear_box_contains (s : Shape) (hs : s ≠ .quad) (c : ℕ → V3 K) (big : K) (I : Impl K)
    (hI : ∀ e, xMap I (I.fromCollapsed e) = X s c (fromCollapsedOf s e)) (isLinear : Bool) (modes : ℕ) (store : Option (Store K)) (round : ℕ → ℕ)
    (hround : ∀ n, n ≤ round n) (order : ℕ → List (Op K)) (horder : ∀ n, (order n).Perm (allOps I n)) (nb box : ℕ → K) (ndim : ℕ) (hdim : 3 ≤ ndim)
    (h : getBoundingBox big ndim isLinear modes store round order nb = some box) (w : V3 K) (hw : InReference s w) (d : ℕ) (hd : d < 3) :
    box d ≤ comp (X s c w) d ∧ comp (X s c w) d ≤ box (d + 3) := by
  obtain ⟨e, he, rfl⟩ := reference_covered s w hs hw
  rw [← hI e]
  refine get_bounding_box_contains big I (fun d hd => ?_) isLinear modes store round hround order horder nb box ndim hdim h e he d hd
  simp only [hI]
  exact linear_multi_affine s c d hd

open Verif.Model.NewtonElements Verif.Model.CoordMap in
/-- The hypothesis of `linear_box_contains` holds for the implementations of straight-sided hexahedra, prisms and tetrahedra. -/
theorem impl_maps (tol js : K) (sc : V3 K) (c : ℕ → V3 K) (e : V3 K) :
    xMap (hexImpl c js) ((hexImpl c js).fromCollapsed e) = X .hex c (fromCollapsedOf .hex e) ∧
    xMap (prismImpl tol c sc) ((prismImpl tol c sc).fromCollapsed e) = X .prism c (fromCollapsedOf .prism e) ∧
    xMap (tetImpl tol c sc) ((tetImpl tol c sc).fromCollapsed e) = X .tet c (fromCollapsedOf .tet e) := by
  refine ⟨?_, ?_, ?_⟩
  · simp only [xMap, hexImpl, Verif.Props.C38.hex_f, Verif.Props.C38.V3.sub, sub_zero, fromCollapsedOf]
  · simp only [xMap, prismImpl, Verif.Props.C38.prism_f, Verif.Props.C38.V3.sub, sub_zero, fromCollapsedOf, ofTriple, prismFromCollapsed]
  · simp only [xMap, tetImpl, Verif.Props.C38.tet_f, Verif.Props.C38.V3.sub, sub_zero, fromCollapsedOf, ofTriple, tetFromCollapsed]

/-! ### An example -/

open Verif.Model.NewtonElements Verif.Props.C38 in
/-- The box of a hexahedron that is not a parallelepiped. -/
example : (List.range 6).map (padBox 3 0 0 (reduce 1000000 (allOps (hexImpl exHex 1) 3))) = [0, 0, 0, 2, 2, 2] ∧
    boxSettings (K := ℚ) true 2 none = some (2, 0, 0) ∧ boxSettings (K := ℚ) false 3 (some ⟨none, none, none, none, none⟩) = some (12, 1 / 20, 0) := by
  decide +kernel

end Verif.Props.C42
