import Verif.Lemmas.JacobiTable
import Verif.Spec.Interp
import Verif.Spec.HostField
import Verif.Props.C86_Moments
import Mathlib.Algebra.Polynomial.Eval.Degree
import Mathlib.Algebra.Polynomial.BigOperators

/-! The modal basis functions are polynomials in the collapsed coordinates. -/

namespace Verif.Lemmas.ModalDegree
open Verif.Spec Verif.Lemmas Verif.Model Verif.Model.SpecialFunctions Verif.Model.BasisReference Verif.Model.FieldCoupling Verif.Spec.FieldCoupling Verif.Spec.VertexModes Verif.Spec.HostField Verif.Props.C13 Verif.Props.C86

variable {K : Type*} [Field K] [LinearOrder K] [IsStrictOrderedRing K]

/-- `f` is a polynomial of degree at most `d`. -/
def Deg (d : ℕ) (f : K → K) : Prop := ∃ p : Polynomial K, p.natDegree ≤ d ∧ ∀ x, f x = p.eval x

theorem Deg.mono {d d' : ℕ} {f : K → K} (h : Deg d f) (hd : d ≤ d') : Deg d' f := by
  obtain ⟨p, h1, h2⟩ := h
  exact ⟨p, h1.trans hd, h2⟩

theorem Deg.const (c : K) (d : ℕ) : Deg d fun _ => c := ⟨Polynomial.C c, by simp, by simp⟩

theorem Deg.mul {d d' : ℕ} {f g : K → K} (hf : Deg d f) (hg : Deg d' g) : Deg (d + d') fun x => f x * g x := by
  obtain ⟨p, h1, h2⟩ := hf
  obtain ⟨q, h3, h4⟩ := hg
  exact ⟨p * q, (Polynomial.natDegree_mul_le).trans (Nat.add_le_add h1 h3), fun x => by dsimp only; rw [Polynomial.eval_mul, h2, h4]⟩

theorem Deg.add {d : ℕ} {f g : K → K} (hf : Deg d f) (hg : Deg d g) : Deg d fun x => f x + g x := by
  obtain ⟨p, h1, h2⟩ := hf
  obtain ⟨q, h3, h4⟩ := hg
  exact ⟨p + q, (Polynomial.natDegree_add_le _ _).trans (max_le h1 h3), fun x => by dsimp only; rw [Polynomial.eval_add, h2, h4]⟩

theorem Deg.pow {f : K → K} {d : ℕ} (hf : Deg d f) (k : ℕ) : Deg (k * d) fun x => f x ^ k := by
  obtain ⟨p, h1, h2⟩ := hf
  exact ⟨p ^ k, (Polynomial.natDegree_pow_le).trans (Nat.mul_le_mul_left k h1), fun x => by dsimp only; rw [Polynomial.eval_pow, h2]⟩

theorem Deg.sum {ι : Type*} {d : ℕ} (s : Finset ι) (f : ι → K → K) (h : ∀ i ∈ s, Deg d (f i)) : Deg d fun x => ∑ i ∈ s, f i x := by
  classical
  induction s using Finset.induction_on with
  | empty => simpa using Deg.const (0 : K) d
  | insert i s hi ih =>
    have := (h i (Finset.mem_insert_self i s)).add (ih fun j hj => h j (Finset.mem_insert_of_mem hj))
    refine ⟨this.choose, this.choose_spec.1, fun x => ?_⟩
    have hx := this.choose_spec.2 x
    dsimp only at hx ⊢
    rw [Finset.sum_insert hi]
    exact hx

theorem Deg.var : Deg (K := K) 1 fun x => x := ⟨Polynomial.X, Polynomial.natDegree_X_le, by simp⟩

theorem deg_minus : Deg (K := K) 1 fun z => 1 / 2 * (1 - z) := by
  have := (Deg.const (1 / 2 : K) 1).add ((Deg.const (-1 / 2 : K) 0).mul Deg.var)
  obtain ⟨p, h1, h2⟩ := this
  exact ⟨p, h1, fun x => by have := h2 x; dsimp only at this ⊢; rw [← this]; ring⟩

theorem deg_plus : Deg (K := K) 1 fun z => 1 / 2 * (1 + z) := by
  have := (Deg.const (1 / 2 : K) 1).add ((Deg.const (1 / 2 : K) 0).mul Deg.var)
  obtain ⟨p, h1, h2⟩ := this
  exact ⟨p, h1, fun x => by have := h2 x; dsimp only at this ⊢; rw [← this]; ring⟩

theorem deg_jacobi (n α β : ℕ) : Deg (K := K) n fun z => jacobi n z α β := by
  have hl : Deg (K := K) 1 fun z => (z - 1) / 2 := by
    have := (Deg.const (-1 / 2 : K) 1).add ((Deg.const (1 / 2 : K) 0).mul Deg.var)
    obtain ⟨p, h1, h2⟩ := this
    exact ⟨p, h1, fun x => by have := h2 x; dsimp only at this ⊢; rw [← this]; ring⟩
  have : Deg (K := K) n fun z => jacobiP n α β z := by
    refine Deg.sum _ _ fun k hk => ?_
    exact ((Deg.const _ 0).mul (hl.pow k)).mono (by have := Finset.mem_range.1 hk; omega)
  obtain ⟨p, h1, h2⟩ := this
  exact ⟨p, h1, fun x => by have := h2 x; dsimp only at this ⊢; rw [← this, jacobi_eq_jacobiP]⟩

theorem deg_modA (p : ℕ) : Deg (K := K) (max 1 p) fun z => evalModA p z := by
  unfold evalModA
  by_cases h0 : p = 0
  · simp only [if_pos h0]
    exact deg_minus.mono (le_max_left _ _)
  · by_cases h1 : p = 1
    · simp only [if_neg h0, if_pos h1]
      exact deg_plus.mono (le_max_left _ _)
    · simp only [if_neg h0, if_neg h1]
      exact ((deg_minus.mul deg_plus).mul (deg_jacobi (p - 2) 1 1)).mono (by omega)

theorem deg_modB (p q : ℕ) : Deg (K := K) (max 1 (p + q)) fun z => evalModB p q z := by
  unfold evalModB
  by_cases h0 : p = 0
  · simp only [if_pos h0]
    exact (deg_modA q).mono (by omega)
  · by_cases h1 : q = 0
    · simp only [if_neg h0, if_pos h1]
      exact (deg_minus.pow p).mono (by omega)
    · simp only [if_neg h0, if_neg h1]
      have : Deg (K := K) (p * 1 + 1 + (q - 1)) fun z => (1 / 2 * (1 - z)) ^ p * (1 / 2 * (1 + z)) * jacobi (q - 1) z (2 * p - 1) 1 :=
        ((deg_minus.pow p).mul deg_plus).mul (deg_jacobi (q - 1) (2 * p - 1) 1)
      obtain ⟨P, h2, h3⟩ := this.mono (d' := max 1 (p + q)) (by omega)
      exact ⟨P, h2, fun x => by have := h3 x; dsimp only at this ⊢; rw [← this]; ring⟩

theorem deg_modC (p q r : ℕ) : Deg (K := K) (max 1 (p + q + r)) fun z => evalModC p q r z := deg_modB (p + q) r

/-- The functions of the third direction of a pyramid have a larger degree. -/
theorem deg_modPyrC (p q r : ℕ) : Deg (K := K) (max (max 1 (max p q + r)) (p + q + r - 2)) fun z => evalModPyrC p q r z := by
  unfold evalModPyrC
  by_cases h0 : p = 0
  · simp only [if_pos h0]
    exact (deg_modB q r).mono (by omega)
  · by_cases h1 : p = 1
    · simp only [if_neg h0, if_pos h1]
      by_cases hq : q = 0
      · simp only [if_pos hq]
        exact (deg_modB 1 r).mono (by omega)
      · simp only [if_neg hq]
        exact (deg_modB q r).mono (by omega)
    · simp only [if_neg h0, if_neg h1]
      by_cases hq : q < 2
      · simp only [if_pos hq]
        exact (deg_modB p r).mono (by omega)
      · simp only [if_neg hq]
        by_cases hr : r = 0
        · simp only [if_pos hr]
          exact (deg_minus.pow (p + q - 2)).mono (by omega)
        · simp only [if_neg hr]
          exact (((deg_minus.pow (p + q - 2)).mul deg_plus).mul (deg_jacobi (r - 1) (2 * p + 2 * q - 3) 1)).mono (by omega)

/-! ### Two and three coordinates -/

/-- `F` is a polynomial of degree below `n0` and `n1`. -/
def Poly2 (n0 n1 : ℕ) (F : K → K → K) : Prop := ∃ a, ∀ x y, F x y = poly2 n0 n1 a x y
/-- `F` is a polynomial of degree below `n0`, `n1` and `n2`. -/
def Poly3 (n0 n1 n2 : ℕ) (F : K → K → K → K) : Prop := ∃ a, ∀ x y t, F x y t = poly3 n0 n1 n2 a x y t

omit [LinearOrder K] [IsStrictOrderedRing K] in
theorem coeffs_of {d n : ℕ} {f : K → K} (h : Deg d f) (hn : d < n) : ∃ a : ℕ → K, ∀ x, f x = ∑ i ∈ Finset.range n, a i * x ^ i := by
  obtain ⟨p, h1, h2⟩ := h
  exact ⟨p.coeff, fun x => by rw [h2, Polynomial.eval_eq_sum_range' (lt_of_le_of_lt h1 hn)]⟩

omit [LinearOrder K] [IsStrictOrderedRing K] in
theorem poly2_mul {n0 n1 d0 d1 : ℕ} {f g : K → K} (hf : Deg d0 f) (hg : Deg d1 g) (h0 : d0 < n0) (h1 : d1 < n1) : Poly2 n0 n1 fun x y => f x * g y := by
  obtain ⟨a, ha⟩ := coeffs_of hf h0
  obtain ⟨b, hb⟩ := coeffs_of hg h1
  refine ⟨fun i j => a i * b j, fun x y => ?_⟩
  dsimp only; rw [ha, hb, poly2, Finset.sum_mul_sum]
  exact Finset.sum_congr rfl fun i _ => Finset.sum_congr rfl fun j _ => by ring

omit [LinearOrder K] [IsStrictOrderedRing K] in
theorem poly3_mul {n0 n1 n2 d0 d1 d2 : ℕ} {f g e : K → K} (hf : Deg d0 f) (hg : Deg d1 g) (he : Deg d2 e) (h0 : d0 < n0) (h1 : d1 < n1) (h2 : d2 < n2) :
    Poly3 n0 n1 n2 fun x y t => f x * g y * e t := by
  obtain ⟨a, ha⟩ := coeffs_of hf h0
  obtain ⟨b, hb⟩ := coeffs_of hg h1
  obtain ⟨c, hc⟩ := coeffs_of he h2
  refine ⟨fun i j k => a i * b j * c k, fun x y t => ?_⟩
  dsimp only; rw [ha, hb, hc, poly3, Finset.sum_mul_sum, Finset.sum_mul]
  refine Finset.sum_congr rfl fun i _ => ?_
  rw [Finset.sum_mul]
  refine Finset.sum_congr rfl fun j _ => ?_
  rw [Finset.mul_sum]
  exact Finset.sum_congr rfl fun k _ => by ring

omit [LinearOrder K] [IsStrictOrderedRing K] in
theorem Poly2.zero (n0 n1 : ℕ) : Poly2 (K := K) n0 n1 fun _ _ => 0 := ⟨fun _ _ => 0, fun x y => by simp [poly2]⟩
omit [LinearOrder K] [IsStrictOrderedRing K] in
theorem Poly3.zero (n0 n1 n2 : ℕ) : Poly3 (K := K) n0 n1 n2 fun _ _ _ => 0 := ⟨fun _ _ _ => 0, fun x y t => by simp [poly3]⟩

omit [LinearOrder K] [IsStrictOrderedRing K] in
theorem Poly2.add {n0 n1 : ℕ} {F G : K → K → K} (hF : Poly2 n0 n1 F) (hG : Poly2 n0 n1 G) (c : K) : Poly2 n0 n1 fun x y => c * F x y + G x y := by
  obtain ⟨a, ha⟩ := hF
  obtain ⟨b, hb⟩ := hG
  refine ⟨fun i j => c * a i j + b i j, fun x y => ?_⟩
  dsimp only; rw [ha, hb, poly2, poly2, poly2, Finset.mul_sum, ← Finset.sum_add_distrib]
  refine Finset.sum_congr rfl fun i _ => ?_
  rw [Finset.mul_sum, ← Finset.sum_add_distrib]
  exact Finset.sum_congr rfl fun j _ => by ring

omit [LinearOrder K] [IsStrictOrderedRing K] in
theorem Poly3.add {n0 n1 n2 : ℕ} {F G : K → K → K → K} (hF : Poly3 n0 n1 n2 F) (hG : Poly3 n0 n1 n2 G) (c : K) :
    Poly3 n0 n1 n2 fun x y t => c * F x y t + G x y t := by
  obtain ⟨a, ha⟩ := hF
  obtain ⟨b, hb⟩ := hG
  refine ⟨fun i j k => c * a i j k + b i j k, fun x y t => ?_⟩
  dsimp only; rw [ha, hb, poly3, poly3, poly3, Finset.mul_sum, ← Finset.sum_add_distrib]
  refine Finset.sum_congr rfl fun i _ => ?_
  rw [Finset.mul_sum, ← Finset.sum_add_distrib]
  refine Finset.sum_congr rfl fun j _ => ?_
  rw [Finset.mul_sum, ← Finset.sum_add_distrib]
  exact Finset.sum_congr rfl fun k _ => by ring

theorem mode_poly2 (shape : Shape) (h2 : dimOf shape = 2) (n a b : ℕ) (hn : 2 ≤ n) (h : EnoughNodes shape n [a, b]) (m : ℕ × ℕ × ℕ) (hm : m ∈ modesOf shape n) (t : K) :
    Poly2 a b fun x y => modeFn shape (x, y, t) m := by
  cases shape <;> simp [dimOf] at h2
  · obtain ⟨a', b', e, ha, hb⟩ := h
    cases e
    simp only [modesOf, modesB, List.mem_map, List.mem_flatMap, List.mem_range] at hm
    obtain ⟨⟨p, q⟩, ⟨p', hp', q', hq', e⟩, rfl⟩ := hm
    cases e
    simp only [modeFn]
    by_cases hv : p = 0 ∧ q = 1
    · simp only [if_pos hv]
      have := poly2_mul (n0 := a) (n1 := b) (Deg.const (1 : K) 0) (deg_modB p q) (by omega) (by omega)
      simpa only [one_mul] using this
    · simp only [if_neg hv]
      exact poly2_mul (deg_modA p) (deg_modB p q) (by omega) (by omega)
  · obtain ⟨a', b', e, ha, hb⟩ := h
    cases e
    simp only [modesOf, List.mem_map, List.mem_flatMap, List.mem_range] at hm
    obtain ⟨q, hq, p, hp, rfl⟩ := hm
    exact poly2_mul (deg_modA p) (deg_modA q) (by omega) (by omega)

theorem mode_poly3 (shape : Shape) (h2 : dimOf shape = 3) (n a b c : ℕ) (hn : 2 ≤ n) (h : EnoughNodes shape n [a, b, c]) (m : ℕ × ℕ × ℕ) (hm : m ∈ modesOf shape n) :
    Poly3 (K := K) a b c fun x y t => modeFn shape (x, y, t) m := by
  cases shape <;> simp [dimOf] at h2
  · obtain ⟨a', b', c', e, ha, hb, hc⟩ := h
    cases e
    simp only [modesOf, List.mem_map, List.mem_flatMap, List.mem_range] at hm
    obtain ⟨r, hr, q, hq, p, hp, rfl⟩ := hm
    exact poly3_mul (deg_modA p) (deg_modA q) (deg_modA r) (by omega) (by omega) (by omega)
  · obtain ⟨a', b', c', e, ha, hb, hc⟩ := h
    cases e
    simp only [modesOf, List.mem_map, List.mem_flatMap, List.mem_range] at hm
    obtain ⟨p, hp, q, hq, r, hr, rfl⟩ := hm
    simp only [modeFn]
    by_cases hv : p = 0 ∧ r = 1
    · simp only [if_pos hv]
      have := poly3_mul (n0 := a) (n1 := b) (n2 := c) (Deg.const (1 : K) 0) (deg_modA q) (deg_modB p r) (by omega) (by omega) (by omega)
      simpa only [one_mul] using this
    · simp only [if_neg hv]
      exact poly3_mul (deg_modA p) (deg_modA q) (deg_modB p r) (by omega) (by omega) (by omega)
  · obtain ⟨a', b', c', e, ha, hb, hc, hc2⟩ := h
    cases e
    simp only [modesOf, modesPyr, List.mem_map, List.mem_flatMap, List.mem_range] at hm
    obtain ⟨p, hp, q, hq, r, hr, rfl⟩ := hm
    simp only [modeFn]
    by_cases hv : p = 0 ∧ q = 0 ∧ r = 1
    · simp only [if_pos hv]
      have := poly3_mul (n0 := a) (n1 := b) (n2 := c) (Deg.const (1 : K) 0) (Deg.const (1 : K) 0) (deg_modPyrC p q r) (by omega) (by omega) (by omega)
      simpa only [one_mul] using this
    · simp only [if_neg hv]
      exact poly3_mul (deg_modA p) (deg_modA q) (deg_modPyrC p q r) (by omega) (by omega) (by omega)
  · obtain ⟨a', b', c', e, ha, hb, hc⟩ := h
    cases e
    simp only [modesOf, modesC, List.mem_map, List.mem_flatMap, List.mem_range] at hm
    obtain ⟨p, hp, q, hq, r, hr, rfl⟩ := hm
    simp only [modeFn]
    by_cases hv : p = 0 ∧ q = 0 ∧ r = 1
    · simp only [if_pos hv]
      have := poly3_mul (n0 := a) (n1 := b) (n2 := c) (Deg.const (1 : K) 0) (Deg.const (1 : K) 0) (deg_modC p q r) (by omega) (by omega) (by omega)
      simpa only [one_mul] using this
    · simp only [if_neg hv]
      by_cases hw : p = 0 ∧ q = 1
      · simp only [if_pos hw]
        have := poly3_mul (n0 := a) (n1 := b) (n2 := c) (Deg.const (1 : K) 0) (deg_modB p q) (deg_modC p q r) (by omega) (by omega) (by omega)
        simpa only [one_mul] using this
      · simp only [if_neg hw]
        exact poly3_mul (deg_modA p) (deg_modB p q) (deg_modC p q r) (by omega) (by omega) (by omega)

/-- The value of a function of the field in an element as a function of the collapsed coordinates. -/
theorem valueAt_sum (e : Expansion) (coeffs : List K) (eta : K × K × K) :
    valueAt e eta coeffs = ((List.range coeffs.length).map fun i => coeffs.getD i 0 *
      if e.offset ≤ i then ((modesOf e.shape (order e))[i - e.offset]?.map (modeFn e.shape eta)).getD 0 else 0).sum := by
  unfold valueAt modeAt
  simp only [basisAt_eq, List.getD_eq_getElem?_getD, List.getElem?_map]

theorem value_poly2 (e : Expansion) (h2 : dimOf e.shape = 2) (a b : ℕ) (hn : 2 ≤ order e) (h : EnoughNodes e.shape (order e) [a, b]) (coeffs : List K) (t : K) :
    Poly2 a b fun x y => valueAt e (x, y, t) coeffs := by
  simp only [valueAt_sum]
  induction List.range coeffs.length with
  | nil => simpa using Poly2.zero a b
  | cons i l ih =>
    simp only [List.map_cons, List.sum_cons]
    by_cases hi : e.offset ≤ i
    · cases hm : (modesOf e.shape (order e))[i - e.offset]? with
      | none => simpa [hi, hm] using ih
      | some m =>
        simp only [hi, hm, if_true, Option.map_some, Option.getD_some] at ih ⊢
        exact (mode_poly2 e.shape h2 (order e) a b hn h m (List.mem_of_getElem? hm) t).add ih _
    · simpa [hi] using ih

theorem value_poly3 (e : Expansion) (h2 : dimOf e.shape = 3) (a b c : ℕ) (hn : 2 ≤ order e) (h : EnoughNodes e.shape (order e) [a, b, c]) (coeffs : List K) :
    Poly3 a b c fun x y t => valueAt e (x, y, t) coeffs := by
  simp only [valueAt_sum]
  induction List.range coeffs.length with
  | nil => simpa using Poly3.zero a b c
  | cons i l ih =>
    simp only [List.map_cons, List.sum_cons]
    by_cases hi : e.offset ≤ i
    · cases hm : (modesOf e.shape (order e))[i - e.offset]? with
      | none => simpa [hi, hm] using ih
      | some m =>
        simp only [hi, hm, if_true, Option.map_some, Option.getD_some] at ih ⊢
        exact (mode_poly3 e.shape h2 (order e) a b c hn h m (List.mem_of_getElem? hm)).add ih _
    · simpa [hi] using ih

end Verif.Lemmas.ModalDegree
