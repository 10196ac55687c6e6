import Verif.Lemmas.Expansion
import Verif.Props.C12_ModeCounts

/-! The kernel of one particle. -/

namespace Verif.Lemmas
open Verif.Spec Verif.Model Verif.Model.JacobiCoeff Verif.Model.BasisReference Verif.Model.BasisEvaluation
  Verif.Model.BasisEvaluateBase Verif.Model.ExpansionLooping

variable {K : Type*} [Field K] [DecidableEq K]

theorem getElem?_rows2 {α : Type*} (n : ℕ) (m : ℕ → ℕ) (e : ℕ → ℕ → α) (p q : ℕ) (hp : p < n) (hq : q < m p) :
    (rows2 n 0 m e)[∑ i ∈ Finset.range p, m i + q]? = some (e p q) := by
  have hpre : rows2 p (q + 1) m e <+: rows2 n 0 m e := by
    have h1 : rows2 p (q + 1) m e <+: rows2 (p + 1) 0 m e := by
      rw [← rows2_full, rows2, rows2]
      refine (List.prefix_append_right_inj _).mpr ?_
      have : List.range (q + 1) <+: List.range (m p) := by
        rw [show m p = (q + 1) + (m p - (q + 1)) by omega, List.range_add (n := q + 1)]
        exact List.prefix_append _ _
      exact this.map _
    refine h1.trans ?_
    rw [rows2_zero, rows2_zero, show n = (p + 1) + (n - (p + 1)) by omega, List.range_add (n := p + 1),
      List.flatMap_append]
    exact List.prefix_append _ _
  obtain ⟨t, ht⟩ := hpre
  rw [← ht, rows2_succ, List.append_assoc, List.getElem?_append_right (by rw [length_rows2]), length_rows2]
  simp

theorem getElem?_rows3 {α : Type*} (n : ℕ) (m : ℕ → ℕ) (k : ℕ → ℕ → ℕ) (e : ℕ → ℕ → ℕ → α) (p q r : ℕ) (hp : p < n)
    (hq : q < m p) (hr : r < k p q) :
    (rows3 n 0 0 m k e)[∑ i ∈ Finset.range p, ∑ j ∈ Finset.range (m i), k i j + (∑ j ∈ Finset.range q, k p j + r)]? =
      some (e p q r) := by
  have hpre : rows3 p (m p) 0 m k e <+: rows3 n 0 0 m k e := by
    rw [rows3_full', rows3, rows3, show n = (p + 1) + (n - (p + 1)) by omega, List.range_add (n := p + 1),
      List.flatMap_append, rows2_nil, rows2_nil, List.append_nil, List.append_nil]
    exact List.prefix_append _ _
  obtain ⟨t, ht⟩ := hpre
  rw [← ht, rows3, List.append_assoc, List.getElem?_append_right (by
      simp only [length_flatMap_range, List.length_map, List.length_range]; omega),
    length_flatMap_range]
  simp only [length_flatMap_range, List.length_map, List.length_range, Nat.add_sub_cancel_left]
  rw [List.getElem?_append_left (by rw [length_rows2]; exact sum_lt_of (k p) hq hr),
    getElem?_rows2 (m p) (k p) (e p) q r hq hr]

theorem holds_of_fill {L buf : List (Dbl K)} {i : ℕ} {v : Dbl K} (h : L[i]? = some v) :
    Mem.read (fill L buf) (i : ℤ) = some v := by
  obtain ⟨hi, hv⟩ := List.getElem?_eq_some_iff.mp h
  rw [read_fill _ _ _ hi, hv]

theorem holdsA_listA (n : ℕ) (z : K) (buf : List (Dbl K)) :
    HoldsA n (fun p => some (evalModA p z)) (fill (listA n z) buf) := by
  intro p hp
  refine holds_of_fill ?_
  simp [listA, hp]

theorem holdsB_listB (n : ℕ) (z : K) (buf : List (Dbl K)) :
    HoldsB n (fun p q => valB p q z) (fill (listB n z) buf) := by
  intro p hp q hq
  refine holds_of_fill ?_
  have := getElem?_rows2 n (fun p => n - p) (fun p q => valB p q z) p q hp hq
  rwa [rows2_zero] at this

theorem holdsC_listC (n : ℕ) (z : K) (buf : List (Dbl K)) :
    HoldsC n (fun p => n - p) (fun p q => n - p - q) (fun p q r => valB (p + q) r z) (fill (listC n z) buf) := by
  intro p hp q hq r hr
  refine holds_of_fill ?_
  have := getElem?_rows3 n (fun p => n - p) (fun p q => n - p - q) (fun p q r => valB (p + q) r z) p q r hp hq hr
  rwa [rows3, rows2_nil, List.append_nil] at this

theorem holdsC_listPyr (n : ℕ) (z : K) (buf : List (Dbl K)) :
    HoldsC n (fun _ => n) (fun p q => n - max p q) (fun p q r => valPyr p q r z) (fill (listPyr n z) buf) := by
  intro p hp q hq r hr
  refine holds_of_fill ?_
  have := getElem?_rows3 n (fun _ => n) (fun p q => n - max p q) (fun p q r => valPyr p q r z) p q r hp hq hr
  rwa [rows3, rows2_nil, List.append_nil] at this

/-- The values of the basis functions of an element over doubles, as the kernels compute them. -/
def dExpansion (shape : Shape) (n : ℕ) (e0 e1 e2 : K) : List (Dbl K) :=
  let a := fun (z : K) (p : ℕ) => (some (evalModA p z) : Dbl K)
  let b := fun (z : K) (p q : ℕ) => valB p q z
  match shape with
  | .tri => rows2 n 0 (fun p => n - p) (dTri (a e0) (b e1))
  | .quad => rows2 n 0 (fun _ => n) (dQuad (a e0) (a e1))
  | .hex => rows3 n 0 0 (fun _ => n) (fun _ _ => n) (dHex (a e0) (a e1) (a e2))
  | .prism => rows3 n 0 0 (fun _ => n) (fun p _ => n - p) (dPrism (a e0) (a e1) (b e2))
  | .pyr => rows3 n 0 0 (fun _ => n) (fun p q => n - max p q) (dPyr (a e0) (a e1) fun p q r => valPyr p q r e2)
  | .tet => rows3 n 0 0 (fun p => n - p) (fun p q => n - p - q) (dTet (a e0) (b e1) fun p q r => valB (p + q) r e2)

theorem length_dExpansion (shape : Shape) (n : ℕ) (e0 e1 e2 : K) :
    (dExpansion shape n e0 e1 e2).length = (totalNumModesShape shape n).mode := by
  cases shape <;> simp only [dExpansion, length_rows2, length_rows3, Nat.add_zero, Finset.range_zero, Finset.sum_empty]
  · rw [shape_tri]
  · rw [sum_const']; simp [totalNumModesShape]
  · rw [sum_const', sum_const', ← Nat.mul_assoc]; simp [totalNumModesShape]
  · rw [shape_prism]
  · rw [shape_pyr]
  · rw [shape_tet]

variable [CharZero K] [LinearOrder K]

/-- The local spaces after `prepare_per_dim_basis`, and the two loops over them. -/
theorem particle_loops (tol : K) (cells : List (Shape × ℕ)) (shape : Shape) (n : ℕ)
    (hc : (shape, n) ∈ cells) (h2 : 2 ≤ n) (xi : K × K × K) (s0 s1 s2 : List (Dbl K))
    (hs0 : spaceSize shape n 0 ≤ s0.length) (hs1 : spaceSize shape n 1 ≤ s1.length)
    (hs2 : spaceSize shape n 2 ≤ s2.length) :
    let eta := collapse tol shape xi.1 xi.2.1 xi.2.2
    ∃ l, prepareBasis tol (tables K cells) shape n xi s0 s1 s2 = some l ∧
      (∀ dofs : List K, (totalNumModesShape shape n).mode ≤ dofs.length →
        loopEvaluate shape n dofs l.1 l.2.1 l.2.2 = some (ddot dofs (dExpansion shape n eta.1 eta.2.1 eta.2.2))) ∧
      (∀ value : K, loopProject shape n value l.1 l.2.1 l.2.2 =
        some (addsOf value (dExpansion shape n eta.1 eta.2.1 eta.2.2))) := by
  intro eta
  obtain ⟨k1, k2, k3, k4⟩ := Props.C12.tables_cover_kernels cells (shape, n) hc (by omega)
  obtain ⟨c0, c1, c2, c3, c4, c5, c6⟩ := Props.C12.basis_total_num_modes n
  simp only [] at k1 k3 k4
  have lB : ∀ z : K, (listB n z).length = totalNumModesBasis .modB n := fun z => by rw [length_listB, c1]
  have lC : ∀ z : K, (listC n z).length = totalNumModesBasis .modC n := fun z => by
    rw [c4]; simp [listC, modesC, length_flatMap_range]
  have lP : ∀ z : K, (listPyr n z).length = totalNumModesBasis .modPyrC n := fun z => by
    rw [c6]; simp [listPyr, rowPyr, modesPyr, length_flatMap_range]
  have eA : ∀ (z : K) (buf : List (Dbl K)), n ≤ buf.length → modA (tables K cells) n z buf = some (fill (listA n z) buf) :=
    fun z buf hb => modA_eq _ _ n z buf h2 hb (by omega) k2
  have eB : shape ≠ .quad → shape ≠ .hex → ∀ (z : K) (buf : List (Dbl K)), totalNumModesBasis .modB n ≤ buf.length →
      modB (tables K cells) n z buf = some (fill (listB n z) buf) :=
    fun hq hh z buf hb => modB_eq _ _ n z buf (by rw [lB]; exact hb) k1 k2 (k3 hq hh)
  unfold prepareBasis
  cases shape
  · refine ⟨(fill (listA n eta.1) s0, fill (listB n eta.2.1) s1, s2), ?_, ?_, ?_⟩
    · simp only [evaluateBasis]
      rw [eA _ _ hs0, Option.bind_some, eB (by simp) (by simp) _ _ hs1]; rfl
    · intro dofs hd
      exact triEvaluate_eq n dofs _ _ _ _ (holdsA_listA _ _ _) (holdsB_listB _ _ _) (by rwa [← shape_tri])
    · intro v
      exact triProject_eq n v _ _ _ _ (holdsA_listA _ _ _) (holdsB_listB _ _ _)
  · refine ⟨(fill (listA n eta.1) s0, fill (listA n eta.2.1) s1, s2), ?_, ?_, ?_⟩
    · simp only [evaluateBasis]
      rw [eA _ _ hs0, Option.bind_some, eA _ _ hs1]; rfl
    · intro dofs hd
      exact quadEvaluate_eq n dofs _ _ _ _ (holdsA_listA _ _ _) (holdsA_listA _ _ _) (by simpa [totalNumModesShape] using hd)
    · intro v
      exact quadProject_eq n v _ _ _ _ (holdsA_listA _ _ _) (holdsA_listA _ _ _)
  · refine ⟨(fill (listA n eta.1) s0, fill (listA n eta.2.1) s1, fill (listA n eta.2.2) s2), ?_, ?_, ?_⟩
    · simp only [evaluateBasis]
      rw [eA _ _ hs0, Option.bind_some, eA _ _ hs1, Option.bind_some, eA _ _ hs2]; rfl
    · intro dofs hd
      exact hexEvaluate_eq n dofs _ _ _ _ _ _ (holdsA_listA _ _ _) (holdsA_listA _ _ _) (holdsA_listA _ _ _)
        (by simpa [totalNumModesShape] using hd)
    · intro v
      exact hexProject_eq n v _ _ _ _ _ _ (holdsA_listA _ _ _) (holdsA_listA _ _ _) (holdsA_listA _ _ _)
  · refine ⟨(fill (listA n eta.1) s0, fill (listA n eta.2.1) s1, fill (listB n eta.2.2) s2), ?_, ?_, ?_⟩
    · simp only [evaluateBasis]
      rw [eA _ _ hs0, Option.bind_some, eA _ _ hs1, Option.bind_some, eB (by simp) (by simp) _ _ hs2]; rfl
    · intro dofs hd
      exact prismEvaluate_eq n dofs _ _ _ _ _ _ (holdsA_listA _ _ _) (holdsA_listA _ _ _) (holdsB_listB _ _ _)
        (by rwa [← shape_prism])
    · intro v
      exact prismProject_eq n v _ _ _ _ _ _ (holdsA_listA _ _ _) (holdsA_listA _ _ _) (holdsB_listB _ _ _)
  · refine ⟨(fill (listA n eta.1) s0, fill (listA n eta.2.1) s1, fill (listPyr n eta.2.2) s2), ?_, ?_, ?_⟩
    · simp only [evaluateBasis]
      rw [eA _ _ hs0, Option.bind_some, eA _ _ hs1, Option.bind_some]
      unfold tables
      rw [modPyrC_eq _ _ n _ s2 (by omega) (by rw [lP]; exact hs2) k1 k2 (k3 (by simp) (by simp)) (k4 rfl)]; rfl
    · intro dofs hd
      exact pyrEvaluate_eq n dofs _ _ _ _ _ _ (holdsA_listA _ _ _) (holdsA_listA _ _ _) (holdsC_listPyr _ _ _)
        (by rwa [← shape_pyr])
    · intro v
      exact pyrProject_eq n v _ _ _ _ _ _ (holdsA_listA _ _ _) (holdsA_listA _ _ _) (holdsC_listPyr _ _ _)
  · refine ⟨(fill (listA n eta.1) s0, fill (listB n eta.2.1) s1, fill (listC n eta.2.2) s2), ?_, ?_, ?_⟩
    · simp only [evaluateBasis]
      rw [eA _ _ hs0, Option.bind_some, eB (by simp) (by simp) _ _ hs1, Option.bind_some]
      unfold tables
      rw [modC_eq _ _ n _ s2 (by rw [lC]; exact hs2) k1 k2 (k3 (by simp) (by simp))]; rfl
    · intro dofs hd
      exact tetEvaluate_eq n dofs _ _ _ _ _ _ (holdsA_listA _ _ _) (holdsB_listB _ _ _) (holdsC_listC _ _ _)
        (by rwa [← shape_tet])
    · intro v
      exact tetProject_eq n v _ _ _ _ _ _ (holdsA_listA _ _ _) (holdsB_listB _ _ _) (holdsC_listC _ _ _)

end Verif.Lemmas
