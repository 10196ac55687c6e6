import Verif.Lemmas.ModeCounts

/-! C12, the optional outputs `max_n` and `max_alpha` of `get_total_num_modes`, in closed form. -/

namespace Verif.Props.C12
open Verif.Model Verif.Model.BasisReference Verif.Lemmas

theorem loop_le {σ : Type*} (f : σ → ℤ) (c : ℤ) (n : ℕ) (body : ℕ → σ → σ) (s : σ) (h0 : f s ≤ c)
    (h : ∀ i < n, ∀ s, f s ≤ c → f (body i s) ≤ c) : f (loop n body s) ≤ c := by
  induction n with
  | zero => simpa [loop] using h0
  | succ n ih => rw [loop]; exact h n (by omega) _ (ih fun i hi => h i (by omega))

/-- `max_n` is the greatest order of a Jacobi polynomial in the modes of the shape: `P - 3` if all directions are of the first kind, `P - 2` if there
is a collapsed direction. -/
theorem max_n_exact (shape : Shape) (P : ℕ) (h : 1 ≤ P) :
    (totalNumModesShape shape P).n = match shape with
      | .quad | .hex => max 0 ((P : ℤ) - 3)
      | _ => max 0 ((P : ℤ) - 2) := by
  have low : ∀ (body : ℕ → Counts → Counts), (∀ i s, s.n ≤ (body i s).n) → 0 ≤ (loop P body ⟨0, 0, 0⟩).n := fun body hb =>
    loop_mono (fun s : Counts => s.n) P body ⟨0, 0, 0⟩ hb
  cases shape <;> dsimp only
  · -- triangles
    have hb : ∀ (p q : ℕ) (s : Counts), s.n ≤ (bump (lamB p q (lamA p s))).n := fun p q s => by simp only [bump, lamB, lamA]; omega
    have hm : ∀ (p : ℕ) (s : Counts), s.n ≤ (loop (P - p) (fun q s => bump (lamB p q (lamA p s))) s).n := fun p s =>
      loop_mono (fun s : Counts => s.n) _ _ _ fun q s => hb p q s
    refine le_antisymm ?_ (max_le (low _ hm) ?_)
    · refine loop_le (fun s : Counts => s.n) _ P _ _ (by simp) fun p hp s hs => loop_le (fun s : Counts => s.n) _ _ _ _ hs fun q hq s hs => ?_
      simp only [bump, lamB, lamA]; omega
    · refine loop_reach (fun s : Counts => s.n) _ 0 P (by omega) _ _ hm fun s => loop_reach (fun s : Counts => s.n) _ (P - 1) _ (by omega) _ _ (hb 0) fun s => ?_
      simp only [bump, lamB, lamA]; omega
  · simp only [totalNumModesShape, lamA]; omega
  · simp only [totalNumModesShape, lamA]; omega
  · -- prisms
    have hb : ∀ (p q r : ℕ) (s : Counts), s.n ≤ (bump (lamB p r (lamA q (lamA p s)))).n := fun p q r s => by simp only [bump, lamB, lamA]; omega
    have hm1 : ∀ (p q : ℕ) (s : Counts), s.n ≤ (loop (P - p) (fun r s => bump (lamB p r (lamA q (lamA p s)))) s).n := fun p q s =>
      loop_mono (fun s : Counts => s.n) _ _ _ fun r s => hb p q r s
    have hm : ∀ (p : ℕ) (s : Counts), s.n ≤ (loop P (fun q s => loop (P - p) (fun r s => bump (lamB p r (lamA q (lamA p s)))) s) s).n := fun p s =>
      loop_mono (fun s : Counts => s.n) _ _ _ fun q s => hm1 p q s
    refine le_antisymm ?_ (max_le (low _ hm) ?_)
    · refine loop_le (fun s : Counts => s.n) _ P _ _ (by simp) fun p hp s hs => loop_le (fun s : Counts => s.n) _ _ _ _ hs fun q hq s hs =>
        loop_le (fun s : Counts => s.n) _ _ _ _ hs fun r hr s hs => ?_
      simp only [bump, lamB, lamA]; omega
    · refine loop_reach (fun s : Counts => s.n) _ 0 P (by omega) _ _ hm fun s => loop_reach (fun s : Counts => s.n) _ 0 _ (by omega) _ _ (hm1 0) fun s =>
        loop_reach (fun s : Counts => s.n) _ (P - 1) _ (by omega) _ _ (hb 0 0) fun s => ?_
      simp only [bump, lamB, lamA]; omega
  · -- pyramids
    have hb : ∀ (p q r : ℕ) (s : Counts), s.n ≤ (bump (lamPyrC p q r (lamA q (lamA p s)))).n := fun p q r s => by simp only [bump, lamPyrC, lamB, lamA]; omega
    have hm1 : ∀ (p q : ℕ) (s : Counts), s.n ≤ (loop (P - max p q) (fun r s => bump (lamPyrC p q r (lamA q (lamA p s)))) s).n := fun p q s =>
      loop_mono (fun s : Counts => s.n) _ _ _ fun r s => hb p q r s
    have hm : ∀ (p : ℕ) (s : Counts), s.n ≤ (loop P (fun q s => loop (P - max p q) (fun r s => bump (lamPyrC p q r (lamA q (lamA p s)))) s) s).n := fun p s =>
      loop_mono (fun s : Counts => s.n) _ _ _ fun q s => hm1 p q s
    refine le_antisymm ?_ (max_le (low _ hm) ?_)
    · refine loop_le (fun s : Counts => s.n) _ P _ _ (by simp) fun p hp s hs => loop_le (fun s : Counts => s.n) _ _ _ _ hs fun q hq s hs =>
        loop_le (fun s : Counts => s.n) _ _ _ _ hs fun r hr s hs => ?_
      simp only [bump, lamPyrC, lamB, lamA]; omega
    · refine loop_reach (fun s : Counts => s.n) _ 0 P (by omega) _ _ hm fun s => loop_reach (fun s : Counts => s.n) _ 0 _ (by omega) _ _ (hm1 0) fun s =>
        loop_reach (fun s : Counts => s.n) _ (P - 1) _ (by omega) _ _ (hb 0 0) fun s => ?_
      simp only [bump, lamPyrC, lamB, lamA]; omega
  · -- tetrahedra
    have hb : ∀ (p q r : ℕ) (s : Counts), s.n ≤ (bump (lamC p q r (lamB p q (lamA p s)))).n := fun p q r s => by simp only [bump, lamC, lamB, lamA]; omega
    have hm1 : ∀ (p q : ℕ) (s : Counts), s.n ≤ (loop (P - p - q) (fun r s => bump (lamC p q r (lamB p q (lamA p s)))) s).n := fun p q s =>
      loop_mono (fun s : Counts => s.n) _ _ _ fun r s => hb p q r s
    have hm : ∀ (p : ℕ) (s : Counts), s.n ≤ (loop (P - p) (fun q s => loop (P - p - q) (fun r s => bump (lamC p q r (lamB p q (lamA p s)))) s) s).n := fun p s =>
      loop_mono (fun s : Counts => s.n) _ _ _ fun q s => hm1 p q s
    refine le_antisymm ?_ (max_le (low _ hm) ?_)
    · refine loop_le (fun s : Counts => s.n) _ P _ _ (by simp) fun p hp s hs => loop_le (fun s : Counts => s.n) _ _ _ _ hs fun q hq s hs =>
        loop_le (fun s : Counts => s.n) _ _ _ _ hs fun r hr s hs => ?_
      simp only [bump, lamC, lamB, lamA]; omega
    · refine loop_reach (fun s : Counts => s.n) _ 0 P (by omega) _ _ hm fun s => loop_reach (fun s : Counts => s.n) _ 0 _ (by omega) _ _ (hm1 0) fun s =>
        loop_reach (fun s : Counts => s.n) _ (P - 1) _ (by omega) _ _ (hb 0 0) fun s => ?_
      simp only [bump, lamC, lamB, lamA]; omega

/-- `max_alpha` is the greatest first parameter of a Jacobi polynomial in the modes of the shape. -/
theorem max_alpha_exact (shape : Shape) (P : ℕ) (h : 1 ≤ P) :
    (totalNumModesShape shape P).alpha = match shape with
      | .quad | .hex => 1
      | .pyr => max 1 (4 * (P : ℤ) - 7)
      | _ => max 1 (2 * (P : ℤ) - 3) := by
  cases shape <;> dsimp only
  · have hb : ∀ (p q : ℕ) (s : Counts), s.alpha ≤ (bump (lamB p q (lamA p s))).alpha := fun p q s => by simp only [bump, lamB, lamA]; omega
    refine le_antisymm ?_ (max_le ?_ (tri_alpha P h))
    · refine loop_le (fun s : Counts => s.alpha) _ P _ _ (by simp) fun p hp s hs => loop_le (fun s : Counts => s.alpha) _ _ _ _ hs fun q hq s hs => ?_
      simp only [bump, lamB, lamA]; omega
    · refine loop_reach (fun s : Counts => s.alpha) _ 0 P (by omega) _ _ (fun p s => loop_mono (fun s : Counts => s.alpha) _ _ _ fun q s => hb p q s) fun s =>
        loop_reach (fun s : Counts => s.alpha) _ 0 _ (by omega) _ _ (hb 0) fun s => ?_
      simp only [bump, lamB, lamA]; omega
  · simp only [totalNumModesShape, lamA]; omega
  · simp only [totalNumModesShape, lamA]; omega
  · have hb : ∀ (p q r : ℕ) (s : Counts), s.alpha ≤ (bump (lamB p r (lamA q (lamA p s)))).alpha := fun p q r s => by simp only [bump, lamB, lamA]; omega
    refine le_antisymm ?_ (max_le ?_ (prism_alpha P h))
    · refine loop_le (fun s : Counts => s.alpha) _ P _ _ (by simp) fun p hp s hs => loop_le (fun s : Counts => s.alpha) _ _ _ _ hs fun q hq s hs =>
        loop_le (fun s : Counts => s.alpha) _ _ _ _ hs fun r hr s hs => ?_
      simp only [bump, lamB, lamA]; omega
    · refine loop_reach (fun s : Counts => s.alpha) _ 0 P (by omega) _ _
        (fun p s => loop_mono (fun s : Counts => s.alpha) _ _ _ fun q s => loop_mono (fun s : Counts => s.alpha) _ _ _ fun r s => hb p q r s) fun s =>
        loop_reach (fun s : Counts => s.alpha) _ 0 _ (by omega) _ _ (fun q s => loop_mono (fun s : Counts => s.alpha) _ _ _ fun r s => hb 0 q r s) fun s =>
        loop_reach (fun s : Counts => s.alpha) _ 0 _ (by omega) _ _ (hb 0 0) fun s => ?_
      simp only [bump, lamB, lamA]; omega
  · have hb : ∀ (p q r : ℕ) (s : Counts), s.alpha ≤ (bump (lamPyrC p q r (lamA q (lamA p s)))).alpha := fun p q r s => by
      simp only [bump, lamPyrC, lamB, lamA]; omega
    refine le_antisymm ?_ (max_le ?_ (pyr_alpha P h).2)
    · refine loop_le (fun s : Counts => s.alpha) _ P _ _ (by simp) fun p hp s hs => loop_le (fun s : Counts => s.alpha) _ _ _ _ hs fun q hq s hs =>
        loop_le (fun s : Counts => s.alpha) _ _ _ _ hs fun r hr s hs => ?_
      simp only [bump, lamPyrC, lamB, lamA]; omega
    · refine loop_reach (fun s : Counts => s.alpha) _ 0 P (by omega) _ _
        (fun p s => loop_mono (fun s : Counts => s.alpha) _ _ _ fun q s => loop_mono (fun s : Counts => s.alpha) _ _ _ fun r s => hb p q r s) fun s =>
        loop_reach (fun s : Counts => s.alpha) _ 0 _ (by omega) _ _ (fun q s => loop_mono (fun s : Counts => s.alpha) _ _ _ fun r s => hb 0 q r s) fun s =>
        loop_reach (fun s : Counts => s.alpha) _ 0 _ (by omega) _ _ (hb 0 0) fun s => ?_
      simp only [bump, lamPyrC, lamB, lamA]; omega
  · have hb : ∀ (p q r : ℕ) (s : Counts), s.alpha ≤ (bump (lamC p q r (lamB p q (lamA p s)))).alpha := fun p q r s => by
      simp only [bump, lamC, lamB, lamA]; omega
    refine le_antisymm ?_ (max_le ?_ (tet_alpha P h))
    · refine loop_le (fun s : Counts => s.alpha) _ P _ _ (by simp) fun p hp s hs => loop_le (fun s : Counts => s.alpha) _ _ _ _ hs fun q hq s hs =>
        loop_le (fun s : Counts => s.alpha) _ _ _ _ hs fun r hr s hs => ?_
      simp only [bump, lamC, lamB, lamA]; omega
    · refine loop_reach (fun s : Counts => s.alpha) _ 0 P (by omega) _ _
        (fun p s => loop_mono (fun s : Counts => s.alpha) _ _ _ fun q s => loop_mono (fun s : Counts => s.alpha) _ _ _ fun r s => hb p q r s) fun s =>
        loop_reach (fun s : Counts => s.alpha) _ 0 _ (by omega) _ _ (fun q s => loop_mono (fun s : Counts => s.alpha) _ _ _ fun r s => hb 0 q r s) fun s =>
        loop_reach (fun s : Counts => s.alpha) _ 0 _ (by omega) _ _ (hb 0 0) fun s => ?_
      simp only [bump, lamC, lamB, lamA]; omega

/-- A pyramid and a quadrilateral of five modes. -/
example : (totalNumModesShape .pyr 5).n = 3 ∧ (totalNumModesShape .pyr 5).alpha = 13 ∧ (totalNumModesShape .quad 5).n = 2 := by
  rw [max_n_exact _ _ (by decide), max_alpha_exact _ _ (by decide), max_n_exact _ _ (by decide)]
  decide

end Verif.Props.C12
