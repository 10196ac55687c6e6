import Verif.Model.BasisEvaluateBase
import Verif.Spec.Modes
import Mathlib.Algebra.BigOperators.Intervals
import Mathlib.Algebra.Order.BigOperators.Group.Finset
import Mathlib.Tactic.Ring
import Mathlib.Tactic.Linarith

/-! Counting modes. -/

namespace Verif.Lemmas
open Verif.Spec Verif.Model Verif.Model.BasisReference Verif.Model.BasisEvaluateBase
open Finset (sum_range_succ sum_range_succ' sum_range_zero)

theorem sumB (n : ℕ) : 2 * ∑ p ∈ Finset.range n, (n - p) = n * (n + 1) := by
  induction n with
  | zero => simp
  | succ n ih =>
    rw [sum_range_succ']
    simp only [Nat.add_sub_add_right, Nat.sub_zero]
    rw [Nat.mul_add, ih]; ring

theorem sumC (n : ℕ) : 6 * ∑ p ∈ Finset.range n, ∑ q ∈ Finset.range (n - p), (n - p - q) = n * (n + 1) * (n + 2) := by
  induction n with
  | zero => simp
  | succ n ih =>
    rw [sum_range_succ']
    simp only [Nat.add_sub_add_right, Nat.sub_zero]
    rw [Nat.mul_add, ih]
    have := sumB (n + 1)
    rw [show 6 * ∑ q ∈ Finset.range (n + 1), (n + 1 - q) = 3 * (2 * ∑ q ∈ Finset.range (n + 1), (n + 1 - q)) by ring,
      this]
    ring

theorem sumPyr (n : ℕ) : 6 * ∑ p ∈ Finset.range n, ∑ q ∈ Finset.range n, (n - max p q) = n * (n + 1) * (2 * n + 1) := by
  induction n with
  | zero => simp
  | succ n ih =>
    rw [sum_range_succ']
    have h1 : ∀ p, ∑ q ∈ Finset.range (n + 1), (n + 1 - max (p + 1) q) =
        (∑ q ∈ Finset.range n, (n - max p q)) + (n - p) := by
      intro p
      rw [sum_range_succ']
      simp only [Nat.add_max_add_right, Nat.add_sub_add_right, Nat.max_zero]
    simp only [h1, Finset.sum_add_distrib, Nat.zero_max]
    have hB := sumB n
    have hB1 := sumB (n + 1)
    nlinarith

theorem length_flatMap_range {β : Type*} (g : ℕ → List β) (n : ℕ) :
    ((List.range n).flatMap g).length = ∑ p ∈ Finset.range n, (g p).length := by
  induction n with
  | zero => simp
  | succ n ih => rw [List.range_succ, List.flatMap_append, List.length_append, ih, sum_range_succ]; simp

theorem length_modesB (n : ℕ) : (modesB n).length = n * (n + 1) / 2 := by
  have := sumB n
  unfold modesB
  rw [length_flatMap_range]
  simp only [List.length_map, List.length_range]
  omega

theorem length_modesC (n : ℕ) : (modesC n).length = n * (n + 1) * (n + 2) / 6 := by
  have := sumC n
  unfold modesC
  simp only [length_flatMap_range, List.length_map, List.length_range]
  omega

theorem length_modesPyr (n : ℕ) : (modesPyr n).length = n * (n + 1) * (2 * n + 1) / 6 := by
  have := sumPyr n
  unfold modesPyr
  simp only [length_flatMap_range, List.length_map, List.length_range]
  omega

/-- A loop that adds `c i` to a counter. -/
theorem loop_count {σ : Type*} (f : σ → ℕ) (c : ℕ → ℕ) (n : ℕ) (body : ℕ → σ → σ) (s : σ)
    (h : ∀ i s, f (body i s) = f s + c i) : f (loop n body s) = f s + ∑ i ∈ Finset.range n, c i := by
  induction n with
  | zero => simp [loop]
  | succ n ih => rw [loop, h, ih, sum_range_succ]; ring

theorem loop_inc (n m : ℕ) : loop n (fun _ mode => mode + 1) m = m + n := by
  have := loop_count (fun m : ℕ => m) (fun _ => 1) n (fun _ mode => mode + 1) m (fun _ _ => rfl)
  simpa using this

/-- A quantity that never decreases and reaches `c` in iteration `i0`. -/
theorem loop_mono {σ : Type*} (f : σ → ℤ) (n : ℕ) (body : ℕ → σ → σ) (s : σ)
    (h : ∀ i s, f s ≤ f (body i s)) : f s ≤ f (loop n body s) := by
  induction n with
  | zero => simp [loop]
  | succ n ih => rw [loop]; exact ih.trans (h _ _)

theorem loop_reach {σ : Type*} (f : σ → ℤ) (c : ℤ) (i0 n : ℕ) (hi : i0 < n) (body : ℕ → σ → σ) (s : σ)
    (h : ∀ i s, f s ≤ f (body i s)) (hc : ∀ s, c ≤ f (body i0 s)) : c ≤ f (loop n body s) := by
  induction n with
  | zero => omega
  | succ n ih =>
    rw [loop]
    rcases Nat.lt_or_ge i0 n with h' | h'
    · exact (ih h').trans (h _ _)
    · have : i0 = n := by omega
      subst this; exact hc _

theorem lamA_mode (p s) : (lamA p s).mode = s.mode := rfl
theorem lamB_mode (p q s) : (lamB p q s).mode = s.mode := rfl

theorem totalB (n : ℕ) : totalNumModesBasis .modB n = ∑ p ∈ Finset.range n, (n - p) := by
  have := loop_count (fun m : ℕ => m) (fun p => n - p) n (fun p mode => loop (n - p) (fun _ mode => mode + 1) mode) 0
    (fun i s => loop_inc _ _)
  simpa [totalNumModesBasis] using this

theorem totalC (n : ℕ) : totalNumModesBasis .modC n =
    ∑ p ∈ Finset.range n, ∑ q ∈ Finset.range (n - p), (n - p - q) := by
  have := loop_count (fun m : ℕ => m) (fun p => ∑ q ∈ Finset.range (n - p), (n - p - q)) n
    (fun p mode => loop (n - p) (fun q mode => loop (n - p - q) (fun _ mode => mode + 1) mode) mode) 0
    (fun p s => loop_count (fun m : ℕ => m) (fun q => n - p - q) _ _ _ fun q s => loop_inc _ _)
  simpa [totalNumModesBasis] using this

theorem totalPyr (n : ℕ) : totalNumModesBasis .modPyrC n =
    ∑ p ∈ Finset.range n, ∑ q ∈ Finset.range n, (n - max p q) := by
  have := loop_count (fun m : ℕ => m) (fun p => ∑ q ∈ Finset.range n, (n - max p q)) n
    (fun p mode => loop n (fun q mode => loop (n - max p q) (fun _ mode => mode + 1) mode) mode) 0
    (fun p s => loop_count (fun m : ℕ => m) (fun q => n - max p q) _ _ _ fun q s => loop_inc _ _)
  simpa [totalNumModesBasis] using this

theorem bump_loop (n : ℕ) (g : ℕ → Counts → Counts) (hg : ∀ i s, (g i s).mode = s.mode) (s : Counts) :
    (loop n (fun r s => bump (g r s)) s).mode = s.mode + n := by
  have := loop_count (fun s : Counts => s.mode) (fun _ => 1) n (fun r s => bump (g r s)) s
    (fun i s => by simp [bump, hg])
  simpa using this

theorem shape_tri (n : ℕ) : (totalNumModesShape .tri n).mode = ∑ p ∈ Finset.range n, (n - p) := by
  have := loop_count (fun s : Counts => s.mode) (fun p => n - p) n
    (fun p s => loop (n - p) (fun q s => bump (lamB p q (lamA p s))) s) ⟨0, 0, 0⟩
    (fun p s => bump_loop (n - p) (fun q s => lamB p q (lamA p s)) (fun _ _ => rfl) s)
  simpa [totalNumModesShape] using this

theorem shape_pyr (n : ℕ) : (totalNumModesShape .pyr n).mode =
    ∑ p ∈ Finset.range n, ∑ q ∈ Finset.range n, (n - max p q) := by
  have := loop_count (fun s : Counts => s.mode) (fun p => ∑ q ∈ Finset.range n, (n - max p q)) n
    (fun p s => loop n (fun q s => loop (n - max p q) (fun r s =>
      bump (lamPyrC p q r (lamA q (lamA p s)))) s) s) ⟨0, 0, 0⟩
    (fun p s => loop_count (fun s : Counts => s.mode) (fun q => n - max p q) n _ s fun q s =>
      bump_loop _ (fun r s => lamPyrC p q r (lamA q (lamA p s))) (fun _ _ => rfl) s)
  simpa [totalNumModesShape] using this

theorem shape_prism (n : ℕ) : (totalNumModesShape .prism n).mode =
    ∑ p ∈ Finset.range n, ∑ _q ∈ Finset.range n, (n - p) := by
  have := loop_count (fun s : Counts => s.mode) (fun p => ∑ _q ∈ Finset.range n, (n - p)) n
    (fun p s => loop n (fun q s => loop (n - p) (fun r s =>
      bump (lamB p r (lamA q (lamA p s)))) s) s) ⟨0, 0, 0⟩
    (fun p s => loop_count (fun s : Counts => s.mode) (fun _ => n - p) n _ s fun q s =>
      bump_loop _ (fun r s => lamB p r (lamA q (lamA p s))) (fun _ _ => rfl) s)
  simpa [totalNumModesShape] using this

theorem shape_tet (n : ℕ) : (totalNumModesShape .tet n).mode =
    ∑ p ∈ Finset.range n, ∑ q ∈ Finset.range (n - p), (n - p - q) := by
  have := loop_count (fun s : Counts => s.mode) (fun p => ∑ q ∈ Finset.range (n - p), (n - p - q)) n
    (fun p s => loop (n - p) (fun q s => loop (n - p - q) (fun r s =>
      bump (lamC p q r (lamB p q (lamA p s)))) s) s) ⟨0, 0, 0⟩
    (fun p s => loop_count (fun s : Counts => s.mode) (fun q => n - p - q) (n - p) _ s fun q s =>
      bump_loop _ (fun r s => lamC p q r (lamB p q (lamA p s))) (fun _ _ => rfl) s)
  simpa [totalNumModesShape] using this

/-! Lower bounds of the recorded maximum alpha. -/

theorem alpha_A (p s) : s.alpha ≤ (lamA p s).alpha := le_max_left _ _
theorem alpha_B (p q s) : s.alpha ≤ (lamB p q s).alpha := le_max_left _ _
theorem alpha_B' (p q : ℤ) (s) : 2 * p - 1 ≤ (lamB p q s).alpha := le_max_right _ _
theorem alpha_Pyr (p q r s) : s.alpha ≤ (lamPyrC p q r s).alpha := by
  simp only [lamPyrC, lamB]; omega
theorem alpha_Pyr' (p q r : ℤ) (s) : 2 * p + 2 * q - 3 ≤ (lamPyrC p q r s).alpha := by
  simp only [lamPyrC, lamB]; omega
theorem alpha_PyrB (p q r : ℤ) (s) : 2 * p - 1 ≤ (lamPyrC p q r s).alpha := by
  simp only [lamPyrC, lamB]; omega
theorem alpha_bump (s) : (bump s).alpha = s.alpha := rfl

theorem tri_alpha (n : ℕ) (hn : 1 ≤ n) : 2 * (n : ℤ) - 3 ≤ (totalNumModesShape .tri n).alpha := by
  unfold totalNumModesShape
  refine loop_reach (fun s : Counts => s.alpha) _ (n - 1) n (by omega) _ _ (fun p s => ?_) fun s => ?_
  · exact loop_mono (fun s : Counts => s.alpha) _ _ _ fun q s => by
      simp only [alpha_bump]; exact (alpha_A _ _).trans (alpha_B _ _ _)
  · refine loop_reach (fun s : Counts => s.alpha) _ 0 _ (by omega) _ _ (fun q s => ?_) fun s => ?_
    · simp only [alpha_bump]; exact (alpha_A _ _).trans (alpha_B _ _ _)
    · simp only [alpha_bump]; have := alpha_B' ((n - 1 : ℕ) : ℤ) ((0 : ℕ) : ℤ) (lamA ((n - 1 : ℕ) : ℤ) s); omega

theorem prism_alpha (n : ℕ) (hn : 1 ≤ n) : 2 * (n : ℤ) - 3 ≤ (totalNumModesShape .prism n).alpha := by
  unfold totalNumModesShape
  have hb : ∀ (p q r : ℕ) (s : Counts), s.alpha ≤ (bump (lamB p r (lamA q (lamA p s)))).alpha := fun p q r s => by
    simp only [alpha_bump]; exact ((alpha_A _ _).trans (alpha_A _ _)).trans (alpha_B _ _ _)
  refine loop_reach (fun s : Counts => s.alpha) _ (n - 1) n (by omega) _ _ (fun p s => ?_) fun s => ?_
  · exact loop_mono (fun s : Counts => s.alpha) _ _ _ fun q s =>
      loop_mono (fun s : Counts => s.alpha) _ _ _ fun r s => hb _ _ _ _
  · refine loop_reach (fun s : Counts => s.alpha) _ 0 _ (by omega) _ _ (fun q s => ?_) fun s => ?_
    · exact loop_mono (fun s : Counts => s.alpha) _ _ _ fun r s => hb _ _ _ _
    · refine loop_reach (fun s : Counts => s.alpha) _ 0 _ (by omega) _ _ (fun r s => hb _ _ _ _) fun s => ?_
      simp only [alpha_bump]
      have := alpha_B' ((n - 1 : ℕ) : ℤ) ((0 : ℕ) : ℤ) (lamA ((0 : ℕ) : ℤ) (lamA ((n - 1 : ℕ) : ℤ) s)); omega

theorem tet_alpha (n : ℕ) (hn : 1 ≤ n) : 2 * (n : ℤ) - 3 ≤ (totalNumModesShape .tet n).alpha := by
  unfold totalNumModesShape
  have hb : ∀ (p q r : ℕ) (s : Counts), s.alpha ≤ (bump (lamC p q r (lamB p q (lamA p s)))).alpha := fun p q r s => by
    simp only [alpha_bump]; exact ((alpha_A _ _).trans (alpha_B _ _ _)).trans (alpha_B _ _ _)
  refine loop_reach (fun s : Counts => s.alpha) _ (n - 1) n (by omega) _ _ (fun p s => ?_) fun s => ?_
  · exact loop_mono (fun s : Counts => s.alpha) _ _ _ fun q s =>
      loop_mono (fun s : Counts => s.alpha) _ _ _ fun r s => hb _ _ _ _
  · refine loop_reach (fun s : Counts => s.alpha) _ 0 _ (by omega) _ _ (fun q s => ?_) fun s => ?_
    · exact loop_mono (fun s : Counts => s.alpha) _ _ _ fun r s => hb _ _ _ _
    · refine loop_reach (fun s : Counts => s.alpha) _ 0 _ (by omega) _ _ (fun r s => hb _ _ _ _) fun s => ?_
      simp only [alpha_bump, lamC, lamB]; omega

theorem pyr_alpha (n : ℕ) (hn : 1 ≤ n) : 2 * (n : ℤ) - 3 ≤ (totalNumModesShape .pyr n).alpha ∧
    4 * (n : ℤ) - 7 ≤ (totalNumModesShape .pyr n).alpha := by
  have hb : ∀ (p q r : ℕ) (s : Counts), s.alpha ≤ (bump (lamPyrC p q r (lamA q (lamA p s)))).alpha := fun p q r s => by
    simp only [alpha_bump]; exact ((alpha_A _ _).trans (alpha_A _ _)).trans (alpha_Pyr _ _ _ _)
  have key : ∀ c : ℤ, (∀ s, c ≤ (lamPyrC ((n - 1 : ℕ) : ℤ) ((n - 1 : ℕ) : ℤ) ((0 : ℕ) : ℤ) s).alpha) →
      c ≤ (totalNumModesShape .pyr n).alpha := by
    intro c hc
    unfold totalNumModesShape
    refine loop_reach (fun s : Counts => s.alpha) _ (n - 1) n (by omega) _ _ (fun p s => ?_) fun s => ?_
    · exact loop_mono (fun s : Counts => s.alpha) _ _ _ fun q s =>
        loop_mono (fun s : Counts => s.alpha) _ _ _ fun r s => hb _ _ _ _
    · refine loop_reach (fun s : Counts => s.alpha) _ (n - 1) _ (by omega) _ _ (fun q s => ?_) fun s => ?_
      · exact loop_mono (fun s : Counts => s.alpha) _ _ _ fun r s => hb _ _ _ _
      · refine loop_reach (fun s : Counts => s.alpha) _ 0 _ (by omega) _ _ (fun r s => hb _ _ _ _) fun s => ?_
        exact hc _
  exact ⟨key _ fun s => by have := alpha_PyrB ((n - 1 : ℕ) : ℤ) ((n - 1 : ℕ) : ℤ) ((0 : ℕ) : ℤ) s; omega,
    key _ fun s => by have := alpha_Pyr' ((n - 1 : ℕ) : ℤ) ((n - 1 : ℕ) : ℤ) ((0 : ℕ) : ℤ) s; omega⟩

theorem tableDims_ge (cells : List (Shape × ℕ)) (s : ℤ × ℤ) :
    s.1 ≤ (cells.foldl step s).1 ∧ s.2 ≤ (cells.foldl step s).2 ∧
      ∀ c ∈ cells, (c.2 : ℤ) - 1 ≤ (cells.foldl step s).1 ∧ (totalNumModesShape c.1 c.2).alpha ≤ (cells.foldl step s).2 := by
  induction cells generalizing s with
  | nil => simp
  | cons c cs ih =>
    obtain ⟨h1, h2, h3⟩ := ih (step s c)
    rw [List.foldl_cons]
    have e1 : (step s c).1 = max (max s.1 ((c.2 : ℤ) - 1)) (totalNumModesShape c.1 c.2).n := rfl
    have e2 : (step s c).2 = max s.2 (totalNumModesShape c.1 c.2).alpha := rfl
    refine ⟨by omega, by omega, fun d hd => ?_⟩
    rcases List.mem_cons.mp hd with rfl | hd
    · exact ⟨by omega, by omega⟩
    · exact h3 d hd

end Verif.Lemmas
