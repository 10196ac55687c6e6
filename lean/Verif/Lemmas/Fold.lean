import Mathlib.Order.Lattice
import Mathlib.Order.MinMax

/-! Running minima and maxima of lists (helper lemmas). -/

namespace Verif.Lemmas

variable {K : Type*} [LinearOrder K]

theorem foldl_min_le {β : Type*} (f : β → K) (l : List β) (x : K) :
    l.foldl (fun m b => min m (f b)) x ≤ x ∧ ∀ b ∈ l, l.foldl (fun m b => min m (f b)) x ≤ f b := by
  induction l generalizing x with
  | nil => simp
  | cons c cs ih =>
    simp only [List.foldl_cons, List.mem_cons, forall_eq_or_imp]
    have h := ih (min x (f c))
    exact ⟨h.1.trans (min_le_left _ _), h.1.trans (min_le_right _ _), h.2⟩

theorem foldl_min_mem {β : Type*} (f : β → K) (l : List β) (x : K) :
    l.foldl (fun m b => min m (f b)) x = x ∨ ∃ b ∈ l, l.foldl (fun m b => min m (f b)) x = f b := by
  induction l generalizing x with
  | nil => simp
  | cons c cs ih =>
    simp only [List.foldl_cons, List.mem_cons, exists_eq_or_imp]
    rcases ih (min x (f c)) with h | h
    · rw [h]; rcases min_choice x (f c) with h' | h' <;> simp [h']
    · exact Or.inr (Or.inr h)

theorem foldl_max_ge {β : Type*} (f : β → K) (l : List β) (x : K) :
    x ≤ l.foldl (fun m b => max m (f b)) x ∧ ∀ b ∈ l, f b ≤ l.foldl (fun m b => max m (f b)) x := by
  induction l generalizing x with
  | nil => simp
  | cons c cs ih =>
    simp only [List.foldl_cons, List.mem_cons, forall_eq_or_imp]
    have h := ih (max x (f c))
    exact ⟨(le_max_left _ _).trans h.1, (le_max_right _ _).trans h.1, h.2⟩

theorem foldl_max_mem {β : Type*} (f : β → K) (l : List β) (x : K) :
    l.foldl (fun m b => max m (f b)) x = x ∨ ∃ b ∈ l, l.foldl (fun m b => max m (f b)) x = f b := by
  induction l generalizing x with
  | nil => simp
  | cons c cs ih =>
    simp only [List.foldl_cons, List.mem_cons, exists_eq_or_imp]
    rcases ih (max x (f c)) with h | h
    · rw [h]; rcases max_choice x (f c) with h' | h' <;> simp [h']
    · exact Or.inr (Or.inr h)

end Verif.Lemmas
