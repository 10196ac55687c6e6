import Verif.Model.Mpi
import Mathlib.SetTheory.Ordinal.Family
import Mathlib.Data.DFinsupp.WellFounded
import Mathlib.Order.WellFounded
import Mathlib.Data.Prod.Lex
import Mathlib.Algebra.Order.BigOperators.Group.Finset

/-! Every execution of programs of `Verif.Model.Mpi` ends. -/

namespace Verif.Lemmas.Mpi
open Verif.Model.Mpi

variable {n : ℕ} {M O : Type}

/-- The height of a program. -/
noncomputable def ht : Prog n M O → Ordinal.{0}
  | .done _ => 0
  | .fail => 0
  | .send _ _ _ k => ht k + 1
  | .irecv _ _ k => ht k + 1
  | .waitall k => ⨆ x, ht (k x) + 1
  | .ibarrier k => ht k + 1
  | .bwait k => ht k + 1
  | .winStore _ k => ht k + 1
  | .winLoad k => ⨆ x, ht (k x) + 1
  | .accumulate _ _ k => ht k + 1

theorem lt_succ' (a : Ordinal.{0}) : a < a + 1 := by
  rw [Ordinal.add_one_eq_succ]; exact Order.lt_succ a

/-- The number of posted receives without a message. -/
def missing (S : Sys n M O) (r : Fin n) : ℕ := ∑ key ∈ (S.posted r).toFinset, ((S.posted r).count key - (S.got r key).length)

noncomputable def measure (S : Sys n M O) : Fin n → Ordinal.{0} ×ₗ ℕ := fun r => toLex (ht (S.prog r), missing S r)

theorem measure_prog {S S' : Sys n M O} (r : Fin n) (h : ht (S'.prog r) < ht (S.prog r)) (hp : ∀ r', r' ≠ r → S'.prog r' = S.prog r')
    (hq : ∀ r', r' ≠ r → S'.posted r' = S.posted r') (hg : ∀ r', r' ≠ r → S'.got r' = S.got r') : measure S' < measure S := by
  rw [Pi.lt_def]
  refine ⟨fun r' => ?_, r, Prod.Lex.toLex_lt_toLex.mpr (Or.inl h)⟩
  by_cases hr : r' = r
  · subst hr; exact (Prod.Lex.toLex_lt_toLex.mpr (Or.inl h)).le
  · unfold measure missing; rw [hp r' hr, hq r' hr, hg r' hr]

theorem measure_lt {b : Bool} {S S' : Sys n M O} (h : Step b S S') : measure S' < measure S := by
  cases h with
  | send r d t m k h => exact measure_prog r (by simp only [Function.update_self, h, ht]; exact lt_succ' _) (fun r' h' => Function.update_of_ne h' _ _) (fun _ _ => rfl) (fun _ _ => rfl)
  | irecv r s t k h =>
    exact measure_prog r (by simp only [Function.update_self, h, ht]; exact lt_succ' _) (fun r' h' => Function.update_of_ne h' _ _)
      (fun r' h' => Function.update_of_ne h' _ _) (fun _ _ => rfl)
  | waitall r k h =>
    exact measure_prog r (by simp only [Function.update_self, h, ht]; exact Ordinal.lt_iSup_add_one (fun x => ht (k x)) _)
      (fun r' h' => Function.update_of_ne h' _ _) (fun r' h' => Function.update_of_ne h' _ _) (fun r' h' => Function.update_of_ne h' _ _)
  | ibarrier r k h => exact measure_prog r (by simp only [Function.update_self, h, ht]; exact lt_succ' _) (fun r' h' => Function.update_of_ne h' _ _) (fun _ _ => rfl) (fun _ _ => rfl)
  | bwait r k h => exact measure_prog r (by simp only [Function.update_self, h, ht]; exact lt_succ' _) (fun r' h' => Function.update_of_ne h' _ _) (fun _ _ => rfl) (fun _ _ => rfl)
  | winStore r v k h => exact measure_prog r (by simp only [Function.update_self, h, ht]; exact lt_succ' _) (fun r' h' => Function.update_of_ne h' _ _) (fun _ _ => rfl) (fun _ _ => rfl)
  | winLoad r k h =>
    exact measure_prog r (by simp only [Function.update_self, h, ht]; exact Ordinal.lt_iSup_add_one (fun x => ht (k x)) _)
      (fun r' h' => Function.update_of_ne h' _ _) (fun _ _ => rfl) (fun _ _ => rfl)
  | accumulate r d v k h => exact measure_prog r (by simp only [Function.update_self, h, ht]; exact lt_succ' _) (fun r' h' => Function.update_of_ne h' _ _) (fun _ _ => rfl) (fun _ _ => rfl)
  | deliver r s t m rest key h hk =>
    obtain ⟨_, hlt⟩ := hk
    have hmem : key ∈ (S.posted r).toFinset := by
      rw [List.mem_toFinset, ← List.count_pos_iff]; omega
    rw [Pi.lt_def]
    have hm : ∀ S' : Sys n M O, S'.posted = S.posted →
        S'.got = Function.update S.got r (Function.update (S.got r) key (S.got r key ++ [(s, m)])) → missing S' r < missing S r := by
      intro S' h1 h2
      unfold missing
      rw [h1, h2]
      refine Finset.sum_lt_sum (fun k' _ => ?_) ⟨key, hmem, ?_⟩
      · rw [Function.update_self]
        by_cases hk' : k' = key
        · subst hk'; rw [Function.update_self, List.length_append]; omega
        · rw [Function.update_of_ne hk']
      · rw [Function.update_self, Function.update_self, List.length_append, List.length_singleton]; omega
    have hme : ∀ S' : Sys n M O, S'.prog = S.prog → missing S' r < missing S r → measure S' r < measure S r := by
      intro S' h1 h2
      exact Prod.Lex.toLex_lt_toLex.mpr (Or.inr ⟨by rw [h1], h2⟩)
    refine ⟨fun r' => ?_, r, hme _ rfl (hm _ rfl rfl)⟩
    by_cases hr : r' = r
    · subst hr; refine le_of_lt (hme _ rfl ?_); exact hm _ rfl rfl
    · unfold measure missing; simp only [Function.update_of_ne hr]; exact le_rfl

/-- There is no infinite execution. -/
theorem terminates (b : Bool) : WellFounded fun S' S : Sys n M O => Step b S S' :=
  Subrelation.wf (r := InvImage (· < ·) measure) (fun h => measure_lt h) (InvImage.wf _ wellFounded_lt)

theorem no_infinite (b : Bool) (f : ℕ → Sys n M O) : ¬ ∀ i, Step b (f i) (f (i + 1)) := by
  intro h
  obtain ⟨m, ⟨i, rfl⟩, hm⟩ := (terminates b).has_min (Set.range f) ⟨f 0, 0, rfl⟩
  exact hm _ ⟨i + 1, rfl⟩ (h i)

/-- An execution without buffering is an execution. -/
theorem step_of_sync {S S' : Sys n M O} (h : Step true S S') : Step false S S' := by
  cases h with
  | send r d t m k h hs => exact .send S r d t m k h (fun h => absurd h (by decide))
  | irecv r s t k h => exact .irecv S r s t k h
  | deliver r s t m rest key h hk => exact .deliver S r s t m rest key h hk
  | waitall r k h hf => exact .waitall S r k h hf
  | ibarrier r k h => exact .ibarrier S r k h
  | bwait r k h hb => exact .bwait S r k h hb
  | winStore r v k h => exact .winStore S r v k h
  | winLoad r k h => exact .winLoad S r k h
  | accumulate r d v k h => exact .accumulate S r d v k h

/-- If some rank can always make a step until all have returned then every execution can be completed, and without buffering. -/
theorem completes {S₀ : Sys n M O} (h : ∀ S, Reachable S₀ S → S.Finished ∨ ∃ S', Step true S S') (S : Sys n M O) (hS : Reachable S₀ S) :
    ∃ S', Relation.ReflTransGen (Step true) S S' ∧ S'.Finished := by
  induction S using (terminates (n := n) (M := M) (O := O) true).induction with
  | _ S ih =>
    rcases h S hS with hf | ⟨S', hs⟩
    · exact ⟨S, .refl, hf⟩
    · obtain ⟨S'', h1, h2⟩ := ih S' hs (hS.tail (step_of_sync hs))
      exact ⟨S'', .head hs h1, h2⟩

end Verif.Lemmas.Mpi
