import Verif.Model.NewtonMemory

/-! The iteration with local memory gives the result of the iteration without, if each call of `newton_step` follows a call of `newton_residual` for the same point. -/

namespace Verif.Lemmas.NewtonMemory
open Verif.Model.NewtonKernel Verif.Model.NewtonMemory

variable {V M : Type*}

/-- The implementation with memory computes what the one without does: `ok` are the memories of sufficient size, `AtPoint xi` those written by a call of `newton_residual` for `xi`. -/
structure Refines (MI : MImpl V M) (I : Impl V) (ok : M → Prop) (AtPoint : V3 V → M → Prop) : Prop where
  initial : ∀ p, MI.initial p = I.initial p
  toCollapsed : ∀ p, MI.toCollapsed p = I.toCollapsed p
  fromCollapsed : ∀ p, MI.fromCollapsed p = I.fromCollapsed p
  residual : ∀ xi p m, ok m → ∃ m', MI.residual xi p m = some (I.residual xi p, m') ∧ ok m' ∧ AtPoint xi m'
  step : ∀ xi p f m, ok m → AtPoint xi m → MI.step xi p f m = some (I.step xi p f)

variable {MI : MImpl V M} {I : Impl V} {ok : M → Prop} {AtPoint : V3 V → M → Prop}

theorem iterateM_eq (h : Refines MI I ok AtPoint) (o : Ops V) (p : V3 V) (tol : V) : ∀ (n : ℕ) (s : State V) (m : M), ok m → AtPoint s.xi m →
    ∃ m', iterateM o MI p tol n (s, m) = some (iterate o I p tol n s, m') ∧ ok m'
  | 0, s, m, hm, _ => ⟨m, rfl, hm⟩
  | n + 1, s, m, hm, ha => by
    unfold iterateM iterate
    by_cases hc : (o.gt s.residual tol && !s.diverged) = true
    · rw [if_pos hc, if_pos hc, h.step _ _ _ _ hm ha, Option.bind_some]
      obtain ⟨m', e, hm', ha'⟩ := h.residual (I.step s.xi p s.f) p m hm
      rw [e, Option.bind_some]
      exact iterateM_eq h o p tol n _ m' hm' ha'
    · rw [if_neg hc, if_neg hc]
      exact ⟨m, rfl, hm⟩

theorem xInverseM_eq (h : Refines MI I ok AtPoint) (o : Ops V) (p : V3 V) (maxIterations : ℤ) (tol : V) (start : Option (V3 V)) (m : M) (hm : ok m) :
    ∃ m', xInverseM o MI p maxIterations tol start m = some (xInverse o I p maxIterations tol start, m') ∧ ok m' := by
  unfold xInverseM xInverse
  dsimp only
  rw [h.initial]
  obtain ⟨m1, e1, hm1, ha1⟩ := h.residual (start.getD (I.initial p)) p m hm
  rw [e1, Option.bind_some]
  obtain ⟨m2, e2, hm2⟩ := iterateM_eq h o p tol maxIterations.toNat
    ⟨start.getD (I.initial p), (I.residual (start.getD (I.initial p)) p).1, (I.residual (start.getD (I.initial p)) p).2, false⟩ m1 hm1 ha1
  rw [e2]
  exact ⟨m2, rfl, hm2⟩

theorem attemptM_eq (h : Refines MI I ok AtPoint) (o : Ops V) (c : Settings V) (p start : V3 V) (m : M) (hm : ok m) :
    ∃ s, attemptM o MI c p start m = some s ∧ ok s.mem ∧ s.residual = (I.residual s.xi p).1 ∧ (s.found = true → o.le s.residual c.tol = true) ∧
      tryCandidate o I c p (some start) = if s.found then some s.xi else none := by
  unfold attemptM tryCandidate
  obtain ⟨m1, e1, hm1⟩ := xInverseM_eq h o p c.maxIterations c.tol (some start) m hm
  rw [e1, Option.bind_some]
  dsimp only
  rw [h.toCollapsed, h.fromCollapsed]
  obtain ⟨m2, e2, hm2, _⟩ := h.residual _ p m1 hm1
  rw [e2]
  exact ⟨_, rfl, hm2, rfl, fun hf => (Bool.and_eq_true_iff.1 hf).1, rfl⟩

/-- The loops over the grid. -/
theorem search_eq (h : Refines MI I ok AtPoint) (o : Ops V) (c : Settings V) (p : V3 V) : ∀ (grid : List (V3 V)) (s : Search V M), ok s.mem →
    (s.found = true → s.residual = (I.residual s.xi p).1 ∧ o.le s.residual c.tol = true) →
    ∃ s', grid.foldlM (fun (s : Search V M) start => if s.found then some s else attemptM o MI c p start s.mem) s = some s' ∧
      (s'.found = true → s'.residual = (I.residual s'.xi p).1 ∧ o.le s'.residual c.tol = true) ∧
      (if s'.found then some s'.xi else none) = if s.found then some s.xi else acceptFinal o I c grid p
  | [], s, _, hs => ⟨s, rfl, hs, by simp [acceptFinal]⟩
  | a :: grid, s, hm, hs => by
    rw [List.foldlM_cons]
    by_cases hf : s.found = true
    · rw [if_pos hf]
      obtain ⟨s', e, h1, h2⟩ := search_eq h o c p grid s hm hs
      refine ⟨s', e, h1, ?_⟩
      rw [h2, if_pos hf, if_pos hf]
    · rw [if_neg hf]
      obtain ⟨s1, e1, hm1, hr, hle, ht⟩ := attemptM_eq h o c p a s.mem hm
      rw [e1]
      obtain ⟨s', e, h1, h2⟩ := search_eq h o c p grid s1 hm1 fun hf' => ⟨hr, hle hf'⟩
      refine ⟨s', e, h1, ?_⟩
      rw [h2, if_neg hf]
      simp only [acceptFinal, List.findSome?_cons, ht]
      by_cases hf1 : s1.found = true
      · simp [hf1]
      · simp [hf1]

end Verif.Lemmas.NewtonMemory
