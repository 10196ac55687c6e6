import Verif.Model.NewtonKernel
import Mathlib.Logic.Function.Iterate
import Mathlib.Tactic.Linarith
import Mathlib.Tactic.Ring
import Mathlib.Tactic.NormNum

/-! C36: the Newton iteration for the inverse of a map. -/

namespace Verif.Props.C36
open Verif.Model.NewtonKernel

variable {V : Type*}

/-- One Newton step for the target `p`. -/
def next (I : Impl V) (p xi : V3 V) : V3 V := I.step xi p (I.residual xi p).2

/-- The state after the iterate `xi`, reached by at least one step if `d`. -/
def stateAt (o : Ops V) (I : Impl V) (p xi : V3 V) (d : Bool) : State V :=
  ⟨xi, (I.residual xi p).1, (I.residual xi p).2, d && hasDiverged o xi (I.residual xi p).1⟩

theorem iterate_spec (o : Ops V) (I : Impl V) (p : V3 V) (tol : V) : ∀ (m : ℕ) (xi : V3 V) (d : Bool),
    ∃ n ≤ m, iterate o I p tol m (stateAt o I p xi d) = stateAt o I p ((next I p)^[n] xi) (d || decide (0 < n)) ∧
      (∀ k < n, o.gt (I.residual ((next I p)^[k] xi) p).1 tol = true ∧
        ((d || decide (0 < k)) && hasDiverged o ((next I p)^[k] xi) (I.residual ((next I p)^[k] xi) p).1) = false) ∧
      (n = m ∨ o.gt (I.residual ((next I p)^[n] xi) p).1 tol = false ∨
        ((d || decide (0 < n)) && hasDiverged o ((next I p)^[n] xi) (I.residual ((next I p)^[n] xi) p).1) = true) := by
  intro m
  induction m with
  | zero => intro xi d; exact ⟨0, le_rfl, by simp [iterate], by simp, Or.inl rfl⟩
  | succ m ih =>
    intro xi d
    rw [iterate]
    by_cases hc : (o.gt (stateAt o I p xi d).residual tol && !(stateAt o I p xi d).diverged) = true
    · rw [if_pos hc]
      obtain ⟨n, hn, h1, h2, h3⟩ := ih (next I p xi) true
      refine ⟨n + 1, by omega, ?_, ?_, ?_⟩
      · rw [Function.iterate_succ_apply]
        have : (⟨I.step (stateAt o I p xi d).xi p (stateAt o I p xi d).f, (I.residual (I.step (stateAt o I p xi d).xi p (stateAt o I p xi d).f) p).1,
            (I.residual (I.step (stateAt o I p xi d).xi p (stateAt o I p xi d).f) p).2,
            hasDiverged o (I.step (stateAt o I p xi d).xi p (stateAt o I p xi d).f)
              (I.residual (I.step (stateAt o I p xi d).xi p (stateAt o I p xi d).f) p).1⟩ : State V) = stateAt o I p (next I p xi) true := by
          simp [stateAt, next]
        dsimp only
        rw [this, h1]
        simp
      · intro k hk
        cases k with
        | zero =>
          simp only [Bool.and_eq_true, Bool.not_eq_true'] at hc
          simpa [stateAt] using hc
        | succ k =>
          have := h2 k (by omega)
          rw [Function.iterate_succ_apply]
          simpa using this
      · rw [Function.iterate_succ_apply]
        rcases h3 with h | h | h
        · exact Or.inl (by omega)
        · exact Or.inr (Or.inl h)
        · refine Or.inr (Or.inr ?_)
          simpa using h
    · rw [if_neg hc]
      refine ⟨0, by omega, by simp, by simp, Or.inr ?_⟩
      simp only [Bool.and_eq_true, Bool.not_eq_true', not_and_or, Bool.not_eq_true] at hc
      rcases hc with h | h
      · exact Or.inl h
      · refine Or.inr ?_
        simpa [stateAt] using h

/-- An iterate has left the range in which it is continued: a coordinate is larger than 15 in absolute value, or the residual is not a finite number. -/
def Diverged (o : Ops V) (xi : V3 V) (residual : V) : Prop :=
  o.absGt15 xi.x = true ∨ o.absGt15 xi.y = true ∨ o.absGt15 xi.z = true ∨ o.isfinite residual = false

theorem hasDiverged_iff (o : Ops V) (xi : V3 V) (r : V) : hasDiverged o xi r = true ↔ Diverged o xi r := by
  unfold hasDiverged Diverged
  simp only [Bool.or_eq_true, Bool.not_eq_true', or_assoc]

/-- **C36.** For all implementations, targets, starting points and iteration limits, and all arithmetics: `x_inverse` returns one of the first
`max_iterations` Newton iterates; it stops at the first iterate whose residual is not greater than the tolerance or which has diverged; and it
reports success exactly when the residual at the returned point is at most the tolerance. -/
theorem newton_inverse_sound (o : Ops V) (I : Impl V) (p : V3 V) (maxIterations : ℤ) (tol : V) (start : Option (V3 V)) :
    ∃ n : ℕ, (n : ℤ) ≤ max maxIterations 0 ∧
      (xInverse o I p maxIterations tol start).1 = (next I p)^[n] (start.getD (I.initial p)) ∧
      ((xInverse o I p maxIterations tol start).2 = true ↔
        o.le (I.residual (xInverse o I p maxIterations tol start).1 p).1 tol = true) ∧
      (∀ k < n, o.gt (I.residual ((next I p)^[k] (start.getD (I.initial p))) p).1 tol = true ∧
        (0 < k → ¬ Diverged o ((next I p)^[k] (start.getD (I.initial p))) (I.residual ((next I p)^[k] (start.getD (I.initial p))) p).1)) ∧
      ((n : ℤ) = max maxIterations 0 ∨ o.gt (I.residual (xInverse o I p maxIterations tol start).1 p).1 tol = false ∨
        (0 < n ∧ Diverged o (xInverse o I p maxIterations tol start).1 (I.residual (xInverse o I p maxIterations tol start).1 p).1)) := by
  obtain ⟨n, hn, h1, h2, h3⟩ := iterate_spec o I p tol maxIterations.toNat (start.getD (I.initial p)) false
  have hx : xInverse o I p maxIterations tol start = ((next I p)^[n] (start.getD (I.initial p)),
      o.le (I.residual ((next I p)^[n] (start.getD (I.initial p))) p).1 tol) := by
    unfold xInverse
    dsimp only
    have : (⟨start.getD (I.initial p), (I.residual (start.getD (I.initial p)) p).1, (I.residual (start.getD (I.initial p)) p).2, false⟩ : State V) =
        stateAt o I p (start.getD (I.initial p)) false := by simp [stateAt]
    rw [this, h1]
    rfl
  refine ⟨n, by omega, by rw [hx], by rw [hx], ?_, ?_⟩
  · intro k hk
    obtain ⟨a, b⟩ := h2 k hk
    refine ⟨a, fun hk0 => ?_⟩
    rw [← hasDiverged_iff]
    simpa [hk0] using b
  · rw [hx]
    rcases h3 with h | h | h
    · exact Or.inl (by omega)
    · exact Or.inr (Or.inl h)
    · refine Or.inr (Or.inr ?_)
      rw [← hasDiverged_iff]
      simpa using h

/-- **C36, the mapper.** When a candidate is accepted, in `map_initial` and in `map_final`, the reference position that is stored comes from
collapsed coordinates clamped to the bounds, the residual at that position is at most the tolerance, and the iteration had converged. -/
theorem accepted_sound (o : Ops V) (I : Impl V) (c : Settings V) (p : V3 V) (start : Option (V3 V)) (xi : V3 V)
    (h : tryCandidate o I c p start = some xi) :
    o.le (I.residual xi p).1 c.tol = true ∧ (∃ eta : V3 V, xi = I.fromCollapsed ⟨o.kmax (o.kmin eta.x c.hi) c.lo,
        o.kmax (o.kmin eta.y c.hi) c.lo, o.kmax (o.kmin eta.z c.hi) c.lo⟩ ∧ eta = I.toCollapsed (xInverse o I p c.maxIterations c.tol start).1) ∧
      (xInverse o I p c.maxIterations c.tol start).2 = true := by
  unfold tryCandidate at h
  dsimp only at h
  split_ifs at h with hc
  simp only [Option.some.injEq] at h
  simp only [Bool.and_eq_true] at hc
  subst h
  exact ⟨hc.1, ⟨_, rfl, rfl⟩, hc.2⟩

theorem accepted_final_sound (o : Ops V) (I : Impl V) (c : Settings V) (grid : List (V3 V)) (p xi : V3 V) (h : acceptFinal o I c grid p = some xi) :
    ∃ start ∈ grid, tryCandidate o I c p (some start) = some xi := by
  unfold acceptFinal at h
  exact List.exists_of_findSome?_eq_some h

/-- A candidate is rejected by `map_final` only if the test fails for every starting point of the grid. -/
theorem rejected_final (o : Ops V) (I : Impl V) (c : Settings V) (grid : List (V3 V)) (p : V3 V) :
    acceptFinal o I c grid p = none ↔ ∀ start ∈ grid, tryCandidate o I c p (some start) = none := by
  unfold acceptFinal
  rw [List.findSome?_eq_none_iff]

section exact
variable {K : Type*} [Field K] [LinearOrder K] [IsStrictOrderedRing K]

/-- In exact arithmetic the stored reference position is in the collapsed reference cube enlarged by the tolerance, and its residual is at most the
tolerance. -/
theorem accepted_exact (I : Impl K) (c : Settings K) (hc : c.lo ≤ c.hi) (p : V3 K) (start : Option (V3 K)) (xi : V3 K)
    (h : tryCandidate (exactOps K) I c p start = some xi) :
    (I.residual xi p).1 ≤ c.tol ∧ ∃ eta : V3 K, xi = I.fromCollapsed eta ∧ (c.lo ≤ eta.x ∧ eta.x ≤ c.hi) ∧ (c.lo ≤ eta.y ∧ eta.y ≤ c.hi) ∧
      (c.lo ≤ eta.z ∧ eta.z ≤ c.hi) := by
  obtain ⟨h1, ⟨eta, h2, _⟩, _⟩ := accepted_sound _ I c p start xi h
  have hcl : ∀ v : K, c.lo ≤ max (min v c.hi) c.lo ∧ max (min v c.hi) c.lo ≤ c.hi := fun v =>
    ⟨le_max_right _ _, max_le (min_le_right _ _) hc⟩
  exact ⟨by simpa [exactOps] using h1, _, h2, hcl _, hcl _, hcl _⟩

/-- In exact arithmetic the iteration also stops as soon as the residual is at most the tolerance, so it never reports failure at an iterate that
is good enough: if `x_inverse` fails, then all iterates up to the returned one have a residual above the tolerance. -/
theorem failure_means_no_iterate (I : Impl K) (p : V3 K) (maxIterations : ℤ) (tol : K) (start : Option (V3 K))
    (h : (xInverse (exactOps K) I p maxIterations tol start).2 = false) :
    ∃ n : ℕ, (xInverse (exactOps K) I p maxIterations tol start).1 = (next I p)^[n] (start.getD (I.initial p)) ∧
      ∀ k ≤ n, tol < (I.residual ((next I p)^[k] (start.getD (I.initial p))) p).1 := by
  obtain ⟨n, _, h1, h2, h3, _⟩ := newton_inverse_sound (exactOps K) I p maxIterations tol start
  refine ⟨n, h1, fun k hk => ?_⟩
  rcases Nat.lt_or_eq_of_le hk with hk | rfl
  · simpa [exactOps] using (h3 k hk).1
  · rw [h] at h2
    rw [h1] at h2
    by_contra hle
    push Not at hle
    simp [exactOps, hle] at h2

/-- The starting points of `map_final` lie in the reference cube, and its corners are among them. -/
theorem startGrid_covers (ndim gridSize : ℕ) (hn : ndim = 3) :
    (∀ s ∈ startGrid ndim gridSize (fun g => (-1 : K) + g * (2 / ((max (gridSize - 1) 1 : ℕ) : K))),
      (-1 ≤ s.x ∧ s.x ≤ 1) ∧ (-1 ≤ s.y ∧ s.y ≤ 1) ∧ (-1 ≤ s.z ∧ s.z ≤ 1)) ∧
    (∀ a b c : Bool, (⟨if a then 1 else -1, if b then 1 else -1, if c then 1 else -1⟩ : V3 K) ∈
      startGrid ndim gridSize (fun g => (-1 : K) + g * (2 / ((max (gridSize - 1) 1 : ℕ) : K)))) := by
  subst hn
  set gs := max (gridSize - 1) 1 with hgs
  have hgp : 0 < gs := by omega
  have hgK : (0 : K) < (gs : K) := by exact_mod_cast hgp
  have hpt : ∀ g, g ≤ gs → (-1 : K) ≤ -1 + g * (2 / (gs : K)) ∧ -1 + g * (2 / (gs : K)) ≤ (1 : K) := by
    intro g hg
    have h0 : (0 : K) ≤ (g : K) := by exact_mod_cast Nat.zero_le g
    have h1 : (g : K) ≤ (gs : K) := by exact_mod_cast hg
    have h2 : (0 : K) ≤ g * (2 / (gs : K)) := mul_nonneg h0 (div_nonneg (by norm_num) hgK.le)
    have h3 : (g : K) * (2 / (gs : K)) ≤ 2 := by
      rw [mul_div_assoc', div_le_iff₀ hgK]
      linarith
    constructor <;> linarith
  constructor
  · intro s hs
    simp only [startGrid, List.mem_flatMap, List.mem_map, List.mem_range] at hs
    obtain ⟨g2, h2, g1, h1, g0, h0, rfl⟩ := hs
    norm_num at h2 h1
    exact ⟨hpt g0 (by omega), hpt g1 (by omega), hpt g2 (by omega)⟩
  · intro a b c
    have he : ∀ a : Bool, ∃ g < gs + 1, (-1 : K) + (g : ℕ) * (2 / (gs : K)) = if a then 1 else -1 := by
      intro a
      cases a
      · exact ⟨0, by omega, by simp⟩
      · refine ⟨gs, by omega, ?_⟩
        rw [mul_div_cancel₀ _ hgK.ne']
        norm_num
    obtain ⟨g0, h0, e0⟩ := he a
    obtain ⟨g1, h1, e1⟩ := he b
    obtain ⟨g2, h2, e2⟩ := he c
    simp only [startGrid, List.mem_flatMap, List.mem_map, List.mem_range]
    refine ⟨g2, by simpa using h2, g1, by simpa using h1, g0, h0, ?_⟩
    rw [e0, e1, e2]

end exact

/-- A map of scale 2 with `X(xi) = 2 xi`: the target 1 is found from the starting point 5 in one step, and a target that needs a step is not
reported when no iterations are allowed. -/
def twice : Impl ℚ where
  initial _ := ⟨0, 0, 0⟩
  residual xi p := (max (max |2 * xi.x - p.x| |2 * xi.y - p.y|) |2 * xi.z - p.z|, ⟨2 * xi.x - p.x, 2 * xi.y - p.y, 2 * xi.z - p.z⟩)
  step xi _ f := ⟨xi.x - f.x / 2, xi.y - f.y / 2, xi.z - f.z / 2⟩
  toCollapsed xi := xi
  fromCollapsed eta := eta

example : ((xInverse (exactOps ℚ) twice ⟨1, 1, 1⟩ 51 (1 / 100) (some ⟨5, 5, 5⟩)).1.x = 1 / 2 ∧
    (xInverse (exactOps ℚ) twice ⟨1, 1, 1⟩ 51 (1 / 100) (some ⟨5, 5, 5⟩)).2 = true) ∧
    (xInverse (exactOps ℚ) twice ⟨1, 1, 1⟩ 0 (1 / 100) (some ⟨5, 5, 5⟩)).2 = false ∧
    (tryCandidate (exactOps ℚ) twice ⟨1 / 100, 51, 1, -1⟩ ⟨1, 1, 1⟩ none).isSome ∧
    (tryCandidate (exactOps ℚ) twice ⟨1 / 100, 51, 1, -1⟩ ⟨3, 1, 1⟩ none).isSome = false := by decide +kernel

end Verif.Props.C36
