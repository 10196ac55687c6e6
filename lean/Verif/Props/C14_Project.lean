import Verif.Props.C13_Evaluate
import Mathlib.Algebra.BigOperators.Group.List.Lemmas
import Mathlib.Data.List.GetD

/-! C14: the projection is the transpose of the evaluation and does not depend on the order of the atomic additions. -/

namespace Verif.Props.C14
open Verif.Spec Verif.Model Verif.Model.JacobiCoeff Verif.Model.BasisReference Verif.Model.BasisEvaluation
  Verif.Model.BasisEvaluateBase Verif.Model.ExpansionLooping Verif.Lemmas Verif.Props.C13

variable {K : Type*} [Field K]

/-- The pairing of additions to degrees of freedom with a vector `c`: `Σ c[m] * v`. -/
def pair (c : List K) (adds : List (ℕ × K)) : K := (adds.map fun a => c.getD a.1 0 * a.2).sum

/-- What `adds` adds to entry `i` in total. -/
def total (adds : List (ℕ × K)) (i : ℕ) : K := (adds.map fun a => if a.1 = i then a.2 else 0).sum

/-- The additions as double values. -/
def lift (adds : List (ℕ × K)) : List (ℕ × Dbl K) := adds.map fun a => (a.1, some a.2)

/-- `value * e[k]` to entry `k`. -/
def contributions (value : K) (e : List K) : List (ℕ × K) := e.zipIdx.map fun vk => (vk.2, value * vk.1)

theorem pair_zipIdx (c : List K) (value : K) (e : List K) (k : ℕ) (h : k + e.length ≤ c.length) :
    pair c ((e.zipIdx k).map fun vk => (vk.2, value * vk.1)) = value * dot (c.drop k) e := by
  induction e generalizing k with
  | nil => simp [pair, dot]
  | cons x e ih =>
    have hk : k < c.length := by simp at h; omega
    have := ih (k + 1) (by simp at h; omega)
    rw [List.drop_eq_getElem_cons hk]
    simp only [pair, dot, List.zipIdx_cons, List.map_cons, List.sum_cons, List.zipWith_cons_cons] at this ⊢
    rw [this, List.getD_eq_getElem _ _ hk]
    ring

section
variable [DecidableEq K]

theorem addsOf_map (value : K) (e : List K) : addsOf value (e.map some) = lift (contributions value e) := by
  simp only [addsOf, lift, contributions, List.zipIdx_map, List.map_map]
  rfl

/-- Atomic additions of finite values: the result of any sequence of additions to existing entries is the old value plus the
total of the additions to the entry. -/
theorem apply_adds_total (dofs : List K) (adds : List (ℕ × K)) (h : ∀ a ∈ adds, a.1 < dofs.length) :
    applyAdds (dofs.map some) (lift adds) =
      some ((List.range dofs.length).map fun i => some (dofs.getD i 0 + total adds i)) := by
  induction adds generalizing dofs with
  | nil =>
    simp only [lift, List.map_nil, applyAdds, total, List.sum_nil, add_zero]
    congr 1
    refine List.ext_getElem (by simp) fun i h1 h2 => ?_
    simp at h1
    simp [h1]
  | cons a adds ih =>
    obtain ⟨m, v⟩ := a
    have hm : m < dofs.length := h (m, v) (by simp)
    simp only [lift, List.map_cons, applyAdds]
    rw [Mem.read_ofNat, List.getElem?_map, List.getElem?_eq_getElem hm, Option.map_some, Option.bind_some, Dbl.add_some,
      Mem.write, if_pos (by simp; omega), Option.bind_some, Int.toNat_natCast, ← List.map_set]
    have := ih (dofs.set m (dofs[m] + v)) (by
      intro b hb; rw [List.length_set]; exact h b (List.mem_cons_of_mem _ hb))
    rw [lift] at this
    rw [this, List.length_set]
    congr 1
    refine List.map_congr_left fun i hi => ?_
    have hi' : i < dofs.length := by simpa using hi
    simp only [total, List.map_cons, List.sum_cons]
    rw [List.getD_eq_getElem _ _ (by simpa using hi'), List.getD_eq_getElem _ _ hi', List.getElem_set]
    by_cases hmi : m = i
    · subst hmi; simp [add_assoc]
    · simp [hmi]

/-- The pairing of what was deposited with `c` is the sum of the pairings of the contributions: with
`projection_is_transpose_partial`, depositing the particles `k` with weights `w_k` on zeroed degrees of freedom and pairing with `c` gives
`Σ_k w_k * evaluate_k(c)`. -/
theorem deposit_conserves (c : List K) (adds : List (ℕ × K)) (h : ∀ a ∈ adds, a.1 < c.length) :
    ∃ r : List K, applyAdds ((List.replicate c.length (0 : K)).map some) (lift adds) = some (r.map some) ∧
      r.length = c.length ∧ dot c r = pair c adds := by
  refine ⟨(List.range c.length).map fun i => total adds i, ?_, by simp, ?_⟩
  · rw [apply_adds_total _ _ (by simpa using h), List.length_replicate, List.map_map]
    congr 1
    refine List.map_congr_left fun i hi => ?_
    simp at hi
    simp [hi]
  · have hd : ∀ adds : List (ℕ × K), dot c ((List.range c.length).map fun i => total adds i) =
        ((List.range c.length).map fun i => c.getD i 0 * total adds i).sum := by
      intro adds
      unfold dot
      congr 1
      refine List.ext_getElem (by simp) fun i h1 h2 => ?_
      simp at h1 h2
      simp [h2]
    rw [hd]
    clear hd
    induction adds with
    | nil => simp [pair, total]
    | cons a adds ih =>
      obtain ⟨m, v⟩ := a
      have hm : m < c.length := h (m, v) (by simp)
      have ht : ∀ i, total ((m, v) :: adds) i = (if m = i then v else 0) + total adds i := fun i => by simp [total]
      have hp : pair c ((m, v) :: adds) = c.getD m 0 * v + pair c adds := by simp [pair]
      simp only [ht, mul_add, hp]
      rw [List.sum_map_add, ih fun b hb => h b (List.mem_cons_of_mem _ hb)]
      congr 1
      have : ∀ i ∈ List.range c.length, c.getD i 0 * (if m = i then v else 0) = if i = m then c.getD m 0 * v else 0 := by
        intro i _
        by_cases hi : m = i
        · subst hi; simp
        · simp [hi, Ne.symm hi]
      rw [List.map_congr_left this]
      have hs : ∀ n, ((List.range n).map fun i => if i = m then c.getD m 0 * v else 0).sum =
          if m < n then c.getD m 0 * v else 0 := by
        intro n
        induction n with
        | zero => simp
        | succ n ih =>
          rw [map_range_succ, List.sum_append, ih]
          rcases Nat.lt_trichotomy m n with hlt | heq | hgt
          · simp [show n ≠ m by omega, hlt, show m ≤ n by omega]
          · subst heq; simp
          · simp [show n ≠ m by omega, show ¬ m < n by omega, show ¬ m ≤ n by omega]
      rw [hs, if_pos hm]

/-- Contributions of any number of particles in any order (any interleaving of their atomic additions) give
the same degrees of freedom. -/
theorem projection_order_independent (dofs : List K) (adds adds' : List (ℕ × K))
    (h : ∀ a ∈ adds, a.1 < dofs.length) (hp : adds.Perm adds') :
    applyAdds (dofs.map some) (lift adds) = applyAdds (dofs.map some) (lift adds') := by
  rw [apply_adds_total _ _ h, apply_adds_total _ _ fun a ha => h a (hp.symm.subset ha)]
  congr 1
  refine List.map_congr_left fun i _ => ?_
  rw [total, total, (hp.map _).sum_eq]
end

variable [LinearOrder K] [IsStrictOrderedRing K]

/-- The projection of one particle is the transpose of its evaluation: it adds once to each of the degrees of freedom `0, 1, …` of
the element, `value` times the basis function of that mode, and its pairing with any coefficients `c` is `value` times the
evaluation of `c` at the particle. Missing for the full claim: the collapsed end, where both are not finite (see C13). -/
theorem projection_is_transpose_partial (tol : K) (cells : List (Shape × ℕ)) (shape : Shape) (n : ℕ)
    (hc : (shape, n) ∈ cells) (h2 : 2 ≤ n) (xi : K × K × K) (s0 s1 s2 : List (Dbl K))
    (hs0 : spaceSize shape n 0 ≤ s0.length) (hs1 : spaceSize shape n 1 ≤ s1.length)
    (hs2 : spaceSize shape n 2 ≤ s2.length)
    (e0 e1 e2 : K) (he : collapse tol shape xi.1 xi.2.1 xi.2.2 = (e0, e1, e2)) (hoff : OffCollapsed shape e1 e2)
    (value : K) :
    ∃ adds : List (ℕ × K),
      projectParticle tol (tables K cells) shape n xi s0 s1 s2 value = some (lift adds) ∧
      adds.map Prod.fst = List.range (totalNumModesShape shape n).mode ∧
      adds.map Prod.snd = (evalModes shape n e0 e1 e2).map (value * ·) ∧
      ∀ c : List K, (totalNumModesShape shape n).mode ≤ c.length →
        ∃ E : K, evaluateParticle tol (tables K cells) shape n xi s0 s1 s2 c = some (some E) ∧
          pair c adds = value * E := by
  obtain ⟨l, hl, _, hpr⟩ := particle_loops tol cells shape n hc h2 xi s0 s1 s2 hs0 hs1 hs2
  obtain ⟨b1, b2⟩ := eval_modes_is_basis shape n e0 e1 e2
  refine ⟨contributions value (evalModes shape n e0 e1 e2), ?_, ?_, ?_, ?_⟩
  · rw [projectParticle, hl, Option.bind_some, hpr value, he, dExpansion_eq _ _ _ _ _ hoff, addsOf_map, b1]
  · rw [contributions, List.map_map, b1, ← b2]
    have : (Prod.fst ∘ fun vk : K × ℕ => (vk.2, value * vk.1)) = Prod.snd := rfl
    rw [this, List.zipIdx_map_snd, List.range_eq_range']
  · rw [contributions, List.map_map]
    have : (Prod.snd ∘ fun vk : K × ℕ => (vk.2, value * vk.1)) = (value * ·) ∘ Prod.fst := rfl
    rw [this, ← List.map_map, List.zipIdx_map_fst]
  · intro c hcl
    refine ⟨_, evaluate_is_reference_partial tol cells shape n hc h2 xi s0 s1 s2 hs0 hs1 hs2 c hcl e0 e1 e2 he hoff, ?_⟩
    have := pair_zipIdx c value (evalModes shape n e0 e1 e2) 0 (by rw [b1, b2]; omega)
    simpa [contributions] using this

/-- **C14, in terms of reference positions.** As `projection_is_transpose_partial`, for every reference position at least the tolerance away from the collapsed
edges and vertices. -/
theorem projection_at_reference_position_partial (tol : K) (ht : 0 < tol) (cells : List (Shape × ℕ)) (shape : Shape) (n : ℕ)
    (hc : (shape, n) ∈ cells) (h2 : 2 ≤ n) (xi : K × K × K) (s0 s1 s2 : List (Dbl K))
    (hs0 : spaceSize shape n 0 ≤ s0.length) (hs1 : spaceSize shape n 1 ≤ s1.length)
    (hs2 : spaceSize shape n 2 ≤ s2.length)
    (e : K × K × K) (he : CollapsedOf shape xi e) (ha : AwayFromCollapsed tol shape xi) (value : K) :
    ∃ adds : List (ℕ × K),
      projectParticle tol (tables K cells) shape n xi s0 s1 s2 value = some (lift adds) ∧
      adds.map Prod.fst = List.range (totalNumModesShape shape n).mode ∧
      adds.map Prod.snd = (evalModes shape n e.1 e.2.1 e.2.2).map (value * ·) ∧
      ∀ c : List K, (totalNumModesShape shape n).mode ≤ c.length →
        ∃ E : K, evaluateParticle tol (tables K cells) shape n xi s0 s1 s2 c = some (some E) ∧
          pair c adds = value * E := by
  obtain ⟨⟨g0, g1, g2⟩, hoff⟩ := collapse_spec tol ht shape xi e he ha
  by_cases h3 : shape = .tri ∨ shape = .quad
  · rw [evalModes_2d shape n e.1 e.2.1 e.2.2 (collapse tol shape xi.1 xi.2.1 xi.2.2).2.2 h3]
    exact projection_is_transpose_partial tol cells shape n hc h2 xi s0 s1 s2 hs0 hs1 hs2 e.1 e.2.1 _ (by rw [← g0, ← g1])
      (by rcases h3 with rfl | rfl <;> exact hoff) value
  · have g2' := g2 (fun h => h3 (Or.inl h)) (fun h => h3 (Or.inr h))
    exact projection_is_transpose_partial tol cells shape n hc h2 xi s0 s1 s2 hs0 hs1 hs2 e.1 e.2.1 e.2.2
      (by rw [← g0, ← g1, ← g2']) hoff value

/-- **C14, all reference positions.** The contributions of a particle are to the degrees of freedom `0, 1, …` of the element in order: `value` times the basis function at the collapsed coordinates the code computes
if these are not exactly at the collapsed end; otherwise one of them is not finite. -/
theorem projection_all (tol : K) (cells : List (Shape × ℕ)) (shape : Shape) (n : ℕ)
    (hc : (shape, n) ∈ cells) (h2 : 2 ≤ n) (xi : K × K × K) (s0 s1 s2 : List (Dbl K))
    (hs0 : spaceSize shape n 0 ≤ s0.length) (hs1 : spaceSize shape n 1 ≤ s1.length)
    (hs2 : spaceSize shape n 2 ≤ s2.length)
    (e : K × K × K) (he : CodeEta tol shape xi e) (value : K) :
    (OffCollapsed shape e.2.1 e.2.2 → ∃ adds : List (ℕ × K),
      projectParticle tol (tables K cells) shape n xi s0 s1 s2 value = some (lift adds) ∧
      adds.map Prod.fst = List.range (totalNumModesShape shape n).mode ∧
      adds.map Prod.snd = (evalModes shape n e.1 e.2.1 e.2.2).map (value * ·)) ∧
    (¬ OffCollapsed shape e.2.1 e.2.2 → ∃ adds : List (ℕ × Dbl K),
      projectParticle tol (tables K cells) shape n xi s0 s1 s2 value = some adds ∧
      adds.map Prod.fst = List.range (totalNumModesShape shape n).mode ∧ ∃ a ∈ adds, a.2 = none) := by
  obtain ⟨g0, g1, g2⟩ := he
  constructor
  · intro hoff
    by_cases h3 : shape = .tri ∨ shape = .quad
    · rw [evalModes_2d shape n e.1 e.2.1 e.2.2 (collapse tol shape xi.1 xi.2.1 xi.2.2).2.2 h3]
      obtain ⟨adds, a1, a2, a3, -⟩ := projection_is_transpose_partial tol cells shape n hc h2 xi s0 s1 s2 hs0 hs1 hs2 e.1 e.2.1
        (collapse tol shape xi.1 xi.2.1 xi.2.2).2.2 (by rw [← g0, ← g1]) ((offCollapsed_2d shape e.2.1 _ _ h3).1 hoff) value
      exact ⟨adds, a1, a2, a3⟩
    · have g2' := g2 (fun h => h3 (Or.inl h)) (fun h => h3 (Or.inr h))
      obtain ⟨adds, a1, a2, a3, -⟩ := projection_is_transpose_partial tol cells shape n hc h2 xi s0 s1 s2 hs0 hs1 hs2 e.1 e.2.1 e.2.2
        (by rw [← g0, ← g1, ← g2']) hoff value
      exact ⟨adds, a1, a2, a3⟩
  · intro hoff
    obtain ⟨l, hl, _, hpr⟩ := particle_loops tol cells shape n hc h2 xi s0 s1 s2 hs0 hs1 hs2
    have hoff' : ¬ OffCollapsed shape (collapse tol shape xi.1 xi.2.1 xi.2.2).2.1 (collapse tol shape xi.1 xi.2.1 xi.2.2).2.2 := by
      rw [g1]
      by_cases h3 : shape = .tri ∨ shape = .quad
      · rwa [offCollapsed_2d shape e.2.1 _ e.2.2 h3]
      · rwa [g2 (fun h => h3 (Or.inl h)) (fun h => h3 (Or.inr h))]
    have hnone := dExpansion_none shape n h2 (collapse tol shape xi.1 xi.2.1 xi.2.2).1 _ _ hoff'
    have hlen := length_dExpansion shape n (collapse tol shape xi.1 xi.2.1 xi.2.2).1 (collapse tol shape xi.1 xi.2.1 xi.2.2).2.1
      (collapse tol shape xi.1 xi.2.1 xi.2.2).2.2
    rw [projectParticle, hl, Option.bind_some, hpr value]
    refine ⟨_, rfl, ?_, ?_⟩
    · rw [addsOf, List.map_map, ← hlen]
      have : (Prod.fst ∘ fun vk : Dbl K × ℕ => (vk.2, Dbl.mul (some value) vk.1)) = Prod.snd := rfl
      rw [this, List.zipIdx_map_snd, List.range_eq_range']
    · obtain ⟨i, hi⟩ := List.getElem?_of_mem hnone
      refine ⟨(i, none), ?_, rfl⟩
      rw [addsOf, List.mem_map]
      exact ⟨(none, i), by rw [List.mem_zipIdx_iff_getElem?]; exact hi, rfl⟩

/-- Two particles in a triangle with three modes: the hypotheses are met, and the additions may be interleaved. -/
example : ∃ adds : List (ℕ × ℚ),
    projectParticle (K := ℚ) (1 / 100) (tables ℚ [(.tri, 3)]) .tri 3 (0, 0, 0)
      (List.replicate 3 none) (List.replicate 6 none) [] 5 = some (lift adds) ∧ adds.map Prod.fst = List.range 6 := by
  obtain ⟨adds, h1, h2, _⟩ := projection_is_transpose_partial (K := ℚ) (1 / 100) [(.tri, 3)] .tri 3 (by simp) (by omega)
    (0, 0, 0) (List.replicate 3 none) (List.replicate 6 none) [] (by decide) (by decide) (by decide) 1 0 0
    (by simp [collapse, CoordMap.triToCollapsed]; norm_num) (by simp [OffCollapsed]) 5
  exact ⟨adds, h1, by rw [h2]; rfl⟩

example : applyAdds ([0, 0].map (some : ℚ → Dbl ℚ)) (lift [(0, 1), (1, 2), (0, 3)]) =
    applyAdds ([0, 0].map some) (lift [(0, 3), (0, 1), (1, 2)]) :=
  projection_order_independent [0, 0] _ _ (by simp) (by
    refine List.Perm.trans ?_ (List.Perm.swap _ _ _)
    exact List.Perm.cons _ (List.Perm.swap _ _ _))

end Verif.Props.C14
