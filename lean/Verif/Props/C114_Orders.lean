import Verif.Props.C114_FloatDeposit

/-! C114: the order of the additions, the size of the error, and cases. -/

namespace Verif.Props.C114
open Verif.Lemmas.Rounding Verif.Lemmas.RoundingModes Verif.Lemmas.FloatExpansion Verif.Spec.Rounding Verif.Spec.FloatExpansion Verif.Spec Verif.Model Verif.Model.FloatKernels Verif.Model.FloatExpansion
  Verif.Model.ExpansionLooping Verif.Model.BasisReference Verif.Model.BasisEvaluation Verif.Model.BasisEvaluateBase Verif.Lemmas Verif.Props.C13 Verif.Props.C14

variable {δ B : ℝ} {rnd : ℝ → ℝ}

/-- **C114, two orders.** Runs whose atomic additions happen in different orders give degrees of freedom that differ by at most twice the error. -/
theorem orders_differ_little (R : Rounding 53 (-1074) rnd) (hδ : 0 ≤ δ) (hB : 1 ≤ B) (tol : ℝ) (cells : List (Shape × ℕ)) (shape : Shape) (n : ℕ)
    (hc : (shape, n) ∈ cells) (h2 : 2 ≤ n) (ps : List Particle) (hp : ∀ p ∈ ps, Computed tol cells shape n δ B p) (all : Particle → List (ℕ × ℝ))
    (hall : ∀ p ∈ ps, loopProjectF rnd shape n p.value p.l0 p.l1 p.l2 = some (all p)) (adds adds' : List (ℕ × ℝ)) (h : adds.Perm (ps.flatMap all)) (h' : adds'.Perm (ps.flatMap all))
    (c out out' : List ℝ) (hl : (totalNumModesShape shape n).mode ≤ c.length) (ho : applyAddsF rnd c adds = some out) (ho' : applyAddsF rnd c adds' = some out') (m : ℕ)
    (hm : m < (totalNumModesShape shape n).mode) :
    |out.getD m 0 - out'.getD m 0| ≤ 2 * sumError δ B ps.length (c.getD m 0) (ps.map fun p => |p.value|).sum := by
  obtain ⟨all2, hall2, key⟩ := projection_error R hδ hB tol cells shape n hc h2 ps hp
  have e : ps.flatMap all = ps.flatMap all2 := by
    refine List.flatMap_congr fun p hp => ?_
    exact Option.some.inj ((hall p hp).symm.trans (hall2 p hp))
  obtain ⟨o1, a1, -, b1, -⟩ := key adds (e ▸ h) c hl
  obtain ⟨o2, a2, -, b2, -⟩ := key adds' (e ▸ h') c hl
  rw [ho] at a1; rw [ho'] at a2
  obtain rfl := Option.some.inj a1
  obtain rfl := Option.some.inj a2
  have h3 := b1 m hm
  have h4 := b2 m hm
  have h5 := abs_sub_le (out.getD m 0) (c.getD m 0 + (ps.map fun p => p.value * (basis shape n p).getD m 0).sum) (out'.getD m 0)
  rw [abs_sub_comm (c.getD m 0 + _) (out'.getD m 0)] at h5
  linarith

/-- The error in plain terms: for up to `2 ^ 50` additions it is a few units in the last place of the magnitudes involved, the error of the one dimensional functions, and underflow. -/
theorem error_size (hδ : 0 ≤ δ) (hB : 1 ≤ B) (k : ℕ) (hk : k + 3 ≤ 2 ^ 50) (c W : ℝ) (hW : 0 ≤ W) :
    sumError δ B k c W ≤ 2 * (k + 3) * (2 : ℝ) ^ (-52 : ℤ) * (|c| + (B + δ) ^ 3 * W) + ((B + δ) ^ 3 - B ^ 3) * W + 8 * (2 : ℝ) ^ (-1074 : ℤ) * (B + δ) ^ 3 * (k + W) := by
  have hu : (0 : ℝ) < (2 : ℝ) ^ (-52 : ℤ) := two_pos _
  have hη := η_pos
  have hpow : ∀ j : ℕ, (j : ℝ) * (2 : ℝ) ^ (-52 : ℤ) ≤ 1 / 4 → q ^ j ≤ 1 + 2 * j * (2 : ℝ) ^ (-52 : ℤ) := by
    intro j
    unfold q
    generalize (2 : ℝ) ^ (-52 : ℤ) = u at hu
    induction j with
    | zero => intro _; simp
    | succ j ih =>
      intro hj
      push_cast at hj ⊢
      have h1 := ih (by nlinarith)
      have h2 : (j : ℝ) * u ≤ 1 / 4 := by nlinarith
      have h3 : (0 : ℝ) ≤ j * u := by positivity
      rw [pow_succ]
      have := mul_le_mul_of_nonneg_right h1 (by linarith : 0 ≤ 1 + u)
      nlinarith
  have hk4 : ((k + 3 : ℕ) : ℝ) * (2 : ℝ) ^ (-52 : ℤ) ≤ 1 / 4 := by
    have : ((k + 3 : ℕ) : ℝ) ≤ 2 ^ 50 := by exact_mod_cast hk
    calc ((k + 3 : ℕ) : ℝ) * (2 : ℝ) ^ (-52 : ℤ) ≤ 2 ^ 50 * (2 : ℝ) ^ (-52 : ℤ) := mul_le_mul_of_nonneg_right this hu.le
      _ = 1 / 4 := by norm_num
  have h1 := hpow (k + 3) hk4
  push_cast at h1 hk4
  have hq := q_ge
  have hη' : (2 : ℝ) ^ (-1074 : ℤ) = η := rfl
  rw [hη']
  generalize hu' : (2 : ℝ) ^ (-52 : ℤ) = u at hu h1 hk4 ⊢
  have hA : 0 ≤ (B + δ) ^ 3 := by positivity
  unfold sumError growth
  set A := (B + δ) ^ 3 with hAdef
  have e1 : (q * (B + δ)) ^ 3 = q ^ 3 * A := by rw [mul_pow]
  rw [e1]
  have e2 : q ^ k * q ^ 3 = q ^ (k + 3) := by rw [pow_add]
  have h2 : q ^ k ≤ q ^ (k + 3) := pow_le_pow_right₀ hq (by omega)
  have h3 : q ^ k * |c| ≤ (1 + 2 * (k + 3) * u) * |c| := mul_le_mul_of_nonneg_right (by linarith) (abs_nonneg c)
  have h4 : q ^ (k + 3) * (A * (W + 4 * η * (k + W))) ≤ (1 + 2 * (k + 3) * u) * (A * (W + 4 * η * (k + W))) := mul_le_mul_of_nonneg_right h1 (by positivity)
  have h5 : 2 * (k + 3) * u ≤ 1 := by linarith
  have h6 : (2 * (k + 3) * u) * (A * (4 * η * (k + W))) ≤ 1 * (A * (4 * η * (k + W))) := mul_le_mul_of_nonneg_right h5 (by positivity)
  have e3 : q ^ k * (|c| + q ^ 3 * A * (W + 4 * η * (k + W))) = q ^ k * |c| + q ^ (k + 3) * (A * (W + 4 * η * (k + W))) := by rw [← e2]; ring
  rw [e3]
  nlinarith

/-- Every reference position off the collapsed end has stored values of which C114 speaks. -/
theorem computed_exists (R : Rounding 53 (-1074) rnd) (tol : ℝ) (cells : List (Shape × ℕ)) (shape : Shape) (n : ℕ) (hc : (shape, n) ∈ cells) (h2 : 2 ≤ n) (value : ℝ) (xi : ℝ × ℝ × ℝ)
    (hoff : OffCollapsed shape (collapse tol shape xi.1 xi.2.1 xi.2.2).2.1 (collapse tol shape xi.1 xi.2.1 xi.2.2).2.2) :
    ∃ p δ B, p.value = value ∧ p.xi = xi ∧ 0 ≤ δ ∧ 1 ≤ B ∧ Computed tol cells shape n δ B p ∧ ∀ x ∈ p.l0 ++ p.l1 ++ p.l2, IsFloat 53 (-1074) x := by
  obtain ⟨⟨L0, L1, L2⟩, hL, -, -⟩ := particle_loops tol cells shape n hc h2 xi (List.replicate (spaceSize shape n 0) none) (List.replicate (spaceSize shape n 1) none)
      (List.replicate (spaceSize shape n 2) none) (by simp) (by simp) (by simp)
  have bound : ∀ (f : ℝ → ℝ) (l : List (Option ℝ)), ∃ b, ∀ x, some x ∈ l → f x ≤ b := by
    intro f l
    induction l with
    | nil => exact ⟨0, by simp⟩
    | cons a l ih =>
      obtain ⟨b, hb⟩ := ih
      refine ⟨max b (f (a.getD 0)), fun x hx => ?_⟩
      rcases List.mem_cons.mp hx with h | h
      · rw [← h]; exact le_max_right _ _
      · exact (hb x h).trans (le_max_left _ _)
  obtain ⟨δ, hδ⟩ := bound (fun x => |rnd x - x|) (L0 ++ L1 ++ L2)
  obtain ⟨B, hB⟩ := bound (fun x => |x|) (L0 ++ L1 ++ L2)
  let g : List (Option ℝ) → List ℝ := fun L => L.map fun X => rnd (X.getD 0)
  have hS : ∀ L : List (Option ℝ), L ⊆ L0 ++ L1 ++ L2 → Space (max δ 0) (max B 1) (g L) L := by
    intro L hL
    unfold Space
    rw [List.forall₂_map_left_iff, List.forall₂_same]
    rintro X hX x rfl
    exact ⟨(hδ x (hL hX)).trans (le_max_left _ _), (hB x (hL hX)).trans (le_max_left _ _)⟩
  refine ⟨⟨value, xi, collapse tol shape xi.1 xi.2.1 xi.2.2, g L0, g L1, g L2⟩, max δ 0, max B 1, rfl, rfl, le_max_right _ _, le_max_right _ _,
    ⟨⟨rfl, rfl, fun _ _ => rfl⟩, hoff, L0, L1, L2, hL, hS _ (by simp), hS _ (by simp), hS _ (by simp)⟩, ?_⟩
  intro x hx
  simp only [g, List.mem_append, List.mem_map] at hx
  rcases hx with (⟨X, -, rfl⟩ | ⟨X, -, rfl⟩) | ⟨X, -, rfl⟩ <;> exact R.float _

/-! ### The order matters -/

/-- A value that is lost when it is added to one, and not when two of them are. -/
noncomputable def small : ℝ := ((3 : ℤ) : ℝ) * (2 : ℝ) ^ (-55 : ℤ)

theorem float_one' : IsFloat 53 (-1074) 1 := by simpa using float_pow (p := 53) (emin := -1074) (by norm_num) (e := 0) (by norm_num)

theorem float_small : IsFloat 53 (-1074) small := float_of_multiple (by norm_num) (by norm_num) (by norm_num)

theorem float_two_small : IsFloat 53 (-1074) (small + small) := by
  have h := float_of_multiple (p := 53) (emin := -1074) (by norm_num) (m := 3) (e := -54) (by norm_num) (by norm_num)
  have e : small + small = ((3 : ℤ) : ℝ) * (2 : ℝ) ^ (-54 : ℤ) := by unfold small; norm_num
  rwa [e]

theorem grid {x : ℝ} (hx : IsFloat 53 (-1074) x) (h1 : 1 ≤ x) : ∃ j : ℤ, x = j * (2 : ℝ) ^ (-52 : ℤ) := by
  obtain ⟨j, hj⟩ := float_grid hx 0 (by rw [zpow_zero, abs_of_pos (by linarith)]; exact h1)
  exact ⟨j, by rw [hj]; norm_num⟩

theorem one_small (N : Nearest 53 (-1074) rnd) : rnd (1 + small) = 1 := by
  have hn := N.nearest (1 + small) 1 float_one'
  have hs : small = 3 / 8 * (2 : ℝ) ^ (-52 : ℤ) := by unfold small; norm_num
  have hu : (0 : ℝ) < (2 : ℝ) ^ (-52 : ℤ) := two_pos _
  have e1 : |(1 : ℝ) - (1 + small)| = small := by rw [show (1 : ℝ) - (1 + small) = -small by ring, abs_neg, abs_of_pos (by rw [hs]; positivity)]
  rw [e1] at hn
  obtain ⟨h1, h2⟩ := abs_le.mp hn
  obtain ⟨j, hj⟩ := grid (N.float (1 + small)) (by linarith)
  have e2 : (1 : ℝ) = ((2 ^ 52 : ℤ) : ℝ) * (2 : ℝ) ^ (-52 : ℤ) := by norm_num
  have h3 : ((2 ^ 52 : ℤ) : ℝ) ≤ j := by
    by_contra hc
    have := mul_lt_mul_of_pos_right (not_le.mp hc) hu
    linarith
  have h4 : (j : ℝ) < ((2 ^ 52 + 1 : ℤ) : ℝ) := by
    by_contra hc
    have := mul_le_mul_of_nonneg_right (not_lt.mp hc) hu.le
    push_cast at this e2
    linarith
  have h3' : (2 ^ 52 : ℤ) ≤ j := by exact_mod_cast h3
  have h4' : j < (2 ^ 52 + 1 : ℤ) := by exact_mod_cast h4
  have : j = 2 ^ 52 := by omega
  rw [hj, this]; exact e2.symm

theorem one_two_small (N : Nearest 53 (-1074) rnd) : rnd (small + small + 1) = 1 + (2 : ℝ) ^ (-52 : ℤ) := by
  have hf : IsFloat 53 (-1074) (1 + (2 : ℝ) ^ (-52 : ℤ)) := by
    have h := float_of_multiple (p := 53) (emin := -1074) (by norm_num) (m := 2 ^ 52 + 1) (e := -52) (by norm_num) (by norm_num)
    have e : 1 + (2 : ℝ) ^ (-52 : ℤ) = ((2 ^ 52 + 1 : ℤ) : ℝ) * (2 : ℝ) ^ (-52 : ℤ) := by norm_num
    rwa [e]
  have hn := N.nearest (small + small + 1) _ hf
  have hs : small = 3 / 8 * (2 : ℝ) ^ (-52 : ℤ) := by unfold small; norm_num
  have hu : (0 : ℝ) < (2 : ℝ) ^ (-52 : ℤ) := two_pos _
  have e2 : (1 : ℝ) = ((2 ^ 52 : ℤ) : ℝ) * (2 : ℝ) ^ (-52 : ℤ) := by norm_num
  have e1 : |1 + (2 : ℝ) ^ (-52 : ℤ) - (small + small + 1)| = 1 / 4 * (2 : ℝ) ^ (-52 : ℤ) := by
    rw [hs, show 1 + (2 : ℝ) ^ (-52 : ℤ) - (3 / 8 * (2 : ℝ) ^ (-52 : ℤ) + 3 / 8 * (2 : ℝ) ^ (-52 : ℤ) + 1) = 1 / 4 * (2 : ℝ) ^ (-52 : ℤ) by ring, abs_of_pos (by positivity)]
  rw [e1] at hn
  obtain ⟨h1, h2⟩ := abs_le.mp hn
  have hfl := N.float (small + small + 1)
  generalize rnd (small + small + 1) = r at hfl h1 h2 ⊢
  rw [hs] at h1 h2
  obtain ⟨j, hj⟩ := grid hfl (by linarith)
  generalize (2 : ℝ) ^ (-52 : ℤ) = u at hu e2 h1 h2 hj ⊢
  have h3 : ((2 ^ 52 : ℤ) : ℝ) < j := by
    by_contra hc
    have := mul_le_mul_of_nonneg_right (not_lt.mp hc) hu.le
    linarith
  have h4 : (j : ℝ) < ((2 ^ 52 + 2 : ℤ) : ℝ) := by
    by_contra hc
    have := mul_le_mul_of_nonneg_right (not_lt.mp hc) hu.le
    push_cast at this e2
    linarith
  have h3' : (2 ^ 52 : ℤ) < j := by exact_mod_cast h3
  have h4' : j < (2 ^ 52 + 2 : ℤ) := by exact_mod_cast h4
  have : j = 2 ^ 52 + 1 := by omega
  rw [hj, this]; push_cast; push_cast at e2; linarith

/-- A particle at the first vertex of a linear quadrilateral. -/
noncomputable def atVertex (value : ℝ) : Particle := ⟨value, (-1, -1, 0), (-1, -1, 0), [1, 0], [1, 0], []⟩

/-- Its additions: everything to the first degree of freedom. -/
theorem atVertex_adds (R : Rounding 53 (-1074) rnd) {v : ℝ} (hv : IsFloat 53 (-1074) v) :
    loopProjectF rnd .quad 2 v (atVertex v).l0 (atVertex v).l1 (atVertex v).l2 = some [(0, v), (1, 0), (2, 0), (3, 0)] := by
  have h0 : rnd 0 = 0 := rnd_zero R
  have h1 : rnd v = v := R.exact _ hv
  simp [loopProjectF, quadProjectF, forLoop, atVertex, Mem.read, h0, h1]

theorem apply_vertex (h0 : rnd 0 = 0) (d v : ℝ) (rest : List (ℕ × ℝ)) :
    applyAddsF rnd [d, 0, 0, 0] ([(0, v), (1, 0), (2, 0), (3, 0)] ++ rest) = applyAddsF rnd [rnd (d + v), 0, 0, 0] rest := by
  simp [applyAddsF, Mem.read, Mem.write, h0]

/-- **C114, finding.** The result depends on the order of the atomic additions: three particles at a vertex, in two orders. The first value in one order is one, in the other the next double. -/
theorem order_matters (N : Nearest 53 (-1074) rnd) :
    ∃ (all : Particle → List (ℕ × ℝ)), (∀ p ∈ [atVertex 1, atVertex small, atVertex small], loopProjectF rnd .quad 2 p.value p.l0 p.l1 p.l2 = some (all p)) ∧
      ∃ adds adds' : List (ℕ × ℝ), adds.Perm ([atVertex 1, atVertex small, atVertex small].flatMap all) ∧ adds'.Perm ([atVertex 1, atVertex small, atVertex small].flatMap all) ∧
        applyAddsF rnd [0, 0, 0, 0] adds = some [1, 0, 0, 0] ∧ applyAddsF rnd [0, 0, 0, 0] adds' = some [1 + (2 : ℝ) ^ (-52 : ℤ), 0, 0, 0] := by
  have R := nearest_rounding N
  have h0 : rnd 0 = 0 := rnd_zero R
  have h1 : rnd 1 = 1 := R.exact _ float_one'
  have hs : rnd small = small := R.exact _ float_small
  have hss : rnd (small + small) = small + small := R.exact _ float_two_small
  refine ⟨fun p => [(0, p.value), (1, 0), (2, 0), (3, 0)], ?_,
    [(0, 1), (1, 0), (2, 0), (3, 0)] ++ [(0, small), (1, 0), (2, 0), (3, 0)] ++ [(0, small), (1, 0), (2, 0), (3, 0)],
    [(0, small), (1, 0), (2, 0), (3, 0)] ++ [(0, small), (1, 0), (2, 0), (3, 0)] ++ [(0, 1), (1, 0), (2, 0), (3, 0)], ?_, ?_, ?_, ?_⟩
  · intro p hp
    simp only [List.mem_cons, List.not_mem_nil, or_false] at hp
    rcases hp with rfl | rfl | rfl
    · exact atVertex_adds R float_one'
    · exact atVertex_adds R float_small
    · exact atVertex_adds R float_small
  · exact List.Perm.of_eq rfl
  · show ((_ ++ _) ++ _ : List (ℕ × ℝ)).Perm ([(0, 1), (1, 0), (2, 0), (3, 0)] ++ ([(0, small), (1, 0), (2, 0), (3, 0)] ++ [(0, small), (1, 0), (2, 0), (3, 0)]))
    exact List.perm_append_comm
  · rw [List.append_assoc, apply_vertex h0, apply_vertex h0, ← List.append_nil [(0, _), (1, _), (2, _), (3, _)], apply_vertex h0, zero_add, h1, one_small N, one_small N, applyAddsF]
  · rw [List.append_assoc, apply_vertex h0, apply_vertex h0, ← List.append_nil [(0, _), (1, _), (2, _), (3, _)], apply_vertex h0, zero_add, hs, hss, one_two_small N, applyAddsF]

/-- So the claim that the degrees of freedom are the same in every order is false of the code in the default mode of rounding. -/
theorem not_the_same_in_every_order : ¬ ∀ (rnd : ℝ → ℝ), NearestEven 53 (-1074) rnd → ∀ (shape : Shape) (n : ℕ) (ps : List Particle) (all : Particle → List (ℕ × ℝ)),
    (∀ p ∈ ps, loopProjectF rnd shape n p.value p.l0 p.l1 p.l2 = some (all p)) → ∀ adds adds' : List (ℕ × ℝ), adds.Perm (ps.flatMap all) → adds'.Perm (ps.flatMap all) → ∀ c : List ℝ,
    applyAddsF rnd c adds = applyAddsF rnd c adds' := by
  intro h
  have E := nearestEven_spec (p := 53) (emin := -1074) (by norm_num)
  obtain ⟨all, hall, a, b, ha, hb, h1, h2⟩ := order_matters E.toNearest
  have := h _ E .quad 2 _ all hall a b ha hb [0, 0, 0, 0]
  rw [h1, h2] at this
  have hu : (0 : ℝ) < (2 : ℝ) ^ (-52 : ℤ) := two_pos _
  simp only [Option.some.injEq, List.cons.injEq] at this
  linarith [this.1]

/-- A particle in a quadrilateral, and one in a triangle that is not at the collapsed vertex, meet the hypotheses. -/
example : ∃ rnd, ∃ p δ B, Rounding 53 (-1074) rnd ∧ p.xi = ((1 / 3, 1 / 5, 0) : ℝ × ℝ × ℝ) ∧ 0 ≤ δ ∧ 1 ≤ B ∧ Computed (1 / 1000) [(.quad, 4), (.tri, 3)] .quad 4 δ B p := by
  have R := nearest_rounding (nearestEven_spec (p := 53) (emin := -1074) (by norm_num)).toNearest
  obtain ⟨p, δ, B, -, h2, h3, h4, h5, -⟩ := computed_exists R (1 / 1000) [(.quad, 4), (.tri, 3)] .quad 4 (by simp) (by norm_num) 1 (1 / 3, 1 / 5, 0) trivial
  exact ⟨_, p, δ, B, R, h2, h3, h4, h5⟩

example : ∃ rnd, ∃ p δ B, Rounding 53 (-1074) rnd ∧ p.xi = ((-1 / 3, 1 / 5, 0) : ℝ × ℝ × ℝ) ∧ 0 ≤ δ ∧ 1 ≤ B ∧ Computed (1 / 1000) [(.quad, 4), (.tri, 3)] .tri 3 δ B p := by
  have R := nearest_rounding (nearestEven_spec (p := 53) (emin := -1074) (by norm_num)).toNearest
  obtain ⟨p, δ, B, -, h2, h3, h4, h5, -⟩ := computed_exists R (1 / 1000) [(.quad, 4), (.tri, 3)] .tri 3 (by simp) (by norm_num) 1 (-1 / 3, 1 / 5, 0)
    (by norm_num [OffCollapsed, collapse, CoordMap.triToCollapsed])
  exact ⟨_, p, δ, B, R, h2, h3, h4, h5⟩

end Verif.Props.C114
