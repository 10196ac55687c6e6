import Verif.Props.C116_FloatShapes

/-! C116: near the collapsed edge of a tetrahedron the computed basis functions are not finite. The hypotheses of C116 can be met. -/

namespace Verif.Props.C116
open Verif.Lemmas.RoundingModes Verif.Lemmas.Rounding Verif.Spec.Rounding Verif.Spec Verif.Model
  Verif.Model.FloatKernels Verif.Model.FloatBasis Verif.Model.FloatShapes Verif.Model.FloatExpansion Verif.Model.JacobiCoeff Verif.Model.ExpansionLooping Verif.Model.BasisReference
  Verif.Model.BasisEvaluation Verif.Model.BasisEvaluateBase Verif.Lemmas Verif.Lemmas.FloatShapes Verif.Props.C13 Verif.Props.C114

variable {rnd : ℝ → ℝ}

/-! ### The rounding of the collapsed coordinate -/

theorem float_half : IsFloat 53 (-1074) (1 / 2) := by
  have := float_pow (p := 53) (emin := -1074) (e := -1) (by norm_num) (by norm_num)
  norm_num at this ⊢; exact this

theorem float_three_halves : IsFloat 53 (-1074) (3 / 2) := ⟨3, -1, by norm_num, by norm_num, by norm_num⟩

/-- The position: `(-1, 1/2 - 2^-54, -1/2)`. -/
noncomputable def edgePoint : ℝ × ℝ × ℝ := (-1, 1 / 2 - (2 : ℝ) ^ (-54 : ℤ), -(1 / 2))

theorem edgePoint_float : IsFloat 53 (-1074) edgePoint.1 ∧ IsFloat 53 (-1074) edgePoint.2.1 ∧ IsFloat 53 (-1074) edgePoint.2.2 := by
  refine ⟨float_neg float_one, ⟨2 ^ 53 - 1, -54, by norm_num, by norm_num, ?_⟩, float_neg float_half⟩
  unfold edgePoint
  norm_num

/-- To the nearest `3/2 - 2^-54` is `3/2`. -/
theorem nearest_edge (N : Nearest 53 (-1074) rnd) : rnd (3 / 2 - (2 : ℝ) ^ (-54 : ℤ)) = 3 / 2 := by
  have h := N.nearest (3 / 2 - (2 : ℝ) ^ (-54 : ℤ)) (3 / 2) float_three_halves
  have hf := N.float (3 / 2 - (2 : ℝ) ^ (-54 : ℤ))
  generalize rnd (3 / 2 - (2 : ℝ) ^ (-54 : ℤ)) = y at *
  have h' : |y - (3 / 2 - (2 : ℝ) ^ (-54 : ℤ))| ≤ (2 : ℝ) ^ (-54 : ℤ) := by
    refine h.trans_eq ?_
    rw [show (3 / 2 : ℝ) - (3 / 2 - (2 : ℝ) ^ (-54 : ℤ)) = (2 : ℝ) ^ (-54 : ℤ) by ring, abs_of_pos (two_pos _)]
  have hb := abs_le.mp h'
  obtain ⟨j, hj⟩ := float_grid hf 0 (by rw [zpow_zero, le_abs]; left; norm_num at hb ⊢; linarith [hb.1])
  norm_num at hj hb
  have j1 : (j : ℝ) < 3 * 2 ^ 51 + 1 := by rw [hj] at hb; norm_num at hb ⊢; linarith [hb.2]
  have j2 : (3 * 2 ^ 51 - 1 : ℝ) < j := by rw [hj] at hb; norm_num at hb ⊢; linarith [hb.1]
  have : j = 3 * 2 ^ 51 := by
    have k1 : j < 3 * 2 ^ 51 + 1 := by exact_mod_cast j1
    have k2 : 3 * 2 ^ 51 - 1 < j := by exact_mod_cast j2
    omega
  rw [hj, this]; norm_num

theorem edge_computed (N : Nearest 53 (-1074) rnd) {tol : ℝ} (ht : tol ≤ 1) : (collapseF rnd tol .tet edgePoint.1 edgePoint.2.1 edgePoint.2.2).2.1 = 1 := by
  have R := nearest_rounding N
  have fi : ∀ m : ℤ, |m| ≤ 10 → rnd (m : ℝ) = m := fun m hm => R.exact _ (float_int (by norm_num) (by norm_num) (hm.trans (by norm_num)))
  have e2 := fi 2 (by norm_num)
  have e3 := fi 3 (by norm_num)
  have e1 := fi 1 (by norm_num)
  push_cast at e1 e2 e3
  simp only [collapseF, edgePoint, ratioF, oneMinusF]
  have g : CoordMap.zeroGuard tol (rnd (1 - -(1 / 2))) = 3 / 2 := by
    rw [show (1 - -(1 / 2) : ℝ) = 3 / 2 by norm_num, R.exact _ float_three_halves]
    unfold CoordMap.zeroGuard
    rw [if_neg (by rw [abs_of_pos (by norm_num)]; linarith)]
  rw [g, show 1 + (1 / 2 - (2 : ℝ) ^ (-54 : ℤ)) = 3 / 2 - (2 : ℝ) ^ (-54 : ℤ) by ring, nearest_edge N, show (2 * (3 / 2) : ℝ) = 3 by norm_num, e3,
    show (3 / (3 / 2) : ℝ) = 2 by norm_num, e2, show (2 - 1 : ℝ) = 1 by norm_num, e1]

/-- In exact arithmetic the position is not at the collapsed end. -/
theorem edge_exact {tol : ℝ} (ht : tol ≤ 1) : InElement .tet edgePoint ∧
    OffCollapsed .tet (collapse tol .tet edgePoint.1 edgePoint.2.1 edgePoint.2.2).2.1 (collapse tol .tet edgePoint.1 edgePoint.2.1 edgePoint.2.2).2.2 := by
  have g : CoordMap.zeroGuard tol (1 - -(1 / 2)) = 3 / 2 := by
    rw [show (1 - -(1 / 2) : ℝ) = 3 / 2 by norm_num]
    unfold CoordMap.zeroGuard
    rw [if_neg (by rw [abs_of_pos (by norm_num)]; linarith)]
  refine ⟨?_, ?_, ?_⟩
  · simp only [InElement, InRef3, edgePoint]
    norm_num
  · simp only [collapse, CoordMap.tetToCollapsed, edgePoint, g]
    norm_num
  · simp only [collapse, CoordMap.tetToCollapsed, edgePoint]
    norm_num

/-! ### The kernel at the collapsed end -/

theorem b0F_one (R : Rounding 53 (-1074) rnd) : b0F rnd 1 = 0 := by
  unfold b0F
  rw [sub_self, rnd_zero R, mul_zero, rnd_zero R]

/-- At one `mod_B` writes a value that is not finite. -/
theorem modB_not_finite (R : Rounding 53 (-1074) rnd) (ch : Bool → Choice) (contract : Bool) (T : Tables ℝ) (n : ℕ) (h2 : 2 ≤ n) (buf out : List (Dbl ℝ))
    (h : modBF rnd ch contract T n 1 buf = some out) : none ∈ out := by
  obtain ⟨m, rfl⟩ : ∃ m, n = m + 2 := ⟨n - 2, by omega⟩
  unfold modBF at h
  rw [b0F_one R] at h
  have inv : invF rnd 0 = none := by simp [invF]
  rw [inv] at h
  have hm : ∀ x, mulF rnd none x = none := fun x => rfl
  have pow : ∀ (k : ℕ) (s : PowSt ℝ), forLoop k (fun px (s : PowSt ℝ) =>
      let b1pow := mulF rnd s.pow (some 0)
      (rowLoopF rnd ch contract T 1 b1pow px (m + 2 - px) s.mode s.buf).map fun r => ⟨r.1, r.2, b1pow⟩) ⟨0, buf, none⟩ = some s → s.pow = none := by
    intro k
    induction k with
    | zero => intro s hs; rw [forLoop] at hs; rw [← Option.some.inj hs]
    | succ k ih =>
      intro s hs
      rw [forLoop] at hs
      obtain ⟨t, ht, hs⟩ := Option.bind_eq_some_iff.mp hs
      dsimp only at hs
      obtain ⟨r, -, rfl⟩ := Option.map_eq_some_iff.mp hs
      dsimp only
      rw [ih t ht, hm]
  obtain ⟨s, hs, rfl⟩ := Option.map_eq_some_iff.mp h
  rw [forLoop] at hs
  obtain ⟨t, ht, hs⟩ := Option.bind_eq_some_iff.mp hs
  have hp := pow (m + 1) t ht
  dsimp only at hs
  rw [hp, hm, show m + 2 - (m + 1) = 1 by omega] at hs
  obtain ⟨r, hr, rfl⟩ := Option.map_eq_some_iff.mp hs
  dsimp only
  unfold rowLoopF at hr
  obtain ⟨u, hu, rfl⟩ := Option.map_eq_some_iff.mp hr
  rw [forLoop, forLoop, Option.bind_some] at hu
  unfold rowBodyF at hu
  rw [if_neg (by omega), if_pos rfl] at hu
  unfold put at hu
  obtain ⟨b, hb, rfl⟩ := Option.map_eq_some_iff.mp hu
  dsimp only
  unfold Mem.write at hb
  split at hb
  · next hlt =>
    rw [← Option.some.inj hb]
    exact List.mem_set (by simpa using hlt.2) _
  · simp at hb

/-- **C116, the full claim is false.** A tetrahedron, rounding to nearest, any number of modes and however the code is compiled: there is a position in the reference element that is not at the
collapsed end, all its coordinates are doubles, and a value the kernels write is not finite. -/
theorem tet_not_finite (N : Nearest 53 (-1074) rnd) (o : Build) {tol : ℝ} (ht : tol ≤ 1) (T : Tables ℝ) (n : ℕ) (h2 : 2 ≤ n) (s0 s1 s2 l0 l1 l2 : List (Dbl ℝ))
    (h : prepareBasisF rnd o tol T .tet n edgePoint s0 s1 s2 = some (l0, l1, l2)) :
    InElement .tet edgePoint ∧ OffCollapsed .tet (collapse tol .tet edgePoint.1 edgePoint.2.1 edgePoint.2.2).2.1 (collapse tol .tet edgePoint.1 edgePoint.2.1 edgePoint.2.2).2.2 ∧
      (IsFloat 53 (-1074) edgePoint.1 ∧ IsFloat 53 (-1074) edgePoint.2.1 ∧ IsFloat 53 (-1074) edgePoint.2.2) ∧ none ∈ l1 := by
  refine ⟨(edge_exact ht).1, (edge_exact ht).2, edgePoint_float, ?_⟩
  unfold prepareBasisF at h
  simp only [edge_computed N ht] at h
  obtain ⟨a, -, h⟩ := Option.bind_eq_some_iff.mp h
  obtain ⟨b, hb, h⟩ := Option.bind_eq_some_iff.mp h
  obtain ⟨c, -, h⟩ := Option.bind_eq_some_iff.mp h
  simp only [Option.some.injEq, Prod.mk.injEq] at h
  rw [← h.2.1]
  exact modB_not_finite (nearest_rounding N) o.chB o.start T n h2 s1 b hb

/-- With two modes there is such a result. -/
example (o : Build) (T : Tables ℝ) : ∃ l0 l1 l2, prepareBasisF (nearestEven 53 (-1074)) o (1 / 2 ^ 40) T .tet 2 edgePoint (List.replicate 2 none) (List.replicate 3 none) (List.replicate 4 none) =
    some (l0, l1, l2) ∧ none ∈ l1 := by
  have N := (nearestEven_spec (p := 53) (emin := -1074) (by norm_num)).toNearest
  have : ∃ l0 l1 l2, prepareBasisF (nearestEven 53 (-1074)) o (1 / 2 ^ 40) T .tet 2 edgePoint (List.replicate 2 none) (List.replicate 3 none) (List.replicate 4 none) =
    some (l0, l1, l2) := ⟨_, _, _, rfl⟩
  obtain ⟨l0, l1, l2, h⟩ := this
  exact ⟨l0, l1, l2, h, (tet_not_finite N o (by norm_num) T 2 le_rfl _ _ _ _ _ _ h).2.2.2⟩

/-! ### The hypotheses can be met -/

theorem tolerance_ex : Tolerance (1 / 2 ^ 40) := by
  have := float_pow (p := 53) (emin := -1074) (e := -40) (by norm_num) (by norm_num)
  refine ⟨?_, by norm_num, by norm_num⟩
  norm_num at this ⊢; exact this

theorem float_quarter : IsFloat 53 (-1074) (1 / 4) := by
  have := float_pow (p := 53) (emin := -1074) (e := -2) (by norm_num) (by norm_num)
  norm_num at this ⊢; exact this

/-- A position in each of the shapes. -/
noncomputable def inner : ℝ × ℝ × ℝ := (-(1 / 2), -(1 / 4), -(1 / 2))

theorem inner_position (shape : Shape) {rnd : ℝ → ℝ} (R : Rounding 53 (-1074) rnd) : Position rnd (1 / 2 ^ 40) shape inner := by
  have g : CoordMap.zeroGuard (1 / 2 ^ 40 : ℝ) (3 / 2) = 3 / 2 := by
    unfold CoordMap.zeroGuard
    rw [if_neg (by rw [abs_of_pos (by norm_num)]; norm_num)]
  have e1 : (collapse (1 / 2 ^ 40) .tet inner.1 inner.2.1 inner.2.2).2.1 = 0 := by
    simp only [collapse, CoordMap.tetToCollapsed, inner]
    rw [show (1 - -(1 / 2) : ℝ) = 3 / 2 by norm_num, g]
    norm_num
  refine inside_position R tolerance_ex shape inner ⟨float_neg float_half, float_neg float_quarter, fun _ => float_neg float_half⟩ ?_ ?_ ?_
  · cases shape <;> simp only [InElement, InRef2, InRef3, inner] <;> norm_num
  · cases shape
    · simp only [OffCollapsed, collapse, CoordMap.triToCollapsed, inner]; norm_num
    · trivial
    · trivial
    · simp only [OffCollapsed, collapse, CoordMap.prismToCollapsed, inner]; norm_num
    · simp only [OffCollapsed, collapse, CoordMap.pyrToCollapsed, inner]; norm_num
    · refine ⟨?_, ?_⟩
      · rw [e1]; norm_num
      · simp only [collapse, CoordMap.tetToCollapsed, inner]; norm_num
  · intro h
    subst h
    rw [e1]; norm_num

/-- A mesh with a cell of each shape, round to nearest, whichever operations are contracted: the kernels store values for a particle in the cell of any of the shapes, and an expansion is
evaluated there. -/
example (o : Build) (contract : ℕ → Bool) (shape : Shape) : ∃ p, p.value = 3 ∧ p.xi = inner ∧
    Stored (nearestEven 53 (-1074)) o (1 / 2 ^ 40) [(.tri, 4), (.quad, 4), (.hex, 4), (.prism, 4), (.pyr, 4), (.tet, 4)] shape 4 p ∧ Position (nearestEven 53 (-1074)) (1 / 2 ^ 40) shape p.xi ∧
    ∃ v, loopEvaluateF (nearestEven 53 (-1074)) contract shape 4 (List.replicate (totalNumModesShape shape 4).mode 1) p.l0 p.l1 p.l2 = some v := by
  have R := nearest_rounding (nearestEven_spec (p := 53) (emin := -1074) (by norm_num)).toNearest
  have hc : (shape, 4) ∈ [(Shape.tri, 4), (.quad, 4), (.hex, 4), (.prism, 4), (.pyr, 4), (.tet, 4)] := by cases shape <;> simp
  obtain ⟨p, h1, h2, h3⟩ := stored_exists R o tolerance_ex [(.tri, 4), (.quad, 4), (.hex, 4), (.prism, 4), (.pyr, 4), (.tet, 4)] shape 4 hc (by norm_num) (by norm_num) 3 inner
    (inner_position shape R)
  have hp : Position (nearestEven 53 (-1074)) (1 / 2 ^ 40) shape p.xi := by rw [h2]; exact inner_position shape R
  obtain ⟨v, hv, -⟩ := evaluation_error R o contract tolerance_ex _ shape 4 hc (by norm_num) (by norm_num) p h3 hp (List.replicate (totalNumModesShape shape 4).mode 1) (by simp)
  exact ⟨p, h1, h2, h3, hp, v, hv⟩

end Verif.Props.C116
