import Verif.Props.C07_Collapsed

namespace Verif.Props.C08
open Verif.Model.CoordMap Verif.Spec Verif.Props.C07

variable {K : Type*} [Field K] [LinearOrder K] [IsStrictOrderedRing K]

theorem zeroGuard_cases (tol d : K) (ht : 0 < tol) :
    (zeroGuard tol d = d ∧ (tol ≤ d ∨ d ≤ -tol)) ∨ (zeroGuard tol d = tol ∧ 0 ≤ d ∧ d < tol) ∨
    (zeroGuard tol d = -tol ∧ -tol < d ∧ d < 0) := by
  unfold zeroGuard
  split_ifs with h h0
  · right; left; exact ⟨rfl, h0, (abs_lt.1 h).2⟩
  · right; right; exact ⟨rfl, (abs_lt.1 h).1, not_le.1 h0⟩
  · left
    refine ⟨rfl, ?_⟩
    rcases le_or_gt 0 d with h1 | h1
    · left; rw [abs_of_nonneg h1] at h; exact not_lt.1 h
    · right; rw [abs_of_neg h1] at h; have := not_lt.1 h; linarith

theorem zeroGuard_pos {tol d : K} (ht : 0 < tol) (hd : 0 ≤ d) : 0 < zeroGuard tol d ∧ d ≤ zeroGuard tol d := by
  rcases zeroGuard_cases tol d ht with ⟨h, h1 | h1⟩ | ⟨h, h1, h2⟩ | ⟨h, h1, h2⟩
  · exact ⟨by rw [h]; linarith, by rw [h]⟩
  · exfalso; linarith
  · rw [h]; exact ⟨ht, h2.le⟩
  · exfalso; linarith

theorem unit_of (a D : K) (hD : 0 < D) (h0 : 0 ≤ a) (h1 : a ≤ D) : InUnit (2 * a / D - 1) := by
  have h2 : 0 ≤ 2 * a / D := by apply div_nonneg; linarith; exact hD.le
  have h3 : 2 * a / D ≤ 2 := by rw [div_le_iff₀ hD]; linarith
  exact ⟨by linarith, by linarith⟩

theorem of_unit (a D : K) (hD : 0 < D) (h : InUnit (2 * a / D - 1)) : 0 ≤ a ∧ a ≤ D := by
  obtain ⟨h1, h2⟩ := h
  have h3 : 0 ≤ 2 * a / D := by linarith
  have h4 : 2 * a / D ≤ 2 := by linarith
  rw [div_le_iff₀ hD] at h4
  have h5 : 0 ≤ 2 * a := by
    have := mul_nonneg h3 hD.le
    rwa [div_mul_cancel₀ _ hD.ne'] at this
  exact ⟨by linarith, by linarith⟩

theorem of_unit_neg (a D : K) (hD : D < 0) (h : InUnit (2 * a / D - 1)) : D ≤ a ∧ a ≤ 0 := by
  have : 2 * a / D - 1 = 2 * (-a) / (-D) - 1 := by rw [mul_neg, neg_div_neg_eq]
  rw [this] at h
  have := of_unit (-a) (-D) (by linarith) h
  exact ⟨by linarith [this.2], by linarith [this.1]⟩

/-- **C08 (no false negatives).** Every point of the closed reference element, without exception, has
collapsed coordinates in `[-1, 1]`. -/
theorem element_has_unit_collapsed_3d (tol : K) (ht : 0 < tol) (s : Shape3) (x0 x1 x2 : K)
    (h : InRef3 0 s x0 x1 x2) :
    (fun e : K × K × K => InUnit e.1 ∧ InUnit e.2.1 ∧ InUnit e.2.2) (toCollapsed3 tol s x0 x1 x2) := by
  cases s with
  | hex =>
    simp only [InRef3, sub_zero, add_zero] at h
    exact ⟨h.1, h.2.1, h.2.2⟩
  | prism =>
    simp only [InRef3, sub_zero, add_zero] at h
    obtain ⟨h0, h1, h2, h3⟩ := h
    have hg := zeroGuard_pos ht (show 0 ≤ 1 - x2 by linarith)
    simp only [toCollapsed3, prismToCollapsed, pyrToCollapsed, tetToCollapsed]
    exact ⟨unit_of _ _ hg.1 (by linarith) (by linarith [hg.2]), h1, ⟨h2, by linarith⟩⟩
  | pyr =>
    simp only [InRef3, sub_zero] at h
    obtain ⟨h0, h1, h2, h3, h4⟩ := h
    have hg := zeroGuard_pos ht (show 0 ≤ 1 - x2 by linarith)
    simp only [toCollapsed3, prismToCollapsed, pyrToCollapsed, tetToCollapsed]
    exact ⟨unit_of _ _ hg.1 (by linarith) (by linarith [hg.2]),
      unit_of _ _ hg.1 (by linarith) (by linarith [hg.2]), ⟨h2, by linarith⟩⟩
  | tet =>
    simp only [InRef3, sub_zero, add_zero] at h
    obtain ⟨h0, h1, h2, h3⟩ := h
    have hg := zeroGuard_pos ht (show 0 ≤ 1 - x2 by linarith)
    have hg' := zeroGuard_pos ht (show 0 ≤ -x1 - x2 by linarith)
    simp only [toCollapsed3, prismToCollapsed, pyrToCollapsed, tetToCollapsed]
    exact ⟨unit_of _ _ hg'.1 (by linarith) (by linarith [hg'.2]),
      unit_of _ _ hg.1 (by linarith) (by linarith [hg.2]), ⟨h2, by linarith⟩⟩

/-- **C08 (no false positives, up to the zero tolerance).** If all collapsed coordinates are in `[-1, 1]`
then the point is in the reference element enlarged by the zero tolerance, with no exception. -/
theorem unit_collapsed_near_element_3d (tol : K) (ht : 0 < tol) (s : Shape3) (x0 x1 x2 : K)
    (h : (fun e : K × K × K => InUnit e.1 ∧ InUnit e.2.1 ∧ InUnit e.2.2) (toCollapsed3 tol s x0 x1 x2)) :
    InRef3 tol s x0 x1 x2 := by
  have key : ∀ d, 0 ≤ d → zeroGuard tol d ≤ d + tol := by
    intro d hd
    rcases zeroGuard_cases tol d ht with ⟨h, _⟩ | ⟨h, _, _⟩ | ⟨h, _, _⟩ <;> rw [h] <;> linarith
  cases s with
  | hex =>
    obtain ⟨⟨a, b⟩, ⟨c, d⟩, e, f⟩ := h
    simp only [toCollapsed3, hexToCollapsed] at *
    exact ⟨⟨by linarith, by linarith⟩, ⟨by linarith, by linarith⟩, ⟨by linarith, by linarith⟩⟩
  | prism =>
    obtain ⟨h0, ⟨h1, h1'⟩, h2, h2'⟩ := h
    simp only [toCollapsed3, prismToCollapsed] at *
    have hd : 0 ≤ 1 - x2 := by linarith
    have := of_unit _ _ (zeroGuard_pos ht hd).1 h0
    have k := key _ hd
    exact ⟨by linarith, ⟨by linarith, by linarith⟩, by linarith, by linarith⟩
  | pyr =>
    obtain ⟨h0, h1, h2, h2'⟩ := h
    simp only [toCollapsed3, pyrToCollapsed] at *
    have hd : 0 ≤ 1 - x2 := by linarith
    have := of_unit _ _ (zeroGuard_pos ht hd).1 h0
    have := of_unit _ _ (zeroGuard_pos ht hd).1 h1
    have k := key _ hd
    exact ⟨by linarith, by linarith, by linarith, by linarith, by linarith⟩
  | tet =>
    obtain ⟨h0, h1, h2, h2'⟩ := h
    simp only [toCollapsed3, tetToCollapsed] at *
    have hd : 0 ≤ 1 - x2 := by linarith
    have a1 := of_unit _ _ (zeroGuard_pos ht hd).1 h1
    have k := key _ hd
    have hd12 : -tol ≤ -x1 - x2 := by linarith
    rcases zeroGuard_cases tol (-x1 - x2) ht with ⟨h, hh | hh⟩ | ⟨h, hh, hh'⟩ | ⟨h, hh, hh'⟩
    · have a0 := of_unit _ _ (by rw [h]; linarith) h0
      rw [h] at a0
      exact ⟨by linarith, by linarith, by linarith, by linarith⟩
    · have a0 := of_unit_neg _ _ (by rw [h]; linarith) h0
      rw [h] at a0
      exact ⟨by linarith, by linarith, by linarith, by linarith⟩
    · have a0 := of_unit _ _ (by rw [h]; linarith) h0
      rw [h] at a0
      exact ⟨by linarith, by linarith, by linarith, by linarith⟩
    · have a0 := of_unit_neg _ _ (by rw [h]; linarith) h0
      rw [h] at a0
      exact ⟨by linarith, by linarith, by linarith, by linarith⟩

/-- **C08 (exact off the collapsed vertex or edge).** A point away from the singular set
is in the closed reference element exactly when all its collapsed coordinates are in `[-1, 1]`. -/
theorem element_iff_unit_collapsed_3d (tol : K) (ht : 0 < tol) (s : Shape3) (x0 x1 x2 : K)
    (hr : Regular3 tol s x0 x1 x2) :
    InRef3 0 s x0 x1 x2 ↔
    (fun e : K × K × K => InUnit e.1 ∧ InUnit e.2.1 ∧ InUnit e.2.2) (toCollapsed3 tol s x0 x1 x2) := by
  refine ⟨element_has_unit_collapsed_3d tol ht s x0 x1 x2, fun h => ?_⟩
  have pos : ∀ d, 0 ≤ d → tol ≤ |d| → 0 < d := fun d h0 h1 =>
    lt_of_le_of_ne h0 (Ne.symm (ne_of_tol ht h1))
  cases s with
  | hex =>
    obtain ⟨⟨a, b⟩, ⟨c, d⟩, e, f⟩ := h
    simp only [toCollapsed3, hexToCollapsed] at *
    exact ⟨⟨by linarith, by linarith⟩, ⟨by linarith, by linarith⟩, ⟨by linarith, by linarith⟩⟩
  | prism =>
    obtain ⟨h0, ⟨h1, h1'⟩, h2, h2'⟩ := h
    simp only [Regular3] at hr
    simp only [toCollapsed3, prismToCollapsed] at *
    rw [zeroGuard_of_le hr] at h0
    have := of_unit _ _ (pos _ (by linarith) hr) h0
    exact ⟨by linarith, ⟨by linarith, by linarith⟩, by linarith, by linarith⟩
  | pyr =>
    obtain ⟨h0, h1, h2, h2'⟩ := h
    simp only [Regular3] at hr
    simp only [toCollapsed3, pyrToCollapsed] at *
    rw [zeroGuard_of_le hr] at h0 h1
    have := of_unit _ _ (pos _ (by linarith) hr) h0
    have := of_unit _ _ (pos _ (by linarith) hr) h1
    exact ⟨by linarith, by linarith, by linarith, by linarith, by linarith⟩
  | tet =>
    obtain ⟨h0, h1, h2, h2'⟩ := h
    simp only [Regular3] at hr
    simp only [toCollapsed3, tetToCollapsed] at *
    have h12' : tol ≤ |-x1 - x2| := by rw [← abs_neg]; convert hr.2 using 2; ring
    rw [zeroGuard_of_le hr.1] at h1
    rw [zeroGuard_of_le h12'] at h0
    have a1 := of_unit _ _ (pos _ (by linarith) hr.1) h1
    have a0 := of_unit _ _ (pos _ (by linarith) h12') h0
    exact ⟨by linarith, by linarith, by linarith, by linarith⟩

/-- **C08 (two dimensions).** -/
theorem element_unit_collapsed_2d (tol : K) (ht : 0 < tol) (s : Shape2) (x0 x1 : K) :
    (InRef2 0 s x0 x1 → (fun e : K × K => InUnit e.1 ∧ InUnit e.2) (toCollapsed2 tol s x0 x1)) ∧
    ((fun e : K × K => InUnit e.1 ∧ InUnit e.2) (toCollapsed2 tol s x0 x1) → InRef2 tol s x0 x1) ∧
    (Regular2 tol s x0 x1 → (fun e : K × K => InUnit e.1 ∧ InUnit e.2) (toCollapsed2 tol s x0 x1) →
      InRef2 0 s x0 x1) := by
  cases s with
  | quad =>
    refine ⟨?_, ?_, ?_⟩
    · intro h; simp only [InRef2, sub_zero, add_zero] at h; exact h
    · rintro ⟨⟨a, b⟩, c, d⟩
      simp only [toCollapsed2, quadToCollapsed] at *
      exact ⟨⟨by linarith, by linarith⟩, ⟨by linarith, by linarith⟩⟩
    · rintro _ ⟨⟨a, b⟩, c, d⟩
      simp only [toCollapsed2, quadToCollapsed] at *
      exact ⟨⟨by linarith, by linarith⟩, ⟨by linarith, by linarith⟩⟩
  | tri =>
    simp only [toCollapsed2, triTo_eq]
    refine ⟨?_, ?_, ?_⟩
    · intro h
      simp only [InRef2, sub_zero] at h
      obtain ⟨h0, h1, h2⟩ := h
      have hg := zeroGuard_pos ht (show 0 ≤ 1 - x1 by linarith)
      exact ⟨unit_of _ _ hg.1 (by linarith) (by linarith [hg.2]), ⟨h1, by linarith⟩⟩
    · rintro ⟨h0, h1, h1'⟩
      have hd : 0 ≤ 1 - x1 := by linarith
      have := of_unit _ _ (zeroGuard_pos ht hd).1 h0
      have k : zeroGuard tol (1 - x1) ≤ (1 - x1) + tol := by
        rcases zeroGuard_cases tol (1 - x1) ht with ⟨h, _⟩ | ⟨h, _, _⟩ | ⟨h, _, _⟩ <;> rw [h] <;> linarith
      exact ⟨by linarith, by linarith, by linarith⟩
    · rintro hr ⟨h0, h1, h1'⟩
      simp only [Regular2] at hr
      rw [zeroGuard_of_le hr] at h0
      have := of_unit _ _ (lt_of_le_of_ne (by linarith) (Ne.symm (ne_of_tol ht hr))) h0
      exact ⟨by linarith, by linarith, by linarith⟩

/-- **C08 (round trip inside the tolerance).** For every point of the closed reference element, including its
collapsed vertex and edge, mapping to collapsed coordinates and back moves the point by at most the zero
tolerance per coordinate. -/
theorem element_round_trip_error (tol : K) (ht : 0 < tol) (s : Shape3) (x0 x1 x2 : K)
    (h : InRef3 0 s x0 x1 x2) :
    (fun e : K × K × K => (fun y : K × K × K => |y.1 - x0| ≤ tol ∧ |y.2.1 - x1| ≤ tol ∧ y.2.2 = x2)
      (fromCollapsed3 s e.1 e.2.1 e.2.2)) (toCollapsed3 tol s x0 x1 x2) := by
  have key : ∀ a d : K, 0 ≤ a → a ≤ d →
      |((1 + (2 * a / zeroGuard tol d - 1)) * d * (1 / 2) - 1) - (a - 1)| ≤ tol := by
    intro a d ha had
    rcases zeroGuard_cases tol d ht with ⟨hg, hh | hh⟩ | ⟨hg, hh, hh'⟩ | ⟨hg, hh, hh'⟩
    · rw [hg]
      have : d ≠ 0 := by linarith
      have e : ((1 + (2 * a / d - 1)) * d * (1 / 2) - 1) - (a - 1) = 0 := by field_simp; ring
      rw [e, abs_zero]; exact ht.le
    · exfalso; linarith
    · rw [hg]
      have e : ((1 + (2 * a / tol - 1)) * d * (1 / 2) - 1) - (a - 1) = a * (d / tol) - a := by
        have := ht.ne'; field_simp; ring
      rw [e]
      have h1 : 0 ≤ d / tol := div_nonneg hh ht.le
      have h2 : d / tol ≤ 1 := by rw [div_le_one ht]; exact hh'.le
      rw [abs_le]
      constructor <;> nlinarith
    · exfalso; linarith
  cases s with
  | hex => simp [fromCollapsed3, toCollapsed3, hexFromCollapsed, hexToCollapsed, ht.le]
  | prism =>
    simp only [InRef3, sub_zero, add_zero] at h
    obtain ⟨h0, h1, h2, h3⟩ := h
    have := key (1 + x0) (1 - x2) (by linarith) (by linarith)
    simp only [fromCollapsed3, toCollapsed3, prismFromCollapsed, prismToCollapsed, sub_self, abs_zero, ht.le]
    exact ⟨by simpa using this, trivial, trivial⟩
  | pyr =>
    simp only [InRef3, sub_zero] at h
    obtain ⟨h0, h1, h2, h3, h4⟩ := h
    have k0 := key (1 + x0) (1 - x2) (by linarith) (by linarith)
    have k1 := key (1 + x1) (1 - x2) (by linarith) (by linarith)
    simp only [fromCollapsed3, toCollapsed3, pyrFromCollapsed, pyrToCollapsed]
    exact ⟨by simpa using k0, by simpa using k1, trivial⟩
  | tet =>
    have hu := element_has_unit_collapsed_3d tol ht .tet x0 x1 x2 h
    simp only [InRef3, sub_zero, add_zero] at h
    obtain ⟨h0, h1, h2, h3⟩ := h
    have k1 := key (1 + x1) (1 - x2) (by linarith) (by linarith)
    simp only [fromCollapsed3, toCollapsed3, tetFromCollapsed, tetToCollapsed] at hu ⊢
    refine ⟨?_, by simpa using k1, trivial⟩
    by_cases hreg : tol ≤ 1 - x2
    · -- second coordinate exact
      have hne : (1 - x2) ≠ 0 := by linarith
      have hg : zeroGuard tol (1 - x2) = 1 - x2 := zeroGuard_of_le (by rw [abs_of_nonneg (by linarith)]; exact hreg)
      have e1 : (1 + (2 * (1 + x1) / (1 - x2) - 1)) * (1 - x2) * (1 / 2) - 1 = x1 := by field_simp; ring
      rw [hg, e1]
      have := key (1 + x0) (-x1 - x2) (by linarith) (by linarith)
      simpa using this
    · -- everything is within the tolerance
      obtain ⟨⟨a1, a2⟩, ⟨b1, b2⟩, -⟩ := hu
      generalize 2 * (1 + x0) / zeroGuard tol (-x1 - x2) - 1 = e0 at *
      generalize 2 * (1 + x1) / zeroGuard tol (1 - x2) - 1 = e1 at *
      have hd : 0 ≤ 1 - x2 := by linarith
      have p1 : 0 ≤ (1 + e1) * (1 - x2) := mul_nonneg (by linarith) hd
      have p2 : (1 + e1) * (1 - x2) ≤ 2 * (1 - x2) := mul_le_mul_of_nonneg_right (by linarith) hd
      set y1 := (1 + e1) * (1 - x2) * (1 / 2) - 1 with hy1
      have q1 : 0 ≤ -y1 - x2 := by linarith
      have q2 : -y1 - x2 ≤ 1 - x2 := by linarith
      have r1 : 0 ≤ (1 + e0) * (-y1 - x2) := mul_nonneg (by linarith) q1
      have r2 : (1 + e0) * (-y1 - x2) ≤ 2 * (-y1 - x2) := mul_le_mul_of_nonneg_right (by linarith) q1
      rw [abs_le]
      constructor <;> linarith

/-- Non-vacuity: a point of each element, and the top vertex of the tetrahedron, which is singular. -/
example : (∀ s : Shape3, InRef3 (0 : ℚ) s (-1 / 2) (-3 / 4) (-1 / 2)) ∧ InRef3 (0 : ℚ) .tet (-1) (-1) 1 ∧
    ¬ Regular3 (1 / 1000 : ℚ) .tet (-1) (-1) 1 := by
  refine ⟨fun s => by cases s <;> norm_num [InRef3], by norm_num [InRef3], by norm_num [Regular3]⟩

end Verif.Props.C08
