import Verif.Props.C39_AffineOneStep
import Verif.Props.C37_ExitTolerance
import Mathlib.Tactic.Positivity

/-! C59: a position bound to a straight-sided element lies in it up to the tolerances. -/

namespace Verif.Props.C59
open Verif.Model.NewtonKernel
open Verif.Model.LinearElements Verif.Spec.LinearElements Verif.Model.NewtonElements Verif.Props.C38

variable {K : Type*} [Field K] [LinearOrder K] [IsStrictOrderedRing K]

/-! ### Statement -/

/-- The data of an element: its vertices, the Jacobians at its points and its bounding box. -/
structure Element (K : Type*) where
  verts : ℕ → V3 K
  jac : List K
  box : ℕ → K

/-- The mean of the Jacobians. -/
def meanJac (e : Element K) : K := e.jac.sum / e.jac.length

/-- The scaling in each direction as written by `write_data_v`. -/
def scalings (e : Element K) : V3 K := ⟨scalingDir e.jac (e.box 0) (e.box 3), scalingDir e.jac (e.box 1) (e.box 4), scalingDir e.jac (e.box 2) (e.box 5)⟩

/-- The Newton mapping of an element. -/
def newton (tol : K) (s : Shape) (e : Element K) : Impl K := C39.impl tol s e.verts (scalings e) (hexScaling e.jac)

/-- The allowed distance in direction `d`: the tolerance times the mean Jacobian, and (not for hexahedra) times the largest coordinate of the box. -/
def allowed (s : Shape) (e : Element K) (tol : K) (d : ℕ) : K :=
  match s with
  | .hex => tol * |meanJac e|
  | _ => tol * (max |e.box d| |e.box (d + 3)| * meanJac e)

/-- A point of the reference element enlarged by `δ`. -/
def InRef (δ : K) : Shape → V3 K → Prop
  | .quad, x => Verif.Spec.InRef2 δ .quad x.x x.y
  | s, x => Verif.Spec.InRef3 δ (C39.shape3 s) x.x x.y x.z

/-- The two positions are at most the given distances apart in each direction (the third is not looked at for a quadrilateral). -/
def Within (s : Shape) (a b : V3 K) (d : ℕ → K) : Prop := |a.x - b.x| ≤ d 0 ∧ |a.y - b.y| ≤ d 1 ∧ (s ≠ .quad → |a.z - b.z| ≤ d 2)

/-! ### Collapsed coordinates in the enlarged cube -/

/-- Coordinates of the enlarged collapsed cube give points of the enlarged reference element. -/
theorem from_collapsed_in (δ : K) (h0 : 0 ≤ δ) (h1 : δ ≤ 1) (s : Verif.Spec.Shape3) (e0 e1 e2 : K) (g0 : -1 - δ ≤ e0 ∧ e0 ≤ 1 + δ) (g1 : -1 - δ ≤ e1 ∧ e1 ≤ 1 + δ)
    (g2 : -1 - δ ≤ e2 ∧ e2 ≤ 1 + δ) : (fun x : K × K × K => Verif.Spec.InRef3 (5 * δ) s x.1 x.2.1 x.2.2) (Verif.Model.CoordMap.fromCollapsed3 s e0 e1 e2) := by
  have low : ∀ u v : K, (-1 - δ ≤ u ∧ u ≤ 1 + δ) → (-1 - δ ≤ v ∧ v ≤ 1 + δ) → -(2 * δ) ≤ (1 + u) * (1 - v) * (1 / 2) := by
    intro u v hu hv
    have a1 : -δ ≤ 1 + u := by linarith [hu.1]
    have a2 : 1 + u ≤ 2 + δ := by linarith [hu.2]
    have b1 : -δ ≤ 1 - v := by linarith [hv.2]
    have b2 : 1 - v ≤ 2 + δ := by linarith [hv.1]
    generalize 1 + u = a at *
    generalize 1 - v = b at *
    rcases le_or_gt 0 a with h | h <;> rcases le_or_gt 0 b with g | g
    · nlinarith [mul_nonneg h g]
    · nlinarith [mul_nonneg h (neg_nonneg.2 g.le)]
    · nlinarith [mul_nonneg (neg_nonneg.2 h.le) g]
    · nlinarith [mul_nonneg (neg_nonneg.2 h.le) (neg_nonneg.2 g.le)]
  have high : ∀ u v : K, (-1 - δ ≤ u ∧ u ≤ 1 + δ) → (-1 - δ ≤ v ∧ v ≤ 1 + δ) → (1 + u) * (1 - v) * (1 / 2) - 1 + v ≤ 2 * δ := by
    intro u v hu hv
    have := low (-u) v ⟨by linarith [hu.2], by linarith [hu.1]⟩ hv
    nlinarith [this]
  cases s with
  | hex =>
    simp only [Verif.Model.CoordMap.fromCollapsed3, Verif.Model.CoordMap.hexFromCollapsed, Verif.Spec.InRef3]
    exact ⟨⟨by linarith [g0.1], by linarith [g0.2]⟩, ⟨by linarith [g1.1], by linarith [g1.2]⟩, ⟨by linarith [g2.1], by linarith [g2.2]⟩⟩
  | prism =>
    simp only [Verif.Model.CoordMap.fromCollapsed3, Verif.Model.CoordMap.prismFromCollapsed, Verif.Spec.InRef3]
    exact ⟨by linarith [low e0 e2 g0 g2], ⟨by linarith [g1.1], by linarith [g1.2]⟩, by linarith [g2.1], by linarith [high e0 e2 g0 g2]⟩
  | pyr =>
    simp only [Verif.Model.CoordMap.fromCollapsed3, Verif.Model.CoordMap.pyrFromCollapsed, Verif.Spec.InRef3]
    exact ⟨by linarith [low e0 e2 g0 g2], by linarith [low e1 e2 g1 g2], by linarith [g2.1], by linarith [high e0 e2 g0 g2], by linarith [high e1 e2 g1 g2]⟩
  | tet =>
    simp only [Verif.Model.CoordMap.fromCollapsed3, Verif.Model.CoordMap.tetFromCollapsed, Verif.Spec.InRef3]
    have l1 := low e1 e2 g1 g2
    have u1 := high e1 e2 g1 g2
    generalize hB : -((1 + e1) * (1 - e2) * (1 / 2) - 1) - e2 = B
    have hB1 : -(2 * δ) ≤ B := by linarith
    have hB2 : B ≤ 2 + 3 * δ := by linarith [g2.1]
    have lowB : ∀ u : K, (-δ ≤ u ∧ u ≤ 2 + δ) → -(5 * δ) ≤ u * B * (1 / 2) := by
      intro u hu
      rcases le_or_gt 0 u with h | h <;> rcases le_or_gt 0 B with g | g
      · nlinarith [mul_nonneg h g]
      · nlinarith [mul_nonneg h (neg_nonneg.2 g.le)]
      · nlinarith [mul_nonneg (neg_nonneg.2 h.le) g]
      · nlinarith [mul_nonneg (neg_nonneg.2 h.le) (neg_nonneg.2 g.le)]
    have a := lowB (1 + e0) ⟨by linarith [g0.1], by linarith [g0.2]⟩
    have b := lowB (1 - e0) ⟨by linarith [g0.2], by linarith [g0.1]⟩
    refine ⟨by linarith, by linarith, by linarith [g2.1], ?_⟩
    have e : (1 + e0) * B * (1 / 2) - 1 + ((1 + e1) * (1 - e2) * (1 / 2) - 1) + e2 = -((1 - e0) * B * (1 / 2)) - 1 := by
      rw [← hB]; ring
    rw [e]
    linarith

/-! ### Soundness -/

omit [IsStrictOrderedRing K] in
theorem hexScaling_eq (e : Element K) : hexScaling e.jac = |1 / meanJac e| := rfl

/-- **C59.** A position `p` that the Newton mapping of a straight-sided element accepts, from any starting point and with any number of iterations: the
stored reference position is in the reference element enlarged by five times the tolerance of the collapsed coordinates, and the map of the element takes it to
`p` up to the tolerance times the scale of the element. For a pyramid this is unless `p` is at the apex; the stored reference position is then that of the
apex, or is accepted as for other points. -/
theorem accepted_inside (tol : K) (s : Shape) (e : Element K) (hj : 0 < e.jac.sum) (hb : ∀ d < 3, e.box d ≠ 0 ∨ e.box (d + 3) ≠ 0)
    (t : Settings K) (δ : K) (h0 : 0 ≤ δ) (h1 : δ ≤ 1) (hlo : t.lo = -1 - δ) (hhi : t.hi = 1 + δ) (p : V3 K) (start : Option (V3 K)) (xi : V3 K)
    (h : tryCandidate (exactOps K) (newton tol s e) t p start = some xi) :
    InRef (5 * δ) s xi ∧ ((s = .pyr → xi.z ≠ 1) → Within s (X s e.verts xi) p (allowed s e t.tol) ∨
      (s = .pyr ∧ Within s (e.verts 4) p (fun _ => tol) ∧ Within s xi ⟨-1, -1, 1⟩ (fun _ => tol))) := by
  obtain ⟨hr, eta, hx, gx, gy, gz⟩ := C36.accepted_exact (newton tol s e) t (by rw [hlo, hhi]; linarith) p start xi h
  rw [hlo, hhi] at gx gy gz
  have hl : (0 : K) < (e.jac.length : K) := by
    have hne : e.jac ≠ [] := by intro hn; rw [hn] at hj; simp at hj
    exact_mod_cast List.length_pos_of_ne_nil hne
  have hm : 0 < meanJac e := div_pos hj hl
  have rel : ∀ f : V3 K, relativeError3d (scalings e) f.x f.y f.z ≤ t.tol → |f.x| ≤ t.tol * (max |e.box 0| |e.box 3| * meanJac e) ∧
      |f.y| ≤ t.tol * (max |e.box 1| |e.box 4| * meanJac e) ∧ |f.z| ≤ t.tol * (max |e.box 2| |e.box 5| * meanJac e) := fun f hf =>
    (C37.residual_bounds_distance e.jac hj e.box hb f.x f.y f.z t.tol).1 hf
  refine ⟨?_, fun hz => ?_⟩
  · cases s with
    | quad =>
      have : xi = ⟨eta.x, eta.y, 0⟩ := hx
      rw [this]
      exact ⟨⟨by dsimp only; linarith [gx.1], by dsimp only; linarith [gx.2]⟩, ⟨by dsimp only; linarith [gy.1], by dsimp only; linarith [gy.2]⟩⟩
    | hex =>
      have : xi = ofTriple (Verif.Model.CoordMap.fromCollapsed3 .hex eta.x eta.y eta.z) := hx
      rw [this]; exact from_collapsed_in δ h0 h1 .hex _ _ _ gx gy gz
    | prism =>
      have : xi = ofTriple (Verif.Model.CoordMap.fromCollapsed3 .prism eta.x eta.y eta.z) := hx
      rw [this]; exact from_collapsed_in δ h0 h1 .prism _ _ _ gx gy gz
    | pyr =>
      have : xi = ofTriple (Verif.Model.CoordMap.fromCollapsed3 .pyr eta.x eta.y eta.z) := hx
      rw [this]; exact from_collapsed_in δ h0 h1 .pyr _ _ _ gx gy gz
    | tet =>
      have : xi = ofTriple (Verif.Model.CoordMap.fromCollapsed3 .tet eta.x eta.y eta.z) := hx
      rw [this]; exact from_collapsed_in δ h0 h1 .tet _ _ _ gx gy gz
  · have hf := newton_f_exact s e.verts xi p hz
    cases s with
    | quad =>
      left
      have hr' : relativeError2d (scalings e) (Quad.newtonF e.verts xi p).x (Quad.newtonF e.verts xi p).y ≤ t.tol := hr
      have hf' : Quad.newtonF e.verts xi p = ⟨(X .quad e.verts xi).x - p.x, (X .quad e.verts xi).y - p.y, 0⟩ := hf
      rw [hf'] at hr'
      have h3 : 0 ≤ t.tol := by
        refine le_trans ?_ hr'
        unfold relativeError2d
        refine le_max_of_le_left (mul_nonneg (abs_nonneg _) ?_)
        exact (C37.scalingDir_pos e.jac _ _ hj (hb 0 (by norm_num))).le
      have := rel ⟨(X .quad e.verts xi).x - p.x, (X .quad e.verts xi).y - p.y, 0⟩ (by
        unfold relativeError3d
        rw [abs_zero, zero_mul]
        exact max_le hr' h3)
      exact ⟨this.1, this.2.1, fun hq => absurd rfl hq⟩
    | hex =>
      left
      have hr' : max (max |(Hex.newtonF e.verts xi p).x| |(Hex.newtonF e.verts xi p).y|) |(Hex.newtonF e.verts xi p).z| * hexScaling e.jac ≤ t.tol := hr
      have hf' : Hex.newtonF e.verts xi p = ⟨(X .hex e.verts xi).x - p.x, (X .hex e.verts xi).y - p.y, (X .hex e.verts xi).z - p.z⟩ := hf
      rw [hf', hexScaling_eq, abs_div, abs_one, mul_one_div, div_le_iff₀ (abs_pos.2 hm.ne')] at hr'
      exact ⟨le_trans (le_trans (le_max_left _ _) (le_max_left _ _)) hr', le_trans (le_trans (le_max_right _ _) (le_max_left _ _)) hr',
        fun _ => le_trans (le_max_right _ _) hr'⟩
    | prism =>
      left
      have hr' : relativeError3d (scalings e) (Prism.newtonF e.verts xi p).x (Prism.newtonF e.verts xi p).y (Prism.newtonF e.verts xi p).z ≤ t.tol := hr
      have hf' : Prism.newtonF e.verts xi p = ⟨(X .prism e.verts xi).x - p.x, (X .prism e.verts xi).y - p.y, (X .prism e.verts xi).z - p.z⟩ := hf
      have := rel _ hr'
      rw [hf'] at this
      exact ⟨this.1, this.2.1, fun _ => this.2.2⟩
    | tet =>
      left
      have hr' : relativeError3d (scalings e) (Tet.newtonF e.verts xi p).x (Tet.newtonF e.verts xi p).y (Tet.newtonF e.verts xi p).z ≤ t.tol := hr
      have hf' : Tet.newtonF e.verts xi p = ⟨(X .tet e.verts xi).x - p.x, (X .tet e.verts xi).y - p.y, (X .tet e.verts xi).z - p.z⟩ := hf
      have := rel _ hr'
      rw [hf'] at this
      exact ⟨this.1, this.2.1, fun _ => this.2.2⟩
    | pyr =>
      have hr' : (if pyrVt tol e.verts p && pyrXt tol xi then ((0 : K), (⟨0, 0, 0⟩ : V3 K)) else (relativeError3d (scalings e) (Pyr.newtonF e.verts xi p).x
        (Pyr.newtonF e.verts xi p).y (Pyr.newtonF e.verts xi p).z, Pyr.newtonF e.verts xi p)).1 ≤ t.tol := hr
      have hf' : Pyr.newtonF e.verts xi p = ⟨(X .pyr e.verts xi).x - p.x, (X .pyr e.verts xi).y - p.y, (X .pyr e.verts xi).z - p.z⟩ := hf
      by_cases hc : (pyrVt tol e.verts p && pyrXt tol xi) = true
      · right
        simp only [pyrVt, pyrXt, Bool.and_eq_true, decide_eq_true_eq] at hc
        exact ⟨rfl, ⟨hc.1.1.1, hc.1.1.2, fun _ => hc.1.2⟩, ⟨hc.2.1.1, hc.2.1.2, fun _ => hc.2.2⟩⟩
      · left
        rw [if_neg hc] at hr'
        have := rel _ hr'
        rw [hf'] at this
        exact ⟨this.1, this.2.1, fun _ => this.2.2⟩

/-! ### The parallelogram -/

/-- **C59, acceptance for parallelograms.** Every point of a parallelogram (a quadrilateral whose diagonals have the same midpoint) is accepted with its exact
reference position, if the starting point is not yet within the tolerance. -/
theorem quad_point_accepted (c : ℕ → V3 K) (hx : (c 0).x + (c 2).x = (c 1).x + (c 3).x) (hy : (c 0).y + (c 2).y = (c 1).y + (c 3).y)
    (hdet : ((c 1).x - (c 0).x) * ((c 3).y - (c 0).y) - ((c 3).x - (c 0).x) * ((c 1).y - (c 0).y) ≠ 0) (sc : V3 K)
    (t : Settings K) (hlo : t.lo ≤ -1) (hhi : 1 ≤ t.hi) (ht : 0 ≤ t.tol) (hn : 1 ≤ t.maxIterations) (start : Option (V3 K)) (a b : K)
    (hw : Verif.Spec.InRef2 0 .quad a b)
    (hstart : t.tol < ((quadImpl c sc).residual (start.getD ⟨0, 0, 0⟩) (X .quad c ⟨a, b, 0⟩)).1) :
    tryCandidate (exactOps K) (quadImpl c sc) t (X .quad c ⟨a, b, 0⟩) start = some ⟨a, b, 0⟩ := by
  have hzero : ((quadImpl c sc).residual ⟨a, b, 0⟩ (X .quad c ⟨a, b, 0⟩)).1 = 0 := by
    have hf' : Quad.newtonF c ⟨a, b, 0⟩ (X .quad c ⟨a, b, 0⟩) = ⟨(X .quad c ⟨a, b, 0⟩).x - (X .quad c ⟨a, b, 0⟩).x,
      (X .quad c ⟨a, b, 0⟩).y - (X .quad c ⟨a, b, 0⟩).y, 0⟩ := newton_f_exact .quad c _ _ (by simp)
    show relativeError2d sc (Quad.newtonF c ⟨a, b, 0⟩ (X .quad c ⟨a, b, 0⟩)).x (Quad.newtonF c ⟨a, b, 0⟩ (X .quad c ⟨a, b, 0⟩)).y = 0
    rw [hf']
    simp [relativeError2d]
  have hnext : C36.next (quadImpl c sc) (X .quad c ⟨a, b, 0⟩) (start.getD ⟨0, 0, 0⟩) = ⟨a, b, 0⟩ := by
    obtain ⟨n1, n2⟩ := C39.one_step_exact_quad c hx hy hdet (start.getD ⟨0, 0, 0⟩) (X .quad c ⟨a, b, 0⟩)
    have e : C36.next (quadImpl c sc) (X .quad c ⟨a, b, 0⟩) (start.getD ⟨0, 0, 0⟩) =
        ⟨(newtonStep .quad c (start.getD ⟨0, 0, 0⟩) (X .quad c ⟨a, b, 0⟩) (newtonF .quad c (start.getD ⟨0, 0, 0⟩) (X .quad c ⟨a, b, 0⟩))).x,
          (newtonStep .quad c (start.getD ⟨0, 0, 0⟩) (X .quad c ⟨a, b, 0⟩) (newtonF .quad c (start.getD ⟨0, 0, 0⟩) (X .quad c ⟨a, b, 0⟩))).y, 0⟩ := rfl
    rw [e]
    revert n1 n2
    generalize newtonStep .quad c (start.getD ⟨0, 0, 0⟩) (X .quad c ⟨a, b, 0⟩) (newtonF .quad c (start.getD ⟨0, 0, 0⟩) (X .quad c ⟨a, b, 0⟩)) = w
    intro n1 n2
    obtain ⟨w0, w1, w2⟩ := w
    simp only [X, weights, weightedFrom] at n1 n2
    have m1 : (w0 - a) * ((c 1).x - (c 0).x) + (w1 - b) * ((c 3).x - (c 0).x) = 0 := by
      linear_combination 2 * n1 - (w0 * w1 - a * b + w0 + w1 - a - b) / 2 * hx
    have m2 : (w0 - a) * ((c 1).y - (c 0).y) + (w1 - b) * ((c 3).y - (c 0).y) = 0 := by
      linear_combination 2 * n2 - (w0 * w1 - a * b + w0 + w1 - a - b) / 2 * hy
    have k0 : (w0 - a) * (((c 1).x - (c 0).x) * ((c 3).y - (c 0).y) - ((c 3).x - (c 0).x) * ((c 1).y - (c 0).y)) = 0 := by
      linear_combination ((c 3).y - (c 0).y) * m1 - ((c 3).x - (c 0).x) * m2
    have k1 : (w1 - b) * (((c 1).x - (c 0).x) * ((c 3).y - (c 0).y) - ((c 3).x - (c 0).x) * ((c 1).y - (c 0).y)) = 0 := by
      linear_combination ((c 1).x - (c 0).x) * m2 - ((c 1).y - (c 0).y) * m1
    have z0 := (mul_eq_zero.1 k0).resolve_right hdet
    have z1 := (mul_eq_zero.1 k1).resolve_right hdet
    simp only [V3.mk.injEq, and_true]
    exact ⟨sub_eq_zero.1 z0, sub_eq_zero.1 z1⟩
  have hi := C39.inverse_of_one_step (quadImpl c sc) (X .quad c ⟨a, b, 0⟩) t.maxIterations hn t.tol ht start ⟨a, b, 0⟩ hnext hzero
  rw [show (quadImpl c sc).initial (X .quad c ⟨a, b, 0⟩) = ⟨0, 0, 0⟩ from rfl, if_pos hstart] at hi
  simp only [Verif.Spec.InRef2, sub_zero, add_zero] at hw
  refine C39.accept_of_inverse _ t hlo hhi _ start ⟨a, b, 0⟩ hi ?_ rfl (by rw [hzero]; exact ht)
  exact ⟨hw.1, hw.2, by unfold Verif.Spec.InUnit; simp [quadImpl]⟩

/-! ### Examples -/

/-- A tetrahedron with its Jacobian and its box. -/
def exElement : Element ℚ := ⟨C39.exTet, [3 / 2], fun i => [0, 0, 0, 3, 2, 4].getD i 0⟩

/-- The point with the reference position `(-1/2, -1/2, -1/2)` is accepted; all hypotheses hold. -/
example : 0 < exElement.jac.sum ∧ (∀ d < 3, exElement.box d ≠ 0 ∨ exElement.box (d + 3) ≠ 0) ∧
    (tryCandidate (exactOps ℚ) (newton (1 / 1000000000000) .tet exElement) ⟨1 / 10000000000, 1, 1 + 1 / 100000000, -1 - 1 / 100000000⟩
      (X .tet C39.exTet ⟨-1 / 2, -1 / 2, -1 / 2⟩) none).map (fun v => (v.x, v.y, v.z)) = some (-1 / 2, -1 / 2, -1 / 2) := by
  refine ⟨by decide +kernel, by decide +kernel, by decide +kernel⟩

/-- A parallelogram; the point of reference position `(1/2, -1/2)` is accepted. -/
example : (tryCandidate (exactOps ℚ) (quadImpl (fun k => ([⟨0, 0, 0⟩, ⟨2, 1, 0⟩, ⟨3, 3, 0⟩, ⟨1, 2, 0⟩] : List (V3 ℚ)).getD k ⟨0, 0, 0⟩) ⟨1, 1, 1⟩) ⟨1 / 10000000000, 1, 1, -1⟩
      ⟨7 / 4, 5 / 4, 0⟩ none).map (fun v => (v.x, v.y, v.z)) = some (1 / 2, -1 / 2, 0) := by decide +kernel

end Verif.Props.C59
