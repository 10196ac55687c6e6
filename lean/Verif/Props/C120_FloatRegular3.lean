import Verif.Lemmas.FloatRegular3Collapse

/-!
# C120: the test of regular elements in three dimensions in floating point arithmetic

As C107 in three dimensions: affine hexahedra, prisms, pyramids and tetrahedra, with rounding errors.
-/

namespace Verif.Props.C120
open Verif.Spec (Shape3 InRef3)
open Verif.Spec.Rounding Verif.Model Verif.Model.NewtonKernel Verif.Model.FloatExpr Verif.Model.FloatRegular3
open Verif.Model.RegularMap (indexV)
open Verif.Lemmas.FloatExpr Verif.Lemmas.FloatRegular3
open Verif.Spec.LinearElements (V3.get)
open Verif.Props.C39 (AffineImage)
open Verif.Props.C40 (InElement3 shape)

variable {rnd : ℝ → ℝ} {A : Matrix (Fin 3) (Fin 3) ℝ} {b : Fin 3 → ℝ} {c : ℕ → V3 ℝ} {L : ℝ} {p : V3 ℝ} {s : Shape3}

/-- The vertices that are used: the first one and its neighbours in the three directions. -/
def vert (s : Shape3) (c : ℕ → V3 ℝ) (k : ℕ) : V3 ℝ := c ((indexV s).getD k 0)

/-- The element and the position are in a box of side `L` around the first vertex, of a size far from underflow and overflow. -/
structure Size (L : ℝ) (s : Shape3) (c : ℕ → V3 ℝ) (p : V3 ℝ) : Prop where
  low : (2 : ℝ) ^ (-300 : ℤ) ≤ L
  high : L ≤ 2 ^ 300
  edge1 : Within L (vert s c 1) (vert s c 0)
  edge2 : Within L (vert s c 2) (vert s c 0)
  edge3 : Within L (vert s c 3) (vert s c 0)
  pos : Within L p (vert s c 0)

/-- The error of an operation relative to the shape of the element: about 5e-16 for a cube. `8 |det A|` is the volume of the parallelepiped that the edges span. -/
noncomputable def relError (L : ℝ) (A : Matrix (Fin 3) (Fin 3) ℝ) : ℝ := L ^ 3 / (2 ^ 51 * (8 * |A.det|))

/-- A run of the test for the element with the vertices `c`. -/
def RunOn (rnd : ℝ → ℝ) (tol0 : ℝ) (code : Shape3 → ℤ) (s : Shape3) (c : ℕ → V3 ℝ) (p x e : V3 ℝ) : Prop :=
  Run rnd tol0 code (code s) (vert s c 0) (vert s c 1) (vert s c 2) (vert s c 3) p x e

/-- The triple product of the edges. -/
noncomputable def volume (s : Shape3) (c : ℕ → V3 ℝ) : ℝ :=
  NewtonElements.dot (NewtonElements.sub (vert s c 3) (vert s c 0)) (NewtonElements.cross (NewtonElements.sub (vert s c 1) (vert s c 0)) (NewtonElements.sub (vert s c 2) (vert s c 0)))

theorem volume_eq (h : AffineImage (shape s) A b c) : volume s c = 8 * A.det := by
  have e0 : c ((indexV s).getD 0 0) = _ := Verif.Props.C39.components (h ((indexV s).getD 0 0) ⟨-1, -1, -1⟩ (by cases s <;> rfl))
  have e1 : c ((indexV s).getD 1 0) = _ := Verif.Props.C39.components (h ((indexV s).getD 1 0) ⟨1, -1, -1⟩ (by cases s <;> rfl))
  have e2 : c ((indexV s).getD 2 0) = _ := Verif.Props.C39.components (h ((indexV s).getD 2 0) ⟨-1, 1, -1⟩ (by cases s <;> rfl))
  have e3 : c ((indexV s).getD 3 0) = _ := Verif.Props.C39.components (h ((indexV s).getD 3 0) ⟨-1, -1, 1⟩ (by cases s <;> rfl))
  unfold volume vert
  rw [e0, e1, e2, e3, Matrix.det_fin_three]
  simp only [NewtonElements.dot, NewtonElements.sub, NewtonElements.cross]
  ring

/-- What all theorems use. -/
theorem facts (R : Rounding 53 (-1074) rnd) (hs : Size L s c p) (h : AffineImage (shape s) A b c) (hdet : A.det ≠ 0) :
    volume s c ≠ 0 ∧ |volume s c| ≤ 2 ^ 990 ∧ w * L ^ 3 = relError L A * |volume s c| ∧ w ≤ 6 * relError L A := by
  have hv := volume_eq h
  have hne : volume s c ≠ 0 := by rw [hv]; exact mul_ne_zero (by norm_num) hdet
  have hp : 0 < |volume s c| := abs_pos.2 hne
  have hle : |volume s c| ≤ 6 * L ^ 3 := (triple_acc R hs.low hs.edge3 hs.edge1 hs.edge2).2.1
  have hL : 0 < L := lt_of_lt_of_le (Verif.Lemmas.Rounding.two_pos _) hs.low
  have e : w * L ^ 3 = relError L A * |volume s c| := by
    unfold relError w
    rw [hv, abs_mul, show |(8 : ℝ)| = 8 by norm_num]
    have : |A.det| ≠ 0 := abs_ne_zero.2 hdet
    field_simp
  refine ⟨hne, ?_, e, ?_⟩
  · have h3 : L ^ 3 ≤ (2 ^ 300) ^ 3 := pow_le_pow_left₀ hL.le hs.high 3
    have h4 : (6 : ℝ) * (2 ^ 300) ^ 3 ≤ 2 ^ 990 := by
      rw [← pow_mul, show 990 = 300 * 3 + 90 by norm_num, pow_add, mul_comm]
      exact mul_le_mul_of_nonneg_left (by norm_num) (by positivity)
    exact hle.trans ((mul_le_mul_of_nonneg_left h3 (by norm_num)).trans h4)
  · have h1 : w * |volume s c| ≤ 6 * relError L A * |volume s c| := by
      have := mul_le_mul_of_nonneg_left hle w_pos.le
      linarith
    exact le_of_mul_le_mul_right h1 hp

theorem relError_pos (R : Rounding 53 (-1074) rnd) (hs : Size L s c p) (h : AffineImage (shape s) A b c) (hdet : A.det ≠ 0) : 0 < relError L A := by
  have := (facts R hs h hdet).2.2.2
  linarith [w_pos]

/-- **C120** (local coordinates). If `a` are the local coordinates of the position, then the computed ones differ from them by at most `(130 |1 + a| + 220)` relative errors, whatever is fused. -/
theorem local_coordinates (R : Rounding 53 (-1074) rnd) (hs : Size L s c p) (h : AffineImage (shape s) A b c) (hdet : A.det ≠ 0) (ht : relError L A ≤ 1 / 100000) {a : V3 ℝ}
    (hp : V3.get p = A.mulVec (V3.get a) + b) {tol0 : ℝ} {code : Shape3 → ℤ} {x e : V3 ℝ} (hr : RunOn rnd tol0 code s c p x e) :
    |x.x - a.x| ≤ (130 * |1 + a.x| + 220) * relError L A ∧ |x.y - a.y| ≤ (130 * |1 + a.y| + 220) * relError L A ∧ |x.z - a.z| ≤ (130 * |1 + a.z| + 220) * relError L A := by
  obtain ⟨hne, hb, he, hw⟩ := facts R hs h hdet
  have hx := (Verif.Props.C40.xi3_iff s h hdet a p).2 hp
  have e1 := congrArg V3.x hx
  have e2 := congrArg V3.y hx
  have e3 := congrArg V3.z hx
  have conv : ∀ n α : ℝ, n * (2 / volume s c) - 1 = α → n = (1 + α) / 2 * volume s c := by
    intro n α hn
    rw [← hn]
    field_simp
    ring
  obtain ⟨⟨r1, r2, r3⟩, -⟩ := hr
  have hD : ∀ r y, Res rnd (vol (vert s c 0) (vert s c 1) (vert s c 2) (vert s c 3)) r y → |y - volume s c| ≤ 96 * (relError L A * |volume s c|) := by
    intro r y hy
    rw [← he]
    exact (triple_err R hs.low hs.edge3 hs.edge1 hs.edge2 hy).1
  refine ⟨local_err R hne hb ht hw hD ?_ r1, local_err R hne hb ht hw hD ?_ r2, local_err R hne hb ht hw hD ?_ r3⟩
  · intro r y hy
    rw [← he, ← conv _ _ e1]
    exact (triple_err R hs.low hs.pos hs.edge2 hs.edge3 hy).1
  · intro r y hy
    rw [← he, ← conv _ _ e2]
    exact (triple_err R hs.low hs.pos hs.edge3 hs.edge1 hy).1
  · intro r y hy
    rw [← he, ← conv _ _ e3]
    exact (triple_err R hs.low hs.pos hs.edge1 hs.edge2 hy).1

/-- The collapsed coordinates that are used for a shape. -/
theorem eta_shape (tol0 : ℝ) (code : Shape3 → ℤ) (hcode : Function.Injective code) (s : Shape3) (x : V3 ℝ) :
    eta rnd tol0 code (code s) x = match s with
      | .tet => ⟨collapse2 x.x (CoordMap.zeroGuard tol0 (rnd (-x.y - x.z))), collapse x.y (CoordMap.zeroGuard tol0 (rnd (1 - x.z))), lit x.z⟩
      | .pyr => ⟨collapse x.x (CoordMap.zeroGuard tol0 (rnd (1 - x.z))), collapse x.y (CoordMap.zeroGuard tol0 (rnd (1 - x.z))), lit x.z⟩
      | .prism => ⟨collapse x.x (CoordMap.zeroGuard tol0 (rnd (1 - x.z))), lit x.y, lit x.z⟩
      | .hex => ⟨lit x.x, lit x.y, lit x.z⟩ := by
  unfold eta
  cases s <;> simp [hcode.eq_iff]

theorem accept_iff {ktol : ℝ} (hk : 0 ≤ ktol) (x e : V3 ℝ) : accept rnd ktol x e = some x ↔
    ((e.x < -1 → rnd (-1 - e.x) ≤ ktol) ∧ (e.x > 1 → rnd (e.x - 1) ≤ ktol)) ∧ ((e.y < -1 → rnd (-1 - e.y) ≤ ktol) ∧ (e.y > 1 → rnd (e.y - 1) ≤ ktol)) ∧
      (e.z < -1 → rnd (-1 - e.z) ≤ ktol) ∧ (e.z > 1 → rnd (e.z - 1) ≤ ktol) := by
  unfold accept
  have := excess_le (rnd := rnd) [e.x, e.y, e.z] ktol hk
  simp only [List.forall_mem_cons, List.not_mem_nil, false_imp_iff, implies_true, and_true] at this
  rw [← this]
  split_ifs with h
  · simp [h]
  · simp [h]

theorem close {a x t : ℝ} (h1 : -1 ≤ a) (h2 : a ≤ 1) (ht : 0 < t) (h : |x - a| ≤ (130 * |1 + a| + 220) * t) : |x - a| ≤ 480 * t := by
  refine h.trans (mul_le_mul_of_nonneg_right ?_ ht.le)
  rw [abs_of_nonneg (by linarith)]
  linarith

/-- **C120** (hexahedra). Every point of an affine hexahedron is accepted, however products are fused, if the tolerance is large enough for the shape. -/
theorem hex_found (R : Rounding 53 (-1074) rnd) (hs : Size L .hex c p) (h : AffineImage (shape .hex) A b c) (hdet : A.det ≠ 0) {tol0 ktol : ℝ} (hk : IsFloat 53 (-1074) ktol) (hk1 : ktol ≤ 1 / 1000)
    (hshape : 500 * relError L A ≤ ktol) (code : Shape3 → ℤ) (hcode : Function.Injective code) (hin : InElement3 0 .hex A b p) {x e : V3 ℝ} (hr : RunOn rnd tol0 code .hex c p x e) :
    accept rnd ktol x e = some x := by
  obtain ⟨a, ⟨⟨x1, x2⟩, ⟨y1, y2⟩, z1, z2⟩, hp⟩ := hin
  have ht := relError_pos R hs h hdet
  obtain ⟨g1, g2, g3⟩ := local_coordinates R hs h hdet (by linarith) hp hr
  have k1 := abs_le.1 (close (by linarith) (by linarith) ht g1)
  have k2 := abs_le.1 (close (by linarith) (by linarith) ht g2)
  have k3 := abs_le.1 (close (by linarith) (by linarith) ht g3)
  obtain ⟨-, r1, r2, r3⟩ := hr
  rw [eta_shape tol0 code hcode .hex x] at r1 r2 r3
  rw [accept_iff (by linarith), res_lit r1, res_lit r2, res_lit r3]
  exact ⟨bound_to R hk (by linarith [k1.1]) (by linarith [k1.2]), bound_to R hk (by linarith [k2.1]) (by linarith [k2.2]), bound_to R hk (by linarith [k3.1]) (by linarith [k3.2])⟩

/-- How far a point is from the edge or vertex at which the coordinates are singular. -/
def Apart (n : ℝ) : Shape3 → V3 ℝ → Prop
  | .hex, _ => True
  | .prism, a => n ≤ 1 - a.z
  | .pyr, a => n ≤ 1 - a.z
  | .tet, a => n ≤ 1 - a.z ∧ n ≤ -a.y - a.z

/-- **C120** (all shapes, in part). A point of an affine element is accepted, however products are fused, if the tolerance is large enough for the shape and for the distance `n` from the singular edge or vertex. Missing: points
near that edge or vertex. -/
theorem found_partial (R : Rounding 53 (-1074) rnd) (hs : Size L s c p) (h : AffineImage (shape s) A b c) (hdet : A.det ≠ 0) {tol0 ktol n : ℝ} (hk : IsFloat 53 (-1074) ktol) (hk1 : ktol ≤ 1 / 1000)
    (h0 : tiny ≤ tol0) (hn : 0 < n) (hn2 : n ≤ 2) (htol0 : tol0 ≤ n / 2) (hshape : 4000 * relError L A ≤ ktol * n) (code : Shape3 → ℤ) (hcode : Function.Injective code) {a : V3 ℝ} (hin : InRef3 0 s a.x a.y a.z)
    (hap : Apart n s a) (hp : V3.get p = A.mulVec (V3.get a) + b) {x e : V3 ℝ} (hr : RunOn rnd tol0 code s c p x e) : accept rnd ktol x e = some x := by
  have ht := relError_pos R hs h hdet
  have hw := (facts R hs h hdet).2.2.2
  have hkn : ktol * n ≤ 1 / 1000 * n := mul_le_mul_of_nonneg_right hk1 hn.le
  have hk0 : 0 < ktol := by
    by_contra hc
    push Not at hc
    nlinarith
  have hk2 : ktol * n ≤ 2 * ktol := by nlinarith
  have hT : 4000 * relError L A / n ≤ ktol := by rw [div_le_iff₀ hn]; exact hshape
  obtain ⟨g1, g2, g3⟩ := local_coordinates R hs h hdet (by linarith) hp hr
  have htp : 0 < tol0 := tiny_pos.trans_le h0
  set t := relError L A with htd
  have range : (-1 ≤ a.x ∧ a.x ≤ 1) ∧ (-1 ≤ a.y ∧ a.y ≤ 1) ∧ (-1 ≤ a.z ∧ a.z ≤ 1) := by
    cases s with
    | hex => obtain ⟨⟨x1, x2⟩, ⟨y1, y2⟩, z1, z2⟩ := hin; exact ⟨⟨by linarith, by linarith⟩, ⟨by linarith, by linarith⟩, by linarith, by linarith⟩
    | prism => obtain ⟨x1, ⟨y1, y2⟩, z1, z2⟩ := hin; exact ⟨⟨by linarith, by linarith⟩, ⟨by linarith, by linarith⟩, by linarith, by linarith⟩
    | pyr => obtain ⟨x1, y1, z1, z2, z3⟩ := hin; exact ⟨⟨by linarith, by linarith⟩, ⟨by linarith, by linarith⟩, by linarith, by linarith⟩
    | tet => obtain ⟨x1, y1, z1, z2⟩ := hin; exact ⟨⟨by linarith, by linarith⟩, ⟨by linarith, by linarith⟩, by linarith, by linarith⟩
  obtain ⟨⟨ax1, ax2⟩, ⟨ay1, ay2⟩, az1, az2⟩ := range
  have c1 := close ax1 ax2 ht g1
  have c2 := close ay1 ay2 ht g2
  have c3 := close az1 az2 ht g3
  have k1 := abs_le.1 c1
  have k2 := abs_le.1 c2
  have k3 := abs_le.1 c3
  have hz := bound_to R hk (e := x.z) (by linarith [k3.1]) (by linarith [k3.2])
  have hd : |1 - x.z - (1 - a.z)| ≤ 1000 * t := abs_le.2 ⟨by linarith [k3.2], by linarith [k3.1]⟩
  have hrd : |rnd (1 - x.z)| ≤ 6 := by
    have := round_one R (1 - x.z)
    have hz' : |1 - x.z| ≤ 3 := abs_le.2 ⟨by linarith [k3.2], by linarith [k3.1]⟩
    have h2 := abs_sub_le (rnd (1 - x.z)) (1 - x.z) 0
    rw [sub_zero, sub_zero] at h2
    nlinarith [w_le, w_pos, abs_nonneg (1 - x.z)]
  have hgu := guard_abs (tol0 := tol0) (d := rnd (1 - x.z)) htp
  have hgt : tiny ≤ |CoordMap.zeroGuard tol0 (rnd (1 - x.z))| := h0.trans hgu.1
  have hg7 : |CoordMap.zeroGuard tol0 (rnd (1 - x.z))| ≤ 7 := by linarith [hgu.2]
  -- a coordinate that is divided by the height
  have one : ∀ α ξ ε : ℝ, -1 ≤ α → α + a.z ≤ 0 → n ≤ 1 - a.z → |ξ - α| ≤ 480 * t → Res rnd (collapse ξ (CoordMap.zeroGuard tol0 (rnd (1 - x.z)))) false ε →
      (ε < -1 → rnd (-1 - ε) ≤ ktol) ∧ (ε > 1 → rnd (ε - 1) ≤ ktol) := by
    intro α ξ ε h1 h2 h3 h4 h5
    have := to_collapsed R (Y := 1 + α) (D := 1 - a.z) (d := 1 - x.z) (x := ξ) (c := ε) (n := n) (t := t) htp ht hw hn hn2 (by linarith) (by linarith) h3 (by linarith) (by linarith)
      (by rw [show 1 + ξ - (1 + α) = ξ - α by ring]; linarith) hd htol0 (collapse_err R hgt hg7 h5).2
    exact bound_to R hk (by linarith [this.1]) (by linarith [this.2])
  obtain ⟨-, r1, r2, r3⟩ := hr
  rw [eta_shape tol0 code hcode s x] at r1 r2 r3
  rw [accept_iff hk0.le]
  cases s with
  | hex =>
    rw [res_lit r1, res_lit r2, res_lit r3]
    exact ⟨bound_to R hk (by linarith [k1.1]) (by linarith [k1.2]), bound_to R hk (by linarith [k2.1]) (by linarith [k2.2]), hz⟩
  | prism =>
    obtain ⟨x1, ⟨y1, y2⟩, z1, z2⟩ := hin
    rw [res_lit r2, res_lit r3]
    exact ⟨one _ _ _ ax1 z2 hap c1 r1, bound_to R hk (by linarith [k2.1]) (by linarith [k2.2]), hz⟩
  | pyr =>
    obtain ⟨x1, y1, z1, z2, z3⟩ := hin
    rw [res_lit r3]
    exact ⟨one _ _ _ ax1 z2 hap c1 r1, one _ _ _ ay1 z3 hap c2 r2, hz⟩
  | tet =>
    obtain ⟨x1, y1, z1, z2⟩ := hin
    obtain ⟨hap1, hap2⟩ := hap
    rw [res_lit r3]
    refine ⟨?_, one _ _ _ ay1 (by linarith) hap1 c2 r2, hz⟩
    have hgu2 := guard_abs (tol0 := tol0) (d := rnd (-x.y - x.z)) htp
    have := to_collapsed R (Y := 1 + a.x) (D := -a.y - a.z) (d := -x.y - x.z) (x := x.x) (c := e.x) (n := n) (t := t) htp ht hw hn hn2 (by linarith) (by linarith) hap2 (by linarith) (by linarith)
      (by rw [show 1 + x.x - (1 + a.x) = x.x - a.x by ring]; linarith) (abs_le.2 ⟨by linarith [k2.2, k3.2], by linarith [k2.1, k3.1]⟩) htol0 (collapse2_err R (h0.trans hgu2.1) r1).2
    exact bound_to R hk (by linarith [this.1]) (by linarith [this.2])

/-- Local coordinates that are accepted, in terms of the local coordinates that were computed. -/
theorem accepted_computed (R : Rounding 53 (-1074) rnd) {tol0 ktol : ℝ} (h0 : tiny ≤ tol0) (h1 : tol0 ≤ 1 / 1000) (hk0 : 0 ≤ ktol) (hk1 : ktol ≤ 1 / 1000) (code : Shape3 → ℤ) (hcode : Function.Injective code) {x e : V3 ℝ}
    (hr : Res rnd (eta rnd tol0 code (code s) x).x false e.x ∧ Res rnd (eta rnd tol0 code (code s) x).y false e.y ∧ Res rnd (eta rnd tol0 code (code s) x).z false e.z)
    (ha : accept rnd ktol x e = some x) : InRef3 (25 * (ktol + tol0) + 900 * w) s x.x x.y x.z := by
  have hw0 := w_pos
  have hw1 := w_le
  have htp : 0 < tol0 := tiny_pos.trans_le h0
  rw [accept_iff hk0] at ha
  obtain ⟨a1, a2, a3⟩ := ha
  have b1 := bound_of R hk0 hk1 a1
  have b2 := bound_of R hk0 hk1 a2
  have b3 := bound_of R hk0 hk1 a3
  rw [eta_shape tol0 code hcode s x] at hr
  obtain ⟨r1, r2, r3⟩ := hr
  have hz : e.z = x.z := by cases s <;> exact res_lit r3
  rw [hz] at b3
  set α := ktol + tol0 + 30 * w with hα
  have hrd : |rnd (1 - x.z)| ≤ 6 := by
    have := round_one R (1 - x.z)
    have hz' : |1 - x.z| ≤ 3 := abs_le.2 ⟨by linarith [b3.2], by linarith [b3.1]⟩
    have h2 := abs_sub_le (rnd (1 - x.z)) (1 - x.z) 0
    rw [sub_zero, sub_zero] at h2
    nlinarith [abs_nonneg (1 - x.z)]
  have hgu := guard_abs (tol0 := tol0) (d := rnd (1 - x.z)) htp
  have hgt : tiny ≤ |CoordMap.zeroGuard tol0 (rnd (1 - x.z))| := h0.trans hgu.1
  have hg7 : |CoordMap.zeroGuard tol0 (rnd (1 - x.z))| ≤ 7 := by linarith [hgu.2]
  have one : ∀ ξ ε : ℝ, (-1 - (ktol + 2 * w) ≤ ε ∧ ε ≤ 1 + (ktol + 2 * w)) → Res rnd (collapse ξ (CoordMap.zeroGuard tol0 (rnd (1 - x.z)))) false ε →
      -(4 * α) - 9 * w ≤ 1 + ξ ∧ 1 + ξ ≤ 1 - x.z + 5 * α + 15 * w := by
    intro ξ ε hb hres
    exact from_collapsed R (k := ktol) (d := 1 - x.z) htp hk0 (by linarith) (by linarith) (by linarith) (by linarith [b3.2]) (by linarith [b3.1])
      ((collapse_err R hgt hg7 hres).1 (abs_le.2 ⟨by linarith [hb.1], by linarith [hb.2]⟩)) hb.1 hb.2
  cases s with
  | hex =>
    rw [res_lit r1] at b1
    rw [res_lit r2] at b2
    exact ⟨⟨by linarith [b1.1], by linarith [b1.2]⟩, ⟨by linarith [b2.1], by linarith [b2.2]⟩, by linarith [b3.1], by linarith [b3.2]⟩
  | prism =>
    rw [res_lit r2] at b2
    have k := one _ _ b1 r1
    exact ⟨by linarith [k.1], ⟨by linarith [b2.1], by linarith [b2.2]⟩, by linarith [b3.1], by linarith [k.2]⟩
  | pyr =>
    have k := one _ _ b1 r1
    have l := one _ _ b2 r2
    exact ⟨by linarith [k.1], by linarith [l.1], by linarith [b3.1], by linarith [k.2], by linarith [l.2]⟩
  | tet =>
    have l := one _ _ b2 r2
    have hgu2 := guard_abs (tol0 := tol0) (d := rnd (-x.y - x.z)) htp
    have k := from_collapsed R (k := ktol) (a := 5 * α + 24 * w) (d := -x.y - x.z) htp hk0 (by linarith) (by linarith) (by linarith) (by linarith [l.2]) (by linarith [l.1, b3.1])
      ((collapse2_err R (h0.trans hgu2.1) r1).1 (abs_le.2 ⟨by linarith [b1.1], by linarith [b1.2]⟩)) b1.1 b1.2
    exact ⟨by linarith [k.1], by linarith [l.1], by linarith [b3.1], by linarith [k.2]⟩

/-- **C120** (what is stored). If a position is accepted, then the stored reference position is that of the particle up to the rounding errors, and the particle is in the element up to the tolerances and the rounding errors. -/
theorem accepted (R : Rounding 53 (-1074) rnd) (hs : Size L s c p) (h : AffineImage (shape s) A b c) (hdet : A.det ≠ 0) (ht : relError L A ≤ 1 / 100000) {tol0 ktol : ℝ} (h0 : tiny ≤ tol0) (h1 : tol0 ≤ 1 / 1000)
    (hk0 : 0 ≤ ktol) (hk1 : ktol ≤ 1 / 1000) (code : Shape3 → ℤ) (hcode : Function.Injective code) {x e : V3 ℝ} (hr : RunOn rnd tol0 code s c p x e) (ha : accept rnd ktol x e = some x) :
    ∃ a : V3 ℝ, V3.get p = A.mulVec (V3.get a) + b ∧ |x.x - a.x| ≤ 530 * relError L A ∧ |x.y - a.y| ≤ 530 * relError L A ∧ |x.z - a.z| ≤ 530 * relError L A ∧
      InRef3 (25 * (ktol + tol0) + 7000 * relError L A) s a.x a.y a.z := by
  have htp := relError_pos R hs h hdet
  have hw := (facts R hs h hdet).2.2.2
  have hw1 := w_le
  have hx := accepted_computed R h0 h1 hk0 hk1 code hcode hr.2 ha
  obtain ⟨a, hp⟩ : ∃ a : V3 ℝ, V3.get p = A.mulVec (V3.get a) + b := ⟨_, (Verif.Props.C40.xi3_iff s h hdet _ p).1 rfl⟩
  obtain ⟨g1, g2, g3⟩ := local_coordinates R hs h hdet ht hp hr
  set t := relError L A with htd
  have key : ∀ ξ α : ℝ, |ξ - α| ≤ (130 * |1 + α| + 220) * t → -1 - 1 / 10 ≤ ξ → ξ ≤ 1 + 3 / 10 → |ξ - α| ≤ 530 * t := by
    intro ξ α hh l1 l2
    have b1 : |1 + α| ≤ 231 / 100 := by
      have h3 := abs_sub_le (1 + α) (1 + ξ) 0
      rw [sub_zero, sub_zero, show 1 + α - (1 + ξ) = α - ξ by ring, abs_sub_comm] at h3
      have h4 : |1 + ξ| ≤ 23 / 10 := abs_le.2 ⟨by linarith, by linarith⟩
      nlinarith [abs_nonneg (1 + α)]
    exact hh.trans (mul_le_mul_of_nonneg_right (by linarith) htp.le)
  have tol : 25 * (ktol + tol0) + 900 * w ≤ 1 / 10 := by linarith
  have done : ∀ (hb : (-1 - 1 / 10 ≤ x.x ∧ x.x ≤ 1 + 3 / 10) ∧ (-1 - 1 / 10 ≤ x.y ∧ x.y ≤ 1 + 3 / 10) ∧ (-1 - 1 / 10 ≤ x.z ∧ x.z ≤ 1 + 3 / 10)),
      |x.x - a.x| ≤ 530 * t ∧ |x.y - a.y| ≤ 530 * t ∧ |x.z - a.z| ≤ 530 * t := fun hb =>
    ⟨key _ _ g1 hb.1.1 hb.1.2, key _ _ g2 hb.2.1.1 hb.2.1.2, key _ _ g3 hb.2.2.1 hb.2.2.2⟩
  have hc : |x.x - a.x| ≤ 530 * t ∧ |x.y - a.y| ≤ 530 * t ∧ |x.z - a.z| ≤ 530 * t := by
    refine done ?_
    cases s with
    | hex => obtain ⟨⟨x1, x2⟩, ⟨y1, y2⟩, z1, z2⟩ := hx; exact ⟨⟨by linarith, by linarith⟩, ⟨by linarith, by linarith⟩, by linarith, by linarith⟩
    | prism => obtain ⟨x1, ⟨y1, y2⟩, z1, z2⟩ := hx; exact ⟨⟨by linarith, by linarith⟩, ⟨by linarith, by linarith⟩, by linarith, by linarith⟩
    | pyr => obtain ⟨x1, y1, z1, z2, z3⟩ := hx; exact ⟨⟨by linarith, by linarith⟩, ⟨by linarith, by linarith⟩, by linarith, by linarith⟩
    | tet => obtain ⟨x1, y1, z1, z2⟩ := hx; exact ⟨⟨by linarith, by linarith⟩, ⟨by linarith, by linarith⟩, by linarith, by linarith⟩
  refine ⟨a, hp, hc.1, hc.2.1, hc.2.2, ?_⟩
  obtain ⟨⟨u1, u2⟩, ⟨v1, v2⟩, w1, w2⟩ := And.intro (abs_le.1 hc.1) (And.intro (abs_le.1 hc.2.1) (abs_le.1 hc.2.2))
  cases s with
  | hex => obtain ⟨⟨x1, x2⟩, ⟨y1, y2⟩, z1, z2⟩ := hx; exact ⟨⟨by linarith, by linarith⟩, ⟨by linarith, by linarith⟩, by linarith, by linarith⟩
  | prism => obtain ⟨x1, ⟨y1, y2⟩, z1, z2⟩ := hx; exact ⟨by linarith, ⟨by linarith, by linarith⟩, by linarith, by linarith⟩
  | pyr => obtain ⟨x1, y1, z1, z2, z3⟩ := hx; exact ⟨by linarith, by linarith, by linarith, by linarith, by linarith⟩
  | tet => obtain ⟨x1, y1, z1, z2⟩ := hx; exact ⟨by linarith, by linarith, by linarith, by linarith⟩

end Verif.Props.C120
