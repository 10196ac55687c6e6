import Verif.Lemmas.FloatRegular
import Verif.Lemmas.FloatRegularLost
import Verif.Props.C40_Regular
import Verif.Props.C94_Mappers
import Verif.Props.C106_FloatBoris

/-!
# C107: the test of regular elements of the plane in floating point arithmetic

In every step each particle is searched for with the test of C40, computed with rounding errors. Users rely on every particle in the mesh being found, since a particle that is found in no
element stops the program, and on the stored reference position.
-/

namespace Verif.Props.C107
open Verif.Spec (Shape2 InRef2)
open Verif.Spec.Rounding Verif.Spec.FloatBary Verif.Model Verif.Model.FloatBoris Verif.Model.FloatRegular Verif.Model.RegularMap Verif.Lemmas.RoundingModes
open Verif.Lemmas.Rounding (rnd_zero two_pos)
open Verif.Lemmas.FloatBoris Verif.Lemmas.FloatRegular Verif.Props.C40
open Verif.Props.C106 (unit unit_pos unit_le err)

variable {rnd : ℝ → ℝ}

/-- The longer side of the bounding box of a parallelogram; at least that of a triangle. -/
noncomputable def side (s : Shape2) (c : ℕ → NewtonKernel.V3 ℝ) : ℝ :=
  max (|(c 1).x - (c 0).x| + |(c (lastPoint s)).x - (c 0).x|) (|(c 1).y - (c 0).y| + |(c (lastPoint s)).y - (c 0).y|)

/-- The area of a parallelogram, twice the area of a triangle. -/
noncomputable def area (s : Shape2) (c : ℕ → NewtonKernel.V3 ℝ) : ℝ :=
  |((c 1).x - (c 0).x) * ((c (lastPoint s)).y - (c 0).y) - ((c 1).y - (c 0).y) * ((c (lastPoint s)).x - (c 0).x)|

/-- The error of an operation relative to the shape of the element: about 1e-15 for a square. -/
noncomputable def relError (s : Shape2) (c : ℕ → NewtonKernel.V3 ℝ) : ℝ := unit * side s c ^ 2 / area s c

open Verif.Spec.Embedded Verif.Spec.LinearElements in
theorem offset (s : Shape2) (c : ℕ → NewtonKernel.V3 ℝ) (h : Regular2 s c) {a b p0 p1 : ℝ} (hp : point2 s c a b = (p0, p1)) :
    p0 - (c 0).x = (1 + a) / 2 * ((c 1).x - (c 0).x) + (1 + b) / 2 * ((c (lastPoint s)).x - (c 0).x) ∧
    p1 - (c 0).y = (1 + a) / 2 * ((c 1).y - (c 0).y) + (1 + b) / 2 * ((c (lastPoint s)).y - (c 0).y) := by
  obtain ⟨hd, hq⟩ := h
  rw [show p0 = (point2 s c a b).1 by rw [hp], show p1 = (point2 s c a b).2 by rw [hp]]
  cases s with
  | tri =>
    simp only [point2, triPoint, weightedFrom, lastPoint]
    constructor <;> ring
  | quad =>
    obtain ⟨h1, h2⟩ := hq rfl
    simp only [point2, quadPoint, X, weights, weightedFrom, lastPoint]
    constructor
    · linear_combination (1 + a) / 2 * ((1 + b) / 2) * h1
    · linear_combination (1 + a) / 2 * ((1 + b) / 2) * h2

/-- Elements far from underflow: sides above 1e-60. -/
def NotTiny (s : Shape2) (c : ℕ → NewtonKernel.V3 ℝ) : Prop := (2 : ℝ) ^ (-200 : ℤ) ≤ side s c

theorem comp_le_side (s : Shape2) (c : ℕ → NewtonKernel.V3 ℝ) : |(c 1).x - (c 0).x| ≤ side s c ∧ |(c 1).y - (c 0).y| ≤ side s c ∧ |(c (lastPoint s)).x - (c 0).x| ≤ side s c ∧ |(c (lastPoint s)).y - (c 0).y| ≤ side s c := by
  unfold side
  have h1 := le_max_left (|(c 1).x - (c 0).x| + |(c (lastPoint s)).x - (c 0).x|) (|(c 1).y - (c 0).y| + |(c (lastPoint s)).y - (c 0).y|)
  have h2 := le_max_right (|(c 1).x - (c 0).x| + |(c (lastPoint s)).x - (c 0).x|) (|(c 1).y - (c 0).y| + |(c (lastPoint s)).y - (c 0).y|)
  have a1 := abs_nonneg ((c 1).x - (c 0).x)
  have a2 := abs_nonneg ((c 1).y - (c 0).y)
  have a3 := abs_nonneg ((c (lastPoint s)).x - (c 0).x)
  have a4 := abs_nonneg ((c (lastPoint s)).y - (c 0).y)
  refine ⟨?_, ?_, ?_, ?_⟩ <;> linarith

theorem area_le_sq (s : Shape2) (c : ℕ → NewtonKernel.V3 ℝ) : area s c ≤ side s c ^ 2 := by
  unfold area side
  have h1 := le_max_left (|(c 1).x - (c 0).x| + |(c (lastPoint s)).x - (c 0).x|) (|(c 1).y - (c 0).y| + |(c (lastPoint s)).y - (c 0).y|)
  have h2 := le_max_right (|(c 1).x - (c 0).x| + |(c (lastPoint s)).x - (c 0).x|) (|(c 1).y - (c 0).y| + |(c (lastPoint s)).y - (c 0).y|)
  refine (abs_sub _ _).trans ?_
  rw [abs_mul, abs_mul, sq]
  have a1 := abs_nonneg ((c 1).x - (c 0).x)
  have a2 := abs_nonneg ((c 1).y - (c 0).y)
  have a3 := abs_nonneg ((c (lastPoint s)).x - (c 0).x)
  have a4 := abs_nonneg ((c (lastPoint s)).y - (c 0).y)
  refine le_trans ?_ (mul_le_mul h1 h2 (by positivity) ((by positivity : (0 : ℝ) ≤ _ + _).trans h1))
  nlinarith [mul_nonneg a1 a2, mul_nonneg a3 a4]

theorem tiny_facts : (2 : ℝ) ^ (-1074 : ℤ) ≤ unit * (2 : ℝ) ^ (-200 : ℤ) ∧ (2 : ℝ) ^ (-1074 : ℤ) ≤ unit * ((2 : ℝ) ^ (-200 : ℤ)) ^ 2 ∧
    2 * (2 : ℝ) ^ (-1074 : ℤ) ≤ unit * unit * ((2 : ℝ) ^ (-200 : ℤ)) ^ 3 ∧ 2 * (2 : ℝ) ^ (-1074 : ℤ) ≤ unit * unit * ((2 : ℝ) ^ (-200 : ℤ)) ^ 4 ∧ (2 : ℝ) ^ (-1074 : ℤ) ≤ unit / 500 := by
  have h2 : (2 : ℝ) ≠ 0 := by norm_num
  have le : ∀ a b : ℤ, a ≤ b → (2 : ℝ) ^ a ≤ 2 ^ b := fun a b h => zpow_le_zpow_right₀ (by norm_num) h
  have two : ∀ a : ℤ, 2 * (2 : ℝ) ^ a = 2 ^ (a + 1) := fun a => by rw [zpow_add₀ h2]; ring
  have pw : ∀ (a : ℤ) (k : ℕ), ((2 : ℝ) ^ a) ^ k = 2 ^ (a * k) := fun a k => by rw [zpow_mul, zpow_natCast]
  unfold unit
  refine ⟨?_, ?_, ?_, ?_, ?_⟩
  · rw [← zpow_add₀ h2]; exact le _ _ (by norm_num)
  · rw [pw, ← zpow_add₀ h2]; exact le _ _ (by norm_num)
  · rw [two, pw, ← zpow_add₀ h2, ← zpow_add₀ h2]; exact le _ _ (by norm_num)
  · rw [two, pw, ← zpow_add₀ h2, ← zpow_add₀ h2]; exact le _ _ (by norm_num)
  · have : (2 : ℝ) ^ (-1074 : ℤ) ≤ 2 ^ (-62 : ℤ) := le _ _ (by norm_num)
    refine this.trans ?_
    have e : (2 : ℝ) ^ (-62 : ℤ) = 2 ^ (-52 : ℤ) / 1024 := by norm_num
    rw [e]
    have := two_pos (-52)
    exact div_le_div_of_nonneg_left this.le (by norm_num) (by norm_num)

/-- What all theorems use: the computed quotients and the size of the errors. -/
theorem core (R : DoubleRounding rnd) (f : ℕ → Bool) (s : Shape2) (c : ℕ → NewtonKernel.V3 ℝ) (h : Regular2 s c) (hsize : NotTiny s c) {t : ℝ} (ht : relError s c ≤ t) (ht1 : t ≤ 1 / 10000) {a b p0 p1 : ℝ}
    (hp : point2 s c a b = (p0, p1)) (hr0 : |p0 - (c 0).x| ≤ side s c) (hr1 : |p1 - (c 0).y| ≤ side s c) :
    unit ≤ 2 * t ∧ (2 : ℝ) ^ (-1074 : ℤ) ≤ t / 500 ∧ 0 ≤ t ∧
    ∃ n X0 D0 X1 D1 Δ : ℝ, n ≠ 0 ∧ Δ ≠ 0 ∧ dotsF rnd f (c 0) (c 1) (c (lastPoint s)) p0 p1 = ((n * X0, n * D0), n * X1, n * D1) ∧
      |X0 - (1 + a) / 2 * -Δ| ≤ 29 * (t * |-Δ|) ∧ |D0 - -Δ| ≤ 29 * (t * |-Δ|) ∧ |X1 - (1 + b) / 2 * Δ| ≤ 29 * (t * |Δ|) ∧ |D1 - Δ| ≤ 29 * (t * |Δ|) := by
  have hΔ0 := h.1
  set Δ := ((c 1).x - (c 0).x) * ((c (lastPoint s)).y - (c 0).y) - ((c 1).y - (c 0).y) * ((c (lastPoint s)).x - (c 0).x) with hΔ
  have hA : 0 < area s c := abs_pos.2 hΔ0
  have hAΔ : area s c = |Δ| := rfl
  obtain ⟨c1, c2, c3, c4⟩ := comp_le_side s c
  set M := side s c with hM
  set P := (2 : ℝ) ^ (-200 : ℤ) with hP
  have hP0 : 0 < P := two_pos _
  have hPM : P ≤ M := hsize
  have hM0 : 0 < M := lt_of_lt_of_le hP0 hPM
  have hsq := area_le_sq s c
  rw [hAΔ, ← hM] at hsq
  have hW : unit * M ^ 2 ≤ t * |Δ| := by
    have : unit * M ^ 2 / |Δ| ≤ t := ht
    rwa [div_le_iff₀ (by rw [← hAΔ]; exact hA)] at this
  have hΔp : 0 < |Δ| := by rw [← hAΔ]; exact hA
  have hup := unit_pos
  have hut : unit ≤ t := by
    have : unit * |Δ| ≤ t * |Δ| := (mul_le_mul_of_nonneg_left hsq hup.le).trans hW
    exact le_of_mul_le_mul_right this hΔp
  obtain ⟨f1, f2, f3, f4, f5⟩ := tiny_facts
  have ht0 : 0 ≤ t := by linarith
  have hWΔ : unit * M ^ 2 ≤ |Δ| := by nlinarith
  refine ⟨by linarith, by linarith, ht0, ?_⟩
  obtain ⟨o0, o1⟩ := offset s c h hp
  obtain ⟨n, X0, D0, X1, D1, hn, hd, e0, e1, e2, e3⟩ := dots_err (err R) hup.le (by linarith [unit_le]) (two_pos _).le hM0 (rnd_zero R) f (c 0) (c 1) (c (lastPoint s)) p0 p1 rfl rfl rfl rfl rfl rfl hΔ hr0 hr1 c1 c2 c3 c4
    (f1.trans (mul_le_mul_of_nonneg_left hPM hup.le)) (f2.trans (mul_le_mul_of_nonneg_left (pow_le_pow_left₀ hP0.le hPM 2) hup.le))
    (f3.trans (by
      have : unit * unit * P ^ 3 ≤ unit * unit * M ^ 3 := mul_le_mul_of_nonneg_left (pow_le_pow_left₀ hP0.le hPM 3) (by positivity)
      have h2 : unit * M * (unit * M ^ 2) ≤ unit * M * |Δ| := mul_le_mul_of_nonneg_left hWΔ (by positivity)
      nlinarith))
    (f4.trans (by
      have : unit * unit * P ^ 4 ≤ unit * unit * M ^ 4 := mul_le_mul_of_nonneg_left (pow_le_pow_left₀ hP0.le hPM 4) (by positivity)
      have h2 : unit * M ^ 2 * (unit * M ^ 2) ≤ unit * M ^ 2 * |Δ| := mul_le_mul_of_nonneg_left hWΔ (by positivity)
      nlinarith))
    (by
      have : t * |Δ| ≤ 1 / 10000 * |Δ| := mul_le_mul_of_nonneg_right ht1 hΔp.le
      linarith) hΔ0
  have g0 : -((p0 - (c 0).x) * ((c (lastPoint s)).y - (c 0).y) - (p1 - (c 0).y) * ((c (lastPoint s)).x - (c 0).x)) = (1 + a) / 2 * -Δ := by rw [o0, o1, hΔ]; ring
  have g1 : ((c 1).x - (c 0).x) * (p1 - (c 0).y) - ((c 1).y - (c 0).y) * (p0 - (c 0).x) = (1 + b) / 2 * Δ := by rw [o0, o1, hΔ]; ring
  rw [g0] at e0
  rw [g1] at e2
  exact ⟨n, X0, D0, X1, D1, Δ, hn, hΔ0, hd, by rw [abs_neg Δ]; linarith, by rw [abs_neg Δ]; linarith, by linarith, by linarith⟩

theorem relError_nonneg (s : Shape2) (c : ℕ → NewtonKernel.V3 ℝ) : 0 ≤ relError s c :=
  div_nonneg (mul_nonneg unit_pos.le (sq_nonneg _)) (abs_nonneg _)

theorem cancel {n X D : ℝ} (hn : n ≠ 0) : n * X / (n * D) = X / D := mul_div_mul_left X D hn

theorem local_cancel {n X D : ℝ} (hn : n ≠ 0) (f : Bool) : localF rnd f (n * X) (n * D) = localF rnd f X D := by unfold localF; rw [cancel hn]

/-- Points of the element are within its bounding box. -/
theorem within_side (s : Shape2) (c : ℕ → NewtonKernel.V3 ℝ) (h : Regular2 s c) {a b p0 p1 : ℝ} (hp : point2 s c a b = (p0, p1)) (hin : InRef2 0 s a b) :
    |p0 - (c 0).x| ≤ side s c ∧ |p1 - (c 0).y| ≤ side s c := by
  obtain ⟨o0, o1⟩ := offset s c h hp
  have hab : |(1 + a) / 2| ≤ 1 ∧ |(1 + b) / 2| ≤ 1 := by
    cases s with
    | tri => obtain ⟨h1, h2, h3⟩ := hin; constructor <;> (rw [abs_le]; constructor <;> linarith)
    | quad => obtain ⟨⟨h1, h2⟩, h3, h4⟩ := hin; constructor <;> (rw [abs_le]; constructor <;> linarith)
  have key : ∀ x y : ℝ, |(1 + a) / 2 * x + (1 + b) / 2 * y| ≤ |x| + |y| := by
    intro x y
    refine (abs_add_le _ _).trans (add_le_add ?_ ?_)
    · rw [abs_mul]; exact mul_le_of_le_one_left (abs_nonneg _) hab.1
    · rw [abs_mul]; exact mul_le_of_le_one_left (abs_nonneg _) hab.2
  rw [o0, o1]
  exact ⟨(key _ _).trans (le_max_left _ _), (key _ _).trans (le_max_right _ _)⟩

/-- **C107** (parallelograms). Every point of the element, boundary included, is accepted in any rounding mode and however products are fused, if the tolerance is large enough for the shape:
with the default tolerance of 1e-12 for all parallelograms with `side² ≤ 30 area`. -/
theorem quad_found (R : DoubleRounding rnd) (f : ℕ → Bool) (c : ℕ → NewtonKernel.V3 ℝ) (h : Regular2 .quad c) (hsize : NotTiny .quad c) (tol0 : ℝ) {ktol : ℝ} (hk : ktol ≤ 1 / 1000)
    (hshape : 150 * relError .quad c ≤ ktol) {p0 p1 : ℝ} (hp : InElement2 0 .quad c p0 p1) :
    (accept2F rnd f tol0 ktol .quad (c 0) (c 1) (c 3) p0 p1).isSome := by
  obtain ⟨a, b, hin, hpt⟩ := hp
  obtain ⟨hr0, hr1⟩ := within_side .quad c h hpt hin
  obtain ⟨hut, hηt, ht, n, X0, D0, X1, D1, Δ, hn, hΔ, hd, e0, e1, e2, e3⟩ := core R f .quad c h hsize le_rfl (by linarith) hpt hr0 hr1
  obtain ⟨⟨h1, h2⟩, h3, h4⟩ := hin
  have ht1 : relError .quad c ≤ 1 / 10000 := by linarith
  obtain ⟨d0, q0⟩ := quot_err ht ht1 (neg_ne_zero.2 hΔ) e0 e1 rfl (by rw [abs_le]; constructor <;> linarith)
  obtain ⟨d1, q1⟩ := quot_err ht ht1 hΔ e2 e3 rfl (by rw [abs_le]; constructor <;> linarith)
  have l0 := local_err (err R) unit_pos.le (two_pos _).le ht ht1 hut hηt (f 30) q0 (by rw [abs_le]; constructor <;> linarith)
  have l1 := local_err (err R) unit_pos.le (two_pos _).le ht ht1 hut hηt (f 31) q1 (by rw [abs_le]; constructor <;> linarith)
  obtain ⟨t1, t2, t3, t4⟩ := tol_err (err R) unit_pos.le (two_pos _).le ht ht1 hut hηt (k := ktol) (by linarith) hk
  rw [abs_le] at l0 l1
  unfold accept2F
  simp only [lastPoint] at hd
  dsimp only
  rw [hd]
  dsimp only
  rw [if_neg (by rintro (h | h) <;> simp_all), local_cancel hn, local_cancel hn]
  unfold eta0F
  dsimp only
  rw [if_pos]
  · rfl
  · refine ⟨?_, ?_, ?_, ?_⟩ <;> linarith [l0.1, l0.2, l1.1, l1.2]

/-- **C107** (triangles, in part). A point of a triangle is accepted if the tolerance is large enough for the shape and for the distance from the collapsed vertex. Missing: points near that vertex, for which the
claim is false (`triangle_lost`). -/
theorem triangle_found_partial (R : DoubleRounding rnd) (f : ℕ → Bool) (c : ℕ → NewtonKernel.V3 ℝ) (h : Regular2 .tri c) (hsize : NotTiny .tri c) {tol0 ktol : ℝ} (hk : ktol ≤ 1 / 1000)
    {a b p0 p1 : ℝ} (hin : InRef2 0 .tri a b) (hpt : point2 .tri c a b = (p0, p1)) (htol0 : tol0 ≤ (1 - b) / 2) (hshape : 620 * relError .tri c ≤ ktol * (1 - b)) (hb : b < 1) :
    (accept2F rnd f tol0 ktol .tri (c 0) (c 1) (c 2) p0 p1).isSome := by
  obtain ⟨hr0, hr1⟩ := within_side .tri c h hpt hin
  obtain ⟨h1, h2, h3⟩ := hin
  have hb1 : 0 < 1 - b := by linarith
  have hn0 := relError_nonneg .tri c
  have hk0 : 0 ≤ ktol := by
    by_contra hc
    push Not at hc
    nlinarith
  have hkb : ktol * (1 - b) ≤ 1 / 1000 * (1 - b) := mul_le_mul_of_nonneg_right hk hb1.le
  have ht1 : relError .tri c ≤ 1 / 10000 := by linarith
  obtain ⟨hut, hηt, ht, n, X0, D0, X1, D1, Δ, hn, hΔ, hd, e0, e1, e2, e3⟩ := core R f .tri c h hsize le_rfl ht1 hpt hr0 hr1
  obtain ⟨d0, q0⟩ := quot_err ht ht1 (neg_ne_zero.2 hΔ) e0 e1 rfl (by rw [abs_le]; constructor <;> linarith)
  obtain ⟨d1, q1⟩ := quot_err ht ht1 hΔ e2 e3 rfl (by rw [abs_le]; constructor <;> linarith)
  have l0 := local_err (err R) unit_pos.le (two_pos _).le ht ht1 hut hηt (f 30) q0 (by rw [abs_le]; constructor <;> linarith)
  have l1 := local_err (err R) unit_pos.le (two_pos _).le ht ht1 hut hηt (f 31) q1 (by rw [abs_le]; constructor <;> linarith)
  obtain ⟨t1, t2, t3, t4⟩ := tol_err (err R) unit_pos.le (two_pos _).le ht ht1 hut hηt hk0 hk
  have l0' : |localF rnd (f 30) X0 D0 - ((1 + a) - 1)| ≤ 140 * relError .tri c := by
    have e : 2 * ((1 + a) / 2) - 1 = (1 + a) - 1 := by ring
    rw [← e]; exact l0
  have l1' : |localF rnd (f 31) X1 D1 - (1 - (1 - b))| ≤ 140 * relError .tri c := by
    have e : 2 * ((1 + b) / 2) - 1 = 1 - (1 - b) := by ring
    rw [← e]; exact l1
  have eta := eta_err (err R) unit_pos.le (two_pos _).le ht ht1 hut hηt (tol0 := tol0) hb1 (by linarith) (by linarith : 0 ≤ 1 + a) (by linarith) (by linarith) htol0 l0' l1'
  set E := eta0F rnd tol0 .tri (localF rnd (f 30) X0 D0) (localF rnd (f 31) X1 D1) with hE
  have eta' : |E - (2 * (1 + a) / (1 - b) - 1)| ≤ ktol - 3 * relError .tri c := by
    have : |E - (2 * (1 + a) / (1 - b) - 1)| * (1 - b) ≤ (ktol - 3 * relError .tri c) * (1 - b) := by
      have : relError .tri c * (1 - b) ≤ relError .tri c * 2 := mul_le_mul_of_nonneg_left (by linarith) ht
      linarith
    exact le_of_mul_le_mul_right this hb1
  have r0 : 0 ≤ 2 * (1 + a) / (1 - b) := div_nonneg (by linarith) hb1.le
  have r1 : 2 * (1 + a) / (1 - b) ≤ 2 := by rw [div_le_iff₀ hb1]; linarith
  have hkt : 310 * relError .tri c ≤ ktol := by
    have : ktol * (1 - b) ≤ ktol * 2 := mul_le_mul_of_nonneg_left (by linarith) hk0
    linarith
  rw [abs_le] at l1 eta'
  unfold accept2F
  simp only [lastPoint] at hd
  dsimp only
  rw [hd]
  dsimp only
  rw [if_neg (by rintro (h | h) <;> simp_all), local_cancel hn, local_cancel hn, ← hE, if_pos]
  · rfl
  · refine ⟨?_, ?_, ?_, ?_⟩ <;> linarith [eta'.1, eta'.2, l1.1, l1.2]

/-- **C107** (what is stored). If a position in the bounding box of the element is accepted, then the stored reference position is that of the particle up to the rounding errors, and the particle is in the element
up to the tolerances and the rounding errors. -/
theorem accepted (R : DoubleRounding rnd) (f : ℕ → Bool) (s : Shape2) (c : ℕ → NewtonKernel.V3 ℝ) (h : Regular2 s c) (hsize : NotTiny s c) {tol0 ktol : ℝ} (h0 : 0 < tol0) (h1 : tol0 ≤ 1 / 1000) (hk0 : 0 ≤ ktol)
    (hk : ktol ≤ 1 / 1000) (hshape : relError s c ≤ 1 / 10000) {p0 p1 : ℝ} (hr0 : |p0 - (c 0).x| ≤ side s c) (hr1 : |p1 - (c 0).y| ≤ side s c) {x : ℝ × ℝ}
    (ha : accept2F rnd f tol0 ktol s (c 0) (c 1) (c (lastPoint s)) p0 p1 = some x) :
    ∃ a b, point2 s c a b = (p0, p1) ∧ |x.1 - a| ≤ 140 * relError s c ∧ |x.2 - b| ≤ 140 * relError s c ∧ InRef2 (3 * ktol + 3 * tol0 + 350 * relError s c) s a b := by
  obtain ⟨a, b, hpt⟩ := point2_surj s c h p0 p1
  obtain ⟨hut, hηt, ht, n, X0, D0, X1, D1, Δ, hn, hΔ, hd, e0, e1, e2, e3⟩ := core R f s c h hsize le_rfl hshape hpt hr0 hr1
  obtain ⟨t1, t2, t3, t4⟩ := tol_err (err R) unit_pos.le (two_pos _).le ht hshape hut hηt hk0 hk
  unfold accept2F at ha
  dsimp only at ha
  rw [hd] at ha
  dsimp only at ha
  split_ifs at ha with hz ht
  obtain ⟨g1, g2, g3, g4⟩ := ht
  rw [local_cancel hn, local_cancel hn] at ha g1 g2
  rw [local_cancel hn] at g3 g4
  obtain rfl := Option.some.inj ha
  push Not at hz
  have d0 : D0 ≠ 0 := fun h => hz.1 (by rw [h, mul_zero])
  have d1 : D1 ≠ 0 := fun h => hz.2 (by rw [h, mul_zero])
  have ht := relError_nonneg s c
  have b1 := local_bound (err R) unit_pos.le (two_pos _).le ht hshape hut hηt (f 31) (N := X1) (D := D1) (by rw [abs_le]; constructor <;> linarith)
  have b0' : |localF rnd (f 30) X0 D0| ≤ 1.15 ∧ (s = .tri → -1 - (3 * ktol + 3 * tol0 + 50 * relError s c) ≤ localF rnd (f 30) X0 D0 ∧ localF rnd (f 30) X0 D0 + localF rnd (f 31) X1 D1 ≤ 3 * ktol + 3 * tol0 + 50 * relError s c) ∧
      (s = .quad → -1 - ktol - 3 * relError s c ≤ localF rnd (f 30) X0 D0 ∧ localF rnd (f 30) X0 D0 ≤ 1 + ktol + 3 * relError s c) := by
    cases s with
    | quad =>
      unfold eta0F at g1 g2
      dsimp only at g1 g2
      exact ⟨by rw [abs_le]; constructor <;> linarith, (fun h => by cases h), fun _ => ⟨by linarith, by linarith⟩⟩
    | tri =>
      have k := eta_test (err R) unit_pos.le (two_pos _).le ht hshape hut hηt hk0 hk h0 h1 g1 g2 g3 g4
      exact ⟨by rw [abs_le]; constructor <;> linarith [k.1, k.2], fun _ => k, (fun h => by cases h)⟩
  have b0 := local_bound (err R) unit_pos.le (two_pos _).le ht hshape hut hηt (f 30) b0'.1
  have q0 := quot_err' ht (neg_ne_zero.2 hΔ) e0 e1 d0 rfl (b0.trans (by norm_num))
  have q1 := quot_err' ht hΔ e2 e3 d1 rfl (b1.trans (by norm_num))
  have bound : ∀ {q z : ℝ}, |q - z| ≤ 61.2 * relError s c → |q| ≤ 1.09 → |z| ≤ 1.1 := by
    intro q z h1 h2
    have e : z = q - (q - z) := by ring
    rw [e]
    refine (abs_sub _ _).trans ?_
    linarith
  have l0 := local_err (err R) unit_pos.le (two_pos _).le ht hshape hut hηt (f 30) q0 (bound q0 b0)
  have l1 := local_err (err R) unit_pos.le (two_pos _).le ht hshape hut hηt (f 31) q1 (bound q1 b1)
  rw [show 2 * ((1 + a) / 2) - 1 = a by ring] at l0
  rw [show 2 * ((1 + b) / 2) - 1 = b by ring] at l1
  refine ⟨a, b, hpt, l0, l1, ?_⟩
  rw [abs_le] at l0 l1
  cases s with
  | quad =>
    obtain ⟨k1, k2⟩ := b0'.2.2 rfl
    refine ⟨⟨?_, ?_⟩, ?_, ?_⟩ <;> linarith [l0.1, l0.2, l1.1, l1.2]
  | tri =>
    obtain ⟨k1, k2⟩ := b0'.2.1 rfl
    refine ⟨?_, ?_, ?_⟩ <;> linarith [l0.1, l0.2, l1.1, l1.2]

/-- Two triangles with a common side from their collapsed vertex (0, 0) to (1, 1): a mesh of the quadrilateral (0, 0), (2, 0), (1, 1), (0, 1). -/
def mesh : ℕ → ℕ → NewtonKernel.V3 ℝ
  | 0 => fun | 0 => ⟨2, 0, 0⟩ | 1 => ⟨1, 1, 0⟩ | _ => ⟨0, 0, 0⟩
  | _ => fun | 0 => ⟨1, 1, 0⟩ | 1 => ⟨0, 1, 0⟩ | _ => ⟨0, 0, 0⟩

open Verif.Lemmas.FloatRegularLost in
/-- **C107** (finding). With rounding to nearest a position (two doubles) strictly inside the first of two triangles is accepted by neither of them, for all tolerances up to 1e-9, so also for the default of 1e-12, and however
products are fused. -/
theorem triangle_lost (N : Nearest 53 (-1074) rnd) :
    (∀ k, Regular2 .tri (mesh k)) ∧ ∃ p0 p1 : ℝ, IsFloat 53 (-1074) p0 ∧ IsFloat 53 (-1074) p1 ∧
      (∃ a b : ℝ, -1 < a ∧ -1 < b ∧ a + b < 0 ∧ point2 .tri (mesh 0) a b = (p0, p1)) ∧
      ∀ (f : ℕ → Bool) (tol0 ktol : ℝ), tol0 ≤ 1 / 10 ^ 9 → ktol ≤ 1 / 10 ^ 10 → ∀ k, accept2F rnd f tol0 ktol .tri (mesh k 0) (mesh k 1) (mesh k 2) p0 p1 = none := by
  refine ⟨fun k => ?_, px, py, float_px, float_py, ⟨2 * py - 1, 1 - py - px, ?_, ?_, ?_, ?_⟩, fun f tol0 ktol h0 h1 k => ?_⟩
  · match k with
    | 0 => exact ⟨by norm_num [mesh, lastPoint], fun h => by cases h⟩
    | k + 1 => exact ⟨by norm_num [mesh, lastPoint], fun h => by cases h⟩
  · rw [py_eq]; norm_num
  · rw [px_eq, py_eq]; norm_num
  · rw [px_eq, py_eq]; norm_num
  · simp only [point2, Verif.Spec.Embedded.triPoint, Verif.Spec.LinearElements.weightedFrom, mesh]
    ext <;> dsimp only <;> ring
  · match k with
    | 0 => exact lost_first N f (h0.trans (by norm_num)) (h1.trans (by norm_num))
    | k + 1 => exact lost_second N f (h0.trans (by norm_num)) (h1.trans (by norm_num))

/-- **C107** (finding, its effect). On this mesh the program stops when it maps a particle at that position, whatever the coarse lookup, and whichever of the two triangles a lookup id stands for. -/
theorem program_stops (N : Nearest 53 (-1074) rnd) (f : ℕ → Bool) {tol0 ktol : ℝ} (h0 : tol0 ≤ 1 / 10 ^ 9) (h1 : ktol ≤ 1 / 10 ^ 10) :
    ∃ p0 p1 : ℝ, InElement2 0 .tri (mesh 0) p0 p1 ∧ ∀ (L : CoarseLookup.Lookup ℝ) (cellIds ranks : List (Option ℤ)) (element : ℕ → ℕ), (∀ (k : ℕ) (r : ℤ), ranks[k]? = some (some r) → 0 ≤ r) →
      ∀ (g : MapChain.Cells ℝ) (i : ℕ) (hi : i < g.length) (q : CoarseLookup.Particle ℝ), q ∈ g[i] → q.rank < 0 → q.pos 0 = p0 → q.pos 1 = p1 →
        MapChain.map2D (some (CoarseLookup.kernel L cellIds ranks fun p k =>
          (accept2F rnd f tol0 ktol .tri (mesh (element k) 0) (mesh (element k) 1) (mesh (element k) 2) (p 0) (p 1)).map fun x => [x.1, x.2])) none i g = none := by
  obtain ⟨-, p0, p1, -, -, ⟨a, b, ha, hb, hab, hp⟩, lost⟩ := triangle_lost N
  refine ⟨p0, p1, ⟨a, b, ⟨by linarith, by linarith, by linarith⟩, hp⟩, fun L cellIds ranks element hr g i hi q hq hrank e0 e1 => ?_⟩
  refine C94.unaccepted_particle_fatal _ _ (fun s hs => ?_) (by simp) g i hi q hq hrank ?_ (acc := C55.deviceAccepts cellIds ranks fun p k =>
          (accept2F rnd f tol0 ktol .tri (mesh (element k) 0) (mesh (element k) 1) (mesh (element k) 2) (p 0) (p 1)).map fun x => [x.1, x.2])
  · obtain rfl := Option.some.inj hs
    exact C55.kernel_sound L cellIds ranks _ hr
  · ext x
    simp only [C55.deviceAccepts, Set.mem_setOf_eq, Set.mem_empty_iff_false, iff_false, not_exists]
    rintro k ⟨-, -, h⟩
    rw [e0, e1, lost f tol0 ktol h0 h1] at h
    cases h

/-- Such a rounding exists: the usual one. -/
example : Nearest 53 (-1074) (nearestEven 53 (-1074)) := (nearestEven_spec (by norm_num)).toNearest

/-- The unit square. -/
def square : ℕ → NewtonKernel.V3 ℝ | 0 => ⟨0, 0, 0⟩ | 1 => ⟨1, 0, 0⟩ | 2 => ⟨1, 1, 0⟩ | _ => ⟨0, 1, 0⟩

/-- Every point of the unit square is found with the default tolerances and the usual rounding. -/
example (p0 p1 : ℝ) (h0 : 0 ≤ p0) (h0' : p0 ≤ 1) (h1 : 0 ≤ p1) (h1' : p1 ≤ 1) (f : ℕ → Bool) :
    (accept2F (nearestEven 53 (-1074)) f (1 / 10 ^ 12) (1 / 10 ^ 12) .quad (square 0) (square 1) (square 3) p0 p1).isSome := by
  have hs : side .quad square = 1 := by simp [side, square, lastPoint]
  have ha : area .quad square = 1 := by simp [area, square, lastPoint]
  refine quad_found (nearest_rounding (nearestEven_spec (by norm_num)).toNearest) f square ⟨by norm_num [square, lastPoint], fun _ => by norm_num [square]⟩ ?_ _ (by norm_num) ?_
    ⟨2 * p0 - 1, 2 * p1 - 1, ⟨⟨by linarith, by linarith⟩, by linarith, by linarith⟩, ?_⟩
  · unfold NotTiny; rw [hs]; exact zpow_le_one_of_nonpos₀ (by norm_num) (by norm_num)
  · unfold relError unit; rw [hs, ha]; norm_num
  · simp only [point2, Verif.Spec.Embedded.quadPoint, Verif.Spec.LinearElements.X, Verif.Spec.LinearElements.weights, Verif.Spec.LinearElements.weightedFrom, square]
    ext <;> dsimp only <;> ring

/-- The hypotheses of `accepted` hold of the unit square: what is stored for a point in it is within 1e-13 of its reference position. -/
example (p0 p1 : ℝ) (h0 : 0 ≤ p0) (h0' : p0 ≤ 1) (h1 : 0 ≤ p1) (h1' : p1 ≤ 1) (f : ℕ → Bool) (x : ℝ × ℝ)
    (hx : accept2F (nearestEven 53 (-1074)) f (1 / 10 ^ 12) (1 / 10 ^ 12) .quad (square 0) (square 1) (square 3) p0 p1 = some x) :
    ∃ a b, point2 .quad square a b = (p0, p1) ∧ |x.1 - a| ≤ 1 / 10 ^ 13 ∧ |x.2 - b| ≤ 1 / 10 ^ 13 := by
  have hs : side .quad square = 1 := by simp [side, square, lastPoint]
  have ha : area .quad square = 1 := by simp [area, square, lastPoint]
  have hr : relError .quad square = unit := by unfold relError; rw [hs, ha]; norm_num
  obtain ⟨a, b, k0, k1, k2, -⟩ := accepted (nearest_rounding (nearestEven_spec (by norm_num)).toNearest) f .quad square ⟨by norm_num [square, lastPoint], fun _ => by norm_num [square]⟩
    (by unfold NotTiny; rw [hs]; exact zpow_le_one_of_nonpos₀ (by norm_num) (by norm_num)) (by norm_num) (by norm_num) (by norm_num) (by norm_num) (by rw [hr]; unfold unit; norm_num)
    (by rw [hs]; simpa [square] using abs_le.2 ⟨by linarith, h0'⟩) (by rw [hs]; simpa [square] using abs_le.2 ⟨by linarith, h1'⟩) hx
  rw [hr] at k1 k2
  have : 140 * unit ≤ 1 / 10 ^ 13 := by unfold unit; norm_num
  exact ⟨a, b, k0, k1.trans this, k2.trans this⟩

/-- The centre of the first triangle of `mesh` is found with the default tolerances. -/
example (f : ℕ → Bool) : (accept2F (nearestEven 53 (-1074)) f (1 / 10 ^ 12) (1 / 10 ^ 12) .tri (mesh 0 0) (mesh 0 1) (mesh 0 2) (5 / 4) (1 / 4)).isSome := by
  have hs : side .tri (mesh 0) = 3 := by norm_num [side, mesh, lastPoint]
  have ha : area .tri (mesh 0) = 2 := by norm_num [area, mesh, lastPoint]
  refine triangle_found_partial (nearest_rounding (nearestEven_spec (by norm_num)).toNearest) f (mesh 0) ⟨by norm_num [mesh, lastPoint], fun h => by cases h⟩ ?_ (by norm_num) (a := -1 / 2) (b := -1 / 2)
    (by norm_num [InRef2]) ?_ (by norm_num) ?_ (by norm_num)
  · unfold NotTiny; rw [hs]; exact (zpow_le_one_of_nonpos₀ (by norm_num) (by norm_num)).trans (by norm_num)
  · simp only [point2, Verif.Spec.Embedded.triPoint, Verif.Spec.LinearElements.weightedFrom, mesh]
    ext <;> norm_num
  · unfold relError unit; rw [hs, ha]; norm_num

end Verif.Props.C107
