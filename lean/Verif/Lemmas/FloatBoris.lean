import Verif.Model.FloatBoris
import Mathlib.Analysis.SpecialFunctions.Sqrt
import Mathlib.Tactic.Linarith
import Mathlib.Tactic.Positivity
import Mathlib.Tactic.FieldSimp

/-! Lemmas for C106: errors of the Boris push in terms of the relative error `u` and the underflow error `η` of each operation. -/

namespace Verif.Lemmas.FloatBoris
open Verif.Model.FloatBoris Verif.Spec

variable {rnd : ℝ → ℝ} {u η : ℝ} (he : ∀ z, |rnd z - z| ≤ u * |z| + η) (hu0 : 0 ≤ u) (hu : u ≤ 1 / 1000) (hη : 0 ≤ η)
include he hu0

/-- Rounding of an approximate value. -/
theorem rnd_err {a b e A : ℝ} (h : |a - b| ≤ e) (hb : |b| ≤ A) : |rnd a - b| ≤ e + u * (A + e) + η := by
  have h1 := he a
  have h2 : |a| ≤ A + e := by
    have : a = b + (a - b) := by ring
    rw [this]; exact (abs_add_le _ _).trans (add_le_add hb h)
  have h3 : u * |a| ≤ u * (A + e) := mul_le_mul_of_nonneg_left h2 hu0
  have h4 : rnd a - b = (rnd a - a) + (a - b) := by ring
  rw [h4]
  refine (abs_add_le _ _).trans ?_
  linarith

omit he hu0 in
theorem mul_err {x y x' y' ex ey X Y : ℝ} (hx : |x - x'| ≤ ex) (hy : |y - y'| ≤ ey) (hX : |x'| ≤ X) (hY : |y'| ≤ Y) : |x * y - x' * y'| ≤ X * ey + Y * ex + ex * ey := by
  have : x * y - x' * y' = x' * (y - y') + y' * (x - x') + (x - x') * (y - y') := by ring
  rw [this]
  refine (abs_add_three _ _ _).trans ?_
  rw [abs_mul, abs_mul, abs_mul]
  have a1 := abs_nonneg (x - x')
  have a2 := abs_nonneg (y - y')
  have a3 := abs_nonneg x'
  have a4 := abs_nonneg y'
  gcongr <;> linarith

include hη in
/-- Products, rounded or not. -/
theorem prod_err (b : Bool) {x y x' y' ex ey X Y : ℝ} (hx : |x - x'| ≤ ex) (hy : |y - y'| ≤ ey) (hX : |x'| ≤ X) (hY : |y'| ≤ Y) :
    |prodF rnd b x y - x' * y'| ≤ (X * ey + Y * ex + ex * ey) + u * (X * Y + (X * ey + Y * ex + ex * ey)) + η := by
  have h := mul_err hx hy hX hY
  have hXY : |x' * y'| ≤ X * Y := by rw [abs_mul]; exact mul_le_mul hX hY (abs_nonneg _) ((abs_nonneg _).trans hX)
  unfold prodF
  split_ifs
  · have : 0 ≤ u * (X * Y + (X * ey + Y * ex + ex * ey)) := mul_nonneg hu0 (add_nonneg ((abs_nonneg _).trans hXY) ((abs_nonneg _).trans h))
    linarith
  · exact rnd_err he hu0 h hXY

/-- Rounded sums. -/
theorem add_err {x y x' y' ex ey A : ℝ} (hx : |x - x'| ≤ ex) (hy : |y - y'| ≤ ey) (hA : |x' + y'| ≤ A) :
    |rnd (x + y) - (x' + y')| ≤ (ex + ey) + u * (A + (ex + ey)) + η := by
  refine rnd_err he hu0 ?_ hA
  have : x + y - (x' + y') = (x - x') + (y - y') := by ring
  rw [this]; exact (abs_add_le _ _).trans (add_le_add hx hy)

theorem sub_err {x y x' y' ex ey A : ℝ} (hx : |x - x'| ≤ ex) (hy : |y - y'| ≤ ey) (hA : |x' - y'| ≤ A) :
    |rnd (x - y) - (x' - y')| ≤ (ex + ey) + u * (A + (ex + ey)) + η := by
  refine rnd_err he hu0 ?_ hA
  have : x - y - (x' - y') = (x - x') - (y - y') := by ring
  rw [this]; exact (abs_sub _ _).trans (add_le_add hx hy)

/-- The components of a vector are at most `M`. -/
def Within (a b : V3 ℝ) (e : ℝ) : Prop := |a.x - b.x| ≤ e ∧ |a.y - b.y| ≤ e ∧ |a.z - b.z| ≤ e

def Le (b : V3 ℝ) (M : ℝ) : Prop := |b.x| ≤ M ∧ |b.y| ≤ M ∧ |b.z| ≤ M

include hη in
/-- Computed vector products: `p` is the error of a product. -/
theorem cross_err (c : ℕ → Bool) (i : ℕ) {a b a' b' : V3 ℝ} {ea eb A B p : ℝ} (ha : Within a a' ea) (hb : Within b b' eb) (hA : Le a' A) (hB : Le b' B)
    (hp : (A * eb + B * ea + ea * eb) + u * (A * B + (A * eb + B * ea + ea * eb)) + η ≤ p) :
    Within (crossF rnd c i a b) (V3.cross a' b') (2 * p + u * (2 * (A * B) + 2 * p) + η) ∧ Le (V3.cross a' b') (2 * (A * B)) := by
  have key : ∀ (c1 c2 : Bool) {x y z w x' y' z' w' : ℝ}, |x - x'| ≤ ea → |y - y'| ≤ eb → |z - z'| ≤ ea → |w - w'| ≤ eb → |x'| ≤ A → |y'| ≤ B → |z'| ≤ A → |w'| ≤ B →
      |rnd (prodF rnd c1 x y - prodF rnd c2 z w) - (x' * y' - z' * w')| ≤ 2 * p + u * (2 * (A * B) + 2 * p) + η ∧ |x' * y' - z' * w'| ≤ 2 * (A * B) := by
    intro c1 c2 x y z w x' y' z' w' h1 h2 h3 h4 h5 h6 h7 h8
    have b1 : |x' * y'| ≤ A * B := by rw [abs_mul]; exact mul_le_mul h5 h6 (abs_nonneg _) ((abs_nonneg _).trans h5)
    have b2 : |z' * w'| ≤ A * B := by rw [abs_mul]; exact mul_le_mul h7 h8 (abs_nonneg _) ((abs_nonneg _).trans h7)
    have b3 : |x' * y' - z' * w'| ≤ 2 * (A * B) := (abs_sub _ _).trans (by linarith)
    refine ⟨?_, b3⟩
    have := sub_err he hu0 ((prod_err he hu0 hη c1 h1 h2 h5 h6).trans hp) ((prod_err he hu0 hη c2 h3 h4 h7 h8).trans hp) b3
    linarith
  obtain ⟨a1, a2, a3⟩ := ha
  obtain ⟨b1, b2, b3⟩ := hb
  obtain ⟨A1, A2, A3⟩ := hA
  obtain ⟨B1, B2, B3⟩ := hB
  have k1 := key (c i) (c (i + 1)) a2 b3 a3 b2 A2 B3 A3 B2
  have k2 := key (c (i + 2)) (c (i + 3)) a3 b1 a1 b3 A3 B1 A1 B3
  have k3 := key (c (i + 4)) (c (i + 5)) a1 b2 a2 b1 A1 B2 A2 B1
  exact ⟨⟨k1.1, k2.1, k3.1⟩, ⟨k1.2, k2.2, k3.2⟩⟩

/-- Computed sums of vectors. -/
theorem addV_err {a b a' b' : V3 ℝ} {ea eb A B : ℝ} (ha : Within a a' ea) (hb : Within b b' eb) (hA : Le a' A) (hB : Le b' B) :
    Within (addF rnd a b) (V3.add a' b') ((ea + eb) + u * (A + B + (ea + eb)) + η) ∧ Le (V3.add a' b') (A + B) := by
  have h1 : |a'.x + b'.x| ≤ A + B := (abs_add_le _ _).trans (add_le_add hA.1 hB.1)
  have h2 : |a'.y + b'.y| ≤ A + B := (abs_add_le _ _).trans (add_le_add hA.2.1 hB.2.1)
  have h3 : |a'.z + b'.z| ≤ A + B := (abs_add_le _ _).trans (add_le_add hA.2.2 hB.2.2)
  exact ⟨⟨add_err he hu0 ha.1 hb.1 h1, add_err he hu0 ha.2.1 hb.2.1 h2, add_err he hu0 ha.2.2 hb.2.2 h3⟩, h1, h2, h3⟩

omit he hu0 in
theorem Within.mono {a b : V3 ℝ} {e f : ℝ} (h : Within a b e) (hef : e ≤ f) : Within a b f := ⟨h.1.trans hef, h.2.1.trans hef, h.2.2.trans hef⟩

omit he hu0 in
theorem Le.mono {b : V3 ℝ} {e f : ℝ} (h : Le b e) (hef : e ≤ f) : Le b f := ⟨h.1.trans hef, h.2.1.trans hef, h.2.2.trans hef⟩

include hu hη

/-- The term of the electric field. -/
theorem kick_err (b : Bool) {e sc coef W : ℝ} (hk : |-e * sc * coef| ≤ W) (h1 : η ≤ u * W) (h2 : η * |coef| ≤ u * W) : |kickF rnd b e sc coef - -e * sc * coef| ≤ 5 * (u * W) := by
  have hW : 0 ≤ W := (abs_nonneg _).trans hk
  have h3 := he (-e * sc)
  have h4 : |rnd (-e * sc) * coef - -e * sc * coef| ≤ 2 * (u * W) := by
    rw [← sub_mul, abs_mul]
    have : |rnd (-e * sc) - -e * sc| * |coef| ≤ (u * |-e * sc| + η) * |coef| := mul_le_mul_of_nonneg_right h3 (abs_nonneg _)
    have h5 : u * (|-e * sc| * |coef|) ≤ u * W := by rw [← abs_mul]; exact mul_le_mul_of_nonneg_left hk hu0
    linarith
  have ha : u * (u * W) ≤ u * W / 1000 := by
    have := mul_le_mul_of_nonneg_right hu (mul_nonneg hu0 hW); linarith
  have ha0 : 0 ≤ u * W := mul_nonneg hu0 hW
  unfold kickF prodF
  split_ifs
  · linarith
  · have := rnd_err he hu0 h4 hk
    linarith

omit he hu0 hu hη in
theorem comp_sq_le {t : V3 ℝ} {T : ℝ} (hT : 0 ≤ T) (h : T ^ 2 = V3.dot t t) : Le t T := by
  unfold V3.dot at h
  have k : ∀ x, x * x ≤ T ^ 2 → |x| ≤ T := fun x hx => abs_le_of_sq_le_sq' (by nlinarith) hT |> fun h => abs_le.mpr h
  refine ⟨k _ ?_, k _ ?_, k _ ?_⟩ <;> nlinarith [mul_self_nonneg t.x, mul_self_nonneg t.y, mul_self_nonneg t.z]

/-- The factor of the second rotation step. -/
theorem scaled_err (c : ℕ → Bool) {t : V3 ℝ} {T : ℝ} (hT : 0 ≤ T) (h : T ^ 2 = V3.dot t t) (h1 : η * (1 + T ^ 2) ≤ u) :
    Within (scaledF rnd c t) (V3.smul (2 / (1 + T ^ 2)) t) (15 * (u * (2 / (1 + T ^ 2) * T)) + η) := by
  have hd : 0 < 1 + T ^ 2 := by positivity
  have hηu : η ≤ u := by nlinarith [mul_nonneg hη (sq_nonneg T)]
  obtain ⟨t1, t2, t3⟩ := comp_sq_le hT h
  have hs : ∀ (b : Bool) (x : ℝ), |prodF rnd b x x - x * x| ≤ u * (x * x) + η := by
    intro b x
    unfold prodF
    split_ifs
    · rw [sub_self, abs_zero]; have := mul_nonneg hu0 (mul_self_nonneg x); linarith
    · have := he (x * x); rwa [abs_of_nonneg (mul_self_nonneg x)] at this
  have e0 := hs (c 0) t.x
  have e1 := hs (c 1) t.y
  have e2 := hs (c 2) t.z
  unfold V3.dot at h
  have n0 := mul_self_nonneg t.x
  have n1 := mul_self_nonneg t.y
  have n2 := mul_self_nonneg t.z
  have f1 := add_err he hu0 e0 e1 (abs_of_nonneg (add_nonneg n0 n1)).le
  have f2 := add_err he hu0 f1 e2 (abs_of_nonneg (add_nonneg (add_nonneg n0 n1) n2)).le
  unfold scaledF
  dsimp only
  set tm := rnd (rnd (prodF rnd (c 0) t.x t.x + prodF rnd (c 1) t.y t.y) + prodF rnd (c 2) t.z t.z)
  have f3 : |tm - T ^ 2| ≤ 4 * (u * T ^ 2) + 6 * u := by
    rw [h]
    refine f2.trans ?_
    have m0 := mul_nonneg hu0 n0
    have m1 := mul_nonneg hu0 n1
    have m2 := mul_nonneg hu0 n2
    have mη := mul_nonneg hu0 hη
    have r0 : u * (u * (t.x * t.x)) ≤ u * (t.x * t.x) / 1000 := by have := mul_le_mul_of_nonneg_right hu m0; linarith
    have r1 : u * (u * (t.y * t.y)) ≤ u * (t.y * t.y) / 1000 := by have := mul_le_mul_of_nonneg_right hu m1; linarith
    have r2 : u * (u * (t.z * t.z)) ≤ u * (t.z * t.z) / 1000 := by have := mul_le_mul_of_nonneg_right hu m2; linarith
    have r3 : u * η ≤ η / 1000 := by have := mul_le_mul_of_nonneg_right hu hη; linarith
    have r0' : u * (u * (u * (t.x * t.x))) ≤ u * (t.x * t.x) / 1000 := by have := mul_le_mul_of_nonneg_left r0 hu0; linarith
    have r1' : u * (u * (u * (t.y * t.y))) ≤ u * (t.y * t.y) / 1000 := by have := mul_le_mul_of_nonneg_left r1 hu0; linarith
    have r3' : u * (u * η) ≤ η / 1000 := by have := mul_le_mul_of_nonneg_left r3 hu0; linarith
    linarith
  have f4 : |rnd (1 + tm) - (1 + T ^ 2)| ≤ 9 * (u * (1 + T ^ 2)) := by
    have := add_err he hu0 (x := 1) (x' := 1) (ex := 0) (by simp) f3 (abs_of_pos hd).le
    refine this.trans ?_
    have m0 := mul_nonneg hu0 (sq_nonneg T)
    have r0 : u * (u * T ^ 2) ≤ u * T ^ 2 / 1000 := by have := mul_le_mul_of_nonneg_right hu m0; linarith
    have r1 : u * u ≤ u / 1000 := by have := mul_le_mul_of_nonneg_right hu hu0; linarith
    linarith
  set den := rnd (1 + tm)
  set D := 1 + T ^ 2 with hD
  have hden : D / 2 ≤ den := by
    have := (abs_le.mp f4).1
    have : u * D ≤ D / 1000 := by have := mul_le_mul_of_nonneg_right hu hd.le; linarith
    linarith
  have hden0 : 0 < den := by linarith
  set q := 2 / D with hq
  have hq0 : 0 < q := by positivity
  have f5 : |2 / den - q| ≤ 10 * (u * q) := by
    have e : 2 / den - q = q * (D - den) / den := by rw [hq]; field_simp
    rw [e, abs_div, abs_mul, abs_of_pos hq0, abs_of_pos hden0, div_le_iff₀ hden0, abs_sub_comm]
    have h9 : q * |den - D| ≤ q * (9 * (u * D)) := mul_le_mul_of_nonneg_left f4 hq0.le
    have h10 : 9 * (u * D) ≤ 10 * u * den := by
      have := (abs_le.mp f4).1
      have h11 : u * D ≤ D / 1000 := by have := mul_le_mul_of_nonneg_right hu hd.le; linarith
      have h12 : D * (9 / 10) ≤ den := by linarith
      have := mul_le_mul_of_nonneg_left h12 hu0
      linarith
    have h13 := mul_le_mul_of_nonneg_left h10 hq0.le
    linarith
  have hηq : η ≤ u * q := by
    have : η * D ≤ u * 2 := by linarith
    rw [hq, ← mul_div_assoc, le_div_iff₀ hd]; exact this
  have f6 := rnd_err he hu0 f5 (abs_of_pos hq0).le
  set sc := rnd (2 / den)
  have ruq : u * (u * q) ≤ u * q / 1000 := by have := mul_le_mul_of_nonneg_right hu (mul_nonneg hu0 hq0.le); linarith
  have f7 : |sc - q| ≤ 13 * (u * q) := by linarith
  have key : ∀ x, |x| ≤ T → |rnd (sc * x) - q * x| ≤ 15 * (u * (q * T)) + η := by
    intro x hx
    have g1 : |sc * x - q * x| ≤ 13 * (u * (q * T)) := by
      rw [← sub_mul, abs_mul]
      have := mul_le_mul f7 hx (abs_nonneg _) (by positivity)
      linarith
    have g2 : |q * x| ≤ q * T := by rw [abs_mul, abs_of_pos hq0]; exact mul_le_mul_of_nonneg_left hx hq0.le
    have g3 := rnd_err he hu0 g1 g2
    have r : u * (u * (q * T)) ≤ u * (q * T) / 1000 := by have := mul_le_mul_of_nonneg_right hu (mul_nonneg hu0 (mul_nonneg hq0.le hT)); linarith
    have : 0 ≤ u * (q * T) := by positivity
    linarith
  exact ⟨key _ t1, key _ t2, key _ t3⟩

/-- The rotation for the scaled field `t`. -/
noncomputable def rotT (t v : V3 ℝ) : V3 ℝ := V3.add (V3.cross (V3.add (V3.cross v t) v) (V3.smul (2 / (1 + V3.dot t t)) t)) v

/-- The exact step for a scaled field `t` and increments `k` of the electric field. -/
noncomputable def exactVel (t k v : V3 ℝ) : V3 ℝ := V3.add (rotT t (V3.add v k)) k

/-- The computed velocity is the exact step for the computed field up to a relative error that does not depend on the field. -/
theorem velocity_err (c : ℕ → Bool) {t v : V3 ℝ} {sc coef e0 e1 W : ℝ} (h1 : η * (1 + V3.dot t t) ≤ u) (h2 : η ≤ u * W) (h3 : η * |coef| ≤ u * W)
    (hk0 : |-e0 * sc * coef| ≤ W) (hk1 : |-e1 * sc * coef| ≤ W) (hv0 : |v.x + -e0 * sc * coef| ≤ W) (hv1 : |v.y + -e1 * sc * coef| ≤ W) (hv2 : |v.z| ≤ W) :
    Within (velocityF rnd c t sc coef e0 e1 v) (exactVel t ⟨-e0 * sc * coef, -e1 * sc * coef, 0⟩ v) (400 * (u * W)) := by
  have hW : 0 ≤ W := (abs_nonneg _).trans hv2
  have hdot : 0 ≤ V3.dot t t := by
    unfold V3.dot; nlinarith [mul_self_nonneg t.x, mul_self_nonneg t.y, mul_self_nonneg t.z]
  set T := Real.sqrt (V3.dot t t) with hTdef
  have hT : 0 ≤ T := Real.sqrt_nonneg _
  have hT2 : T ^ 2 = V3.dot t t := Real.sq_sqrt hdot
  rw [← hT2] at h1
  have ha0 : 0 ≤ u * W := mul_nonneg hu0 hW
  have ha : u * (u * W) ≤ u * W / 1000 := by have := mul_le_mul_of_nonneg_right hu ha0; linarith
  have hb0 : 0 ≤ u * W * T := mul_nonneg ha0 hT
  have hb : u * (u * W * T) ≤ u * W * T / 1000 := by have := mul_le_mul_of_nonneg_right hu hb0; linarith
  have hkx := fun b => kick_err he hu0 hu hη b hk0 h2 h3
  have hky := fun b => kick_err he hu0 hu hη b hk1 h2 h3
  set k0 := -e0 * sc * coef
  set k1 := -e1 * sc * coef
  have hs := scaled_err he hu0 hu hη c hT hT2 h1
  have htT := comp_sq_le hT hT2
  unfold velocityF exactVel rotT
  dsimp only
  rw [← hT2]
  set s := scaledF rnd c t
  set s' := V3.smul (2 / (1 + T ^ 2)) t
  -- the first half of the electric field
  have m0 : |rnd (v.x + kickF rnd (c 3) e0 sc coef) - (v.x + k0)| ≤ 8 * (u * W) := by
    have := add_err he hu0 (x := v.x) (x' := v.x) (ex := 0) (by simp) (hkx (c 3)) hv0
    linarith
  have m1 : |rnd (v.y + kickF rnd (c 4) e1 sc coef) - (v.y + k1)| ≤ 8 * (u * W) := by
    have := add_err he hu0 (x := v.y) (x' := v.y) (ex := 0) (by simp) (hky (c 4)) hv1
    linarith
  set vm : V3 ℝ := ⟨rnd (v.x + kickF rnd (c 3) e0 sc coef), rnd (v.y + kickF rnd (c 4) e1 sc coef), v.z⟩
  set vm' : V3 ℝ := V3.add v ⟨k0, k1, 0⟩ with hvm'
  have hm : Within vm vm' (8 * (u * W)) := ⟨m0, m1, by simp only [hvm', V3.add, vm]; simp; positivity⟩
  have hm' : Le vm' W := ⟨hv0, hv1, by simp only [hvm', V3.add]; simpa using hv2⟩
  -- the first vector product
  have ht0 : Within t t 0 := by simp [Within]
  obtain ⟨c1, c2⟩ := cross_err he hu0 hη c 5 hm ht0 hm' htT (p := 91 / 10 * (u * W * T) + u * W) (by linarith)
  have c1' := c1.mono (f := 21 * (u * W * T) + 4 * (u * W)) (by linarith)
  obtain ⟨d1, d2⟩ := addV_err he hu0 c1' hm c2 hm'
  have d1' := d1.mono (f := 24 * (u * W * (1 + T))) (by linarith)
  have d2' := d2.mono (f := W * (1 + 2 * T)) (by linarith)
  set vp := addF rnd (crossF rnd c 5 vm t) vm
  set vp' := V3.add (V3.cross vm' t) vm'
  -- the second vector product
  have hD : 0 < 1 + T ^ 2 := by positivity
  set q := 2 / (1 + T ^ 2) with hq
  have hq0 : 0 < q := by positivity
  have hqD : q * (1 + T ^ 2) = 2 := by rw [hq]; field_simp
  have hqT : q * T ≤ 1 := by nlinarith [sq_nonneg (T - 1)]
  have hqT0 : 0 ≤ q * T := by positivity
  have F1 : q * T * (1 + 2 * T) ≤ 5 := by nlinarith
  have F2 : q * T * (1 + T) ≤ 3 := by nlinarith
  have F3 : η * (1 + 2 * T) ≤ 2 * u := by
    have : 1 + 2 * T ≤ 2 * (1 + T ^ 2) := by nlinarith [sq_nonneg (T - 1), sq_nonneg T]
    have := mul_le_mul_of_nonneg_left this hη
    linarith
  have F4 : η * (1 + T) ≤ 2 * u := by have := mul_nonneg hη hT; linarith
  have hs' : Le s' (q * T) := by
    refine ⟨?_, ?_, ?_⟩ <;> simp only [s', V3.smul, ← hq, abs_mul, abs_of_pos hq0]
    · exact mul_le_mul_of_nonneg_left htT.1 hq0.le
    · exact mul_le_mul_of_nonneg_left htT.2.1 hq0.le
    · exact mul_le_mul_of_nonneg_left htT.2.2 hq0.le
  have G1 : W * (1 + 2 * T) * (15 * (u * (q * T)) + η) ≤ 77 * (u * W) := by
    have a1 := mul_le_mul_of_nonneg_left F1 ha0
    have a2 := mul_le_mul_of_nonneg_left F3 hW
    linarith
  have G2 : q * T * (24 * (u * W * (1 + T))) ≤ 72 * (u * W) := by
    have a1 := mul_le_mul_of_nonneg_left F2 ha0
    linarith
  have G3 : 24 * (u * W * (1 + T)) * (15 * (u * (q * T)) + η) ≤ 2 * (u * W) := by
    have a1 := mul_le_mul_of_nonneg_left F2 (mul_nonneg ha0 hu0)
    have a2 := mul_le_mul_of_nonneg_left F4 ha0
    linarith
  have G4 : W * (1 + 2 * T) * (q * T) ≤ 5 * W := by
    have a1 := mul_le_mul_of_nonneg_left F1 hW
    linarith
  have G5 : u * (W * (1 + 2 * T) * (q * T)) ≤ 5 * (u * W) := by
    have := mul_le_mul_of_nonneg_left G4 hu0; linarith
  have G6 : u * (W * (1 + 2 * T) * (15 * (u * (q * T)) + η) + q * T * (24 * (u * W * (1 + T))) + 24 * (u * W * (1 + T)) * (15 * (u * (q * T)) + η)) ≤ u * W := by
    have : W * (1 + 2 * T) * (15 * (u * (q * T)) + η) + q * T * (24 * (u * W * (1 + T))) + 24 * (u * W * (1 + T)) * (15 * (u * (q * T)) + η) ≤ 151 * (u * W) := by linarith
    have := mul_le_mul_of_nonneg_left this hu0
    linarith
  obtain ⟨x1, x2⟩ := cross_err he hu0 hη c 11 d1' hs d2' hs' (p := 159 * (u * W)) (by linarith)
  have x1' := x1.mono (f := 331 * (u * W)) (by linarith)
  have x2' := x2.mono (f := 10 * W) (by linarith)
  obtain ⟨y1, y2⟩ := addV_err he hu0 x1' hm x2' hm'
  have y1' := y1.mono (f := 353 * (u * W)) (by linarith)
  have y2' := y2.mono (f := 11 * W) (by linarith)
  set w := addF rnd (crossF rnd c 11 vp s) vm
  set w' := V3.add (V3.cross vp' s') vm'
  refine ⟨?_, ?_, ?_⟩
  · have := add_err he hu0 y1'.1 (hkx (c 17)) (A := 12 * W) ((abs_add_le _ _).trans (by linarith [y2'.1]))
    refine this.trans ?_
    linarith
  · have := add_err he hu0 y1'.2.1 (hky (c 18)) (A := 12 * W) ((abs_add_le _ _).trans (by linarith [y2'.2.1]))
    refine this.trans ?_
    linarith
  · simp only [V3.add, add_zero]
    exact y1'.2.2.trans (by linarith)

end Verif.Lemmas.FloatBoris
