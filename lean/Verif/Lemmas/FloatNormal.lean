import Verif.Model.FloatNormal
import Verif.Lemmas.FloatWall

/-! Lemmas for C121: errors of computed unit vectors, in terms of the relative error `u` and the underflow error `η` of each operation. -/

namespace Verif.Lemmas.FloatNormal
open Verif.Spec Verif.Spec.Rounding Verif.Model.FloatBoris Verif.Model.FloatRegular Verif.Model.FloatWall Verif.Model.FloatNormal Verif.Lemmas.FloatBoris

/-- The length of a vector. -/
noncomputable def len (v : V3 ℝ) : ℝ := Real.sqrt (V3.dot v v)

theorem dot_self_nonneg (v : V3 ℝ) : 0 ≤ V3.dot v v := by
  unfold V3.dot; nlinarith [mul_self_nonneg v.x, mul_self_nonneg v.y, mul_self_nonneg v.z]

theorem len_nonneg (v : V3 ℝ) : 0 ≤ len v := Real.sqrt_nonneg _
theorem len_sq (v : V3 ℝ) : len v * len v = V3.dot v v := Real.mul_self_sqrt (dot_self_nonneg v)

theorem comp_le (v : V3 ℝ) : Le v (len v) := comp_sq_le (len_nonneg v) (by rw [sq]; exact len_sq v)

section
variable {rnd : ℝ → ℝ} {u η : ℝ} (he : ∀ z, |rnd z - z| ≤ u * |z| + η) (hu0 : 0 ≤ u) (hu : u ≤ 1 / 1000000) (hη : 0 ≤ η)
include he hu0 hu hη

/-- The computed sum of squares. -/
theorem dot_err (c : ℕ → Bool) (i : ℕ) (v : V3 ℝ) (h : η ≤ 1 / 100 * (u * V3.dot v v)) : |dotF rnd c i v v - V3.dot v v| ≤ 4 * (u * V3.dot v v) := by
  have sq : ∀ (b : Bool) (x : ℝ), |prodF rnd b x x - x * x| ≤ u * (x * x) + η := by
    intro b x
    unfold prodF
    split_ifs
    · rw [sub_self, abs_zero]; have := mul_self_nonneg x; positivity
    · have := he (x * x); rwa [abs_of_nonneg (mul_self_nonneg x)] at this
  have hx := sq (c i) v.x
  have hy := sq (c (i + 1)) v.y
  have hz := sq (c (i + 2)) v.z
  have px := mul_self_nonneg v.x
  have py := mul_self_nonneg v.y
  have pz := mul_self_nonneg v.z
  have h1 := add_err he hu0 hx hy (A := v.x * v.x + v.y * v.y) (by rw [abs_of_nonneg (by linarith)])
  have h2 := add_err he hu0 h1 hz (A := V3.dot v v) (by rw [abs_of_nonneg (by linarith)]; exact le_rfl)
  refine h2.trans ?_
  have hd : V3.dot v v = v.x * v.x + v.y * v.y + v.z * v.z := rfl
  rw [hd] at h ⊢
  generalize v.x * v.x = X at *
  generalize v.y * v.y = Y at *
  generalize v.z * v.z = Z at *
  have a1 : 0 ≤ u * X := by positivity
  have a2 : 0 ≤ u * Y := by positivity
  have a3 : 0 ≤ u * Z := by positivity
  have b1 : u * (u * X) ≤ 1 / 1000000 * (u * X) := mul_le_mul_of_nonneg_right hu a1
  have b2 : u * (u * Y) ≤ 1 / 1000000 * (u * Y) := mul_le_mul_of_nonneg_right hu a2
  have b3 : u * (u * Z) ≤ 1 / 1000000 * (u * Z) := mul_le_mul_of_nonneg_right hu a3
  have b4 : u * (u * (u * X)) ≤ 1 / 1000000 * (1 / 1000000 * (u * X)) := mul_le_mul hu b1 (by positivity) (by norm_num)
  have b5 : u * (u * (u * Y)) ≤ 1 / 1000000 * (1 / 1000000 * (u * Y)) := mul_le_mul hu b2 (by positivity) (by norm_num)
  have b6 : u * η ≤ 1 / 1000000 * η := mul_le_mul_of_nonneg_right hu hη
  have b7 : u * (u * η) ≤ 1 / 1000000 * (1 / 1000000 * η) := mul_le_mul hu b6 (by positivity) (by norm_num)
  nlinarith

/-- A component divided by a computed length. -/
theorem unit_err {s S L x : ℝ} (hL : 0 < L) (hs : L * L = s) (hS : |S - s| ≤ 4 * (u * s)) (hx : |x| ≤ L) (h1 : η ≤ 1 / 100 * (u * L)) (h2 : η * L ≤ 1 / 100 * u) (h3 : η ≤ 1 / 100 * u) :
    rnd (Real.sqrt S) ≠ 0 ∧ |rnd (x * rnd (1 / rnd (Real.sqrt S))) - x / L| ≤ 8 * u := by
  have hS0 : 0 ≤ S := by
    have := (abs_le.1 hS).1
    have : u * s ≤ 1 / 1000000 * s := mul_le_mul_of_nonneg_right hu (by rw [← hs]; positivity)
    have : 0 ≤ s := by rw [← hs]; positivity
    linarith
  have hr := Real.sqrt_nonneg S
  have hrr := Real.mul_self_sqrt hS0
  set r := Real.sqrt S with hrdef
  have huL : u * L ≤ 1 / 1000000 * L := mul_le_mul_of_nonneg_right hu hL.le
  have e1 : |r - L| ≤ 4 * (u * L) := by
    have a : |r - L| * (r + L) = |S - s| := by
      rw [← hrr, ← hs, ← abs_of_nonneg (add_nonneg hr hL.le), ← abs_mul]; congr 1; ring
    have b : |r - L| * L ≤ |r - L| * (r + L) := mul_le_mul_of_nonneg_left (by linarith) (abs_nonneg _)
    have c : |r - L| * L ≤ 4 * (u * L) * L := by rw [← hs] at hS a; linarith [hS, a, b]
    exact le_of_mul_le_mul_right c hL
  have e2 : |rnd r - L| ≤ 51 / 10 * (u * L) := by
    have := rnd_err he hu0 e1 (A := L) (by rw [abs_of_pos hL])
    have : u * (L + 4 * (u * L)) ≤ u * L + 4 * (1 / 1000000 * (u * L)) := by
      have : u * (u * L) ≤ 1 / 1000000 * (u * L) := mul_le_mul_of_nonneg_right hu (by positivity)
      linarith
    have h0 : 0 ≤ u * L := by positivity
    linarith
  generalize rnd r = l at *
  have hl : 999 / 1000 * L ≤ l := by have := (abs_le.1 e2).1; linarith
  have hlpos : 0 < l := lt_of_lt_of_le (by linarith) hl
  refine ⟨hlpos.ne', ?_⟩
  have hinv : 0 < 1 / L := by positivity
  have e3 : |1 / l - 1 / L| ≤ 52 / 10 * (u * (1 / L)) := by
    have a : 1 / l - 1 / L = (L - l) / (l * L) := by field_simp
    rw [a, abs_div, abs_of_pos (by positivity : 0 < l * L), div_le_iff₀ (by positivity), abs_sub_comm]
    have b : 52 / 10 * (u * (1 / L)) * (l * L) = 52 / 10 * u * l := by field_simp
    rw [b]
    have : u * (999 / 1000 * L) ≤ u * l := mul_le_mul_of_nonneg_left hl hu0
    nlinarith
  have h2' : η ≤ 1 / 100 * (u * (1 / L)) := by
    rw [← mul_assoc, mul_one_div, le_div_iff₀ hL]; exact h2
  have e4 : |rnd (1 / l) - 1 / L| ≤ 63 / 10 * (u * (1 / L)) := by
    have := rnd_err he hu0 e3 (A := 1 / L) (by rw [abs_of_pos hinv])
    have h0 : 0 ≤ u * (1 / L) := by positivity
    have : u * (u * (1 / L)) ≤ 1 / 1000000 * (u * (1 / L)) := mul_le_mul_of_nonneg_right hu h0
    linarith
  have e5 : |x * rnd (1 / l) - x / L| ≤ 63 / 10 * u := by
    have a : x * rnd (1 / l) - x / L = x * (rnd (1 / l) - 1 / L) := by ring
    rw [a, abs_mul]
    have := mul_le_mul hx e4 (abs_nonneg _) hL.le
    refine this.trans (le_of_eq ?_)
    field_simp
  have := rnd_err he hu0 e5 (A := 1) (by rw [abs_div, abs_of_pos hL, div_le_one hL]; exact hx)
  have : u * u ≤ 1 / 1000000 * u := mul_le_mul_of_nonneg_right hu hu0
  linarith

end

/-- The triangle inequality for lengths, from the components. -/
theorem len_diff {v w : V3 ℝ} {e : ℝ} (h : Within v w e) : |len v - len w| ≤ 2 * e := by
  obtain ⟨hx, hy, hz⟩ := h
  have e0 : 0 ≤ e := (abs_nonneg _).trans hx
  have key : ∀ {v w : V3 ℝ}, |v.x - w.x| ≤ e → |v.y - w.y| ≤ e → |v.z - w.z| ≤ e → len v ≤ len w + 2 * e := by
    intro v w hx hy hz
    apply Real.sqrt_le_iff.2
    refine ⟨by have := len_nonneg w; linarith, ?_⟩
    have hw := len_sq w
    have hl := len_nonneg w
    obtain ⟨wx, wy, wz⟩ := comp_le w
    set a := v.x - w.x with ha
    set b := v.y - w.y with hb
    set d := v.z - w.z with hd
    have ex : v.x = w.x + a := by rw [ha]; ring
    have ey : v.y = w.y + b := by rw [hb]; ring
    have ez : v.z = w.z + d := by rw [hd]; ring
    have sa : a * a ≤ e * e := by rw [← abs_mul_abs_self a]; exact mul_self_le_mul_self (abs_nonneg _) hx
    have sb : b * b ≤ e * e := by rw [← abs_mul_abs_self b]; exact mul_self_le_mul_self (abs_nonneg _) hy
    have sd : d * d ≤ e * e := by rw [← abs_mul_abs_self d]; exact mul_self_le_mul_self (abs_nonneg _) hz
    have cs : w.x * a + w.y * b + w.z * d ≤ len w * (2 * e) := by
      refine le_of_sq_le_sq ?_ (by positivity) |> fun h => h
      have q : (w.x * a + w.y * b + w.z * d) ^ 2 ≤ (w.x * w.x + w.y * w.y + w.z * w.z) * (a * a + b * b + d * d) := by
        nlinarith [sq_nonneg (w.x * b - w.y * a), sq_nonneg (w.x * d - w.z * a), sq_nonneg (w.y * d - w.z * b)]
      have q2 : (len w * (2 * e)) ^ 2 = V3.dot w w * (4 * (e * e)) := by rw [← hw]; ring
      rw [q2]
      refine q.trans ?_
      have hdw := dot_self_nonneg w
      exact mul_le_mul_of_nonneg_left (by nlinarith) hdw
    unfold V3.dot at hw ⊢
    rw [ex, ey, ez]
    nlinarith
  rw [abs_le]
  constructor
  · have := key (v := w) (w := v) (by rwa [abs_sub_comm]) (by rwa [abs_sub_comm]) (by rwa [abs_sub_comm]); linarith
  · have := key hx hy hz; linarith

/-- Directions of near vectors. -/
theorem direction_err {v w : V3 ℝ} {e : ℝ} (h : Within v w e) (hv : 0 < len v) (hw : 0 < len w) :
    |v.x / len v - w.x / len w| ≤ 3 * e / len w ∧ |v.y / len v - w.y / len w| ≤ 3 * e / len w ∧ |v.z / len v - w.z / len w| ≤ 3 * e / len w := by
  have hd := len_diff h
  have key : ∀ {a b : ℝ}, |a - b| ≤ e → |a| ≤ len v → |a / len v - b / len w| ≤ 3 * e / len w := by
    intro a b h1 h2
    have q : a / len v - b / len w = (a - b) / len w + a / len v * ((len w - len v) / len w) := by field_simp; ring
    rw [q]
    refine (abs_add_le _ _).trans ?_
    rw [abs_div, abs_mul, abs_div, abs_div, abs_of_pos hv, abs_of_pos hw, abs_sub_comm (len w)]
    have a1 : |a - b| / len w ≤ e / len w := div_le_div_of_nonneg_right h1 hw.le
    have a2 : |a| / len v * (|len v - len w| / len w) ≤ 1 * (2 * e / len w) :=
      mul_le_mul ((div_le_one hv).2 h2) (div_le_div_of_nonneg_right hd hw.le) (by positivity) (by norm_num)
    have a3 : 3 * e / len w = e / len w + 2 * e / len w := by ring
    linarith
  obtain ⟨c1, c2, c3⟩ := comp_le v
  exact ⟨key h.1 c1, key h.2.1 c2, key h.2.2 c3⟩

/-- A vector near a unit vector has almost the length one. -/
theorem unit_length {n y : V3 ℝ} {u : ℝ} (hu0 : 0 ≤ u) (hu : u ≤ 1 / 1000000) (h : Within n y (8 * u)) (hy : V3.dot y y = 1) : |V3.dot n n - 1| ≤ 30 * u := by
  obtain ⟨hx, hy', hz⟩ := h
  have q : V3.dot n n - 1 = (2 * (y.x * (n.x - y.x) + y.y * (n.y - y.y) + y.z * (n.z - y.z))) + ((n.x - y.x) ^ 2 + (n.y - y.y) ^ 2 + (n.z - y.z) ^ 2) := by
    rw [← hy]; unfold V3.dot; ring
  unfold V3.dot at hy
  set a := n.x - y.x
  set b := n.y - y.y
  set d := n.z - y.z
  have sa : a ^ 2 ≤ (8 * u) ^ 2 := by rw [← sq_abs a]; exact pow_le_pow_left₀ (abs_nonneg _) hx 2
  have sb : b ^ 2 ≤ (8 * u) ^ 2 := by rw [← sq_abs b]; exact pow_le_pow_left₀ (abs_nonneg _) hy' 2
  have sd : d ^ 2 ≤ (8 * u) ^ 2 := by rw [← sq_abs d]; exact pow_le_pow_left₀ (abs_nonneg _) hz 2
  have cs : |y.x * a + y.y * b + y.z * d| ≤ 14 * u := by
    refine abs_le_of_sq_le_sq ?_ (by positivity)
    have := sq_nonneg (y.x * b - y.y * a); have := sq_nonneg (y.x * d - y.z * a); have := sq_nonneg (y.y * d - y.z * b)
    have q3 : (y.x * a + y.y * b + y.z * d) ^ 2 + (y.x * b - y.y * a) ^ 2 + (y.x * d - y.z * a) ^ 2 + (y.y * d - y.z * b) ^ 2 = (y.x * y.x + y.y * y.y + y.z * y.z) * (a ^ 2 + b ^ 2 + d ^ 2) := by ring
    rw [hy, one_mul] at q3
    nlinarith
  have uu : u ^ 2 ≤ 1 / 1000000 * u := by rw [sq]; exact mul_le_mul_of_nonneg_right hu hu0
  rw [q]
  obtain ⟨c1, c2⟩ := abs_le.1 cs
  rw [abs_le]
  constructor
  · have := sq_nonneg a; have := sq_nonneg b; have := sq_nonneg d; linarith
  · nlinarith

theorem dot_direction {v : V3 ℝ} (h : 0 < len v) : V3.dot ⟨v.x / len v, v.y / len v, v.z / len v⟩ ⟨v.x / len v, v.y / len v, v.z / len v⟩ = 1 := by
  have := len_sq v
  unfold V3.dot at this ⊢
  dsimp only
  field_simp
  nlinarith

end Verif.Lemmas.FloatNormal
