import Verif.Lemmas.FloatNormal
import Verif.Lemmas.FloatBary
import Verif.Lemmas.RoundingModes

/-!
# C121: the normals of walls in floating point arithmetic

Particles are reflected at walls with the normals which the code computes from the vertices of boundary lines and faces. Users rely on these being unit normals: otherwise each reflection heats or cools the
particles, or turns them.
-/

namespace Verif.Props.C121
open Verif.Spec Verif.Spec.Rounding Verif.Spec.FloatBary Verif.Model.FloatBoris Verif.Model.FloatRegular Verif.Model.FloatWall Verif.Model.FloatNormal Verif.Lemmas.Rounding Verif.Lemmas.FloatBoris
open Verif.Lemmas.FloatNormal (len len_nonneg len_sq comp_le dot_err unit_err len_diff direction_err unit_length dot_direction)

variable {rnd : ℝ → ℝ}

/-- The rounding unit of `double` in the directed modes. -/
noncomputable def unit : ℝ := (2 : ℝ) ^ (-52 : ℤ)

/-- The length of a vector. -/
noncomputable def length (v : V3 ℝ) : ℝ := Real.sqrt (v.x * v.x + v.y * v.y + v.z * v.z)

/-- Near in each component. -/
def Near (a b : V3 ℝ) (e : ℝ) : Prop := |a.x - b.x| ≤ e ∧ |a.y - b.y| ≤ e ∧ |a.z - b.z| ≤ e

/-- The exact normal of a line from `a` to `b`, in the plane: the direction turned by a right angle, not normalised. -/
def turned (a b : ℝ × ℝ) : V3 ℝ := ⟨-(b.2 - a.2), b.1 - a.1, 0⟩

theorem unit_pos : 0 < unit := two_pos _
theorem unit_le : unit ≤ 1 / 1000000 := by unfold unit; norm_num
theorem length_eq (v : V3 ℝ) : length v = len v := rfl

theorem err (R : DoubleRounding rnd) (x : ℝ) : |rnd x - x| ≤ unit * |x| + (2 : ℝ) ^ (-1074 : ℤ) := by
  have := error R (by norm_num) x
  rwa [show (2 : ℝ) ^ (1 - ((53 : ℕ) : ℤ)) = unit by unfold unit; norm_num] at this

/-- The underflow error is far below what is computed. -/
theorem small {x : ℝ} {k : ℤ} (hk : -1000 ≤ k) (hx : (2 : ℝ) ^ k ≤ x) : (2 : ℝ) ^ (-1074 : ℤ) ≤ 1 / 1000 * (unit * x) := by
  have h1 : (2 : ℝ) ^ (-1074 : ℤ) ≤ 2 ^ (-1064 : ℤ) * (1 / 1000) := by
    rw [show (2 : ℝ) ^ (-1074 : ℤ) = 2 ^ (-1064 : ℤ) * 2 ^ (-10 : ℤ) by rw [← zpow_add₀ (by norm_num)]; norm_num]
    exact mul_le_mul_of_nonneg_left (by norm_num) (two_pos _).le
  have h2 : (2 : ℝ) ^ (-1064 : ℤ) ≤ unit * x := by
    refine le_trans ?_ (mul_le_mul_of_nonneg_left hx unit_pos.le)
    unfold unit
    rw [← zpow_add₀ (by norm_num)]
    exact zpow_le_zpow_right₀ (by norm_num) (by omega)
  linarith

theorem small_mul {x : ℝ} (hx : x ≤ (2 : ℝ) ^ (600 : ℤ)) {y : ℝ} {k : ℤ} (hk : -400 ≤ k) (hy : (2 : ℝ) ^ k ≤ y) : (2 : ℝ) ^ (-1074 : ℤ) * x ≤ 1 / 1000 * (unit * y) := by
  have h1 : (2 : ℝ) ^ (-1074 : ℤ) * x ≤ 2 ^ (-474 : ℤ) := by
    refine (mul_le_mul_of_nonneg_left hx (two_pos _).le).trans (le_of_eq ?_)
    rw [← zpow_add₀ (by norm_num)]; norm_num
  have h2 : (2 : ℝ) ^ (-474 : ℤ) ≤ 2 ^ (-464 : ℤ) * (1 / 1000) := by
    rw [show (2 : ℝ) ^ (-474 : ℤ) = 2 ^ (-464 : ℤ) * 2 ^ (-10 : ℤ) by rw [← zpow_add₀ (by norm_num)]; norm_num]
    exact mul_le_mul_of_nonneg_left (by norm_num) (two_pos _).le
  have h3 : (2 : ℝ) ^ (-464 : ℤ) ≤ unit * y := by
    refine le_trans ?_ (mul_le_mul_of_nonneg_left hy unit_pos.le)
    unfold unit
    rw [← zpow_add₀ (by norm_num)]
    exact zpow_le_zpow_right₀ (by norm_num) (by omega)
  linarith

/-- Normalising a vector of moderate length. -/
theorem normalise (R : DoubleRounding rnd) (c : ℕ → Bool) (i : ℕ) (v : V3 ℝ) (h1 : (2 : ℝ) ^ (-401 : ℤ) ≤ len v) (h2 : len v ≤ 2 ^ (501 : ℤ)) :
    rnd (Real.sqrt (dotF rnd c i v v)) ≠ 0 ∧
    Within ⟨rnd (v.x * rnd (1 / rnd (Real.sqrt (dotF rnd c i v v)))), rnd (v.y * rnd (1 / rnd (Real.sqrt (dotF rnd c i v v)))), rnd (v.z * rnd (1 / rnd (Real.sqrt (dotF rnd c i v v))))⟩
      ⟨v.x / len v, v.y / len v, v.z / len v⟩ (8 * unit) := by
  have hL : 0 < len v := lt_of_lt_of_le (two_pos _) h1
  have hη := (two_pos (-1074)).le
  have hd : (2 : ℝ) ^ (-802 : ℤ) ≤ V3.dot v v := by
    rw [← len_sq v, show (2 : ℝ) ^ (-802 : ℤ) = 2 ^ (-401 : ℤ) * 2 ^ (-401 : ℤ) by rw [← zpow_add₀ (by norm_num)]; norm_num]
    exact mul_le_mul h1 h1 (two_pos _).le hL.le
  have s1 := small (by norm_num) hd
  have s2 := small (by norm_num) h1
  have s3 := small_mul (x := len v) (h2.trans (zpow_le_zpow_right₀ (by norm_num) (by norm_num))) (y := 1) (k := 0) (by norm_num) (by norm_num)
  have s4 := small (x := 1) (k := 0) (by norm_num) (by norm_num)
  rw [mul_one] at s3 s4
  have hupos := unit_pos
  have hul : 0 ≤ unit * len v := by positivity
  have hud : 0 ≤ unit * V3.dot v v := mul_nonneg hupos.le ((two_pos _).le.trans hd)
  have e := dot_err (err R) unit_pos.le unit_le hη c i v (by clear hd h1; linarith)
  obtain ⟨cx, cy, cz⟩ := comp_le v
  have k : ∀ {x : ℝ}, |x| ≤ len v → _ := fun hx => unit_err (err R) unit_pos.le unit_le hη hL (len_sq v) e hx (by clear hd h1; linarith) (by clear hd h1; linarith) (by clear hd h1; linarith)
  exact ⟨(k cx).1, (k cx).2, (k cy).2, (k cz).2⟩

/-- **The normal of a boundary line.** For all vertices with a distance between 2^-400 and 2^500, rounding modes and fusions: the computed normal is the exact unit normal of the line to twelve units, has the length
one to thirty units, and is perpendicular to the line to twenty four units. -/
theorem line_normal (R : DoubleRounding rnd) (c : ℕ → Bool) (a b : ℝ × ℝ) (h1 : (2 : ℝ) ^ (-400 : ℤ) ≤ length (turned a b)) (h2 : length (turned a b) ≤ 2 ^ (500 : ℤ)) :
    ∃ n, lineNormalF rnd c a b = some n ∧ |n.1 - -(b.2 - a.2) / length (turned a b)| ≤ 12 * unit ∧ |n.2 - (b.1 - a.1) / length (turned a b)| ≤ 12 * unit ∧
      |n.1 * n.1 + n.2 * n.2 - 1| ≤ 30 * unit ∧ |n.1 * (b.1 - a.1) + n.2 * (b.2 - a.2)| ≤ 24 * unit * length (turned a b) := by
  rw [length_eq] at *
  set w := turned a b with hw
  set v : V3 ℝ := ⟨-rnd (b.2 - a.2), rnd (b.1 - a.1), 0⟩ with hv
  have hM : 0 < len w := lt_of_lt_of_le (two_pos _) h1
  have hupos := unit_pos
  have hule := unit_le
  have hul : 0 < unit * len w := by positivity
  have hule2 : unit * len w ≤ 1 / 1000000 * len w := mul_le_mul_of_nonneg_right hule hM.le
  have s1 := small (by norm_num) h1
  obtain ⟨wx, wy, -⟩ := comp_le w
  have wx' : |b.2 - a.2| ≤ len w := by rw [hw] at wx; unfold turned at wx; dsimp only at wx; rwa [abs_neg] at wx
  have wy' : |b.1 - a.1| ≤ len w := wy
  have hin : Within v w (1001 / 1000 * (unit * len w)) := by
    have q : ∀ {d : ℝ}, |d| ≤ len w → |rnd d - d| ≤ 1001 / 1000 * (unit * len w) := fun {d} hd => by
      have := err R d
      have : unit * |d| ≤ unit * len w := mul_le_mul_of_nonneg_left hd hupos.le
      clear h1 h2; linarith
    refine ⟨?_, q wy', ?_⟩
    · have := q wx'
      rw [abs_sub_comm] at this
      refine le_trans (le_of_eq ?_) this
      congr 1; simp [hv, hw, turned]; ring
    · rw [show v.z - w.z = 0 by simp [hv, hw, turned], abs_zero]; linarith
  have hd := abs_le.1 (len_diff hin)
  have b1 : (2 : ℝ) ^ (-401 : ℤ) ≤ len v := by
    have : (2 : ℝ) ^ (-401 : ℤ) = 2 ^ (-400 : ℤ) / 2 := by rw [div_eq_mul_inv, ← zpow_neg_one, ← zpow_add₀ (by norm_num)]; norm_num
    rw [this]; clear h2; generalize (2 : ℝ) ^ (-400 : ℤ) = t at *; linarith [hd.1]
  have b2 : len v ≤ 2 ^ (501 : ℤ) := by
    have : (2 : ℝ) ^ (501 : ℤ) = 2 ^ (500 : ℤ) * 2 := by rw [← zpow_add_one₀ (by norm_num)]; norm_num
    rw [this]; clear h1 s1 b1 this; generalize (2 : ℝ) ^ (500 : ℤ) = t at *; linarith [hd.2]
  obtain ⟨n1, nx, ny, nz⟩ := normalise R c 0 v b1 b2
  have hvpos : 0 < len v := lt_of_lt_of_le (two_pos _) b1
  obtain ⟨d1, d2, -⟩ := direction_err hin hvpos hM
  have hdot : dotF rnd c 0 v v = rnd (prodF rnd (c 0) (-rnd (b.2 - a.2)) (-rnd (b.2 - a.2)) + prodF rnd (c 1) (rnd (b.1 - a.1)) (rnd (b.1 - a.1))) := by
    unfold dotF
    rw [show v.z = 0 from rfl, Verif.Lemmas.FloatWall.prod_zero_right R, add_zero, Verif.Lemmas.FloatWall.rnd_idem R]
  have he : lineNormalF rnd c a b = some (rnd (v.x * rnd (1 / rnd (Real.sqrt (dotF rnd c 0 v v)))), rnd (v.y * rnd (1 / rnd (Real.sqrt (dotF rnd c 0 v v))))) := by
    unfold lineNormalF
    dsimp only
    rw [← hdot, if_neg n1]
  refine ⟨_, he, ?_⟩
  have hul2 := unit_length hupos.le hule (n := ⟨_, _, _⟩) ⟨nx, ny, nz⟩ (dot_direction hvpos)
  dsimp only at nx ny nz hul2 ⊢
  have z0 : rnd (v.z * rnd (1 / rnd (Real.sqrt (dotF rnd c 0 v v)))) = 0 := by rw [show v.z = 0 from rfl, zero_mul, rnd_zero R]
  rw [z0] at hul2
  generalize rnd (v.x * rnd (1 / rnd (Real.sqrt (dotF rnd c 0 v v)))) = n0 at *
  generalize rnd (v.y * rnd (1 / rnd (Real.sqrt (dotF rnd c 0 v v)))) = m0 at *
  have dir : 3 * (1001 / 1000 * (unit * len w)) / len w ≤ 4 * unit := by
    rw [div_le_iff₀ hM]; nlinarith
  have r1 : |n0 - -(b.2 - a.2) / len w| ≤ 12 * unit := by
    have e : n0 - -(b.2 - a.2) / len w = (n0 - v.x / len v) + (v.x / len v - w.x / len w) := by simp [hw, turned]
    rw [e]
    refine (abs_add_le _ _).trans ?_
    clear h1 h2 s1 b1 b2; linarith
  have r2 : |m0 - (b.1 - a.1) / len w| ≤ 12 * unit := by
    have e : m0 - (b.1 - a.1) / len w = (m0 - v.y / len v) + (v.y / len v - w.y / len w) := by simp [hw, turned]
    rw [e]
    refine (abs_add_le _ _).trans ?_
    clear h1 h2 s1 b1 b2; linarith
  refine ⟨r1, r2, ?_, ?_⟩
  · have : V3.dot (⟨n0, m0, 0⟩ : V3 ℝ) ⟨n0, m0, 0⟩ = n0 * n0 + m0 * m0 := by unfold V3.dot; ring
    rwa [this] at hul2
  · have e : n0 * (b.1 - a.1) + m0 * (b.2 - a.2) = (n0 - -(b.2 - a.2) / len w) * (b.1 - a.1) + (m0 - (b.1 - a.1) / len w) * (b.2 - a.2) := by ring
    rw [e]
    refine (abs_add_le _ _).trans ?_
    rw [abs_mul, abs_mul]
    have p1 := mul_le_mul r1 wy' (abs_nonneg _) (by positivity)
    have p2 := mul_le_mul r2 wx' (abs_nonneg _) (by positivity)
    clear h1 h2 s1 b1 b2; linarith

/-- The sizes of a face with the edges `p`, `q` at the first vertex: lengths far from underflow, overflow, and an angle whose sine is at least 2^-40. -/
structure Face (p q : V3 ℝ) : Prop where
  first : length p ≤ 2 ^ (250 : ℤ)
  second : length q ≤ 2 ^ (250 : ℤ)
  area : (2 : ℝ) ^ (-400 : ℤ) ≤ length (V3.cross p q)
  angle : (2 : ℝ) ^ (-40 : ℤ) * (length p * length q) ≤ length (V3.cross p q)

theorem cross_le (p q : V3 ℝ) : len (V3.cross p q) ≤ len p * len q := by
  apply Real.sqrt_le_iff.2
  refine ⟨mul_nonneg (len_nonneg _) (len_nonneg _), ?_⟩
  have e : (len p * len q) ^ 2 = V3.dot p p * V3.dot q q := by rw [← len_sq p, ← len_sq q]; ring
  rw [e]
  unfold V3.dot V3.cross
  nlinarith [sq_nonneg (p.x * q.x + p.y * q.y + p.z * q.z)]

/-- **The normal of a boundary face.** For all faces of moderate size, rounding modes and fusions: the computed normal is the exact unit normal of the plane through the first, second and last vertex to forty units
divided by the sine of the angle between the edges, and has the length one to thirty units. -/
theorem face_normal (R : DoubleRounding rnd) (c : ℕ → Bool) (vs : List (V3 ℝ)) (v0 v1 v2 : V3 ℝ) (g0 : vs[0]? = some v0) (g1 : vs[1]? = some v1) (g2 : vs[vs.length - 1]? = some v2)
    (F : Face (V3.sub v1 v0) (V3.sub v2 v0)) :
    ∃ n, normalF rnd c vs = some n ∧ |V3.dot n n - 1| ≤ 30 * unit ∧
      Near n (V3.smul (1 / length (V3.cross (V3.sub v1 v0) (V3.sub v2 v0))) (V3.cross (V3.sub v1 v0) (V3.sub v2 v0)))
        (40 * unit * (length (V3.sub v1 v0) * length (V3.sub v2 v0) / length (V3.cross (V3.sub v1 v0) (V3.sub v2 v0)))) := by
  obtain ⟨f1, f2, f3, f4⟩ := F
  rw [length_eq, length_eq, length_eq] at *
  have hdx : subF rnd v1 v0 = ⟨rnd (V3.sub v1 v0).x, rnd (V3.sub v1 v0).y, rnd (V3.sub v1 v0).z⟩ := rfl
  have hdy : subF rnd v2 v0 = ⟨rnd (V3.sub v2 v0).x, rnd (V3.sub v2 v0).y, rnd (V3.sub v2 v0).z⟩ := rfl
  unfold normalF
  rw [g0, g1, g2]
  dsimp only
  rw [hdx, hdy]
  generalize V3.sub v1 v0 = p at *
  generalize V3.sub v2 v0 = q at *
  set w := V3.cross p q with hw
  have hM : 0 < len w := lt_of_lt_of_le (two_pos _) f3
  have hc := cross_le p q
  rw [← hw] at hc
  have hA := len_nonneg p
  have hB := len_nonneg q
  set A := len p with hAdef
  set B := len q with hBdef
  have hupos := unit_pos
  have hule := unit_le
  have hAB : 0 < A * B := hM.trans_le hc
  have f5 : (2 : ℝ) ^ (-400 : ℤ) ≤ A * B := f3.trans hc
  have hη := two_pos (-1074)
  have big : ∀ {x : ℝ}, x ≤ 2 ^ (250 : ℤ) → x ≤ 2 ^ (600 : ℤ) := fun h => h.trans (zpow_le_zpow_right₀ (by norm_num) (by norm_num))
  have s1 := small (by norm_num) f5
  have s2 := small_mul (big f1) (by norm_num) f5
  have s3 := small_mul (big f2) (by norm_num) f5
  -- the computed edges and their product
  have comp : ∀ (x : V3 ℝ) (X : ℝ), Le x X → Within ⟨rnd x.x, rnd x.y, rnd x.z⟩ x (unit * X + (2 : ℝ) ^ (-1074 : ℤ)) := by
    intro x X hx
    have k : ∀ {d : ℝ}, |d| ≤ X → |rnd d - d| ≤ unit * X + (2 : ℝ) ^ (-1074 : ℤ) := fun {d} hd => by
      have := err R d
      have : unit * |d| ≤ unit * X := mul_le_mul_of_nonneg_left hd hupos.le
      clear f1 f2 f3 f4 f5 s1 s2 s3; linarith
    exact ⟨k hx.1, k hx.2.1, k hx.2.2⟩
  have cp := comp p A (comp_le p)
  have cq := comp q B (comp_le q)
  obtain ⟨hin, -⟩ := cross_err (err R) hupos.le hη.le c 0 (p := 31 / 10 * (unit * (A * B))) cp cq (comp_le p) (comp_le q) (by
    rw [← hAdef, ← hBdef]
    have huu : unit * unit ≤ 1 / 1000000 * unit := mul_le_mul_of_nonneg_right hule hupos.le
    have e1 : unit * unit * (A * B) ≤ 1 / 1000000 * unit * (A * B) := mul_le_mul_of_nonneg_right huu hAB.le
    have e2 : unit * ((2 : ℝ) ^ (-1074 : ℤ) * A) ≤ 1 / 1000000 * ((2 : ℝ) ^ (-1074 : ℤ) * A) := mul_le_mul_of_nonneg_right hule (by positivity)
    have e3 : unit * ((2 : ℝ) ^ (-1074 : ℤ) * B) ≤ 1 / 1000000 * ((2 : ℝ) ^ (-1074 : ℤ) * B) := mul_le_mul_of_nonneg_right hule (by positivity)
    have e4 : unit * (unit * unit * (A * B)) ≤ 1 / 1000000 * (unit * unit * (A * B)) := mul_le_mul_of_nonneg_right hule (by positivity)
    have e5 : unit * (unit * ((2 : ℝ) ^ (-1074 : ℤ) * A)) ≤ 1 / 1000000 * (unit * ((2 : ℝ) ^ (-1074 : ℤ) * A)) := mul_le_mul_of_nonneg_right hule (by positivity)
    have e6 : unit * (unit * ((2 : ℝ) ^ (-1074 : ℤ) * B)) ≤ 1 / 1000000 * (unit * ((2 : ℝ) ^ (-1074 : ℤ) * B)) := mul_le_mul_of_nonneg_right hule (by positivity)
    have ηsmall : (2 : ℝ) ^ (-1074 : ℤ) ≤ 1 / 1000 := (zpow_le_zpow_right₀ (by norm_num) (by norm_num : (-1074 : ℤ) ≤ -10)).trans (by norm_num)
    have e7 : (2 : ℝ) ^ (-1074 : ℤ) * (2 : ℝ) ^ (-1074 : ℤ) ≤ 1 / 1000 * (2 : ℝ) ^ (-1074 : ℤ) := mul_le_mul_of_nonneg_right ηsmall hη.le
    have e8 : unit * ((2 : ℝ) ^ (-1074 : ℤ) * (2 : ℝ) ^ (-1074 : ℤ)) ≤ 1 / 1000000 * ((2 : ℝ) ^ (-1074 : ℤ) * (2 : ℝ) ^ (-1074 : ℤ)) := mul_le_mul_of_nonneg_right hule (by positivity)
    have hz : 0 < unit * (A * B) := by positivity
    have a1 : 0 ≤ (2 : ℝ) ^ (-1074 : ℤ) * A := by positivity
    have a2 : 0 ≤ (2 : ℝ) ^ (-1074 : ℤ) * B := by positivity
    clear f1 f2 f3 f4 f5 cp cq comp ηsmall
    generalize (2 : ℝ) ^ (-1074 : ℤ) = η at *
    have l1 : A * (unit * B + η) + B * (unit * A + η) + (unit * A + η) * (unit * B + η)
        = 2 * (unit * (A * B)) + η * A + η * B + unit * unit * (A * B) + unit * (η * A) + unit * (η * B) + η * η := by ring
    have l2 : unit * (A * B + (A * (unit * B + η) + B * (unit * A + η) + (unit * A + η) * (unit * B + η)))
        = unit * (A * B) + 2 * (unit * unit * (A * B)) + unit * (η * A) + unit * (η * B) + unit * (unit * unit * (A * B)) + unit * (unit * (η * A)) + unit * (unit * (η * B)) + unit * (η * η) := by ring
    rw [l2, l1]
    linarith)
  rw [← hAdef, ← hBdef, ← hw] at hin
  have hin2 : Within (crossF rnd c 0 ⟨rnd p.x, rnd p.y, rnd p.z⟩ ⟨rnd q.x, rnd q.y, rnd q.z⟩) w (9 * (unit * (A * B))) := by
    refine hin.mono ?_
    have hz : 0 < unit * (A * B) := by positivity
    have e1 : unit * (unit * (A * B)) ≤ 1 / 1000000 * (unit * (A * B)) := mul_le_mul_of_nonneg_right hule hz.le
    clear f1 f2 f3 f4 f5 cp cq comp hin
    generalize (2 : ℝ) ^ (-1074 : ℤ) = η at *
    linarith
  generalize crossF rnd c 0 ⟨rnd p.x, rnd p.y, rnd p.z⟩ ⟨rnd q.x, rnd q.y, rnd q.z⟩ = v at *
  have hsmall : 9 * (unit * (A * B)) ≤ 1 / 100 * len w := by
    have e1 : unit = (2 : ℝ) ^ (-12 : ℤ) * (2 : ℝ) ^ (-40 : ℤ) := by unfold unit; rw [← zpow_add₀ (by norm_num)]; norm_num
    have e2 : (2 : ℝ) ^ (-12 : ℤ) * ((2 : ℝ) ^ (-40 : ℤ) * (A * B)) ≤ (2 : ℝ) ^ (-12 : ℤ) * len w := mul_le_mul_of_nonneg_left f4 (two_pos _).le
    have e3 : (2 : ℝ) ^ (-12 : ℤ) * len w ≤ 1 / 1000 * len w := mul_le_mul_of_nonneg_right (by norm_num) hM.le
    have e4 : unit * (A * B) = (2 : ℝ) ^ (-12 : ℤ) * ((2 : ℝ) ^ (-40 : ℤ) * (A * B)) := by rw [e1]; ring
    rw [e4]
    have e5 : 9 * ((2 : ℝ) ^ (-12 : ℤ) * len w) ≤ 1 / 100 * len w := by rw [← mul_assoc]; exact mul_le_mul_of_nonneg_right (by norm_num) hM.le
    exact (mul_le_mul_of_nonneg_left e2 (by norm_num)).trans e5
  have hd := abs_le.1 (len_diff hin2)
  have b1 : (2 : ℝ) ^ (-401 : ℤ) ≤ len v := by
    have : (2 : ℝ) ^ (-401 : ℤ) = 2 ^ (-400 : ℤ) / 2 := by rw [div_eq_mul_inv, ← zpow_neg_one, ← zpow_add₀ (by norm_num)]; norm_num
    rw [this]; clear f1 f2 f4 f5 s1 s2 s3; generalize (2 : ℝ) ^ (-400 : ℤ) = t at *; linarith [hd.1]
  have b2 : len v ≤ 2 ^ (501 : ℤ) := by
    have e0 : (2 : ℝ) ^ (501 : ℤ) = 2 ^ (500 : ℤ) * 2 := by rw [← zpow_add_one₀ (by norm_num)]; norm_num
    have e1 : A * B ≤ 2 ^ (500 : ℤ) := by
      rw [show (2 : ℝ) ^ (500 : ℤ) = 2 ^ (250 : ℤ) * 2 ^ (250 : ℤ) by rw [← zpow_add₀ (by norm_num)]; norm_num]
      exact mul_le_mul f1 f2 hB (two_pos _).le
    rw [e0]; clear f1 f2 f3 f4 f5 s1 s2 s3 b1; generalize (2 : ℝ) ^ (500 : ℤ) = t at *; linarith [hd.2]
  obtain ⟨n1, nx, ny, nz⟩ := normalise R c 6 v b1 b2
  have hvpos : 0 < len v := lt_of_lt_of_le (two_pos _) b1
  obtain ⟨d1, d2, d3⟩ := direction_err hin2 hvpos hM
  rw [if_neg n1]
  refine ⟨_, rfl, unit_length hupos.le hule (n := ⟨_, _, _⟩) ⟨nx, ny, nz⟩ (dot_direction hvpos), ?_⟩
  dsimp only at nx ny nz
  have hq : 1 ≤ A * B / len w := (one_le_div hM).2 hc
  have hq2 : 3 * (9 * (unit * (A * B))) / len w = 27 * (unit * (A * B / len w)) := by ring
  rw [hq2] at d1 d2 d3
  have hq3 : unit ≤ unit * (A * B / len w) := by nlinarith
  have key : ∀ {n y z : ℝ}, |n - y / len v| ≤ 8 * unit → |y / len v - z / len w| ≤ 27 * (unit * (A * B / len w)) → |n - 1 / len w * z| ≤ 40 * unit * (A * B / len w) := by
    intro n y z k1 k2
    have e : n - 1 / len w * z = (n - y / len v) + (y / len v - z / len w) := by ring
    rw [e]
    refine (abs_add_le _ _).trans ?_
    clear f1 f2 f3 f4 f5 s1 s2 s3 b1 b2
    linarith
  exact ⟨key nx d1, key ny d2, key nz d3⟩

/-! ### Reflections -/

/-- The reflection of a velocity at a plane with the normal `n`, as in the contract of `BoundaryReflection` (Spec/Reflection.lean). -/
def reflect (v n : V3 ℝ) : V3 ℝ := V3.sub v (V3.smul (2 * V3.dot v n) n)

/-- A normal which the code computes for a boundary line or face of moderate size. -/
def Computed (rnd : ℝ → ℝ) (n : V3 ℝ) : Prop :=
  (∃ c a b, (2 : ℝ) ^ (-400 : ℤ) ≤ length (turned a b) ∧ length (turned a b) ≤ 2 ^ (500 : ℤ) ∧ lineNormalF rnd c a b = some (n.x, n.y) ∧ n.z = 0) ∨
  (∃ c vs v0 v1 v2, vs[0]? = some v0 ∧ vs[1]? = some v1 ∧ vs[vs.length - 1]? = some v2 ∧ Face (V3.sub v1 v0) (V3.sub v2 v0) ∧ normalF rnd c vs = some n)

theorem computed_unit (R : DoubleRounding rnd) {n : V3 ℝ} (h : Computed rnd n) : |V3.dot n n - 1| ≤ 30 * unit := by
  rcases h with ⟨c, a, b, h1, h2, h3, h4⟩ | ⟨c, vs, v0, v1, v2, g0, g1, g2, F, h⟩
  · obtain ⟨m, e, -, -, k, -⟩ := line_normal R c a b h1 h2
    rw [h3] at e
    obtain rfl : (n.x, n.y) = m := Option.some.inj e
    unfold V3.dot
    rw [h4, mul_zero, add_zero]
    exact k
  · obtain ⟨m, e, k, -⟩ := face_normal R c vs v0 v1 v2 g0 g1 g2 F
    rw [h] at e
    obtain rfl : n = m := Option.some.inj e
    exact k

/-- **A reflection at a computed normal** keeps the square of the speed to 121 units, and reverses the velocity along the normal to sixty units, so the particle moves away from the wall. -/
theorem reflection (R : DoubleRounding rnd) {n : V3 ℝ} (h : Computed rnd n) (v : V3 ℝ) :
    |V3.dot (reflect v n) (reflect v n) - V3.dot v v| ≤ 121 * unit * V3.dot v v ∧ |V3.dot (reflect v n) n + V3.dot v n| ≤ 60 * unit * |V3.dot v n| := by
  have hd := computed_unit R h
  set δ := V3.dot n n - 1 with hδ
  have hupos := unit_pos
  have hule := unit_le
  have hnn : V3.dot n n = 1 + δ := by rw [hδ]; ring
  have hvv : 0 ≤ V3.dot v v := by unfold V3.dot; nlinarith [mul_self_nonneg v.x, mul_self_nonneg v.y, mul_self_nonneg v.z]
  have cs : V3.dot v n ^ 2 ≤ V3.dot v v * V3.dot n n := by
    unfold V3.dot
    nlinarith [sq_nonneg (v.x * n.y - v.y * n.x), sq_nonneg (v.x * n.z - v.z * n.x), sq_nonneg (v.y * n.z - v.z * n.y)]
  constructor
  · have e : V3.dot (reflect v n) (reflect v n) - V3.dot v v = 4 * V3.dot v n ^ 2 * δ := by
      have : V3.dot (reflect v n) (reflect v n) = V3.dot v v - 4 * V3.dot v n ^ 2 + 4 * V3.dot v n ^ 2 * V3.dot n n := by
        unfold reflect V3.sub V3.smul V3.dot; ring
      rw [this, hnn]; ring
    rw [e, abs_mul, abs_of_nonneg (by positivity)]
    have h1 : V3.dot v n ^ 2 ≤ V3.dot v v * (1 + 30 / 1000000) := by
      refine cs.trans (mul_le_mul_of_nonneg_left ?_ hvv)
      rw [hnn]; have := (abs_le.1 hd).2; linarith
    calc 4 * V3.dot v n ^ 2 * |δ| ≤ 4 * (V3.dot v v * (1 + 30 / 1000000)) * (30 * unit) := mul_le_mul (by linarith) hd (abs_nonneg _) (by positivity)
      _ ≤ 121 * unit * V3.dot v v := by have : 0 ≤ unit * V3.dot v v := by positivity
                                        nlinarith
  · have e : V3.dot (reflect v n) n + V3.dot v n = -2 * (V3.dot v n * δ) := by
      have : V3.dot (reflect v n) n = V3.dot v n - 2 * V3.dot v n * V3.dot n n := by unfold reflect V3.sub V3.smul V3.dot; ring
      rw [this, hnn]; ring
    rw [e, abs_mul, abs_mul, show |(-2 : ℝ)| = 2 by norm_num]
    have := mul_le_mul_of_nonneg_left hd (abs_nonneg (V3.dot v n))
    linarith

/-- **Any number of reflections** at computed normals: the square of the speed changes at most by factors 1 ± 121 units. -/
theorem reflections (R : DoubleRounding rnd) (ns : List (V3 ℝ)) (h : ∀ n ∈ ns, Computed rnd n) (v : V3 ℝ) :
    (1 - 121 * unit) ^ ns.length * V3.dot v v ≤ V3.dot (ns.foldl reflect v) (ns.foldl reflect v) ∧ V3.dot (ns.foldl reflect v) (ns.foldl reflect v) ≤ (1 + 121 * unit) ^ ns.length * V3.dot v v := by
  have hupos := unit_pos
  have hule := unit_le
  induction ns generalizing v with
  | nil => simp
  | cons n ns ih =>
    obtain ⟨i1, i2⟩ := ih (fun m hm => h m (List.mem_cons_of_mem _ hm)) (reflect v n)
    obtain ⟨r1, r2⟩ := abs_le.1 (reflection R (h n List.mem_cons_self) v).1
    rw [List.foldl_cons, List.length_cons, pow_succ, pow_succ]
    have p1 : 0 ≤ (1 - 121 * unit) ^ ns.length := pow_nonneg (by linarith) _
    have p2 : 0 ≤ (1 + 121 * unit) ^ ns.length := pow_nonneg (by linarith) _
    constructor
    · refine le_trans ?_ i1
      rw [mul_assoc]
      exact mul_le_mul_of_nonneg_left (by linarith) p1
    · refine i2.trans ?_
      rw [mul_assoc (_ ^ _)]
      exact mul_le_mul_of_nonneg_left (by linarith) p2

/-! ### The hypotheses are met -/

/-- A line from (1, 0) to (4, 4). -/
example : length (turned (1, 0) (4, 4)) = 5 := by
  unfold length turned
  rw [show (5 : ℝ) = Real.sqrt (5 ^ 2) by rw [Real.sqrt_sq (by norm_num)]]
  congr 1; norm_num

example : (2 : ℝ) ^ (-400 : ℤ) ≤ 5 ∧ (5 : ℝ) ≤ 2 ^ (500 : ℤ) :=
  ⟨(zpow_le_zpow_right₀ (by norm_num) (by norm_num : (-400 : ℤ) ≤ 0)).trans (by norm_num), le_trans (by norm_num) (zpow_le_zpow_right₀ (by norm_num) (by norm_num : (3 : ℤ) ≤ 500))⟩

theorem length_of_sq {v : V3 ℝ} {l : ℝ} (hl : 0 ≤ l) (h : v.x * v.x + v.y * v.y + v.z * v.z = l ^ 2) : length v = l := by
  unfold length; rw [h, Real.sqrt_sq hl]

/-- A rectangle with the edges (3, 4, 0) and (0, 0, 2). -/
theorem face_example : Face ⟨3, 4, 0⟩ ⟨0, 0, 2⟩ := by
  have h1 : length ⟨3, 4, 0⟩ = 5 := length_of_sq (by norm_num) (by norm_num)
  have h2 : length ⟨0, 0, 2⟩ = 2 := length_of_sq (by norm_num) (by norm_num)
  have h3 : length (V3.cross ⟨3, 4, 0⟩ ⟨0, 0, 2⟩) = 10 := length_of_sq (by norm_num) (by unfold V3.cross; norm_num)
  have big : (5 : ℝ) ≤ 2 ^ (250 : ℤ) := le_trans (by norm_num) (zpow_le_zpow_right₀ (by norm_num) (by norm_num : (3 : ℤ) ≤ 250))
  have sm : (2 : ℝ) ^ (-400 : ℤ) ≤ 1 := (zpow_le_zpow_right₀ (by norm_num) (by norm_num : (-400 : ℤ) ≤ 0)).trans (by norm_num)
  refine ⟨by rw [h1]; exact big, by rw [h2]; linarith, by rw [h3]; linarith, ?_⟩
  rw [h1, h2, h3]; norm_num

/-- Rounding to nearest, ties to even, is such a rounding; the rectangle with the vertices (1,1,1), (4,5,1), (4,5,3), (1,1,3) has a computed normal, and reflections at it are as stated. -/
example (c : ℕ → Bool) : ∃ n, Computed (Verif.Lemmas.RoundingModes.nearestEven 53 (-1074)) n := by
  have R : DoubleRounding (Verif.Lemmas.RoundingModes.nearestEven 53 (-1074)) :=
    Verif.Lemmas.RoundingModes.nearest_rounding (Verif.Lemmas.RoundingModes.nearestEven_spec (by norm_num)).toNearest
  have F : Face (V3.sub ⟨4, 5, 1⟩ ⟨1, 1, 1⟩) (V3.sub ⟨1, 1, 3⟩ ⟨1, 1, 1⟩) := by
    have : V3.sub (⟨4, 5, 1⟩ : V3 ℝ) ⟨1, 1, 1⟩ = ⟨3, 4, 0⟩ := by unfold V3.sub; norm_num
    have e2 : V3.sub (⟨1, 1, 3⟩ : V3 ℝ) ⟨1, 1, 1⟩ = ⟨0, 0, 2⟩ := by unfold V3.sub; norm_num
    rw [this, e2]; exact face_example
  obtain ⟨n, hn, -⟩ := face_normal R c [⟨1, 1, 1⟩, ⟨4, 5, 1⟩, ⟨4, 5, 3⟩, ⟨1, 1, 3⟩] ⟨1, 1, 1⟩ ⟨4, 5, 1⟩ ⟨1, 1, 3⟩ rfl rfl rfl F
  exact ⟨n, Or.inr ⟨c, _, _, _, _, rfl, rfl, rfl, F, hn⟩⟩

end Verif.Props.C121
