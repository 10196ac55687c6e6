import Verif.Model.FloatPoints
import Verif.Lemmas.FloatBary
import Mathlib.Tactic.FieldSimp

/-!
# C124: the points of a source line and the probes lie in the domain, in floating point arithmetic

A point outside of the mesh is found in no element and the program stops. Users give the ends of a source line, often on the boundary of the domain, and rely on all points between them being in the domain; and on the probes
being in it.
-/

namespace Verif.Props.C124
open Verif.Spec.Rounding Verif.Lemmas.Rounding Verif.Lemmas.FloatBary Verif.Model.FloatPoints

variable {rnd : ℝ → ℝ}

theorem round_rel (R : Rounding 53 (-1074) rnd) {x : ℝ} (h : x = 0 ∨ (2 : ℝ) ^ (-1000 : ℤ) ≤ |x|) : Rel ((2 : ℝ) ^ (-52 : ℤ)) (rnd x) x := by
  rcases h with rfl | h
  · rw [rnd_zero R]; exact rel_self (by positivity) 0
  · have := error_rel R (by norm_num) (x := x) (lt_of_lt_of_le (by
      rw [← zpow_natCast, ← zpow_add₀ (by norm_num : (2 : ℝ) ≠ 0)]
      exact zpow_lt_zpow_right₀ (by norm_num) (by norm_num)) h)
    rw [show (1 : ℤ) - ((53 : ℕ) : ℤ) = -52 by norm_num] at this
    exact rel_of this

/-- The term that is added to the start of the line. -/
theorem term (R : Rounding 53 (-1074) rnd) (fused : Bool) {npoints : ℕ} (hn : 0 < npoints) (hn' : npoints < 2 ^ 31) {s e : ℝ} (hs : IsFloat 53 (-1074) s) (he : IsFloat 53 (-1074) e)
    (hd : e = s ∨ (2 : ℝ) ^ (-900 : ℤ) ≤ |e - s|) (i : ℕ) :
    ∃ p, linePointF rnd fused npoints s e i = rnd (s + p) ∧ |p - i / npoints * (e - s)| ≤ (2 : ℝ) ^ (-49 : ℤ) * (i / npoints * |e - s|) := by
  refine ⟨_, rfl, ?_⟩
  have hu : (0 : ℝ) < (2 : ℝ) ^ (-52 : ℤ) := zpow_pos (by norm_num) _
  have hnr : (0 : ℝ) < npoints := by exact_mod_cast hn
  have hnr' : (npoints : ℝ) ≤ 2 ^ 31 := by exact_mod_cast hn'.le
  have d1 : Rel ((2 : ℝ) ^ (-52 : ℤ)) (rnd (e - s)) (e - s) := by
    have := error_sub R (by norm_num) he hs
    rw [show (1 : ℤ) - ((53 : ℕ) : ℤ) = -52 by norm_num] at this
    exact rel_of this
  have hinv : (2 : ℝ) ^ (-31 : ℤ) ≤ 1 / (npoints : ℝ) := by
    rw [zpow_neg, inv_eq_one_div]
    exact one_div_le_one_div_of_le hnr (by exact_mod_cast hnr')
  have d2 : Rel ((2 : ℝ) ^ (-52 : ℤ)) (rnd (1 / (npoints : ℝ))) (1 / npoints) := round_rel R (Or.inr (by
    rw [abs_of_pos (by positivity)]
    exact le_trans (zpow_le_zpow_right₀ (by norm_num) (by norm_num)) hinv))
  have d3 := d1.mul d2 hu.le
  -- the step
  have hbig : rnd (e - s) * rnd (1 / (npoints : ℝ)) = 0 ∨ (2 : ℝ) ^ (-1000 : ℤ) * 2 ^ 10 ≤ |rnd (e - s) * rnd (1 / (npoints : ℝ))| := by
    rcases hd with hd | hd
    · left
      rw [hd, sub_self, rnd_zero R, zero_mul]
    · right
      have hne : (e - s) * (1 / (npoints : ℝ)) ≠ 0 := mul_ne_zero (fun h => by
        rw [h, abs_zero] at hd
        exact absurd hd (not_le.2 (zpow_pos (by norm_num) _))) (by positivity)
      have h1 := (d3.ne (by norm_num) (by positivity) hne).1
      refine le_trans ?_ h1
      rw [abs_mul, abs_of_pos (show 0 < 1 / (npoints : ℝ) by positivity)]
      have h2 : (2 : ℝ) ^ (-900 : ℤ) * (2 : ℝ) ^ (-31 : ℤ) ≤ |e - s| * (1 / npoints) := mul_le_mul hd hinv (by positivity) (abs_nonneg _)
      have h3 : (2 : ℝ) ^ (-900 : ℤ) * (2 : ℝ) ^ (-31 : ℤ) = (2 : ℝ) ^ (-1000 : ℤ) * 2 ^ 69 := by
        rw [← zpow_natCast (2 : ℝ) 69, ← zpow_add₀ (by norm_num : (2 : ℝ) ≠ 0), ← zpow_add₀ (by norm_num : (2 : ℝ) ≠ 0)]
        norm_num
      rw [h3] at h2
      have h4 : (0 : ℝ) < (2 : ℝ) ^ (-1000 : ℤ) := zpow_pos (by norm_num) _
      generalize (2 : ℝ) ^ (-1000 : ℤ) = z at h2 h4 ⊢
      linarith
  have hz : (0 : ℝ) < (2 : ℝ) ^ (-1000 : ℤ) := zpow_pos (by norm_num) _
  have d4 := (round_rel R (hbig.imp id fun h => le_trans (by
    generalize (2 : ℝ) ^ (-1000 : ℤ) = z at hz; linarith) h)).trans d3 hu.le
  have d5 := (rel_self (le_refl (0 : ℝ)) (i : ℝ)).mul d4 (by positivity)
  -- the product
  have hbig2 : (i : ℝ) * rnd (rnd (e - s) * rnd (1 / (npoints : ℝ))) = 0 ∨ (2 : ℝ) ^ (-1000 : ℤ) ≤ |(i : ℝ) * rnd (rnd (e - s) * rnd (1 / (npoints : ℝ)))| := by
    rcases Nat.eq_zero_or_pos i with hi | hi
    · left; rw [hi, Nat.cast_zero, zero_mul]
    · rcases hbig with hb | hb
      · left; rw [hb, rnd_zero R, mul_zero]
      · right
        have h0 : rnd (e - s) * rnd (1 / (npoints : ℝ)) ≠ 0 := fun h => by
          rw [h, abs_zero] at hb
          generalize (2 : ℝ) ^ (-1000 : ℤ) = z at hz hb
          linarith
        have h1 := ((round_rel R (Or.inr (le_trans (by generalize (2 : ℝ) ^ (-1000 : ℤ) = z at hz; linarith) hb))).ne (by norm_num) hu.le h0).1
        have h2 : (1 : ℝ) ≤ i := by exact_mod_cast hi
        rw [abs_mul, abs_of_nonneg (by positivity : (0 : ℝ) ≤ i)]
        have h3 : |rnd (rnd (e - s) * rnd (1 / (npoints : ℝ)))| ≤ i * |rnd (rnd (e - s) * rnd (1 / (npoints : ℝ)))| := le_mul_of_one_le_left (abs_nonneg _) h2
        generalize (2 : ℝ) ^ (-1000 : ℤ) = z at hz hb ⊢
        linarith
  have d6 : Rel (4 * (2 : ℝ) ^ (-52 : ℤ)) (if fused then (i : ℝ) * rnd (rnd (e - s) * rnd (1 / (npoints : ℝ))) else rnd ((i : ℝ) * rnd (rnd (e - s) * rnd (1 / (npoints : ℝ)))))
      ((i : ℝ) * ((e - s) * (1 / npoints))) := by
    split
    · exact d5.mono (by linarith)
    · exact ((round_rel R hbig2).trans d5 hu.le).mono (by linarith)
  unfold Verif.Lemmas.FloatBary.Rel at d6
  rw [show (i : ℝ) * ((e - s) * (1 / (npoints : ℝ))) = i / npoints * (e - s) by field_simp] at d6
  refine d6.trans ?_
  rw [abs_mul, abs_of_nonneg (by positivity : (0 : ℝ) ≤ i / npoints)]
  refine mul_le_mul_of_nonneg_right ?_ (by positivity)
  have := exp_le_two (s := 4 * (2 : ℝ) ^ (-52 : ℤ)) (by positivity) (by norm_num)
  norm_num at this ⊢
  linarith

/-- The term does not leave the segment. -/
theorem term_le {npoints i : ℕ} (hn' : npoints < 2 ^ 31) (hi : i < npoints) {p d : ℝ} (h : |p - i / npoints * d| ≤ (2 : ℝ) ^ (-49 : ℤ) * (i / npoints * |d|)) :
    (0 ≤ d → 0 ≤ p ∧ p ≤ d) ∧ (d ≤ 0 → d ≤ p ∧ p ≤ 0) := by
  have hnr : (0 : ℝ) < npoints := by exact_mod_cast (Nat.zero_le i).trans_lt hi
  have hnr' : (npoints : ℝ) ≤ 2 ^ 31 := by exact_mod_cast hn'.le
  have hi' : (i : ℝ) + 1 ≤ npoints := by exact_mod_cast hi
  have hq : (0 : ℝ) ≤ i / npoints := by positivity
  have hq' : (1 + (2 : ℝ) ^ (-49 : ℤ)) * ((i : ℝ) / npoints) ≤ 1 := by
    rw [mul_div_assoc', div_le_one hnr]
    have gen : ∀ x y : ℝ, y ≤ 2 ^ 31 → x + 1 ≤ y → (1 + (2 : ℝ) ^ (-49 : ℤ)) * x ≤ y := by
      intro x y hy hx
      norm_num at hy ⊢
      linarith
    exact gen _ _ hnr' hi'
  obtain ⟨h1, h2⟩ := abs_le.1 h
  have hsmall : (2 : ℝ) ^ (-49 : ℤ) ≤ 1 := zpow_le_one_of_nonpos₀ (by norm_num) (by norm_num)
  constructor
  · intro hd
    rw [abs_of_nonneg hd] at h1 h2
    have a := mul_le_mul_of_nonneg_right hq' hd
    have b := mul_le_mul_of_nonneg_right hsmall (mul_nonneg hq hd)
    rw [one_mul] at a b
    rw [add_mul, add_mul, one_mul, mul_assoc] at a
    constructor <;> linarith
  · intro hd
    rw [abs_of_nonpos hd] at h1 h2
    have a := mul_le_mul_of_nonneg_right hq' (neg_nonneg.2 hd)
    have b := mul_le_mul_of_nonneg_right hsmall (mul_nonneg hq (neg_nonneg.2 hd))
    rw [one_mul] at a b
    rw [add_mul, add_mul, one_mul, mul_assoc] at a
    constructor <;> linarith

/-- **The points of a line are between its ends** in every coordinate, for every number of points that fits in an int, every rounding mode and whether or not the compiler fuses the product. -/
theorem line_between (R : Rounding 53 (-1074) rnd) (fused : Bool) {npoints : ℕ} (hn' : npoints < 2 ^ 31) {s e : ℝ} (hs : IsFloat 53 (-1074) s) (he : IsFloat 53 (-1074) e)
    (hd : e = s ∨ (2 : ℝ) ^ (-900 : ℤ) ≤ |e - s|) (i : ℕ) (hi : i < npoints) : min s e ≤ linePointF rnd fused npoints s e i ∧ linePointF rnd fused npoints s e i ≤ max s e := by
  obtain ⟨p, hp, herr⟩ := term R fused ((Nat.zero_le i).trans_lt hi) hn' hs he hd i
  obtain ⟨up, down⟩ := term_le hn' hi herr
  rw [hp]
  rcases le_total s e with h | h
  · obtain ⟨a, b⟩ := up (by linarith)
    rw [min_eq_left h, max_eq_right h]
    exact ⟨le_rnd R hs (by linarith), rnd_le R he (by linarith)⟩
  · obtain ⟨a, b⟩ := down (by linarith)
    rw [min_eq_right h, max_eq_left h]
    exact ⟨le_rnd R he (by linarith), rnd_le R hs (by linarith)⟩

/-- **In a box** (partial: it is false in other domains, `inclined_line_leaves`): if the ends of the line are in a box, so are all its points, in all dimensions. -/
theorem line_in_domain_partial (R : Rounding 53 (-1074) rnd) (fused : Bool) {npoints : ℕ} (hn' : npoints < 2 ^ 31) {D : ℕ} (lo hi s e : Fin D → ℝ) (hs : ∀ d, IsFloat 53 (-1074) (s d)) (he : ∀ d, IsFloat 53 (-1074) (e d))
    (hd : ∀ d, e d = s d ∨ (2 : ℝ) ^ (-900 : ℤ) ≤ |e d - s d|) (hsb : ∀ d, lo d ≤ s d ∧ s d ≤ hi d) (heb : ∀ d, lo d ≤ e d ∧ e d ≤ hi d) (i : ℕ) (hi' : i < npoints) :
    ∀ d, lo d ≤ linePointF rnd fused npoints (s d) (e d) i ∧ linePointF rnd fused npoints (s d) (e d) i ≤ hi d := by
  intro d
  obtain ⟨a, b⟩ := line_between R fused hn' (hs d) (he d) (hd d) i hi'
  exact ⟨le_trans (le_min (hsb d).1 (heb d).1) a, b.trans (max_le (hsb d).2 (heb d).2)⟩

/-- **The points are those of the line**, up to one rounding error of the coordinates and eight of the length. -/
theorem line_error (R : Rounding 53 (-1074) rnd) (fused : Bool) {npoints : ℕ} (hn' : npoints < 2 ^ 31) {s e : ℝ} (hs : IsFloat 53 (-1074) s) (he : IsFloat 53 (-1074) e)
    (hd : e = s ∨ (2 : ℝ) ^ (-900 : ℤ) ≤ |e - s|) (i : ℕ) (hi : i < npoints) :
    |linePointF rnd fused npoints s e i - (s + i / npoints * (e - s))| ≤ (2 : ℝ) ^ (-52 : ℤ) * max |s| |e| + (2 : ℝ) ^ (-49 : ℤ) * |e - s| + (2 : ℝ) ^ (-1074 : ℤ) := by
  obtain ⟨p, hp, herr⟩ := term R fused ((Nat.zero_le i).trans_lt hi) hn' hs he hd i
  obtain ⟨up, down⟩ := term_le hn' hi herr
  have hmag : |s + p| ≤ max |s| |e| := by
    rcases le_total s e with h | h
    · obtain ⟨a, b⟩ := up (by linarith)
      exact abs_le_max_abs_abs (by linarith) (by linarith)
    · obtain ⟨a, b⟩ := down (by linarith)
      rw [max_comm]
      exact abs_le_max_abs_abs (by linarith) (by linarith)
  have h1 := error R (by norm_num) (s + p)
  rw [show (1 : ℤ) - ((53 : ℕ) : ℤ) = -52 by norm_num] at h1
  have h2 := mul_le_mul_of_nonneg_left hmag (by positivity : (0 : ℝ) ≤ (2 : ℝ) ^ (-52 : ℤ))
  have hnr : (0 : ℝ) < npoints := by exact_mod_cast (Nat.zero_le i).trans_lt hi
  have hq : (i : ℝ) / npoints ≤ 1 := (div_le_one hnr).2 (by exact_mod_cast hi.le)
  have h3 : (2 : ℝ) ^ (-49 : ℤ) * (i / npoints * |e - s|) ≤ (2 : ℝ) ^ (-49 : ℤ) * |e - s| := mul_le_mul_of_nonneg_left (mul_le_of_le_one_left (abs_nonneg _) hq) (by positivity)
  rw [hp]
  have h4 := abs_add_le (rnd (s + p) - (s + p)) (p - i / npoints * (e - s))
  rw [show rnd (s + p) - (s + p) + (p - i / npoints * (e - s)) = rnd (s + p) - (s + i / npoints * (e - s)) by ring] at h4
  exact h4.trans ((add_le_add (h1.trans (add_le_add h2 le_rfl)) (herr.trans h3)).trans (le_of_eq (by ring)))

/-- The first point is the start of the line. -/
theorem line_first (R : Rounding 53 (-1074) rnd) (fused : Bool) (npoints : ℕ) {s e : ℝ} (hs : IsFloat 53 (-1074) s) : linePointF rnd fused npoints s e 0 = s := by
  unfold linePointF
  simp [rnd_zero R, R.exact _ hs]

/-- The points are in the order of their indices. -/
theorem line_monotone (R : Rounding 53 (-1074) rnd) (fused : Bool) (npoints : ℕ) {s e : ℝ} (h : s ≤ e) {i j : ℕ} (hij : i ≤ j) : linePointF rnd fused npoints s e i ≤ linePointF rnd fused npoints s e j := by
  unfold linePointF
  have h0 : 0 ≤ rnd (rnd (e - s) * rnd (1 / (npoints : ℝ))) := rnd_nonneg R (mul_nonneg (rnd_nonneg R (by linarith)) (rnd_nonneg R (by positivity)))
  have h1 : (i : ℝ) * rnd (rnd (e - s) * rnd (1 / (npoints : ℝ))) ≤ j * rnd (rnd (e - s) * rnd (1 / (npoints : ℝ))) := mul_le_mul_of_nonneg_right (by exact_mod_cast hij) h0
  refine R.mono (add_le_add le_rfl ?_)
  split
  · exact h1
  · exact R.mono h1

/-! ### Domains that are not boxes -/

/-- **A line along an inclined boundary leaves the domain**: for every rounding mode, the second of five points of the line from (0, 0) to (1, 3) is not on the line, so there is a domain with a straight boundary that contains the
line but not the point. -/
theorem inclined_line_leaves (R : Rounding 53 (-1074) rnd) (fused : Bool) : ∃ a b : ℝ, (∀ t : ℝ, 0 ≤ t → t ≤ 1 → a * (t * 1) + b * (t * 3) ≤ 0) ∧ 0 < a * linePointF rnd fused 5 0 1 1 + b * linePointF rnd fused 5 0 3 1 := by
  have fi : ∀ m : ℤ, |m| ≤ 2 ^ 53 → IsFloat 53 (-1074) (m : ℝ) := fun m hm => float_int (by norm_num) (by norm_num) hm
  have f1 : rnd (1 : ℝ) = 1 := R.exact _ (by simpa using fi 1 (by norm_num))
  have f3 : rnd (3 : ℝ) = 3 := R.exact _ (by simpa using fi 3 (by norm_num))
  have idem : ∀ x, rnd (rnd x) = rnd x := fun x => R.exact _ (R.float x)
  obtain ⟨q, hq⟩ : ∃ q, q = rnd (1 / 5) := ⟨_, rfl⟩
  have fq : rnd q = q := by rw [hq, idem]
  have hx : linePointF rnd fused 5 0 1 1 = q := by
    unfold linePointF
    cases fused <;> simp only [Nat.cast_ofNat, sub_zero, f1, one_mul, Nat.cast_one, zero_add, ← hq, fq, if_true, if_false, Bool.false_eq_true]
  have hy : linePointF rnd fused 5 0 3 1 = rnd (3 * q) := by
    unfold linePointF
    cases fused <;> simp only [Nat.cast_ofNat, sub_zero, f3, one_mul, Nat.cast_one, zero_add, ← hq, idem, if_true, if_false, Bool.false_eq_true]
  have hlow : ((7205759403792793 : ℤ) : ℝ) * (2 : ℝ) ^ (-55 : ℤ) ≤ q := by
    rw [hq]
    exact le_rnd R (float_of_multiple (by norm_num) (by norm_num) (by norm_num)) (by norm_num)
  have hupp : q ≤ ((7205759403792794 : ℤ) : ℝ) * (2 : ℝ) ^ (-55 : ℤ) := by
    rw [hq]
    exact rnd_le R (float_of_multiple (by norm_num) (by norm_num) (by norm_num)) (by norm_num)
  have hne : rnd (3 * q) ≠ 3 * q := by
    intro h
    have hqpos : (2 : ℝ) ^ (-3 : ℤ) ≤ q := le_trans (by norm_num) hlow
    obtain ⟨j, hj⟩ := float_grid (hq ▸ R.float (1 / 5) : IsFloat 53 (-1074) q) (-3) (hqpos.trans (le_abs_self q))
    obtain ⟨l, hl⟩ := float_grid (h ▸ R.float (3 * q) : IsFloat 53 (-1074) (3 * q)) (-1) (le_trans (by norm_num at hlow ⊢; linarith) (le_abs_self (3 * q)))
    rw [show (-3 : ℤ) + 1 - ((53 : ℕ) : ℤ) = -55 by norm_num] at hj
    rw [show (-1 : ℤ) + 1 - ((53 : ℕ) : ℤ) = -53 by norm_num, hj] at hl
    rw [hj] at hlow hupp
    have hp : (0 : ℝ) < (2 : ℝ) ^ (-55 : ℤ) := zpow_pos (by norm_num) _
    have a := le_of_mul_le_mul_right hlow hp
    have b := le_of_mul_le_mul_right hupp hp
    have a' : (7205759403792793 : ℤ) ≤ j := by exact_mod_cast a
    have b' : j ≤ (7205759403792794 : ℤ) := by exact_mod_cast b
    have c : (3 : ℝ) * j = 4 * l := by norm_num at hl; linarith
    have c' : 3 * j = 4 * l := by exact_mod_cast c
    omega
  rw [hx, hy]
  rcases lt_or_gt_of_ne hne with h | h
  · exact ⟨3, -1, fun t _ _ => by linarith, by linarith⟩
  · exact ⟨-3, 1, fun t _ _ => by linarith, by linarith⟩

/-! ### Probes -/

/-- **The probes are those of the grid and in the domain**: in each direction, the probe `i` of `n` is the middle of the cell `i` up to 24 rounding errors of the coordinates of the domain, and strictly inside of the domain, unless
the cells are so small that they are not resolved by the coordinates. `extent` is the computed extent of the domain. -/
theorem probe_in_domain (R : Rounding 53 (-1074) rnd) (c : ℕ → Bool) {origin upper : ℝ} (ho : IsFloat 53 (-1074) origin) (hu : IsFloat 53 (-1074) upper) (hL : (2 : ℝ) ^ (-900 : ℤ) ≤ upper - origin) {n i : ℕ} (hi : i < n)
    (hn : n * (|origin| + |upper|) ≤ 2 ^ 46 * (upper - origin)) :
    |probeF rnd c origin (rnd (upper - origin)) n i - (origin + (i + 1 / 2) * ((upper - origin) / n))| ≤ 24 * (2 : ℝ) ^ (-52 : ℤ) * (|origin| + |upper|) ∧
      origin < probeF rnd c origin (rnd (upper - origin)) n i ∧ probeF rnd c origin (rnd (upper - origin)) n i < upper := by
  obtain ⟨u, hu0⟩ : ∃ u, u = (2 : ℝ) ^ (-52 : ℤ) := ⟨_, rfl⟩
  obtain ⟨η, hη0⟩ : ∃ η, η = (2 : ℝ) ^ (-1074 : ℤ) := ⟨_, rfl⟩
  obtain ⟨L, hL0⟩ : ∃ L, L = upper - origin := ⟨_, rfl⟩
  obtain ⟨W, hW0⟩ : ∃ W, W = |origin| + |upper| := ⟨_, rfl⟩
  have err : ∀ x, |rnd x - x| ≤ u * |x| + η := by
    intro x
    have := error R (by norm_num) x
    rw [show (1 : ℤ) - ((53 : ℕ) : ℤ) = -52 by norm_num, ← hu0, ← hη0] at this
    exact this
  have up : 0 < u := hu0 ▸ zpow_pos (by norm_num) _
  have u1 : u ≤ 1 / 1024 := by rw [hu0]; norm_num
  have ηp : 0 < η := hη0 ▸ zpow_pos (by norm_num) _
  have e1 : |rnd L - L| ≤ u * |L| := by
    have := error_sub R (by norm_num) hu ho
    rw [show (1 : ℤ) - ((53 : ℕ) : ℤ) = -52 by norm_num, ← hu0, ← hL0] at this
    exact this
  rw [← hL0, ← hW0] at hn
  rw [← hL0] at hL
  have Lp : 0 < L := lt_of_lt_of_le (zpow_pos (by norm_num) _) hL
  have LW : L ≤ W := by
    have a := le_abs_self upper
    have b := neg_abs_le origin
    rw [hL0, hW0]; linarith
  have np : (0 : ℝ) < n := by exact_mod_cast (Nat.zero_le i).trans_lt hi
  have n1 : (1 : ℝ) ≤ n := by exact_mod_cast (Nat.zero_le i).trans_lt hi
  have i0 : (0 : ℝ) ≤ i := Nat.cast_nonneg i
  have i1 : (i : ℝ) + 1 ≤ n := by exact_mod_cast hi
  have nle : (n : ℝ) ≤ 2 ^ 46 := by
    by_contra hcon
    push Not at hcon
    have h1 : (2 : ℝ) ^ 46 * L < n * L := mul_lt_mul_of_pos_right hcon Lp
    have h2 : n * L ≤ n * W := mul_le_mul_of_nonneg_left LW np.le
    linarith
  -- underflow is below the rounding errors
  have hηn : n * η ≤ u * L := by
    have h1 : n * η ≤ 2 ^ 46 * η := mul_le_mul_of_nonneg_right nle ηp.le
    have h2 : u * (2 : ℝ) ^ (-900 : ℤ) ≤ u * L := mul_le_mul_of_nonneg_left hL up.le
    have h3 : 2 ^ 46 * η ≤ u * (2 : ℝ) ^ (-900 : ℤ) := by
      rw [hη0, hu0, ← zpow_natCast (2 : ℝ) 46, ← zpow_add₀ (by norm_num : (2 : ℝ) ≠ 0), ← zpow_add₀ (by norm_num : (2 : ℝ) ≠ 0)]
      exact zpow_le_zpow_right₀ (by norm_num) (by norm_num)
    exact h1.trans (h3.trans h2)
  have hη1 : η ≤ u * L := (le_mul_of_one_le_left ηp.le n1).trans hηn
  have uLW : u * L ≤ u * W := mul_le_mul_of_nonneg_left LW up.le
  have uLL : u * L ≤ L / 1024 := by
    have := mul_le_mul_of_nonneg_right u1 Lp.le
    linarith
  have uWW : u * W ≤ W / 1024 := by
    have := mul_le_mul_of_nonneg_right u1 (Lp.le.trans LW)
    linarith
  have uL0 : 0 < u * L := mul_pos up Lp
  rw [abs_of_pos Lp] at e1
  obtain ⟨e1a, e1b⟩ := abs_le.1 e1
  -- the cell width, times n
  obtain ⟨h, hh⟩ : ∃ h, h = rnd (rnd L / n) := ⟨_, rfl⟩
  have hext0 : 0 ≤ rnd L / n := div_nonneg (rnd_nonneg R Lp.le) np.le
  have h0 : 0 ≤ h := hh ▸ rnd_nonneg R hext0
  have e2 : |n * h - L| ≤ 4 * (u * L) := by
    have a := err (rnd L / n)
    rw [← hh, abs_of_nonneg hext0] at a
    have b := mul_le_mul_of_nonneg_left a np.le
    rw [← abs_of_pos np, ← abs_mul, abs_of_pos np, mul_sub, mul_add] at b
    have c1 : n * (rnd L / n) = rnd L := by field_simp
    have c2 : n * (u * (rnd L / n)) = u * rnd L := by field_simp
    rw [c1, c2] at b
    have c3 : u * rnd L ≤ u * (2 * L) := mul_le_mul_of_nonneg_left (by linarith) up.le
    have c4 := abs_add_le (n * h - rnd L) (rnd L - L)
    rw [show n * h - rnd L + (rnd L - L) = n * h - L by ring] at c4
    linarith
  obtain ⟨e2a, e2b⟩ := abs_le.1 e2
  have hle : h ≤ n * h := le_mul_of_one_le_left h0 n1
  have ihle : i * h ≤ n * h := mul_le_mul_of_nonneg_right (by linarith) h0
  have ih0 : 0 ≤ i * h := mul_nonneg i0 h0
  -- (i + 1/2) h against (i + 1/2) L / n
  have e3 : |(i + 1 / 2) * h - (i + 1 / 2) * (L / n)| ≤ 4 * (u * L) := by
    rw [show ((i : ℝ) + 1 / 2) * h - (i + 1 / 2) * (L / n) = (i + 1 / 2) / n * (n * h - L) by field_simp, abs_mul, abs_of_nonneg (by positivity)]
    refine (mul_le_of_le_one_left (abs_nonneg _) ?_).trans e2
    rw [div_le_one np]; linarith
  -- half of it
  obtain ⟨g, hg⟩ : ∃ g, g = (if c 0 then (1 / 2) * h else rnd ((1 / 2) * h)) := ⟨_, rfl⟩
  have e4 : |g - 1 / 2 * h| ≤ 3 * (u * L) := by
    rw [hg]
    split
    · rw [sub_self, abs_zero]; linarith
    · have a := err (1 / 2 * h)
      rw [abs_of_nonneg (by linarith : 0 ≤ 1 / 2 * h)] at a
      have b : u * (1 / 2 * h) ≤ u * (2 * L) := mul_le_mul_of_nonneg_left (by linarith) up.le
      linarith
  obtain ⟨e4a, e4b⟩ := abs_le.1 e4
  obtain ⟨m, hm⟩ : ∃ m, m = rnd (origin + g) := ⟨_, rfl⟩
  have oW : |origin| ≤ W := by rw [hW0]; linarith [abs_nonneg upper]
  have gabs : |g| ≤ 2 * L := abs_le.2 ⟨by linarith, by linarith⟩
  have e5 : |m - (origin + g)| ≤ 4 * (u * W) := by
    have a := err (origin + g)
    rw [← hm] at a
    have b : u * |origin + g| ≤ u * (3 * W) := mul_le_mul_of_nonneg_left ((abs_add_le _ _).trans (by linarith)) up.le
    linarith
  -- the offset
  obtain ⟨p, hp⟩ : ∃ p, p = (if c 1 then (i : ℝ) * h else rnd ((i : ℝ) * h)) := ⟨_, rfl⟩
  have e6 : |p - i * h| ≤ 3 * (u * L) := by
    rw [hp]
    split
    · rw [sub_self, abs_zero]; linarith
    · have a := err (i * h)
      rw [abs_of_nonneg ih0] at a
      have b : u * (i * h) ≤ u * (2 * L) := mul_le_mul_of_nonneg_left (by linarith) up.le
      linarith
  obtain ⟨e6a, e6b⟩ := abs_le.1 e6
  have pabs : |p| ≤ 2 * L := abs_le.2 ⟨by linarith, by linarith⟩
  have mabs : |m| ≤ 4 * W := by
    have a := abs_sub_abs_le_abs_sub m (origin + g)
    have b := abs_add_le origin g
    linarith
  have e7 : |rnd (m + p) - (m + p)| ≤ 7 * (u * W) := by
    have a := err (m + p)
    have b : u * |m + p| ≤ u * (6 * W) := mul_le_mul_of_nonneg_left ((abs_add_le _ _).trans (by linarith)) up.le
    linarith
  have hval : probeF rnd c origin (rnd (upper - origin)) n i = rnd (m + p) := by
    rw [hm, hp, hg, hh, hL0]
    rfl
  have total : |rnd (m + p) - (origin + (i + 1 / 2) * (L / n))| ≤ 24 * (u * W) := by
    obtain ⟨a1, a2⟩ := abs_le.1 e3
    obtain ⟨a3, a4⟩ := abs_le.1 e5
    obtain ⟨a5, a6⟩ := abs_le.1 e7
    exact abs_le.2 ⟨by linarith, by linarith⟩
  rw [hval, ← hL0, ← hW0, ← hu0, mul_assoc]
  refine ⟨total, ?_⟩
  obtain ⟨t1, t2⟩ := abs_le.1 total
  have small : 24 * (u * W) < 1 / 2 * (L / n) := by
    rw [mul_div_assoc', lt_div_iff₀ np]
    have a : u * (n * W) ≤ u * (2 ^ 46 * L) := mul_le_mul_of_nonneg_left hn up.le
    have b : u * (2 ^ 46 * L) = 1 / 64 * L := by rw [hu0]; norm_num; ring
    rw [show 24 * (u * W) * n = 24 * (u * (n * W)) by ring]
    linarith
  have Ln : 0 < L / n := div_pos Lp np
  have low : 1 / 2 * (L / n) ≤ (i + 1 / 2) * (L / n) := mul_le_mul_of_nonneg_right (by linarith) Ln.le
  have high : (i + 1 / 2) * (L / n) ≤ L - 1 / 2 * (L / n) := by
    have : ((i : ℝ) + 1) * (L / n) ≤ n * (L / n) := mul_le_mul_of_nonneg_right i1 Ln.le
    rw [show (n : ℝ) * (L / n) = L by field_simp] at this
    linarith
  constructor
  · linarith
  · linarith

/-! ### The hypotheses are met -/

/-- The points of a source line across the domain from 0 to 110, whose ends are on the boundary. -/
example (R : Rounding 53 (-1074) rnd) (i : ℕ) (hi : i < 1000) : 0 ≤ linePointF rnd false 1000 0 110 i ∧ linePointF rnd false 1000 0 110 i ≤ 110 := by
  have h := line_between R false (npoints := 1000) (by norm_num) (s := 0) (e := 110) float_zero
    (by simpa using float_int (p := 53) (emin := -1074) (by norm_num) (by norm_num) (m := 110) (by norm_num)) (Or.inr (le_trans (zpow_le_one_of_nonpos₀ (by norm_num) (by norm_num)) (by norm_num))) i hi
  simpa using h

/-- Thousand probes in a domain from -1 to 1. -/
example (R : Rounding 53 (-1074) rnd) (c : ℕ → Bool) (i : ℕ) (hi : i < 1000) : -1 < probeF rnd c (-1) (rnd (1 - -1)) 1000 i ∧ probeF rnd c (-1) (rnd (1 - -1)) 1000 i < 1 := by
  have f1 : IsFloat 53 (-1074) (1 : ℝ) := by simpa using float_int (p := 53) (emin := -1074) (by norm_num) (by norm_num) (m := 1) (by norm_num)
  exact (probe_in_domain R c (float_neg f1) f1 (le_trans (zpow_le_one_of_nonpos₀ (by norm_num) (by norm_num)) (by norm_num)) hi (by norm_num)).2

end Verif.Props.C124
