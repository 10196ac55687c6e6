import Verif.Props.C112_FloatWalls
import Verif.Lemmas.FloatRegularLost

/-! C112: a wall at an angle is passed unnoticed, in double precision with rounding to nearest. -/

namespace Verif.Props.C112
open Verif.Spec Verif.Spec.Rounding Verif.Model.FloatBoris Verif.Model.FloatRegular Verif.Model.FloatWall Verif.Lemmas.FloatWall Verif.Lemmas.FloatBoris Verif.Lemmas.Rounding Verif.Lemmas.RoundingModes
open Verif.Lemmas.FloatRegularLost (near ex lit prod_eq)

variable {rnd : ℝ → ℝ}

/-- A rectangle in the plane `3 x + 4 y = 0`. -/
def face : List (V3 ℝ) := [⟨-8, 6, 7⟩, ⟨8, -6, 7⟩, ⟨8, -6, -7⟩, ⟨-8, 6, -7⟩]

/-- The positions of the particle. -/
noncomputable def start : V3 ℝ := ⟨9, -7, 0⟩
noncomputable def middle : V3 ℝ := ⟨-4 + 1 / 2 ^ 51, 3, 0⟩
noncomputable def finish : V3 ℝ := ⟨0, 5, 0⟩

/-- The components of the computed normal. -/
noncomputable def n0 : ℝ := 5404319552844595 / 2 ^ 53
noncomputable def n1 : ℝ := 7205759403792793 / 2 ^ 53

theorem face_wall (N : Nearest 53 (-1074) rnd) (c : ℕ → Bool) : wallF rnd c face = some ⟨⟨0, 0, 0⟩, ⟨n0, n1, 0⟩⟩ := by
  have R := nearest_rounding N
  have L : ∀ z : ℤ, |z| ≤ 2 ^ 53 → rnd z = z := fun z hz => lit R z hz
  have L0 : rnd 0 = 0 := rnd_zero R
  have P : ∀ b (x y : ℤ), |x * y| ≤ 2 ^ 53 → prodF rnd b (x : ℝ) (y : ℝ) = ((x * y : ℤ) : ℝ) := fun b x y h => prod_eq b (by push_cast; rfl) (by rw [L _ h])
  have hs1 : subF rnd ⟨8, -6, 7⟩ ⟨-8, 6, 7⟩ = ⟨((16 : ℤ) : ℝ), ((-12 : ℤ) : ℝ), ((0 : ℤ) : ℝ)⟩ := by
    unfold subF
    rw [← L 16 (by norm_num), ← L (-12) (by norm_num), ← L 0 (by norm_num)]
    norm_num
  have hs2 : subF rnd ⟨-8, 6, -7⟩ ⟨-8, 6, 7⟩ = ⟨((0 : ℤ) : ℝ), ((0 : ℤ) : ℝ), ((-14 : ℤ) : ℝ)⟩ := by
    unfold subF
    rw [← L (-14) (by norm_num), ← L 0 (by norm_num)]
    norm_num
  have hc : crossF rnd c 0 ⟨((16 : ℤ) : ℝ), ((-12 : ℤ) : ℝ), ((0 : ℤ) : ℝ)⟩ ⟨((0 : ℤ) : ℝ), ((0 : ℤ) : ℝ), ((-14 : ℤ) : ℝ)⟩ = ⟨((168 : ℤ) : ℝ), ((224 : ℤ) : ℝ), ((0 : ℤ) : ℝ)⟩ := by
    unfold crossF
    dsimp only
    rw [P _ _ _ (by norm_num), P _ _ _ (by norm_num), P _ _ _ (by norm_num), P _ _ _ (by norm_num), P _ _ _ (by norm_num), P _ _ _ (by norm_num),
      ← L 168 (by norm_num), ← L 224 (by norm_num), ← L 0 (by norm_num)]
    norm_num
  have hd : dotF rnd c 6 ⟨((168 : ℤ) : ℝ), ((224 : ℤ) : ℝ), ((0 : ℤ) : ℝ)⟩ ⟨((168 : ℤ) : ℝ), ((224 : ℤ) : ℝ), ((0 : ℤ) : ℝ)⟩ = 280 * 280 := by
    unfold dotF
    dsimp only
    have e1 : ((168 * 168 : ℤ) : ℝ) + ((224 * 224 : ℤ) : ℝ) = ((78400 : ℤ) : ℝ) := by norm_num
    have e2 : ((78400 : ℤ) : ℝ) + ((0 * 0 : ℤ) : ℝ) = ((78400 : ℤ) : ℝ) := by norm_num
    rw [P _ _ _ (by norm_num), P _ _ _ (by norm_num), P _ _ _ (by norm_num), e1, L _ (by norm_num), e2, L _ (by norm_num)]
    norm_num
  have hq : rnd (Real.sqrt (280 * 280)) = 280 := by
    rw [Real.sqrt_mul_self (by norm_num)]
    have := L 280 (by norm_num)
    simpa using this
  have hi : rnd (1 / 280) = 8235153604334621 / 2 ^ 61 := near N 8235153604334621 (-61) (by norm_num) (by norm_num) (by norm_num) (by norm_num) (by norm_num [abs_lt])
  have hx : rnd (((168 : ℤ) : ℝ) * (8235153604334621 / 2 ^ 61)) = n0 := near N 5404319552844595 (-53) (by norm_num) (by norm_num [n0]) (by norm_num) (by norm_num) (by norm_num [abs_lt, n0])
  have hy : rnd (((224 : ℤ) : ℝ) * (8235153604334621 / 2 ^ 61)) = n1 := near N 7205759403792793 (-53) (by norm_num) (by norm_num [n1]) (by norm_num) (by norm_num) (by norm_num [abs_lt, n1])
  have hn : normalF rnd c face = some ⟨n0, n1, 0⟩ := by
    unfold normalF face
    simp only [List.getElem?_cons_zero, List.getElem?_cons_succ, List.length_cons, List.length_nil, Nat.reduceAdd, Nat.reduceSub]
    rw [hs1, hs2, hc, hd, hq, if_neg (by norm_num), hi]
    dsimp only
    rw [hx, hy]
    simp [L0]
  have ha : averageF rnd face = ⟨0, 0, 0⟩ := by
    unfold averageF face
    simp only [List.foldl_cons, List.foldl_nil, zero_add]
    have a1 : rnd (-8) = -8 := by have := L (-8) (by norm_num); push_cast at this; exact this
    have a2 : rnd 6 = 6 := by have := L 6 (by norm_num); push_cast at this; exact this
    have a3 : rnd 7 = 7 := by have := L 7 (by norm_num); push_cast at this; exact this
    have a4 : rnd 8 = 8 := by have := L 8 (by norm_num); push_cast at this; exact this
    have a5 : rnd (-6) = -6 := by have := L (-6) (by norm_num); push_cast at this; exact this
    have a6 : rnd 14 = 14 := by have := L 14 (by norm_num); push_cast at this; exact this
    rw [a1, a2, a3]
    norm_num [L0, a1, a2, a3, a4, a5, a6]
  unfold wallF
  rw [hn, ha]

theorem le_prod (b : Bool) {x y : ℝ} (h : x * y ≤ rnd (x * y)) : x * y ≤ prodF rnd b x y := by unfold prodF; split_ifs <;> [exact le_rfl; exact h]
theorem prod_le (b : Bool) {x y : ℝ} (h : rnd (x * y) ≤ x * y) : prodF rnd b x y ≤ x * y := by unfold prodF; split_ifs <;> [exact le_rfl; exact h]

theorem ge_prod (b : Bool) {x y v : ℝ} (h : v ≤ x * y) (h' : v ≤ rnd (x * y)) : v ≤ prodF rnd b x y := by unfold prodF; split_ifs <;> assumption
theorem prod_ge (b : Bool) {x y v : ℝ} (h : x * y ≤ v) (h' : rnd (x * y) ≤ v) : prodF rnd b x y ≤ v := by unfold prodF; split_ifs <;> assumption

/-- The plane of the face at an angle is passed: the particle starts on one side of the face, is on the other side after its first step and moves on from there, and the wall is noticed in neither step.
The wall is the one the code constructs for the face; all numbers are doubles; rounding is to nearest, whatever products are fused. -/
theorem wall_at_angle_passed_unnoticed (N : Nearest 53 (-1074) rnd) (c c' : ℕ → Bool) :
    ∃ w, wallF rnd c face = some w ∧ (∀ q ∈ [start, middle, finish], ∀ k, IsFloat 53 (-1074) (coord k q)) ∧
      3 * start.x + 4 * start.y < 0 ∧ 0 < 3 * middle.x + 4 * middle.y ∧ 0 < 3 * finish.x + 4 * finish.y ∧
      height w start < 0 ∧ 0 < height w middle ∧ 0 < height w finish ∧
      (intersectF rnd c' w start middle).1 = false ∧ (intersectF rnd c' w middle finish).1 = false := by
  have R := nearest_rounding N
  have L : ∀ z : ℤ, |z| ≤ 2 ^ 53 → rnd z = z := fun z hz => lit R z hz
  have L0 : rnd 0 = 0 := rnd_zero R
  refine ⟨_, face_wall N c, ?_, by norm_num [start], by norm_num [middle], by norm_num [finish], by norm_num [height, V3.dot, V3.sub, start, n0, n1],
    by norm_num [height, V3.dot, V3.sub, middle, n0, n1], by norm_num [height, V3.dot, V3.sub, finish, n0, n1], ?_, ?_⟩
  · have I : ∀ z : ℤ, |z| ≤ 2 ^ 53 → IsFloat 53 (-1074) (z : ℝ) := fun z hz => float_int (by norm_num) (by norm_num) hz
    have f9 := I 9 (by norm_num)
    have f7 := I (-7) (by norm_num)
    have f0 := I 0 (by norm_num)
    have f3 := I 3 (by norm_num)
    have f5 := I 5 (by norm_num)
    have fm : IsFloat 53 (-1074) (-4 + 1 / 2 ^ 51) := ⟨-(2 ^ 53 - 1), -51, by norm_num, by norm_num, by norm_num⟩
    push_cast at f9 f7 f0 f3 f5
    intro q hq k
    simp only [List.mem_cons, List.not_mem_nil, or_false] at hq
    rcases hq with rfl | rfl | rfl <;> fin_cases k <;> simp only [coord, start, middle, finish] <;> assumption
  · have hl : subF rnd middle start = ⟨-13, 10, 0⟩ := by
      unfold subF middle start
      have e1 : rnd (-4 + 1 / 2 ^ 51 - 9) = -13 := near N (-(13 * 2 ^ 49)) (-49) (by norm_num) (by norm_num) (by norm_num) (by norm_num) (by norm_num [abs_lt])
      have e2 : rnd (3 - -7) = 10 := by have := L 10 (by norm_num); push_cast at this; rw [show (3 - -7 : ℝ) = 10 by norm_num]; exact this
      dsimp only
      rw [e1, e2, sub_zero, L0]
    have hq : subF rnd ⟨0, 0, 0⟩ start = ⟨-9, 7, 0⟩ := by
      unfold subF start
      have e1 : rnd (0 - 9) = -9 := by have := L (-9) (by norm_num); push_cast at this; rw [zero_sub]; exact this
      have e2 : rnd (0 - -7) = 7 := by have := L 7 (by norm_num); push_cast at this; rw [show (0 - -7 : ℝ) = 7 by norm_num]; exact this
      dsimp only
      rw [e1, e2, sub_zero, L0]
    have p1 : rnd (-9 * n0) = -6079859496950169 / 2 ^ 50 := near N (-6079859496950169) (-50) (by norm_num) (by norm_num) (by norm_num) (by norm_num) (by norm_num [abs_lt, n0])
    have p2 : rnd (7 * n1) = 6305039478318694 / 2 ^ 50 := near N 6305039478318694 (-50) (by norm_num) (by norm_num) (by norm_num) (by norm_num) (by norm_num [abs_lt, n1])
    have p3 : rnd (-13 * n0) = -8782019273372467 / 2 ^ 50 := near N (-8782019273372467) (-50) (by norm_num) (by norm_num) (by norm_num) (by norm_num) (by norm_num [abs_lt, n0])
    have p4 : rnd (10 * n1) = 9007199254740991 / 2 ^ 50 := near N 9007199254740991 (-50) (by norm_num) (by norm_num) (by norm_num) (by norm_num) (by norm_num [abs_lt, n1])
    have fX : IsFloat 53 (-1074) (7205759403792784 / 2 ^ 55) := ⟨7205759403792784, -55, by norm_num, by norm_num, by norm_num⟩
    have fY : IsFloat 53 (-1074) (7205759403792780 / 2 ^ 55) := ⟨7205759403792780, -55, by norm_num, by norm_num, by norm_num⟩
    have hN : 7205759403792784 / 2 ^ 55 ≤ num rnd c' ⟨⟨0, 0, 0⟩, ⟨n0, n1, 0⟩⟩ start := by
      unfold num
      dsimp only
      rw [hq]
      unfold dotF
      dsimp only
      have a := le_prod (rnd := rnd) (c' 3) (x := -9) (y := n0) (by rw [p1]; norm_num [n0])
      have b := le_prod (rnd := rnd) (c' (3 + 1)) (x := 7) (y := n1) (by rw [p2]; norm_num [n1])
      rw [prod_zero_right R, add_zero, rnd_idem R]
      refine le_rnd R fX ?_
      refine le_trans ?_ (add_le_add a b)
      norm_num [n0, n1]
    have hD : den rnd c' ⟨⟨0, 0, 0⟩, ⟨n0, n1, 0⟩⟩ start middle ≤ 7205759403792780 / 2 ^ 55 := by
      unfold den
      dsimp only
      rw [hl]
      unfold dotF
      dsimp only
      have a := prod_le (rnd := rnd) (c' 0) (x := -13) (y := n0) (by rw [p3]; norm_num [n0])
      have b := prod_le (rnd := rnd) (c' (0 + 1)) (x := 10) (y := n1) (by rw [p4]; norm_num [n1])
      rw [prod_zero_right R, add_zero, rnd_idem R]
      refine rnd_le R fY ?_
      refine (add_le_add a b).trans ?_
      norm_num [n0, n1]
    have hD' : 1 / 8 ≤ den rnd c' ⟨⟨0, 0, 0⟩, ⟨n0, n1, 0⟩⟩ start middle := by
      unfold den
      dsimp only
      rw [hl]
      unfold dotF
      dsimp only
      have a := ge_prod (rnd := rnd) (c' 0) (x := -13) (y := n0) (v := -8782019273372467 / 2 ^ 50) (by norm_num [n0]) p3.ge
      have b := ge_prod (rnd := rnd) (c' (0 + 1)) (x := 10) (y := n1) (v := 9007199254740991 / 2 ^ 50) (by norm_num [n1]) p4.ge
      rw [prod_zero_right R, add_zero, rnd_idem R]
      refine le_rnd R (⟨1, -3, by norm_num, by norm_num, by norm_num⟩ : IsFloat 53 (-1074) (1 / 8)) ?_
      refine le_trans ?_ (add_le_add a b)
      norm_num
    rw [Bool.eq_false_iff, Ne, intersect_iff]
    rintro ⟨h0, h1, h2⟩
    generalize hn : num rnd c' ⟨⟨0, 0, 0⟩, ⟨n0, n1, 0⟩⟩ start = n at *
    generalize hd : den rnd c' ⟨⟨0, 0, 0⟩, ⟨n0, n1, 0⟩⟩ start middle = d at *
    unfold frac at h1 h2
    rw [hn, hd] at h1 h2
    have hnpos : 0 < n := lt_of_lt_of_le (by norm_num) hN
    have hd0 : d ≠ 0 := fun h => hnpos.ne' (h0 h)
    rw [if_neg hd0] at h1 h2
    have hdpos : 0 < d := lt_of_lt_of_le (by norm_num) hD'
    have hq1 : 1 + 1 / 2 ^ 52 ≤ n / d := by
      rw [le_div_iff₀ hdpos]
      refine le_trans ?_ hN
      have := mul_le_mul_of_nonneg_left hD (show (0 : ℝ) ≤ 1 + 1 / 2 ^ 52 by norm_num)
      exact this.trans (by norm_num)
    have f1 : IsFloat 53 (-1074) (1 + 1 / 2 ^ 52) := ⟨2 ^ 52 + 1, -52, by norm_num, by norm_num, by norm_num⟩
    have := le_rnd R f1 hq1
    norm_num at this h2
    linarith
  · have fm : IsFloat 53 (-1074) (4 - 1 / 2 ^ 51) := ⟨2 ^ 53 - 1, -51, by norm_num, by norm_num, by norm_num⟩
    have hm : rnd (0 - (-4 + 1 / 2 ^ 51)) = 4 - 1 / 2 ^ 51 := by rw [show (0 - (-4 + 1 / 2 ^ 51) : ℝ) = 4 - 1 / 2 ^ 51 by norm_num]; exact R.exact _ fm
    have hl : subF rnd finish middle = ⟨4 - 1 / 2 ^ 51, 2, 0⟩ := by
      unfold subF middle finish
      have e2 : rnd (5 - 3) = 2 := by have := L 2 (by norm_num); push_cast at this; rw [show (5 - 3 : ℝ) = 2 by norm_num]; exact this
      dsimp only
      rw [hm, e2, sub_zero, L0]
    have hq : subF rnd ⟨0, 0, 0⟩ middle = ⟨4 - 1 / 2 ^ 51, -3, 0⟩ := by
      unfold subF middle
      have e2 : rnd (0 - 3) = -3 := by have := L (-3) (by norm_num); push_cast at this; rw [zero_sub]; exact this
      dsimp only
      rw [hm, e2, sub_zero, L0]
    have p1 : rnd ((4 - 1 / 2 ^ 51) * n0) = 5404319552844594 / 2 ^ 51 := near N 5404319552844594 (-51) (by norm_num) (by norm_num) (by norm_num) (by norm_num) (by norm_num [abs_lt, n0])
    have p2 : rnd (-3 * n1) = -5404319552844595 / 2 ^ 51 := near N (-5404319552844595) (-51) (by norm_num) (by norm_num) (by norm_num) (by norm_num) (by norm_num [abs_lt, n1])
    have p3 : rnd (2 * n1) = 7205759403792793 / 2 ^ 52 := near N 7205759403792793 (-52) (by norm_num) (by norm_num) (by norm_num) (by norm_num) (by norm_num [abs_lt, n1])
    have hN : num rnd c' ⟨⟨0, 0, 0⟩, ⟨n0, n1, 0⟩⟩ middle ≤ -(1 / 2 ^ 53) := by
      unfold num
      dsimp only
      rw [hq]
      unfold dotF
      dsimp only
      have a := prod_le (rnd := rnd) (c' 3) (x := 4 - 1 / 2 ^ 51) (y := n0) (by rw [p1]; norm_num [n0])
      have b := prod_le (rnd := rnd) (c' (3 + 1)) (x := -3) (y := n1) (by rw [p2]; norm_num [n1])
      rw [prod_zero_right R, add_zero, rnd_idem R]
      refine rnd_le R (⟨-1, -53, by norm_num, by norm_num, by norm_num⟩ : IsFloat 53 (-1074) (-(1 / 2 ^ 53))) ?_
      refine (add_le_add a b).trans ?_
      norm_num [n0, n1]
    have hD : 1 ≤ den rnd c' ⟨⟨0, 0, 0⟩, ⟨n0, n1, 0⟩⟩ middle finish := by
      unfold den
      dsimp only
      rw [hl]
      unfold dotF
      dsimp only
      have a := ge_prod (rnd := rnd) (c' 0) (x := 4 - 1 / 2 ^ 51) (y := n0) (v := 0) (by norm_num [n0]) (by rw [p1]; norm_num)
      have b := ge_prod (rnd := rnd) (c' (0 + 1)) (x := 2) (y := n1) (v := 1) (by norm_num [n1]) (by rw [p3]; norm_num)
      rw [prod_zero_right R, add_zero, rnd_idem R]
      refine le_rnd R (⟨1, 0, by norm_num, by norm_num, by norm_num⟩ : IsFloat 53 (-1074) 1) ?_
      refine le_trans ?_ (add_le_add a b)
      norm_num
    have hD' : den rnd c' ⟨⟨0, 0, 0⟩, ⟨n0, n1, 0⟩⟩ middle finish ≤ 8 := by
      unfold den
      dsimp only
      rw [hl]
      unfold dotF
      dsimp only
      have a := prod_ge (rnd := rnd) (c' 0) (x := 4 - 1 / 2 ^ 51) (y := n0) (v := 4) (by norm_num [n0]) (by rw [p1]; norm_num)
      have b := prod_ge (rnd := rnd) (c' (0 + 1)) (x := 2) (y := n1) (v := 4) (by norm_num [n1]) (by rw [p3]; norm_num)
      rw [prod_zero_right R, add_zero, rnd_idem R]
      refine rnd_le R (⟨8, 0, by norm_num, by norm_num, by norm_num⟩ : IsFloat 53 (-1074) 8) ?_
      refine (add_le_add a b).trans ?_
      norm_num
    rw [Bool.eq_false_iff, Ne, intersect_iff]
    rintro ⟨h0, h1, h2⟩
    generalize hn : num rnd c' ⟨⟨0, 0, 0⟩, ⟨n0, n1, 0⟩⟩ middle = n at *
    generalize hd : den rnd c' ⟨⟨0, 0, 0⟩, ⟨n0, n1, 0⟩⟩ middle finish = d at *
    unfold frac at h1 h2
    rw [hn, hd] at h1 h2
    have hdpos : 0 < d := lt_of_lt_of_le (by norm_num) hD
    rw [if_neg hdpos.ne'] at h1 h2
    have hq1 : n / d ≤ -(1 / 2 ^ 56) := by
      rw [div_le_iff₀ hdpos]
      have := mul_le_mul_of_nonneg_left hD' (show (0 : ℝ) ≤ 1 / 2 ^ 56 by norm_num)
      norm_num at this hN ⊢
      linarith
    have f1 : IsFloat 53 (-1074) (-(1 / 2 ^ 56)) := ⟨-1, -56, by norm_num, by norm_num, by norm_num⟩
    have := h1.trans (rnd_le R f1 hq1)
    norm_num at this

/-- The hypothesis is met: there is a rounding to nearest. -/
example : ∃ rnd, Nearest 53 (-1074) rnd := ⟨_, (nearestEven_spec (by norm_num)).toNearest⟩

/-- The hypotheses of `face_across_axis` are met: a triangle at `x = 1`. -/
example (R : Rounding 53 (-1074) rnd) (c : ℕ → Bool) : ∃ w, wallF rnd c [⟨1, 0, 0⟩, ⟨1, 1, 0⟩, ⟨1, 0, 1⟩] = some w := by
  have h0 : rnd 0 = 0 := rnd_zero R
  have h1 : rnd 1 = 1 := by have := lit R 1 (by norm_num); push_cast at this; exact this
  have q1 : ∀ b, prodF rnd b 1 1 = 1 := fun b => prod_eq b (by norm_num) h1
  unfold wallF normalF
  simp [crossF, subF, dotF, prod_zero_left R, prod_zero_right R, h0, h1, q1]

/-- So the claim for all walls is false of the code. -/
theorem not_all_walls_noticed : ¬ ∀ (rnd : ℝ → ℝ), NearestEven 53 (-1074) rnd → ∀ (c : ℕ → Bool) (vs : List (V3 ℝ)) (w : Wall), wallF rnd c vs = some w → ∀ (pos : ℕ → V3 ℝ) (i j : ℕ), i < j →
    (∀ m k, IsFloat 53 (-1074) (coord k (pos m))) → height w (pos i) < 0 → 0 < height w (pos j) → ∃ s, i ≤ s ∧ s < j ∧ NoticedAt rnd c w pos s := by
  intro h
  have E := nearestEven_spec (p := 53) (emin := -1074) (by norm_num)
  obtain ⟨w, hw, hf, -, -, -, h0, h1, h2, n0, n1⟩ := wall_at_angle_passed_unnoticed E.toNearest (fun _ => false) (fun _ => false)
  obtain ⟨s, -, hs, hn⟩ := h _ E (fun _ => false) face w hw (fun m => if m = 0 then start else if m = 1 then middle else finish) 0 2 (by norm_num)
    (fun m k => by split_ifs <;> exact hf _ (by simp) k) (by simpa using h0) (by simpa using h2)
  unfold NoticedAt at hn
  obtain rfl | rfl : s = 0 ∨ s = 1 := by omega
  · simp [n0] at hn
  · simp [n1] at hn

end Verif.Props.C112
