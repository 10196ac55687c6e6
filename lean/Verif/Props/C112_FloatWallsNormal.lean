import Verif.Props.C112_FloatWalls

/-! C112, the hypotheses about the wall are met by every wall that is constructed: its normal and its point are bounded, also when squares underflow. -/

namespace Verif.Props.C112
open Verif.Spec Verif.Spec.Rounding Verif.Model.FloatBoris Verif.Model.FloatRegular Verif.Model.FloatWall Verif.Lemmas.FloatWall Verif.Lemmas.FloatBoris Verif.Lemmas.Rounding

variable {rnd : ℝ → ℝ}

theorem float_mul_two (n : ℤ) (hn : |n| < 2 ^ 53) (k : ℤ) (hk : -1074 ≤ k) : IsFloat 53 (-1074) (n * (2 : ℝ) ^ k) := ⟨n, k, by simpa using hn, hk, rfl⟩

theorem rnd_abs_le (R : Rounding 53 (-1074) rnd) {x y : ℝ} (hy : IsFloat 53 (-1074) y) (hy' : IsFloat 53 (-1074) (-y)) (h : |x| ≤ y) : |rnd x| ≤ y := by
  obtain ⟨h1, h2⟩ := abs_le.1 h
  refine abs_le.2 ⟨?_, rnd_le R hy h2⟩
  have := R.mono h1
  rwa [R.exact _ hy'] at this

theorem rnd_abs_two (R : Rounding 53 (-1074) rnd) {x : ℝ} (n : ℕ) (hn : n < 2 ^ 53) (k : ℤ) (hk : -1074 ≤ k) (h : |x| ≤ n * (2 : ℝ) ^ k) : |rnd x| ≤ n * (2 : ℝ) ^ k := by
  refine rnd_abs_le R ?_ ?_ h
  · have := float_mul_two n (by rw [Nat.abs_cast]; exact_mod_cast hn) k hk
    simpa using this
  · have := float_mul_two (-n) (by rw [abs_neg, Nat.abs_cast]; exact_mod_cast hn) k hk
    simpa using this

theorem two_abs (R : Rounding 53 (-1074) rnd) {x : ℝ} (k : ℤ) (hk : -1074 ≤ k) (h : |x| ≤ (2 : ℝ) ^ k) : |rnd x| ≤ (2 : ℝ) ^ k := by
  simpa using rnd_abs_two R 1 (by norm_num) k hk (by simpa using h)

/-- A positive number is not below the smallest. -/
theorem float_ge {x : ℝ} (h : IsFloat 53 (-1074) x) (hx : 0 < x) : (2 : ℝ) ^ (-1074 : ℤ) ≤ x := by
  obtain ⟨m, e, -, he, rfl⟩ := h
  have hm : 0 < (m : ℝ) := by
    by_contra hn
    exact absurd hx (not_lt.2 (mul_nonpos_of_nonpos_of_nonneg (not_lt.1 hn) (two_pos e).le))
  have hm1 : (1 : ℝ) ≤ m := by exact_mod_cast (by exact_mod_cast hm : (0 : ℤ) < m)
  have h2 : (2 : ℝ) ^ (-1074 : ℤ) ≤ (2 : ℝ) ^ e := zpow_le_zpow_right₀ (by norm_num) he
  nlinarith [two_pos e]

theorem ulp_small : ulp ≤ 1 / 1000000 := by unfold ulp; norm_num

/-- A square is at most a little more than twice the computed sum of squares, if this is not zero. -/
theorem square_le (R : Rounding 53 (-1074) rnd) {x D : ℝ} (hD : 0 < D) (hf : IsFloat 53 (-1074) D) (h : rnd (x * x) ≤ D) : x * x ≤ 2001 / 1000 * D := by
  have he := error R (by norm_num) (x * x)
  have e : (1 - ((53 : ℕ) : ℤ)) = -52 := by norm_num
  rw [e, abs_of_nonneg (mul_self_nonneg x)] at he
  have h1 := (abs_le.1 he).1
  have h2 := float_ge hf hD
  have h3 : (2 : ℝ) ^ (-52 : ℤ) ≤ 1 / 1000000 := ulp_small
  have h4 : (2 : ℝ) ^ (-52 : ℤ) * (x * x) ≤ 1 / 1000000 * (x * x) := mul_le_mul_of_nonneg_right h3 (mul_self_nonneg x)
  generalize (2 : ℝ) ^ (-1074 : ℤ) = η at h1 h2
  generalize (2 : ℝ) ^ (-52 : ℤ) * (x * x) = y at h1 h4
  clear he h3
  linarith

/-- The computed length of a vector is not much less than a component. -/
theorem component_bounded (R : Rounding 53 (-1074) rnd) {x D : ℝ} (hD : 0 ≤ D) (hf : IsFloat 53 (-1074) D) (h : rnd (x * x) ≤ D) (hx : |x| ≤ (2 : ℝ) ^ (503 : ℤ))
    (hL : rnd (Real.sqrt D) ≠ 0) : |rnd (x * rnd (1 / rnd (Real.sqrt D)))| ≤ 2 := by
  have hDpos : 0 < D := by
    rcases lt_or_eq_of_le hD with h | h
    · exact h
    · rw [← h, Real.sqrt_zero, rnd_zero R] at hL; exact absurd rfl hL
  have hsq := square_le R hDpos hf h
  have hge := float_ge hf hDpos
  set S := Real.sqrt D with hS
  have hSS : S * S = D := Real.mul_self_sqrt hD
  have hSpos : 0 < S := Real.sqrt_pos.2 hDpos
  -- the root is much greater than the smallest number
  have hSη : (2 : ℝ) ^ (-537 : ℤ) ≤ S := by
    have : (2 : ℝ) ^ (-1074 : ℤ) = (2 : ℝ) ^ (-537 : ℤ) * (2 : ℝ) ^ (-537 : ℤ) := by rw [← zpow_add₀ (by norm_num)]; norm_num
    rw [this, ← hSS] at hge
    exact abs_le_of_sq_le_sq' (by rw [sq, sq]; exact hge) hSpos.le |>.2
  have hη : (2 : ℝ) ^ (-1074 : ℤ) ≤ 1 / 1000000 * S := by
    have e : (2 : ℝ) ^ (-1074 : ℤ) = (2 : ℝ) ^ (-537 : ℤ) * (2 : ℝ) ^ (-537 : ℤ) := by rw [← zpow_add₀ (by norm_num)]; norm_num
    have h1 : (2 : ℝ) ^ (-537 : ℤ) ≤ 1 / 1000000 := by
      calc (2 : ℝ) ^ (-537 : ℤ) ≤ (2 : ℝ) ^ (-20 : ℤ) := zpow_le_zpow_right₀ (by norm_num) (by norm_num)
        _ ≤ 1 / 1000000 := by norm_num
    rw [e]
    exact mul_le_mul h1 hSη (two_pos _).le (by norm_num)
  have e53 : (1 - ((53 : ℕ) : ℤ)) = -52 := by norm_num
  have hu : (2 : ℝ) ^ (-52 : ℤ) ≤ 1 / 1000000 := ulp_small
  have hLge : 999 / 1000 * S ≤ rnd S := by
    have he := (abs_le.1 (error R (by norm_num) S)).1
    rw [e53, abs_of_pos hSpos] at he
    have : (2 : ℝ) ^ (-52 : ℤ) * S ≤ 1 / 1000000 * S := mul_le_mul_of_nonneg_right hu hSpos.le
    generalize (2 : ℝ) ^ (-1074 : ℤ) = η at he hη
    generalize (2 : ℝ) ^ (-52 : ℤ) * S = y at he this
    clear hu hge hSη
    linarith
  have hLpos : 0 < rnd S := lt_of_lt_of_le (by linarith) hLge
  have hinv : |rnd (1 / rnd S)| ≤ 1001 / 1000 * (1 / rnd S) + (2 : ℝ) ^ (-1074 : ℤ) := by
    have hp : 0 < 1 / rnd S := by positivity
    have he := error R (by norm_num) (1 / rnd S)
    rw [e53, abs_of_pos hp] at he
    have h1 : (2 : ℝ) ^ (-52 : ℤ) * (1 / rnd S) ≤ 1 / 1000000 * (1 / rnd S) := mul_le_mul_of_nonneg_right hu hp.le
    have h2 : |rnd (1 / rnd S)| ≤ |rnd (1 / rnd S) - 1 / rnd S| + |1 / rnd S| := by
      have := abs_add_le (rnd (1 / rnd S) - 1 / rnd S) (1 / rnd S); rwa [sub_add_cancel] at this
    rw [abs_of_pos hp] at h2
    generalize (2 : ℝ) ^ (-1074 : ℤ) = η at he ⊢
    generalize (2 : ℝ) ^ (-52 : ℤ) * (1 / rnd S) = y at he h1
    clear hu hge hSη hη
    linarith
  -- the component is at most 3/2 of the root
  have hxS : |x| ≤ 1415 / 1000 * S := by
    refine abs_le_of_sq_le_sq (a := x) (b := 1415 / 1000 * S) ?_ (by positivity)
    clear hge hSη hη hinv
    nlinarith
  have hbound : |x * rnd (1 / rnd S)| ≤ 3 / 2 := by
    rw [abs_mul]
    have h1 : |x| * |rnd (1 / rnd S)| ≤ |x| * (1001 / 1000 * (1 / rnd S) + (2 : ℝ) ^ (-1074 : ℤ)) := mul_le_mul_of_nonneg_left hinv (abs_nonneg _)
    have h2 : |x| * (2 : ℝ) ^ (-1074 : ℤ) ≤ 1 / 1000 := by
      calc |x| * (2 : ℝ) ^ (-1074 : ℤ) ≤ (2 : ℝ) ^ (503 : ℤ) * (2 : ℝ) ^ (-1074 : ℤ) := mul_le_mul_of_nonneg_right hx (two_pos _).le
        _ = (2 : ℝ) ^ (-571 : ℤ) := by rw [← zpow_add₀ (by norm_num)]; norm_num
        _ ≤ (2 : ℝ) ^ (-10 : ℤ) := zpow_le_zpow_right₀ (by norm_num) (by norm_num)
        _ ≤ 1 / 1000 := by norm_num
    have h3 : |x| * (1 / rnd S) ≤ 1417 / 1000 := by
      rw [mul_one_div, div_le_iff₀ hLpos]
      linarith
    rw [mul_add] at h1
    generalize |x| * (2 : ℝ) ^ (-1074 : ℤ) = η at h1 h2
    clear hu hge hSη hη hinv
    nlinarith
  have h2 : (2 : ℝ) = (2 : ℝ) ^ (1 : ℤ) := by norm_num
  rw [h2]
  exact two_abs R 1 (by norm_num) (by rw [← h2]; linarith)

theorem prod_nonneg (R : Rounding 53 (-1074) rnd) (b : Bool) (x : ℝ) : 0 ≤ prodF rnd b x x := by
  unfold prodF
  split_ifs
  · exact mul_self_nonneg x
  · exact rnd_nonneg R (mul_self_nonneg x)

/-- The computed sum of squares is a number, not negative and not less than each rounded square. -/
theorem dot_self (R : Rounding 53 (-1074) rnd) (c : ℕ → Bool) (i : ℕ) (v : V3 ℝ) : 0 ≤ dotF rnd c i v v ∧ IsFloat 53 (-1074) (dotF rnd c i v v) ∧
    rnd (v.x * v.x) ≤ dotF rnd c i v v ∧ rnd (v.y * v.y) ≤ dotF rnd c i v v ∧ rnd (v.z * v.z) ≤ dotF rnd c i v v := by
  have hx := prod_nonneg R (c i) v.x
  have hy := prod_nonneg R (c (i + 1)) v.y
  have hz := prod_nonneg R (c (i + 2)) v.z
  have h1 : rnd (v.x * v.x) ≤ rnd (prodF rnd (c i) v.x v.x + prodF rnd (c (i + 1)) v.y v.y) := by
    rw [← rnd_prod R (c i)]; exact R.mono (by linarith)
  have h2 : rnd (v.y * v.y) ≤ rnd (prodF rnd (c i) v.x v.x + prodF rnd (c (i + 1)) v.y v.y) := by
    rw [← rnd_prod R (c (i + 1))]; exact R.mono (by linarith)
  have h3 : rnd (prodF rnd (c i) v.x v.x + prodF rnd (c (i + 1)) v.y v.y) ≤ dotF rnd c i v v := by
    unfold dotF
    rw [← rnd_idem R (prodF rnd (c i) v.x v.x + prodF rnd (c (i + 1)) v.y v.y)]
    conv_rhs => rw [rnd_idem R]
    exact R.mono (by linarith)
  refine ⟨le_trans (rnd_nonneg R (by linarith)) h3, R.float _, h1.trans h3, h2.trans h3, ?_⟩
  unfold dotF
  rw [← rnd_prod R (c (i + 2))]
  exact R.mono (by linarith [rnd_nonneg R (show 0 ≤ prodF rnd (c i) v.x v.x + prodF rnd (c (i + 1)) v.y v.y by linarith)])

theorem prod_two (R : Rounding 53 (-1074) rnd) (b : Bool) {x y : ℝ} (hx : |x| ≤ (2 : ℝ) ^ (251 : ℤ)) (hy : |y| ≤ (2 : ℝ) ^ (251 : ℤ)) : |prodF rnd b x y| ≤ (2 : ℝ) ^ (502 : ℤ) := by
  have h : |x * y| ≤ (2 : ℝ) ^ (502 : ℤ) := by
    rw [abs_mul, show (502 : ℤ) = 251 + 251 by norm_num, zpow_add₀ (by norm_num)]
    exact mul_le_mul hx hy (abs_nonneg _) (two_pos _).le
  unfold prodF
  split_ifs
  · exact h
  · exact two_abs R 502 (by norm_num) h

theorem cross_comp (R : Rounding 53 (-1074) rnd) {x y : ℝ} (hx : |x| ≤ (2 : ℝ) ^ (502 : ℤ)) (hy : |y| ≤ (2 : ℝ) ^ (502 : ℤ)) : |rnd (x - y)| ≤ (2 : ℝ) ^ (503 : ℤ) := by
  refine two_abs R 503 (by norm_num) ((abs_sub _ _).trans ?_)
  rw [show (503 : ℤ) = 502 + 1 by norm_num, zpow_add₀ (by norm_num), zpow_one]
  linarith

theorem sub_comp (R : Rounding 53 (-1074) rnd) {x y : ℝ} (hx : |x| ≤ (2 : ℝ) ^ (250 : ℤ)) (hy : |y| ≤ (2 : ℝ) ^ (250 : ℤ)) : |rnd (x - y)| ≤ (2 : ℝ) ^ (251 : ℤ) := by
  refine two_abs R 251 (by norm_num) ((abs_sub _ _).trans ?_)
  rw [show (251 : ℤ) = 250 + 1 by norm_num, zpow_add₀ (by norm_num), zpow_one]
  linarith

/-- The normal of a face that is constructed has components of at most 2, for any rounding mode, also when the squares of its components underflow. -/
theorem normal_bounded (R : Rounding 53 (-1074) rnd) (c : ℕ → Bool) (vs : List (V3 ℝ)) (hvs : ∀ v ∈ vs, Bounded ((2 : ℝ) ^ (250 : ℤ)) v) (n : V3 ℝ)
    (hn : normalF rnd c vs = some n) : Bounded 2 n := by
  unfold normalF at hn
  cases h0 : vs[0]? with
  | none => rw [h0] at hn; simp at hn
  | some v0 =>
  cases h1 : vs[1]? with
  | none => rw [h0, h1] at hn; simp at hn
  | some v1 =>
  cases h2 : vs[vs.length - 1]? with
  | none => rw [h0, h1, h2] at hn; simp at hn
  | some v2 =>
  rw [h0, h1, h2] at hn
  dsimp only at hn
  have b0 := hvs v0 (List.mem_of_getElem? h0)
  have b1 := hvs v1 (List.mem_of_getElem? h1)
  have b2 := hvs v2 (List.mem_of_getElem? h2)
  split_ifs at hn with hL
  simp only [Option.some.injEq] at hn
  subst hn
  have s1x := sub_comp R (b1 0) (b0 0)
  have s1y := sub_comp R (b1 1) (b0 1)
  have s1z := sub_comp R (b1 2) (b0 2)
  have s2x := sub_comp R (b2 0) (b0 0)
  have s2y := sub_comp R (b2 1) (b0 1)
  have s2z := sub_comp R (b2 2) (b0 2)
  obtain ⟨d0, df, dx, dy, dz⟩ := dot_self R c 6 (crossF rnd c 0 (subF rnd v1 v0) (subF rnd v2 v0))
  intro k
  fin_cases k
  · exact component_bounded R d0 df dx (cross_comp R (prod_two R _ s1y s2z) (prod_two R _ s1z s2y)) hL
  · exact component_bounded R d0 df dy (cross_comp R (prod_two R _ s1z s2x) (prod_two R _ s1x s2z)) hL
  · exact component_bounded R d0 df dz (cross_comp R (prod_two R _ s1x s2y) (prod_two R _ s1y s2x)) hL

/-- The computed average of coordinates is not greater than they are. -/
theorem average_comp (R : Rounding 53 (-1074) rnd) (k : ℤ) (hk : -1074 ≤ k) (f : V3 ℝ → ℝ) (vs : List (V3 ℝ)) (hl : vs.length < 2 ^ 53) (h : ∀ v ∈ vs, |f v| ≤ (2 : ℝ) ^ k) :
    |rnd (vs.foldl (fun a v => rnd (a + f v)) 0 / vs.length)| ≤ (2 : ℝ) ^ k := by
  have key : ∀ (l pre : List (V3 ℝ)) (a : ℝ), (pre ++ l).length < 2 ^ 53 → (∀ v ∈ l, |f v| ≤ (2 : ℝ) ^ k) → |a| ≤ (pre.length : ℝ) * (2 : ℝ) ^ k →
      |l.foldl (fun a v => rnd (a + f v)) a| ≤ ((pre ++ l).length : ℝ) * (2 : ℝ) ^ k := by
    intro l
    induction l with
    | nil => intro pre a _ _ ha; simpa using ha
    | cons v l ih =>
      intro pre a hlen hv ha
      rw [List.foldl_cons]
      have := ih (pre ++ [v]) (rnd (a + f v)) (by simpa using hlen) (fun w hw => hv w (by simp [hw])) (by
        rw [List.length_append, List.length_singleton]
        refine rnd_abs_two R (pre.length + 1) (by simp at hlen; omega) k hk ((abs_add_le _ _).trans ?_)
        have := hv v (by simp)
        push_cast
        linarith)
      simpa using this
  have hs := key vs [] 0 (by simpa using hl) h (by simp)
  rw [List.nil_append] at hs
  refine two_abs R k hk ?_
  rw [abs_div, Nat.abs_cast]
  rcases Nat.eq_zero_or_pos vs.length with h0 | h0
  · rw [h0]; simp [(two_pos k).le]
  · rw [div_le_iff₀ (by exact_mod_cast h0)]
    linarith

theorem average_fold (vs : List (V3 ℝ)) : ∀ a : V3 ℝ, vs.foldl (fun (a : V3 ℝ) v => (⟨rnd (a.x + v.x), rnd (a.y + v.y), rnd (a.z + v.z)⟩ : V3 ℝ)) a =
    ⟨vs.foldl (fun a v => rnd (a + v.x)) a.x, vs.foldl (fun a v => rnd (a + v.y)) a.y, vs.foldl (fun a v => rnd (a + v.z)) a.z⟩ := by
  induction vs with
  | nil => intro a; rfl
  | cons v l ih => intro a; rw [List.foldl_cons, ih]; rfl

/-- A wall that is constructed: its normal is bounded by 2, and its point by the bound of the vertices. -/
theorem face_bounded (R : Rounding 53 (-1074) rnd) (c : ℕ → Bool) (vs : List (V3 ℝ)) (hl : vs.length < 2 ^ 53) (k : ℤ) (hk : -1074 ≤ k) (hk' : k ≤ 250)
    (hvs : ∀ v ∈ vs, Bounded ((2 : ℝ) ^ k) v) (w : Wall) (hw : wallF rnd c vs = some w) : Bounded 2 w.normal ∧ Bounded ((2 : ℝ) ^ k) w.point := by
  unfold wallF at hw
  cases h : normalF rnd c vs with
  | none => rw [h] at hw; cases hw
  | some n =>
  rw [h] at hw
  simp only [Option.some.injEq] at hw
  subst hw
  refine ⟨normal_bounded R c vs (fun v hv j => (hvs v hv j).trans (zpow_le_zpow_right₀ (by norm_num) hk')) n h, ?_⟩
  intro j
  unfold averageF
  rw [average_fold]
  fin_cases j
  · exact average_comp R k hk (fun v => v.x) vs hl fun v hv => hvs v hv 0
  · exact average_comp R k hk (fun v => v.y) vs hl fun v hv => hvs v hv 1
  · exact average_comp R k hk (fun v => v.z) vs hl fun v hv => hvs v hv 2

/-- A face with vertices of at most `2 ^ k`: a particle whose positions are of this size and never very near to its plane cannot pass it unnoticed. -/
theorem any_face_not_passed_partial (R : Rounding 53 (-1074) rnd) (c : ℕ → Bool) (vs : List (V3 ℝ)) (hl : vs.length < 2 ^ 53) (k : ℤ) (hk : -1022 ≤ k) (hk' : k ≤ 250)
    (hvs : ∀ v ∈ vs, Bounded ((2 : ℝ) ^ k) v) (w : Wall) (hw : wallF rnd c vs = some w) (c' : ℕ → Bool) (pos : ℕ → V3 ℝ) (hpos : ∀ n, Bounded ((2 : ℝ) ^ k) (pos n))
    (hfar : ∀ n, 120 * (ulp * (2 : ℝ) ^ k) ≤ |height w (pos n)|) (i j : ℕ) (hij : i < j)
    (h : (height w (pos i) < 0 ∧ 0 < height w (pos j)) ∨ (height w (pos j) < 0 ∧ 0 < height w (pos i))) :
    ∃ s, i ≤ s ∧ s < j ∧ NoticedAt rnd c' w pos s := by
  obtain ⟨h1, h2⟩ := face_bounded R c vs hl k (by omega) hk' hvs w hw
  exact wall_not_passed_partial R c' w _ (zpow_le_zpow_right₀ (by norm_num) hk) h1 h2 pos hpos hfar i j hij h

/-- The hypotheses are met: a triangle at `z = 1`, for any rounding mode, and a particle that goes from one side to the other. -/
example (R : Rounding 53 (-1074) rnd) (c : ℕ → Bool) : ∃ w, wallF rnd c [⟨0, 0, 1⟩, ⟨1, 0, 1⟩, ⟨0, 1, 1⟩] = some w ∧ w.normal = ⟨0, 0, 1⟩ ∧
    (∀ v ∈ [(⟨0, 0, 1⟩ : V3 ℝ), ⟨1, 0, 1⟩, ⟨0, 1, 1⟩], Bounded ((2 : ℝ) ^ (2 : ℤ)) v) ∧ Bounded ((2 : ℝ) ^ (2 : ℤ)) ⟨0, 0, 0⟩ ∧
    Bounded ((2 : ℝ) ^ (2 : ℤ)) ⟨0, 0, 2⟩ := by
  have r0 : rnd 0 = 0 := rnd_zero R
  have r1 : rnd 1 = 1 := R.exact 1 (by simpa using float_mul_two 1 (by norm_num) 0 (by norm_num))
  have p00 : ∀ b, prodF rnd b 0 0 = 0 := fun b => prod_zero_right R b 0
  have p10 : ∀ b, prodF rnd b 1 0 = 0 := fun b => prod_zero_right R b 1
  have p01 : ∀ b, prodF rnd b 0 1 = 0 := fun b => prod_zero_left R b 1
  have p11 : ∀ b, prodF rnd b 1 1 = 1 := by intro b; unfold prodF; split_ifs <;> simp [r1]
  have hn : normalF rnd c [⟨0, 0, 1⟩, ⟨1, 0, 1⟩, ⟨0, 1, 1⟩] = some ⟨0, 0, 1⟩ := by
    simp [normalF, subF, crossF, dotF, r0, r1, p00, p10, p01, p11]
  refine ⟨⟨averageF rnd [⟨0, 0, 1⟩, ⟨1, 0, 1⟩, ⟨0, 1, 1⟩], ⟨0, 0, 1⟩⟩, by unfold wallF; rw [hn], rfl, ?_, ?_, ?_⟩
  · intro v hv k
    simp only [List.mem_cons, List.not_mem_nil, or_false] at hv
    rcases hv with rfl | rfl | rfl <;> fin_cases k <;> norm_num [coord]
  · intro k; fin_cases k <;> norm_num [coord]
  · intro k; fin_cases k <;> norm_num [coord]

end Verif.Props.C112
