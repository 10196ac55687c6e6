import Verif.Lemmas.FloatWall
import Verif.Lemmas.RoundingModes
import Mathlib.Tactic.NormNum
import Mathlib.Tactic.Ring

/-! C112: walls in floating point arithmetic. Overflow is not modelled. -/

namespace Verif.Props.C112
open Verif.Spec Verif.Spec.Rounding Verif.Model.FloatBoris Verif.Model.FloatRegular Verif.Model.FloatWall Verif.Lemmas.FloatWall Verif.Lemmas.FloatBoris Verif.Lemmas.Rounding

/-! ### What is meant -/

/-- The coordinate `k` of a point. -/
def coord (k : Fin 3) (v : V3 ℝ) : ℝ := match k with
  | 0 => v.x
  | 1 => v.y
  | 2 => v.z

/-- The wall is perpendicular to the axis `k`. -/
def AcrossAxis (k : Fin 3) (w : Wall) : Prop := ∀ j, j ≠ k → coord j w.normal = 0

/-- The distance of a point from the plane of the wall, with sign, if the normal has length one: exact arithmetic. -/
def height (w : Wall) (q : V3 ℝ) : ℝ := V3.dot (V3.sub q w.point) w.normal

/-- The point a fraction `t` of the way from `a` to `b`. -/
def along (a b : V3 ℝ) (t : ℝ) : V3 ℝ := V3.add a (V3.smul t (V3.sub b a))

/-- The positions of a particle at the ends of its steps: the wall is noticed in the step `k`. -/
def NoticedAt (rnd : ℝ → ℝ) (c : ℕ → Bool) (w : Wall) (pos : ℕ → V3 ℝ) (k : ℕ) : Prop := (intersectF rnd c w (pos k) (pos (k + 1))).1 = true

/-- All coordinates are at most `M` in magnitude. -/
def Bounded (M : ℝ) (v : V3 ℝ) : Prop := ∀ k, |coord k v| ≤ M

/-! ### Walls across an axis: no step can pass -/

variable {p : ℕ} {emin : ℤ} {rnd : ℝ → ℝ}

/-- A step that begins on one side of a wall across an axis, or on it, and ends on the other side, or on it, is noticed: for each rounding mode and format, whatever products are fused. -/
theorem step_across_axis_noticed (R : Rounding p emin rnd) (hp : 1 ≤ p) (he : emin ≤ 0) (c : ℕ → Bool) (k : Fin 3) (w : Wall) (hw : AcrossAxis k w) (a b : V3 ℝ)
    (h : (coord k a ≤ coord k w.point ∧ coord k w.point ≤ coord k b) ∨ (coord k b ≤ coord k w.point ∧ coord k w.point ≤ coord k a)) :
    (intersectF rnd c w a b).1 = true := by
  refine intersect_of R hp he c w a b ?_
  have key := axis_cond R (n := coord k w.normal) h
  unfold den num
  fin_cases k
  · have h1 : w.normal.y = 0 := hw 1 (by decide)
    have h2 : w.normal.z = 0 := hw 2 (by decide)
    rw [dot_x R _ _ _ _ h1 h2, dot_x R _ _ _ _ h1 h2]
    exact key
  · have h1 : w.normal.x = 0 := hw 0 (by decide)
    have h2 : w.normal.z = 0 := hw 2 (by decide)
    rw [dot_y R _ _ _ _ h1 h2, dot_y R _ _ _ _ h1 h2]
    exact key
  · have h1 : w.normal.x = 0 := hw 0 (by decide)
    have h2 : w.normal.y = 0 := hw 1 (by decide)
    rw [dot_z R _ _ _ _ h1 h2, dot_z R _ _ _ _ h1 h2]
    exact key

/-- If a sequence starts below a value and ends above it, some step goes from below to above. -/
theorem exists_step (f : ℕ → ℝ) (q : ℝ) (n : ℕ) (h0 : f 0 ≤ q) (hn : q ≤ f n) (hpos : 0 < n) : ∃ k < n, f k ≤ q ∧ q ≤ f (k + 1) := by
  induction n with
  | zero => omega
  | succ n ih =>
    by_cases hq : q ≤ f n
    · rcases Nat.eq_zero_or_pos n with rfl | h
      · exact ⟨0, by omega, h0, hn⟩
      · obtain ⟨k, hk, h⟩ := ih hq h
        exact ⟨k, by omega, h⟩
    · exact ⟨n, by omega, (not_le.1 hq).le, hn⟩

/-- A particle that is at some time on one side of a wall across an axis and later on the other side has been noticed in between, whatever its steps. -/
theorem axis_wall_not_passed (R : Rounding p emin rnd) (hp : 1 ≤ p) (he : emin ≤ 0) (c : ℕ → Bool) (k : Fin 3) (w : Wall) (hw : AcrossAxis k w) (pos : ℕ → V3 ℝ) (i j : ℕ) (hij : i < j)
    (h : (coord k (pos i) ≤ coord k w.point ∧ coord k w.point ≤ coord k (pos j)) ∨ (coord k (pos j) ≤ coord k w.point ∧ coord k w.point ≤ coord k (pos i))) :
    ∃ s, i ≤ s ∧ s < j ∧ NoticedAt rnd c w pos s := by
  obtain ⟨n, rfl⟩ : ∃ n, j = i + n := ⟨j - i, by omega⟩
  rcases h with ⟨h0, hn⟩ | ⟨hn, h0⟩
  · obtain ⟨s, hs, h1, h2⟩ := exists_step (fun m => coord k (pos (i + m))) (coord k w.point) n h0 hn (by omega)
    exact ⟨i + s, by omega, by omega, step_across_axis_noticed R hp he c k w hw _ _ (.inl ⟨h1, h2⟩)⟩
  · obtain ⟨s, hs, h1, h2⟩ := exists_step (fun m => -coord k (pos (i + m))) (-coord k w.point) n (neg_le_neg h0) (neg_le_neg hn) (by omega)
    exact ⟨i + s, by omega, by omega, step_across_axis_noticed R hp he c k w hw _ _ (.inr ⟨neg_le_neg_iff.1 h2, neg_le_neg_iff.1 h1⟩)⟩

/-- The hypotheses are met: a wall at `x = 1`, and a particle that jumps to and fro. -/
example : ∃ (w : Wall) (pos : ℕ → V3 ℝ), AcrossAxis 0 w ∧ coord 0 (pos 0) ≤ coord 0 w.point ∧ coord 0 w.point ≤ coord 0 (pos 7) :=
  ⟨⟨⟨1, 2, 3⟩, ⟨-1, 0, 0⟩⟩, fun n => ⟨if n = 7 then 5 else (n : ℝ) / 10, n, 0⟩,
    by intro j hj; fin_cases j <;> simp_all [coord], by norm_num [coord], by norm_num [coord]⟩

/-! ### The wall of a face across an axis -/

/-- The wall of a triangle or quadrilateral whose vertices all have the same coordinate `q` is across the axis, and its plane is displaced from the face by at most a few roundings. -/
theorem face_across_axis (R : Rounding p emin rnd) (hp : 6 ≤ p) (he : emin ≤ 0) (c : ℕ → Bool) (k : Fin 3) (q : ℝ) (hq : IsFloat p emin q) (vs : List (V3 ℝ)) (hl : vs.length = 3 ∨ vs.length = 4)
    (hvs : ∀ v ∈ vs, coord k v = q) (w : Wall) (hw : wallF rnd c vs = some w) :
    AcrossAxis k w ∧ |coord k w.point - q| ≤ 3 * ((2 : ℝ) ^ (1 - (p : ℤ)) * |q| + (2 : ℝ) ^ emin) := by
  constructor
  · unfold wallF at hw
    obtain ⟨n, hn, rfl⟩ : ∃ n, normalF rnd c vs = some n ∧ w = ⟨averageF rnd vs, n⟩ := by
      cases h : normalF rnd c vs with
      | none => rw [h] at hw; cases hw
      | some n => rw [h] at hw; simp only [Option.some.injEq] at hw; exact ⟨n, rfl, hw.symm⟩
    unfold normalF at hn
    have h0 : vs[0]? = some vs[0] := List.getElem?_eq_getElem (by omega)
    have h1 : vs[1]? = some vs[1] := List.getElem?_eq_getElem (by omega)
    have h2 : vs[vs.length - 1]? = some (vs[vs.length - 1]'(by omega)) := List.getElem?_eq_getElem (by omega)
    have q0 := hvs _ (List.getElem_mem (show 0 < vs.length by omega))
    have q1 := hvs _ (List.getElem_mem (show 1 < vs.length by omega))
    have q2 := hvs _ (List.getElem_mem (show vs.length - 1 < vs.length by omega))
    rw [h0, h1, h2] at hn
    generalize vs[0] = v0 at *
    generalize vs[1] = v1 at *
    generalize vs[vs.length - 1]'(by omega) = v2 at *
    dsimp only at hn
    split_ifs at hn with hz
    simp only [Option.some.injEq] at hn
    subst hn
    clear hz
    intro j hj
    fin_cases k <;> fin_cases j <;> first | exact absurd rfl hj | (simp only [coord] at q0 q1 q2; simp [coord, crossF, subF, q0, q1, q2, prod_zero_left R, prod_zero_right R, rnd_zero R])
  · have hpt : w.point = averageF rnd vs := by
      unfold wallF at hw
      cases h : normalF rnd c vs with
      | none => rw [h] at hw; cases hw
      | some n => rw [h] at hw; simp only [Option.some.injEq] at hw; rw [← hw]
    rw [hpt]
    set u : ℝ := (2 : ℝ) ^ (1 - (p : ℤ)) with hu
    set η : ℝ := (2 : ℝ) ^ emin with hη
    have hu0 : 0 < u := two_pos _
    have hη0 : 0 < η := two_pos _
    have hu1 : u ≤ 1 / 32 := by
      rw [hu]
      calc (2 : ℝ) ^ (1 - (p : ℤ)) ≤ (2 : ℝ) ^ (-5 : ℤ) := zpow_le_zpow_right₀ (by norm_num) (by omega)
        _ = 1 / 32 := by norm_num
    have err := error R (by omega : 1 ≤ p)
    have r1 : rnd (0 + q) = q := by rw [zero_add]; exact R.exact q hq
    have r2 : rnd (q + q) = 2 * q := by
      have : IsFloat p emin (2 * q) := by
        obtain ⟨m, e, hm, hee, rfl⟩ := hq
        exact ⟨m, e + 1, hm, by omega, by rw [zpow_add₀ (by norm_num), zpow_one]; ring⟩
      rw [← two_mul]; exact R.exact _ this
    have e3 : |rnd (2 * q + q) - 3 * q| ≤ 3 * (u * |q|) + η := by
      have := err (2 * q + q)
      have e : 2 * q + q = 3 * q := by ring
      rw [e] at this ⊢
      rw [abs_mul, abs_of_pos (by norm_num : (0 : ℝ) < 3)] at this
      linarith
    have hq0 := abs_nonneg q
    have huq : 0 ≤ u * |q| := mul_nonneg hu0.le hq0
    have b1 : u * (u * |q|) ≤ 1 / 32 * (u * |q|) := mul_le_mul_of_nonneg_right hu1 huq
    have b2 : u * η ≤ 1 / 32 * η := mul_le_mul_of_nonneg_right hu1 hη0.le
    have fin : ∀ x e : ℝ, |x - q| ≤ e → |rnd x - q| ≤ e + u * (|q| + e) + η := fun x e hx => rnd_err err hu0.le hx le_rfl
    have tri : |rnd (rnd (rnd (rnd (0 + q) + q) + q) / 3) - q| ≤ 3 * (u * |q| + η) := by
      rw [r1, r2]
      have h3 : |rnd (2 * q + q) / 3 - q| ≤ u * |q| + η / 3 := by
        have : rnd (2 * q + q) / 3 - q = (rnd (2 * q + q) - 3 * q) / 3 := by ring
        rw [this, abs_div, abs_of_pos (by norm_num : (0 : ℝ) < 3)]
        linarith
      refine (fin _ _ h3).trans ?_
      nlinarith
    have quad : |rnd (rnd (rnd (rnd (rnd (0 + q) + q) + q) + q) / 4) - q| ≤ 3 * (u * |q| + η) := by
      rw [r1, r2]
      have h4 : |rnd (rnd (2 * q + q) + q) - 4 * q| ≤ 15 / 2 * (u * |q|) + 3 * η := by
        have h := rnd_err err hu0.le (a := rnd (2 * q + q) + q) (b := 4 * q) (e := 3 * (u * |q|) + η) (A := 4 * |q|)
          (by have : rnd (2 * q + q) + q - 4 * q = rnd (2 * q + q) - 3 * q := by ring
              rw [this]; exact e3) (by rw [abs_mul, abs_of_pos (by norm_num : (0 : ℝ) < 4)])
        refine h.trans ?_
        nlinarith
      have h5 : |rnd (rnd (2 * q + q) + q) / 4 - q| ≤ 15 / 8 * (u * |q|) + 3 / 4 * η := by
        have : rnd (rnd (2 * q + q) + q) / 4 - q = (rnd (rnd (2 * q + q) + q) - 4 * q) / 4 := by ring
        rw [this, abs_div, abs_of_pos (by norm_num : (0 : ℝ) < 4)]
        linarith
      refine (fin _ _ h5).trans ?_
      nlinarith
    rcases hl with hl | hl
    · obtain ⟨a, b, d, rfl⟩ := List.length_eq_three.1 hl
      have ha := hvs a (by simp)
      have hb := hvs b (by simp)
      have hd := hvs d (by simp)
      fin_cases k <;> simp only [coord] at ha hb hd ⊢ <;> simp only [averageF, List.foldl_cons, List.foldl_nil, List.length_cons, List.length_nil, ha, hb, hd] <;> norm_num <;> simpa using tri
    · match vs, hl with
      | [a, b, d, f], _ =>
        have ha := hvs a (by simp)
        have hb := hvs b (by simp)
        have hd := hvs d (by simp)
        have hf := hvs f (by simp)
        fin_cases k <;> simp only [coord] at ha hb hd hf ⊢ <;> simp only [averageF, List.foldl_cons, List.foldl_nil, List.length_cons, List.length_nil, ha, hb, hd, hf] <;> norm_num <;> simpa using quad

/-- A particle that gets from one side of such a face to the other, further than a few roundings, has been noticed in between. -/
theorem face_not_passed (R : Rounding p emin rnd) (hp : 6 ≤ p) (he : emin ≤ 0) (c : ℕ → Bool) (k : Fin 3) (q : ℝ) (hq : IsFloat p emin q) (vs : List (V3 ℝ)) (hl : vs.length = 3 ∨ vs.length = 4)
    (hvs : ∀ v ∈ vs, coord k v = q) (w : Wall) (hw : wallF rnd c vs = some w) (δ : ℝ) (hδ : δ = 3 * ((2 : ℝ) ^ (1 - (p : ℤ)) * |q| + (2 : ℝ) ^ emin)) (c' : ℕ → Bool) (pos : ℕ → V3 ℝ)
    (i j : ℕ) (hij : i < j) (h : (coord k (pos i) ≤ q - δ ∧ q + δ ≤ coord k (pos j)) ∨ (coord k (pos j) ≤ q - δ ∧ q + δ ≤ coord k (pos i))) :
    ∃ s, i ≤ s ∧ s < j ∧ NoticedAt rnd c' w pos s := by
  obtain ⟨h1, h2⟩ := face_across_axis R hp he c k q hq vs hl hvs w hw
  rw [← hδ] at h2
  obtain ⟨h3, h4⟩ := abs_le.1 h2
  refine axis_wall_not_passed R (by omega) he c' k w h1 pos i j hij ?_
  rcases h with ⟨a, b⟩ | ⟨a, b⟩
  · exact .inl ⟨by linarith, by linarith⟩
  · exact .inr ⟨by linarith, by linarith⟩

/-! ### Any wall, double precision -/

/-- The bounds are in terms of the largest coordinate `M`; `ulp` is the spacing of the numbers just above one. -/
noncomputable def ulp : ℝ := (2 : ℝ) ^ (-52 : ℤ)

theorem bounded_le {M : ℝ} {v : V3 ℝ} (h : Bounded M v) : Le v M := ⟨h 0, h 1, h 2⟩

/-- The two computed scalar products are near the exact ones. -/
theorem dots_near (R : Rounding 53 (-1074) rnd) (c : ℕ → Bool) (w : Wall) (a b : V3 ℝ) (M : ℝ) (hM : (2 : ℝ) ^ (-1022 : ℤ) ≤ M) (hn : Bounded 2 w.normal) (hw : Bounded M w.point)
    (ha : Bounded M a) (hb : Bounded M b) :
    |num rnd c w a - -height w a| ≤ 60 * (ulp * M) ∧ |den rnd c w a b - (height w b - height w a)| ≤ 60 * (ulp * M) := by
  have he : ∀ z, |rnd z - z| ≤ ulp * |z| + (2 : ℝ) ^ (-1074 : ℤ) := fun z => by
    have := error R (by norm_num) z
    have e : (1 - ((53 : ℕ) : ℤ)) = -52 := by norm_num
    rw [e] at this; exact this
  have hη : (2 : ℝ) ^ (-1074 : ℤ) ≤ ulp * M := by
    have : (2 : ℝ) ^ (-1074 : ℤ) = ulp * (2 : ℝ) ^ (-1022 : ℤ) := by unfold ulp; rw [← zpow_add₀ (by norm_num)]; norm_num
    rw [this]; exact mul_le_mul_of_nonneg_left hM (two_pos _).le
  have hM0 : 0 ≤ M := (two_pos _).le.trans hM
  have hu : ulp ≤ 1 / 1000 := by unfold ulp; norm_num
  have e1 := dot_sub_err he (two_pos _).le hu (two_pos _).le hη hM0 c 3 (bounded_le hw) (bounded_le ha) (bounded_le hn)
  have e2 := dot_sub_err he (two_pos _).le hu (two_pos _).le hη hM0 c 0 (bounded_le hb) (bounded_le ha) (bounded_le hn)
  unfold num den height V3.dot V3.sub
  refine ⟨?_, ?_⟩
  · refine le_of_eq_of_le ?_ e1; congr 1; ring
  · refine le_of_eq_of_le ?_ e2; congr 1; ring

/-- A step from one side of the wall to the other is noticed if it begins and ends far enough from the plane of the wall. -/
theorem clear_step_noticed (R : Rounding 53 (-1074) rnd) (c : ℕ → Bool) (w : Wall) (a b : V3 ℝ) (M : ℝ) (hM : (2 : ℝ) ^ (-1022 : ℤ) ≤ M) (hn : Bounded 2 w.normal) (hw : Bounded M w.point)
    (ha : Bounded M a) (hb : Bounded M b)
    (h : (height w a ≤ -60 * (ulp * M) ∧ 120 * (ulp * M) ≤ height w b) ∨ (60 * (ulp * M) ≤ height w a ∧ height w b ≤ -120 * (ulp * M))) :
    (intersectF rnd c w a b).1 = true := by
  obtain ⟨e1, e2⟩ := dots_near R c w a b M hM hn hw ha hb
  obtain ⟨e1a, e1b⟩ := abs_le.1 e1
  obtain ⟨e2a, e2b⟩ := abs_le.1 e2
  refine intersect_of R (by norm_num) (by norm_num) c w a b ?_
  rcases h with ⟨h1, h2⟩ | ⟨h1, h2⟩
  · exact .inl ⟨by linarith, by linarith⟩
  · exact .inr ⟨by linarith, by linarith⟩

/-- A particle whose positions are never very near to the plane of a wall cannot pass it unnoticed. -/
theorem wall_not_passed_partial (R : Rounding 53 (-1074) rnd) (c : ℕ → Bool) (w : Wall) (M : ℝ) (hM : (2 : ℝ) ^ (-1022 : ℤ) ≤ M) (hn : Bounded 2 w.normal) (hw : Bounded M w.point)
    (pos : ℕ → V3 ℝ) (hpos : ∀ k, Bounded M (pos k)) (hfar : ∀ k, 120 * (ulp * M) ≤ |height w (pos k)|) (i j : ℕ) (hij : i < j)
    (h : (height w (pos i) < 0 ∧ 0 < height w (pos j)) ∨ (height w (pos j) < 0 ∧ 0 < height w (pos i))) :
    ∃ s, i ≤ s ∧ s < j ∧ NoticedAt rnd c w pos s := by
  obtain ⟨n, rfl⟩ : ∃ n, j = i + n := ⟨j - i, by omega⟩
  have hM0 : 0 < M := (two_pos _).trans_le hM
  have hu0 : 0 < ulp := two_pos _
  have hm : 0 < ulp * M := mul_pos hu0 hM0
  have up : ∀ k, 0 ≤ height w (pos k) → 120 * (ulp * M) ≤ height w (pos k) := fun k hk => by have := hfar k; rwa [abs_of_nonneg hk] at this
  have dn : ∀ k, height w (pos k) ≤ 0 → height w (pos k) ≤ -120 * (ulp * M) := fun k hk => by have := hfar k; rw [abs_of_nonpos hk] at this; linarith
  rcases h with ⟨h0, hn'⟩ | ⟨hn', h0⟩
  · obtain ⟨s, hs, h1, h2⟩ := exists_step (fun m => height w (pos (i + m))) 0 n h0.le hn'.le (by omega)
    refine ⟨i + s, by omega, by omega, clear_step_noticed R c w _ _ M hM hn hw (hpos _) (hpos _) (.inl ⟨?_, up _ h2⟩)⟩
    have := dn _ h1; linarith
  · obtain ⟨s, hs, h1, h2⟩ := exists_step (fun m => -height w (pos (i + m))) 0 n (neg_nonpos.2 h0.le) (neg_nonneg.2 hn'.le) (by omega)
    refine ⟨i + s, by omega, by omega, clear_step_noticed R c w _ _ M hM hn hw (hpos _) (hpos _) (.inr ⟨?_, dn _ (neg_nonneg.1 h2)⟩)⟩
    have := up _ (neg_nonpos.1 h1); linarith

/-- What is reported is near: some point of the step is near the plane of the wall, and the reported point is near that point. -/
theorem reported_near (R : Rounding 53 (-1074) rnd) (c : ℕ → Bool) (w : Wall) (a b : V3 ℝ) (M : ℝ) (hM : (2 : ℝ) ^ (-1022 : ℤ) ≤ M) (hn : Bounded 2 w.normal) (hw : Bounded M w.point)
    (ha : Bounded M a) (hb : Bounded M b) (h : (intersectF rnd c w a b).1 = true) :
    ∃ t, 0 ≤ t ∧ t ≤ 1 ∧ |height w (along a b t)| ≤ 140 * (ulp * M) ∧ ∀ k, |coord k (intersectF rnd c w a b).2 - coord k (along a b t)| ≤ 9 * (ulp * M) := by
  obtain ⟨e1, e2⟩ := dots_near R c w a b M hM hn hw ha hb
  rw [intersect_iff] at h
  obtain ⟨hz, h0, h1⟩ := h
  have hM0 : 0 < M := (two_pos _).trans_le hM
  have hu0 : 0 < ulp := two_pos _
  have hm : 0 < ulp * M := mul_pos hu0 hM0
  have hu : ulp ≤ 1 / 1000 := by unfold ulp; norm_num
  have he : ∀ z, |rnd z - z| ≤ ulp * |z| + (2 : ℝ) ^ (-1074 : ℤ) := fun z => by
    have := error R (by norm_num) z
    have e : (1 - ((53 : ℕ) : ℤ)) = -52 := by norm_num
    rw [e] at this; exact this
  have hη0 : (0 : ℝ) < (2 : ℝ) ^ (-1074 : ℤ) := two_pos _
  have hη : (2 : ℝ) ^ (-1074 : ℤ) ≤ ulp * M := by
    have : (2 : ℝ) ^ (-1074 : ℤ) = ulp * (2 : ℝ) ^ (-1022 : ℤ) := by unfold ulp; rw [← zpow_add₀ (by norm_num)]; norm_num
    rw [this]; exact mul_le_mul_of_nonneg_left hM (two_pos _).le
  have hη1 : (2 : ℝ) ^ (-1074 : ℤ) ≤ 1 / 13 * ulp := by
    have : (2 : ℝ) ^ (-1074 : ℤ) ≤ (2 : ℝ) ^ (-56 : ℤ) := zpow_le_zpow_right₀ (by norm_num) (by norm_num)
    refine this.trans ?_; unfold ulp; norm_num
  refine ⟨frac rnd c w a b, h0, h1, ?_, ?_⟩
  · have hh : height w (along a b (frac rnd c w a b)) = height w a + frac rnd c w a b * (height w b - height w a) := by unfold height along V3.dot V3.sub V3.add V3.smul; ring
    rw [hh]
    set N := num rnd c w a
    set D := den rnd c w a b
    set d := frac rnd c w a b with hd
    have hq : |d * D - N| ≤ ulp * |N| + (2 : ℝ) ^ (-1074 : ℤ) * |D| := by
      by_cases hD : D = 0
      · rw [hD, hz hD]; simp
      · have e : d = rnd (N / D) := by rw [hd]; unfold frac; rw [if_neg hD]
        rw [e]
        have h := he (N / D)
        have hD' : 0 < |D| := abs_pos.2 hD
        have e3 : rnd (N / D) * D - N = (rnd (N / D) - N / D) * D := by field_simp
        rw [e3, abs_mul]
        calc _ ≤ (ulp * |N / D| + (2 : ℝ) ^ (-1074 : ℤ)) * |D| := mul_le_mul_of_nonneg_right h hD'.le
          _ = _ := by rw [abs_div]; field_simp
    have hb1 : |height w a| ≤ 12 * M ∧ |height w b - height w a| ≤ 12 * M := by
      have bd : ∀ {s t m : ℝ}, |s| ≤ M → |t| ≤ M → |m| ≤ 2 → |(s - t) * m| ≤ 4 * M := fun hs ht hm => by
        rw [abs_mul]
        have := (abs_sub _ _).trans (add_le_add hs ht)
        calc _ ≤ (M + M) * 2 := mul_le_mul this hm (abs_nonneg _) (by linarith)
          _ = 4 * M := by ring
      constructor
      · have x := bd (ha 0) (hw 0) (hn 0)
        have y := bd (ha 1) (hw 1) (hn 1)
        have z := bd (ha 2) (hw 2) (hn 2)
        unfold height V3.dot V3.sub
        refine (abs_add_three _ _ _).trans ?_
        simp only [coord] at x y z
        linarith
      · have x := bd (hb 0) (ha 0) (hn 0)
        have y := bd (hb 1) (ha 1) (hn 1)
        have z := bd (hb 2) (ha 2) (hn 2)
        have e : height w b - height w a = (b.x - a.x) * w.normal.x + (b.y - a.y) * w.normal.y + (b.z - a.z) * w.normal.z := by unfold height V3.dot V3.sub; ring
        rw [e]
        refine (abs_add_three _ _ _).trans ?_
        simp only [coord] at x y z
        linarith
    have hN : |N| ≤ 12.1 * M := by
      have : N = -height w a + (N - -height w a) := by ring
      rw [this]
      refine (abs_add_le _ _).trans ?_
      rw [abs_neg]
      have : ulp * M ≤ 1 / 1000 * M := mul_le_mul_of_nonneg_right hu hM0.le
      linarith [hb1.1]
    have hD : |D| ≤ 12.1 * M := by
      have : D = (height w b - height w a) + (D - (height w b - height w a)) := by ring
      rw [this]
      refine (abs_add_le _ _).trans ?_
      have : ulp * M ≤ 1 / 1000 * M := mul_le_mul_of_nonneg_right hu hM0.le
      linarith [hb1.2]
    have f1 : ulp * |N| ≤ 12.1 * (ulp * M) := by have := mul_le_mul_of_nonneg_left hN hu0.le; linarith
    have f2 : (2 : ℝ) ^ (-1074 : ℤ) * |D| ≤ ulp * M := by
      calc _ ≤ 1 / 13 * ulp * (12.1 * M) := mul_le_mul hη1 hD (abs_nonneg _) (by positivity)
        _ ≤ ulp * M := by linarith
    have e4 : height w a + d * (height w b - height w a) = -(d * (D - (height w b - height w a))) + (d * D - N) + (N - -height w a) := by ring
    rw [e4]
    refine (abs_add_three _ _ _).trans ?_
    have f3 : |-(d * (D - (height w b - height w a)))| ≤ 60 * (ulp * M) := by
      rw [abs_neg, abs_mul, abs_of_nonneg h0]
      calc _ ≤ 1 * (60 * (ulp * M)) := mul_le_mul h1 e2 (abs_nonneg _) zero_le_one
        _ = _ := one_mul _
    linarith
  · have comp : ∀ (f : Bool) (x y : ℝ), |x| ≤ M → |y| ≤ M →
        |rnd (x + prodF rnd f (frac rnd c w a b) (rnd (y - x))) - (x + frac rnd c w a b * (y - x))| ≤ 9 * (ulp * M) := by
      intro f x y hx hy
      set d := frac rnd c w a b
      have hA : |y - x| ≤ 2 * M := (abs_sub _ _).trans (by linarith)
      have l1 : |rnd (y - x) - (y - x)| ≤ 3 * (ulp * M) := by
        have := he (y - x)
        have : ulp * |y - x| ≤ ulp * (2 * M) := mul_le_mul_of_nonneg_left hA hu0.le
        linarith
      have l2 := prod_err he hu0.le hη0.le f (ex := 0) (X := 1) (by simp : |d - d| ≤ 0) l1 (by rw [abs_of_nonneg h0]; exact h1) hA
      have hmu : ulp * (ulp * M) ≤ 1 / 1000 * (ulp * M) := mul_le_mul_of_nonneg_right hu hm.le
      have l2' := l2.trans (show _ ≤ 6.1 * (ulp * M) by nlinarith)
      have hconv : |x + d * (y - x)| ≤ M := by
        obtain ⟨x1, x2⟩ := abs_le.1 hx
        obtain ⟨y1, y2⟩ := abs_le.1 hy
        have : x + d * (y - x) = (1 - d) * x + d * y := by ring
        rw [this, abs_le]
        constructor <;> nlinarith
      have l3 := add_err he hu0.le (by simp : |x - x| ≤ 0) l2' hconv
      exact l3.trans (by nlinarith)
    intro k
    fin_cases k
    · exact comp (c 6) _ _ (ha 0) (hb 0)
    · exact comp (c 7) _ _ (ha 1) (hb 1)
    · exact comp (c 8) _ _ (ha 2) (hb 2)

/-- So the reported point is near the plane of the wall. -/
theorem reported_on_wall (R : Rounding 53 (-1074) rnd) (c : ℕ → Bool) (w : Wall) (a b : V3 ℝ) (M : ℝ) (hM : (2 : ℝ) ^ (-1022 : ℤ) ≤ M) (hn : Bounded 2 w.normal) (hw : Bounded M w.point)
    (ha : Bounded M a) (hb : Bounded M b) (h : (intersectF rnd c w a b).1 = true) : |height w (intersectF rnd c w a b).2| ≤ 200 * (ulp * M) := by
  obtain ⟨t, -, -, h1, h2⟩ := reported_near R c w a b M hM hn hw ha hb h
  generalize (intersectF rnd c w a b).2 = i at *
  generalize along a b t = q at *
  have e : height w i = height w q + ((i.x - q.x) * w.normal.x + (i.y - q.y) * w.normal.y + (i.z - q.z) * w.normal.z) := by unfold height V3.dot V3.sub; ring
  rw [e]
  have bd : ∀ {s m : ℝ}, |s| ≤ 9 * (ulp * M) → |m| ≤ 2 → |s * m| ≤ 18 * (ulp * M) := fun hs hm => by
    rw [abs_mul]
    calc _ ≤ 9 * (ulp * M) * 2 := mul_le_mul hs hm (abs_nonneg _) ((abs_nonneg _).trans hs)
      _ = _ := by ring
  have x := bd (h2 0) (hn 0)
  have y := bd (h2 1) (hn 1)
  have z := bd (h2 2) (hn 2)
  refine (abs_add_le _ _).trans ?_
  have := abs_add_three ((i.x - q.x) * w.normal.x) ((i.y - q.y) * w.normal.y) ((i.z - q.z) * w.normal.z)
  simp only [coord] at x y z
  have hm : 0 ≤ ulp * M := mul_nonneg (two_pos _).le ((two_pos _).le.trans hM)
  linarith

/-- The hypotheses are met: a wall at an angle, and a particle that goes through it. -/
example : ∃ (w : Wall) (a b : V3 ℝ), Bounded 2 w.normal ∧ Bounded 10 w.point ∧ Bounded 10 a ∧ Bounded 10 b ∧ (2 : ℝ) ^ (-1022 : ℤ) ≤ 10 ∧
    height w a ≤ -60 * (ulp * 10) ∧ 120 * (ulp * 10) ≤ height w b :=
  ⟨⟨⟨0, 0, 0⟩, ⟨1, 1, 0⟩⟩, ⟨-3, 1, 0⟩, ⟨5, -2, 7⟩, by intro k; fin_cases k <;> norm_num [coord], by intro k; fin_cases k <;> norm_num [coord], by intro k; fin_cases k <;> norm_num [coord, abs_le],
    by intro k; fin_cases k <;> norm_num [coord, abs_le], (zpow_le_one_of_nonpos₀ (by norm_num) (by norm_num)).trans (by norm_num), by norm_num [height, V3.dot, V3.sub, ulp], by norm_num [height, V3.dot, V3.sub, ulp]⟩

end Verif.Props.C112
