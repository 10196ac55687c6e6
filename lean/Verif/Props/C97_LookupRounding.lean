import Verif.Lemmas.FloatLookup
import Verif.Props.C34_CoarseLookup

/-! C97: the lookup of candidate elements for a position, in floating point arithmetic. -/

namespace Verif.Props.C97
open Verif.Spec.Rounding Verif.Lemmas.Rounding Verif.Lemmas.FloatLookup Verif.Model Verif.Model.FloatKernels Verif.Model.FloatLookup Verif.Model.CartesianMesh
open Verif.Model.BoundingBox Verif.Model.HaloCells Verif.Model.Claims Verif.Model.CoarseLookup Verif.Props.C33 Verif.Props.C34 Verif.Props.C06 Verif.Spec.BoundingBox

variable {p : ℕ} {emin : ℤ} {rnd : ℝ → ℝ}

/-- The resolution of numbers of size up to `M`: `2 ^ -52` times `M` for `double`. -/
noncomputable def res (p : ℕ) (M : ℝ) : ℝ := (2 : ℝ) ^ (1 - (p : ℤ)) * M

/-- The sizes for which numbers are neither so small nor so large that the exponent matters. For `double` they include all `M` from `2 ^ -300` to `2 ^ 1000`
(`double_scale`). -/
structure Scale (p : ℕ) (emin : ℤ) (M : ℝ) : Prop where
  prec : 10 ≤ p
  unit : emin ≤ 1 - p
  small : ∃ E : ℤ, emin ≤ 3 * E ∧ emin + p ≤ E ∧ E ≤ 0 ∧ (2 : ℝ) ^ E ≤ res p M
  large : 3 * M * (2 : ℝ) ^ emin ≤ (2 : ℝ) ^ (1 - (p : ℤ))

theorem unit_le (hp : 10 ≤ p) : (2 : ℝ) ^ (1 - (p : ℤ)) ≤ 1 / 512 := by
  calc (2 : ℝ) ^ (1 - (p : ℤ)) ≤ 2 ^ (-9 : ℤ) := zpow_le_zpow_right₀ (by norm_num) (by omega)
    _ = 1 / 512 := by norm_num

theorem Scale.tiny {M : ℝ} (h : Scale p emin M) : (2 : ℝ) ^ emin ≤ res p M := by
  obtain ⟨E, h1, h2, h3, h4⟩ := h.small
  exact (zpow_le_zpow_right₀ (by norm_num) (by omega)).trans h4

theorem Scale.pos {M : ℝ} (h : Scale p emin M) : 0 < M := by
  have h1 := (two_pos emin).trans_le h.tiny
  unfold res at h1
  exact (pos_iff_pos_of_mul_pos h1).1 (two_pos _)

theorem Scale.res_pos {M : ℝ} (h : Scale p emin M) : 0 < res p M := (two_pos emin).trans_le h.tiny

/-- The cell of a point in one dimension: it is in the grid, and its bounds, as computed, contain the point up to `30` units of rounding. -/
theorem cell_bounds (R : Rounding p emin rnd) (contract : Bool) {M : ℝ} (hS : Scale p emin M) {o mx : ℝ} (ho : |o| ≤ M) (hmx : |mx| ≤ M)
    {m : Mesh ℝ} {d : ℕ} (e2 : m.origin d = o) (e3 : m.extents d = rnd (mx - o)) (e5 : m.cellWidths d = rnd (m.extents d / (m.cellCounts d : ℝ)))
    (e6 : m.inverseCellWidths d = rnd (1 / m.cellWidths d)) (hn : 1 ≤ m.cellCounts d) (hn2 : m.cellCounts d ≤ 2 ^ 30) (hw : 32 * res p M ≤ m.cellWidths d)
    {x : ℝ} (hx1 : o ≤ x) (hx2 : x ≤ mx) :
    ∃ k c, toInt (cellFloat rnd m d x) = some k ∧ c = clampCell (m.cellCounts d) k ∧ 0 ≤ c ∧ c < m.cellCounts d ∧ k = ⌊cellFloat rnd m d x⌋ ∧ 0 ≤ cellFloat rnd m d x ∧
      mulAdd rnd contract (c : ℝ) (m.cellWidths d) o ≤ x + 30 * res p M ∧
      x - 30 * res p M ≤ mulAdd rnd contract ((c + 1 : ℤ) : ℝ) (m.cellWidths d) o ∧
      mulAdd rnd contract (c : ℝ) (m.cellWidths d) o + 12 * res p M ≤ mulAdd rnd contract ((c + 1 : ℤ) : ℝ) (m.cellWidths d) o := by
  have hp1 : 1 ≤ p := by have := hS.prec; omega
  have he : ∀ z, |rnd z - z| ≤ (2 : ℝ) ^ (1 - (p : ℤ)) * |z| + (2 : ℝ) ^ emin := fun z => error R hp1 z
  have hu0 := two_pos (1 - (p : ℤ))
  have hu := unit_le hS.prec
  have ht0 := two_pos emin
  have htM := hS.tiny
  have hM0 := hS.pos
  have hr0 := hS.res_pos
  have hrM : res p M ≤ M / 512 := by unfold res; nlinarith
  unfold res at *
  set u := (2 : ℝ) ^ (1 - (p : ℤ)) with hudef
  set t := (2 : ℝ) ^ emin with htdef
  set w := m.cellWidths d with hwdef
  set n := m.cellCounts d with hndef
  have hw0 : 0 < w := by linarith
  have hnR : (1 : ℝ) ≤ (n : ℝ) := by exact_mod_cast hn
  have hxe := ext_error he hu0 hu ht0 htM ho hmx
  rw [← e3] at hxe
  have hext0 : 0 ≤ m.extents d := by
    rw [e3]
    exact rnd_nonneg R (by linarith)
  have hmo : mx - o ≤ 2 * M := by rw [abs_le] at ho hmx; linarith
  have hext2 : m.extents d ≤ 2 * M + 3 * (u * M) := by rw [abs_le] at hxe; linarith
  have htw : t ≤ u * w := by
    obtain ⟨E, h1, h2, h3, h4⟩ := hS.small
    have h5 : t ≤ u * (2 : ℝ) ^ E := by
      rw [htdef, hudef, ← zpow_add₀ (by norm_num : (2 : ℝ) ≠ 0)]
      exact zpow_le_zpow_right₀ (by norm_num) (by omega)
    have h6 : u * (2 : ℝ) ^ E ≤ u * w := mul_le_mul_of_nonneg_left (h4.trans (by unfold res; linarith)) hu0.le
    exact h5.trans h6
  obtain ⟨hnw, hnw3⟩ := width_error he hu0 hu ht0 htM hnR e5 hext0 hext2 hw0 htw
  have hw3 : w ≤ 3 * M := by nlinarith
  have hwt : w * t ≤ u := by
    have := mul_le_mul_of_nonneg_right hw3 ht0.le
    have h := hS.large
    linarith
  have htu : t ≤ u := zpow_le_zpow_right₀ (by norm_num) hS.unit
  have hxM : |x| ≤ M := by
    rw [abs_le] at *
    constructor <;> linarith
  have hy := cellFloat_error he hu0 hu ht0 htM (o := o) (x := x) (y := cellFloat rnd m d x) ho hxM hw0 hw3 htu hwt e6 rfl (by unfold cellFloat; rw [e2])
  have hinv0 : 0 ≤ m.inverseCellWidths d := by
    rw [e6]
    exact rnd_nonneg R (by positivity)
  have hy0 : 0 ≤ cellFloat rnd m d x := by
    unfold cellFloat
    rw [e2]
    exact rnd_nonneg R (mul_nonneg (rnd_nonneg R (by linarith)) hinv0)
  set y := cellFloat rnd m d x with hydef
  have hyn : y < n + 1 := by
    have h1 : y * w < (n + 1) * w := by
      rw [abs_le] at hxe hnw hy
      linarith
    exact lt_of_mul_lt_mul_right h1 hw0.le
  have hfl : ⌊y⌋ ≤ n := by
    have : ⌊y⌋ < n + 1 := Int.floor_lt.2 (by push_cast; exact hyn)
    omega
  have hfl0 : 0 ≤ ⌊y⌋ := Int.floor_nonneg.2 hy0
  have hc0 : 0 ≤ clampCell n ⌊y⌋ ∧ clampCell n ⌊y⌋ < n ∧ clampCell n ⌊y⌋ ≤ ⌊y⌋ ∧ (clampCell n ⌊y⌋ = ⌊y⌋ ∨ clampCell n ⌊y⌋ + 1 = n) := by
    unfold clampCell
    have e : (if ⌊y⌋ < 0 then 0 else ⌊y⌋) = ⌊y⌋ := if_neg (by omega)
    simp only [e]
    split_ifs with hh
    · refine ⟨?_, ?_, ?_, Or.inr ?_⟩ <;> omega
    · exact ⟨hfl0, by omega, le_rfl, Or.inl rfl⟩
  obtain ⟨c0, c1, c2, c3⟩ := hc0
  refine ⟨⌊y⌋, clampCell n ⌊y⌋, ?_, rfl, c0, c1, rfl, hy0, ?_⟩
  · unfold toInt
    rw [truncZ_of_nonneg hy0, if_pos ⟨by omega, by omega⟩]
  · set c := clampCell n ⌊y⌋ with hc
    have hcR : (0 : ℝ) ≤ (c : ℝ) := by exact_mod_cast c0
    have hcn : ((c + 1 : ℤ) : ℝ) ≤ n := by exact_mod_cast c1
    have hcy : (c : ℝ) ≤ y := (by exact_mod_cast c2 : (c : ℝ) ≤ (⌊y⌋ : ℝ)).trans (Int.floor_le y)
    have hb2 : ((c + 1 : ℤ) : ℝ) * w ≤ 3 * M := (mul_le_mul_of_nonneg_right hcn hw0.le).trans hnw3
    have hexp : ((c + 1 : ℤ) : ℝ) * w = c * w + w := by push_cast; ring
    have hcw0 : 0 ≤ (c : ℝ) * w := mul_nonneg hcR hw0.le
    have q1 := bound_error he hu0 hu ht0 htM (c := (c : ℝ)) (w := w) contract ho hcw0 (by linarith)
    have q2 := bound_error he hu0 hu ht0 htM (c := ((c + 1 : ℤ) : ℝ)) (w := w) contract ho (by linarith) hb2
    have hcyw : (c : ℝ) * w ≤ y * w := mul_le_mul_of_nonneg_right hcy hw0.le
    have hup : x - o - 20 * (u * M) ≤ ((c + 1 : ℤ) : ℝ) * w := by
      rcases c3 with h | h
      · have h1 : y ≤ ((c + 1 : ℤ) : ℝ) := by
          rw [h]
          push_cast
          exact (Int.lt_floor_add_one y).le
        have h2 := mul_le_mul_of_nonneg_right h1 hw0.le
        rw [abs_le] at hy
        linarith
      · rw [h]
        rw [abs_le] at hnw hxe
        linarith
    rw [abs_le] at q1 q2 hy
    refine ⟨by linarith, by linarith, by linarith⟩

/-- The cell is a monotone function of the point. -/
theorem cellFloat_mono (R : Rounding p emin rnd) {m : Mesh ℝ} {d : ℕ} (h : 0 ≤ m.inverseCellWidths d) {x y : ℝ} (hxy : x ≤ y) :
    cellFloat rnd m d x ≤ cellFloat rnd m d y := by
  unfold cellFloat
  exact R.mono (mul_le_mul_of_nonneg_right (R.mono (by linarith)) h)

theorem clampCell_mono {n a b : ℤ} (h : a ≤ b) : clampCell n a ≤ clampCell n b := by
  unfold clampCell
  simp only
  split_ifs <;> omega

/-- The assertions of the host code hold of points of the domain. -/
theorem getCellF_some (R : Rounding p emin rnd) {M : ℝ} (hS : Scale p emin M) (h8 : 16 * res p M ≤ 1 / 10 ^ 8) {o mx : ℝ} (ho : |o| ≤ M) (hmx : |mx| ≤ M)
    (hof : IsFloat p emin o) (hmf : IsFloat p emin mx)
    {m : Mesh ℝ} {d : ℕ} (e2 : m.origin d = o) (e3 : m.extents d = rnd (mx - o)) (hd : d < m.ndim) {x : ℝ} (hx1 : o ≤ x) (hx2 : x ≤ mx) :
    getCellF rnd m d x = (toInt (cellFloat rnd m d x)).map (clampCell (m.cellCounts d)) := by
  have hp1 : 1 ≤ p := by have := hS.prec; omega
  have he : ∀ z, |rnd z - z| ≤ (2 : ℝ) ^ (1 - (p : ℤ)) * |z| + (2 : ℝ) ^ emin := fun z => error R hp1 z
  have hu0 := two_pos (1 - (p : ℤ))
  have hu := unit_le hS.prec
  have ht0 := two_pos emin
  have htM := hS.tiny
  have hr0 := hS.res_pos
  have hrM : res p M ≤ M / 512 := by have := hS.pos; unfold res; nlinarith
  have hxe := ext_error he hu0 hu ht0 htM ho hmx
  have h10 : (0 : ℝ) ≤ rnd (1 / 10 ^ 8) := rnd_nonneg R (by positivity)
  have h3 : |rnd (o + rnd (mx - o)) - (o + rnd (mx - o))| ≤ 3 * res p M := by
    have : |o + rnd (mx - o)| ≤ 2 * M := by
      unfold res at *
      rw [abs_le] at *
      constructor <;> linarith
    have := err_le he hu0.le this
    unfold res at *
    linarith
  have h4 : 6 * res p M ≤ rnd (1 / 10 ^ 8) := by
    have := he (1 / 10 ^ 8)
    have e : |(1 : ℝ) / 10 ^ 8| = 1 / 10 ^ 8 := abs_of_pos (by positivity)
    rw [e, abs_le] at this
    have h5 : (2 : ℝ) ^ (1 - (p : ℤ)) * (1 / 10 ^ 8) ≤ 1 / 512 * (1 / 10 ^ 8) := mul_le_mul_of_nonneg_right hu (by positivity)
    linarith
  unfold getCellF
  rw [if_pos]
  refine ⟨?_, ?_, hd⟩
  · rw [e2]
    exact (rnd_le R hof (by linarith)).trans hx1
  · rw [e2, e3]
    refine hx2.trans (le_rnd R hmf ?_)
    unfold res at *
    rw [abs_le] at *
    linarith

/-! ### The map -/

theorem push_lists (map : GeomMap ℝ) (k c : ℤ) (x y : ℝ × ℤ) : y ∈ (map.push k x).lists c ↔ y ∈ map.lists c ∨ (c = k ∧ y = x) := by
  unfold GeomMap.push
  by_cases h : c = k
  · subst h
    simp
  · simp [Function.update_of_ne h, h]

theorem push_keys (map : GeomMap ℝ) (k c : ℤ) (x : ℝ × ℤ) : c ∈ (map.push k x).keys ↔ c ∈ map.keys ∨ c = k := by
  unfold GeomMap.push setInsert
  dsimp only
  split_ifs with h
  · constructor
    · exact Or.inl
    · rintro (h' | rfl)
      · exact h'
      · simpa using h
  · simp

theorem push_nodup (map : GeomMap ℝ) (k : ℤ) (x : ℝ × ℤ) (h : map.keys.Nodup) : (map.push k x).keys.Nodup := by
  unfold GeomMap.push setInsert
  dsimp only
  split_ifs with h'
  · exact h
  · rw [List.nodup_append]
    refine ⟨h, by simp, ?_⟩
    intro a ha b hb hab
    simp only [List.mem_singleton] at hb
    subst hab hb
    exact h' (by simpa using ha)

/-- The state of the map: keys are cells of the grid, a list that is not empty has its key, and entries are indices of geometries added so far. -/
structure MapOk (count : ℤ) (k : ℕ) (map : GeomMap ℝ) : Prop where
  keys : ∀ c ∈ map.keys, 0 ≤ c ∧ c < count
  nodup : map.keys.Nodup
  has : ∀ c x, x ∈ map.lists c → c ∈ map.keys ∧ 0 ≤ x.2 ∧ x.2 < k

/-- The fold over the cells. -/
theorem fold_cellsF (contract : Bool) (m : Mesh ℝ) (box : ℕ → ℝ) (gid : ℕ) (boxes : (ℕ → ℤ) → ℕ → ℝ) (count : ℤ) :
    ∀ (T : List (ℕ → ℤ)) (map : GeomMap ℝ), (∀ t ∈ T, cellBoxF rnd contract m t = some (boxes t)) →
    (∀ t ∈ T, 0 ≤ linearIndex m.ndim m.cellCounts t ∧ linearIndex m.ndim m.cellCounts t < count) → MapOk count (gid + 1) map →
    ∃ map', T.foldlM (fun (map : GeomMap ℝ) cell_tuple => (cellBoxF rnd contract m cell_tuple).map fun cell_bounding_box =>
        if overlapF rnd m.ndim box cell_bounding_box > 0 then
          map.push (linearIndex m.ndim m.cellCounts cell_tuple) (overlapF rnd m.ndim box cell_bounding_box, (gid : ℤ)) else map) map = some map' ∧
      MapOk count (gid + 1) map' ∧ (∀ c x, x ∈ map.lists c → x ∈ map'.lists c) ∧
      ∀ t ∈ T, 0 < overlapF rnd m.ndim box (boxes t) → ∃ x ∈ map'.lists (linearIndex m.ndim m.cellCounts t), x.2 = gid := by
  intro T
  induction T with
  | nil => intro map _ _ hok; exact ⟨map, rfl, hok, fun _ _ h => h, by simp⟩
  | cons t T ih =>
    intro map hb hr hok
    rw [List.foldlM_cons, hb t (by simp)]
    simp only [Option.map_some, Option.bind_eq_bind, Option.bind_some]
    have hok' : MapOk count (gid + 1) (if overlapF rnd m.ndim box (boxes t) > 0 then
        map.push (linearIndex m.ndim m.cellCounts t) (overlapF rnd m.ndim box (boxes t), (gid : ℤ)) else map) := by
      split_ifs with h
      · refine ⟨fun c hc => ?_, push_nodup _ _ _ hok.nodup, fun c x hx => ?_⟩
        · rcases (push_keys _ _ _ _).1 hc with h' | rfl
          · exact hok.keys c h'
          · exact hr t (by simp)
        · rw [push_keys]
          rcases (push_lists _ _ _ _ _).1 hx with h' | ⟨rfl, rfl⟩
          · obtain ⟨a, b⟩ := hok.has c x h'
            exact ⟨Or.inl a, b⟩
          · refine ⟨Or.inr rfl, ?_, ?_⟩ <;> dsimp only <;> push_cast <;> omega
      · exact hok
    obtain ⟨map', h1, h2, h3, h4⟩ := ih _ (fun s hs => hb s (by simp [hs])) (fun s hs => hr s (by simp [hs])) hok'
    refine ⟨map', h1, h2, fun c x hx => h3 c x ?_, fun s hs hpos => ?_⟩
    · split_ifs with h
      · exact (push_lists _ _ _ _ _).2 (Or.inl hx)
      · exact hx
    · rcases List.mem_cons.1 hs with rfl | hs
      · refine ⟨(overlapF rnd m.ndim box (boxes s), (gid : ℤ)), h3 _ _ ?_, rfl⟩
        rw [if_pos hpos]
        exact (push_lists _ _ _ _ _).2 (Or.inr ⟨rfl, rfl⟩)
      · exact h4 s hs hpos

/-- The computed bounds of the cell `t`. -/
noncomputable def gridBoxF (rnd : ℝ → ℝ) (contract : Bool) (m : Mesh ℝ) (t : ℕ → ℤ) : ℕ → ℝ := fun i =>
  if i < 3 then mulAdd rnd contract (t i : ℝ) (m.cellWidths i) (m.origin i)
  else mulAdd rnd contract ((t (i - 3) + 1 : ℤ) : ℝ) (m.cellWidths (i - 3)) (m.origin (i - 3))

theorem cellBoxF_some (contract : Bool) (m : Mesh ℝ) (h3 : m.ndim ≤ 3) (t : ℕ → ℤ) (ht : InMesh m t) :
    ∃ cb, cellBoxF rnd contract m t = some cb ∧ ∀ d < m.ndim, cb d = gridBoxF rnd contract m t d ∧ cb (d + 3) = gridBoxF rnd contract m t (d + 3) := by
  unfold cellBoxF
  rw [mapM_some _ (fun d => (gridBoxF rnd contract m t d, gridBoxF rnd contract m t (d + 3)))]
  · refine ⟨_, rfl, fun d hd => ?_⟩
    dsimp only
    rw [if_pos (by omega), if_neg (by omega), Nat.add_sub_cancel]
    simp [List.getD_eq_getElem?_getD, List.getElem?_range, hd]
  · intro d hd
    rw [List.mem_range] at hd
    unfold cellBoundsF gridBoxF
    rw [if_pos (ht d hd), if_pos (by omega), if_neg (by omega), Nat.add_sub_cancel]

theorem overlapF_congr (n : ℕ) (a b b' : ℕ → ℝ) (h : ∀ d < n, b d = b' d ∧ b (d + 3) = b' (d + 3)) : overlapF rnd n a b = overlapF rnd n a b' := by
  unfold overlapF
  induction n with
  | zero => rfl
  | succ n ih =>
    rw [List.range_succ, List.foldl_append, List.foldl_append, ih fun d hd => h d (by omega)]
    simp only [List.foldl_cons, List.foldl_nil]
    rw [(h n (by omega)).1, (h n (by omega)).2]

/-- The overlap does not underflow: if in each dimension the intervals overlap by at least `2 ^ E`, the computed overlap is positive. -/
theorem overlapF_pos (R : Rounding p emin rnd) (hp : 1 ≤ p) {E : ℤ} (hE : emin ≤ 3 * E) (hE0 : E ≤ 0) (n : ℕ) (hn : n ≤ 3) (a b : ℕ → ℝ)
    (h : ∀ d < n, max (b d) (a d) + (2 : ℝ) ^ E ≤ min (b (d + 3)) (a (d + 3))) : 0 < overlapF rnd n a b := by
  suffices hs : ∀ k ≤ n, (2 : ℝ) ^ (k * E) ≤ overlapF rnd k a b by exact (two_pos _).trans_le (hs n le_rfl)
  intro k
  induction k with
  | zero => intro _; unfold overlapF; simp
  | succ k ih =>
    intro hk
    have ih := ih (by omega)
    have hv : (2 : ℝ) ^ E ≤ intervalOverlapF rnd (a k) (a (k + 3)) (b k) (b (k + 3)) := by
      have hh := h k (by omega)
      have h2 := two_pos E
      unfold intervalOverlapF
      rw [if_neg, if_neg]
      · refine le_rnd R (float_pow hp ?_) (by linarith)
        omega
      · push Not
        have h3 := le_max_right (b k) (a k)
        have h4 := min_le_left (b (k + 3)) (a (k + 3))
        linarith
      · push Not
        have h3 := le_max_left (b k) (a k)
        have h4 := min_le_right (b (k + 3)) (a (k + 3))
        linarith
    have e : overlapF rnd (k + 1) a b = rnd (overlapF rnd k a b * intervalOverlapF rnd (a k) (a (k + 3)) (b k) (b (k + 3))) := by
      unfold overlapF
      rw [List.range_succ, List.foldl_append]
      rfl
    rw [e]
    refine le_rnd R (float_pow hp ?_) ?_
    · have : (k : ℤ) + 1 ≤ 3 := by omega
      push_cast
      nlinarith
    · have e2 : (2 : ℝ) ^ (((k + 1 : ℕ) : ℤ) * E) = (2 : ℝ) ^ ((k : ℤ) * E) * (2 : ℝ) ^ E := by
        rw [← zpow_add₀ (by norm_num : (2 : ℝ) ≠ 0)]
        congr 1
        push_cast
        ring
      rw [e2]
      exact mul_le_mul ih hv (two_pos _).le ((two_pos _).le.trans ih)

/-! ### The mesh -/

/-- The grid over the interval from `o` to `mx` in each dimension, with coordinates of size up to `M`. -/
structure GridF (p : ℕ) (emin : ℤ) (rnd : ℝ → ℝ) (m : Mesh ℝ) (o mx : ℕ → ℝ) (M : ℝ) : Prop where
  dim : 0 < m.ndim ∧ m.ndim ≤ 3
  floats : ∀ d < m.ndim, IsFloat p emin (o d) ∧ IsFloat p emin (mx d)
  size : ∀ d < m.ndim, |o d| ≤ M ∧ |mx d| ≤ M
  origin : ∀ d < m.ndim, m.origin d = o d
  extents : ∀ d < m.ndim, m.extents d = rnd (mx d - o d)
  widths : ∀ d < m.ndim, m.cellWidths d = rnd (m.extents d / (m.cellCounts d : ℝ))
  inverse : ∀ d < m.ndim, m.inverseCellWidths d = rnd (1 / m.cellWidths d)
  counts : ∀ d < m.ndim, 1 ≤ m.cellCounts d ∧ m.cellCounts d ≤ 2 ^ 30
  wide : ∀ d < m.ndim, 32 * res p M ≤ m.cellWidths d
  resolved : 16 * res p M ≤ 1 / 10 ^ 8

/-- The cell of a point. -/
noncomputable def cellOf (rnd : ℝ → ℝ) (m : Mesh ℝ) (d : ℕ) (x : ℝ) : ℤ := clampCell (m.cellCounts d) ⌊cellFloat rnd m d x⌋

section grid
variable (R : Rounding p emin rnd) {m : Mesh ℝ} {o mx : ℕ → ℝ} {M : ℝ} (hS : Scale p emin M) (G : GridF p emin rnd m o mx M)
include R hS G

/-- Host and kernels compute the same cell of a point of the domain, and it is in the grid. -/
theorem cellOf_spec {d : ℕ} (hd : d < m.ndim) {x : ℝ} (h1 : o d ≤ x) (h2 : x ≤ mx d) :
    getCellF rnd m d x = some (cellOf rnd m d x) ∧ kernelCellF rnd m d x = some (cellOf rnd m d x) ∧ 0 ≤ cellOf rnd m d x ∧ cellOf rnd m d x < m.cellCounts d := by
  obtain ⟨k, c, a1, a2, a3, a4, a5, -⟩ := cell_bounds R false hS (G.size d hd).1 (G.size d hd).2 (G.origin d hd) (G.extents d hd) (G.widths d hd) (G.inverse d hd)
    (G.counts d hd).1 (G.counts d hd).2 (G.wide d hd) h1 h2
  have e : cellOf rnd m d x = c := by rw [a2, a5]; rfl
  rw [e]
  refine ⟨?_, ?_, a3, a4⟩
  · rw [getCellF_some R hS G.resolved (G.size d hd).1 (G.size d hd).2 (G.floats d hd).1 (G.floats d hd).2 (G.origin d hd) (G.extents d hd) hd h1 h2, a1, a2]
    rfl
  · unfold kernelCellF
    rw [mul_comm]
    unfold cellFloat at a1
    rw [a1, a2]
    rfl

theorem inverse_nonneg {d : ℕ} (hd : d < m.ndim) : 0 ≤ m.inverseCellWidths d := by
  rw [G.inverse d hd]
  refine rnd_nonneg R ?_
  have := G.wide d hd
  have := hS.res_pos
  have : 0 < m.cellWidths d := by linarith
  positivity

theorem cellOf_mono {d : ℕ} (hd : d < m.ndim) {x y : ℝ} (h : x ≤ y) : cellOf rnd m d x ≤ cellOf rnd m d y :=
  clampCell_mono (Int.floor_le_floor (cellFloat_mono R (inverse_nonneg R hS G hd) h))

/-- The cell of a point that is inside of a box by `32` units of rounding overlaps the box. -/
theorem overlap_at (contract : Bool) (box q : ℕ → ℝ) (hbox : ∀ d < m.ndim, o d ≤ box d ∧ box (d + 3) ≤ mx d)
    (hq : ∀ d < m.ndim, box d + 32 * res p M ≤ q d ∧ q d + 32 * res p M ≤ box (d + 3)) (t : ℕ → ℤ) (ht : ∀ d < m.ndim, t d = cellOf rnd m d (q d)) :
    0 < overlapF rnd m.ndim box (gridBoxF rnd contract m t) := by
  obtain ⟨E, E1, E2, E3, E4⟩ := hS.small
  have hr := hS.res_pos
  refine overlapF_pos R (by have := hS.prec; omega) E1 E3 _ G.dim.2 _ _ fun d hd => ?_
  obtain ⟨q1, q2⟩ := hq d hd
  obtain ⟨b1, b2⟩ := hbox d hd
  obtain ⟨k, c, a1, a2, a3, a4, a5, a6, a7, a8, a9⟩ := cell_bounds R contract hS (G.size d hd).1 (G.size d hd).2 (G.origin d hd) (G.extents d hd) (G.widths d hd)
    (G.inverse d hd) (G.counts d hd).1 (G.counts d hd).2 (G.wide d hd) (x := q d) (by linarith) (by linarith)
  have e : t d = c := by rw [ht d hd, a2, a5]; rfl
  have hd3 := G.dim.2
  unfold gridBoxF
  rw [if_pos (by omega), if_neg (by omega), Nat.add_sub_cancel, e, G.origin d hd]
  have h1 : max (mulAdd rnd contract (c : ℝ) (m.cellWidths d) (o d)) (box d) ≤
      min (mulAdd rnd contract ((c + 1 : ℤ) : ℝ) (m.cellWidths d) (o d)) (box (d + 3)) - res p M := by
    rw [max_le_iff]
    constructor
    · rw [le_sub_iff_add_le, le_min_iff]
      exact ⟨by linarith, by linarith⟩
    · rw [le_sub_iff_add_le, le_min_iff]
      exact ⟨by linarith, by linarith⟩
  linarith

/-- One geometry: it is listed in the cell of each point inside of its box by `32` units of rounding. -/
theorem addGeomF_spec (contract : Bool) (box : ℕ → ℝ) (hbox : ∀ d < m.ndim, o d ≤ box d ∧ box d ≤ box (d + 3) ∧ box (d + 3) ≤ mx d) (gid : ℕ) (map : GeomMap ℝ)
    (hok : MapOk (cellCount m.ndim m.cellCounts) (gid + 1) map) :
    ∃ map', addGeomF rnd contract m box gid map = some map' ∧ MapOk (cellCount m.ndim m.cellCounts) (gid + 1) map' ∧ (∀ c x, x ∈ map.lists c → x ∈ map'.lists c) ∧
      ∀ q : ℕ → ℝ, (∀ d < m.ndim, box d + 32 * res p M ≤ q d ∧ q d + 32 * res p M ≤ box (d + 3)) → ∀ t : ℕ → ℤ, (∀ d < m.ndim, t d = cellOf rnd m d (q d)) →
        ∃ x ∈ map'.lists (linearIndex m.ndim m.cellCounts t), x.2 = gid := by
  have h0 := G.dim.1
  have h3 := G.dim.2
  have hr := hS.res_pos
  have hse := fun d (hd : d < m.ndim) => cellOf_spec R hS G hd (x := box d) (hbox d hd).1 ((hbox d hd).2.1.trans (hbox d hd).2.2)
  have hee := fun d (hd : d < m.ndim) => cellOf_spec R hS G hd (x := box (d + 3)) ((hbox d hd).1.trans (hbox d hd).2.1) (hbox d hd).2.2
  set l : List (ℤ × ℤ) := (List.range m.ndim).map fun d => (cellOf rnd m d (box d), cellOf rnd m d (box (d + 3))) with hl
  have hl1 : ∀ d < m.ndim, l.getD d (0, 0) = (cellOf rnd m d (box d), cellOf rnd m d (box (d + 3))) := by
    intro d hd
    simp [hl, List.getD_eq_getElem?_getD, List.getElem?_range, hd]
  have hl2 : ∀ d, m.ndim ≤ d → l.getD d (0, 0) = (0, 0) := by
    intro d hd
    simp [hl, List.getD_eq_getElem?_getD, List.getElem?_range, hd]
  unfold addGeomF
  rw [mapM_some _ (fun d => (cellOf rnd m d (box d), cellOf rnd m d (box (d + 3)))) _ (by
    intro d hd
    rw [List.mem_range] at hd
    rw [(hse d hd).1, (hee d hd).1]
    rfl), Option.bind_some, ← hl]
  have hT : ∀ t ∈ FloatLookup.cellTuples (fun d => (l.getD d (0, 0)).1) (fun d => (l.getD d (0, 0)).2), InMesh m t := by
    intro t ht d hd
    have ht2 : t ∈ C34.cellTuples (fun d => (l.getD d (0, 0)).1) (fun d => (l.getD d (0, 0)).2) := ht
    have := (mem_cellTuples _ _ t ht2).1 d (by omega)
    rw [hl1 d hd] at this
    have a1 := hse d hd
    have a2 := hee d hd
    exact ⟨by omega, by omega⟩
  have hcb := fun (t : ℕ → ℤ) (ht : InMesh m t) => cellBoxF_some (rnd := rnd) contract m h3 t ht
  choose! boxes hb1 hb2 using hcb
  have bij := linear_index_bijective m.ndim h0 m.cellCounts fun d hd => by have := (G.counts d hd).1; omega
  obtain ⟨map', k1, k2, k3, k4⟩ := fold_cellsF (rnd := rnd) contract m box gid boxes (cellCount m.ndim m.cellCounts)
    (FloatLookup.cellTuples (fun d => (l.getD d (0, 0)).1) (fun d => (l.getD d (0, 0)).2)) map (fun t ht => hb1 t (hT t ht)) (fun t ht => bij.1 t (hT t ht)) hok
  refine ⟨map', k1, k2, k3, fun q hq t ht => ?_⟩
  have hqd : ∀ d < m.ndim, o d ≤ q d ∧ q d ≤ mx d := by
    intro d hd
    obtain ⟨a1, a2⟩ := hq d hd
    obtain ⟨b1, b2, b3⟩ := hbox d hd
    exact ⟨by linarith, by linarith⟩
  set t' : ℕ → ℤ := fun d => if d < m.ndim then t d else 0 with ht'
  have hmem : tuple3 (t' 0) (t' 1) (t' 2) ∈ FloatLookup.cellTuples (fun d => (l.getD d (0, 0)).1) (fun d => (l.getD d (0, 0)).2) := by
    refine cellTuples_all (fun d => (l.getD d (0, 0)).1) (fun d => (l.getD d (0, 0)).2) t' fun d hd => ?_
    dsimp only [t']
    by_cases hdd : d < m.ndim
    · rw [if_pos hdd, hl1 d hdd, ht d hdd]
      have := hq d hdd
      exact ⟨cellOf_mono R hS G hdd (by linarith), cellOf_mono R hS G hdd (by linarith)⟩
    · rw [if_neg hdd, hl2 d (by omega)]
      simp
  have htt : ∀ d < m.ndim, tuple3 (t' 0) (t' 1) (t' 2) d = t d := by
    intro d hd
    have : d = 0 ∨ d = 1 ∨ d = 2 := by omega
    rcases this with rfl | rfl | rfl <;> simp [tuple3, ht', hd]
  have hov := overlap_at R hS G contract box q (fun d hd => ⟨(hbox d hd).1, (hbox d hd).2.2⟩) hq (tuple3 (t' 0) (t' 1) (t' 2)) (fun d hd => by rw [htt d hd, ht d hd])
  have hx := k4 _ hmem (by
    rw [overlapF_congr _ _ _ (gridBoxF rnd contract m (tuple3 (t' 0) (t' 1) (t' 2))) (hb2 _ (hT _ hmem))]
    exact hov)
  have hlin : linearIndex m.ndim m.cellCounts (tuple3 (t' 0) (t' 1) (t' 2)) = linearIndex m.ndim m.cellCounts t :=
    Verif.Lemmas.linearIndex_congr h0 htt
  rwa [hlin] at hx

end grid

/-- The index of the kernels. -/
theorem kernelLinearF_eq (R : Rounding p emin rnd) {m : Mesh ℝ} {o mx : ℕ → ℝ} {M : ℝ} (hS : Scale p emin M) (G : GridF p emin rnd m o mx M)
    (q : ℕ → ℝ) (hq : ∀ d < m.ndim, o d ≤ q d ∧ q d ≤ mx d) :
    kernelLinearF rnd m q = some (linearIndex m.ndim m.cellCounts fun d => cellOf rnd m d (q d)) := by
  have hk := fun d (hd : d < m.ndim) => (cellOf_spec R hS G hd (hq d hd).1 (hq d hd).2).2.1
  obtain ⟨h0, h3⟩ := G.dim
  unfold kernelLinearF
  rw [hk 0 h0]
  have hn : m.ndim = 1 ∨ m.ndim = 2 ∨ m.ndim = 3 := by omega
  rcases hn with h | h | h
  · simp [linearIndex, h]
  · rw [if_pos (by omega), hk 1 (by omega)]
    simp [linearIndex, h]
    ring
  · rw [if_pos (by omega), if_pos (by omega), hk 1 (by omega), hk 2 (by omega)]
    simp [linearIndex, h, List.range_succ]
    ring

theorem addGeomsF_spec (R : Rounding p emin rnd) {m : Mesh ℝ} {o mx : ℕ → ℝ} {M : ℝ} (hS : Scale p emin M) (G : GridF p emin rnd m o mx M) (contract : Bool) :
    ∀ (geoms : List (ℤ × (ℕ → ℝ))) (k : ℕ) (s : GeomMap ℝ × (ℤ → Option ℕ)),
    (∀ g ∈ geoms, ∀ d < m.ndim, o d ≤ g.2 d ∧ g.2 d ≤ g.2 (d + 3) ∧ g.2 (d + 3) ≤ mx d) → MapOk (cellCount m.ndim m.cellCounts) k s.1 →
    ∃ s', addGeomsF rnd contract m geoms k s = some s' ∧ MapOk (cellCount m.ndim m.cellCounts) (k + geoms.length) s'.1 ∧ (∀ c x, x ∈ s.1.lists c → x ∈ s'.1.lists c) ∧
      ∀ i (h : i < geoms.length) (q : ℕ → ℝ), (∀ d < m.ndim, (geoms[i]).2 d + 32 * res p M ≤ q d ∧ q d + 32 * res p M ≤ (geoms[i]).2 (d + 3)) →
        ∀ t : ℕ → ℤ, (∀ d < m.ndim, t d = cellOf rnd m d (q d)) → ∃ x ∈ s'.1.lists (linearIndex m.ndim m.cellCounts t), x.2 = ((k + i : ℕ) : ℤ) := by
  intro geoms
  induction geoms with
  | nil => intro k s _ hok; exact ⟨s, rfl, by simpa using hok, fun _ _ h => h, by simp⟩
  | cons g l ih =>
    intro k s hb hok
    have hok1 : MapOk (cellCount m.ndim m.cellCounts) (k + 1) s.1 := ⟨hok.keys, hok.nodup, fun c x hx => by
      obtain ⟨a, b, c⟩ := hok.has c x hx
      exact ⟨a, b, by push_cast; omega⟩⟩
    obtain ⟨map', a1, a2, a3, a4⟩ := addGeomF_spec R hS G contract g.2 (hb g (by simp)) k s.1 hok1
    obtain ⟨s', b1, b2, b3, b4⟩ := ih (k + 1) (map', Function.update s.2 g.1 (some k)) (fun g hg => hb g (by simp [hg])) a2
    refine ⟨s', ?_, ?_, fun c x hx => b3 c x (a3 c x hx), ?_⟩
    · unfold addGeomsF
      rw [a1, Option.bind_some, b1]
    · rw [List.length_cons]
      rwa [show k + (l.length + 1) = k + 1 + l.length by omega]
    · intro i hi q hq t ht
      cases i with
      | zero =>
        obtain ⟨x, x1, x2⟩ := a4 q (by simpa using hq) t ht
        exact ⟨x, b3 _ x x1, by simpa using x2⟩
      | succ i =>
        obtain ⟨x, x1, x2⟩ := b4 i (by simpa using hi) q (by simpa using hq) t ht
        exact ⟨x, x1, by rw [x2]; push_cast; ring⟩

/-- The counts of the grid. `η` is the relative error of the computed root. -/
theorem gridCountsF_spec (R : Rounding p emin rnd) (hp : 10 ≤ p) (hu : emin ≤ 1 - p) (ndim cellCnt : ℕ) (hc : 0 < cellCnt) {big η : ℝ} (ext : ℕ → ℝ) (scaling : ℝ → ℤ)
    (hf : ∀ d < ndim, IsFloat p emin (ext d)) (hb : IsFloat p emin big) (hb4 : 4 * (2 : ℝ) ^ emin ≤ big) (he : ∀ d < ndim, 4 * (2 : ℝ) ^ emin ≤ ext d) (hη : 0 ≤ η)
    (hsc : ∀ f, 1 ≤ f → 0 < scaling f ∧ f * (1 - η) ≤ (scaling f : ℝ) ^ ndim) (hT : (4 : ℝ) ^ ndim * cellCnt * (2 * (2 : ℝ) ^ (1 - (p : ℤ)) + η) < 1) :
    ∃ counts, gridCountsF rnd ndim cellCnt big ext scaling = some counts ∧ ∀ d < ndim, 1 ≤ counts d := by
  have hp1 : 1 ≤ p := by omega
  have hmin : IsFloat p emin (minExtent ndim big ext) ∧ 4 * (2 : ℝ) ^ emin ≤ minExtent ndim big ext ∧ ∀ d < ndim, minExtent ndim big ext ≤ ext d := by
    unfold minExtent
    induction ndim with
    | zero => exact ⟨hb, hb4, by simp⟩
    | succ n ih =>
      obtain ⟨h0, h1, h2⟩ : IsFloat p emin ((List.range n).foldl (fun m d => min m (ext d)) big) ∧ 4 * (2 : ℝ) ^ emin ≤ (List.range n).foldl (fun m d => min m (ext d)) big ∧
          ∀ d < n, (List.range n).foldl (fun m d => min m (ext d)) big ≤ ext d := by
        clear hT hsc ih
        induction n with
        | zero => exact ⟨hb, hb4, by simp⟩
        | succ n ih =>
          obtain ⟨h0, h1, h2⟩ := ih (fun d hd => hf d (by omega)) (fun d hd => he d (by omega))
          rw [List.range_succ, List.foldl_append, List.foldl_cons, List.foldl_nil]
          refine ⟨?_, le_min h1 (he n (by omega)), fun d hd => ?_⟩
          · rcases min_choice ((List.range n).foldl (fun m d => min m (ext d)) big) (ext n) with h | h <;> rw [h]
            · exact h0
            · exact hf n (by omega)
          · rcases Nat.lt_succ_iff_lt_or_eq.1 hd with h | rfl
            · exact (min_le_left _ _).trans (h2 d h)
            · exact min_le_right _ _
      rw [List.range_succ, List.foldl_append, List.foldl_cons, List.foldl_nil]
      refine ⟨?_, le_min h1 (he n (by omega)), fun d hd => ?_⟩
      · rcases min_choice ((List.range n).foldl (fun m d => min m (ext d)) big) (ext n) with h | h <;> rw [h]
        · exact h0
        · exact hf n (by omega)
      · rcases Nat.lt_succ_iff_lt_or_eq.1 hd with h | rfl
        · exact (min_le_left _ _).trans (h2 d h)
        · exact min_le_right _ _
  obtain ⟨hmf, hm4, hme⟩ := hmin
  have ht0 := two_pos emin
  have hb0 : (2 : ℝ) ^ emin ≤ rnd (minExtent ndim big ext / 4) := le_rnd R (float_pow hp1 le_rfl) (by linarith)
  have hb1 : rnd (minExtent ndim big ext / 4) ≤ minExtent ndim big ext := rnd_le R hmf (by linarith)
  set base := rnd (minExtent ndim big ext / 4) with hbase
  have hc1 : ∀ d < ndim, (1 : ℤ) ≤ truncZ (rnd (ext d / base)) := by
    intro d hd
    have h1 : (1 : ℝ) ≤ ext d / base := by
      rw [le_div_iff₀ (by linarith)]
      have := hme d hd
      linarith
    have h2 : (1 : ℝ) ≤ rnd (ext d / base) := le_rnd R (by simpa using float_pow (emin := emin) (e := 0) hp1 (by omega)) h1
    rw [truncZ_of_nonneg (by linarith), Int.le_floor]
    exact_mod_cast h2
  unfold gridCountsF
  dsimp only
  rw [← hbase]
  set lin := cellCount ndim fun d => truncZ (rnd (ext d / base)) with hlin
  have hlin0 : 0 < lin := by
    rw [hlin, cellCount_eq]
    exact Finset.prod_pos fun d hd => by have := hc1 d (Finset.mem_range.1 hd); omega
  split_ifs with h1 h2
  · refine ⟨_, rfl, fun d hd => ?_⟩
    set T : ℤ := 4 ^ ndim * (cellCnt : ℤ)
    have hlinR : (0 : ℝ) < lin := by exact_mod_cast hlin0
    have hs := (hsc (rnd ((T : ℝ) / lin)) (le_rnd R (by simpa using float_pow (emin := emin) (e := 0) hp1 (by omega)) (by
      rw [le_div_iff₀ hlinR, one_mul]
      exact_mod_cast h1.le))).1
    have := hc1 d hd
    nlinarith
  · exfalso
    apply h2
    set T : ℤ := 4 ^ ndim * (cellCnt : ℤ) with hTdef
    have hlinR : (0 : ℝ) < lin := by exact_mod_cast hlin0
    have hTR : (T : ℝ) = 4 ^ ndim * cellCnt := by rw [hTdef]; push_cast; ring
    have hT0 : (0 : ℝ) < T := by rw [hTR]; positivity
    have hq1 : (1 : ℝ) ≤ (T : ℝ) / lin := by
      rw [le_div_iff₀ hlinR, one_mul]
      exact_mod_cast h1.le
    obtain ⟨hs0, hs⟩ := hsc (rnd ((T : ℝ) / lin)) (le_rnd R (by simpa using float_pow (emin := emin) (e := 0) hp1 (by omega)) hq1)
    set sc := scaling (rnd ((T : ℝ) / lin))
    have hprod : (cellCount ndim fun d => truncZ (rnd (ext d / base)) * sc) = sc ^ ndim * lin := by
      rw [hlin, cellCount_eq, cellCount_eq, Finset.prod_mul_distrib, Finset.prod_const, Finset.card_range, mul_comm]
    rw [ge_iff_le, hprod]
    have herr := error R hp1 ((T : ℝ) / lin)
    rw [abs_of_pos (by linarith : (0 : ℝ) < (T : ℝ) / lin), abs_le] at herr
    set u := (2 : ℝ) ^ (1 - (p : ℤ)) with hudef
    have hu0 : 0 < u := two_pos _
    have htu : (2 : ℝ) ^ emin ≤ u * ((T : ℝ) / lin) := by
      have h5 : (2 : ℝ) ^ emin ≤ u := zpow_le_zpow_right₀ (by norm_num) (by omega)
      nlinarith
    have h6 : (T : ℝ) / lin * (1 - 2 * u) ≤ rnd ((T : ℝ) / lin) := by linarith
    rw [← hTR] at hT
    have hη1 : η < 1 := by
      have hT1 : (1 : ℝ) ≤ T := by
        have : (1 : ℤ) ≤ T := by have : (0 : ℤ) < T := by exact_mod_cast hT0
                                 omega
        exact_mod_cast this
      nlinarith
    have h7 : (T : ℝ) / lin * (1 - 2 * u) * (1 - η) ≤ (sc : ℝ) ^ ndim := (mul_le_mul_of_nonneg_right h6 (by linarith)).trans hs
    have h8 : (T : ℝ) * (1 - 2 * u) * (1 - η) ≤ (sc : ℝ) ^ ndim * lin := by
      have := mul_le_mul_of_nonneg_right h7 hlinR.le
      calc (T : ℝ) * (1 - 2 * u) * (1 - η) = (T : ℝ) / lin * (1 - 2 * u) * (1 - η) * lin := by field_simp
        _ ≤ _ := this
    have h9 : (T : ℝ) - 1 < (sc : ℝ) ^ ndim * lin := by
      have : 0 ≤ (T : ℝ) * (u * η) := by positivity
      nlinarith
    have : T - 1 < sc ^ ndim * lin := by exact_mod_cast h9
    omega
  · exact ⟨_, rfl, hc1⟩

/-- The conditions on the input of the constructor: bounding boxes of floating point numbers of size up to `M`, a domain at least `64` units of rounding wide, a grid with less
than `2 ^ 30` cells in each dimension that are at least `32` units of rounding wide, and coordinates for which the tolerance `1.0e-8` is at least `16` units of rounding. -/
structure Input (p : ℕ) (emin : ℤ) (rnd : ℝ → ℝ) (ndim : ℕ) (M big : ℝ) (scaling : ℝ → ℤ) (geoms : List (ℤ × (ℕ → ℝ))) : Prop where
  dim : 0 < ndim ∧ ndim ≤ 3
  nonempty : geoms ≠ []
  top : IsFloat p emin big ∧ M ≤ big
  finite : ∀ g ∈ geoms, ∀ i < 6, IsFloat p emin (g.2 i) ∧ |g.2 i| ≤ M
  wellFormed : ∀ g ∈ geoms, WellFormed ndim g.2 fun d => g.2 (d + 3)
  extent : ∀ d < ndim, ∃ g ∈ geoms, ∃ g' ∈ geoms, g.2 d + 64 * res p M ≤ g'.2 (d + 3)
  grid : ∀ counts, gridCountsF rnd ndim geoms.length big (extentsF rnd big geoms) scaling = some counts →
    ∀ d < ndim, counts d ≤ 2 ^ 30 ∧ 32 * res p M ≤ rnd (extentsF rnd big geoms d / (counts d : ℝ))
  resolved : 16 * res p M ≤ 1 / 10 ^ 8

/-- The computed root of the constructor: positive, and at least the exact root up to a relative error `η` that is below the inverse of the number of cells. -/
structure RootOk (p : ℕ) (ndim count : ℕ) (scaling : ℝ → ℤ) : Prop where
  root : ∃ η : ℝ, 0 ≤ η ∧ (∀ f, 1 ≤ f → 0 < scaling f ∧ f * (1 - η) ≤ (scaling f : ℝ) ^ ndim) ∧ (4 : ℝ) ^ ndim * count * (2 * (2 : ℝ) ^ (1 - (p : ℤ)) + η) < 1

/-- **C97.** In floating point arithmetic, for every rounding mode, with or without fused operations: the constructor succeeds. For each point of the bounding box of all
elements the kernel reads a list of candidates that was written, all of them elements, and it contains every element whose bounding box contains the point and the
neighbourhood of `32` units of rounding of the point. -/
theorem lookup_rounded (R : Rounding p emin rnd) (contract : Bool) {M : ℝ} (hS : Scale p emin M) {ndim : ℕ} {big : ℝ} {scaling : ℝ → ℤ} {geoms : List (ℤ × (ℕ → ℝ))}
    (hI : Input p emin rnd ndim M big scaling geoms) (hR : RootOk p ndim geoms.length scaling) :
    ∃ L, buildF rnd contract ndim big scaling geoms = some L ∧ L.mesh.ndim = ndim ∧
      ∀ q : ℕ → ℝ, (∀ d < ndim, (∃ g ∈ geoms, g.2 d ≤ q d) ∧ ∃ g ∈ geoms, q d ≤ g.2 (d + 3)) →
        ∃ c cands, kernelLinearF rnd L.mesh q = some c ∧ Lists L c cands ∧ (∀ k ∈ cands, k < geoms.length) ∧
          ∀ k (h : k < geoms.length), (∀ d < ndim, (geoms[k]).2 d + 32 * res p M ≤ q d ∧ q d + 32 * res p M ≤ (geoms[k]).2 (d + 3)) → k ∈ cands := by
  have hp1 : 1 ≤ p := by have := hS.prec; omega
  have hr := hS.res_pos
  obtain ⟨h0, h3⟩ := hI.dim
  have hbM := hI.top.2
  have hM0 := hS.pos
  have hhull : ∀ d < ndim, (∀ g ∈ geoms, hullF big geoms d ≤ g.2 d) ∧ (∃ g ∈ geoms, hullF big geoms d = g.2 d) ∧
      (∀ g ∈ geoms, g.2 (d + 3) ≤ hullF big geoms (d + 3)) ∧ ∃ g ∈ geoms, hullF big geoms (d + 3) = g.2 (d + 3) := by
    intro d hd
    have hh := C02.hull_is_smallest big ndim (geoms.map Prod.snd) (by simpa using hI.nonempty) (by
      intro b hb i hi
      obtain ⟨g, hg, rfl⟩ := List.mem_map.1 hb
      have := (hI.finite g hg i hi).2
      rw [abs_le] at this
      exact ⟨by linarith, by linarith⟩) d (by omega)
    have e : (mkBoxSet big ndim (geoms.map Prod.snd)).hull = hullF big geoms := by
      unfold mkBoxSet hullF
      rw [List.foldl_map]
    rw [e] at hh
    obtain ⟨a1, ⟨b, hb, a2⟩, a3, ⟨b', hb', a4⟩⟩ := hh
    obtain ⟨g, hg, rfl⟩ := List.mem_map.1 hb
    obtain ⟨g', hg', rfl⟩ := List.mem_map.1 hb'
    exact ⟨fun g hg => a1 _ (List.mem_map_of_mem hg), ⟨g, hg, a2⟩, fun g hg => a3 _ (List.mem_map_of_mem hg), ⟨g', hg', a4⟩⟩
  have hflo : ∀ d < ndim, (IsFloat p emin (hullF big geoms d) ∧ IsFloat p emin (hullF big geoms (d + 3))) ∧ |hullF big geoms d| ≤ M ∧ |hullF big geoms (d + 3)| ≤ M := by
    intro d hd
    obtain ⟨_, ⟨g, hg, a2⟩, _, ⟨g', hg', a4⟩⟩ := hhull d hd
    rw [a2, a4]
    obtain ⟨b1, b2⟩ := hI.finite g hg d (by omega)
    obtain ⟨c1, c2⟩ := hI.finite g' hg' (d + 3) (by omega)
    exact ⟨⟨b1, c1⟩, b2, c2⟩
  have hwide : ∀ d < ndim, 64 * res p M ≤ hullF big geoms (d + 3) - hullF big geoms d := by
    intro d hd
    obtain ⟨g, hg, g', hg', h⟩ := hI.extent d hd
    have b1 := (hhull d hd).1 g hg
    have b2 := (hhull d hd).2.2.1 g' hg'
    linarith
  have he : ∀ z, |rnd z - z| ≤ (2 : ℝ) ^ (1 - (p : ℤ)) * |z| + (2 : ℝ) ^ emin := fun z => error R hp1 z
  have htiny := hS.tiny
  have hext : ∀ d < ndim, 61 * res p M ≤ extentsF rnd big geoms d := by
    intro d hd
    have := ext_error he (two_pos _) (unit_le hS.prec) (two_pos _) htiny (hflo d hd).2.1 (hflo d hd).2.2
    have h2 := hwide d hd
    unfold extentsF
    unfold res at *
    rw [abs_le] at this
    linarith
  obtain ⟨η, hη, hsc, hT⟩ := hR.root
  have hlen : 0 < geoms.length := List.length_pos_iff.2 hI.nonempty
  have hrM : res p M ≤ M / 512 := by have := unit_le hS.prec; unfold res; nlinarith
  obtain ⟨counts, hcnt, hc1⟩ := gridCountsF_spec R hS.prec hS.unit ndim geoms.length hlen (extentsF rnd big geoms) scaling (fun d _ => R.float _) hI.top.1
    (by linarith) (fun d hd => by have := hext d hd; linarith) hη hsc hT
  have hgrid := hI.grid counts hcnt
  obtain ⟨m, hm⟩ : ∃ m, mkF? rnd ndim (hullF big geoms) (extentsF rnd big geoms) counts = some m := by
    unfold mkF?
    rw [if_pos]
    · exact ⟨_, rfl⟩
    · rw [List.all_eq_true]
      intro d hd
      rw [List.mem_range] at hd
      simp only [Bool.and_eq_true, decide_eq_true_eq]
      have := hext d hd
      have := hc1 d hd
      exact ⟨by linarith, by omega⟩
  have hmm : m = ⟨ndim, hullF big geoms, extentsF rnd big geoms, counts, fun d => rnd (extentsF rnd big geoms d / (counts d : ℝ)),
      fun d => rnd (1 / rnd (extentsF rnd big geoms d / (counts d : ℝ)))⟩ := by
    unfold mkF? at hm
    split_ifs at hm
    exact (Option.some.inj hm).symm
  have G : GridF p emin rnd m (hullF big geoms) (fun d => hullF big geoms (d + 3)) M := by
    subst hmm
    exact ⟨hI.dim, fun d hd => (hflo d hd).1, fun d hd => (hflo d hd).2, fun _ _ => rfl, fun _ _ => rfl, fun _ _ => rfl, fun _ _ => rfl,
      fun d hd => ⟨hc1 d hd, (hgrid d hd).1⟩, fun d hd => (hgrid d hd).2, hI.resolved⟩
  have e1 : m.ndim = ndim := by rw [hmm]
  have e4 : m.cellCounts = counts := by rw [hmm]
  obtain ⟨s, k1, k2, _, k4⟩ := addGeomsF_spec R hS G contract geoms 0 (⟨[], fun _ => []⟩, fun _ => none) (by
    intro g hg d hd
    rw [e1] at hd
    exact ⟨(hhull d hd).1 g hg, hI.wellFormed g hg d hd, (hhull d hd).2.2.1 g hg⟩) ⟨by simp, by simp, by simp⟩
  rw [e1, e4] at k2 k4
  rw [Nat.zero_add] at k2
  have bij := linear_index_bijective ndim h0 counts fun d hd => by have := hc1 d hd; omega
  obtain ⟨mp, sizes, q1, q2, q4, q5, q6⟩ := fill_spec (s.1.keys.foldl (fun m c => max m (sortReverse (s.1.lists c)).length) 0)
    (cellCount ndim counts).toNat (fun c => sortReverse (s.1.lists c)) s.1.keys
    (fun c hck => (foldl_max_nat _ (fun c => (sortReverse (s.1.lists c)).length) 0).2 c hck) (fun c hc => by
      have := k2.keys c hc
      omega) k2.nodup
  refine ⟨⟨m, s.1.keys.foldl (fun m c => max m (sortReverse (s.1.lists c)).length) 0, mp, sizes, s.2⟩, ?_, e1, fun q hq => ?_⟩
  · unfold buildF
    rw [hcnt, Option.bind_some, hm, Option.bind_some, k1, Option.bind_some]
    dsimp only
    rw [q1]
    rfl
  · have hqb : ∀ d < m.ndim, hullF big geoms d ≤ q d ∧ q d ≤ hullF big geoms (d + 3) := by
      intro d hd
      rw [e1] at hd
      obtain ⟨⟨g, hg, a1⟩, ⟨g', hg', a2⟩⟩ := hq d hd
      exact ⟨((hhull d hd).1 g hg).trans a1, a2.trans ((hhull d hd).2.2.1 g' hg')⟩
    have hker := kernelLinearF_eq R hS G q hqb
    set t : ℕ → ℤ := fun d => cellOf rnd m d (q d) with ht
    have htM : ∀ d < ndim, 0 ≤ t d ∧ t d < counts d := by
      intro d hd
      have := cellOf_spec R hS G (d := d) (by omega) (hqb d (by omega)).1 (hqb d (by omega)).2
      rw [e4] at this
      exact ⟨this.2.2.1, this.2.2.2⟩
    have hr := bij.1 t htM
    rw [e1, e4] at hker
    obtain ⟨c, hcc⟩ : ∃ c : ℕ, linearIndex ndim counts t = c := ⟨(linearIndex ndim counts t).toNat, by omega⟩
    rw [hcc] at hker
    have hperm := sortReverse_perm (s.1.lists (c : ℤ))
    refine ⟨c, (sortReverse (s.1.lists (c : ℤ))).map fun x => x.2.toNat, hker, ?_, ?_, ?_⟩
    · unfold Lists
      dsimp only
      by_cases hck : (c : ℤ) ∈ s.1.keys
      · obtain ⟨r1, r2⟩ := q5 c hck
        refine ⟨?_, fun i hi => ?_⟩
        · rw [read_nat, r1, List.length_map]
        · rw [List.length_map] at hi
          have e : (c : ℤ) * ((s.1.keys.foldl (fun m c => max m (sortReverse (s.1.lists c)).length) 0 : ℕ) : ℤ) + ((i : ℕ) : ℤ) =
            ((c * (s.1.keys.foldl (fun m c => max m (sortReverse (s.1.lists c)).length) 0) + i : ℕ) : ℤ) := by push_cast; rfl
          rw [e, read_nat, r2 i hi, List.getElem_map]
          have hmem := hperm.mem_iff.1 (List.getElem_mem hi)
          have h0 := (k2.has _ _ hmem).2.1
          rw [Int.toNat_of_nonneg h0]
      · have hem : s.1.lists (c : ℤ) = [] := by
          by_contra h
          obtain ⟨x, hx⟩ := List.exists_mem_of_ne_nil _ h
          exact hck (k2.has _ x hx).1
        have hs : sortReverse (s.1.lists (c : ℤ)) = [] := by
          have := hperm.length_eq
          rw [hem, List.length_nil, List.length_eq_zero_iff] at this
          rw [hem]; exact this
        rw [hs]
        refine ⟨?_, by simp⟩
        rw [read_nat, q6 c (by omega) hck]
        rfl
    · intro k hk
      obtain ⟨x, hx, rfl⟩ := List.mem_map.1 hk
      have := (k2.has _ x (hperm.mem_iff.1 hx)).2
      omega
    · intro k hk hin
      obtain ⟨x, hx, hx2⟩ := k4 k hk q hin t (fun d hd => rfl)
      rw [hcc] at hx
      refine List.mem_map.2 ⟨x, hperm.mem_iff.2 hx, ?_⟩
      rw [hx2]
      simp

/-! ### The conditions -/

/-- Sizes of `double`. -/
theorem double_scale {M : ℝ} (h1 : (2 : ℝ) ^ (-300 : ℤ) ≤ M) (h2 : M ≤ (2 : ℝ) ^ (1000 : ℤ)) : Scale 53 (-1074) M := by
  refine ⟨by norm_num, by norm_num, ⟨-352, by norm_num, by norm_num, by norm_num, ?_⟩, ?_⟩
  · unfold res
    calc (2 : ℝ) ^ (-352 : ℤ) = (2 : ℝ) ^ (1 - ((53 : ℕ) : ℤ)) * 2 ^ (-300 : ℤ) := by rw [← zpow_add₀ (by norm_num : (2 : ℝ) ≠ 0)]; norm_num
      _ ≤ _ := mul_le_mul_of_nonneg_left h1 (two_pos _).le
  · calc 3 * M * (2 : ℝ) ^ (-1074 : ℤ) ≤ (2 : ℝ) ^ (2 : ℤ) * (2 : ℝ) ^ (1000 : ℤ) * (2 : ℝ) ^ (-1074 : ℤ) := by
          apply mul_le_mul_of_nonneg_right _ (two_pos _).le
          have h0 : (0 : ℝ) < (2 : ℝ) ^ (1000 : ℤ) := two_pos 1000
          have e : (2 : ℝ) ^ (2 : ℤ) = 4 := by norm_num
          rw [e]
          generalize (2 : ℝ) ^ (1000 : ℤ) = z at *
          linarith
      _ = (2 : ℝ) ^ (-72 : ℤ) := by rw [← zpow_add₀ (by norm_num : (2 : ℝ) ≠ 0), ← zpow_add₀ (by norm_num : (2 : ℝ) ≠ 0)]; norm_num
      _ ≤ _ := zpow_le_zpow_right₀ (by norm_num) (by norm_num)

/-- The root of the code: the ceiling of any approximation of `exp(log(f) / ndim)` with a relative error of at most `2 ^ -40`, for grids with up to `2 ^ 31` cells. -/
theorem root_ok {ndim count : ℕ} (h0 : 0 < ndim) (h3 : ndim ≤ 3) (approx : ℝ → ℝ) (ha : ∀ f, 1 ≤ f → Real.exp (Real.log f / ndim) * (1 - (2 : ℝ) ^ (-40 : ℤ)) ≤ approx f)
    (hT : (4 : ℝ) ^ ndim * count ≤ 2 ^ 31) : RootOk 53 ndim count (fun f => ⌈approx f⌉) := by
  refine ⟨(2 : ℝ) ^ (-38 : ℤ), (two_pos _).le, fun f hf => ?_, ?_⟩
  · have h1 : Real.exp (Real.log f / ndim) ^ ndim = f := by
      rw [← Real.exp_nat_mul, mul_div_cancel₀ _ (by exact_mod_cast h0.ne'), Real.exp_log (by linarith)]
    have h2 := ha f hf
    have hpos : 0 < Real.exp (Real.log f / ndim) := Real.exp_pos _
    have e40 : (2 : ℝ) ^ (-40 : ℤ) < 1 := by norm_num
    have hap : 0 < approx f := lt_of_lt_of_le (mul_pos hpos (by linarith)) h2
    refine ⟨Int.ceil_pos.2 hap, ?_⟩
    have h4 : f * (1 - (2 : ℝ) ^ (-40 : ℤ)) ^ ndim ≤ ((⌈approx f⌉ : ℤ) : ℝ) ^ ndim := by
      calc f * (1 - (2 : ℝ) ^ (-40 : ℤ)) ^ ndim = (Real.exp (Real.log f / ndim) * (1 - (2 : ℝ) ^ (-40 : ℤ))) ^ ndim := by rw [mul_pow, h1]
        _ ≤ _ := pow_le_pow_left₀ (mul_nonneg hpos.le (by linarith)) (h2.trans (Int.le_ceil _)) _
    have h5 : 1 - (2 : ℝ) ^ (-38 : ℤ) ≤ (1 - (2 : ℝ) ^ (-40 : ℤ)) ^ ndim := by
      have hn : ndim = 1 ∨ ndim = 2 ∨ ndim = 3 := by omega
      rcases hn with rfl | rfl | rfl <;> norm_num
    exact (mul_le_mul_of_nonneg_left h5 (by linarith)).trans h4
  · calc (4 : ℝ) ^ ndim * count * (2 * (2 : ℝ) ^ (1 - ((53 : ℕ) : ℤ)) + (2 : ℝ) ^ (-38 : ℤ)) ≤ 2 ^ 31 * (2 * (2 : ℝ) ^ (1 - ((53 : ℕ) : ℤ)) + (2 : ℝ) ^ (-38 : ℤ)) :=
          mul_le_mul_of_nonneg_right hT (by have := two_pos (1 - ((53 : ℕ) : ℤ)); have := two_pos (-38); linarith)
      _ < 1 := by norm_num

/-- One square element. -/
noncomputable def square : List (ℤ × (ℕ → ℝ)) := [(7, fun i => if i < 3 then 0 else 1)]

theorem float_nat (n : ℕ) (hn : n ≤ 1024) : IsFloat 53 (-1074) (n : ℝ) := by
  have := float_int (p := 53) (emin := -1074) (by norm_num) (by norm_num) (m := (n : ℤ)) (by
    rw [abs_of_nonneg (by positivity)]
    have : (n : ℤ) ≤ 1024 := by exact_mod_cast hn
    linarith [show (1024 : ℤ) ≤ 2 ^ 53 by norm_num])
  simpa using this

theorem square_hull (i : ℕ) : hullF 1024 square i = if i < 3 then 0 else 1 := by
  unfold hullF square expandBox resetBox
  simp only [List.foldl_cons, List.foldl_nil]
  split_ifs <;> norm_num

theorem square_ext (R : Rounding 53 (-1074) rnd) (d : ℕ) (hd : d < 3) : extentsF rnd 1024 square d = 1 := by
  unfold extentsF
  rw [square_hull, square_hull, if_neg (by omega), if_pos hd, sub_zero]
  exact R.exact 1 (by simpa using float_nat 1 (by norm_num))

/-- The conditions hold, for every rounding mode, for a square. -/
theorem square_input (R : Rounding 53 (-1074) rnd) (scaling : ℝ → ℤ) : Input 53 (-1074) rnd 2 1 1024 scaling square := by
  have hres : res 53 1 = (2 : ℝ) ^ (-52 : ℤ) := by unfold res; norm_num
  have hq : rnd (1 / 4) = 1 / 4 := by
    refine R.exact _ ?_
    have := float_pow (p := 53) (emin := -1074) (e := -2) (by norm_num) (by norm_num)
    rwa [show (2 : ℝ) ^ (-2 : ℤ) = 1 / 4 by norm_num] at this
  have h4 : rnd 4 = 4 := R.exact 4 (by simpa using float_nat 4 (by norm_num))
  refine ⟨by norm_num, by simp [square], ⟨by simpa using float_nat 1024 (by norm_num), by norm_num⟩, ?_, ?_, ?_, ?_, ?_⟩
  · intro g hg i hi
    simp only [square, List.mem_singleton] at hg
    subst hg
    dsimp only
    split_ifs
    · exact ⟨float_zero, by norm_num⟩
    · exact ⟨by simpa using float_nat 1 (by norm_num), by norm_num⟩
  · intro g hg d hd
    simp only [square, List.mem_singleton] at hg
    subst hg
    dsimp only
    rw [if_pos (by omega), if_neg (by omega)]
    norm_num
  · intro d hd
    refine ⟨_, List.mem_singleton.2 rfl, _, List.mem_singleton.2 rfl, ?_⟩
    dsimp only
    rw [if_pos (by omega), if_neg (by omega), hres]
    norm_num
  · intro counts hc d hd
    have hmin : minExtent 2 1024 (extentsF rnd 1024 square) = 1 := by
      unfold minExtent
      simp only [List.range_succ, List.range_zero, List.nil_append, List.cons_append, List.foldl_cons, List.foldl_nil]
      rw [square_ext R 0 (by norm_num), square_ext R 1 (by norm_num)]
      norm_num
    have hcount : counts d = 4 := by
      unfold gridCountsF at hc
      simp only [hmin, hq] at hc
      have hk : ∀ d < 2, truncZ (rnd (extentsF rnd 1024 square d / (1 / 4))) = 4 := by
        intro d hd
        rw [square_ext R d (by omega), show (1 : ℝ) / (1 / 4) = 4 by norm_num, h4, truncZ_of_nonneg (by norm_num)]
        norm_num
      have hl : cellCount 2 (fun d => truncZ (rnd (extentsF rnd 1024 square d / (1 / 4)))) = 16 := by
        unfold cellCount
        simp only [List.range_succ, List.range_zero, List.nil_append, List.cons_append, List.foldl_cons, List.foldl_nil]
        rw [hk 0 (by norm_num), hk 1 (by norm_num)]
        norm_num
      rw [hl, if_neg (by simp [square])] at hc
      rw [← Option.some.inj hc]
      exact hk d hd
    rw [hcount, square_ext R d (by omega)]
    refine ⟨by norm_num, ?_⟩
    push_cast
    rw [hq, hres]
    norm_num
  · rw [hres]
    norm_num

/-- A point in the square is given the square as a candidate. -/
example (R : Rounding 53 (-1074) rnd) (contract : Bool) : ∃ L, buildF rnd contract 2 1024 (fun f => ⌈Real.exp (Real.log f / (2 : ℕ))⌉) square = some L ∧
    ∃ c cands, kernelLinearF rnd L.mesh (fun _ => 1 / 4) = some c ∧ Lists L c cands ∧ 0 ∈ cands := by
  obtain ⟨L, h1, h2, h3⟩ := lookup_rounded R contract (double_scale (M := 1) (by
      rw [show (1 : ℝ) = 2 ^ (0 : ℤ) by norm_num]; exact zpow_le_zpow_right₀ (by norm_num) (by norm_num)) (by
      rw [show (1 : ℝ) = 2 ^ (0 : ℤ) by norm_num]; exact zpow_le_zpow_right₀ (by norm_num) (by norm_num))) (square_input R _)
    (root_ok (ndim := 2) (by norm_num) (by norm_num) (fun f => Real.exp (Real.log f / (2 : ℕ))) (fun f _ => by
      have := Real.exp_pos (Real.log f / (2 : ℕ))
      have h : (0 : ℝ) < (2 : ℝ) ^ (-40 : ℤ) := two_pos _
      nlinarith) (by simp [square]; norm_num))
  obtain ⟨c, cands, k1, k2, _, k4⟩ := h3 (fun _ => 1 / 4) (fun d hd => ⟨⟨_, List.mem_singleton.2 rfl, by dsimp only; rw [if_pos (by omega)]; norm_num⟩,
    ⟨_, List.mem_singleton.2 rfl, by dsimp only; rw [if_neg (by omega)]; norm_num⟩⟩)
  refine ⟨L, h1, c, cands, k1, k2, k4 0 (by simp [square]) fun d hd => ?_⟩
  have hres : res 53 1 = (2 : ℝ) ^ (-52 : ℤ) := by unfold res; norm_num
  rw [hres]
  simp only [square, List.getElem_cons_zero]
  rw [if_pos (by omega), if_neg (by omega)]
  constructor <;> norm_num

/-! ### Large coordinates -/

/-- One element from `1` to `2 ^ 53 + 2`. -/
noncomputable def far : List (ℤ × (ℕ → ℝ)) := [(7, fun i => if i < 3 then 1 else 2 ^ 53 + 2)]

/-- The condition on the coordinates is needed: if the tolerance is below the resolution, the assertion that a bounding box is in the grid can fail, and the program stops. The
rounding modes are those that round `2 ^ 53 + 1` down, such as the default mode, to nearest with ties to even, and toward zero. -/
theorem large_coordinates_stop (R : Rounding 53 (-1074) rnd) (contract : Bool) (hd : rnd (2 ^ 53 + 1) = 2 ^ 53) (big : ℝ) (hbig : 2 ^ 60 ≤ big) (scaling : ℝ → ℤ) :
    buildF rnd contract 2 big scaling far = none := by
  have hh : ∀ i < 6, hullF big far i = if i < 3 then 1 else 2 ^ 53 + 2 := by
    intro i hi
    unfold hullF far expandBox resetBox
    simp only [List.foldl_cons, List.foldl_nil]
    split_ifs
    · rw [min_eq_right (by linarith [show (1 : ℝ) ≤ 2 ^ 60 by norm_num])]
    · rw [max_eq_right (by linarith [show (0 : ℝ) ≤ 2 ^ 60 by norm_num])]
  have hext : ∀ d < 3, extentsF rnd big far d = 2 ^ 53 := by
    intro d hd'
    unfold extentsF
    rw [hh _ (by omega), hh _ (by omega), if_neg (by omega), if_pos hd', show (2 : ℝ) ^ 53 + 2 - 1 = 2 ^ 53 + 1 by ring, hd]
  unfold buildF
  cases hc : gridCountsF rnd 2 far.length big (extentsF rnd big far) scaling with
  | none => rfl
  | some counts =>
    rw [Option.bind_some]
    cases hm : mkF? rnd 2 (hullF big far) (extentsF rnd big far) counts with
    | none => rfl
    | some m =>
      rw [Option.bind_some]
      have hmm : m.ndim = 2 ∧ m.origin = hullF big far ∧ m.extents = extentsF rnd big far := by
        unfold mkF? at hm
        split_ifs at hm
        rw [← Option.some.inj hm]
        exact ⟨rfl, rfl, rfl⟩
      obtain ⟨e1, e2, e3⟩ := hmm
      have hnone : getCellF rnd m 0 (2 ^ 53 + 2) = none := by
        unfold getCellF
        rw [if_neg]
        rintro ⟨_, h, _⟩
        rw [e2, e3, hext 0 (by norm_num), hh 0 (by norm_num), if_pos (by norm_num), add_comm (1 : ℝ), hd] at h
        have h1 : rnd (1 / 10 ^ 8) ≤ 1 := rnd_le R (by simpa using float_nat 1 (by norm_num)) (by norm_num)
        have h2 : rnd (2 ^ 53 + rnd (1 / 10 ^ 8)) ≤ 2 ^ 53 := by
          rw [← hd]
          conv_rhs => rw [hd]
          calc rnd (rnd (2 ^ 53 + 1) + rnd (1 / 10 ^ 8)) ≤ rnd (2 ^ 53 + 1) := R.mono (by rw [hd]; linarith)
            _ = 2 ^ 53 := hd
        linarith
      have hgeom : addGeomF rnd contract m (fun i => if i < 3 then 1 else 2 ^ 53 + 2) ((0 : ℕ) : ℤ) ⟨[], fun _ => []⟩ = none := by
        unfold addGeomF
        rw [e1, show List.range 2 = [0, 1] from rfl, List.mapM_cons]
        have : ((getCellF rnd m 0 ((fun i : ℕ => if i < 3 then (1 : ℝ) else 2 ^ 53 + 2) 0)).bind fun s =>
            (getCellF rnd m 0 ((fun i : ℕ => if i < 3 then (1 : ℝ) else 2 ^ 53 + 2) (0 + 3))).map fun e => (s, e)) = none := by
          have e : (fun i : ℕ => if i < 3 then (1 : ℝ) else 2 ^ 53 + 2) (0 + 3) = 2 ^ 53 + 2 := by
            dsimp only
            rw [if_neg (by norm_num)]
          rw [e, hnone]
          cases getCellF rnd m 0 ((fun i : ℕ => if i < 3 then (1 : ℝ) else 2 ^ 53 + 2) 0) <;> rfl
        rw [this]
        rfl
      unfold far addGeomsF
      dsimp only
      rw [hgeom]
      rfl

/-- Rounding toward zero is such a mode. -/
example : towardZero 53 (-1074) (2 ^ 53 + 1) = 2 ^ 53 := by
  have h1 : Int.log 2 |(2 : ℝ) ^ 53 + 1| = 53 := by
    rw [abs_of_pos (by positivity)]
    apply le_antisymm
    · have : Int.log 2 ((2 : ℝ) ^ 53 + 1) < 54 := (Int.lt_zpow_iff_log_lt (by norm_num) (by positivity)).1 (by norm_num)
      omega
    · exact (Int.zpow_le_iff_le_log (by norm_num) (by positivity)).1 (by norm_num)
  have h2 : unit 53 (-1074) ((2 : ℝ) ^ 53 + 1) = 1 := by
    unfold unit
    rw [h1]
    norm_num
  unfold towardZero
  rw [if_pos (by positivity), h2]
  have h3 : ⌊((2 : ℝ) ^ 53 + 1) / 2 ^ (1 : ℤ)⌋ = 2 ^ 52 := by
    rw [Int.floor_eq_iff]
    constructor <;> norm_num
  rw [h3]
  norm_num

/-- A grid without extent or without cells in some dimension is refused, whatever the rounding. -/
theorem empty_grid_refused (rnd : ℝ → ℝ) {ndim : ℕ} (origin extents : ℕ → ℝ) (counts : ℕ → ℤ) {d : ℕ} (hd : d < ndim) (h : extents d ≤ 0 ∨ counts d ≤ 0) :
    mkF? rnd ndim origin extents counts = none := by
  unfold mkF?
  rw [if_neg]
  rw [List.all_eq_true]
  intro hall
  have := hall d (List.mem_range.mpr hd)
  simp only [Bool.and_eq_true, decide_eq_true_eq] at this
  rcases h with h | h
  · linarith [this.1]
  · omega

end Verif.Props.C97
