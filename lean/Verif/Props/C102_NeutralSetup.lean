import Verif.Model.NeutralSetup
import Mathlib.Tactic.Positivity
import Mathlib.Tactic.Linarith
import Mathlib.Tactic.FieldSimp
import Mathlib.Algebra.BigOperators.Intervals
import Mathlib.Order.Monotone.Basic

/-!
C102: units, weights and sources of the neutral particles.
-/

namespace Verif.Props.C102
open Verif.Model.NeutralSetup Verif.Model.NeutralSystem Verif.Model.Ionisation

/-! ### Units -/

/-- **C102, units.** The conversion factors fit together: the reference density is 3e18, the reference velocity 3e4 m/s, a velocity is a length over a
time, a temperature in eV is the temperature in K times Boltzmann's constant in eV, and temperatures are scaled so that the square of the
thermal speed `R T` converts like the square of a velocity. -/
theorem units_consistent (gas rho u : Option ℝ) (hg : gas.getD 1 ≠ 0) (hr : rho.getD 1 ≠ 0) (hu : u.getD 1 ≠ 0) :
    let U := units gas rho u
    rho.getD 1 * U.nToSI = 3 * 10 ^ 18 ∧ u.getD 1 * U.velToSI = 30000 ∧
    (∀ length time : ℝ, time ≠ 0 → length * U.LtoSI / (time * U.tToSI) = length / time * U.velToSI) ∧
    (∀ T, T * U.TtoEV = kBeV * (T * U.TtoK)) ∧
    (∀ T, kBJ / muSI * (T * U.TtoK) = gas.getD 1 * T * U.velToSI ^ 2) := by
  have hk : kBJ ≠ 0 := by unfold kBJ; norm_num
  have hm : muSI ≠ 0 := by unfold muSI; norm_num
  simp only [units]
  generalize gas.getD 1 = g at *
  generalize rho.getD 1 = r at *
  generalize u.getD 1 = w at *
  refine ⟨by field_simp, by field_simp, fun l t ht => by field_simp, fun T => by ring, fun T => ?_⟩
  field_simp

/-- The two values of Boltzmann's constant agree: their ratio is the elementary charge to nine digits. -/
theorem boltzmann_agree : |kBJ / kBeV - 1602176634 / 10 ^ 28| < 1 / 10 ^ 28 := by
  rw [abs_lt]
  unfold kBJ kBeV
  constructor <;> norm_num

/-- The ions are deuterium: their mass is two atomic mass units of 1.67e-27 kg, so that the specific gas constant is `kB / 3.34e-27`. -/
theorem ion_mass : muSI = 3.34 / 10 ^ 27 ∧ kBJ = 1.380649 / 10 ^ 23 := by
  constructor
  · unfold muSI; norm_num
  · unfold kBJ; norm_num

/-! ### Weights -/

/-- **C102, weights.** The weights of the particles add up to the number of physical particles in the region. -/
theorem weight_total (density : ℝ) {n : ℕ} (hn : n ≠ 0) {volume : ℝ} (hv : volume ≠ 0) :
    n * (weightAndDensity density n volume).1 = (weightAndDensity density n volume).2 * volume := by
  have : (n : ℝ) ≠ 0 := by exact_mod_cast hn
  unfold weightAndDensity
  split_ifs
  · field_simp
  · dsimp only
    field_simp

/-- A number density of the session is kept; otherwise each particle stands for one. -/
theorem weight_cases (density : ℝ) (n : ℕ) (volume : ℝ) :
    (0 ≤ density → (weightAndDensity density n volume).2 = density) ∧ (density < 0 → (weightAndDensity density n volume).1 = 1) ∧
    (0 ≤ density → n = 0 → (weightAndDensity density n volume).1 = 0) := by
  refine ⟨fun h => ?_, fun h => ?_, fun h h0 => ?_⟩
  · simp [weightAndDensity, not_lt.mpr h]
  · simp [weightAndDensity, h]
  · simp [weightAndDensity, not_lt.mpr h, h0]

example : weightAndDensity 5 4 2 = (5 / 2, 5) := by simp [weightAndDensity]; norm_num

/-- The volume of the DriftReduced region is that of the box. -/
theorem region_volume_DR (extent : ℕ → ℝ) {ndim : ℕ} (h : 0 < ndim) : regionVolumeDR extent ndim = ∏ k ∈ Finset.range ndim, extent k := by
  have key : ∀ m, (List.range m).foldl (fun v k => v * extent (k + 1)) (extent 0) = ∏ k ∈ Finset.range (m + 1), extent k := by
    intro m
    induction m with
    | zero => simp
    | succ m ih => rw [List.range_succ, List.foldl_append, ih, Finset.prod_range_succ _ (m + 1)]; rfl
  rw [regionVolumeDR, key, Nat.sub_add_cancel h]

/-! ### Source lines -/

/-- What is used of the inverse error function: odd and increasing on (-1,1). -/
structure IsErfInv (f : ℝ → ℝ) : Prop where
  odd : ∀ x, f (-x) = -f x
  mono : StrictMonoOn f (Set.Ioo (-1) 1)

/-- The centres of the source regions: the middle, or the two points at the offset from the ends. -/
def IsCentre (s : Sources) (c : ℝ) : Prop :=
  (s.regionCount = 1 ∧ c = s.xMax / 2) ∨ (s.regionCount = 2 ∧ (c = s.offset * s.xMax ∨ c = s.xMax - s.offset * s.xMax))

theorem expx_range {i N : ℕ} (h : i < N) : -1 < expx i N ∧ expx i N < 1 := by
  have hN : (0 : ℝ) < N := by exact_mod_cast (by omega : 0 < N)
  have hi : (i : ℝ) + 1 ≤ N := by exact_mod_cast h
  have h0 : (0 : ℝ) ≤ i := by positivity
  unfold expx
  have : (i : ℝ) * 2 / N - 1 + 1 / N = (2 * i + 1) / N - 1 := by ring
  rw [this]
  constructor
  · have : (0 : ℝ) < (2 * i + 1) / N := by positivity
    linarith
  · have : (2 * (i : ℝ) + 1) / N < 2 := by rw [div_lt_iff₀ hN]; linarith
    linarith

theorem expx_symm {i N : ℕ} (h : i < N) : expx (N - 1 - i) N = -expx i N := by
  have hN : (N : ℝ) ≠ 0 := by exact_mod_cast (by omega : N ≠ 0)
  have : ((N - 1 - i : ℕ) : ℝ) = N - 1 - i := by
    rw [Nat.cast_sub (by omega), Nat.cast_sub (by omega)]; push_cast; rfl
  unfold expx
  rw [this]
  field_simp
  ring

theorem expx_mono {i j N : ℕ} (hij : i < j) (h : j < N) : expx i N < expx j N := by
  have hN : (0 : ℝ) < N := by exact_mod_cast (by omega : 0 < N)
  have : (i : ℝ) < j := by exact_mod_cast hij
  unfold expx
  have : (i : ℝ) * 2 / N < j * 2 / N := by gcongr
  linarith

theorem IsErfInv.zero {f : ℝ → ℝ} (h : IsErfInv f) : f 0 = 0 := by
  have := h.odd 0
  rw [neg_zero] at this
  linarith

/-- The nodes are not further out than the last one. -/
theorem erf_bound {f : ℝ → ℝ} (hf : IsErfInv f) {i N : ℕ} (h : i < N) : |f (expx i N)| ≤ f (1 - 1 / N) := by
  have hN : (0 : ℝ) < N := by exact_mod_cast (by omega : 0 < N)
  have hlast : expx (N - 1) N = 1 - 1 / N := by
    have h0 := expx_symm (i := 0) (N := N) (by omega)
    rw [Nat.sub_zero] at h0
    rw [h0]; unfold expx; push_cast; ring
  have hm : ∀ k, k < N → f (expx k N) ≤ f (expx (N - 1) N) := by
    intro k hk
    rcases Nat.lt_or_ge k (N - 1) with h1 | h1
    · exact (hf.mono (expx_range hk) (expx_range (by omega)) (expx_mono h1 (by omega))).le
    · rw [show k = N - 1 by omega]
  rw [← hlast, abs_le]
  refine ⟨?_, hm i h⟩
  have := hm (N - 1 - i) (by omega)
  rw [expx_symm h, hf.odd] at this
  linarith

theorem regionLines_spec {s : Sources} {l : List Line} (h : regionLines s = some l) {g : Line} (hg : g ∈ l) :
    ∃ c, IsCentre s c ∧ g = ⟨(c, 0), (c, s.yMax)⟩ := by
  unfold regionLines at h
  split_ifs at h with h1 h2
  · simp only [Option.some.injEq] at h
    subst h
    simp only [List.mem_singleton] at hg
    exact ⟨_, Or.inl ⟨h1, by ring⟩, hg⟩
  · simp only [Option.some.injEq] at h
    subst h
    simp only [List.mem_cons, List.not_mem_nil, or_false] at hg
    rcases hg with hg | hg
    · exact ⟨_, Or.inr ⟨h2, Or.inl rfl⟩, hg⟩
    · exact ⟨_, Or.inr ⟨h2, Or.inr (by ring)⟩, hg⟩

/-- **C102, number of lines.** There are `linesPerGaussian` lines for each of the one or two regions; other numbers of regions are refused. -/
theorem number_of_lines (f : ℝ → ℝ) (s : Sources) :
    ((sourceLines f s).isSome ↔ s.regionCount = 1 ∨ s.regionCount = 2) ∧
    ∀ l, sourceLines f s = some l → (l.length : ℤ) = s.regionCount * (s.linesPerGaussian.toNat : ℤ) := by
  unfold sourceLines regionLines
  split_ifs with h1 h2
  · refine ⟨by simp [h1], fun l hl => ?_⟩
    simp only [Option.map_some, Option.some.injEq] at hl
    subst hl
    simp [h1]
  · refine ⟨by simp [h2], fun l hl => ?_⟩
    simp only [Option.map_some, Option.some.injEq] at hl
    subst hl
    simp [h2]
    ring
  · refine ⟨by simp [h1, h2], fun l hl => by simp at hl⟩

/-- **C102, the lines.** Every source line is the line `x = const`, `0 ≤ y ≤ yMax` of the unrotated domain, rotated by `theta`; `x` differs
from the centre of a region by at most the distance of the last node. -/
theorem line_shape {f : ℝ → ℝ} (hf : IsErfInv f) {s : Sources} (hw : 0 ≤ s.width * s.xMax) {l : List Line} (h : sourceLines f s = some l)
    {g : Line} (hg : g ∈ l) : ∃ c x, IsCentre s c ∧ |x - c| ≤ 3 * (s.width * s.xMax) * f (1 - 1 / s.linesPerGaussian) ∧
      g.first = rotate s.theta (x, 0) ∧ g.last = rotate s.theta (x, s.yMax) := by
  simp only [sourceLines, Option.map_eq_some_iff] at h
  obtain ⟨regions, hr, rfl⟩ := h
  simp only [List.mem_flatMap, List.mem_map, List.mem_range] at hg
  obtain ⟨region, hreg, k, hk, rfl⟩ := hg
  obtain ⟨c, hc, rfl⟩ := regionLines_spec hr hreg
  refine ⟨c, c + f (expx k s.linesPerGaussian) * 3 * (s.width * s.xMax), hc, ?_, rfl, rfl⟩
  have hN : ((s.linesPerGaussian.toNat : ℕ) : ℝ) = (s.linesPerGaussian : ℝ) := by
    have : ((s.linesPerGaussian.toNat : ℕ) : ℤ) = s.linesPerGaussian := Int.toNat_of_nonneg (by omega)
    exact_mod_cast congrArg (fun z : ℤ => (z : ℝ)) this
  have hb := erf_bound hf hk
  rw [hN] at hb
  rw [add_sub_cancel_left, abs_mul, abs_mul, abs_of_nonneg hw, abs_of_nonneg (by norm_num : (0 : ℝ) ≤ 3)]
  calc |f (expx k s.linesPerGaussian)| * 3 * (s.width * s.xMax) ≤ f (1 - 1 / s.linesPerGaussian) * 3 * (s.width * s.xMax) := by gcongr
    _ = _ := by ring

/-- **C102, symmetry.** The lines of a region are placed symmetrically: the shifts add up to zero. -/
theorem shifts_balance {f : ℝ → ℝ} (hf : IsErfInv f) (N : ℕ) (sigma : ℝ) :
    ∑ k ∈ Finset.range N, f (expx k N) * 3 * sigma = 0 := by
  rw [← Finset.sum_mul, ← Finset.sum_mul]
  have h := Finset.sum_range_reflect (fun k => f (expx k N)) N
  have h2 : ∑ j ∈ Finset.range N, f (expx (N - 1 - j) N) = -∑ j ∈ Finset.range N, f (expx j N) := by
    rw [← Finset.sum_neg_distrib]
    refine Finset.sum_congr rfl fun j hj => ?_
    rw [expx_symm (Finset.mem_range.mp hj), hf.odd]
  have : ∑ k ∈ Finset.range N, f (expx k N) = 0 := by linarith [h, h2]
  rw [this]; ring

/-- The lines of a region are different. -/
theorem shifts_distinct {f : ℝ → ℝ} (hf : IsErfInv f) {N i j : ℕ} (hij : i < j) (hj : j < N) {sigma : ℝ} (hs : 0 < sigma) :
    f (expx i N) * 3 * sigma < f (expx j N) * 3 * sigma := by
  have := hf.mono (expx_range (by omega)) (expx_range hj) (expx_mono hij hj)
  gcongr

/-- The rotation keeps distances. -/
theorem rotate_isometry (theta : ℝ) (p q : ℝ × ℝ) :
    ((rotate theta p).1 - (rotate theta q).1) ^ 2 + ((rotate theta p).2 - (rotate theta q).2) ^ 2 = (p.1 - q.1) ^ 2 + (p.2 - q.2) ^ 2 := by
  simp only [rotate]
  have h := Real.sin_sq_add_cos_sq theta
  calc _ = ((p.1 - q.1) ^ 2 + (p.2 - q.2) ^ 2) * (Real.sin theta ^ 2 + Real.cos theta ^ 2) := by ring
    _ = _ := by rw [h, mul_one]

/-- The points of the segment from `p` to `q`. -/
def OnSegment (p q z : ℝ × ℝ) : Prop := ∃ t : ℝ, 0 ≤ t ∧ t ≤ 1 ∧ z = (p.1 + t * (q.1 - p.1), p.2 + t * (q.2 - p.2))

/-- The source regions, with their lines, lie between the two walls. -/
def SourcesInside (f : ℝ → ℝ) (s : Sources) : Prop :=
  ∀ c, IsCentre s c → 3 * (s.width * s.xMax) * f (1 - 1 / s.linesPerGaussian) ≤ c ∧
    c ≤ s.xMax - 3 * (s.width * s.xMax) * f (1 - 1 / s.linesPerGaussian)

/-- **C102, walls.** In a domain which is not rotated, with the sources between the walls, no particle is removed by the walls at the place where it
was created. (For rotated domains this is false, see `rotated_removed`.) -/
theorem walls_keep_sources_partial {f : ℝ → ℝ} (hf : IsErfInv f) {s : Sources} (h0 : s.theta = 0) (hw : 0 ≤ s.width * s.xMax)
    (hin : SourcesInside f s) {l : List Line} (h : sourceLines f s = some l) {g : Line} (hg : g ∈ l) {cfg : Config}
    (hx : cfg.unrotatedXMax = s.xMax) {p : Particle} (hp : OnSegment g.first g.last p.pos) : markWall cfg p = p := by
  obtain ⟨c, x, hc, hxc, h1, h2⟩ := line_shape hf hw h hg
  obtain ⟨a, b⟩ := hin c hc
  obtain ⟨t, _, _, hp⟩ := hp
  have hpos : p.pos.1 = x := by rw [hp, h1, h2, h0]; simp [rotate]
  rw [abs_le] at hxc
  unfold markWall
  rw [if_neg]
  rw [hpos, hx]
  push Not
  constructor <;> linarith

/-- Finding: the walls are tested on the first coordinate of the rotated domain, not along the flow. If the domain is turned by a quarter, every
particle of every source line away from its first point is removed. -/
theorem rotated_removed {f : ℝ → ℝ} (hf : IsErfInv f) {s : Sources} (h0 : s.theta = Real.pi / 2) (hw : 0 ≤ s.width * s.xMax)
    (hy : 0 < s.yMax) {l : List Line} (h : sourceLines f s = some l) {g : Line} (hg : g ∈ l) (cfg : Config) {p : Particle}
    (hp : OnSegment g.first g.last p.pos) (hne : p.pos ≠ g.first) : (markWall cfg p).id = removeKey := by
  obtain ⟨c, x, hc, hxc, h1, h2⟩ := line_shape hf hw h hg
  obtain ⟨t, ht, _, hp⟩ := hp
  have ht0 : 0 < t := by
    refine lt_of_le_of_ne ht fun e => hne ?_
    rw [hp, ← e]; simp
  have hpos : p.pos.1 = -(t * s.yMax) := by rw [hp, h1, h2, h0]; simp [rotate]
  unfold markWall
  rw [if_pos]
  left
  rw [hpos]
  have := mul_pos ht0 hy
  linarith

/-- Finding: lines can start outside the domain. Two regions with offset zero and at least two lines each: the first line is
beyond the wall. -/
theorem lines_outside {f : ℝ → ℝ} (hf : IsErfInv f) {s : Sources} (h2 : s.regionCount = 2) (hoff : s.offset = 0) (ht : s.theta = 0)
    (hw : 0 < s.width * s.xMax) (hN : 2 ≤ s.linesPerGaussian) :
    ∃ l g, sourceLines f s = some l ∧ g ∈ l ∧ g.first.1 < 0 ∧ g.last.1 < 0 := by
  obtain ⟨l, hl⟩ := Option.isSome_iff_exists.mp ((number_of_lines f s).1.mpr (Or.inr h2))
  have hmem : sourceLine f s ⟨(s.offset * s.xMax, 0), (s.offset * s.xMax, s.yMax)⟩ 0 ∈ l := by
    simp only [sourceLines, regionLines, h2] at hl
    simp at hl
    rw [← hl]
    simp only [List.mem_append, List.mem_map, List.mem_range]
    exact Or.inl ⟨0, by omega, rfl⟩
  have hN' : (2 : ℝ) ≤ s.linesPerGaussian := by exact_mod_cast hN
  have hneg : f (expx 0 s.linesPerGaussian) < 0 := by
    have he : expx 0 s.linesPerGaussian = 1 / s.linesPerGaussian - 1 := by unfold expx; push_cast; ring
    have h1 : (1 : ℝ) / s.linesPerGaussian ≤ 1 / 2 := one_div_le_one_div_of_le (by norm_num) hN'
    have h3 : (0 : ℝ) < 1 / s.linesPerGaussian := by positivity
    have := hf.mono (a := expx 0 s.linesPerGaussian) (b := 0) ⟨by rw [he]; linarith, by rw [he]; linarith⟩ ⟨by norm_num, by norm_num⟩ (by rw [he]; linarith)
    rw [hf.zero] at this
    exact this
  have hx : 0 * s.xMax + f (expx 0 s.linesPerGaussian) * 3 * (s.width * s.xMax) < 0 := by nlinarith
  refine ⟨l, _, hl, hmem, ?_, ?_⟩
  · simp [sourceLine, rotate, ht, hoff]; linarith
  · simp [sourceLine, rotate, ht, hoff]; linarith

/-- The identity satisfies what is used of the inverse error function. -/
theorem id_isErfInv : IsErfInv (fun x => x) := ⟨fun _ => rfl, fun _ _ _ _ h => h⟩

/-- The defaults have their sources between the walls. -/
example : SourcesInside (fun x => x) defaults ∧ 0 ≤ defaults.width * defaults.xMax ∧ (sourceLines (fun x => x) defaults).isSome := by
  refine ⟨fun c hc => ?_, by simp [defaults], by rw [(number_of_lines _ _).1]; right; rfl⟩
  simp only [IsCentre, defaults] at hc ⊢
  rcases hc with ⟨h, _⟩ | ⟨_, h | h⟩
  · norm_num at h
  · subst h; constructor <;> norm_num
  · subst h; constructor <;> norm_num

/-- **C102, region volume.** The volume of the SimpleSOL system is the standard deviation of the source times the length of a source line: that of one region. -/
theorem region_volume_SOL {f : ℝ → ℝ} (hf : IsErfInv f) {s : Sources} (hw : 0 ≤ s.width * s.xMax) {l : List Line} (h : sourceLines f s = some l) {g : Line} (hg : g ∈ l) :
    regionVolumeSOL s.width s.xMax s.yMax ^ 2 = (s.width * s.xMax) ^ 2 * ((g.last.1 - g.first.1) ^ 2 + (g.last.2 - g.first.2) ^ 2) ∧ regionVolumeSOL s.width s.xMax s.yMax = s.width * s.xMax * s.yMax := by
  obtain ⟨c, x, -, -, h1, h2⟩ := line_shape hf hw h hg
  have e := rotate_isometry s.theta (x, s.yMax) (x, 0)
  have v : regionVolumeSOL s.width s.xMax s.yMax = s.width * s.xMax * s.yMax := by unfold regionVolumeSOL; ring
  refine ⟨?_, v⟩
  rw [h1, h2, e, v]; ring

/-- Full claim: the weights make up the number density of the session in the source regions. Finding: this holds only for one region, since the volume is that of one region; with two regions (the default) the density in them is half of
what the session says. -/
theorem region_density_partial {s : Sources} (hr : s.regionCount = 1 ∨ s.regionCount = 2) (hv : 0 < s.width * s.xMax * s.yMax) {density : ℝ} (hd : 0 < density) {n : ℕ} (hn : n ≠ 0) :
    n * (weightAndDensity density n (regionVolumeSOL s.width s.xMax s.yMax)).1 / (s.regionCount * (s.width * s.xMax * s.yMax)) = density / s.regionCount ∧
    (n * (weightAndDensity density n (regionVolumeSOL s.width s.xMax s.yMax)).1 / (s.regionCount * (s.width * s.xMax * s.yMax)) = density ↔ s.regionCount = 1) := by
  have v : regionVolumeSOL s.width s.xMax s.yMax = s.width * s.xMax * s.yMax := by unfold regionVolumeSOL; ring
  have e : n * (weightAndDensity density n (regionVolumeSOL s.width s.xMax s.yMax)).1 / (s.regionCount * (s.width * s.xMax * s.yMax)) = density / s.regionCount := by
    rw [weight_total density hn (by rw [v]; exact hv.ne'), (weight_cases density n _).1 hd.le, v]
    have : (s.regionCount : ℝ) ≠ 0 := by rcases hr with h | h <;> rw [h] <;> norm_num
    field_simp
    exact div_self (by have := hv.ne'; simpa [mul_assoc] using this)
  refine ⟨e, ?_⟩
  rw [e]
  rcases hr with h | h
  · simp [h]
  · rw [h]; norm_num; linarith

example : (0 : ℝ) < defaults.width * defaults.xMax * defaults.yMax ∧ (defaults.regionCount = 1 ∨ defaults.regionCount = 2) := by simp [defaults]

/-- Without parameters there are two regions, with their centres at 22 and 88 of 110, and six lines of length one. -/
theorem default_sources {f : ℝ → ℝ} : (∀ c, IsCentre defaults c ↔ c = 22 ∨ c = 88) ∧ (∀ l, sourceLines f defaults = some l → l.length = 6) ∧ defaults.theta = 0 ∧ defaults.xMax = 110 ∧ defaults.yMax = 1 ∧
    defaults.width * defaults.xMax = 0.11 := by
  refine ⟨fun c => ?_, fun l hl => ?_, rfl, rfl, rfl, by norm_num [defaults]⟩
  · simp only [IsCentre, defaults]; norm_num
  · have := (number_of_lines f defaults).2 l hl
    simp only [defaults] at this
    norm_num at this
    exact_mod_cast this

/-! ### The DriftReduced source -/

/-- Full claim: the source is centred in the middle of the domain in the third direction. Finding: this holds only if the domain starts at zero,
`(extent - origin) / 2` is not the middle `origin + extent / 2`. -/
theorem centreDR_partial (origin extent : ℕ → ℝ) : centreDR origin extent 2 = origin 2 + extent 2 / 2 ↔ origin 2 = 0 := by
  simp only [centreDR, if_true]
  constructor <;> intro h <;> linarith

/-- The source is centred on the axis in the first two directions, and below the middle by one and a half times the origin in the third. -/
theorem centreDR_offset (origin extent : ℕ → ℝ) : centreDR origin extent 0 = 0 ∧ centreDR origin extent 1 = 0 ∧
    origin 2 + extent 2 / 2 - centreDR origin extent 2 = 3 / 2 * origin 2 := by
  refine ⟨rfl, rfl, ?_⟩
  simp only [centreDR, if_true]; ring

end Verif.Props.C102
