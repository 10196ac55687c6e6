import Verif.Spec.InitialParticles
import Verif.Props.C68_PartSys
import Mathlib.Tactic.Linarith
import Mathlib.Tactic.Positivity
import Mathlib.Tactic.FieldSimp

/-!
C101: the particles the electrostatic solver starts with.
-/

namespace Verif.Props.C101
open Verif.Model.InitialParticles Verif.Model.PartSys Verif.Spec.InitialParticles
open Verif.Props.C68 (Contract evenDecomp evenDecomp_contract allIds)

/-! ### Loops -/

theorem rows_spec {R : Type} (body : ℕ → R → Option (Phase × R)) : ∀ (n k : ℕ) (r : R) (l : List Phase), rows body k n r = some l →
    l.length = n ∧ ∀ j (hj : j < l.length), ∃ r' r'', body (k + j) r' = some (l[j], r'') := by
  intro n
  induction n with
  | zero => intro k r l h; simp only [rows, Option.some.injEq] at h; subst h; exact ⟨rfl, fun j hj => absurd hj (by simp)⟩
  | succ n ih =>
    intro k r l h
    rw [rows, Option.bind_eq_some_iff] at h
    obtain ⟨x, hx, h⟩ := h
    rw [Option.map_eq_some_iff] at h
    obtain ⟨t, ht, rfl⟩ := h
    obtain ⟨h1, h2⟩ := ih _ _ _ ht
    refine ⟨by simp [h1], fun j hj => ?_⟩
    rcases j with _ | j
    · exact ⟨r, x.2, by simpa using hx⟩
    · obtain ⟨r', r'', h3⟩ := h2 j (by simpa using hj)
      exact ⟨r', r'', by rw [show k + (j + 1) = k + 1 + j by omega]; simpa using h3⟩

theorem rows_some {R : Type} (body : ℕ → R → Option (Phase × R)) (hb : ∀ k r, (body k r).isSome) :
    ∀ (n k : ℕ) (r : R), (rows body k n r).isSome := by
  intro n
  induction n with
  | zero => intro k r; rfl
  | succ n ih =>
    intro k r
    obtain ⟨x, hx⟩ := Option.isSome_iff_exists.mp (hb k r)
    obtain ⟨t, ht⟩ := Option.isSome_iff_exists.mp (ih (k + 1) x.2)
    simp [rows, hx, ht]

/-! ### One rank -/

/-- What a successful call on one rank has computed. -/
theorem addRank_spec {size : ℕ} {env : Env} {D : Decomp size} {i : Input} {n : ℕ} {seed : ℤ} {cells : ℕ} {r : Fin size}
    {l : List Particle} (h : addRank env D i n seed cells r = some l) :
    ∃ key, i.key = some key ∧ -1 < key ∧ key < 6 ∧
      ((D.rend n r - D.rstart n r = 0 ∧ l = []) ∨
       (0 < D.rend n r - D.rstart n r ∧ 0 < cells ∧ ∃ pos r' ph, positions env i seed (D.rend n r - D.rstart n r) (D.rstart n r)
          (env.mt (seed + (r : ℕ))) = some (pos, r') ∧ phases env i key pos (D.rend n r - D.rstart n r) r' = some ph ∧
          l = finish cells (D.rstart n r) ph)) := by
  simp only [addRank, Option.bind_eq_some_iff] at h
  obtain ⟨key, hk, h⟩ := h
  refine ⟨key, hk, ?_⟩
  by_cases h1 : key > -1 ∧ key < 6
  swap
  · rw [if_neg h1] at h; exact absurd h (by simp)
  rw [if_pos h1] at h
  by_cases h2 : D.rend n r - D.rstart n r > 0
  · rw [if_pos h2, Option.bind_eq_some_iff] at h
    obtain ⟨x, hx, h⟩ := h
    rw [Option.bind_eq_some_iff] at h
    obtain ⟨ph, hp, h⟩ := h
    by_cases h3 : cells = 0
    · rw [if_pos h3] at h; exact absurd h (by simp)
    rw [if_neg h3] at h
    simp only [Option.some.injEq] at h
    exact ⟨by omega, by omega, Or.inr ⟨h2, by omega, x.1, x.2, ph, hx, hp, h.symm⟩⟩
  · rw [if_neg h2] at h
    simp only [Option.some.injEq] at h
    exact ⟨by omega, by omega, Or.inl ⟨by omega, h.symm⟩⟩

/-- The rows of the branches. -/
inductive Row (env : Env) (i : Input) (pos : Fin 2 → ℕ → ℝ) (px : ℕ) : ℤ → Phase → Prop
  | k0 {v0 r ph r'} : i.initialVelocity = some v0 → key0 env i v0 pos px r = some (ph, r') → Row env i pos px 0 ph
  | k1 {v0 r ph r'} : i.initialVelocity = some v0 → key1 env i v0 pos px r = some (ph, r') → Row env i pos px 1 ph
  | k2 {v0 r ph r'} : i.initialVelocity = some v0 → key2 env i v0 pos px r = some (ph, r') → Row env i pos px 2 ph
  | k3 {v0 r ph r'} : i.initialVelocity = some v0 → key3 env i v0 pos px r = some (ph, r') → Row env i pos px 3 ph
  | k4 {v0 r ph r'} : i.thermalVelocity = some v0 → key4 env i v0 pos px r = some (ph, r') → Row env i pos px 4 ph
  | k5 {v0 r ph r'} : i.initialVelocity = some v0 → key5 env i v0 pos px r = some (ph, r') → Row env i pos px 5 ph

/-- Positions as the branches see them: those drawn before, or a second set for the key 4. -/
def PosOk (i : Input) (N : ℕ) (pos : Fin 2 → ℕ → ℝ) : Prop := ∀ d k, k < N → 0 ≤ pos d k ∧ pos d k < i.extent d

theorem phases_spec {env : Env} {i : Input} {key : ℤ} (h0 : -1 < key) (h6 : key < 6) {pos : Fin 2 → ℕ → ℝ} {N : ℕ} {r : env.Rng}
    {ph : List Phase} (h : phases env i key pos N r = some ph) :
    ph.length = N ∧ ∃ pos', (key ≠ 4 → pos' = pos) ∧ (EnvOk env → (∀ d, 0 < i.extent d) → PosOk i N pos → PosOk i N pos') ∧
      ∀ j (hj : j < ph.length), Row env i pos' j key ph[j] := by
  unfold phases at h
  split_ifs at h with k0 k1 k2 k3 k4 k5
  · rw [Option.bind_eq_some_iff] at h
    obtain ⟨v0, hv, h⟩ := h
    obtain ⟨h1, h2⟩ := rows_spec _ _ _ _ _ h
    refine ⟨h1, pos, fun _ => rfl, fun _ _ h => h, fun j hj => ?_⟩
    obtain ⟨r', r'', h3⟩ := h2 j hj
    rw [Nat.zero_add] at h3
    subst k0; exact .k0 hv h3
  · rw [Option.bind_eq_some_iff] at h
    obtain ⟨v0, hv, h⟩ := h
    obtain ⟨h1, h2⟩ := rows_spec _ _ _ _ _ h
    refine ⟨h1, pos, fun _ => rfl, fun _ _ h => h, fun j hj => ?_⟩
    obtain ⟨r', r'', h3⟩ := h2 j hj
    rw [Nat.zero_add] at h3
    subst k1; exact .k1 hv h3
  · rw [Option.bind_eq_some_iff] at h
    obtain ⟨v0, hv, h⟩ := h
    obtain ⟨h1, h2⟩ := rows_spec _ _ _ _ _ h
    refine ⟨h1, pos, fun _ => rfl, fun _ _ h => h, fun j hj => ?_⟩
    obtain ⟨r', r'', h3⟩ := h2 j hj
    rw [Nat.zero_add] at h3
    subst k2; exact .k2 hv h3
  · rw [Option.bind_eq_some_iff] at h
    obtain ⟨v0, hv, h⟩ := h
    obtain ⟨h1, h2⟩ := rows_spec _ _ _ _ _ h
    refine ⟨h1, pos, fun _ => rfl, fun _ _ h => h, fun j hj => ?_⟩
    obtain ⟨r', r'', h3⟩ := h2 j hj
    rw [Nat.zero_add] at h3
    subst k3; exact .k3 hv h3
  · dsimp only at h
    rw [Option.bind_eq_some_iff] at h
    obtain ⟨v0, hv, h⟩ := h
    obtain ⟨h1, h2⟩ := rows_spec _ _ _ _ _ h
    refine ⟨h1, (env.uniformExtents N i.extent r).1, fun h => absurd k4 h, fun he hx _ d k hk => he.uniform N i.extent r d k hk (hx d),
      fun j hj => ?_⟩
    obtain ⟨r', r'', h3⟩ := h2 j hj
    rw [Nat.zero_add] at h3
    subst k4; exact .k4 hv h3
  · rw [Option.bind_eq_some_iff] at h
    obtain ⟨v0, hv, h⟩ := h
    obtain ⟨h1, h2⟩ := rows_spec _ _ _ _ _ h
    refine ⟨h1, pos, fun _ => rfl, fun _ _ h => h, fun j hj => ?_⟩
    obtain ⟨r', r'', h3⟩ := h2 j hj
    rw [Nat.zero_add] at h3
    subst k5; exact .k5 hv h3
  · omega

theorem positions_ok {env : Env} (he : EnvOk env) {i : Input} (hx : ∀ d, 0 < i.extent d) {seed : ℤ} {N rstart : ℕ} {r r' : env.Rng}
    {pos : Fin 2 → ℕ → ℝ} (h : positions env i seed N rstart r = some (pos, r')) : PosOk i N pos := by
  unfold positions at h
  dsimp only at h
  split_ifs at h with h1 h2
  · simp only [Option.some.injEq, Prod.mk.injEq] at h
    obtain ⟨rfl, _⟩ := h
    intro d k _
    obtain ⟨a, b⟩ := he.sobol seed (rstart * 2 + (k * 2 + (d : ℕ)))
    unfold sobolWithinExtents
    have := hx d
    exact ⟨by positivity, by nlinarith⟩
  · simp only [Option.some.injEq] at h
    intro d k hk
    have := he.uniform N i.extent r d k hk (hx d)
    rw [h] at this
    exact this

/-- Every particle of a successful call comes from a row of its branch. -/
theorem mem_row {size : ℕ} {env : Env} {D : Decomp size} {i : Input} {n : ℕ} {seed : ℤ} {cells : ℕ} {r : Fin size}
    {l : List Particle} (h : addRank env D i n seed cells r = some l) {x : Particle} (hx : x ∈ l) :
    ∃ key pos j ph, i.key = some key ∧ Row env i pos j key ph ∧ x.p = ph.p ∧ x.v = ph.v ∧ x.q = ph.q ∧ x.m = ph.m ∧ x.e = 0 ∧
      x.cell < cells ∧ x.id = j + D.rstart n r ∧
      (EnvOk env → (∀ d, 0 < i.extent d) → ∀ d, 0 ≤ pos d j ∧ pos d j < i.extent d) := by
  obtain ⟨key, hk, h0, h6, h | ⟨hN, hc, pos, r', ph, hp, hph, rfl⟩⟩ := addRank_spec h
  · rw [h.2] at hx; exact absurd hx (by simp)
  · obtain ⟨hl, pos', _, hok, hrow⟩ := phases_spec h0 h6 hph
    simp only [finish, List.mem_map] at hx
    obtain ⟨⟨y, j⟩, hy, rfl⟩ := hx
    obtain ⟨hj, hy'⟩ := List.mem_zipIdx' hy
    refine ⟨key, pos', j, y, hk, ?_, rfl, rfl, rfl, rfl, rfl, Nat.mod_lt _ hc, rfl, fun he hx d => ?_⟩
    · have := hrow j hj; rw [← hy'] at this; exact this
    · exact hok he hx (positions_ok he hx hp) d j (by omega)

/-! ### The claims -/

/-- **C101, positions.** Every particle starts in the domain: always for the keys 2 to 5; for the key 1 (two bands of width 1/100) if
the domain is at least 1/50 high; for the key 0 (positions multiplied by a quarter) if the domain contains zero in each dimension. -/
theorem in_domain_partial {size : ℕ} {env : Env} (he : EnvOk env) {D : Decomp size} {i : Input} (hext : ∀ d, 0 < i.extent d) {n : ℕ}
    {seed : ℤ} {cells : ℕ} {r : Fin size} {l : List Particle} (h : addRank env D i n seed cells r = some l)
    (h0 : i.key = some 0 → ∀ d, i.origin d ≤ 0 ∧ 0 ≤ i.origin d + i.extent d) (h1 : i.key = some 1 → 1 / 50 ≤ i.extent 1)
    {x : Particle} (hx : x ∈ l) : InDomain i x.p := by
  obtain ⟨key, pos, j, ph, hk, hrow, hp, -, -, -, -, -, -, hpos⟩ := mem_row h hx
  have hpos := hpos he hext
  rw [hp]
  have std : InDomain i ![pos 0 j + i.origin 0, pos 1 j + i.origin 1] := by
    intro d
    fin_cases d
    · have := hpos 0; constructor <;> simp <;> linarith
    · have := hpos 1; constructor <;> simp <;> linarith
  cases hrow with
  | k0 hv hr =>
    simp only [key0, Option.some.injEq, Prod.mk.injEq] at hr
    obtain ⟨rfl, _⟩ := hr
    intro d
    have a := h0 hk d
    have b := hpos d
    have c := hext d
    dsimp only
    constructor
    · linarith
    · linarith
  | k1 hv hr =>
    rename_i v0 r0 r1
    simp only [key1, Option.some.injEq, Prod.mk.injEq] at hr
    obtain ⟨rfl, _⟩ := hr
    have a := h1 hk
    intro d
    fin_cases d
    · have := hpos 0; constructor <;> simp <;> linarith
    · have b := hpos 1
      have e := hext 1
      have q0 : 0 ≤ pos 1 j / i.extent 1 := div_nonneg b.1 e.le
      have q1 : pos 1 j / i.extent 1 < 1 := (div_lt_one e).mpr b.2
      simp only [Fin.mk_one, Matrix.cons_val_one, Matrix.cons_val_zero]
      generalize pos 1 j / i.extent 1 = q at *
      constructor <;> split_ifs <;> nlinarith
  | k2 hv hr => simp only [key2, Option.some.injEq, Prod.mk.injEq] at hr; obtain ⟨rfl, _⟩ := hr; exact std
  | k3 hv hr => simp only [key3, Option.some.injEq, Prod.mk.injEq] at hr; obtain ⟨rfl, _⟩ := hr; exact std
  | k4 hv hr =>
    simp only [key4, Option.bind_eq_some_iff] at hr
    obtain ⟨_, _, _, _, _, _, hr⟩ := hr
    split_ifs at hr
    · simp only [Option.some.injEq, Prod.mk.injEq] at hr; obtain ⟨rfl, _⟩ := hr; exact std
    · simp only [Option.some.injEq, Prod.mk.injEq] at hr; obtain ⟨rfl, _⟩ := hr; exact std
  | k5 hv hr => simp only [key5, Option.some.injEq, Prod.mk.injEq] at hr; obtain ⟨rfl, _⟩ := hr; exact std

/-- Finding: the key 0 scales the position, not the offset from the origin. If the domain lies at distance at least a third of its
extent from zero, no particle of the "square in lower left" is in the domain. -/
theorem key0_outside {size : ℕ} {env : Env} (he : EnvOk env) {D : Decomp size} {i : Input} (hext : ∀ d, 0 < i.extent d) {n : ℕ}
    {seed : ℤ} {cells : ℕ} {r : Fin size} {l : List Particle} (h : addRank env D i n seed cells r = some l) (h0 : i.key = some 0)
    {d : Fin 2} (hd : i.extent d ≤ 3 * i.origin d) {x : Particle} (hx : x ∈ l) : ¬ InDomain i x.p := by
  obtain ⟨key, pos, j, ph, hk, hrow, hp, -, -, -, -, -, -, hpos⟩ := mem_row h hx
  have hpos := hpos he hext d
  rw [h0] at hk
  obtain rfl : (0 : ℤ) = key := by simpa using hk
  intro hin
  have := (hin d).1
  rw [hp] at this
  cases hrow with
  | k0 hv hr =>
    simp only [key0, Option.some.injEq, Prod.mk.injEq] at hr
    obtain ⟨rfl, _⟩ := hr
    dsimp only at this
    linarith

/-- **C101, velocities, charges and masses.** Every particle belongs to a species of its key, and the electric field starts at zero. -/
theorem species {size : ℕ} {env : Env} (he : EnvOk env) {D : Decomp size} {i : Input} (hext : ∀ d, 0 < i.extent d) {n : ℕ} {seed : ℤ}
    {cells : ℕ} {r : Fin size} {l : List Particle} (h : addRank env D i n seed cells r = some l) {x : Particle} (hx : x ∈ l) :
    (∃ key, i.key = some key ∧ Species env i key x.p x.v x.q x.m) ∧ x.e = 0 ∧ x.cell < cells := by
  obtain ⟨key, pos, j, ph, hk, hrow, hp, hV, hq, hm, hE, hc, -, hpos⟩ := mem_row h hx
  have hpos := hpos he hext
  refine ⟨⟨key, hk, ?_⟩, hE, hc⟩
  rw [hp, hV, hq, hm]
  have fromErf : ∀ u w : ℝ, env.erfInv (2 * u - 1) = some w → ∃ u, 0 < u ∧ u < 1 ∧ env.erfInv (2 * u - 1) = some w := by
    intro u w hw
    have := (he.erfInv (2 * u - 1)).mp (by rw [hw]; rfl)
    exact ⟨u, by linarith, by linarith, hw⟩
  cases hrow with
  | k0 hv hr =>
    simp only [key0, Option.some.injEq, Prod.mk.injEq] at hr
    obtain ⟨rfl, _⟩ := hr
    exact ⟨_, hv, rfl, rfl, rfl⟩
  | k1 hv hr =>
    rename_i v0 r0 r1
    simp only [key1, Option.some.injEq, Prod.mk.injEq] at hr
    obtain ⟨rfl, _⟩ := hr
    refine ⟨v0, hv, rfl, rfl, ?_⟩
    have b := hpos 1
    have e := hext 1
    have q0 : 0 ≤ pos 1 j / i.extent 1 := div_nonneg b.1 e.le
    have q1 : pos 1 j / i.extent 1 < 1 := (div_lt_one e).mpr b.2
    generalize pos 1 j / i.extent 1 = q at *
    cases (env.coin r0).1
    · right
      refine ⟨by simp, ?_⟩
      simp only [Matrix.cons_val_one, Matrix.cons_val_zero]
      rw [abs_le]; constructor <;> simp <;> linarith
    · left
      refine ⟨by simp, ?_⟩
      simp only [Matrix.cons_val_one, Matrix.cons_val_zero]
      rw [abs_le]; constructor <;> simp <;> linarith
  | k2 hv hr =>
    rename_i v0 r0 r1
    simp only [key2, Option.some.injEq, Prod.mk.injEq] at hr
    obtain ⟨rfl, _⟩ := hr
    refine ⟨v0, hv, ?_, rfl, rfl⟩
    cases (env.coin r0).1
    · right; simp
    · left; simp
  | k3 hv hr =>
    rename_i v0 r0 r1
    simp only [key3, Option.some.injEq, Prod.mk.injEq] at hr
    obtain ⟨rfl, _⟩ := hr
    refine ⟨v0, hv, ?_⟩
    cases (env.coin r0).1
    · right; simp
    · left; simp only [if_true]; exact ⟨trivial, trivial, by norm_num [mul_comm]⟩
  | k4 hv hr =>
    rename_i vth r0 r1
    simp only [key4, Option.bind_eq_some_iff] at hr
    obtain ⟨x, hx, y, hy, z, hz, hr⟩ := hr
    split_ifs at hr
    · simp only [Option.some.injEq, Prod.mk.injEq] at hr
      obtain ⟨rfl, _⟩ := hr
      refine ⟨vth, hv, rfl, rfl, Or.inl ⟨x, y, z, rfl, ?_⟩⟩
      intro w hw
      simp only [List.mem_cons, List.not_mem_nil, or_false] at hw
      rcases hw with rfl | rfl | rfl
      · exact fromErf _ _ hx
      · exact fromErf _ _ hy
      · exact fromErf _ _ hz
    · simp only [Option.some.injEq, Prod.mk.injEq] at hr
      obtain ⟨rfl, _⟩ := hr
      refine ⟨vth, hv, rfl, rfl, Or.inr ⟨by simp, ?_⟩⟩
      simp only [Matrix.cons_val_one, Matrix.cons_val_zero, Matrix.cons_val]
      generalize 2 * Real.pi * _ = th
      have := Real.sin_sq_add_cos_sq th
      calc (vth * (4 * vth * Real.sin th)) ^ 2 + (vth * (4 * vth * Real.cos th)) ^ 2
          = (4 * vth ^ 2) ^ 2 * (Real.sin th ^ 2 + Real.cos th ^ 2) := by ring
        _ = _ := by rw [this, mul_one]
  | k5 hv hr =>
    rename_i v0 r0 r1
    simp only [key5, Option.some.injEq, Prod.mk.injEq] at hr
    obtain ⟨rfl, _⟩ := hr
    have := he.u01 r0
    refine ⟨v0, hv, rfl, ?_, ?_, rfl, rfl, rfl⟩
    · simp; linarith
    · simp; linarith

/-! ### Numbers and identities -/

theorem rank_ids {size : ℕ} {env : Env} {D : Decomp size} {i : Input} {n : ℕ} {seed : ℤ} {cells : ℕ} {r : Fin size} {l : List Particle}
    (h : addRank env D i n seed cells r = some l) : l.map (·.id) = chargedIds D n r := by
  obtain ⟨key, hk, h0, h6, ⟨hz, rfl⟩ | ⟨hN, hc, pos, r', ph, hp, hph, rfl⟩⟩ := addRank_spec h
  · simp [chargedIds, hz]
  · have hl := (phases_spec h0 h6 hph).1
    simp only [finish, List.map_map, chargedIds]
    rw [← hl]
    apply List.ext_getElem
    · simp
    · intro k h1 h2; simp

/-- **C101, identities.** If the call succeeds on every rank, then the particles of all ranks have the identities `0, 1, ..., n - 1`,
in the order of the ranks: `n` particles, no identity twice. -/
theorem identities {size : ℕ} (hs : 0 < size) {env : Env} {D : Decomp size} {i : Input} {n : ℕ} (hD : Contract D n) {seed : Fin size → ℤ}
    {cells : Fin size → ℕ} {l : Fin size → List Particle} (h : ∀ r, addRank env D i n (seed r) (cells r) r = some (l r)) :
    (onAllRanks l).map (·.id) = List.range n := by
  rw [← Verif.Props.C68.charged_ids hs D n hD]
  simp only [onAllRanks, allIds, List.map_flatten, List.map_ofFn]
  congr 2
  funext r
  exact rank_ids (h r)

/-- The whole number of particles. -/
theorem total_number {size : ℕ} (hs : 0 < size) {env : Env} {D : Decomp size} {i : Input} {n : ℕ} (hD : Contract D n) {seed : Fin size → ℤ}
    {cells : Fin size → ℕ} {l : Fin size → List Particle} (h : ∀ r, addRank env D i n (seed r) (cells r) r = some (l r)) :
    (onAllRanks l).length = n := by
  have := congrArg List.length (identities hs hD h)
  simpa using this

theorem sum_eq_of_const {α : Type*} (f : α → ℝ) (c : ℝ) : ∀ l : List α, (∀ x ∈ l, f x = c) → (l.map f).sum = l.length * c
  | [], _ => by simp
  | a :: t, h => by
    have h1 := sum_eq_of_const f c t (fun x hx => h x (List.mem_cons_of_mem _ hx))
    rw [List.map_cons, List.sum_cons, h1, h a List.mem_cons_self, List.length_cons]
    push_cast
    ring

/-- **C101, total charge and mass.** Except for the key 3, the charge of all ranks is `n` times the charge of a particle, and
the mass is `n` times the mass of a particle, whatever the number of ranks. -/
theorem total_charge {size : ℕ} (hs : 0 < size) {env : Env} (he : EnvOk env) {D : Decomp size} {i : Input} (hext : ∀ d, 0 < i.extent d)
    {n : ℕ} (hD : Contract D n) {seed : Fin size → ℤ} {cells : Fin size → ℕ} {l : Fin size → List Particle}
    (h : ∀ r, addRank env D i n (seed r) (cells r) r = some (l r)) (h3 : i.key ≠ some 3) :
    ((onAllRanks l).map (·.q)).sum = n * i.charge ∧ ((onAllRanks l).map (·.m)).sum = n * i.mass := by
  have key : ∀ x ∈ onAllRanks l, x.q = i.charge ∧ x.m = i.mass := by
    intro x hx
    simp only [onAllRanks, List.mem_flatten, List.mem_ofFn] at hx
    obtain ⟨_, ⟨r, rfl⟩, hx⟩ := hx
    obtain ⟨⟨key, hk, hsp⟩, _⟩ := species he hext (h r) hx
    obtain ⟨key', hk', h0, h6, _⟩ := addRank_spec (h r)
    rw [hk] at hk'
    obtain rfl : key = key' := by simpa using hk'
    have : key = 0 ∨ key = 1 ∨ key = 2 ∨ key = 3 ∨ key = 4 ∨ key = 5 := by omega
    rcases this with rfl | rfl | rfl | rfl | rfl | rfl
    · obtain ⟨_, _, _, a, b⟩ := hsp; exact ⟨a, b⟩
    · obtain ⟨_, _, a, b, _⟩ := hsp; exact ⟨a, b⟩
    · obtain ⟨_, _, _, a, b⟩ := hsp; exact ⟨a, b⟩
    · exact absurd hk h3
    · obtain ⟨_, _, a, b, _⟩ := hsp; exact ⟨a, b⟩
    · obtain ⟨_, _, _, _, _, _, a, b⟩ := hsp; exact ⟨a, b⟩
  rw [sum_eq_of_const _ _ _ (fun x hx => (key x hx).1), sum_eq_of_const _ _ _ (fun x hx => (key x hx).2), total_number hs hD h]
  exact ⟨rfl, rfl⟩

/-! ### Decompositions -/

/-- The position which the particle with identity `k` gets from the Sobol sequence. -/
noncomputable def sobolPosition (env : Env) (i : Input) (key seed : ℤ) (k : ℕ) : Fin 2 → ℝ := fun d =>
  if key = 0 then (env.sobol seed (2 * k + d) * i.extent d + i.origin d) / 4 else env.sobol seed (2 * k + d) * i.extent d + i.origin d

theorem rank_positions {size : ℕ} {env : Env} {D : Decomp size} {i : Input} {n : ℕ} {seed : ℤ} {cells : ℕ} {r : Fin size}
    {l : List Particle} (h : addRank env D i n seed cells r = some l) (hk : i.kind.getD 0 = 0) {key : ℤ} (hkey : i.key = some key)
    (h14 : key ≠ 1 ∧ key ≠ 4) : l.map (·.p) = (chargedIds D n r).map (sobolPosition env i key seed) := by
  obtain ⟨key', hk', h0, h6, ⟨hz, rfl⟩ | ⟨hN, hc, pos, r', ph, hp, hph, rfl⟩⟩ := addRank_spec h
  · simp [chargedIds, hz]
  · rw [hkey] at hk'
    obtain rfl : key = key' := by simpa using hk'
    obtain ⟨hl, pos', hpos', _, hrow⟩ := phases_spec h0 h6 hph
    obtain rfl := hpos' h14.2
    simp only [positions, hk] at hp
    norm_num at hp
    obtain ⟨rfl, _⟩ := hp
    simp only [finish, List.map_map, chargedIds]
    rw [← hl]
    apply List.ext_getElem
    · simp
    · intro k h1 h2
      simp only [List.length_map, List.length_zipIdx] at h1
      simp only [List.getElem_map, List.getElem_zipIdx, Function.comp_apply, List.getElem_range]
      have hr := hrow k h1
      have idx : ∀ d : Fin 2, sobolWithinExtents env i.extent (D.rstart n r) seed d k = env.sobol seed (2 * (k + D.rstart n r) + d) * i.extent d := by
        intro d
        rw [sobolWithinExtents, show D.rstart n r * 2 + (k * 2 + (d : ℕ)) = 2 * (k + D.rstart n r) + d by ring]
      funext d
      have std : key ≠ 0 → ph[k].p = ![sobolWithinExtents env i.extent (D.rstart n r) seed 0 k + i.origin 0,
          sobolWithinExtents env i.extent (D.rstart n r) seed 1 k + i.origin 1] →
          ph[k].p d = sobolPosition env i key seed (k + D.rstart n r) d := by
        intro hne hp
        rw [hp, idx, idx, sobolPosition, if_neg hne]
        fin_cases d <;> rfl
      generalize hy : ph[k] = y at hr std ⊢
      cases hr with
      | k0 hv hr =>
        simp only [key0, Option.some.injEq, Prod.mk.injEq] at hr
        obtain ⟨rfl, _⟩ := hr
        simp only [idx, sobolPosition, if_true]
        ring
      | k1 hv hr => exact absurd rfl h14.1
      | k2 hv hr => simp only [key2, Option.some.injEq, Prod.mk.injEq] at hr; obtain ⟨rfl, _⟩ := hr; exact std (by norm_num) rfl
      | k3 hv hr => simp only [key3, Option.some.injEq, Prod.mk.injEq] at hr; obtain ⟨rfl, _⟩ := hr; exact std (by norm_num) rfl
      | k4 hv hr => exact absurd rfl h14.2
      | k5 hv hr => simp only [key5, Option.some.injEq, Prod.mk.injEq] at hr; obtain ⟨rfl, _⟩ := hr; exact std (by norm_num) rfl

theorem all_positions {size : ℕ} (hs : 0 < size) {env : Env} {D : Decomp size} {i : Input} {n : ℕ} (hD : Contract D n) {seed : ℤ}
    {cells : Fin size → ℕ} {l : Fin size → List Particle} (h : ∀ r, addRank env D i n seed (cells r) r = some (l r))
    (hk : i.kind.getD 0 = 0) {key : ℤ} (hkey : i.key = some key) (h14 : key ≠ 1 ∧ key ≠ 4) :
    (onAllRanks l).map (·.p) = (List.range n).map (sobolPosition env i key seed) := by
  rw [← Verif.Props.C68.charged_ids hs D n hD]
  simp only [onAllRanks, allIds, List.map_flatten, List.map_ofFn]
  congr 2
  funext r
  exact rank_positions (h r) hk hkey h14

/-- **C101, number of ranks.** With the Sobol positions (the default) and the same seed on every rank, the initial positions for the keys
0, 2, 3 and 5 do not depend on the number of ranks, nor on the decomposition: the particle with identity `k` starts at the same place. -/
theorem positions_independent_of_ranks {size size' : ℕ} (hs : 0 < size) (hs' : 0 < size') {env : Env} {D : Decomp size} {D' : Decomp size'}
    {i : Input} {n : ℕ} (hD : Contract D n) (hD' : Contract D' n) {seed : ℤ} {cells : Fin size → ℕ} {cells' : Fin size' → ℕ}
    {l : Fin size → List Particle} {l' : Fin size' → List Particle}
    (h : ∀ r, addRank env D i n seed (cells r) r = some (l r)) (h' : ∀ r, addRank env D' i n seed (cells' r) r = some (l' r))
    (hk : i.kind = none ∨ i.kind = some 0) (hkey : i.key ≠ some 1 ∧ i.key ≠ some 4) :
    (onAllRanks l).map (fun x => (x.id, x.p)) = (onAllRanks l').map (fun x => (x.id, x.p)) := by
  have hk0 : i.kind.getD 0 = 0 := by rcases hk with h | h <;> rw [h] <;> rfl
  obtain ⟨key, hkey', _⟩ := addRank_spec (h ⟨0, hs⟩)
  have h14 : key ≠ 1 ∧ key ≠ 4 := ⟨fun e => hkey.1 (by rw [hkey', e]), fun e => hkey.2 (by rw [hkey', e])⟩
  have hp := (all_positions hs hD h hk0 hkey' h14).trans (all_positions hs' hD' h' hk0 hkey' h14).symm
  have hi := (identities hs hD h).trans (identities hs' hD' h').symm
  have zip : ∀ L : List Particle, L.map (fun x => (x.id, x.p)) = (L.map (·.id)).zip (L.map (·.p)) := by
    intro L; rw [List.zip_map']
  rw [zip, zip, hi, hp]

/-- For the key 0 the whole initial state is independent of the number of ranks, except for the first guess of the cell. -/
theorem key0_independent_of_ranks {size size' : ℕ} (hs : 0 < size) (hs' : 0 < size') {env : Env} (he : EnvOk env) {D : Decomp size}
    {D' : Decomp size'} {i : Input} (hext : ∀ d, 0 < i.extent d) {n : ℕ} (hD : Contract D n) (hD' : Contract D' n) {seed : ℤ}
    {cells : Fin size → ℕ} {cells' : Fin size' → ℕ} {l : Fin size → List Particle} {l' : Fin size' → List Particle}
    (h : ∀ r, addRank env D i n seed (cells r) r = some (l r)) (h' : ∀ r, addRank env D' i n seed (cells' r) r = some (l' r))
    (hk : i.kind = none ∨ i.kind = some 0) (hkey : i.key = some 0) :
    (onAllRanks l).map (fun x => (x.id, x.p, x.v, x.q, x.m, x.e)) = (onAllRanks l').map (fun x => (x.id, x.p, x.v, x.q, x.m, x.e)) := by
  have hp := positions_independent_of_ranks hs hs' hD hD' h h' hk ⟨by rw [hkey]; simp, by rw [hkey]; simp⟩
  obtain ⟨v0, hv0⟩ | hnone : (∃ v0, i.initialVelocity = some v0) ∨ i.initialVelocity = none := by
    cases i.initialVelocity <;> simp
  swap
  · -- without the parameter no particle can have been created
    have none_of : ∀ {sz : ℕ} {E : Decomp sz} {c : Fin sz → ℕ} {L : Fin sz → List Particle},
        (∀ r, addRank env E i n seed (c r) r = some (L r)) → onAllRanks L = [] := by
      intro sz E c L hL
      rw [List.eq_nil_iff_forall_not_mem]
      intro x hx
      simp only [onAllRanks, List.mem_flatten, List.mem_ofFn] at hx
      obtain ⟨_, ⟨r, rfl⟩, hx⟩ := hx
      obtain ⟨⟨key, hk, hsp⟩, _⟩ := species he hext (hL r) hx
      rw [hkey] at hk
      obtain rfl : (0 : ℤ) = key := by simpa using hk
      obtain ⟨v0, hv, _⟩ := hsp
      rw [hnone] at hv
      exact absurd hv (by simp)
    rw [none_of h, none_of h']
  have key : ∀ {sz : ℕ} {E : Decomp sz} {c : Fin sz → ℕ} {L : Fin sz → List Particle},
      (∀ r, addRank env E i n seed (c r) r = some (L r)) →
      (onAllRanks L).map (fun x => (x.id, x.p, x.v, x.q, x.m, x.e))
        = ((onAllRanks L).map (fun x => (x.id, x.p))).map fun y => (y.1, y.2, ![v0, 0, env.vz], i.charge, i.mass, 0) := by
    intro sz E c L hL
    rw [List.map_map]
    apply List.map_congr_left
    intro x hx
    simp only [onAllRanks, List.mem_flatten, List.mem_ofFn] at hx
    obtain ⟨_, ⟨r, rfl⟩, hx⟩ := hx
    obtain ⟨⟨key, hk, hsp⟩, hE, _⟩ := species he hext (hL r) hx
    rw [hkey] at hk
    obtain rfl : (0 : ℤ) = key := by simpa using hk
    obtain ⟨v1, hv, a, b, c⟩ := hsp
    rw [hv0] at hv
    obtain rfl : v0 = v1 := by simpa using hv
    simp [a, b, c, hE]
  rw [key h, key h', hp]

/-! ### Success and failure -/

/-- **C101, success.** With a valid key other than 4, a valid type, the velocity of the beam and a cell on the rank, particles are created. -/
theorem succeeds {size : ℕ} {env : Env} {D : Decomp size} {i : Input} {n : ℕ} {seed : ℤ} {cells : ℕ} {r : Fin size} {key : ℤ} {v0 : ℝ}
    (hk : i.key = some key) (h0 : 0 ≤ key) (h5 : key ≤ 5) (h4 : key ≠ 4) (ht : i.kind = none ∨ i.kind = some 0 ∨ i.kind = some 1)
    (hv : i.initialVelocity = some v0) (hc : 0 < cells) : (addRank env D i n seed cells r).isSome := by
  have hpos : ∀ N rs rng, (positions env i seed N rs rng).isSome := by
    intro N rs rng
    unfold positions
    rcases ht with h | h | h <;> simp [h]
  have hph : ∀ pos N rng, (phases env i key pos N rng).isSome := by
    intro pos N rng
    unfold phases
    split_ifs
    · simp only [hv, Option.bind_some]; exact rows_some _ (fun _ _ => rfl) _ _ _
    · simp only [hv, Option.bind_some]; exact rows_some _ (fun _ _ => rfl) _ _ _
    · simp only [hv, Option.bind_some]; exact rows_some _ (fun _ _ => rfl) _ _ _
    · simp only [hv, Option.bind_some]; exact rows_some _ (fun _ _ => rfl) _ _ _
    · simp only [hv, Option.bind_some]; exact rows_some _ (fun _ _ => rfl) _ _ _
    · rfl
  unfold addRank
  simp only [hk, Option.bind_some]
  rw [if_pos ⟨by omega, by omega⟩]
  by_cases hN : D.rend n r - D.rstart n r > 0
  · rw [if_pos hN]
    obtain ⟨x, hx⟩ := Option.isSome_iff_exists.mp (hpos (D.rend n r - D.rstart n r) (D.rstart n r) (env.mt (seed + (r : ℕ))))
    obtain ⟨y, hy⟩ := Option.isSome_iff_exists.mp (hph x.1 (D.rend n r - D.rstart n r) x.2)
    rw [hx, Option.bind_some, hy, Option.bind_some, if_neg (by omega)]
    rfl
  · rw [if_neg hN]; rfl

/-- **C101, rejection.** No rank creates particles for a missing key or a key outside 0..5; a rank which would have to create particles
fails for a type outside 0..1, a missing velocity, or if it has no cell. -/
theorem rejects {size : ℕ} {env : Env} {D : Decomp size} {i : Input} {n : ℕ} {seed : ℤ} {cells : ℕ} {r : Fin size}
    (h : (∀ key, i.key = some key → key < 0 ∨ 5 < key) ∨
      (D.rstart n r < D.rend n r ∧ ((∃ t, i.kind = some t ∧ (t < 0 ∨ 1 < t)) ∨ cells = 0 ∨
        (i.key = some 4 ∧ i.thermalVelocity = none) ∨ (i.key ≠ some 4 ∧ i.initialVelocity = none)))) :
    addRank env D i n seed cells r = none := by
  by_contra hne
  obtain ⟨l, hl⟩ := Option.ne_none_iff_exists'.mp hne
  obtain ⟨key, hk, h0, h6, hcase⟩ := addRank_spec hl
  rcases h with h | ⟨hN, h⟩
  · have := h key hk; omega
  · rcases hcase with ⟨h', _⟩ | ⟨_, hc, pos, r', ph, hp, hph, _⟩
    · omega
    · rcases h with ⟨t, ht, h⟩ | h | ⟨h4, hv⟩ | ⟨h4, hv⟩
      · simp only [positions, ht, Option.getD_some] at hp
        rw [if_neg (by omega)] at hp
        exact absurd hp (by simp)
      · omega
      · obtain ⟨hlen, _, _, _, hrow⟩ := phases_spec h0 h6 hph
        rw [hk] at h4
        obtain rfl : key = 4 := by simpa using h4
        have := hrow 0 (by omega)
        cases this with
        | k4 h _ => rw [hv] at h; exact absurd h (by simp)
      · obtain ⟨hlen, _, _, _, hrow⟩ := phases_spec h0 h6 hph
        have := hrow 0 (by omega)
        generalize ph[0] = y at this
        cases this with
        | k4 _ _ => exact h4 hk
        | k0 h _ | k1 h _ | k2 h _ | k3 h _ | k5 h _ => rw [hv] at h; exact absurd h (by simp)

/-- Finding: the uniform numbers include 0, and the inverse error function of -1 does not exist. A Maxwellian start fails if the first number
drawn for the velocity of a particle is 0. -/
theorem maxwellian_can_throw {env : Env} (he : EnvOk env) (i : Input) (vth : ℝ) (pos : Fin 2 → ℕ → ℝ) (px : ℕ) {r : env.Rng}
    (hr : (env.u01 r).1 = 0) : key4 env i vth pos px r = none := by
  have : env.erfInv (2 * (env.u01 r).1 - 1) = none := by
    rw [← Option.not_isSome_iff_eq_none, he.erfInv, hr]
    norm_num
  simp only [key4, this, Option.bind_none]

/-- The Maxwellian start succeeds if no number drawn is 0. -/
theorem maxwellian_succeeds {env : Env} (he : EnvOk env) (h0 : ∀ r, (env.u01 r).1 ≠ 0) (i : Input) (vth : ℝ) (pos : Fin 2 → ℕ → ℝ) (px : ℕ)
    (r : env.Rng) : (key4 env i vth pos px r).isSome := by
  have key : ∀ r, ∃ w, env.erfInv (2 * (env.u01 r).1 - 1) = some w := by
    intro r
    rw [← Option.isSome_iff_exists, he.erfInv]
    have := he.u01 r
    have h1 := lt_of_le_of_ne this.1 (Ne.symm (h0 r))
    constructor <;> linarith
  obtain ⟨x, hx⟩ := key r
  obtain ⟨y, hy⟩ := key (env.u01 r).2
  obtain ⟨z, hz⟩ := key (env.u01 (env.u01 r).2).2
  simp only [key4, hx, hy, hz, Option.bind_some]
  split_ifs <;> rfl

/-- Finding: the particles on the ring get the thermal velocity twice. Their speed is `4 vth²`; it is four thermal velocities
only if the thermal velocity is 1. -/
theorem ring_speed {vth : ℝ} (hv : 0 < vth) (hne : vth ≠ 1) {v : Fin 3 → ℝ} (h : v 1 ^ 2 + v 2 ^ 2 = (4 * vth ^ 2) ^ 2) :
    v 1 ^ 2 + v 2 ^ 2 ≠ (4 * vth) ^ 2 := by
  rw [h]
  intro e
  have h2 : vth ^ 2 * ((vth - 1) * (vth + 1)) = 0 := by nlinarith
  rcases mul_eq_zero.mp h2 with h | h
  · exact absurd (pow_eq_zero_iff (two_ne_zero) |>.mp h) hv.ne'
  · rcases mul_eq_zero.mp h with h | h
    · exact hne (by linarith)
    · linarith

/-! ### A concrete environment -/

/-- Coins alternate, the engine is seeded with the rank. -/
noncomputable def demoEnv : Env where
  Rng := ℕ
  mt s := s.toNat
  coin r := (r % 2 == 0, r + 1)
  u01 r := (1 / 2, r + 1)
  sobol _ k := 1 / (k + 2)
  uniformExtents _ ext r := (fun d _ => ext d / 2, r)
  erfInv x := if -1 < x ∧ x < 1 then some x else none
  vz := 0

theorem demoEnv_ok : EnvOk demoEnv where
  u01 r := by simp only [demoEnv]; norm_num
  sobol s k := by
    simp only [demoEnv]
    have : (0 : ℝ) < k + 2 := by positivity
    refine ⟨by positivity, ?_⟩
    rw [div_lt_one this]
    have : (0 : ℝ) ≤ k := by positivity
    linarith
  uniform N ext r d k _ h := by simp only [demoEnv]; constructor <;> linarith
  erfInv x := by simp only [demoEnv]; split_ifs with h <;> simp [h]

/-- A two stream session on the unit square. -/
def demoInput (key : ℤ) : Input := ⟨some key, none, some 3, some 2, -1, 1, fun _ => 0, fun _ => 1⟩

example : ∃ l, addRank demoEnv (evenDecomp 2) (demoInput 2) 5 0 4 0 = some l ∧ l.length = 3 := by
  obtain ⟨l, hl⟩ := Option.isSome_iff_exists.mp (succeeds (env := demoEnv) (D := evenDecomp 2) (i := demoInput 2) (n := 5) (seed := 0)
    (cells := 4) (r := 0) (key := 2) (v0 := 3) rfl (by norm_num) (by norm_num) (by norm_num) (Or.inl rfl) rfl (by norm_num))
  refine ⟨l, hl, ?_⟩
  have := congrArg List.length (rank_ids hl)
  simpa [chargedIds, evenDecomp] using this

/-- Full claim: the initial state does not depend on the number of ranks. Finding: it does, since each rank tosses its own coins. With three
particles and this engine the third particle moves forwards on one rank and backwards on two ranks. -/
theorem velocities_depend_on_ranks : ∃ (env : Env) (i : Input) (l : Fin 1 → List Particle) (l' : Fin 2 → List Particle), EnvOk env ∧
    (∀ r, addRank env (evenDecomp 1) i 3 0 1 r = some (l r)) ∧ (∀ r, addRank env (evenDecomp 2) i 3 0 1 r = some (l' r)) ∧
    (onAllRanks l).map (fun x => (x.id, x.v)) ≠ (onAllRanks l').map (fun x => (x.id, x.v)) := by
  have ok : ∀ {size : ℕ} (r : Fin size), ∃ l, addRank demoEnv (evenDecomp size) (demoInput 2) 3 0 1 r = some l := fun r =>
    Option.isSome_iff_exists.mp (succeeds (key := 2) (v0 := 3) rfl (by norm_num) (by norm_num) (by norm_num) (Or.inl rfl) rfl
      (by norm_num))
  choose l hl using (ok (size := 1))
  choose l' hl' using (ok (size := 2))
  refine ⟨demoEnv, demoInput 2, l, l', demoEnv_ok, hl, hl', ?_⟩
  have a0 := hl 0
  have b0 := hl' 0
  have b1 := hl' 1
  simp [addRank, demoInput, evenDecomp, positions, phases, rows, key2, demoEnv, finish] at a0 b0 b1
  intro h
  simp [onAllRanks, ← a0, ← b0, ← b1, List.ofFn_succ] at h
  norm_num at h

end Verif.Props.C101
