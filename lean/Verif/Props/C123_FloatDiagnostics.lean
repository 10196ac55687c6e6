import Verif.Lemmas.FloatDiagnostics
import Verif.Lemmas.RoundingModes
import Mathlib.Analysis.SpecialFunctions.Exp
import Mathlib.Tactic.FieldSimp

/-!
# C123: the recorded energies and masses are accurate to rounding

The kinetic and potential energy and the mass of the particles are sums over all particles of all ranks. The order of the additions depends on the device and the number of ranks and is not the same in two runs. Users rely
on the recorded values being the energies and masses up to rounding errors, and on the recorded mass error being zero up to rounding errors if the simulation conserves mass.
-/

namespace Verif.Props.C123
open Verif.Spec.Rounding Verif.Lemmas.Rounding Verif.Lemmas.FloatDiagnostics Verif.Model.FloatDiagnostics

variable {rnd : ℝ → ℝ} {P : Type}

/-- The relative error of `k` roundings one after the other. -/
noncomputable def growth (k : ℕ) : ℝ := (1 + (2 : ℝ) ^ (-52 : ℤ)) ^ k

/-- The smallest positive double. -/
noncomputable def tiny : ℝ := (2 : ℝ) ^ (-1074 : ℤ)

/-- The kinetic energy. -/
noncomputable def kinetic (mass : ℝ) (velocity : P → List ℝ) (ps : List P) : ℝ := (ps.map fun a => 1 / 2 * mass * ((velocity a).map (· ^ 2)).sum).sum

/-! ### Kinetic energy -/

theorem squares_near (R : Rounding 53 (-1074) rnd) (c : ℕ → Bool) (vs : List ℝ) : ∀ (i k : ℕ) (t acc x : ℝ), 1 ≤ k → Near k t x acc x →
    Near (k + vs.length) (t + vs.length * (2 * tiny)) (x + (vs.map (· ^ 2)).sum) (squaresF rnd c i acc vs) (x + (vs.map (· ^ 2)).sum) := by
  have htiny : 0 < tiny := zpow_pos (by norm_num) _
  induction vs with
  | nil => intro i k t acc x _ h; simpa [squaresF] using h
  | cons v vs ih =>
    intro i k t acc x hk h
    have hp : Near k tiny (v ^ 2) (if c i then v * v else rnd (v * v)) (v ^ 2) := by
      have h0 := Near.refl (v * v)
      rw [show |v * v| = v ^ 2 by rw [abs_mul_self, sq], show v * v = v ^ 2 by ring] at h0
      rw [show v * v = v ^ 2 by ring]
      split
      · exact h0.mono (Nat.zero_le k) htiny.le
      · refine (h0.round R).mono (by omega) ?_
        rw [zero_add]; exact le_rfl
    have := ih (i + 1) (k + 1) _ _ _ (by omega) ((h.add hp).round R)
    simp only [squaresF, List.length_cons, List.map_cons, List.sum_cons]
    rw [show x + (v ^ 2 + (vs.map (· ^ 2)).sum) = x + v ^ 2 + (vs.map (· ^ 2)).sum by ring]
    refine this.mono (by omega) (le_of_eq ?_)
    push_cast
    unfold tiny
    ring

/-- **Kinetic energy**: for every order of the additions, the computed energy of particles with `n` velocity components is the exact one up to `n + 2` roundings and those of the additions that follow one another, and underflow. -/
theorem kinetic_error (R : Rounding 53 (-1074) rnd) (c : ℕ → Bool) (mass : ℝ) (hm : 0 ≤ mass) (hmf : IsFloat 53 (-1074) (1 / 2 * mass)) (velocity : P → List ℝ) (n : ℕ) (ps : List P)
    (hn : ∀ a ∈ ps, (velocity a).length = n) (s : Additions P) (hs : s.particles.Perm ps) :
    |kineticF rnd c mass velocity s - kinetic mass velocity ps| ≤
      (growth (n + 2 + s.depth) - 1) * kinetic mass velocity ps + growth (n + 2 + s.depth) * (ps.length * ((mass * n + 1) * tiny)) := by
  have key := value_near R (f := fun a => kineticTermF rnd c mass (velocity a)) (x := fun a => 1 / 2 * mass * ((velocity a).map (· ^ 2)).sum) (X := fun a => 1 / 2 * mass * ((velocity a).map (· ^ 2)).sum)
    (k := n + 2) (t := (mass * n + 1) * tiny) s (by
      intro a ha
      refine ⟨R.float _, ?_⟩
      have h1 := squares_near R c (velocity a) 0 1 0 0 0 le_rfl (by simpa using (Near.refl 0).mono (Nat.zero_le 1) le_rfl)
      rw [hn a (hs.mem_iff.1 ha)] at h1
      have h2 := (h1.mul (1 / 2 * mass)).round R
      rw [abs_of_nonneg (by linarith : 0 ≤ 1 / 2 * mass)] at h2
      unfold kineticTermF
      dsimp only
      rw [R.exact _ hmf, mul_comm (squaresF rnd c 0 0 (velocity a))]
      rw [zero_add, zero_add] at h2
      refine h2.mono (by omega) (le_of_eq ?_)
      unfold tiny
      ring)
  have h := key.2.2
  rw [(hs.map _).sum_eq, hs.length_eq] at h
  exact h

/-- It is never negative. -/
theorem kinetic_nonneg (R : Rounding 53 (-1074) rnd) (c : ℕ → Bool) (mass : ℝ) (hm : 0 ≤ mass) (velocity : P → List ℝ) (s : Additions P) : 0 ≤ kineticF rnd c mass velocity s := by
  have hsq : ∀ (vs : List ℝ) (i : ℕ) (acc : ℝ), 0 ≤ acc → 0 ≤ squaresF rnd c i acc vs := by
    intro vs
    induction vs with
    | nil => intro i acc h; exact h
    | cons v vs ih =>
      intro i acc h
      refine ih _ _ (rnd_nonneg R (add_nonneg h ?_))
      split
      · exact mul_self_nonneg v
      · exact rnd_nonneg R (mul_self_nonneg v)
  unfold kineticF
  induction s with
  | zero => exact le_rfl
  | term a => exact rnd_nonneg R (mul_nonneg (hsq _ _ _ le_rfl) (rnd_nonneg R (by linarith)))
  | add s t ih ih' => exact rnd_nonneg R (add_nonneg ih ih')

/-! ### Potential energy -/

/-- **Potential energy**: for every order of the additions, up to four roundings and those of the additions relative to the sum of the magnitudes, and underflow. `phi` are the values of the potential at the particles and
`mean` its mean, as computed. -/
theorem potential_error (R : Rounding 53 (-1074) rnd) (mean : ℝ) (hmean : IsFloat 53 (-1074) mean) (charge phi : P → ℝ) (hphi : ∀ a, IsFloat 53 (-1074) (phi a)) (ps : List P) (s : Additions P) (hs : s.particles.Perm ps) :
    |potentialF rnd mean charge phi s - 1 / 2 * (ps.map fun a => charge a * (phi a - mean)).sum| ≤
      (growth (s.depth + 3) - 1) * (1 / 2 * (ps.map fun a => |charge a * (phi a - mean)|).sum) + growth (s.depth + 3) * ((ps.length / 2 + 1) * tiny) := by
  have key := value_near R (f := fun a => rnd (charge a * rnd (phi a + -mean))) (x := fun a => charge a * (phi a - mean)) (X := fun a => |charge a * (phi a - mean)|) (k := 2) (t := tiny) s (by
    intro a _
    refine ⟨R.float _, ?_⟩
    have h1 := (Near.refl (phi a + -mean)).rel (rnd_add_rel R (hphi a) (float_neg hmean))
    have h2 := (h1.mul (charge a)).round R
    rw [← abs_mul, mul_zero, ← sub_eq_add_neg] at h2
    simp only [zero_add] at h2
    rw [← sub_eq_add_neg]
    exact h2)
  have h := ((key.mul (1 / 2)).round R).2.2
  rw [(hs.map _).sum_eq, (hs.map _).sum_eq, hs.length_eq, abs_of_pos (by norm_num : (0 : ℝ) < 1 / 2)] at h
  unfold potentialF
  dsimp only
  rw [mul_comm (s.value rnd _) (1 / 2)]
  refine h.trans (le_of_eq ?_)
  unfold growth tiny
  rw [show 2 + s.depth + 1 = s.depth + 3 by ring]
  ring

/-! ### Mass -/

/-- **Mass of the particles**: for every order of the additions, the computed mass is the exact one up to a relative error that grows with the number of additions that follow one another. -/
theorem mass_error (R : Rounding 53 (-1074) rnd) (weight : P → ℝ) (ps : List P) (hw : ∀ a ∈ ps, 0 ≤ weight a ∧ IsFloat 53 (-1074) (weight a)) (s : Additions P) (hs : s.particles.Perm ps) :
    |particleMassF rnd weight s - (ps.map weight).sum| ≤ (growth s.depth - 1) * (ps.map weight).sum := by
  have key := value_near R (f := weight) (x := weight) (X := weight) (k := 0) (t := 0) s (by
    intro a ha
    have := Near.refl (weight a)
    rw [abs_of_nonneg (hw a (hs.mem_iff.1 ha)).1] at this
    exact ⟨(hw a (hs.mem_iff.1 ha)).2, this⟩)
  have h := key.2.2
  rw [(hs.map _).sum_eq, zero_add, mul_zero, mul_zero, add_zero] at h
  exact h

/-- **Two runs**: with other orders of the additions, on other numbers of ranks, the same particles give the same mass up to rounding errors. -/
theorem mass_runs (R : Rounding 53 (-1074) rnd) (weight : P → ℝ) (ps : List P) (hw : ∀ a ∈ ps, 0 ≤ weight a ∧ IsFloat 53 (-1074) (weight a)) (s t : Additions P) (hs : s.particles.Perm ps) (ht : t.particles.Perm ps) :
    |particleMassF rnd weight s - particleMassF rnd weight t| ≤ (growth s.depth + growth t.depth - 2) * (ps.map weight).sum := by
  have h1 := mass_error R weight ps hw s hs
  have h2 := mass_error R weight ps hw t ht
  rw [abs_sub_comm] at h2
  have h3 := abs_add_le (particleMassF rnd weight s - (ps.map weight).sum) ((ps.map weight).sum - particleMassF rnd weight t)
  rw [show particleMassF rnd weight s - (ps.map weight).sum + ((ps.map weight).sum - particleMassF rnd weight t) = particleMassF rnd weight s - particleMassF rnd weight t by ring] at h3
  linarith

/-! ### The recorded mass error -/

theorem growth_small {k : ℕ} (hk : k ≤ 2 ^ 52) : growth k - 1 ≤ 2 * (k * (2 : ℝ) ^ (-52 : ℤ)) := by
  have hu : (0 : ℝ) < (2 : ℝ) ^ (-52 : ℤ) := zpow_pos (by norm_num) _
  have hx : (k : ℝ) * (2 : ℝ) ^ (-52 : ℤ) ≤ 1 := by
    have : (k : ℝ) ≤ 2 ^ 52 := by exact_mod_cast hk
    have := mul_le_mul_of_nonneg_right this hu.le
    norm_num at this ⊢
    linarith
  have hx0 : 0 ≤ (k : ℝ) * (2 : ℝ) ^ (-52 : ℤ) := by positivity
  have h1 : growth k ≤ Real.exp (k * (2 : ℝ) ^ (-52 : ℤ)) := by
    rw [Real.exp_nat_mul]
    exact pow_le_pow_left₀ (by positivity) (by rw [add_comm]; exact Real.add_one_le_exp _) k
  have h2 := Real.abs_exp_sub_one_sub_id_le (x := (k : ℝ) * (2 : ℝ) ^ (-52 : ℤ)) (by rw [abs_of_nonneg hx0]; exact hx)
  have h3 := (abs_le.1 h2).2
  have h4 : ((k : ℝ) * (2 : ℝ) ^ (-52 : ℤ)) ^ 2 ≤ k * (2 : ℝ) ^ (-52 : ℤ) := by rw [sq]; exact mul_le_of_le_one_right hx0 hx
  linarith

/-- **The recorded mass error**: it is the exact relative difference `|C - M| / C` between the mass `M` of particles and fluid and the mass `C` that was there at the start or added, up to rounding errors relative to these masses.
`integral`, `initial` and the weights are as computed; nothing is negative, `C` is not extremely small. -/
theorem recorded_error (R : Rounding 53 (-1074) rnd) (c : ℕ → Bool) (weight : P → ℝ) (ps : List P) (hw : ∀ a ∈ ps, 0 ≤ weight a ∧ IsFloat 53 (-1074) (weight a)) (s : Additions P) (hs : s.particles.Perm ps)
    (integral nToSI : ℝ) (hf : 0 ≤ integral * nToSI) (added : ℕ) (hadd : added < 2 ^ 53) (initWeight initial : ℝ) (hiw : 0 ≤ initWeight) (hi : 0 ≤ initial)
    (M C : ℝ) (hM : M = (ps.map weight).sum + integral * nToSI) (hC : C = added * initWeight + initial) (hC0 : (2 : ℝ) ^ (-900 : ℤ) ≤ C)
    (E : ℝ) (hE : E = (growth (s.depth + 3) - 1) * (C + M) + growth (s.depth + 3) * (4 * tiny)) :
    recordedErrorF rnd c weight s integral nToSI added initWeight initial ≤ (1 + (2 : ℝ) ^ (-49 : ℤ)) * ((|C - M| + E) / C) + tiny ∧
      (1 - (2 : ℝ) ^ (-49 : ℤ)) * ((|C - M| - E) / C) - tiny ≤ recordedErrorF rnd c weight s integral nToSI added initWeight initial := by
  have hη : 0 < tiny := zpow_pos (by norm_num) _
  have prod : ∀ (b : Bool) (x : ℝ), 0 ≤ x → Near 1 tiny x (if b then x else rnd x) x := by
    intro b x hx
    have h0 := Near.refl x
    rw [abs_of_nonneg hx] at h0
    split
    · exact h0.mono (by omega) hη.le
    · refine (h0.round R).mono le_rfl ?_
      rw [zero_add]; exact le_rfl
  have hps : 0 ≤ (ps.map weight).sum := List.sum_nonneg fun x hx => by
    obtain ⟨a, ha, rfl⟩ := List.mem_map.1 hx
    exact (hw a ha).1
  have hpart : Near s.depth 0 (ps.map weight).sum (particleMassF rnd weight s) (ps.map weight).sum := by
    refine ⟨le_rfl, by rw [abs_of_nonneg hps], ?_⟩
    rw [mul_zero, add_zero]
    exact mass_error R weight ps hw s hs
  have hn : rnd (added : ℝ) = added := R.exact _ (by
    have := float_int (p := 53) (emin := -1074) (by norm_num) (by norm_num) (m := (added : ℤ)) (by
      rw [abs_of_nonneg (by positivity)]; exact_mod_cast hadd.le)
    exact_mod_cast this)
  obtain ⟨total, htot⟩ : ∃ x, x = rnd (particleMassF rnd weight s + if c 0 then integral * nToSI else rnd (integral * nToSI)) := ⟨_, rfl⟩
  obtain ⟨correct, hcor⟩ : ∃ x, x = rnd ((if c 1 then (added : ℝ) * initWeight else rnd (added * initWeight)) + initial) := ⟨_, rfl⟩
  have ntot : Near (s.depth + 2) (2 * tiny) M total M := by
    have := ((hpart.mono (l := s.depth + 1) (by omega) le_rfl).add ((prod (c 0) _ hf).mono (l := s.depth + 1) (by omega) le_rfl)).round R
    rw [← htot, ← hM] at this
    refine this.mono le_rfl (le_of_eq ?_)
    unfold tiny; ring
  have ncor : Near 2 (2 * tiny) C correct C := by
    have h0 := Near.refl initial
    rw [abs_of_nonneg hi] at h0
    have := ((prod (c 1) _ (mul_nonneg (Nat.cast_nonneg added) hiw)).add (h0.mono (l := 1) (by omega) le_rfl)).round R
    rw [← hcor, ← hC] at this
    refine this.mono le_rfl (le_of_eq ?_)
    unfold tiny; ring
  have hval : recordedErrorF rnd c weight s integral nToSI added initWeight initial = rnd (|rnd (correct - total)| / |correct|) := by
    unfold recordedErrorF
    dsimp only
    rw [hn, ← htot, ← hcor]
  have hCp : 0 < C := lt_of_lt_of_le (zpow_pos (by norm_num) _) hC0
  -- the denominator
  have hden : |correct - C| ≤ (2 : ℝ) ^ (-50 : ℤ) * C := by
    refine ncor.2.2.trans ?_
    have h1 : tiny ≤ (2 : ℝ) ^ (-174 : ℤ) * C := by
      refine le_trans (le_of_eq ?_) (mul_le_mul_of_nonneg_left hC0 (by positivity))
      unfold tiny
      rw [← zpow_add₀ (by norm_num : (2 : ℝ) ≠ 0)]
      norm_num
    have h2 : (1 + (2 : ℝ) ^ (-52 : ℤ)) ^ 2 * (2 * tiny) ≤ (1 + (2 : ℝ) ^ (-52 : ℤ)) ^ 2 * (2 * ((2 : ℝ) ^ (-174 : ℤ) * C)) := by gcongr
    have h3 : ((1 + (2 : ℝ) ^ (-52 : ℤ)) ^ 2 - 1) * C + (1 + (2 : ℝ) ^ (-52 : ℤ)) ^ 2 * (2 * ((2 : ℝ) ^ (-174 : ℤ) * C)) ≤ (2 : ℝ) ^ (-50 : ℤ) * C := by
      rw [show ((1 + (2 : ℝ) ^ (-52 : ℤ)) ^ 2 - 1) * C + (1 + (2 : ℝ) ^ (-52 : ℤ)) ^ 2 * (2 * ((2 : ℝ) ^ (-174 : ℤ) * C)) =
        ((1 + (2 : ℝ) ^ (-52 : ℤ)) ^ 2 - 1 + (1 + (2 : ℝ) ^ (-52 : ℤ)) ^ 2 * (2 * (2 : ℝ) ^ (-174 : ℤ))) * C by ring]
      exact mul_le_mul_of_nonneg_right (by norm_num) hCp.le
    linarith
  obtain ⟨hlo, hhi⟩ := abs_le.1 hden
  have hcp : 0 < correct := by
    have h9 : 0 < (1 - (2 : ℝ) ^ (-50 : ℤ)) * C := mul_pos (by norm_num) hCp
    rw [sub_mul, one_mul] at h9
    linarith
  -- the numerator
  have hnum : |(|rnd (correct - total)| - |C - M|)| ≤ E := by
    have h1 := ((ncor.mono (l := s.depth + 2) (by omega) le_rfl).add (ntot.mul (-1)))
    rw [abs_neg, abs_one, one_mul, one_mul, neg_one_mul, neg_one_mul] at h1
    have fc : IsFloat 53 (-1074) correct := hcor ▸ R.float _
    have ft : IsFloat 53 (-1074) total := htot ▸ R.float _
    have h2 := (h1.rel (rnd_add_rel R fc (float_neg ft))).2.2
    rw [← sub_eq_add_neg, ← sub_eq_add_neg] at h2
    refine (abs_abs_sub_abs_le _ _).trans (h2.trans (le_of_eq ?_))
    rw [hE]
    unfold growth
    ring
  obtain ⟨nlo, nhi⟩ := abs_le.1 hnum
  rw [hval, abs_of_pos hcp]
  obtain ⟨d, hd⟩ : ∃ d, d = |rnd (correct - total)| := ⟨_, rfl⟩
  rw [← hd] at nlo nhi ⊢
  have hd0 : 0 ≤ d := hd ▸ abs_nonneg _
  have hq0 : 0 ≤ d / correct := div_nonneg hd0 hcp.le
  have her := error R (by norm_num) (d / correct)
  rw [show (1 : ℤ) - ((53 : ℕ) : ℤ) = -52 by norm_num, abs_of_nonneg hq0] at her
  obtain ⟨elo, ehi⟩ := abs_le.1 her
  change -((2 : ℝ) ^ (-52 : ℤ) * (d / correct) + tiny) ≤ _ at elo
  change _ ≤ (2 : ℝ) ^ (-52 : ℤ) * (d / correct) + tiny at ehi
  constructor
  · have h1 : (1 + (2 : ℝ) ^ (-52 : ℤ)) * (d / correct) ≤ (1 + (2 : ℝ) ^ (-49 : ℤ)) * ((|C - M| + E) / C) := by
      have h2 : d / correct ≤ (|C - M| + E) / ((1 - (2 : ℝ) ^ (-50 : ℤ)) * C) :=
        div_le_div₀ (by linarith) (by linarith) (mul_pos (by norm_num) hCp) (by linarith)
      have h3 : (|C - M| + E) / ((1 - (2 : ℝ) ^ (-50 : ℤ)) * C) = 1 / (1 - (2 : ℝ) ^ (-50 : ℤ)) * ((|C - M| + E) / C) := by
        rw [one_div_mul_eq_div, div_div, mul_comm]
      rw [h3] at h2
      refine (mul_le_mul_of_nonneg_left h2 (by norm_num)).trans ?_
      rw [← mul_assoc]
      exact mul_le_mul_of_nonneg_right (by norm_num) (div_nonneg (by linarith) hCp.le)
    linarith
  · by_cases hneg : |C - M| - E ≤ 0
    · have h1 : (1 - (2 : ℝ) ^ (-49 : ℤ)) * ((|C - M| - E) / C) ≤ 0 := mul_nonpos_of_nonneg_of_nonpos (by norm_num) (div_nonpos_of_nonpos_of_nonneg hneg hCp.le)
      have := rnd_nonneg R hq0
      linarith
    · push Not at hneg
      have h2 : (|C - M| - E) / ((1 + (2 : ℝ) ^ (-50 : ℤ)) * C) ≤ d / correct := div_le_div₀ hd0 (by linarith) hcp (by linarith)
      have h3 : (|C - M| - E) / ((1 + (2 : ℝ) ^ (-50 : ℤ)) * C) = 1 / (1 + (2 : ℝ) ^ (-50 : ℤ)) * ((|C - M| - E) / C) := by
        rw [one_div_mul_eq_div, div_div, mul_comm]
      rw [h3] at h2
      have h4 := mul_le_mul_of_nonneg_left h2 (by norm_num : (0 : ℝ) ≤ 1 - (2 : ℝ) ^ (-52 : ℤ))
      rw [← mul_assoc] at h4
      have h5 : (1 - (2 : ℝ) ^ (-49 : ℤ)) * ((|C - M| - E) / C) ≤ (1 - (2 : ℝ) ^ (-52 : ℤ)) * (1 / (1 + (2 : ℝ) ^ (-50 : ℤ))) * ((|C - M| - E) / C) :=
        mul_le_mul_of_nonneg_right (by norm_num) (div_nonneg hneg.le hCp.le)
      linarith

/-- **A simulation that conserves mass** has a recorded mass error of at most `(d + 4) 2⁻⁵⁰` for `d` additions that follow one another. -/
theorem conserving (R : Rounding 53 (-1074) rnd) (c : ℕ → Bool) (weight : P → ℝ) (ps : List P) (hw : ∀ a ∈ ps, 0 ≤ weight a ∧ IsFloat 53 (-1074) (weight a)) (s : Additions P) (hs : s.particles.Perm ps)
    (hd : s.depth ≤ 2 ^ 40) (integral nToSI : ℝ) (hf : 0 ≤ integral * nToSI) (added : ℕ) (hadd : added < 2 ^ 53) (initWeight initial : ℝ) (hiw : 0 ≤ initWeight) (hi : 0 ≤ initial)
    (hC0 : (2 : ℝ) ^ (-900 : ℤ) ≤ added * initWeight + initial) (hcons : (ps.map weight).sum + integral * nToSI = added * initWeight + initial) :
    recordedErrorF rnd c weight s integral nToSI added initWeight initial ≤ (s.depth + 4) * (2 : ℝ) ^ (-50 : ℤ) := by
  have h := (recorded_error R c weight ps hw s hs integral nToSI hf added hadd initWeight initial hiw hi _ _ rfl rfl hC0 _ rfl).1
  rw [hcons, sub_self, abs_zero, zero_add] at h
  obtain ⟨C, hC⟩ : ∃ C, C = (added : ℝ) * initWeight + initial := ⟨_, rfl⟩
  rw [← hC] at h hC0
  have hCp : 0 < C := lt_of_lt_of_le (zpow_pos (by norm_num) _) hC0
  have hη : 0 < tiny := zpow_pos (by norm_num) _
  have hdr : (s.depth : ℝ) ≤ 2 ^ 40 := by exact_mod_cast hd
  have g1 := growth_small (k := s.depth + 3) (by
    have : (2 : ℕ) ^ 40 + 3 ≤ 2 ^ 52 := by norm_num
    omega)
  push_cast at g1
  have g2 : growth (s.depth + 3) ≤ 2 := by
    have : 2 * (((s.depth : ℝ) + 3) * (2 : ℝ) ^ (-52 : ℤ)) ≤ 2 * ((2 ^ 40 + 3) * (2 : ℝ) ^ (-52 : ℤ)) := by gcongr
    norm_num at this g1 ⊢
    linarith
  have e1 : ((growth (s.depth + 3) - 1) * (C + C) + growth (s.depth + 3) * (4 * tiny)) / C = 2 * (growth (s.depth + 3) - 1) + growth (s.depth + 3) * (4 * (tiny / C)) := by
    field_simp
    ring
  rw [e1] at h
  have h1 : tiny / C ≤ (2 : ℝ) ^ (-174 : ℤ) := by
    rw [div_le_iff₀ hCp]
    refine le_trans (le_of_eq ?_) (mul_le_mul_of_nonneg_left hC0 (by positivity))
    unfold tiny
    rw [← zpow_add₀ (by norm_num : (2 : ℝ) ≠ 0)]
    norm_num
  have h2 : growth (s.depth + 3) * (4 * (tiny / C)) ≤ 2 * (4 * (2 : ℝ) ^ (-174 : ℤ)) := by
    have : 0 ≤ tiny / C := by positivity
    gcongr
  have h3 : tiny ≤ (2 : ℝ) ^ (-174 : ℤ) := by
    unfold tiny
    exact zpow_le_zpow_right₀ (by norm_num) (by norm_num)
  have h4 : (1 + (2 : ℝ) ^ (-49 : ℤ)) * (2 * (growth (s.depth + 3) - 1) + growth (s.depth + 3) * (4 * (tiny / C))) ≤
      (1 + (2 : ℝ) ^ (-49 : ℤ)) * (2 * (2 * (((s.depth : ℝ) + 3) * (2 : ℝ) ^ (-52 : ℤ))) + 2 * (4 * (2 : ℝ) ^ (-174 : ℤ))) := by
    refine mul_le_mul_of_nonneg_left ?_ (by norm_num)
    exact add_le_add (mul_le_mul_of_nonneg_left g1 (by norm_num)) h2
  have h5 : ∀ x : ℝ, x ≤ 2 ^ 40 → (1 + (2 : ℝ) ^ (-49 : ℤ)) * (2 * (2 * ((x + 3) * (2 : ℝ) ^ (-52 : ℤ))) + 2 * (4 * (2 : ℝ) ^ (-174 : ℤ))) + (2 : ℝ) ^ (-174 : ℤ) ≤ (x + 4) * (2 : ℝ) ^ (-50 : ℤ) := by
    intro x hx
    norm_num at hx ⊢
    linarith
  exact h.trans ((add_le_add h4 h3).trans (h5 _ hdr))

/-! ### The bound must grow with the number of additions -/

theorem nearest_one (N : Nearest 53 (-1074) rnd) : rnd (1 + (2 : ℝ) ^ (-54 : ℤ)) = 1 := by
  have f1 : IsFloat 53 (-1074) (1 : ℝ) := by simpa using float_int (p := 53) (emin := -1074) (by norm_num) (by norm_num) (m := 1) (by norm_num)
  have h := N.nearest (1 + (2 : ℝ) ^ (-54 : ℤ)) 1 f1
  rw [show (1 : ℝ) - (1 + (2 : ℝ) ^ (-54 : ℤ)) = -(2 : ℝ) ^ (-54 : ℤ) by ring, abs_neg, abs_of_pos (zpow_pos (by norm_num : (0 : ℝ) < 2) _)] at h
  obtain ⟨h1, h2⟩ := abs_le.1 h
  have hge : 1 ≤ rnd (1 + (2 : ℝ) ^ (-54 : ℤ)) := by linarith
  obtain ⟨j, hj⟩ := float_grid (N.float (1 + (2 : ℝ) ^ (-54 : ℤ))) 0 (by rw [zpow_zero]; exact hge.trans (le_abs_self _))
  rw [hj] at h2 hge ⊢
  rw [show (0 : ℤ) + 1 - ((53 : ℕ) : ℤ) = -52 by norm_num] at h2 hge ⊢
  have a : (2 : ℝ) ^ 52 ≤ j := by norm_num at hge ⊢; linarith
  have b : (j : ℝ) < 2 ^ 52 + 1 := by norm_num at h2 ⊢; linarith
  have a' : (2 : ℤ) ^ 52 ≤ j := by exact_mod_cast a
  have b' : j < (2 : ℤ) ^ 52 + 1 := by exact_mod_cast b
  have : j = 2 ^ 52 := by omega
  rw [this]
  norm_num

/-- **The mass of any number of light particles can be lost**: after a particle with the weight one, any number of particles with the weight 2⁻⁵⁴ do not change the sum, with the default rounding. -/
theorem light_particles_lost (N : Nearest 53 (-1074) rnd) (n : ℕ) :
    particleMassF rnd id (Additions.sequential ((1 : ℝ) :: List.replicate n ((2 : ℝ) ^ (-54 : ℤ)))) = 1 ∧
      ((((1 : ℝ) :: List.replicate n ((2 : ℝ) ^ (-54 : ℤ))).map id).sum = 1 + n * (2 : ℝ) ^ (-54 : ℤ)) := by
  have R := Verif.Lemmas.RoundingModes.nearest_rounding N
  have f1 : IsFloat 53 (-1074) (1 : ℝ) := by simpa using float_int (p := 53) (emin := -1074) (by norm_num) (by norm_num) (m := 1) (by norm_num)
  constructor
  · unfold particleMassF Additions.sequential
    rw [List.foldl_cons]
    have : ∀ (n : ℕ) (s : Additions ℝ), s.value rnd id = 1 → ((List.replicate n ((2 : ℝ) ^ (-54 : ℤ))).foldl (fun s a => .add s (.term a)) s).value rnd id = 1 := by
      intro n
      induction n with
      | zero => intro s h; exact h
      | succ n ih =>
        intro s h
        rw [List.replicate_succ, List.foldl_cons]
        refine ih _ ?_
        rw [Additions.value, h]
        exact nearest_one N
    refine this n _ ?_
    simp only [Additions.value, id, zero_add]
    exact R.exact _ f1
  · simp

/-- **The order matters**: four light particles before or after the heavy one give two different masses. -/
theorem order_matters (N : Nearest 53 (-1074) rnd) : ∃ ps : List ℝ, ∃ s t : Additions ℝ, s.particles.Perm ps ∧ t.particles.Perm ps ∧ particleMassF rnd id s ≠ particleMassF rnd id t := by
  have R := Verif.Lemmas.RoundingModes.nearest_rounding N
  let e : ℝ := (2 : ℝ) ^ (-54 : ℤ)
  have fm : ∀ m : ℤ, |m| ≤ 2 ^ 53 → ∀ k : ℤ, -1074 ≤ k → IsFloat 53 (-1074) (m * (2 : ℝ) ^ k) := fun m hm k hk => float_of_multiple (by norm_num) hk hm
  have ex : ∀ m : ℤ, |m| ≤ 2 ^ 53 → ∀ k : ℤ, -1074 ≤ k → ∀ x : ℝ, x = m * (2 : ℝ) ^ k → rnd x = x := fun m hm k hk x hx => R.exact _ (hx ▸ fm m hm k hk)
  refine ⟨[1, e, e, e, e], Additions.sequential [1, e, e, e, e], .add (.add (.add (.add (.term e) (.term e)) (.term e)) (.term e)) (.term 1), ?_, ?_, ?_⟩
  · simp [Additions.sequential, Additions.particles]
  · simp only [Additions.particles, List.append_assoc, List.cons_append, List.nil_append]
    exact (List.perm_append_comm (l₁ := [e, e, e, e]) (l₂ := [1]))
  · have h := (light_particles_lost N 4).1
    simp only [List.replicate] at h
    rw [h]
    unfold particleMassF
    simp only [Additions.value, id]
    have e1 : rnd (e + e) = 2 * e := by
      rw [show e + e = 2 * e by ring]
      exact ex 2 (by norm_num) (-54) (by norm_num) _ (by norm_num [e])
    have e2 : rnd (2 * e + e) = 3 * e := by
      rw [show 2 * e + e = 3 * e by ring]
      exact ex 3 (by norm_num) (-54) (by norm_num) _ (by norm_num [e])
    have e3 : rnd (3 * e + e) = 4 * e := by
      rw [show 3 * e + e = 4 * e by ring]
      exact ex 4 (by norm_num) (-54) (by norm_num) _ (by norm_num [e])
    have e4 : rnd (4 * e + 1) = 4 * e + 1 := ex (2 ^ 52 + 1) (by norm_num) (-52) (by norm_num) _ (by norm_num [e])
    rw [e1, e2, e3, e4]
    norm_num [e]

/-! ### The hypotheses are met -/

/-- Two ranks with two and one particles. -/
example : (Additions.add (Additions.sequential [0, 2]) (Additions.sequential [1])).particles.Perm (List.range 3) ∧ (Additions.add (Additions.sequential [0, 2]) (Additions.sequential [1])).depth = 3 := by
  refine ⟨?_, rfl⟩
  decide

/-- Mass one, and three velocity components for each particle. -/
example (R : Rounding 53 (-1074) rnd) (c : ℕ → Bool) (v : ℕ → ℝ × ℝ × ℝ) (ps : List ℕ) (s : Additions ℕ) (hs : s.particles.Perm ps) :
    |kineticF rnd c 1 (fun a => [(v a).1, (v a).2.1, (v a).2.2]) s - kinetic 1 (fun a => [(v a).1, (v a).2.1, (v a).2.2]) ps| ≤
      (growth (5 + s.depth) - 1) * kinetic 1 (fun a => [(v a).1, (v a).2.1, (v a).2.2]) ps + growth (5 + s.depth) * (ps.length * ((1 * 3 + 1) * tiny)) := by
  have := kinetic_error R c 1 zero_le_one (by simpa using float_pow (p := 53) (emin := -1074) (by norm_num) (e := -1) (by norm_num)) (fun a => [(v a).1, (v a).2.1, (v a).2.2]) 3 ps (fun _ _ => rfl) s hs
  simpa using this

/-- Two particles of the weight 1 in a fluid of the mass 3, of which three particles were added and one was ionised. -/
example (R : Rounding 53 (-1074) rnd) (c : ℕ → Bool) : recordedErrorF rnd c (fun _ : ℕ => 1) (Additions.sequential [0, 1]) 3 1 3 1 2 ≤ 6 * (2 : ℝ) ^ (-50 : ℤ) := by
  have f1 : IsFloat 53 (-1074) (1 : ℝ) := by simpa using float_int (p := 53) (emin := -1074) (by norm_num) (by norm_num) (m := 1) (by norm_num)
  have h := conserving R c (fun _ : ℕ => (1 : ℝ)) [0, 1] (fun _ _ => ⟨zero_le_one, f1⟩) (Additions.sequential [0, 1]) (by simp [Additions.sequential, Additions.particles]) (by simp [Additions.sequential, Additions.depth]) 3 1
    (by norm_num) 3 (by norm_num) 1 2 (by norm_num) (by norm_num) (le_trans (zpow_le_one_of_nonpos₀ (by norm_num) (by norm_num)) (by norm_num)) (by norm_num)
  refine h.trans (le_of_eq ?_)
  norm_num [Additions.sequential, Additions.depth]

end Verif.Props.C123
