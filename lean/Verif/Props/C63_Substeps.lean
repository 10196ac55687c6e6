import Verif.Model.NeutralSystem
import Mathlib.Algebra.Order.Floor.Semifield

/-!
# C63: the sub steps of the particle integration

`integrate(time_end, dt)` of the neutral particle systems advances the particles from the current time to `time_end` in
steps of at most `dt`.
-/

namespace Verif.Props.C63
open Verif.Model Verif.Model.NeutralSystem

/-- Specification: the steps which cover a span of time `len` with steps of size `dt` and a shorter last one. -/
noncomputable def steps (len dt : ℝ) : List ℝ :=
  List.replicate (⌈len / dt⌉₊ - 1) dt ++ [len - (⌈len / dt⌉₊ - 1 : ℕ) * dt]

/-- Specification: performing sub steps of given sizes one after the other, until one of them fails. -/
def perform {S : Type*} (substep : ℝ → S → Option S) : List ℝ → S → Option S
  | [], s => some s
  | d :: ds, s => (substep d s).bind (perform substep ds)

/-- The steps are positive, at most `dt`, add up to the span, and there are `⌈len / dt⌉` of them; all but the last are
`dt`. -/
theorem steps_cover (len dt : ℝ) (hl : 0 < len) (hdt : 0 < dt) :
    (∀ d ∈ steps len dt, 0 < d ∧ d ≤ dt) ∧ (steps len dt).sum = len ∧ (steps len dt).length = ⌈len / dt⌉₊ ∧
    ∀ d ∈ (steps len dt).dropLast, d = dt := by
  have hx : 0 < len / dt := div_pos hl hdt
  have h1 : 1 ≤ ⌈len / dt⌉₊ := Nat.one_le_ceil_iff.mpr hx
  have hc : ((⌈len / dt⌉₊ - 1 : ℕ) : ℝ) = (⌈len / dt⌉₊ : ℝ) - 1 := by rw [Nat.cast_sub h1, Nat.cast_one]
  have hle : len / dt ≤ (⌈len / dt⌉₊ : ℝ) := Nat.le_ceil _
  have hlt : (⌈len / dt⌉₊ : ℝ) < len / dt + 1 := Nat.ceil_lt_add_one hx.le
  have e : len / dt * dt = len := by field_simp
  refine ⟨?_, ?_, ?_, ?_⟩
  · intro d hd
    simp only [steps, List.mem_append, List.mem_replicate, List.mem_singleton] at hd
    rcases hd with ⟨_, rfl⟩ | rfl
    · exact ⟨hdt, le_refl _⟩
    · rw [hc]
      constructor <;> nlinarith
  · simp [steps]
  · simp only [steps, List.length_append, List.length_replicate, List.length_singleton]
    omega
  · intro d hd
    simp only [steps, List.dropLast_concat, List.mem_replicate] at hd
    exact hd.2

theorem steps_last {len dt : ℝ} (hl : 0 < len) (hdt : 0 < dt) (h : len ≤ dt) : steps len dt = [len] := by
  have : ⌈len / dt⌉₊ = 1 := by
    apply le_antisymm
    · exact Nat.ceil_le.mpr (by rw [Nat.cast_one]; exact (div_le_one hdt).mpr h)
    · exact Nat.one_le_ceil_iff.mpr (div_pos hl hdt)
  simp [steps, this]

theorem steps_cons {len dt : ℝ} (hdt : 0 < dt) (h : dt < len) : steps len dt = dt :: steps (len - dt) dt := by
  have hx : 0 < (len - dt) / dt := div_pos (by linarith) hdt
  have h1 : 1 ≤ ⌈(len - dt) / dt⌉₊ := Nat.one_le_ceil_iff.mpr hx
  have e : ⌈len / dt⌉₊ = ⌈(len - dt) / dt⌉₊ + 1 := by
    rw [← Nat.ceil_add_one hx.le]
    congr 1
    field_simp
    ring
  obtain ⟨k, hk⟩ : ∃ k, ⌈(len - dt) / dt⌉₊ = k + 1 := ⟨⌈(len - dt) / dt⌉₊ - 1, by omega⟩
  rw [steps, steps, e, hk]
  simp only [Nat.add_sub_cancel, List.replicate_succ, List.cons_append, List.cons.injEq, true_and]
  congr 2
  push_cast
  ring

/-- The `while` loop performs exactly the steps of the specification; it does not end if the step is not positive. -/
theorem loop_performs {S : Type*} (substep : ℝ → S → Option S) (tEnd dt t : ℝ) (s : S) :
    integrateLoop substep tEnd dt t s =
      if tEnd ≤ t then some s else if 0 < dt then perform substep (steps (tEnd - t) dt) s else none := by
  by_cases hdt : 0 < dt
  · induction hk : ⌈(tEnd - t) / dt⌉₊ using Nat.strong_induction_on generalizing t s with
    | _ k ih =>
      rw [integrateLoop]
      by_cases h : t < tEnd
      · rw [dif_pos h, dif_pos hdt, if_neg (not_le.mpr h), if_pos hdt]
        have hdec := loop_decreases h hdt
        rw [hk] at hdec
        simp only
        rcases min_cases dt (tEnd - t) with ⟨h1, h2⟩ | ⟨h1, h2⟩
        · rcases eq_or_lt_of_le h2 with heq | hlt
          · rw [h1, steps_last (by linarith) hdt heq.ge]
            simp only [perform]
            rw [← heq]
            cases hs : substep dt s with
            | none => simp
            | some s' =>
              simp only [Option.bind_some]
              rw [ih _ (by rw [h1] at hdec; exact hdec) (t + dt) s' rfl, if_pos (by linarith)]
          · rw [h1, steps_cons hdt hlt]
            simp only [perform]
            cases hs : substep dt s with
            | none => simp
            | some s' =>
              simp only [Option.bind_some]
              rw [ih _ (by rw [h1] at hdec; exact hdec) (t + dt) s' rfl, if_neg (by linarith), if_pos hdt]
              congr 2
              ring
        · rw [h1, steps_last (by linarith) hdt h2.le]
          simp only [perform]
          cases hs : substep (tEnd - t) s with
          | none => simp
          | some s' =>
            simp only [Option.bind_some]
            rw [ih _ (by rw [h1] at hdec; exact hdec) (t + (tEnd - t)) s' rfl, if_pos (by linarith)]
      · rw [dif_neg h, if_pos (not_lt.mp h)]
  · rw [integrateLoop]
    by_cases h : t < tEnd
    · rw [dif_pos h, dif_neg hdt, if_neg (not_le.mpr h), if_neg hdt]
    · rw [dif_neg h, if_pos (not_lt.mp h)]

/-- `integrate` of the SimpleSOL system: it refuses to go backwards, does nothing if there is nothing to do, and
otherwise performs the steps of the specification and is at the requested time. -/
theorem integrateSOL_eq (cfg : Config) (envs : ℕ → Env) (timeEnd dt : ℝ) (s : Sys) :
    integrateSOL cfg envs timeEnd dt s =
      if timeEnd < s.simulationTime then none
      else if timeEnd = s.simulationTime then some s
      else if 0 < dt then
        (perform (substepSOL cfg envs dt) (steps (timeEnd - s.simulationTime) dt) s).map
          fun s' => { s' with simulationTime := timeEnd }
      else none := by
  unfold integrateSOL
  by_cases h1 : timeEnd < s.simulationTime
  · rw [if_pos h1, if_pos h1]
  · by_cases h2 : timeEnd = s.simulationTime
    · rw [if_neg h1, if_neg h1, if_pos h2, if_pos h2]
    · have h3 : ¬ timeEnd ≤ s.simulationTime := fun h => h1 (lt_of_le_of_ne h h2)
      rw [if_neg h1, if_neg h1, if_neg h2, if_neg h2, loop_performs, if_neg h3]
      split_ifs <;> simp

/-- `integrate` of the DriftReduced system: the same, with the particles created before the first step; without any
particle the time is not advanced. -/
theorem integrateDR_eq (cfg : Config) (envs : ℕ → Env) (timeEnd dt : ℝ) (s : Sys) :
    integrateDR cfg envs timeEnd dt s =
      if timeEnd < s.simulationTime then none
      else if timeEnd = s.simulationTime ∨ cfg.numPartsTot = 0 then some s
      else if 0 < dt then
        (perform (substepDR cfg envs) (steps (timeEnd - s.simulationTime) dt)
          (if s.totalAdded = 0 then addDR cfg (envs s.clock) s else s)).map
          fun s' => { s' with simulationTime := timeEnd }
      else none := by
  unfold integrateDR
  by_cases h1 : timeEnd < s.simulationTime
  · rw [if_pos h1, if_pos h1]
  · by_cases h2 : timeEnd = s.simulationTime ∨ cfg.numPartsTot = 0
    · rw [if_neg h1, if_neg h1, if_pos h2, if_pos h2]
    · have h3 : ¬ timeEnd ≤ s.simulationTime := fun h => h2 (Or.inl (le_antisymm h (not_lt.mp h1)))
      rw [if_neg h1, if_neg h1, if_neg h2, if_neg h2]
      simp only
      have e : (if s.totalAdded = 0 then addDR cfg (envs s.clock) s else s).simulationTime = s.simulationTime := by
        split_ifs <;> rfl
      rw [e, loop_performs, if_neg h3]
      by_cases hdt : 0 < dt
      · simp only [if_pos hdt]
      · simp only [if_neg hdt, Option.map_none]

/-- A span of `m` steps is covered by exactly `m` equal steps. -/
theorem steps_equal (m : ℕ) (δ : ℝ) (hm : 0 < m) (hδ : 0 < δ) : steps (m * δ) δ = List.replicate m δ := by
  obtain ⟨k, rfl⟩ : ∃ k, m = k + 1 := ⟨m - 1, by omega⟩
  have e : ⌈((k + 1 : ℕ) : ℝ) * δ / δ⌉₊ = k + 1 := by
    rw [mul_div_assoc, div_self hδ.ne', mul_one, Nat.ceil_natCast]
  rw [steps, e, Nat.add_sub_cancel, List.replicate_succ']
  congr 2
  push_cast
  ring

/-- During one fluid step of size `timestep` with `m` particle sub steps, the particles do exactly `m` sub steps of
size `timestep / m`, and the projection sees their result. The particles have the time of the fluid before and after. -/
theorem fluid_step_SOL (cfg : Config) (envs : ℕ → Env) (timestep : ℝ) (m : ℕ) (s : Sys) (ht : 0 < timestep)
    (hm : 0 < m) :
    preIntegrateSOL cfg envs s.simulationTime timestep m s =
      (perform (substepSOL cfg envs (timestep / m)) (List.replicate m (timestep / m)) s).map fun s' =>
        projectSourceTerms { s' with simulationTime := s.simulationTime + timestep } := by
  have hm' : (0 : ℝ) < m := by exact_mod_cast hm
  have hδ : 0 < timestep / m := div_pos ht hm'
  unfold preIntegrateSOL partTimestep
  rw [integrateSOL_eq, if_neg (by linarith), if_neg (by linarith), if_pos hδ,
    show s.simulationTime + timestep - s.simulationTime = m * (timestep / m) by field_simp; ring, steps_equal m _ hm hδ,
    Option.map_map]
  rfl

theorem fluid_step_DR (cfg : Config) (envs : ℕ → Env) (timestep : ℝ) (m : ℕ) (s : Sys) (ht : 0 < timestep)
    (hm : 0 < m) (hN : cfg.numPartsTot ≠ 0) :
    preIntegrateDR cfg envs s.simulationTime timestep m s =
      (perform (substepDR cfg envs) (List.replicate m (timestep / m))
        (if s.totalAdded = 0 then addDR cfg (envs s.clock) s else s)).map fun s' =>
          projectSourceTerms { s' with simulationTime := s.simulationTime + timestep } := by
  have hm' : (0 : ℝ) < m := by exact_mod_cast hm
  have hδ : 0 < timestep / m := div_pos ht hm'
  unfold preIntegrateDR partTimestep
  rw [integrateDR_eq, if_neg (by linarith), if_neg (by simp only [hN, or_false]; linarith), if_pos hδ,
    show s.simulationTime + timestep - s.simulationTime = m * (timestep / m) by field_simp; ring, steps_equal m _ hm hδ,
    Option.map_map]
  rfl

/-! ### The number of particles created -/

theorem addSOL_added (cfg : Config) (env : Env) (a : ℝ) (s : Sys) :
    (addSOL cfg env a s).totalAdded = s.totalAdded + cfg.totalLines * (particlesPerLine cfg a).toNat := rfl

theorem substepSOL_added {cfg : Config} {envs : ℕ → Env} {dt d : ℝ} {s s' : Sys}
    (h : substepSOL cfg envs dt d s = some s') :
    s'.totalAdded = s.totalAdded + cfg.totalLines * (particlesPerLine cfg (d / dt)).toNat := by
  unfold substepSOL at h
  simp only at h
  split at h
  · simp at h
  · simp only [Option.some.injEq] at h
    rw [← h]
    rfl

/-- A full sub step creates on every line the quotient of the numbers of particles and of lines, rounded down. -/
theorem perLine_full (cfg : Config) : (particlesPerLine cfg 1).toNat = cfg.numPartsTot / cfg.totalLines := by
  unfold particlesPerLine truncZ
  rw [one_mul]
  have h : (0 : ℝ) ≤ (cfg.numPartsTot : ℝ) / (cfg.totalLines : ℝ) := by positivity
  rw [if_pos h, Int.floor_toNat, Nat.floor_div_eq_div]

theorem perform_added (cfg : Config) (envs : ℕ → Env) (dt : ℝ) (hdt : dt ≠ 0) (m : ℕ) (s s' : Sys)
    (h : perform (substepSOL cfg envs dt) (List.replicate m dt) s = some s') :
    s'.totalAdded = s.totalAdded + m * (cfg.totalLines * (cfg.numPartsTot / cfg.totalLines)) := by
  induction m generalizing s with
  | zero => simp only [List.replicate_zero, perform, Option.some.injEq] at h; simp [h]
  | succ m ih =>
    simp only [List.replicate_succ, perform] at h
    cases hs : substepSOL cfg envs dt dt s with
    | none => simp [hs] at h
    | some s1 =>
      rw [hs, Option.bind_some] at h
      rw [ih s1 h, substepSOL_added hs, div_self hdt, perLine_full]
      ring

/-- The number of particles the SimpleSOL system creates during a fluid step with `m` sub steps. -/
theorem fluid_step_added (cfg : Config) (envs : ℕ → Env) (timestep : ℝ) (m : ℕ) (s : Sys) (ht : 0 < timestep)
    (hm : 0 < m) (out : List Deposit × Sys)
    (h : preIntegrateSOL cfg envs s.simulationTime timestep m s = some out) :
    out.2.totalAdded = s.totalAdded + m * (cfg.totalLines * (cfg.numPartsTot / cfg.totalLines)) ∧
    out.2.simulationTime = s.simulationTime + timestep := by
  rw [fluid_step_SOL cfg envs timestep m s ht hm] at h
  have hm' : (0 : ℝ) < m := by exact_mod_cast hm
  cases hp : perform (substepSOL cfg envs (timestep / m)) (List.replicate m (timestep / m)) s with
  | none => simp [hp] at h
  | some s' =>
    rw [hp, Option.map_some, Option.some.injEq] at h
    rw [← h]
    exact ⟨perform_added cfg envs _ (div_pos ht hm').ne' m s s' hp, rfl⟩

/-- Finding: with fewer particles than lines the system never creates a particle. -/
theorem fewer_than_lines_adds_none (cfg : Config) (envs : ℕ → Env) (timestep : ℝ) (m : ℕ) (s : Sys) (ht : 0 < timestep)
    (hm : 0 < m) (hfew : cfg.numPartsTot < cfg.totalLines) (out : List Deposit × Sys)
    (h : preIntegrateSOL cfg envs s.simulationTime timestep m s = some out) :
    out.2.totalAdded = s.totalAdded := by
  rw [(fluid_step_added cfg envs timestep m s ht hm out h).1, Nat.div_eq_of_lt hfew]
  simp

/-- A run of `n` fluid steps with the fluid clock `t0 + i * timestep`. -/
noncomputable def run (pre : ℝ → Sys → Option (List Deposit × Sys)) (timestep : ℝ) :
    ℕ → ℝ → Sys → Option (List (List Deposit) × Sys)
  | 0, _, s => some ([], s)
  | n + 1, t, s => (pre t s).bind fun o => (run pre timestep n (t + timestep) o.2).map fun r => (o.1 :: r.1, r.2)

/-- Over any number of fluid steps the particles keep the time of the fluid, and the SimpleSOL system creates the same
number of particles in every one of them. -/
theorem run_SOL (cfg : Config) (envs : ℕ → Env) (timestep : ℝ) (m n : ℕ) (ht : 0 < timestep) (hm : 0 < m) (s : Sys)
    (out : List (List Deposit) × Sys)
    (h : run (fun t => preIntegrateSOL cfg envs t timestep m) timestep n s.simulationTime s = some out) :
    out.1.length = n ∧ out.2.simulationTime = s.simulationTime + n * timestep ∧
    out.2.totalAdded = s.totalAdded + n * (m * (cfg.totalLines * (cfg.numPartsTot / cfg.totalLines))) := by
  induction n generalizing s out with
  | zero =>
    simp only [run, Option.some.injEq] at h
    subst h
    simp
  | succ n ih =>
    simp only [run] at h
    cases hp : preIntegrateSOL cfg envs s.simulationTime timestep m s with
    | none => simp [hp] at h
    | some o =>
      obtain ⟨ha, hs⟩ := fluid_step_added cfg envs timestep m s ht hm o hp
      rw [hp, Option.bind_some, ← hs] at h
      cases hr : run (fun t => preIntegrateSOL cfg envs t timestep m) timestep n o.2.simulationTime o.2 with
      | none => simp [hr] at h
      | some r =>
        rw [hr, Option.map_some, Option.some.injEq] at h
        obtain ⟨i1, i2, i3⟩ := ih o.2 r hr
        subst h
        refine ⟨by simp [i1], ?_, ?_⟩
        · simp only [i2, hs]; push_cast; ring
        · simp only [i3, ha]; ring

/-! ### Concrete cases -/

/-- A span of 5/2 with steps of 1: two full steps and a half one. -/
example : steps (5 / 2) 1 = [1, 1, 1 / 2] := by
  have : ⌈(5 / 2 : ℝ) / 1⌉₊ = 3 := by
    rw [Nat.ceil_eq_iff (by norm_num)]
    norm_num
  rw [steps, this]
  norm_num [List.replicate]

/-- The loop with a body that records the steps it is given. -/
example : integrateLoop (fun d (l : List ℝ) => some (l ++ [d])) 3 1 (1 / 2) [] = some [1, 1, 1 / 2] := by
  have : ⌈(5 / 2 : ℝ) / 1⌉₊ = 3 := by
    rw [Nat.ceil_eq_iff (by norm_num)]
    norm_num
  rw [loop_performs, if_neg (by norm_num), if_pos (by norm_num), show (3 - 1 / 2 : ℝ) = 5 / 2 by norm_num, steps, this]
  norm_num [List.replicate, perform]

end Verif.Props.C63
