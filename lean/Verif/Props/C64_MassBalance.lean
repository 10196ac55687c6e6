import Verif.Props.C62_Ionisation
import Verif.Props.C63_Substeps

/-!
# C64: the mass balance of particles and fluid

The solvers report the total mass of the neutral particles and of the fluid, compared with the mass added. Here the
mass of the particles is followed over fluid steps, and the mass given to the fluid is the integral over the step of the
density source handed to the projection.
-/

namespace Verif.Props.C64
open Verif.Model Verif.Model.Ionisation Verif.Model.NeutralSystem Verif.Props.C62 Verif.Props.C63

/-- Specification: total weight of some particles. -/
def total (l : List Particle) : ℝ := (l.map (·.weight)).sum

/-- Specification: the mass (in SI units) the fluid gains in a fluid step of length `timestep` from the deposits. -/
def fluidGain (prm : Params) (timestep : ℝ) (d : List Deposit) : ℝ :=
  timestep * (prm.nToSI * (d.map (·.density)).sum)

/-- Specification: the particles which reach a wall within a step. -/
noncomputable def atWall (cfg : Config) (dt : ℝ) (l : List Particle) : List Particle :=
  if cfg.fullyPeriodic then []
  else l.filter fun p => p.pos.1 + dt * p.vel.1 < 0 ∨ p.pos.1 + dt * p.vel.1 > cfg.unrotatedXMax

/-- Specification: between the fluid steps no particle is waiting for removal, and all weights are positive. -/
def Clean (s : Sys) : Prop := ∀ p ∈ s.particles, p.id ≠ removeKey ∧ 0 < p.weight

/-! ### Motion -/

theorem mapM_moves {f : Particle → Option Particle} (hf : ∀ p p', f p = some p' → p'.pos = p.pos ∧ p'.vel = p.vel) :
    ∀ {l l' : List Particle}, l.mapM f = some l' → List.Forall₂ (fun p p' => p'.pos = p.pos ∧ p'.vel = p.vel) l l' := by
  intro l
  induction l with
  | nil => intro l' h; simp at h; subst h; exact .nil
  | cons a l ih =>
    intro l' h
    simp only [List.mapM_cons, Option.bind_eq_bind, Option.bind_eq_some_iff, Option.pure_def, Option.some.injEq] at h
    obtain ⟨b, hb, bs, hbs, rfl⟩ := h
    exact .cons (hf _ _ hb) (ih hbs)

/-- One sub step of DriftReduced moves every particle by its velocity times the sub step, wraps it, and keeps its velocity. -/
theorem dr_moves {cfg : Config} {envs : ℕ → Env} {dt : ℝ} {s s' : Sys} (h : substepDR cfg envs dt s = some s') :
    s'.clock = s.clock + 1 ∧
    List.Forall₂ (fun p p' => p'.pos = (envs s.clock).wrap (p.pos.1 + dt * p.vel.1, p.pos.2 + dt * p.vel.2) ∧ p'.vel = p.vel)
      s.particles s'.particles := by
  unfold substepDR forwardEulerDR at h
  by_cases hc : cfg.fullyPeriodic
  · simp only [hc, if_true] at h
    split at h
    · simp at h
    · rename_i l hl
      simp only [Option.some.injEq] at h
      subst h
      refine ⟨rfl, ?_⟩
      have := mapM_moves (fun p p' hp => by
        simp only [ioniseDR] at hp
        split at hp
        · simp at hp
        · simp only [Option.some.injEq] at hp; subst hp; exact ⟨rfl, rfl⟩) hl
      rw [List.map_map, List.forall₂_map_left_iff] at this
      exact this
  · simp [hc] at h

/-- One sub step of SimpleSOL: the old and the new particles which do not reach a wall move by their velocity times the sub step, are
wrapped and keep their velocity; the others are gone. -/
theorem sol_moves {cfg : Config} {envs : ℕ → Env} {dt d : ℝ} {s s' : Sys} (h : substepSOL cfg envs dt d s = some s')
    (hid : ∀ p ∈ s.particles, p.id ≠ removeKey) :
    s'.clock = s.clock + 1 ∧
    List.Forall₂ (fun p p' => p'.pos = (envs s.clock).wrap (p.pos.1 + d * p.vel.1, p.pos.2 + d * p.vel.2) ∧ p'.vel = p.vel)
      ((addSOL cfg (envs s.clock) (d / dt) s).particles.filter fun p => cfg.fullyPeriodic ∨
        (0 ≤ p.pos.1 + d * p.vel.1 ∧ p.pos.1 + d * p.vel.1 ≤ cfg.unrotatedXMax)) s'.particles := by
  unfold substepSOL at h
  simp only at h
  split at h
  · simp at h
  rename_i l hl
  simp only [Option.some.injEq] at h
  subst h
  refine ⟨rfl, ?_⟩
  have hall : ∀ p ∈ (addSOL cfg (envs s.clock) (d / dt) s).particles, p.id ≠ removeKey := by
    intro p hp
    simp only [addSOL, List.mem_append, List.mem_map] at hp
    rcases hp with hp | ⟨i, _, rfl⟩
    · exact hid p hp
    · simp only [newParticle, removeKey]; omega
  generalize (addSOL cfg (envs s.clock) (d / dt) s).particles = ps at *
  have := mapM_moves (fun p p' hp => by
    simp only [ioniseSOL] at hp
    split at hp
    · simp at hp
    · simp only [Option.some.injEq] at hp; subst hp; exact ⟨rfl, rfl⟩) hl
  have e : forwardEulerSOL cfg (envs s.clock) d ps = (ps.filter fun p => cfg.fullyPeriodic ∨
        (0 ≤ p.pos.1 + d * p.vel.1 ∧ p.pos.1 + d * p.vel.1 ≤ cfg.unrotatedXMax)).map
      fun p => { p with pos := (envs s.clock).wrap (p.pos.1 + d * p.vel.1, p.pos.2 + d * p.vel.2) } := by
    unfold forwardEulerSOL boundarySOL
    by_cases hc : cfg.fullyPeriodic
    · simp [hc, Function.comp_def, euler]
    · simp only [hc, Bool.false_eq_true, if_false, false_or]
      clear this hl
      induction ps with
      | nil => rfl
      | cons p ps ih =>
        have hp := hall p (by simp)
        have ih := ih fun q hq => hall q (by simp [hq])
        by_cases hw : 0 ≤ p.pos.1 + d * p.vel.1 ∧ p.pos.1 + d * p.vel.1 ≤ cfg.unrotatedXMax
        · have hm : markWall cfg (euler d p) = euler d p := by
            unfold markWall; rw [if_neg]; simp only [euler, zero_add]; push Not; exact hw
          simp only [List.map_cons, hm, removeMarked]
          have hp2 : decide ((euler d p).id ≠ removeKey) = true := decide_eq_true hp
          rw [List.filter_cons_of_pos (p := fun p : Particle => decide (p.id ≠ removeKey)) hp2, List.filter_cons_of_pos (by simpa using hw)]
          simp only [List.map_cons]
          congr 1
        · have hm : (markWall cfg (euler d p)).id = removeKey := by
            unfold markWall; rw [if_pos]; simp only [euler, zero_add]; by_contra hn; push Not at hn; exact hw hn
          simp only [List.map_cons, removeMarked]
          rw [List.filter_cons_of_neg (by simpa using hm), List.filter_cons_of_neg (by simpa using hw)]
          exact ih
  rw [e, List.forall₂_map_left_iff] at this
  exact this

/-! ### One ionisation of all particles -/

/-- The relation of C62 for a list of particles, with any rates and densities. -/
def AllIonised (prm : Params) (dt : ℝ) (l l' : List Particle) : Prop :=
  List.Forall₂ (fun p p' => ∃ rate nSI, 0 < rate ∧ Ionised prm rate dt nSI p p') l l'

theorem mapM_forall₂ {α β : Type*} {f : α → Option β} : ∀ {l : List α} {l' : List β}, l.mapM f = some l' →
    List.Forall₂ (fun a b => f a = some b) l l'
  | [], l', h => by simp at h; subst h; exact .nil
  | a :: l, l', h => by
    simp only [List.mapM_cons, Option.bind_eq_bind, Option.bind_eq_some_iff, Option.pure_def, Option.some.injEq] at h
    obtain ⟨b, hb, bs, hbs, rfl⟩ := h
    exact .cons hb (mapM_forall₂ hbs)

theorem ioniseAllSOL_all {cfg : Config} {env : Env} {dt : ℝ} {l l' : List Particle} (hdt : dt ≠ 0)
    (hn : cfg.prm.nToSI ≠ 0) (h : ioniseAllSOL cfg env dt l = some l') : AllIonised cfg.prm dt l l' := by
  refine (mapM_forall₂ h).imp ?_
  intro p p' hp
  obtain ⟨r, hr, hi⟩ := sol_ionised _ _ _ _ _ _ hdt hn hp
  exact ⟨r, _, rate_positive _ _ hr, hi⟩

theorem ioniseAllDR_all {cfg : Config} {env : Env} {dt : ℝ} {l l' : List Particle} (hdt : dt ≠ 0)
    (hn : cfg.prm.nToSI ≠ 0) (h : ioniseAllDR cfg env dt l = some l') : AllIonised cfg.prm dt l l' := by
  refine (mapM_forall₂ h).imp ?_
  intro p p' hp
  obtain ⟨r, hr, hi⟩ := dr_ionised _ _ _ _ _ _ hdt hn hp
  exact ⟨r, _, rate_positive _ _ hr, hi⟩

/-- The density sources of the particles. -/
def densities (l : List Particle) : ℝ := (l.map (·.sourceDensity)).sum

theorem ionised_total {prm : Params} {dt : ℝ} {l l' : List Particle} (h : AllIonised prm dt l l') :
    total l' + dt * (prm.nToSI * densities l') = total l := by
  induction h with
  | nil => simp [total, densities]
  | @cons p p' l l' hp _ ih =>
    obtain ⟨r, n, _, hi⟩ := hp
    have := hi.conserved
    simp only [total, densities, List.map_cons, List.sum_cons] at ih ⊢
    linear_combination this + ih

theorem ionised_removed {prm : Params} {dt : ℝ} {l l' : List Particle} (h : AllIonised prm dt l l')
    (hc : ∀ p ∈ l, p.id ≠ removeKey) :
    total (removeMarked l') = total l' ∧ ∀ p ∈ removeMarked l', p.id ≠ removeKey ∧ 0 < p.weight := by
  induction h with
  | nil => simp [total, removeMarked]
  | @cons p p' l l' hp _ ih =>
    obtain ⟨r, n, _, hi⟩ := hp
    obtain ⟨i1, i2⟩ := ih fun q hq => hc q (List.mem_cons_of_mem _ hq)
    have hid := hc p (List.mem_cons_self ..)
    have hmk := hi.marked
    simp only [hid, false_or] at hmk
    have hw : 0 ≤ p'.weight := by rw [hi.weight]; exact le_max_left _ _
    by_cases hm : p'.id = removeKey
    · have e : removeMarked (p' :: l') = removeMarked l' := by simp [removeMarked, hm]
      rw [e]
      refine ⟨?_, i2⟩
      rw [i1]
      simp [total, hmk.mp hm]
    · have e : removeMarked (p' :: l') = p' :: removeMarked l' := by simp [removeMarked, hm]
      rw [e]
      refine ⟨?_, ?_⟩
      · simp only [total, List.map_cons, List.sum_cons] at i1 ⊢
        rw [i1]
      · intro q hq
        rcases List.mem_cons.mp hq with rfl | hq
        · exact ⟨hm, lt_of_le_of_ne hw fun h0 => hm (hmk.mpr h0.symm)⟩
        · exact i2 q hq

/-! ### Motion and walls -/

theorem total_append (l l' : List Particle) : total (l ++ l') = total l + total l' := by simp [total]

theorem total_map_pos (f : Particle → Particle) (hf : ∀ p, (f p).weight = p.weight) (l : List Particle) :
    total (l.map f) = total l := by
  simp [total, Function.comp_def, hf]

theorem boundary_total (cfg : Config) (env : Env) (dt : ℝ) (l : List Particle) (hc : ∀ p ∈ l, p.id ≠ removeKey) :
    total (forwardEulerSOL cfg env dt l) + total (atWall cfg dt l) = total l ∧
    ∀ p ∈ forwardEulerSOL cfg env dt l, p.id ≠ removeKey := by
  unfold forwardEulerSOL boundarySOL atWall
  simp only
  by_cases hp : cfg.fullyPeriodic
  · simp only [hp, if_true]
    refine ⟨?_, ?_⟩
    · rw [total_map_pos, total_map_pos]
      · simp [total]
      all_goals intro; rfl
    · intro p h
      simp only [List.mem_map] at h
      obtain ⟨q, ⟨r, hr, rfl⟩, rfl⟩ := h
      exact hc r hr
  · simp only [hp, if_false, Bool.false_eq_true]
    refine ⟨?_, ?_⟩
    · rw [total_map_pos _ (by intro; rfl)]
      induction l with
      | nil => simp [total, removeMarked]
      | cons p l ih =>
        have ih := ih fun q hq => hc q (List.mem_cons_of_mem _ hq)
        have hid := hc p (List.mem_cons_self ..)
        by_cases hw : p.pos.1 + dt * p.vel.1 < 0 ∨ p.pos.1 + dt * p.vel.1 > cfg.unrotatedXMax
        · have e1 : removeMarked (((p :: l).map (euler dt)).map (markWall cfg)) =
              removeMarked ((l.map (euler dt)).map (markWall cfg)) := by
            simp [removeMarked, markWall, euler, hw]
          rw [e1, List.filter_cons_of_pos (by simpa using hw)]
          simp only [total, List.map_cons, List.sum_cons] at ih ⊢
          linarith
        · have e1 : removeMarked (((p :: l).map (euler dt)).map (markWall cfg)) =
              euler dt p :: removeMarked ((l.map (euler dt)).map (markWall cfg)) := by
            have : markWall cfg (euler dt p) = euler dt p := by
              simp only [markWall, zero_add]
              rw [if_neg]
              simpa [euler] using hw
            have h2 : (euler dt p).id ≠ removeKey := hid
            simp only [removeMarked, List.map_cons, this]
            rw [List.filter_cons_of_pos (by simpa using h2)]
          rw [e1, List.filter_cons_of_neg (by simpa using hw)]
          simp only [total, List.map_cons, List.sum_cons] at ih ⊢
          have : (euler dt p).weight = p.weight := rfl
          linarith
    · intro p h
      simp only [List.mem_map, removeMarked, List.mem_filter] at h
      obtain ⟨q, ⟨_, hq⟩, rfl⟩ := h
      simpa using hq

/-! ### The SimpleSOL system: one sub step per fluid step -/

/-- The particles at the beginning of the motion of a fluid step with a single sub step: the old and the new ones. -/
noncomputable def withNew (cfg : Config) (envs : ℕ → Env) (s : Sys) : List Particle :=
  (addSOL cfg (envs s.clock) 1 s).particles

theorem new_mem {cfg : Config} {env : Env} {a : ℝ} {s : Sys} (hw : 0 < cfg.particleWeight) (hc : Clean s) :
    ∀ p ∈ (addSOL cfg env a s).particles, p.id ≠ removeKey ∧ 0 < p.weight := by
  intro p hp
  simp only [addSOL, List.mem_append, List.mem_map, List.mem_range] at hp
  rcases hp with hp | ⟨i, _, rfl⟩
  · exact hc p hp
  · refine ⟨?_, hw⟩
    simp only [newParticle, removeKey]
    omega

theorem add_total (cfg : Config) (env : Env) (a : ℝ) (s : Sys) :
    total (addSOL cfg env a s).particles + addedMass cfg s = particleMass s + addedMass cfg (addSOL cfg env a s) := by
  simp only [addSOL, total_append, addedMass]
  have : total ((List.range (cfg.totalLines * (particlesPerLine cfg a).toNat)).map (newParticle cfg env)) =
      (cfg.totalLines * (particlesPerLine cfg a).toNat : ℕ) * cfg.particleWeight := by
    simp [total, Function.comp_def, newParticle]
  rw [this]
  simp only [total, particleMass]
  push_cast
  ring

/-- One fluid step with a single sub step: what the fluid gains, what the walls take and what the particles keep add up
to the old mass and the mass added; afterwards the system is clean again. -/
theorem sol_step (cfg : Config) (envs : ℕ → Env) (timestep : ℝ) (s : Sys) (out : List Deposit × Sys)
    (ht : 0 < timestep) (hn : cfg.prm.nToSI ≠ 0) (hw : 0 < cfg.particleWeight) (hc : Clean s)
    (h : preIntegrateSOL cfg envs s.simulationTime timestep 1 s = some out) :
    particleMass out.2 + fluidGain cfg.prm timestep out.1 + total (atWall cfg timestep (withNew cfg envs s)) =
      particleMass s + (addedMass cfg out.2 - addedMass cfg s) ∧
    Clean out.2 ∧ out.2.simulationTime = s.simulationTime + timestep := by
  rw [fluid_step_SOL cfg envs timestep 1 s ht one_pos] at h
  simp only [Nat.cast_one, div_one, List.replicate_one, perform] at h
  cases hs : substepSOL cfg envs timestep timestep s with
  | none => simp [hs] at h
  | some s1 =>
    rw [hs] at h
    simp only [Option.bind_some, Option.map_some, Option.some.injEq] at h
    unfold substepSOL at hs
    simp only [div_self ht.ne'] at hs
    split at hs
    · simp at hs
    rename_i l hl
    simp only [Option.some.injEq] at hs
    subst hs
    subst h
    have hall := ioniseAllSOL_all ht.ne' hn hl
    have hcl : ∀ p ∈ (addSOL cfg (envs s.clock) 1 s).particles, p.id ≠ removeKey := fun p hp => (new_mem hw hc p hp).1
    obtain ⟨b1, b2⟩ := boundary_total cfg (envs s.clock) timestep _ hcl
    have t1 := ionised_total hall
    obtain ⟨r1, r2⟩ := ionised_removed hall b2
    have a1 := add_total cfg (envs s.clock) 1 s
    refine ⟨?_, r2, rfl⟩
    simp only [projectSourceTerms, particleMass, fluidGain, withNew, List.map_map] at a1 ⊢
    have e : (List.map ((fun x : Deposit => x.density) ∘ fun p : Particle =>
        (⟨p.pos, p.sourceDensity, p.sourceMomentum, p.sourceEnergy⟩ : Deposit)) l).sum = densities l := rfl
    rw [e]
    simp only [addedMass] at a1 ⊢
    change total (removeMarked l) + _ + _ = _
    rw [r1]
    linarith

/-- The mass given to the fluid by a run. -/
def runGain (prm : Params) (timestep : ℝ) (ds : List (List Deposit)) : ℝ := (ds.map (fluidGain prm timestep)).sum

/-- Any number of fluid steps of a fully periodic SimpleSOL system with a single sub step each, from any clean state:
no mass is lost or gained, whatever the plasma fields, the source and the units. -/
theorem sol_history (cfg : Config) (envs : ℕ → Env) (timestep : ℝ) (n : ℕ) (s : Sys)
    (out : List (List Deposit) × Sys) (ht : 0 < timestep) (hn : cfg.prm.nToSI ≠ 0) (hw : 0 < cfg.particleWeight)
    (hp : cfg.fullyPeriodic = true) (hc : Clean s)
    (h : run (fun t => preIntegrateSOL cfg envs t timestep 1) timestep n s.simulationTime s = some out) :
    particleMass out.2 + runGain cfg.prm timestep out.1 = particleMass s + (addedMass cfg out.2 - addedMass cfg s) ∧
    Clean out.2 := by
  induction n generalizing s out with
  | zero =>
    simp only [run, Option.some.injEq] at h
    subst h
    simp [runGain, hc]
  | succ n ih =>
    simp only [run] at h
    cases hpre : preIntegrateSOL cfg envs s.simulationTime timestep 1 s with
    | none => simp [hpre] at h
    | some o =>
      obtain ⟨h1, h2, h3⟩ := sol_step cfg envs timestep s o ht hn hw hc hpre
      rw [hpre, Option.bind_some, ← h3] at h
      cases hr : run (fun t => preIntegrateSOL cfg envs t timestep 1) timestep n o.2.simulationTime o.2 with
      | none => simp [hr] at h
      | some r =>
        rw [hr, Option.map_some, Option.some.injEq] at h
        obtain ⟨i1, i2⟩ := ih o.2 r h2 hr
        subst h
        refine ⟨?_, i2⟩
        have : total (atWall cfg timestep (withNew cfg envs s)) = 0 := by simp [atWall, hp, total]
        simp only [runGain, List.map_cons, List.sum_cons] at i1 ⊢
        linarith

/-- The reported relative error of the mass is zero after any number of steps from the empty system. -/
theorem sol_error_zero_partial (cfg : Config) (envs : ℕ → Env) (timestep t0 m0 : ℝ) (n : ℕ)
    (out : List (List Deposit) × Sys) (ht : 0 < timestep) (hn : cfg.prm.nToSI ≠ 0) (hw : 0 < cfg.particleWeight)
    (hp : cfg.fullyPeriodic = true)
    (h : run (fun t => preIntegrateSOL cfg envs t timestep 1) timestep n t0 ⟨[], t0, 0, 0⟩ = some out) :
    relativeError cfg m0 (m0 + runGain cfg.prm timestep out.1) out.2 = 0 := by
  have := (sol_history cfg envs timestep n ⟨[], t0, 0, 0⟩ out ht hn hw hp (by intro p hp; simp at hp) h).1
  have e0 : particleMass ⟨[], t0, 0, 0⟩ = 0 := by simp [particleMass]
  have e1 : addedMass cfg ⟨[], t0, 0, 0⟩ = 0 := by simp [addedMass]
  rw [e0, e1] at this
  unfold relativeError
  simp only
  rw [show addedMass cfg out.2 + m0 - (particleMass out.2 + (m0 + runGain cfg.prm timestep out.1)) = 0 by linarith]
  simp

/-! ### The DriftReduced system -/

theorem dr_substep {cfg : Config} {envs : ℕ → Env} {dt : ℝ} {s s' : Sys} (hdt : dt ≠ 0) (hn : cfg.prm.nToSI ≠ 0)
    (h : substepDR cfg envs dt s = some s') :
    ∃ l, total l = particleMass s ∧ (l.map (·.id)) = s.particles.map (·.id) ∧
      AllIonised cfg.prm dt l s'.particles ∧ s'.totalAdded = s.totalAdded ∧ s'.clock = s.clock + 1 := by
  unfold substepDR forwardEulerDR at h
  simp only at h
  split_ifs at h with hp
  · split at h
    · simp at h
    rename_i l hl
    simp only [Option.some.injEq] at hl
    split at h
    · simp at h
    rename_i l2 hl2
    simp only [Option.some.injEq] at h
    subst h
    refine ⟨l, ?_, ?_, ioniseAllDR_all hdt hn hl2, rfl, rfl⟩
    · rw [← hl, total_map_pos, total_map_pos]
      · rfl
      all_goals intro; rfl
    · rw [← hl]
      simp [Function.comp_def, euler]

theorem addDR_total (cfg : Config) (env : Env) (s : Sys) :
    particleMass (addDR cfg env s) = particleMass s + (addedMass cfg (addDR cfg env s) - addedMass cfg s) := by
  simp only [addDR, particleMass, addedMass, List.map_append, List.sum_append, List.map_map]
  have : (List.map ((fun x : Particle => x.weight) ∘ fun i =>
      { newParticle cfg env i with id := ((i + s.totalAdded : ℕ) : ℤ), pos := env.wrap (env.point i) })
      (List.range cfg.numPartsTot)).sum = (cfg.numPartsTot : ℝ) * cfg.particleWeight := by
    simp [Function.comp_def, newParticle]
  rw [this]
  push_cast
  ring

theorem addDR_clean {cfg : Config} {env : Env} {s : Sys} (hw : 0 < cfg.particleWeight) (hc : Clean s) :
    Clean (addDR cfg env s) := by
  intro p hp
  simp only [addDR, List.mem_append, List.mem_map, List.mem_range] at hp
  rcases hp with hp | ⟨i, _, rfl⟩
  · exact hc p hp
  · exact ⟨by simp only [removeKey]; omega, hw⟩

/-- One fluid step of the DriftReduced system with a single sub step. -/
theorem dr_step (cfg : Config) (envs : ℕ → Env) (timestep : ℝ) (s : Sys) (out : List Deposit × Sys)
    (ht : 0 < timestep) (hn : cfg.prm.nToSI ≠ 0) (hw : 0 < cfg.particleWeight) (hN : cfg.numPartsTot ≠ 0) (hc : Clean s)
    (h : preIntegrateDR cfg envs s.simulationTime timestep 1 s = some out) :
    particleMass out.2 + fluidGain cfg.prm timestep out.1 =
      particleMass s + (addedMass cfg out.2 - addedMass cfg s) ∧
    Clean out.2 ∧ out.2.simulationTime = s.simulationTime + timestep ∧
    out.2.totalAdded = if s.totalAdded = 0 then cfg.numPartsTot else s.totalAdded := by
  rw [fluid_step_DR cfg envs timestep 1 s ht one_pos hN] at h
  simp only [Nat.cast_one, div_one, List.replicate_one, perform] at h
  set s0 := if s.totalAdded = 0 then addDR cfg (envs s.clock) s else s with hs0
  have c0 : Clean s0 := by rw [hs0]; split_ifs; exacts [addDR_clean hw hc, hc]
  have m0 : particleMass s0 = particleMass s + (addedMass cfg s0 - addedMass cfg s) := by
    rw [hs0]; split_ifs; exacts [addDR_total _ _ _, by ring]
  have n0 : s0.totalAdded = if s.totalAdded = 0 then cfg.numPartsTot else s.totalAdded := by
    rw [hs0]
    split_ifs with h0
    · simp [addDR, h0]
    · rfl
  cases hs : substepDR cfg envs timestep s0 with
  | none => simp [hs] at h
  | some s1 =>
    rw [hs] at h
    simp only [Option.bind_some, Option.map_some, Option.some.injEq] at h
    obtain ⟨l, l1, l2, l3, l4, _⟩ := dr_substep ht.ne' hn hs
    subst h
    have hid : ∀ p ∈ l, p.id ≠ removeKey := by
      intro p hp
      have : p.id ∈ s0.particles.map (·.id) := by rw [← l2]; exact List.mem_map_of_mem hp
      obtain ⟨q, hq, hqe⟩ := List.mem_map.mp this
      rw [← hqe]
      exact (c0 q hq).1
    have t1 := ionised_total l3
    obtain ⟨r1, r2⟩ := ionised_removed l3 hid
    refine ⟨?_, r2, rfl, by simp only [projectSourceTerms]; rw [l4, n0]⟩
    simp only [projectSourceTerms, fluidGain, List.map_map]
    have e : (List.map ((fun x : Deposit => x.density) ∘ fun p : Particle =>
        (⟨p.pos, p.sourceDensity, p.sourceMomentum, p.sourceEnergy⟩ : Deposit)) s1.particles).sum =
        densities s1.particles := rfl
    rw [e]
    have a1 : addedMass cfg s1 = addedMass cfg s0 := by simp [addedMass, l4]
    change total (removeMarked s1.particles) + _ = _
    rw [r1]
    change _ = particleMass s + (addedMass cfg s1 - addedMass cfg s)
    rw [a1]
    linarith

/-- Any number of fluid steps of the DriftReduced system with a single sub step each. -/
theorem dr_history (cfg : Config) (envs : ℕ → Env) (timestep : ℝ) (n : ℕ) (s : Sys)
    (out : List (List Deposit) × Sys) (ht : 0 < timestep) (hn : cfg.prm.nToSI ≠ 0) (hw : 0 < cfg.particleWeight)
    (hN : cfg.numPartsTot ≠ 0) (hc : Clean s)
    (h : run (fun t => preIntegrateDR cfg envs t timestep 1) timestep n s.simulationTime s = some out) :
    particleMass out.2 + runGain cfg.prm timestep out.1 = particleMass s + (addedMass cfg out.2 - addedMass cfg s) ∧
    Clean out.2 ∧
    (n ≠ 0 → out.2.totalAdded = if s.totalAdded = 0 then cfg.numPartsTot else s.totalAdded) := by
  induction n generalizing s out with
  | zero =>
    simp only [run, Option.some.injEq] at h
    subst h
    simp [runGain, hc]
  | succ n ih =>
    simp only [run] at h
    cases hpre : preIntegrateDR cfg envs s.simulationTime timestep 1 s with
    | none => simp [hpre] at h
    | some o =>
      obtain ⟨h1, h2, h3, h4⟩ := dr_step cfg envs timestep s o ht hn hw hN hc hpre
      rw [hpre, Option.bind_some, ← h3] at h
      cases hr : run (fun t => preIntegrateDR cfg envs t timestep 1) timestep n o.2.simulationTime o.2 with
      | none => simp [hr] at h
      | some r =>
        rw [hr, Option.map_some, Option.some.injEq] at h
        obtain ⟨i1, i2, i3⟩ := ih o.2 r h2 hr
        subst h
        refine ⟨?_, i2, ?_⟩
        · simp only [runGain, List.map_cons, List.sum_cons] at i1 ⊢
          linarith
        · intro _
          simp only
          have h4' : o.2.totalAdded ≠ 0 := by
            rw [h4]; split_ifs with h0
            · exact hN
            · exact h0
          rcases Nat.eq_zero_or_pos n with rfl | hpos
          · simp only [run, Option.some.injEq] at hr
            rw [← hr]
            exact h4
          · rw [i3 hpos.ne', if_neg h4', h4]

/-- The reported relative error of the mass is zero after any number of steps from the empty system, and the particles
were added once. -/
theorem dr_error_zero_partial (cfg : Config) (envs : ℕ → Env) (timestep t0 m0 : ℝ) (n : ℕ)
    (out : List (List Deposit) × Sys) (ht : 0 < timestep) (hn : cfg.prm.nToSI ≠ 0) (hw : 0 < cfg.particleWeight)
    (hN : cfg.numPartsTot ≠ 0)
    (h : run (fun t => preIntegrateDR cfg envs t timestep 1) timestep n t0 ⟨[], t0, 0, 0⟩ = some out) :
    relativeError cfg m0 (m0 + runGain cfg.prm timestep out.1) out.2 = 0 ∧
    (n ≠ 0 → out.2.totalAdded = cfg.numPartsTot) := by
  obtain ⟨this, -, h2⟩ := dr_history cfg envs timestep n ⟨[], t0, 0, 0⟩ out ht hn hw hN (by intro p hp; simp at hp) h
  have e0 : particleMass ⟨[], t0, 0, 0⟩ = 0 := by simp [particleMass]
  have e1 : addedMass cfg ⟨[], t0, 0, 0⟩ = 0 := by simp [addedMass]
  rw [e0, e1] at this
  refine ⟨?_, by simpa using h2⟩
  unfold relativeError
  simp only
  rw [show addedMass cfg out.2 + m0 - (particleMass out.2 + (m0 + runGain cfg.prm timestep out.1)) = 0 by linarith]
  simp

/-! ### More than one sub step: only the last one reaches the fluid -/

theorem perform_replicate_succ {S : Type*} (f : ℝ → S → Option S) (d : ℝ) (k : ℕ) (s : S) :
    perform f (List.replicate (k + 1) d) s = (perform f (List.replicate k d) s).bind (f d) := by
  induction k generalizing s with
  | zero => simp [perform]
  | succ k ih =>
    rw [List.replicate_succ, perform, List.replicate_succ, perform]
    cases f d s with
    | none => simp
    | some s' => rw [Option.bind_some, ← List.replicate_succ, ih, Option.bind_some]

/-- Finding (SimpleSOL): with `m` sub steps the fluid gains `m` times what the particles lost in the last sub step, whatever
they lost in the others. -/
theorem sol_gain_is_last (cfg : Config) (envs : ℕ → Env) (timestep : ℝ) (m : ℕ) (s : Sys) (out : List Deposit × Sys)
    (ht : 0 < timestep) (hn : cfg.prm.nToSI ≠ 0)
    (h : preIntegrateSOL cfg envs s.simulationTime timestep (m + 1) s = some out) :
    let δ := timestep / (m + 1 : ℕ)
    ∃ prev last, perform (substepSOL cfg envs δ) (List.replicate m δ) s = some prev ∧
      substepSOL cfg envs δ δ prev = some last ∧
      fluidGain cfg.prm timestep out.1 = (m + 1) * (total (forwardEulerSOL cfg (envs prev.clock) δ
        (addSOL cfg (envs prev.clock) 1 prev).particles) - particleMass last) := by
  intro δ
  have hm : (0 : ℝ) < (m + 1 : ℕ) := by positivity
  have hδ : 0 < δ := div_pos ht hm
  rw [fluid_step_SOL cfg envs timestep (m + 1) s ht (by omega), perform_replicate_succ] at h
  change ((perform (substepSOL cfg envs δ) (List.replicate m δ) s).bind (substepSOL cfg envs δ δ)).map _ = _ at h
  cases hp : perform (substepSOL cfg envs δ) (List.replicate m δ) s with
  | none => simp [hp] at h
  | some prev =>
    rw [hp, Option.bind_some] at h
    cases hs : substepSOL cfg envs δ δ prev with
    | none => simp [hs] at h
    | some last =>
      rw [hs, Option.map_some, Option.some.injEq] at h
      refine ⟨prev, last, rfl, hs, ?_⟩
      unfold substepSOL at hs
      simp only [div_self hδ.ne'] at hs
      split at hs
      · simp at hs
      rename_i l hl
      simp only [Option.some.injEq] at hs
      subst hs
      subst h
      have t1 := ionised_total (ioniseAllSOL_all hδ.ne' hn hl)
      rw [← t1]
      simp only [projectSourceTerms, fluidGain, particleMass, List.map_map]
      have e : (List.map ((fun x : Deposit => x.density) ∘ fun p : Particle =>
          (⟨p.pos, p.sourceDensity, p.sourceMomentum, p.sourceEnergy⟩ : Deposit)) l).sum = densities l := rfl
      rw [e]
      have e2 : timestep = (m + 1) * δ := by
        simp only [δ]; push_cast at hm ⊢; field_simp
      rw [e2]
      simp only [total]
      ring

/-- Finding (DriftReduced): the same. -/
theorem dr_gain_is_last (cfg : Config) (envs : ℕ → Env) (timestep : ℝ) (m : ℕ) (s : Sys) (out : List Deposit × Sys)
    (ht : 0 < timestep) (hn : cfg.prm.nToSI ≠ 0) (hN : cfg.numPartsTot ≠ 0)
    (h : preIntegrateDR cfg envs s.simulationTime timestep (m + 1) s = some out) :
    let δ := timestep / (m + 1 : ℕ)
    ∃ prev last, perform (substepDR cfg envs) (List.replicate m δ)
        (if s.totalAdded = 0 then addDR cfg (envs s.clock) s else s) = some prev ∧
      substepDR cfg envs δ prev = some last ∧
      fluidGain cfg.prm timestep out.1 = (m + 1) * (particleMass prev - particleMass last) ∧
      out.2.particles = removeMarked last.particles := by
  intro δ
  have hm : (0 : ℝ) < (m + 1 : ℕ) := by positivity
  have hδ : 0 < δ := div_pos ht hm
  rw [fluid_step_DR cfg envs timestep (m + 1) s ht (by omega) hN, perform_replicate_succ] at h
  change ((perform (substepDR cfg envs) (List.replicate m δ) _).bind (substepDR cfg envs δ)).map _ = _ at h
  cases hp : perform (substepDR cfg envs) (List.replicate m δ)
      (if s.totalAdded = 0 then addDR cfg (envs s.clock) s else s) with
  | none => simp [hp] at h
  | some prev =>
    rw [hp, Option.bind_some] at h
    cases hs : substepDR cfg envs δ prev with
    | none => simp [hs] at h
    | some last =>
      rw [hs, Option.map_some, Option.some.injEq] at h
      refine ⟨prev, last, rfl, hs, ?_, by rw [← h]; rfl⟩
      obtain ⟨l, l1, l2, l3, -, -⟩ := dr_substep hδ.ne' hn hs
      subst h
      have t1 := ionised_total l3
      rw [← l1, ← t1]
      simp only [projectSourceTerms, fluidGain, particleMass, List.map_map]
      have e : (List.map ((fun x : Deposit => x.density) ∘ fun p : Particle =>
          (⟨p.pos, p.sourceDensity, p.sourceMomentum, p.sourceEnergy⟩ : Deposit)) last.particles).sum =
          densities last.particles := rfl
      rw [e]
      have e2 : timestep = (m + 1) * δ := by
        simp only [δ]; push_cast at hm ⊢; field_simp
      rw [e2]
      simp only [total]
      ring

/-- Specification: all of the plasma has the density `nSI` (as seen by the particles) at all times. -/
def Uniform (cfg : Config) (envs : ℕ → Env) (nSI : ℝ) : Prop :=
  ∀ k x, cfg.nBgSI + (envs k).fieldN x * cfg.prm.nToSI = nSI

theorem dr_uniform_substep {cfg : Config} {envs : ℕ → Env} {nSI rate δ : ℝ} (hu : Uniform cfg envs nSI)
    (hr : ionRate cfg.TeV = some rate) (hδ : δ ≠ 0) (hn : cfg.prm.nToSI ≠ 0) {a : ℝ}
    (ha : rate * nSI * (δ * cfg.prm.tToSI) = a) (ha1 : a < 1) {s s' : Sys} (hc : Clean s)
    (h : substepDR cfg envs δ s = some s') : Clean s' ∧ particleMass s' = (1 - a) * particleMass s := by
  unfold substepDR forwardEulerDR at h
  simp only at h
  split_ifs at h with hp
  split at h
  · simp at h
  rename_i l hl
  simp only [Option.some.injEq] at hl
  split at h
  · simp at h
  rename_i l2 hl2
  simp only [Option.some.injEq] at h
  subst h
  have hcl : ∀ p ∈ l, p.id ≠ removeKey ∧ 0 < p.weight := by
    intro p hp
    rw [← hl] at hp
    simp only [List.mem_map] at hp
    obtain ⟨q, ⟨r, hr, rfl⟩, rfl⟩ := hp
    exact hc r hr
  have hm : particleMass s = total l := by
    rw [← hl, total_map_pos, total_map_pos]
    · rfl
    all_goals intro; rfl
  rw [hm]
  have hf := mapM_forall₂ hl2
  clear hl2 hl hm
  change (∀ p ∈ l2, _) ∧ total l2 = _
  induction hf with
  | nil => simp [total]
  | @cons p p' l l' hpp _ ih =>
    obtain ⟨i1, i2⟩ := ih fun q hq => hcl q (List.mem_cons_of_mem _ hq)
    rw [hu] at hpp
    obtain ⟨r, hr', hi⟩ := dr_ionised _ _ _ _ _ _ hδ hn hpp
    rw [hr] at hr'
    obtain rfl := Option.some.inj hr'
    obtain ⟨q1, q2⟩ := hcl p (List.mem_cons_self ..)
    have hw : p'.weight = (1 - a) * p.weight := by
      rw [hi.weight, ha, max_eq_right]
      · ring
      · nlinarith
    have hpos : 0 < p'.weight := by rw [hw]; exact mul_pos (by linarith) q2
    refine ⟨?_, ?_⟩
    · intro q hq
      rcases List.mem_cons.mp hq with rfl | hq
      · refine ⟨fun hid => ?_, hpos⟩
        rcases hi.marked.mp hid with h1 | h1
        · exact q1 h1
        · exact hpos.ne' h1
      · exact i1 q hq
    · simp only [total, List.map_cons, List.sum_cons] at i2 ⊢
      rw [i2, hw]
      ring

theorem dr_uniform {cfg : Config} {envs : ℕ → Env} {nSI rate δ : ℝ} (hu : Uniform cfg envs nSI)
    (hr : ionRate cfg.TeV = some rate) (hδ : δ ≠ 0) (hn : cfg.prm.nToSI ≠ 0) {a : ℝ}
    (ha : rate * nSI * (δ * cfg.prm.tToSI) = a) (ha1 : a < 1) (k : ℕ) (s s' : Sys) (hc : Clean s)
    (h : perform (substepDR cfg envs) (List.replicate k δ) s = some s') :
    Clean s' ∧ particleMass s' = (1 - a) ^ k * particleMass s := by
  induction k generalizing s with
  | zero =>
    simp only [List.replicate_zero, perform, Option.some.injEq] at h
    subst h
    exact ⟨hc, by simp⟩
  | succ k ih =>
    simp only [List.replicate_succ, perform] at h
    cases hs : substepDR cfg envs δ s with
    | none => simp [hs] at h
    | some s1 =>
      obtain ⟨c1, m1⟩ := dr_uniform_substep hu hr hδ hn ha ha1 hc hs
      rw [hs, Option.bind_some] at h
      obtain ⟨c2, m2⟩ := ih s1 c1 h
      refine ⟨c2, ?_⟩
      rw [m2, m1]
      ring

theorem geometric_deficit (a : ℝ) (h0 : 0 < a) (h1 : a < 1) (k : ℕ) (hk : k ≠ 0) : (1 - a) ^ k * (1 + k * a) < 1 := by
  have hb : 1 + (k : ℝ) * a ≤ (1 + a) ^ k := one_add_mul_le_pow (by linarith) k
  have hp : 0 < (1 - a) ^ k := pow_pos (by linarith) k
  calc (1 - a) ^ k * (1 + k * a) ≤ (1 - a) ^ k * (1 + a) ^ k := mul_le_mul_of_nonneg_left hb hp.le
    _ = (1 - a ^ 2) ^ k := by rw [← mul_pow]; ring
    _ < 1 := pow_lt_one₀ (by nlinarith) (by nlinarith [sq_pos_of_pos h0]) hk

/-- Finding (DriftReduced): with two or more sub steps per fluid step in a uniform plasma, every fluid step destroys mass:
particles of total weight `M`, of which a fraction `a` is ionised per sub step, keep `(1-a)^m M` but the fluid gains only
`m a (1-a)^(m-1) M`. (With a single sub step nothing is lost, `dr_step`.) -/
theorem dr_substeps_lose_mass (cfg : Config) (envs : ℕ → Env) (timestep nSI rate a : ℝ) (m : ℕ) (s : Sys)
    (out : List Deposit × Sys) (ht : 0 < timestep) (hn : cfg.prm.nToSI ≠ 0) (hN : cfg.numPartsTot ≠ 0)
    (hu : Uniform cfg envs nSI) (hr : ionRate cfg.TeV = some rate)
    (ha : rate * nSI * (timestep / (m + 1 : ℕ) * cfg.prm.tToSI) = a) (ha0 : 0 < a) (ha1 : a < 1) (hm : m ≠ 0)
    (hc : Clean s) (hadd : s.totalAdded ≠ 0) (hM : s.particles ≠ [])
    (h : preIntegrateDR cfg envs s.simulationTime timestep (m + 1) s = some out) :
    particleMass out.2 = (1 - a) ^ (m + 1) * particleMass s ∧
    fluidGain cfg.prm timestep out.1 = (m + 1) * a * (1 - a) ^ m * particleMass s ∧
    particleMass out.2 + fluidGain cfg.prm timestep out.1 < particleMass s := by
  have hδ : timestep / (m + 1 : ℕ) ≠ 0 := by positivity
  obtain ⟨prev, last, h1, h2, h3, h4⟩ := dr_gain_is_last cfg envs timestep m s out ht hn hN h
  rw [if_neg hadd] at h1
  obtain ⟨c1, m1⟩ := dr_uniform hu hr hδ hn ha ha1 m s prev hc h1
  obtain ⟨c2, m2⟩ := dr_uniform_substep hu hr hδ hn ha ha1 c1 h2
  have e : particleMass out.2 = particleMass last := by
    unfold particleMass
    rw [h4, removeMarked, List.filter_eq_self.mpr]
    intro p hp
    simpa using (c2 p hp).1
  have hpos : 0 < particleMass s := by
    unfold particleMass
    obtain ⟨p, l, hl⟩ := List.exists_cons_of_ne_nil hM
    rw [hl, List.map_cons, List.sum_cons]
    have hp := (hc p (by rw [hl]; exact List.mem_cons_self ..)).2
    have : 0 ≤ (l.map (·.weight)).sum := by
      apply List.sum_nonneg
      intro x hx
      obtain ⟨q, hq, rfl⟩ := List.mem_map.mp hx
      exact (hc q (by rw [hl]; exact List.mem_cons_of_mem _ hq)).2.le
    linarith
  have hmass : particleMass out.2 = (1 - a) ^ (m + 1) * particleMass s := by rw [e, m2, m1]; ring
  have hgain : fluidGain cfg.prm timestep out.1 = (m + 1) * a * (1 - a) ^ m * particleMass s := by
    rw [h3, m2, m1]; ring
  refine ⟨hmass, hgain, ?_⟩
  rw [hmass, hgain]
  have := mul_lt_mul_of_pos_right (geometric_deficit a ha0 ha1 m hm) hpos
  calc (1 - a) ^ (m + 1) * particleMass s + (m + 1) * a * (1 - a) ^ m * particleMass s
      = (1 - a) ^ m * (1 + m * a) * particleMass s := by ring
    _ < particleMass s := by linarith

/-! ### Runs do not fail -/

theorem mapM_isSome {α β : Type*} (f : α → Option β) (l : List α) (h : ∀ a ∈ l, (f a).isSome) : (l.mapM f).isSome := by
  induction l with
  | nil => simp
  | cons a l ih =>
    obtain ⟨b, hb⟩ := Option.isSome_iff_exists.mp (h a (List.mem_cons_self ..))
    obtain ⟨bs, hbs⟩ := Option.isSome_iff_exists.mp (ih fun x hx => h x (List.mem_cons_of_mem _ hx))
    simp [hb, hbs]

theorem perform_isSome {S : Type*} (f : ℝ → S → Option S) (h : ∀ d s, (f d s).isSome) (l : List ℝ) (s : S) :
    (perform f l s).isSome := by
  induction l generalizing s with
  | nil => simp [perform]
  | cons d l ih =>
    obtain ⟨s', hs⟩ := Option.isSome_iff_exists.mp (h d s)
    rw [perform, hs, Option.bind_some]
    exact ih s'

/-- A run of the SimpleSOL system succeeds if the plasma is hot everywhere. -/
theorem sol_runs (cfg : Config) (envs : ℕ → Env) (timestep : ℝ) (m n : ℕ) (ht : 0 < timestep) (hm : 0 < m)
    (hT : ∀ k x, 0 < (envs k).fieldT x * cfg.TtoEV) (s : Sys) :
    ∃ out, run (fun t => preIntegrateSOL cfg envs t timestep m) timestep n s.simulationTime s = some out := by
  have hsub : ∀ dt d s, (substepSOL cfg envs dt d s).isSome := by
    intro dt d s
    unfold substepSOL
    simp only
    obtain ⟨l, hl⟩ := Option.isSome_iff_exists.mp (mapM_isSome (fun p => ioniseSOL cfg.prm d
      ((envs s.clock).fieldN p.pos * cfg.prm.nToSI) ((envs s.clock).fieldT p.pos * cfg.TtoEV) p)
      (forwardEulerSOL cfg (envs s.clock) d (addSOL cfg (envs s.clock) (d / dt) s).particles)
      (fun p _ => (finite_iff _ _ _ _ _).1.mpr (hT _ _)))
    have hl' : ioniseAllSOL cfg (envs s.clock) d (forwardEulerSOL cfg (envs s.clock) d
      (addSOL cfg (envs s.clock) (d / dt) s).particles) = some l := hl
    rw [hl']
    rfl
  induction n generalizing s with
  | zero => exact ⟨_, rfl⟩
  | succ n ih =>
    obtain ⟨s1, h1⟩ := Option.isSome_iff_exists.mp (perform_isSome (substepSOL cfg envs (timestep / m))
      (fun d s => hsub _ d s) (List.replicate m (timestep / m)) s)
    have h2 := fluid_step_SOL cfg envs timestep m s ht hm
    rw [h1, Option.map_some] at h2
    obtain ⟨r, hr⟩ := ih (projectSourceTerms { s1 with simulationTime := s.simulationTime + timestep }).2
    refine ⟨((projectSourceTerms { s1 with simulationTime := s.simulationTime + timestep }).1 :: r.1, r.2), ?_⟩
    simp only [run, h2, Option.bind_some]
    change run _ timestep n (s.simulationTime + timestep) _ = _ at hr
    rw [hr]
    rfl

/-- A run of the DriftReduced system succeeds for periodic boundaries and a positive temperature. -/
theorem dr_runs (cfg : Config) (envs : ℕ → Env) (timestep : ℝ) (m n : ℕ) (ht : 0 < timestep) (hm : 0 < m)
    (hN : cfg.numPartsTot ≠ 0) (hp : cfg.fullyPeriodic = true) (hT : 0 < cfg.TeV) (s : Sys) :
    ∃ out, run (fun t => preIntegrateDR cfg envs t timestep m) timestep n s.simulationTime s = some out := by
  have hsub : ∀ d s, (substepDR cfg envs d s).isSome := by
    intro d s
    unfold substepDR forwardEulerDR
    simp only [hp, if_true]
    obtain ⟨l, hl⟩ := Option.isSome_iff_exists.mp (mapM_isSome (fun p => ioniseDR cfg.prm cfg.TeV d
      (cfg.nBgSI + (envs s.clock).fieldN p.pos * cfg.prm.nToSI) p)
      ((s.particles.map (euler d)).map fun p => { p with pos := (envs s.clock).wrap p.pos })
      (fun p _ => (finite_iff _ _ _ _ _).2.mpr hT))
    have hl' : ioniseAllDR cfg (envs s.clock) d
      ((s.particles.map (euler d)).map fun p => { p with pos := (envs s.clock).wrap p.pos }) = some l := hl
    rw [hl']
    rfl
  induction n generalizing s with
  | zero => exact ⟨_, rfl⟩
  | succ n ih =>
    obtain ⟨s1, h1⟩ := Option.isSome_iff_exists.mp (perform_isSome (substepDR cfg envs)
      (fun d s => hsub d s) (List.replicate m (timestep / m))
      (if s.totalAdded = 0 then addDR cfg (envs s.clock) s else s))
    have h2 := fluid_step_DR cfg envs timestep m s ht hm hN
    rw [h1, Option.map_some] at h2
    obtain ⟨r, hr⟩ := ih (projectSourceTerms { s1 with simulationTime := s.simulationTime + timestep }).2
    refine ⟨((projectSourceTerms { s1 with simulationTime := s.simulationTime + timestep }).1 :: r.1, r.2), ?_⟩
    simp only [run, h2, Option.bind_some]
    change run _ timestep n (s.simulationTime + timestep) _ = _ at hr
    rw [hr]
    rfl

/-! ### Concrete cases -/

/-- A configuration with all units one, ten eV and a background density `n`. -/
noncomputable def cfg0 (n : ℝ) : Config := ⟨⟨1, 1, 0⟩, 3, 3, 2, 1, true, 1, n, 10⟩

def env0 : Env := ⟨fun _ => (0, 0), fun _ => (1, 0), fun _ => 0, id, fun _ => 0, fun _ => 10⟩

/-- The hypotheses of the histories are met: hundred steps from the empty system, with three particles a step. -/
example : ∃ out, run (fun t => preIntegrateSOL (cfg0 1) (fun _ => env0) t 1 1) 1 100 0 ⟨[], 0, 0, 0⟩ = some out ∧
    out.2.totalAdded = 300 ∧ relativeError (cfg0 1) 5 (5 + runGain (cfg0 1).prm 1 out.1) out.2 = 0 := by
  obtain ⟨out, ho⟩ := sol_runs (cfg0 1) (fun _ => env0) 1 1 100 one_pos one_pos
    (by intro k x; norm_num [env0, cfg0]) ⟨[], 0, 0, 0⟩
  refine ⟨out, ho, ?_, sol_error_zero_partial _ _ 1 0 5 100 out one_pos (by norm_num [cfg0]) (by norm_num [cfg0]) rfl ho⟩
  rw [(run_SOL (cfg0 1) _ 1 1 100 one_pos one_pos _ _ ho).2.2]
  simp [cfg0]

example : ∃ out, run (fun t => preIntegrateDR (cfg0 1) (fun _ => env0) t 1 1) 1 100 0 ⟨[], 0, 0, 0⟩ = some out ∧
    out.2.totalAdded = 3 ∧ relativeError (cfg0 1) 5 (5 + runGain (cfg0 1).prm 1 out.1) out.2 = 0 := by
  obtain ⟨out, ho⟩ := dr_runs (cfg0 1) (fun _ => env0) 1 1 100 one_pos one_pos (by norm_num [cfg0]) rfl
    (by norm_num [cfg0]) ⟨[], 0, 0, 0⟩
  obtain ⟨h1, h2⟩ := dr_error_zero_partial _ _ 1 0 5 100 out one_pos (by norm_num [cfg0]) (by norm_num [cfg0])
    (by norm_num [cfg0]) ho
  exact ⟨out, ho, h2 (by norm_num), h1⟩

/-- The hypotheses of the finding are met: with two sub steps in each of which half of a particle of weight 2 is ionised,
a quarter of it is destroyed. -/
example : ∃ n out, preIntegrateDR (cfg0 n) (fun _ => env0) 0 1 2 ⟨[⟨(0, 0), (1, 0), 0, 2, 0, (0, 0), 0⟩], 0, 3, 0⟩ =
    some out ∧ particleMass out.2 + fluidGain (cfg0 n).prm 1 out.1 = 3 / 2 := by
  have hr : ionRate 10 = some (lotzRate expintBarry 10) := by rw [rate_formula, if_pos (by norm_num)]
  have hpos := rate_positive _ _ hr
  refine ⟨1 / lotzRate expintBarry 10, ?_⟩
  set n := 1 / lotzRate expintBarry 10 with hn
  obtain ⟨out, ho⟩ := dr_runs (cfg0 n) (fun _ => env0) 1 2 1 one_pos two_pos
    (by norm_num [cfg0]) rfl (by norm_num [cfg0]) ⟨[⟨(0, 0), (1, 0), 0, 2, 0, (0, 0), 0⟩], 0, 3, 0⟩
  simp only [run] at ho
  cases hpre : preIntegrateDR (cfg0 n) (fun _ => env0) 0 1 2
      ⟨[⟨(0, 0), (1, 0), 0, 2, 0, (0, 0), 0⟩], 0, 3, 0⟩ with
  | none => rw [hpre] at ho; simp at ho
  | some o =>
    refine ⟨o, rfl, ?_⟩
    obtain ⟨h1, h2, -⟩ := dr_substeps_lose_mass (cfg0 n) (fun _ => env0) 1
      n (lotzRate expintBarry 10) (1 / 2) 1 ⟨[⟨(0, 0), (1, 0), 0, 2, 0, (0, 0), 0⟩], 0, 3, 0⟩ o one_pos
      (by norm_num [cfg0])
      (by norm_num [cfg0]) (by intro k x; simp [cfg0, env0]) hr
      (by rw [hn]; simp only [cfg0]; push_cast; field_simp) (by norm_num)
      (by norm_num) one_ne_zero
      (by intro p hp; simp only [List.mem_singleton] at hp; subst hp; norm_num [removeKey]) (by norm_num) (by simp)
      hpre
    rw [h1, h2]
    norm_num [particleMass]

end Verif.Props.C64
