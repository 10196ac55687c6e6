import Verif.Spec.MassRecorder
import Mathlib.Algebra.Order.Ring.Rat
import Mathlib.Tactic.NormNum
import Mathlib.Tactic.Ring

namespace Verif.Props.C89
open Verif.Model.MassRecorder Verif.Spec.MassRecorder

variable {K : Type} [Field K] [LinearOrder K]

theorem particleMass_eq (e : Env K) : particleMass e = massOfParticles e := by
  unfold particleMass massOfParticles
  rw [List.sum_flatten]

theorem addedMass_eq (v : Variant) (e : Env K) (total : ℕ) (h : CountsTotal v e total) : addedMass v 0 e = (total : K) * e.initWeight := by
  cases v with
  | dr =>
    obtain ⟨h1, h2⟩ := h
    obtain ⟨a, l, ha⟩ := List.exists_cons_of_ne_nil h1
    have : a = total := h2 a (by simp [ha])
    simp [addedMass, ha, this]
  | sol =>
    have h' : e.added.sum = total := h
    simp [addedMass, h']

/-- The lines that are added by the steps of a history from the given step on. -/
def linesFrom (p : ℤ) (initial : K) (total : ℕ → ℕ) (hist : List (Env K × Env K)) (first : ℕ) : List (Line K) :=
  ((hist.zipIdx first).filter fun x => p ∣ (x.2 : ℤ)).map fun x => lineOf initial ((total x.2 : K) * x.1.2.initWeight) x.2 x.1.2

theorem compute_line (r : Rec K) (hp : 0 < r.step) (hr : r.rank = 0) (l : List (Line K)) (hf : r.file = some l) (k : ℕ) (e : Env K) (total : ℕ)
    (ht : CountsTotal r.variant e total) :
    (r.compute k e).file = some (l ++ if r.step ∣ (k : ℤ) then [lineOf r.initial ((total : K) * e.initWeight) k e] else []) ∧
      (r.compute k e).variant = r.variant ∧ (r.compute k e).step = r.step ∧ (r.compute k e).rank = 0 ∧ (r.compute k e).initial = r.initial ∧
      (r.compute k e).computed = r.computed := by
  unfold Rec.compute
  rw [if_pos hp]
  by_cases hd : r.step ∣ (k : ℤ)
  · rw [if_pos (Int.tmod_eq_zero_of_dvd hd), if_pos hd]
    have ha := addedMass_eq r.variant e total ht
    simp [hf, hr, ha, particleMass_eq, lineOf, fluidMass, massOfFluid]
  · rw [if_neg (fun h => hd (Int.dvd_of_tmod_eq_zero h)), if_neg hd]
    simp [hf, hr]

theorem run_lines (total : ℕ → ℕ) (hist : List (Env K × Env K)) : ∀ (s : Sys K) (r : Rec K) (first : ℕ) (l : List (Line K)), s.enabled = true → s.recorder = some r → r.computed = true →
    0 < r.step → r.rank = 0 → r.file = some l → (∀ x ∈ hist.zipIdx first, CountsTotal r.variant x.1.2 (total x.2)) →
    ∃ r', (run s first hist).recorder = some r' ∧ r'.file = some (l ++ linesFrom r.step r.initial total hist first) ∧ r'.getInitial = some r.initial := by
  induction hist with
  | nil =>
    intro s r first l _ hs hc _ _ hf _
    exact ⟨r, hs, by simp [hf, linesFrom], by simp [Rec.getInitial, hc]⟩
  | cons x hist ih =>
    intro s r first l he hs hc hp hr hf ht
    rw [run]
    have hpre : r.computeInitial x.1 = r := by simp [Rec.computeInitial, hc]
    obtain ⟨h1, h2, h3, h4, h5, h6⟩ := compute_line r hp hr l hf first x.2 (total first) (ht (x, first) (by simp))
    obtain ⟨r', g1, g2, g3⟩ := ih ((s.pre x.1).post first x.2) (r.compute first x.2) (first + 1) _ (by simp [Sys.pre, Sys.post, he]) (by simp [Sys.pre, Sys.post, he, hs, hpre])
      (h6.trans hc) (h3 ▸ hp) h4 h1 (fun y hy => by rw [h2]; exact ht y (by simp [List.zipIdx_cons, hy]))
    refine ⟨r', g1, ?_, by rw [g3, h5]⟩
    rw [g2, h3, h5, List.append_assoc]
    congr 2
    unfold linesFrom
    rw [List.zipIdx_cons, List.filter_cons]
    by_cases hd : r.step ∣ (first : ℤ) <;> simp [hd]

/-- **C89.** For all histories of a simulation with particles and a positive recording step: the file of rank 0 has exactly one line for each step that is a multiple of it, in order, with the masses of
all particles of all ranks and of the fluid after that step, and the error with respect to the mass that was added up to then and the mass of the fluid before the first step. -/
theorem recorded_lines (v : Variant) (p : ℤ) (hp : 0 < p) (junk : K) (x : Env K × Env K) (hist : List (Env K × Env K)) (total : ℕ → ℕ)
    (ht : ∀ y ∈ (x :: hist).zipIdx, CountsTotal v y.1.2 (total y.2)) :
    ∃ s r, initObject v true (some p) 0 junk = some s ∧ (run s 0 (x :: hist)).recorder = some r ∧
      r.file = some (((x :: hist).zipIdx.filter fun y => p ∣ (y.2 : ℤ)).map fun y => lineOf (massOfFluid x.1) ((total y.2 : K) * y.1.2.initWeight) y.2 y.1.2) ∧
      r.getInitial = some (massOfFluid x.1) := by
  have hc : create v true (some p) 0 junk = some ⟨v, false, junk, p, 0, some [], []⟩ := by simp [create, hp]
  have hi : initObject v true (some p) 0 junk = some ⟨true, some ⟨v, false, junk, p, 0, some [], []⟩⟩ := by cases v <;> simp [initObject, hc]
  have key := run_lines total (x :: hist) ⟨true, some ⟨v, true, massOfFluid x.1, p, 0, some [], [.integral]⟩⟩ ⟨v, true, massOfFluid x.1, p, 0, some [], [.integral]⟩ 0 [] rfl rfl rfl hp rfl rfl ht
  obtain ⟨r', g1, g2, g3⟩ := key
  refine ⟨_, r', hi, ?_, by simpa [linesFrom] using g2, g3⟩
  rw [← g1, run, run]
  congr 2
  simp [Sys.pre, Rec.computeInitial, hp, fluidMass, massOfFluid]

/-- **C89, conservation.** If the mass that should be there is not zero then a line shows the error zero exactly if the mass is conserved. -/
theorem error_zero_iff [IsStrictOrderedRing K] (initial added : K) (k : ℕ) (e : Env K) (h : added + initial ≠ 0) :
    (lineOf initial added k e).relativeError = 0 ↔ massOfParticles e + massOfFluid e = added + initial := by
  simp only [lineOf, div_eq_zero_iff, abs_eq_zero, h, or_false, sub_eq_zero]
  exact eq_comm

/-- **C89, other ranks.** Only rank 0 has a file. -/
theorem other_ranks (v : Variant) (param : Option ℤ) (rank : ℕ) (hr : rank ≠ 0) (junk : K) (s : Sys K) (h : initObject v true param rank junk = some s) (hist : List (Env K × Env K)) (r : Rec K)
    (hrun : (run s 0 hist).recorder = some r) : r.file = none := by
  have inv : ∀ (hist : List (Env K × Env K)) (s : Sys K) (first : ℕ), (∀ r, s.recorder = some r → r.file = none) → ∀ r, (run s first hist).recorder = some r → r.file = none := by
    intro hist
    induction hist with
    | nil => intro s _ h; exact h
    | cons x hist ih =>
      intro s first h
      refine ih _ _ ?_
      intro r hr
      cases hs : s.recorder with
      | none =>
        by_cases he : s.enabled <;> simp [Sys.pre, Sys.post, he, hs] at hr
      | some r0 =>
        have h0 := h r0 hs
        by_cases he : s.enabled
        · simp [Sys.pre, Sys.post, he, hs] at hr
          subst hr
          have hi : (r0.computeInitial x.1).file = none := by unfold Rec.computeInitial; split_ifs <;> exact h0
          unfold Rec.compute
          split_ifs <;> simp [hi]
        · simp [Sys.pre, Sys.post, he, hs] at hr
          subst hr
          exact h0
  refine inv hist s 0 ?_ r hrun
  intro r0 h0
  cases v with
  | dr =>
    cases param with
    | none => simp [initObject] at h; subst h; simp at h0
    | some p => simp [initObject, create, hr] at h; subst h; simp at h0; subst h0; rfl
  | sol => simp [initObject, create, hr] at h; subst h; simp at h0; subst h0; rfl

/-- **C89, no deadlock.** The sequence of the collective operations does not depend on the rank (nor on the values). -/
theorem same_collectives (v : Variant) (param : Option ℤ) (rank rank' : ℕ) (junk junk' : K) (s s' : Sys K) (h : initObject v true param rank junk = some s)
    (h' : initObject v true param rank' junk' = some s') (hist hist' : List (Env K × Env K)) (hl : hist.length = hist'.length) :
    ((run s 0 hist).recorder.map (·.trace)) = ((run s' 0 hist').recorder.map (·.trace)) := by
  have inv : ∀ (hist hist' : List (Env K × Env K)) (s s' : Sys K) (first : ℕ), hist.length = hist'.length → s.enabled = s'.enabled →
      s.recorder.map (fun r => (r.variant, r.computed, r.step, r.trace)) = s'.recorder.map (fun r => (r.variant, r.computed, r.step, r.trace)) →
      ((run s first hist).recorder.map (·.trace)) = ((run s' first hist').recorder.map (·.trace)) := by
    intro hist
    induction hist with
    | nil =>
      intro hist' s s' first hl _ hm
      cases hist' with
      | nil =>
        have := congrArg (Option.map fun t => t.2.2.2) hm
        simpa [run, Option.map_map, Function.comp_def] using this
      | cons _ _ => simp at hl
    | cons x hist ih =>
      intro hist' s s' first hl he hm
      cases hist' with
      | nil => simp at hl
      | cons x' hist' =>
        refine ih hist' _ _ (first + 1) (by simpa using hl) ?_ ?_
        · have hen : ∀ (s : Sys K) (k : ℤ) (e e' : Env K), ((s.pre e).post k e').enabled = s.enabled := by
            intro s k e e'
            by_cases h : s.enabled = true <;> simp [Sys.pre, Sys.post, h]
          rw [hen, hen, he]
        · cases h : s.enabled
          · simp [Sys.pre, Sys.post, ← he, h, hm]
          · cases hr : s.recorder with
            | none =>
              cases hr' : s'.recorder with
              | none => simp [Sys.pre, Sys.post, ← he, h, hr, hr']
              | some r' => simp [hr, hr'] at hm
            | some r =>
              cases hr' : s'.recorder with
              | none => simp [hr, hr'] at hm
              | some r' =>
                simp [hr, hr'] at hm
                obtain ⟨m1, m2, m3, m4⟩ := hm
                simp only [Sys.pre, Sys.post, ← he, h, hr, hr', if_true, Option.map_some]
                have hpre : ((r.computeInitial x.1).variant, (r.computeInitial x.1).computed, (r.computeInitial x.1).step, (r.computeInitial x.1).trace) =
                    ((r'.computeInitial x'.1).variant, (r'.computeInitial x'.1).computed, (r'.computeInitial x'.1).step, (r'.computeInitial x'.1).trace) := by
                  unfold Rec.computeInitial
                  rw [m1, m2, m3]
                  split_ifs <;> simp [m1, m2, m3, m4]
                generalize r.computeInitial x.1 = q at hpre
                generalize r'.computeInitial x'.1 = q' at hpre
                simp only [Prod.mk.injEq] at hpre
                obtain ⟨m1, m2, m3, m4⟩ := hpre
                unfold Rec.compute
                rw [m3]
                split_ifs <;> simp [m1, m2, m3, m4]
  refine inv hist hist' s s' 0 hl ?_ ?_
  · cases v <;> cases param <;> simp [initObject, create] at h h' <;> subst h h' <;> rfl
  · cases v <;> cases param <;> simp [initObject, create] at h h' <;> subst h h' <;> rfl

/-- **C89, disabled.** Without the parameter, or if it is not positive, nothing is written. -/
theorem disabled (v : Variant) (param : Option ℤ) (hp : ∀ p, param = some p → p ≤ 0) (rank : ℕ) (junk : K) :
    ∃ s, initObject v true param rank junk = some s ∧ ∀ hist r, (run s 0 hist).recorder = some r → r.file = none := by
  have inv : ∀ (hist : List (Env K × Env K)) (s : Sys K) (first : ℕ), (∀ r, s.recorder = some r → r.file = none ∧ r.step ≤ 0) → ∀ r, (run s first hist).recorder = some r → r.file = none := by
    intro hist
    induction hist with
    | nil => intro s _ h r hr; exact (h r hr).1
    | cons x hist ih =>
      intro s first h
      refine ih _ _ ?_
      intro r hr
      cases hs : s.recorder with
      | none =>
        by_cases he : s.enabled <;> simp [Sys.pre, Sys.post, he, hs] at hr
      | some r0 =>
        obtain ⟨h0, h1⟩ := h r0 hs
        by_cases he : s.enabled
        · simp [Sys.pre, Sys.post, he, hs] at hr
          subst hr
          have hi : (r0.computeInitial x.1).file = none ∧ (r0.computeInitial x.1).step ≤ 0 := by unfold Rec.computeInitial; split_ifs <;> exact ⟨h0, h1⟩
          unfold Rec.compute
          rw [if_neg (by omega)]
          exact hi
        · simp [Sys.pre, Sys.post, he, hs] at hr
          subst hr
          exact ⟨h0, h1⟩
  have hpos : ¬ (param.getD 0 > 0) := by
    cases param with
    | none => simp
    | some p => simpa using hp p rfl
  cases v with
  | dr =>
    cases param with
    | none => exact ⟨_, rfl, fun hist r hr => inv hist ⟨false, none⟩ 0 (by simp) r hr⟩
    | some p =>
      refine ⟨⟨true, some ⟨.dr, false, junk, p, rank, none, []⟩⟩, by simp [initObject, create, hp p rfl], fun hist r hr => inv hist _ 0 ?_ r hr⟩
      intro r0 h0
      simp at h0
      subst h0
      exact ⟨rfl, hp p rfl⟩
  | sol =>
    refine ⟨⟨param.isSome, some ⟨.sol, false, junk, param.getD 0, rank, none, []⟩⟩, by simp [initObject, create, hpos], fun hist r hr => inv hist _ 0 ?_ r hr⟩
    intro r0 h0
    simp at h0
    subst h0
    exact ⟨rfl, by simpa using hpos⟩

/-- **C89, the initial mass.** It is taken once: later calls do not change it, and reading it before is an error. -/
theorem initial_once (r : Rec K) (hp : 0 < r.step) (e e' : Env K) (h : r.computed = false) :
    r.getInitial = none ∧ (r.computeInitial e).getInitial = some (massOfFluid e) ∧ (r.computeInitial e).computeInitial e' = r.computeInitial e := by
  simp [Rec.getInitial, Rec.computeInitial, h, hp, fluidMass, massOfFluid]

/-- **C89, finding.** If recording is switched off by a parameter that is not positive then the recorder of DriftReduced does not know the initial mass although it was asked to compute it; that of
SimpleSOL does. -/
theorem initial_of_disabled (step : ℤ) (hs : step ≤ 0) (junk : K) (e : Env K) (rank : ℕ) (r : Rec K) :
    (create .dr true (some step) rank junk = some r → (r.computeInitial e).getInitial = none) ∧
    (create .sol true (some step) rank junk = some r → (r.computeInitial e).getInitial = some (massOfFluid e)) := by
  constructor <;> intro h <;> simp [create] at h <;> subst h <;> simp [Rec.computeInitial, Rec.getInitial, fluidMass, massOfFluid, not_lt.2 hs]

/-- Full statement: mass recording can be used in every simulation. -/
def WorksWithoutParticles (K : Type) [Field K] [LinearOrder K] : Prop :=
  ∀ (p : ℤ) (rank : ℕ) (junk : K), (initObject .dr false (some p) rank junk).isSome

/-- **C89, finding.** In a DriftReduced simulation without particles that defines `mass_recording_step` (also with the value 0 that is documented to disable it) a null pointer is dereferenced. -/
theorem works_without_particles_fails : ¬ WorksWithoutParticles ℚ := fun h => by simpa [initObject, create] using h 0 0 0

/-- Full statement: a line does not depend on an uninitialised member. -/
def LinesDetermined (K : Type) [Field K] [LinearOrder K] : Prop :=
  ∀ (v : Variant) (p : ℤ) (junk junk' : K) (e : Env K) (r r' : Rec K), create v true (some p) 0 junk = some r → create v true (some p) 0 junk' = some r' →
    (r.compute 0 e).file = (r'.compute 0 e).file

/-- **C89, finding.** `compute` does not test whether the initial mass was computed. -/
theorem lines_determined_fails : ¬ LinesDetermined ℚ := by
  intro h
  have := h .dr 1 1 2 ⟨1, 1, [], [], 0⟩ _ _ rfl rfl
  norm_num [Rec.compute, fluidMass, particleMass, addedMass] at this

section Example
/-- Two ranks, three steps, every second one is recorded; one particle of weight 2 loses half of its mass to the fluid in each step. -/
def env (w f : ℚ) : Env ℚ := ⟨f, 2, [[w], [1]], [2, 2], 3⟩

example : ((initObject .dr true (some 2) 0 99).bind fun s => (run s 0 [(env 5 1, env 4 (3/2)), (env 4 (3/2), env 3 2), (env 3 2, env 2 (5/2))]).recorder.bind (·.file)).map
    (fun l => l.map fun x => (x.step, x.relativeError, x.massParticles, x.massFluid)) = some [(0, 0, 5, 3), (2, 0, 3, 5)] := by
  have t : ¬ (Int.tmod 1 2 = 0) := by decide
  norm_num [t, initObject, create, run, Sys.pre, Sys.post, Rec.computeInitial, Rec.compute, env, fluidMass, particleMass, addedMass]

example : CountsTotal .dr (env 5 1) 2 := by simp [CountsTotal, env]
end Example

end Verif.Props.C89
