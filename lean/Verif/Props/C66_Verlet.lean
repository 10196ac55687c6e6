import Verif.Model.Electrostatic
import Verif.Props.C27_Periodic
import Mathlib.Tactic.Linarith
import Mathlib.Tactic.Ring
import Mathlib.Tactic.FieldSimp

/-!
# C66: the velocity Verlet integrator of the electrostatic solver

For every field that is a function of the positions and charges (C65) and any number of particles and steps.
-/

namespace Verif.Props.C66
open Verif.Model Verif.Model.Electrostatic Verif.Props.C27

variable {ι : Type*}

/-- Specification: the stored gradient is that of the current positions. -/
def Consistent (field : (ι → (ℝ × ℝ) × ℝ) → ι → ℝ × ℝ) (ps : ι → Particle) : Prop := ∀ i, (ps i).e = field (seen ps) i

/-- Specification: all particles are in the periodic domain. -/
def InBox (prm : Params) (ps : ι → Particle) : Prop :=
  ∀ i, InDomain prm.origin.1 prm.extent.1 (ps i).pos.1 ∧ InDomain prm.origin.2 prm.extent.2 (ps i).pos.2

/-- Specification: reverse the velocities in the plane. -/
def flip (ps : ι → Particle) : ι → Particle := fun i => { ps i with v0 := -(ps i).v0, v1 := -(ps i).v1 }

/-- What one step does to one particle, with `e'` the gradient at the new positions. -/
theorem step_eq (prm : Params) (field : (ι → (ℝ × ℝ) × ℝ) → ι → ℝ × ℝ) (ps : ι → Particle) (i : ι) :
    let h := prm.eCoefficient * prm.dt * (ps i).q / (2 * (ps i).m)
    let p := ps i
    let p' := step prm field ps i
    p'.pos = periodic prm (p.pos.1 + prm.dt * (p.v0 - h * p.e.1), p.pos.2 + prm.dt * (p.v1 - h * p.e.2)) ∧
    p'.v0 = p.v0 - h * (p.e.1 + p'.e.1) ∧ p'.v1 = p.v1 - h * (p.e.2 + p'.e.2) ∧ p'.v2 = p.v2 ∧
    p'.q = p.q ∧ p'.m = p.m ∧ p'.e = field (seen (step prm field ps)) i := by
  have hk : halfKick prm (ps i) = prm.eCoefficient * prm.dt * (ps i).q / (2 * (ps i).m) := by
    unfold halfKick
    rw [mul_comm 2 (ps i).m, ← div_div]
    ring
  refine ⟨?_, ?_, ?_, rfl, rfl, rfl, rfl⟩
  · simp only [step, verlet1, verlet2, hk]
    congr 2 <;> ring
  · simp only [step, verlet1, verlet2]
    have : halfKick prm { ps i with
        v0 := (ps i).v0 - (ps i).e.1 * halfKick prm (ps i), v1 := (ps i).v1 - (ps i).e.2 * halfKick prm (ps i),
        pos := periodic prm ((ps i).pos.1 + prm.dt * ((ps i).v0 - (ps i).e.1 * halfKick prm (ps i)),
          (ps i).pos.2 + prm.dt * ((ps i).v1 - (ps i).e.2 * halfKick prm (ps i))),
        e := field (seen fun i => verlet1 prm (ps i)) i } = halfKick prm (ps i) := rfl
    simp only [verlet1] at this ⊢
    rw [this, hk]
    ring
  · simp only [step, verlet1, verlet2]
    have : halfKick prm { ps i with
        v0 := (ps i).v0 - (ps i).e.1 * halfKick prm (ps i), v1 := (ps i).v1 - (ps i).e.2 * halfKick prm (ps i),
        pos := periodic prm ((ps i).pos.1 + prm.dt * ((ps i).v0 - (ps i).e.1 * halfKick prm (ps i)),
          (ps i).pos.2 + prm.dt * ((ps i).v1 - (ps i).e.2 * halfKick prm (ps i))),
        e := field (seen fun i => verlet1 prm (ps i)) i } = halfKick prm (ps i) := rfl
    simp only [verlet1] at this ⊢
    rw [this, hk]
    ring

theorem step_consistent (prm : Params) (field : (ι → (ℝ × ℝ) × ℝ) → ι → ℝ × ℝ) (ps : ι → Particle) :
    Consistent field (step prm field ps) := fun i => (step_eq prm field ps i).2.2.2.2.2.2

theorem step_inBox (prm : Params) (field : (ι → (ℝ × ℝ) × ℝ) → ι → ℝ × ℝ) (ps : ι → Particle)
    (h1 : 1 ≤ prm.extent.1) (h2 : 1 ≤ prm.extent.2) : InBox prm (step prm field ps) := by
  intro i
  rw [(step_eq prm field ps i).1]
  exact ⟨wrap_in_domain_partial (by linarith) _ (Or.inl h1), wrap_in_domain_partial (by linarith) _ (Or.inl h2)⟩

/-- Moving forth and back by the same displacement returns to the same point of the periodic domain. -/
theorem wrap_back {origin extent p d : ℝ} (he : 1 ≤ extent) (hp : InDomain origin extent p) :
    Periodic.wrap origin extent (Periodic.wrap origin extent (p + d) - d) = p := by
  have h0 : 0 < extent := by linarith
  have hin : InDomain origin extent (Periodic.wrap origin extent (Periodic.wrap origin extent (p + d) - d)) :=
    wrap_in_domain_partial h0 _ (Or.inl he)
  obtain ⟨a, ha⟩ := wrap_same_modulo origin extent (p + d)
  obtain ⟨b, hb⟩ := wrap_same_modulo origin extent (Periodic.wrap origin extent (p + d) - d)
  refine in_domain_unique h0 hp hin ⟨a + b, ?_⟩
  push_cast
  linarith

/-- Running a step backwards: reverse the velocities, do a step, reverse the velocities. -/
theorem step_reversible (prm : Params) (field : (ι → (ℝ × ℝ) × ℝ) → ι → ℝ × ℝ) (ps : ι → Particle)
    (h1 : 1 ≤ prm.extent.1) (h2 : 1 ≤ prm.extent.2) (hc : Consistent field ps) (hb : InBox prm ps) :
    flip (step prm field (flip (step prm field ps))) = ps := by
  have hpos : ∀ i, (step prm field (flip (step prm field ps)) i).pos = (ps i).pos := by
    intro i
    obtain ⟨f1, f2, f3, f4, f5, f6, f7⟩ := step_eq prm field ps i
    obtain ⟨g1, -⟩ := step_eq prm field (flip (step prm field ps)) i
    rw [g1]
    simp only [flip, f1, f2, f3, f5, f6, periodic]
    apply Prod.ext
    · simp only
      have := wrap_back (d := prm.dt * ((ps i).v0 - prm.eCoefficient * prm.dt * (ps i).q / (2 * (ps i).m) * (ps i).e.1)) h1 (hb i).1
      rw [← this]
      congr 1
      rw [this]
      ring
    · simp only
      have := wrap_back (d := prm.dt * ((ps i).v1 - prm.eCoefficient * prm.dt * (ps i).q / (2 * (ps i).m) * (ps i).e.2)) h2 (hb i).2
      rw [← this]
      congr 1
      rw [this]
      ring
  have hseen : seen (step prm field (flip (step prm field ps))) = seen ps := by
    funext i
    obtain ⟨-, -, -, -, f5, -⟩ := step_eq prm field ps i
    obtain ⟨-, -, -, -, g5, -⟩ := step_eq prm field (flip (step prm field ps)) i
    simp only [seen, hpos, g5, flip, f5]
  funext i
  obtain ⟨f1, f2, f3, f4, f5, f6, f7⟩ := step_eq prm field ps i
  obtain ⟨g1, g2, g3, g4, g5, g6, g7⟩ := step_eq prm field (flip (step prm field ps)) i
  have he : (step prm field (flip (step prm field ps)) i).e = (ps i).e := by rw [g7, hseen, ← hc i]
  apply Particle.ext
  · exact hpos i
  · simp only [flip] at g2 ⊢
    rw [g2, he, f2, f5, f6]
    ring
  · simp only [flip] at g3 ⊢
    rw [g3, he, f3, f5, f6]
    ring
  · simp only [flip] at g4 ⊢
    rw [g4, f4]
  · simp only [flip] at g5 ⊢
    rw [g5, f5]
  · simp only [flip] at g6 ⊢
    rw [g6, f6]
  · exact he

theorem flip_flip (ps : ι → Particle) : flip (flip ps) = ps := by
  funext i
  simp [flip]

theorem flip_consistent {field : (ι → (ℝ × ℝ) × ℝ) → ι → ℝ × ℝ} {ps : ι → Particle} (h : Consistent field ps) :
    Consistent field (flip ps) := h

theorem steps_succ' (prm : Params) (field : (ι → (ℝ × ℝ) × ℝ) → ι → ℝ × ℝ) (n : ℕ) (ps : ι → Particle) :
    steps prm field (n + 1) ps = step prm field (steps prm field n ps) := by
  induction n generalizing ps with
  | zero => rfl
  | succ n ih => rw [steps, ih]; rfl

theorem steps_state (prm : Params) (field : (ι → (ℝ × ℝ) × ℝ) → ι → ℝ × ℝ) (n : ℕ) (ps : ι → Particle)
    (h1 : 1 ≤ prm.extent.1) (h2 : 1 ≤ prm.extent.2) (hc : Consistent field ps) (hb : InBox prm ps) :
    Consistent field (steps prm field n ps) ∧ InBox prm (steps prm field n ps) := by
  cases n with
  | zero => exact ⟨hc, hb⟩
  | succ n =>
    rw [steps_succ']
    exact ⟨step_consistent prm field _, step_inBox prm field _ h1 h2⟩

/-- Time reversal over any number of steps: `n` steps, reversed velocities and `n` more steps lead back to the beginning with
reversed velocities. -/
theorem reversible (prm : Params) (field : (ι → (ℝ × ℝ) × ℝ) → ι → ℝ × ℝ) (n : ℕ) (ps : ι → Particle)
    (h1 : 1 ≤ prm.extent.1) (h2 : 1 ≤ prm.extent.2) (hc : Consistent field ps) (hb : InBox prm ps) :
    flip (steps prm field n (flip (steps prm field n ps))) = ps := by
  induction n with
  | zero => exact flip_flip ps
  | succ n ih =>
    obtain ⟨c, b⟩ := steps_state prm field n ps h1 h2 hc hb
    have hs := step_reversible prm field (steps prm field n ps) h1 h2 c b
    have hs' : step prm field (flip (step prm field (steps prm field n ps))) = flip (steps prm field n ps) := by
      rw [← flip_flip (step prm field (flip (step prm field (steps prm field n ps)))), hs]
    rw [steps_succ' prm field n ps, steps, hs', ih]

/-- Specification: congruence modulo the periods. -/
def SameMod (prm : Params) (x y : ℝ × ℝ) : Prop := SameModulo prm.extent.1 x.1 y.1 ∧ SameModulo prm.extent.2 x.2 y.2

/-- The positions satisfy the Störmer-Verlet recursion `x'' - 2 x' + x = dt² a(x')` modulo the periods, where the acceleration
is minus charge over mass times the (rescaled) gradient of the potential at the positions `x'`. This holds from the first
step on, for any state. -/
theorem stormer (prm : Params) (field : (ι → (ℝ × ℝ) × ℝ) → ι → ℝ × ℝ) (ps : ι → Particle) (i : ι) (hm : (ps i).m ≠ 0) :
    let x := (ps i).pos
    let x' := (step prm field ps i).pos
    let x'' := (step prm field (step prm field ps) i).pos
    let g := field (seen (step prm field ps)) i
    let a := -(prm.eCoefficient * (ps i).q / (ps i).m)
    SameMod prm (2 * x'.1 - x.1 + prm.dt ^ 2 * (a * g.1), 2 * x'.2 - x.2 + prm.dt ^ 2 * (a * g.2)) x'' := by
  obtain ⟨f1, f2, f3, f4, f5, f6, f7⟩ := step_eq prm field ps i
  obtain ⟨g1, -⟩ := step_eq prm field (step prm field ps) i
  intro x x' x'' g a
  have hx' : SameMod prm ((ps i).pos.1 + prm.dt * ((ps i).v0 - prm.eCoefficient * prm.dt * (ps i).q / (2 * (ps i).m) * (ps i).e.1),
      (ps i).pos.2 + prm.dt * ((ps i).v1 - prm.eCoefficient * prm.dt * (ps i).q / (2 * (ps i).m) * (ps i).e.2)) x' := by
    simp only [x', f1]
    exact ⟨wrap_same_modulo _ _ _, wrap_same_modulo _ _ _⟩
  have hx'' : SameMod prm (x'.1 + prm.dt * ((step prm field ps i).v0 -
      prm.eCoefficient * prm.dt * (ps i).q / (2 * (ps i).m) * g.1),
      x'.2 + prm.dt * ((step prm field ps i).v1 - prm.eCoefficient * prm.dt * (ps i).q / (2 * (ps i).m) * g.2)) x'' := by
    simp only [x'', g1, f5, f6, f7]
    exact ⟨wrap_same_modulo _ _ _, wrap_same_modulo _ _ _⟩
  obtain ⟨⟨a1, ha1⟩, ⟨a2, ha2⟩⟩ := hx'
  obtain ⟨⟨b1, hb1⟩, ⟨b2, hb2⟩⟩ := hx''
  simp only at ha1 ha2 hb1 hb2
  rw [f2, f7] at hb1
  rw [f3, f7] at hb2
  refine ⟨⟨b1 - a1, ?_⟩, ⟨b2 - a2, ?_⟩⟩
  · simp only [a, x]
    push_cast
    rw [hb1]
    have : x'.1 = (ps i).pos.1 + prm.dt * ((ps i).v0 - prm.eCoefficient * prm.dt * (ps i).q / (2 * (ps i).m) * (ps i).e.1) +
      a1 * prm.extent.1 := by linarith
    rw [this]
    field_simp
    ring
  · simp only [a, x]
    push_cast
    rw [hb2]
    have : x'.2 = (ps i).pos.2 + prm.dt * ((ps i).v1 - prm.eCoefficient * prm.dt * (ps i).q / (2 * (ps i).m) * (ps i).e.2) +
      a2 * prm.extent.2 := by linarith
    rw [this]
    field_simp
    ring

/-! ### Momentum and the other properties -/

/-- Total momentum. -/
def momentum [Fintype ι] (ps : ι → Particle) : ℝ × ℝ := (∑ i, (ps i).m * (ps i).v0, ∑ i, (ps i).m * (ps i).v1)

/-- If the total force of the field vanishes for all positions, the total momentum in the plane is constant over any number of
steps; the velocity in the third direction, masses and charges never change. -/
theorem momentum_conserved [Fintype ι] (prm : Params) (field : (ι → (ℝ × ℝ) × ℝ) → ι → ℝ × ℝ) (n : ℕ) (ps : ι → Particle)
    (hm : ∀ i, (ps i).m ≠ 0) (hforce : ∀ x, ∑ i, (x i).2 * (field x i).1 = 0 ∧ ∑ i, (x i).2 * (field x i).2 = 0)
    (hc : ∑ i, (ps i).q * (ps i).e.1 = 0 ∧ ∑ i, (ps i).q * (ps i).e.2 = 0) :
    momentum (steps prm field n ps) = momentum ps ∧
    ∀ i, (steps prm field n ps i).v2 = (ps i).v2 ∧ (steps prm field n ps i).m = (ps i).m ∧
      (steps prm field n ps i).q = (ps i).q := by
  induction n generalizing ps with
  | zero => exact ⟨rfl, fun i => ⟨rfl, rfl, rfl⟩⟩
  | succ n ih =>
    have hs := step_eq prm field ps
    have hq : ∀ i, (step prm field ps i).q = (ps i).q := fun i => (hs i).2.2.2.2.1
    have hmm : ∀ i, (step prm field ps i).m = (ps i).m := fun i => (hs i).2.2.2.2.2.1
    have hE : ∀ i, (step prm field ps i).e = field (seen (step prm field ps)) i := fun i => (hs i).2.2.2.2.2.2
    have hF := hforce (seen (step prm field ps))
    simp only [seen] at hF
    have hc' : ∑ i, (step prm field ps i).q * (step prm field ps i).e.1 = 0 ∧
        ∑ i, (step prm field ps i).q * (step prm field ps i).e.2 = 0 := by
      simp only [hE]
      exact hF
    obtain ⟨i1, i2⟩ := ih (step prm field ps) (fun i => by rw [hmm]; exact hm i) hc'
    simp only [steps]
    refine ⟨?_, fun i => ⟨by rw [(i2 i).1, (hs i).2.2.2.1], by rw [(i2 i).2.1, hmm], by rw [(i2 i).2.2, hq]⟩⟩
    rw [i1]
    unfold momentum
    simp only [hq] at hc'
    apply Prod.ext
    · simp only
      have : ∀ i, (step prm field ps i).m * (step prm field ps i).v0 = (ps i).m * (ps i).v0 -
          (prm.eCoefficient * prm.dt / 2) * ((ps i).q * (ps i).e.1 + (ps i).q * (step prm field ps i).e.1) := by
        intro i
        rw [(hs i).2.1, hmm]
        have := hm i
        field_simp
      simp only [this, Finset.sum_sub_distrib, ← Finset.mul_sum, Finset.sum_add_distrib, hc.1, hc'.1]
      ring
    · simp only
      have : ∀ i, (step prm field ps i).m * (step prm field ps i).v1 = (ps i).m * (ps i).v1 -
          (prm.eCoefficient * prm.dt / 2) * ((ps i).q * (ps i).e.2 + (ps i).q * (step prm field ps i).e.2) := by
        intro i
        rw [(hs i).2.2.1, hmm]
        have := hm i
        field_simp
      simp only [this, Finset.sum_sub_distrib, ← Finset.mul_sum, Finset.sum_add_distrib, hc.2, hc'.2]
      ring

/-! ### Start up -/

/-- Finding: the particles start with a zero field, no field is computed before the first step. The first step is therefore not a
Verlet step of the field: it moves every particle with its initial velocity. -/
theorem first_step_free (prm : Params) (field : (ι → (ℝ × ℝ) × ℝ) → ι → ℝ × ℝ) (ps : ι → Particle) (i : ι) :
    (step prm field (initial ps) i).pos =
      periodic prm ((ps i).pos.1 + prm.dt * (ps i).v0, (ps i).pos.2 + prm.dt * (ps i).v1) := by
  rw [(step_eq prm field (initial ps) i).1]
  simp [initial]

/-- Finding: time reversal to the initial state fails in general: a single particle in a constant field, one step forth and back,
does not have its initial velocity. -/
theorem start_not_reversible : ∃ (prm : Params) (field : (Unit → (ℝ × ℝ) × ℝ) → Unit → ℝ × ℝ) (ps : Unit → Particle),
    1 ≤ prm.extent.1 ∧ 1 ≤ prm.extent.2 ∧ InBox prm ps ∧
    (flip (step prm field (flip (step prm field (initial ps)))) ()).v0 ≠ (initial ps ()).v0 := by
  refine ⟨⟨1, 1, (0, 0), (1, 1)⟩, fun _ _ => (2, 0), fun _ => ⟨(0, 0), 0, 0, 0, 1, 1, (0, 0)⟩, le_refl _, le_refl _, ?_, ?_⟩
  · intro i
    simp [InDomain]
  · obtain ⟨-, a2, -, -, a5, a6, a7⟩ := step_eq (⟨1, 1, (0, 0), (1, 1)⟩ : Params) (fun _ _ => (2, 0))
      (initial fun _ : Unit => ⟨(0, 0), 0, 0, 0, 1, 1, (0, 0)⟩) ()
    obtain ⟨-, b2, -, -, -, -, b7⟩ := step_eq (⟨1, 1, (0, 0), (1, 1)⟩ : Params) (fun _ _ => (2, 0))
      (flip (step (⟨1, 1, (0, 0), (1, 1)⟩ : Params) (fun _ _ => (2, 0)) (initial fun _ : Unit => ⟨(0, 0), 0, 0, 0, 1, 1, (0, 0)⟩))) ()
    simp only [flip] at b2 b7 ⊢
    rw [b2, b7, a2, a5, a6, a7]
    norm_num [initial]

/-! ### Choice of the integrator -/

/-- Verlet is used iff the user asks for it or gives no component of the magnetic field and does not choose. -/
theorem verlet_iff (bz by_ bx : Option ℝ) (user : Option ℤ) :
    integratorType bz by_ bx user = 0 ↔ user = some 0 ∨ (user = none ∧ bz = none ∧ by_ = none ∧ bx = none) := by
  cases user with
  | some u => simp [integratorType]
  | none => cases bz <;> cases by_ <;> cases bx <;> simp [integratorType]

/-- A choice of the user is always taken; without one any component of the magnetic field selects Boris, which is type 1. -/
theorem integrator_choice (bz by_ bx : Option ℝ) (user : Option ℤ) :
    (∀ u, user = some u → integratorType bz by_ bx user = u) ∧
    (user = none → (bz ≠ none ∨ by_ ≠ none ∨ bx ≠ none) → integratorType bz by_ bx user = 1) := by
  constructor
  · rintro u rfl; rfl
  · rintro rfl h
    cases bz <;> cases by_ <;> cases bx <;> simp_all [integratorType]

/-- Finding: the assertion on the type of the integrator cannot fail. -/
theorem integrator_check_vacuous (t : ℤ) : integratorCheck t = true := by
  simp only [integratorCheck, ge_iff_le, Bool.or_eq_true, decide_eq_true_eq]
  omega

/-! ### A concrete case -/

/-- Two opposite charges of mass one and two on a line attract each other: the hypotheses of reversibility and of the conservation
of momentum are met with a field that depends on the positions. -/
noncomputable def pairField : (Bool → (ℝ × ℝ) × ℝ) → Bool → ℝ × ℝ := fun x i =>
  ((x (!i)).2 * (x i).2 * (x (!i)).2 * ((x i).1.1 - (x (!i)).1.1), 0)

noncomputable def pairState : Bool → Particle := fun i =>
  if i then ⟨(0, 0), 1, 0, 0, 1, 1, (-2, 0)⟩ else ⟨(2, 0), 0, 0, 0, -1, 2, (-2, 0)⟩

example : Consistent pairField pairState ∧ InBox ⟨1, 1, (0, 0), (4, 4)⟩ pairState ∧
    ∑ i, (pairState i).q * (pairState i).e.1 = 0 := by
  refine ⟨?_, ?_, ?_⟩
  · intro i
    cases i <;> norm_num [pairState, pairField, seen]
  · intro i
    cases i <;> norm_num [pairState, InDomain]
  · simp [pairState]

example (x : Bool → (ℝ × ℝ) × ℝ) : ∑ i, (x i).2 * (pairField x i).1 = 0 ∧ ∑ i, (x i).2 * (pairField x i).2 = 0 := by
  simp [pairField]
  ring

end Verif.Props.C66
