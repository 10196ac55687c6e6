import Verif.Model.PicLoop
import Verif.Props.C126_VerletStability
import Mathlib.Tactic.Ring
import Mathlib.Tactic.Linarith
import Mathlib.Tactic.FieldSimp

/-!
# C128: the two integrators of the electrostatic solver compared

The session chooses between velocity Verlet and Boris (`integrator_type`), and a simulation without a magnetic field can be run with either. Users rely on that being a choice of the numerical method only.
-/

namespace Verif.Props.C128
open Verif.Model Verif.Model.Electrostatic Verif.Model.PicLoop

variable {ι U V : Type}

/-! ### Specification -/

/-- The acceleration of a particle by the gradient `g` of the potential. -/
noncomputable def acceleration (prm : Params) (p : Particle) (g : ℝ × ℝ) : ℝ × ℝ := (-(prm.eCoefficient * p.q / p.m * g.1), -(prm.eCoefficient * p.q / p.m * g.2))

/-- The state with the velocities of half a time step earlier. -/
noncomputable def halfStepEarlier (prm : Params) (ps : ι → Particle) : ι → Particle := fun i =>
  { ps i with v0 := (ps i).v0 - prm.dt / 2 * (acceleration prm (ps i) (ps i).e).1, v1 := (ps i).v1 - prm.dt / 2 * (acceleration prm (ps i) (ps i).e).2 }

/-- Positions, charges, masses and velocities are those of the other state: all but the stored field. -/
def SameButField (a b : ι → Particle) : Prop := ∀ i, (a i).pos = (b i).pos ∧ (a i).v0 = (b i).v0 ∧ (a i).v1 = (b i).v1 ∧ (a i).v2 = (b i).v2 ∧ (a i).q = (b i).q ∧ (a i).m = (b i).m

/-! ### Steps -/

theorem halfKick_eq (prm : Params) (p : Particle) : halfKick prm p = prm.dt / 2 * (prm.eCoefficient * p.q / p.m) := by
  unfold halfKick
  ring

theorem boris_zero (prm : Params) (p : Particle) (hm : p.m ≠ 0) :
    boris2P prm (0, 0, 0) p = { p with
      pos := periodic prm (p.pos.1 + prm.dt * (p.v0 + prm.dt * (acceleration prm p p.e).1), p.pos.2 + prm.dt * (p.v1 + prm.dt * (acceleration prm p p.e).2))
      v0 := p.v0 + prm.dt * (acceleration prm p p.e).1
      v1 := p.v1 + prm.dt * (acceleration prm p p.e).2 } := by
  have e0 : p.v0 + (-1 * p.e.1) * (p.q / p.m * (prm.dt * (1 / 2))) * prm.eCoefficient + p.q / p.m * (prm.dt * (1 / 2)) * (-1 * p.e.1) * prm.eCoefficient = p.v0 + prm.dt * (acceleration prm p p.e).1 := by
    unfold acceleration; ring
  have e1 : p.v1 + (-1 * p.e.2) * (p.q / p.m * (prm.dt * (1 / 2))) * prm.eCoefficient + p.q / p.m * (prm.dt * (1 / 2)) * (-1 * p.e.2) * prm.eCoefficient = p.v1 + prm.dt * (acceleration prm p p.e).2 := by
    unfold acceleration; ring
  simp only [boris2P, Boris.boris2, if_neg hm, Boris.crossProduct3D, zero_mul, mul_zero, sub_zero, zero_add, e0, e1]

theorem verlet_step (prm : Params) (p : Particle) (g : ℝ × ℝ) :
    (verlet1 prm p).pos = periodic prm (p.pos.1 + prm.dt * (p.v0 + prm.dt / 2 * (acceleration prm p p.e).1), p.pos.2 + prm.dt * (p.v1 + prm.dt / 2 * (acceleration prm p p.e).2)) ∧
    (verlet2 prm { verlet1 prm p with e := g }).v0 = p.v0 + prm.dt / 2 * (acceleration prm p p.e).1 + prm.dt / 2 * (acceleration prm p g).1 ∧
    (verlet2 prm { verlet1 prm p with e := g }).v1 = p.v1 + prm.dt / 2 * (acceleration prm p p.e).2 + prm.dt / 2 * (acceleration prm p g).2 := by
  have h : ∀ g, halfKick prm { verlet1 prm p with e := g } = prm.dt / 2 * (prm.eCoefficient * p.q / p.m) := fun g => halfKick_eq prm _
  refine ⟨?_, ?_, ?_⟩
  · simp only [verlet1, halfKick_eq, acceleration]
    congr 2 <;> ring
  · simp only [verlet2, h]
    simp only [verlet1, halfKick_eq, acceleration]
    ring
  · simp only [verlet2, h]
    simp only [verlet1, halfKick_eq, acceleration]
    ring

/-! ### The same positions -/

/-- The field of the positions is stored. -/
def Stored (potential : (ι → (ℝ × ℝ) × ℝ) → U) (gradient : U → ℝ × ℝ → ℝ × ℝ) (ps : ι → Particle) : Prop := ∀ i, (ps i).e = gradient (potential (seen ps)) (ps i).pos

theorem seen_same {a b : ι → Particle} (h : SameButField a b) : seen a = seen b := by
  funext i
  obtain ⟨h1, -, -, -, h2, -⟩ := h i
  simp only [seen, h1, h2]

theorem step_same (prm : Params) (potential : (ι → (ℝ × ℝ) × ℝ) → U) (gradient : U → ℝ × ℝ → ℝ × ℝ) (fe : U → V) (ke : (ι → Particle) → V) (pe : (ι → Particle) → U → V) (s t : St (ι → Particle) U V)
    (hm : ∀ i, (s.p i).m ≠ 0) (hc : Stored potential gradient s.p) (h : SameButField t.p (halfStepEarlier prm s.p)) :
    let s' := advance (verletOps prm potential gradient fe ke pe) s
    let t' := advance (borisOps prm (0, 0, 0) potential gradient fe ke pe) t
    (∀ i, (s'.p i).m ≠ 0) ∧ Stored potential gradient s'.p ∧ SameButField t'.p (halfStepEarlier prm s'.p) := by
  intro s' t'
  refine ⟨fun i => hm i, fun i => rfl, ?_⟩
  have hseen : seen t.p = seen s.p := seen_same (a := t.p) (b := halfStepEarlier prm s.p) h
  intro i
  obtain ⟨h1, h2, h3, h4, h5, h6⟩ := h i
  -- the Boris step
  have hf : (t'.p i) = boris2P prm (0, 0, 0) { t.p i with e := (s.p i).e } := by
    change boris2P prm (0, 0, 0) { t.p i with e := gradient (potential (seen t.p)) (t.p i).pos } = _
    rw [hseen, show (t.p i).pos = (s.p i).pos from h1, ← hc i]
  obtain ⟨P, hP⟩ : ∃ P : Particle, P = { t.p i with e := (s.p i).e } := ⟨_, rfl⟩
  have P1 : P.pos = (s.p i).pos := by rw [hP]; exact h1
  have P2 : P.v0 = (s.p i).v0 - prm.dt / 2 * (acceleration prm (s.p i) (s.p i).e).1 := by rw [hP]; exact h2
  have P3 : P.v1 = (s.p i).v1 - prm.dt / 2 * (acceleration prm (s.p i) (s.p i).e).2 := by rw [hP]; exact h3
  have P4 : P.v2 = (s.p i).v2 := by rw [hP]; exact h4
  have P5 : P.q = (s.p i).q := by rw [hP]; exact h5
  have P6 : P.m = (s.p i).m := by rw [hP]; exact h6
  have Pa : acceleration prm P P.e = acceleration prm (s.p i) (s.p i).e := by
    rw [show P.e = (s.p i).e by rw [hP]]
    unfold acceleration
    rw [P5, P6]
  rw [← hP, boris_zero prm P (by rw [P6]; exact hm i), Pa, P1, P2, P3] at hf
  obtain ⟨w1, w2, w3⟩ := verlet_step prm (s.p i) (s'.p i).e
  have ha' : acceleration prm (s'.p i) (s'.p i).e = acceleration prm (s.p i) (s'.p i).e := rfl
  have c0 : (s'.p i).v0 = (s.p i).v0 + prm.dt / 2 * (acceleration prm (s.p i) (s.p i).e).1 + prm.dt / 2 * (acceleration prm (s.p i) (s'.p i).e).1 := w2
  have c1 : (s'.p i).v1 = (s.p i).v1 + prm.dt / 2 * (acceleration prm (s.p i) (s.p i).e).2 + prm.dt / 2 * (acceleration prm (s.p i) (s'.p i).e).2 := w3
  have cp : (s'.p i).pos = periodic prm ((s.p i).pos.1 + prm.dt * ((s.p i).v0 + prm.dt / 2 * (acceleration prm (s.p i) (s.p i).e).1),
      (s.p i).pos.2 + prm.dt * ((s.p i).v1 + prm.dt / 2 * (acceleration prm (s.p i) (s.p i).e).2)) := w1
  rw [hf]
  refine ⟨?_, ?_, ?_, P4, P5, P6⟩
  · simp only [halfStepEarlier]
    rw [cp]
    congr 2 <;> ring
  · simp only [halfStepEarlier]
    rw [ha', c0]
    ring
  · simp only [halfStepEarlier]
    rw [ha', c1]
    ring

/-- **Without a magnetic field both integrators compute the same positions**, for any interacting particles, potential and number of steps, across the periodic boundaries: the velocities of the Boris integrator are those of half
a step before those of velocity Verlet, if it is started with such velocities. -/
theorem same_positions_partial (prm : Params) (potential : (ι → (ℝ × ℝ) × ℝ) → U) (gradient : U → ℝ × ℝ → ℝ × ℝ) (fe : U → V) (ke : (ι → Particle) → V) (pe : (ι → Particle) → U → V)
    (s t : St (ι → Particle) U V) (hm : ∀ i, (s.p i).m ≠ 0) (hc : Stored potential gradient s.p) (h : SameButField t.p (halfStepEarlier prm s.p)) (n : ℕ) :
    SameButField ((advance (borisOps prm (0, 0, 0) potential gradient fe ke pe))^[n] t).p (halfStepEarlier prm ((advance (verletOps prm potential gradient fe ke pe))^[n] s).p) := by
  have key : ∀ n, (∀ i, (((advance (verletOps prm potential gradient fe ke pe))^[n] s).p i).m ≠ 0) ∧ Stored potential gradient ((advance (verletOps prm potential gradient fe ke pe))^[n] s).p ∧
      SameButField ((advance (borisOps prm (0, 0, 0) potential gradient fe ke pe))^[n] t).p (halfStepEarlier prm ((advance (verletOps prm potential gradient fe ke pe))^[n] s).p) := by
    intro n
    induction n with
    | zero => exact ⟨hm, hc, h⟩
    | succ n ih =>
      rw [Function.iterate_succ_apply', Function.iterate_succ_apply']
      exact step_same prm potential gradient fe ke pe _ _ ih.1 ih.2.1 ih.2.2
  exact (key n).2.2

/-! ### The limit of the time step -/

theorem advance_steps (prm : Params) (potential : (ι → (ℝ × ℝ) × ℝ) → U) (gradient : U → ℝ × ℝ → ℝ × ℝ) (fe : U → V) (ke : (ι → Particle) → V) (pe : (ι → Particle) → U → V) (n : ℕ) (s : St (ι → Particle) U V) :
    ((advance (verletOps prm potential gradient fe ke pe))^[n] s).p = steps prm (fun x i => gradient (potential x) (x i).1) n s.p := by
  induction n generalizing s with
  | zero => rfl
  | succ n ih => rw [Function.iterate_succ_apply, ih]; rfl

/-- **The limit of the time step is the same for both integrators** (C126 for velocity Verlet): below two over the frequency a particle in a restoring field stays within its amplitude with the Boris integrator, for any number
of steps. `ps` is the state with the velocities at the time of the positions. -/
theorem boris_bounded (prm : Params) (potential : (ι → (ℝ × ℝ) × ℝ) → U) (gradient : U → ℝ × ℝ → ℝ × ℝ) (fe : U → V) (ke : (ι → Particle) → V) (pe : (ι → Particle) → U → V)
    (ps : ι → Particle) (t : St (ι → Particle) U V) (hm : ∀ i, (ps i).m ≠ 0) (hc : Stored potential gradient ps) (h : SameButField t.p (halfStepEarlier prm ps)) (i : ι) (k : C126.Axis) (curvature centre R : ℝ)
    (hr : C126.Restoring (fun x i => gradient (potential x) (x i).1) i k curvature centre)
    (h0 : 0 < C126.frequencySq prm (ps i) curvature) (h4 : C126.frequencySq prm (ps i) curvature * prm.dt ^ 2 < 4)
    (hl : k.of prm.origin ≤ centre - R) (hu : centre + R < k.of prm.origin + k.of prm.extent) (hR : 0 ≤ R)
    (hs : C126.invariant prm.dt (C126.frequencySq prm (ps i) curvature) (k.of (ps i).pos - centre) (k.velocity (ps i)) ≤ C126.invariant prm.dt (C126.frequencySq prm (ps i) curvature) R 0) (n : ℕ) :
    |k.of (((advance (borisOps prm (0, 0, 0) potential gradient fe ke pe))^[n] t).p i).pos - centre| ≤ R := by
  have a := (same_positions_partial prm potential gradient fe ke pe { t with p := ps } t hm hc h n i).1
  rw [a]
  change |k.of (((advance (verletOps prm potential gradient fe ke pe))^[n] { t with p := ps }).p i).pos - centre| ≤ R
  rw [advance_steps]
  exact (C126.bounded prm _ ps i k curvature centre R hr (fun j => hc j) h0 h4 hl hu hR hs n).1

/-! ### The start -/

/-- The programs start both integrators with the same velocities and a stored field of zero. -/
def start (ps : ι → Particle) (u : U) (globals : List (String × V)) : St (ι → Particle) U V := St.init (initial ps) u globals

/-- **The first step**: velocity Verlet moves a particle without the field, and Boris with twice the effect of the field of the second order (Taylor) formula `x + dt v + dt^2 / 2 a`. -/
theorem first_step (prm : Params) (potential : (ι → (ℝ × ℝ) × ℝ) → U) (gradient : U → ℝ × ℝ → ℝ × ℝ) (fe : U → V) (ke : (ι → Particle) → V) (pe : (ι → Particle) → U → V)
    (ps : ι → Particle) (u : U) (globals : List (String × V)) (i : ι) (hm : (ps i).m ≠ 0) :
    let a := acceleration prm (ps i) (gradient (potential (seen ps)) (ps i).pos)
    let free : ℝ × ℝ := ((ps i).pos.1 + prm.dt * (ps i).v0, (ps i).pos.2 + prm.dt * (ps i).v1)
    ((advance (verletOps prm potential gradient fe ke pe) (start ps u globals)).p i).pos = periodic prm (free.1 + 0 * (prm.dt ^ 2 / 2 * a.1), free.2 + 0 * (prm.dt ^ 2 / 2 * a.2)) ∧
    ((advance (borisOps prm (0, 0, 0) potential gradient fe ke pe) (start ps u globals)).p i).pos = periodic prm (free.1 + 2 * (prm.dt ^ 2 / 2 * a.1), free.2 + 2 * (prm.dt ^ 2 / 2 * a.2)) := by
  intro a free
  constructor
  · change (verlet1 prm (initial ps i)).pos = _
    rw [(verlet_step prm (initial ps i) (0, 0)).1]
    simp only [initial, acceleration, free]
    congr 2 <;> ring
  · change (boris2P prm (0, 0, 0) { ps i with e := gradient (potential (seen ps)) (ps i).pos }).pos = _
    rw [boris_zero prm { ps i with e := gradient (potential (seen ps)) (ps i).pos } hm]
    simp only [free, a, acceleration]
    congr 2 <;> ring

/-- **The choice of the integrator changes the result**: from the same initial state the two programs do not compute the same positions. One electron in a constant field. -/
theorem start_differs : ∃ (prm : Params) (potential : (Unit → (ℝ × ℝ) × ℝ) → Unit) (gradient : Unit → ℝ × ℝ → ℝ × ℝ) (ps : Unit → Particle), 1 ≤ prm.extent.1 ∧ 1 ≤ prm.extent.2 ∧ (ps ()).m ≠ 0 ∧
    ((advance (verletOps (V := ℝ) prm potential gradient (fun _ => 0) (fun _ => 0) (fun _ _ => 0)) (start ps () [])).p ()).pos ≠
      ((advance (borisOps (V := ℝ) prm (0, 0, 0) potential gradient (fun _ => 0) (fun _ => 0) (fun _ _ => 0)) (start ps () [])).p ()).pos := by
  refine ⟨⟨1, 1, (0, 0), (8, 8)⟩, fun _ => (), fun _ _ => (1, 0), fun _ => ⟨(1, 1), 0, 0, 0, -1, 1, (0, 0)⟩, by norm_num, by norm_num, by norm_num, ?_⟩
  obtain ⟨h1, h2⟩ := first_step (V := ℝ) ⟨1, 1, (0, 0), (8, 8)⟩ (fun _ : Unit → (ℝ × ℝ) × ℝ => ()) (fun _ _ => (1, 0)) (fun _ => 0) (fun _ => 0) (fun _ _ => 0) (fun _ => ⟨(1, 1), 0, 0, 0, -1, 1, (0, 0)⟩) () [] () (by norm_num)
  rw [h1, h2]
  intro h
  have := congrArg Prod.fst h
  have w : ∀ x : ℝ, 0 ≤ x → x < 8 → Periodic.wrap (0 : ℝ) 8 x = x := fun x h h' =>
    C27.in_domain_unique (origin := 0) (by norm_num) ⟨h, by linarith⟩ (C27.wrap_in_domain_partial (by norm_num) x (Or.inr h)) (C27.wrap_same_modulo _ _ _)
  have w1 := w 1 (by norm_num) (by norm_num)
  have w2 := w 2 (by norm_num) (by norm_num)
  simp only [periodic, acceleration] at this
  norm_num [w1, w2] at this

/-! ### The hypotheses are met -/

/-- Two interacting particles, any number of steps: the positions are the same. -/
example (u : ℝ) (i : Bool) (n : ℕ) :
    let prm : Params := ⟨1 / 10, 1, (0, 0), (4, 4)⟩
    let potential : (Bool → (ℝ × ℝ) × ℝ) → ℝ := fun s => (s true).1.1 - (s false).1.1
    let gradient : ℝ → ℝ × ℝ → ℝ × ℝ := fun d x => (d * x.1, 0)
    let ps : Bool → Particle := fun j => ⟨(if j then 2 else 1, 1), 0, 1, 0, -1, 1, (if j then 2 else 1, 0)⟩
    (((advance (borisOps (V := ℝ) prm (0, 0, 0) potential gradient (fun _ => 0) (fun _ => 0) (fun _ _ => 0)))^[n] (St.init (halfStepEarlier prm ps) u [])).p i).pos =
      (((advance (verletOps (V := ℝ) prm potential gradient (fun _ => 0) (fun _ => 0) (fun _ _ => 0)))^[n] (St.init ps u [])).p i).pos := by
  intro prm potential gradient ps
  refine (same_positions_partial prm potential gradient _ _ _ (St.init ps u []) (St.init (halfStepEarlier prm ps) u []) (fun i => one_ne_zero) ?_ (fun i => ⟨rfl, rfl, rfl, rfl, rfl, rfl⟩) n i).1
  intro j
  change (ps j).e = gradient (potential (seen ps)) (ps j).pos
  cases j <;> simp [ps, gradient, potential, seen] <;> norm_num

end Verif.Props.C128
