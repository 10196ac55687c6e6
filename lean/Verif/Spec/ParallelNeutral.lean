import Verif.Model.ParallelNeutral
import Verif.Props.C55_MapChain

/-!
The neutral particles of SimpleSOL without ranks: one collection of particles. Where a particle is inside of more than one element (on their common boundary, up to the tolerance of the mapping), any of them may be used
for it. The only other choices are the random ones: the velocities of new particles.
-/

namespace Verif.Spec.ParallelNeutral
open Verif.Model Verif.Model.ParallelNeutral Verif.Model.NeutralSystem Verif.Model.ParallelPic Verif.Props.C55

variable {n : ℕ} {J : Type}

/-- The numbers and fields of a simulation; nothing here depends on the ranks. -/
structure Physics where
  cfg : Config
  wrap : (ℕ → ℝ) → (ℕ → ℝ)
  fieldN : ℕ → ℤ → List ℝ → ℝ
  fieldT : ℕ → ℤ → List ℝ → ℝ

/-- The elements that are used for the particles `M`: each is used with an element that contains it. -/
def Located (inside : (ℕ → ℝ) → Set (Assignment ℝ)) (M : Multiset Body) (A : Multiset (Body × Assignment ℝ)) : Prop :=
  A.map Prod.fst = M ∧ ∀ x ∈ A, x.2 ∈ inside x.1.2

/-- Motion with constant velocity for the time `dt`. -/
noncomputable def moved (dt : ℝ) (a : Body) : Body := (a.1, fun d => if d = 0 then a.2 0 + dt * a.1.vel.1 else if d = 1 then a.2 1 + dt * a.1.vel.2 else a.2 d)

/-- The particles that are not removed at the walls. Where there are walls, particles with no weight left are removed, too. -/
def Stays (cfg : Config) (a : Body) : Prop := cfg.fullyPeriodic = true ∨ (0 ≤ a.2 0 ∧ a.2 0 ≤ cfg.unrotatedXMax ∧ a.1.id ≠ Ionisation.removeKey)

/-- Ionisation of a particle in sub step `k`, with density and temperature in the element that is used for it: the kernel of C62 and C105. The position and the velocity are kept. -/
def Ionised (H : Physics) (k : ℕ) (dt : ℝ) (x : Body × Assignment ℝ) (b : Body) : Prop :=
  b.2 = x.1.2 ∧ Ionisation.ioniseSOL H.cfg.prm dt (H.fieldN k x.2.cell x.2.ref * H.cfg.prm.nToSI) (H.fieldT k x.2.cell x.2.ref * H.cfg.TtoEV) (toParticle x.1) = some (toParticle b)

open Classical in
/-- The particles `M` and the new particles `new` are moved, those that leave through a wall are removed, and the others are ionised. -/
def SubStep (inside : (ℕ → ℝ) → Set (Assignment ℝ)) (H : Physics) (k : ℕ) (dt : ℝ) (new M M' : Multiset Body) : Prop :=
  ∃ A, Located inside ((((M + new).map (moved dt)).filter (Stays H.cfg)).map fun a => (a.1, H.wrap a.2)) A ∧ Multiset.Rel (Ionised H k dt) A M'

/-- The points of a source line and the values of its generator. -/
structure Source where
  points : List (ℕ → ℝ)
  stream : ℕ → ℤ

/-- Values `drawn` to `drawn + num - 1` of the generators select the positions of the new particles; `num` from each source. Each has the weight of new particles, no sources, and a non-negative identity. -/
def Created (cfg : Config) (sources : List Source) (drawn num : ℕ) (new : Multiset Body) : Prop :=
  new.map (fun a => some a.2) = (sources.flatMap fun s => (List.range num).map fun i => s.points[(s.stream (drawn + i)).toNat]? : List (Option (ℕ → ℝ))) ∧
  ∀ a ∈ new, a.1.weight = cfg.particleWeight ∧ 0 ≤ a.1.id ∧ a.1.sourceDensity = 0 ∧ a.1.sourceMomentum = (0, 0) ∧ a.1.sourceEnergy = 0

/-- Sub steps of the given lengths, from sub step `k` on. `dt` is the requested length, on which the number of new particles depends: it is that of C63. -/
inductive Run (inside : (ℕ → ℝ) → Set (Assignment ℝ)) (H : Physics) (sources : List Source) (dt : ℝ) : List ℝ → ℕ → ℕ → Multiset Body → ℕ → Multiset Body → Prop
  | done (drawn k : ℕ) (M : Multiset Body) : Run inside H sources dt [] drawn k M drawn M
  | step {d : ℝ} {ds : List ℝ} {drawn k drawn' : ℕ} {M new M1 M' : Multiset Body} : Created H.cfg sources drawn (particlesPerLine H.cfg (d / dt)).toNat new →
      SubStep inside H k d new M M1 → Run inside H sources dt ds (drawn + (particlesPerLine H.cfg (d / dt)).toNat) (k + 1) M1 drawn' M' →
      Run inside H sources dt (d :: ds) drawn k M drawn' M'

/-- The projected source: each particle adds its source times the basis functions of its element. -/
noncomputable def rhs (basis : ℤ → List ℝ → J → ℝ) (A : Multiset (Body × Assignment ℝ)) (f : Neutral → ℝ) (j : J) : ℝ := (A.map fun x => f x.1.1 * basis x.2.cell x.2.ref j).sum

end Verif.Spec.ParallelNeutral
