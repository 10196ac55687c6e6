import Verif.Model.ParallelDriftReduced
import Verif.Props.C55_MapChain

/-!
The neutral particles of the DriftReduced solver without ranks: one collection of particles. Where a particle is inside of more than one element (on their common boundary, up to the tolerance of the mapping), any of
them may be used for it.
-/

namespace Verif.Spec.ParallelDR
open Verif.Model Verif.Model.ParallelDR Verif.Model.NeutralSystem Verif.Model.ParallelStep Verif.Props.C55

variable {n : ℕ} {J : Type}

/-- A particle: its properties and its position. -/
abbrev Body := Neutral × (ℕ → ℝ)

/-- The particles of all ranks. -/
def bodies (S : State n Tagged ℝ) : Multiset Body := (particles S).map fun a => (a.1.1, a.2)

/-- The numbers and the density of a simulation; nothing here depends on the ranks. -/
structure Physics where
  cfg : Config
  wrap : (ℕ → ℝ) → (ℕ → ℝ)
  fieldN : ℕ → ℤ → List ℝ → ℝ

/-- The elements that are used for the particles `M`: each is used with an element that contains it. -/
def Located (inside : (ℕ → ℝ) → Set (Assignment ℝ)) (M : Multiset Body) (A : Multiset (Body × Assignment ℝ)) : Prop :=
  A.map Prod.fst = M ∧ ∀ x ∈ A, x.2 ∈ inside x.1.2

/-- Motion with constant velocity for the time `dt`, in the periodic domain. -/
noncomputable def moved (H : Physics) (dt : ℝ) (a : Body) : Body := (a.1, H.wrap fun d => if d < 3 then a.2 d + dt * a.1.vel d else a.2 d)

/-- Ionisation of a particle in sub step `k`, with the density in the element that is used for it: position and velocity are kept, the rest is the kernel of C62 and C105. -/
def Ionised (H : Physics) (k : ℕ) (dt : ℝ) (x : Body × Assignment ℝ) (b : Body) : Prop :=
  b.2 = x.1.2 ∧ b.1.vel = x.1.1.vel ∧
  Ionisation.ioniseDR H.cfg.prm H.cfg.TeV dt (H.cfg.nBgSI + H.fieldN k x.2.cell x.2.ref * H.cfg.prm.nToSI) (toParticle x.1.1) = some (toParticle b.1)

/-- The particles are moved and ionised. -/
def SubStep (inside : (ℕ → ℝ) → Set (Assignment ℝ)) (H : Physics) (k : ℕ) (dt : ℝ) (M M' : Multiset Body) : Prop :=
  ∃ A, Located inside (M.map (moved H dt)) A ∧ Multiset.Rel (Ionised H k dt) A M'

/-- Sub steps of the given lengths, from sub step `k` on. -/
inductive Run (inside : (ℕ → ℝ) → Set (Assignment ℝ)) (H : Physics) : List ℝ → ℕ → Multiset Body → Multiset Body → Prop
  | done (k : ℕ) (M : Multiset Body) : Run inside H [] k M M
  | step {d : ℝ} {ds : List ℝ} {k : ℕ} {M M1 M' : Multiset Body} : SubStep inside H k d M M1 → Run inside H ds (k + 1) M1 M' → Run inside H (d :: ds) k M M'

/-- The start: `num` particles with the identities `0` to `num - 1`, the weight of new particles and no source, at positions of the periodic domain. -/
structure Initial (cfg : Config) (dom : (ℕ → ℝ) → Prop) (M : Multiset Body) : Prop where
  ids : M.map (fun a => a.1.id) = ((List.range cfg.numPartsTot).map fun i : ℕ => (i : ℤ) : List ℤ)
  fresh : ∀ a ∈ M, a.1.weight = cfg.particleWeight ∧ a.1.sourceDensity = 0 ∧ dom a.2

/-- The projected source: each particle adds its source times the basis functions of its element. -/
noncomputable def rhs (basis : ℤ → List ℝ → J → ℝ) (A : Multiset (Body × Assignment ℝ)) (j : J) : ℝ := (A.map fun x => x.1.1.sourceDensity * basis x.2.cell x.2.ref j).sum

end Verif.Spec.ParallelDR
