import Verif.Model.CompositeIntersection
import Verif.Model.ParameterStore

/-!
Model of `NektarCompositeTruncatedReflection`, src/nektar_interface/particle_boundary_conditions.cpp:78-120 and
include/nektar_interface/particle_boundary_conditions.hpp:68-141, on all ranks, with the settings of `CompositeIntersection`
(src/nektar_interface/composite_interaction/composite_intersection.cpp:770-806).

External contracts (NESO-Particles): `BoundaryReflection::execute` runs a function `B` of the particle, the intersection point and the normal on each
particle of the sub group; what is assumed of `B` is said in `Spec/Reflection.lean`. The checks of the types of the iteration set are not modelled.
-/

namespace Verif.Model.Reflection
open Verif.Model Verif.Model.MeshHierarchy Verif.Model.CompositeCollections Verif.Model.CompositeIntersection Verif.Model.ParameterStore

variable {K : Type}

/-! ### Construction -/

/-- The settings of a `CompositeIntersection`. composite_intersection.cpp:795-805. -/
structure Settings (R : Type) where
  lineTol : R
  newtonTol : R
  newtonMaxIteration : ℤ
  containedTol : R
  numModesFactor : R
deriving DecidableEq

/-- No code: one step after the other; a failure stops. -/
def Outcome.bind {α β : Type} (x : Outcome α) (f : α → Outcome β) : Outcome β :=
  match x with
  | .ok v => f v
  | .badVariantAccess => .badVariantAccess

/-- The constructor of `CompositeIntersection`, composite_intersection.cpp:795-805. The truncation of `num_modes_factor` to `int` is not modelled. -/
def intersectionSettings [DivisionRing K] (config : Store K) : Outcome (Settings K) :=
  Outcome.bind (getReal config "CompositeIntersection/line_intersection_tol" (1 / 10 ^ 8)) fun lineTol =>
  Outcome.bind (getReal config "CompositeIntersection/newton_tol" (1 / 10 ^ 8)) fun newtonTol =>
  Outcome.bind (getInt config "CompositeIntersection/newton_max_iteration" 51) fun iters =>
  Outcome.bind (getReal config "CompositeIntersection/contained_tol" newtonTol) fun containedTol =>
  Outcome.bind (getReal config "CompositeIntersection/num_modes_factor" 1) fun factor =>
    .ok ⟨lineTol, newtonTol, iters, containedTol, factor⟩

/-- What the constructor of `NektarCompositeTruncatedReflection` makes: the settings of its `CompositeIntersection` and the reset distance, lines 78-98.
The `CompositeIntersection` is made without `config` (lines 88-90), that is with the default, an empty store (composite_intersection.hpp:103-106). -/
def construct [DivisionRing K] (config : Store K) : Outcome (Settings K × K) :=
  Outcome.bind (intersectionSettings (mk0 : Store K)) fun s =>
  Outcome.bind (getReal config "NektarCompositeTruncatedReflection/reset_distance" (1 / 10 ^ 7)) fun reset => .ok (s, reset)

/-- `boundary_groups`, lines 86-87: the composites given are boundary group 1. -/
def boundaryGroup (composites : List ℤ) (c : ℤ) : Option ℤ := if c ∈ composites then some 1 else none

/-! ### `pre_advection`, `execute` -/

/-- A particle: an identity, its properties for `CompositeIntersection`, the velocity and the two components of the time step property. particle_boundary_conditions.hpp:68-141. -/
structure RParticle (K : Type) where
  id : ℕ
  base : Particle K
  v : ℕ → K
  total : K
  last : K

/-- What `BoundaryReflection` does to a particle, from the intersection point and the normal. Called in particle_boundary_conditions.cpp:105-120. -/
abbrev Reflect (K : Type) := RParticle K → List K → List K → RParticle K

section
variable [Field K] [LinearOrder K]

/-- `pre_advection`, lines 100-103, for the particles (by local index) of the sub group. -/
def preAdvection (sel : ℕ → Bool) (parts : List (RParticle K)) : List (RParticle K) :=
  parts.map fun q => if sel q.base.index then { q with base := preIntegration q.base } else q

/-- The particles moved between `pre_advection` and `execute`, by the user. No code: the caller, between particle_boundary_conditions.cpp:100-103 and 105-120. -/
def advance (sel : ℕ → Bool) (adv : RParticle K → RParticle K) (parts : List (RParticle K)) : List (RParticle K) :=
  parts.map fun q => if sel q.base.index then adv q else q

/-- `BoundaryReflection::execute` on one particle of a sub group. Called in particle_boundary_conditions.cpp:105-120. -/
def applyEntry (B : Reflect K) (parts : List (RParticle K)) (e : Entry K) : List (RParticle K) :=
  parts.map fun q => if q.base.index = e.particle.index then B q e.point e.normal else q

/-- `execute` on a rank, lines 105-120, after `find_cells` and `collect_geometry`. `npart_local` is the number of particles of the rank; `o` is the content
of the buffers. -/
def executeRank (m : MH) (cart : ℕ → K → ℤ) (T : Tests K) (B : Reflect K) (coll : Coll K) (sel : ℕ → Bool) (parts : List (RParticle K)) (o : Out K) :
    Option (List (RParticle K)) :=
  if m.ndim = 3 ∨ m.ndim = 2 then
    (getIntersections m cart T coll [1] parts.length ((parts.filter fun q => sel q.base.index).map RParticle.base) o).map fun groups =>
      groups.foldl (fun parts g => g.2.foldl (applyEntry B) parts) parts
  else none

/-- All ranks: the collected geometries and the particles. particle_boundary_conditions.cpp:78-120. -/
structure State (K : Type) where
  ranks : List (Rank K)
  parts : List (List (RParticle K))

/-- What does not change: the grid of cells, the tests of the kernels, the geometries given for each cell, the composites, the number of elements. particle_boundary_conditions.cpp:78-98. -/
structure Env (K : Type) where
  m : MH
  cart : ℕ → K → ℤ
  T : Tests K
  data : ℤ → List (RG K)
  junk : ℤ → List (RG K)
  composites : List ℤ
  numCells : ℕ

/-- What a rank brings to a collective call: the result of `find_cells` (for any order of the atomic operations) and the content of its buffers, with
zero flags (composite_intersection.cpp:852-866). -/
def RankInput (E : Env K) (sel : ℕ → Bool) (parts : List (RParticle K)) (x : Option (List ℤ) × Out K) : Prop :=
  (∃ oldSize, FindCells E.m E.cart E.numCells oldSize ((parts.filter fun q => sel q.base.index).map RParticle.base) x.1) ∧
  parts.length * 3 ≤ x.2.int.length ∧ parts.length * E.m.ndim ≤ x.2.real.length ∧ ∀ i < parts.length, x.2.int[i]? = some 0

/-- `execute` on all ranks: `sel i` are the particles of the sub group of rank `i`. particle_boundary_conditions.cpp:105-120. -/
def executeAll (E : Env K) (B : Reflect K) (sel : ℕ → ℕ → Bool) (s : State K) (inputs : List (Option (List ℤ) × Out K)) : Option (State K) :=
  (inputs.mapM Prod.fst).bind fun cells =>
  (collectAll E.m.ndim E.data E.junk (boundaryGroup E.composites) (s.ranks.zip cells)).bind fun ranks =>
  (((List.range s.parts.length).zip (ranks.zip (s.parts.zip inputs))).mapM fun x =>
    executeRank E.m E.cart E.T B x.2.1.coll (sel x.1) x.2.2.1 x.2.2.2.2).map fun parts => ⟨ranks, parts⟩

/-- The particles of all ranks before `execute`: `pre_advection` and the user's move. particle_boundary_conditions.cpp:100-103. -/
def moved (sel : ℕ → ℕ → Bool) (adv : RParticle K → RParticle K) (parts : List (List (RParticle K))) : List (List (RParticle K)) :=
  parts.mapIdx fun i l => advance (sel i) adv (preAdvection (sel i) l)

/-- A collective call of `pre_advection`, the move and `execute`. `none` is a failure. particle_boundary_conditions.cpp:100-120. -/
def Call (E : Env K) (B : Reflect K) (sel : ℕ → ℕ → Bool) (adv : RParticle K → RParticle K) (s : State K) (res : Option (State K)) : Prop :=
  ∃ inputs : List (Option (List ℤ) × Out K), inputs.length = s.parts.length ∧
    (∀ i l x, (moved sel adv s.parts)[i]? = some l → inputs[i]? = some x → RankInput E (sel i) l x) ∧
    res = executeAll E B sel ⟨s.ranks, moved sel adv s.parts⟩ inputs

end

end Verif.Model.Reflection
