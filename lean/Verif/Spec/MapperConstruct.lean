import Verif.Model.MapperConstruct

/-! The elements and settings of the mappers. -/

namespace Verif.Spec.MapperConstruct
open Verif.Model.GeomContainer Verif.Model.ParameterStore Verif.Model.RemoteGeom Verif.Model.MapperConstruct

variable {K : Type}

/-- The value of a configuration: the value set for the key, or the default if there is none. -/
def ReadsReal (config : Store K) (key : String) (default v : K) : Prop :=
  (config.lookup key = none ∧ v = default) ∨ config.lookup key = some (.real v)
def ReadsInt (config : Store K) (key : String) (default v : ℤ) : Prop :=
  (config.lookup key = none ∧ v = default) ∨ config.lookup key = some (.int v)

/-- The values of a configuration have the types the mappers expect. -/
def WellTyped (config : Store K) : Prop :=
  (∀ k ∈ ["MapParticlesNewton/newton_tol", "MapParticlesNewton/contained_tol", "MapParticlesNewton/num_modes_factor", "MapParticles2DRegular/tol",
    "MapParticles3DRegular/tol", "MapParticlesHost/tol"], ∀ i, config.lookup k ≠ some (.int i)) ∧
  ∀ k ∈ ["MapParticlesNewton/newton_max_iteration", "MapParticlesNewton/grid_size_min", "MapParticles3D/all_generic_newton"], ∀ x,
    config.lookup k ≠ some (.real x)

/-- The settings of a Newton mapper whose elements have at most `numModes` modes; `maxKey` is the key of the upper end of the range of the grid size. -/
def SettingsFrom [DivisionRing K] (maxKey : String) (trunc : K → ℤ) (config : Store K) (numModes : ℕ) (s : NewtonSettings K) : Prop :=
  ReadsReal config "MapParticlesNewton/newton_tol" (1 / 10 ^ 8) s.tol ∧
  ReadsInt config "MapParticlesNewton/newton_max_iteration" 51 s.maxIteration ∧
  ReadsReal config "MapParticlesNewton/contained_tol" s.tol s.containedTol ∧
  ∃ factor lo hi, ReadsReal config "MapParticlesNewton/num_modes_factor" 1 factor ∧ ReadsInt config "MapParticlesNewton/grid_size_min" 2 lo ∧
    ReadsInt config maxKey 4 hi ∧ s.gridSize = min (max (trunc (numModes * factor)) lo) hi

/-- The elements of the rank, and of other ranks, of a mapper that may not exist. -/
def locOf {L R S : Type} : Option (Mapper L R S) → List (ℤ × L)
  | none => []
  | some m => m.loc
def remOf {L R S : Type} : Option (Mapper L R S) → List R
  | none => []
  | some m => m.rem

/-- A mesh of triangles and quadrilaterals: each id belongs to one element, and the lists hold the shapes they are named after. -/
structure Mesh2Ok (m : Mesh2) : Prop where
  ids : ((m.tri ++ m.quad).map Prod.fst).Nodup
  tri : ∀ e ∈ m.tri, e.2.shape = .tri
  quad : ∀ e ∈ m.quad, e.2.shape = .quad
  remoteTri : ∀ r ∈ m.remoteTri, r.geom.shape = .tri
  remoteQuad : ∀ r ∈ m.remoteQuad, r.geom.shape = .quad

/-- The elements of the rank and of other ranks. -/
def elements2 (m : Mesh2) : List (ℤ × Geom2) := m.tri ++ m.quad
def remotes2 (m : Mesh2) : List Remote2 := m.remoteTri ++ m.remoteQuad

/-- Nektar++ knows regular and deformed elements. -/
def Known2 (g : Geom2) : Prop := g.gtype = .eRegular ∨ g.gtype = .eDeformed

/-- A deformed triangle. -/
def DeformedTri (g : Geom2) : Prop := g.gtype = .eDeformed ∧ g.shape = .tri

instance (g : Geom2) : Decidable (DeformedTri g) := by unfold DeformedTri; infer_instance

/-- The elements `MapParticles2D::map` looks at: those of the regular mapper, which is run if there are regular elements, and those of the mapper for
deformed elements. -/
def used2 (M : Mappers2D K) : List (ℤ × Geom2) := (if M.countRegular > 0 then M.regular.loc else []) ++ locOf M.newtonQuad
def usedRemote2 (M : Mappers2D K) : List Remote2 := (if M.countRegular > 0 then M.regular.rem else []) ++ remOf M.newtonQuad

/-- The elements of the device mappers of `MapParticles3D`. -/
def used3 (M : Mappers3D K) : List (ℤ × Geom) :=
  locOf M.regular ++ locOf M.tet ++ locOf M.pyr ++ locOf M.prism ++ locOf M.hex ++ locOf M.nonLinear
def usedRemote3 (M : Mappers3D K) : List Remote :=
  remOf M.regular ++ remOf M.tet ++ remOf M.pyr ++ remOf M.prism ++ remOf M.hex ++ remOf M.nonLinear

/-- The device mappers of `MapParticles3D`: one for regular elements, one for linear elements of each shape, and one for all others. -/
inductive Which where
  | regular
  | linear (s : PolyShape)
  | generic
  deriving DecidableEq

/-- The elements a mapper is meant for. If `allGeneric`, all elements go to the last mapper. -/
def MeantFor (allGeneric : Prop) : Which → Geom → Prop
  | .regular, g => ¬ allGeneric ∧ g.gtype = .eRegular
  | .linear s, g => ¬ allGeneric ∧ g.gtype ≠ .eRegular ∧ (∀ m ∈ g.numModes, m = 2) ∧ g.shape = .poly s
  | .generic, g => allGeneric ∨ g.gtype ≠ .eRegular ∧ ∃ m ∈ g.numModes, m ≠ 2

/-- `n` is the greatest number of modes of the elements, or zero if there is none. -/
def GreatestModes (loc : List (ℤ × Geom)) (rem : List Remote) (n : ℕ) : Prop :=
  (∀ e ∈ loc, ∀ k ∈ e.2.numModes, k ≤ n) ∧ (∀ r ∈ rem, ∀ k ∈ r.geom.numModes, k ≤ n) ∧
  (n = 0 ∨ (∃ e ∈ loc, n ∈ e.2.numModes) ∨ ∃ r ∈ rem, n ∈ r.geom.numModes)

/-- The Newton mapper for a kind of elements. -/
def newtonOf (M : Mappers3D K) : Which → Option (Mapper Geom Remote (Option (NewtonSettings K)))
  | .regular => none
  | .linear .tet => M.tet
  | .linear .pyr => M.pyr
  | .linear .prism => M.prism
  | .linear .hex => M.hex
  | .generic => M.nonLinear

/-- The elements of the mapper for a kind of elements. -/
def locals3 (M : Mappers3D K) : Which → List (ℤ × Geom)
  | .regular => locOf M.regular
  | w => locOf (newtonOf M w)
def remotes3 (M : Mappers3D K) : Which → List Remote
  | .regular => remOf M.regular
  | w => remOf (newtonOf M w)

end Verif.Spec.MapperConstruct
