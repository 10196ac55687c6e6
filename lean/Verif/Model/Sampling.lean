import Verif.Model.Trunc
import Verif.Model.Mem

/-!
Model of `/repo/include/particle_utility/particle_initialisation_line.hpp` and
`/repo/include/particle_utility/position_distribution.hpp`.
-/

namespace Verif.Model.Sampling
open Verif.Model Verif.Model.Mem

/-! ### ParticleInitialisationLine -/

variable {K : Type*} [Field K]

/-- Positions (one coordinate) created on one rank, particle_initialisation_line.hpp lines 77-94:
`rstart`, `rend` come from `get_decomp_1d` (NESO-Particles) on line 74. Also returns the global
index of each point. The later redistribution of particles over the ranks (line 98) is NESO-Particles code. -/
def linePoints (npointsTotal : ℕ) (lineStart lineEnd : K) (rstart rend : ℕ) : List (ℕ × K) :=
  let rstep := (lineEnd - lineStart) * (1 / (npointsTotal : K))
  (List.range (rend - rstart)).map
    (fun px => (rstart + px, lineStart + ((rstart + px : ℕ) : K) * rstep))

/-! ### SimpleUniformPointSampler -/

/-- State of a rank's sampler, lines 165-173: `drawn` is the number of values this rank has drawn from
its generator. All ranks seed the same generator with the same seed (lines 198-209), so the generator
is a common stream of values `stream : ℕ → ℤ`. -/
structure Sampler where
  npointsLocal : ℤ
  indexStart : ℤ
  indexEnd : ℤ
  drawn : ℕ
deriving DecidableEq, Repr

/-- Constructor, lines 187-218: `scan` is the result of `MPI_Scan(SUM)` for the rank (the inclusive
prefix sum of `npoints_local`). -/
def mkSampler (npointsLocal scan : ℤ) : Sampler :=
  ⟨npointsLocal, scan - npointsLocal, scan - 1, 0⟩

/-- The samplers of all ranks; `MPI_Scan` gives rank `r` the sum of the first `r+1` counts. particle_initialisation_line.hpp:187-218. -/
def mkSamplers : List ℤ → ℤ → List Sampler
  | [], _ => []
  | n :: ns, acc => mkSampler n (acc + n) :: mkSamplers ns (acc + n)

/-- The sampling loop of `get_samples`, lines 234-240. Returns the pushed local indices. -/
def drawLoop (stream : ℕ → ℤ) (s : Sampler) : ℕ → Sampler × List ℤ
  | 0 => (s, [])
  | n + 1 =>
    let sample := stream s.drawn
    let (s', out) := drawLoop stream { s with drawn := s.drawn + 1 } n
    if sample ≥ s.indexStart ∧ sample ≤ s.indexEnd then (s', (sample - s.indexStart) :: out)
    else (s', out)

/-- `get_samples`, lines 229-244; the return value is the length of the list. -/
def getSamples (stream : ℕ → ℤ) (s : Sampler) (n : ℕ) : Sampler × List ℤ :=
  if s.npointsLocal > 0 then drawLoop stream s n else (s, [])

/-- A history of `get_samples` calls on one rank: the output of each call. No code: calls of particle_initialisation_line.hpp:229-244. -/
def getSamplesHistory (stream : ℕ → ℤ) : Sampler → List ℕ → List (List ℤ)
  | _, [] => []
  | s, n :: ns =>
    let (s', out) := getSamples stream s n
    out :: getSamplesHistory stream s' ns

/-! ### rsequence -/

variable [LinearOrder K]

/-- `std::fmod(x, y)`: `x - trunc(x / y) * y`. Called in position_distribution.hpp:66-69. -/
def fmod [FloorRing K] (x y : K) : K := x - (truncZ (x / y) : K) * y

/-- `rsequence(i, irrational, seed)`, position_distribution.hpp lines 66-69. -/
def rsequence [FloorRing K] (i : ℕ) (irrational seed : K) : K := fmod ((i : K) * irrational + seed) 1

/-- `rsequence_within_extents`, lines 96-116, with the table `INVERSE_GOLDEN_RATIOS` (lines 51-55) as a
parameter. `none` when the table is read out of bounds. -/
def rsequenceWithinExtents [FloorRing K] (table : List K) (N ndim : ℕ) (extents : ℕ → K) (seed : K) :
    Option (List (List K)) :=
  (List.range ndim).mapM fun (d : ℕ) =>
    (read table (d : ℤ)).map fun igr => (List.range N).map fun px => rsequence px igr seed * extents d

/-- `INVERSE_GOLDEN_RATIOS`, lines 51-55. -/
def inverseGoldenRatios : List ℚ :=
  [6180339887498948, 7548776662466927, 8191725133961644, 8566748838545029, 8812714616335696,
   8986537126286992, 9115923534820549, 9215993196339829, 9295701282320229, 9360691110777584].map
    (· / 10 ^ 16)

end Verif.Model.Sampling
