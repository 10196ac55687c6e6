import Verif.Model.ParallelPic
import Verif.Props.C55_MapChain

/-!
The electrostatic simulation without ranks: one collection of particles. Where a particle is inside of more than one element (on their common boundary, up to the tolerance of the mapping), any of them
may be used for it; this is the only choice that is left open.
-/

namespace Verif.Spec.ParallelPic
open Verif.Model.ParallelPic Verif.Props.C55

variable {K : Type} [Field K] {J U : Type}

/-- The elements that are used for the particles `M`: each is used with an element that contains it. -/
def Located (inside : (ℕ → K) → Set (Assignment K)) (M : Multiset (Body K)) (A : Multiset (Body K × Assignment K)) : Prop :=
  A.map Prod.fst = M ∧ ∀ x ∈ A, x.2 ∈ inside x.1.2

/-- The projected charge: each particle adds its charge times the basis functions. -/
def rhs (E : Elements K J U) (A : Multiset (Body K × Assignment K)) (j : J) : K := (A.map fun x => x.1.1.q * E.basis x.2.cell x.2.ref j).sum

/-- The field solve: `u` is the potential of the charges of `M`, and `M'` are the particles with its gradient. -/
def FieldStep (inside : (ℕ → K) → Set (Assignment K)) (E : Elements K J U) (solve : (J → K) → U) (M : Multiset (Body K)) (u : U) (M' : Multiset (Body K)) : Prop :=
  ∃ A, Located inside M A ∧ u = solve (rhs E A) ∧
    M' = A.map fun x => ({ x.1.1 with e0 := (E.gradient u x.2.cell x.2.ref).1, e1 := (E.gradient u x.2.cell x.2.ref).2 }, x.1.2)

/-- A half of an integrator, with the boundary condition if particles were moved. -/
def half (boundary : (ℕ → K) → (ℕ → K)) (h : Half K) (a : Body K) : Body K := ((h.kernel a).1, if h.moves then boundary (h.kernel a).2 else (h.kernel a).2)

/-- A time step. -/
def TimeStep (inside : (ℕ → K) → Set (Assignment K)) (boundary : (ℕ → K) → (ℕ → K)) (I : Integrator K) (E : Elements K J U) (solve : (J → K) → U) (M : Multiset (Body K)) (u : U)
    (M' : Multiset (Body K)) : Prop :=
  ∃ M1, FieldStep inside E solve (M.map (half boundary I.first)) u M1 ∧ M' = M1.map (half boundary I.second)

/-- The kinetic energy. -/
def kinetic (mass : K) (M : Multiset (Body K)) : K := (M.map fun a => (1 / 2) * mass * (a.1.v0 ^ 2 + a.1.v1 ^ 2 + a.1.v2 ^ 2)).sum

/-- The potential energy: half the sum of charge times potential, where the potential is shifted to mean zero. -/
def Potential (inside : (ℕ → K) → Set (Assignment K)) (E : Elements K J U) (mean : U → K) (u : U) (M : Multiset (Body K)) (v : K) : Prop :=
  ∃ A, Located inside M A ∧ v = (1 / 2) * (A.map fun x => x.1.1.q * (E.value u x.2.cell x.2.ref - mean u)).sum

end Verif.Spec.ParallelPic
