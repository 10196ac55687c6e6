import Verif.Spec.ParallelPic
import Verif.Props.C90_ParallelStep
import Verif.Props.C87_PicLoop

/-!
C91: the electrostatic solvers on several ranks.
-/

namespace Verif.Props.C91
open Verif.Model Verif.Model.ParallelStep Verif.Model.ParallelPic Verif.Model.MapChain Verif.Model.CoarseLookup Verif.Props.C55 Verif.Props.C90 Verif.Spec.ParallelPic Verif.Spec.PicLoop

variable {n : ℕ} {K : Type} [Field K] {J U : Type}

/-! ### Hypotheses -/

/-- What is used of the mesh and its distribution (C90): the boundary condition leads into the domain, every cell of the mesh hierarchy with points of the domain has an owner, the mappers and cell ids
of all ranks are those of the mesh, and every rank has an element. `inside p` are the elements that contain the position `p`. -/
structure WorldOk (dom : (ℕ → K) → Prop) (inside : (ℕ → K) → Set (Assignment K)) (W : World n K) : Prop where
  boundary : ∀ p, dom (W.boundary p)
  owned : ∀ p, dom p → ∃ s : Fin n, W.target p = s.val
  ranks : ∀ p, ∀ a ∈ inside p, ∃ s : Fin n, a.rank = s.val
  mapped : ∀ r, RankOk dom W.target inside r (W.ranks r)
  cells : ∀ r, (W.ranks r).translation.mapToNektar ≠ []

/-- A half of an integrator that is not followed by `transfer_particles` does not move particles. -/
def Half.Ok (h : Half K) : Prop := h.moves = false → ∀ a, (h.kernel a).2 = a.2

theorem verlet_ok (prm : Params K) : Half.Ok (verletIntegrator prm).first ∧ Half.Ok (verletIntegrator prm).second :=
  ⟨fun h => absurd h (by simp [verletIntegrator]), fun _ _ => rfl⟩

theorem boris_ok [DecidableEq K] (prm : Params K) (b : K × K × K) : Half.Ok (borisIntegrator prm b).first ∧ Half.Ok (borisIntegrator prm b).second :=
  ⟨fun _ _ => rfl, fun h => absurd h (by simp [borisIntegrator])⟩

theorem map_mapIdx {α β γ : Type*} (l : List α) (f : ℕ → α → β) (g : β → γ) : (l.mapIdx f).map g = l.mapIdx fun i a => g (f i a) :=
  List.ext_getElem (by simp) fun i h1 h2 => by simp

theorem mapIdx_const {α β : Type*} (l : List α) (f : α → β) : (l.mapIdx fun _ a => f a) = l.map f :=
  List.ext_getElem (by simp) fun i h1 h2 => by simp

/-! ### Sums over all particles -/

/-- The particles of all ranks with the elements of their cells. -/
def located (W : World n K) (S : State n (Charged K) K) : Multiset (Body K × Assignment K) :=
  all fun r => ((S r).mapIdx fun i c => c.map fun a => (((a.1, a.2.pos), ⟨(r.val : ℤ), gid (W.ranks r) i, a.2.ref⟩) : Body K × Assignment K)).flatten

theorem sumAll_eq (W : World n K) (f : ℤ → List K → Body K → K) (S : State n (Charged K) K) :
    sumAll W f S = ((located W S).map fun x => f x.2.cell x.2.ref x.1).sum := by
  unfold sumAll located
  rw [map_all, all, Multiset.sum_sum]
  refine Finset.sum_congr rfl fun r _ => ?_
  rw [Multiset.sum_coe, List.map_flatten, List.sum_flatten]
  congr 1
  rw [List.map_map, map_mapIdx]
  simp only [Function.comp_def, List.map_map]

theorem located_particles (W : World n K) (S : State n (Charged K) K) : (located W S).map Prod.fst = particles S := by
  rw [particles_eq, located, map_all, map_all]
  congr 1
  funext r
  rw [List.map_flatten, map_mapIdx, List.map_flatten]
  congr 1
  simp only [List.map_map, Function.comp_def]
  exact mapIdx_const _ _

theorem located_inside {dom : (ℕ → K) → Prop} {inside : (ℕ → K) → Set (Assignment K)} {W : World n K} {S : State n (Charged K) K} (h : Settled dom inside W.ranks S) :
    ∀ x ∈ located W S, x.2 ∈ inside x.1.2 := by
  intro x hx
  rw [located, all, Multiset.mem_sum] at hx
  obtain ⟨r, -, hx⟩ := hx
  rw [Multiset.mem_coe, List.mem_flatten] at hx
  obtain ⟨l, hl, hx⟩ := hx
  rw [List.mem_mapIdx] at hl
  obtain ⟨i, hi, rfl⟩ := hl
  rw [List.mem_map] at hx
  obtain ⟨a, ha, rfl⟩ := hx
  obtain ⟨-, -, -, g, hg, hin⟩ := (h r).2 i hi a ha
  have : gid (W.ranks r) i = g := by rw [gid, List.getD_eq_getElem?_getD, hg, Option.getD_some]
  dsimp only
  rw [this]
  exact hin

/-! ### The parts of a time step -/

/-- The particles with the gradient of the potential. -/
def withGradient (E : Elements K J U) (u : U) (x : Body K × Assignment K) : Body K :=
  ({ x.1.1 with e0 := (E.gradient u x.2.cell x.2.ref).1, e1 := (E.gradient u x.2.cell x.2.ref).2 }, x.1.2)

theorem computeField_particles (W : World n K) (E : Elements K J U) (solve : (J → K) → U) (S : State n (Charged K) K) :
    particles (computeField W E solve S).1 = (located W S).map (withGradient E (computeField W E solve S).2) := by
  rw [particles_eq, located, map_all, map_all]
  congr 1
  funext r
  rw [List.map_flatten, List.map_flatten, map_mapIdx]
  congr 1
  unfold computeField
  dsimp only
  rw [map_mapIdx]
  simp only [List.map_map, Function.comp_def, withGradient]

theorem computeField_u (W : World n K) (E : Elements K J U) (solve : (J → K) → U) (S : State n (Charged K) K) :
    (computeField W E solve S).2 = solve (rhs E (located W S)) := by
  unfold computeField rhs
  dsimp only
  congr 1
  funext j
  rw [sumAll_eq]

theorem computeField_settled {dom : (ℕ → K) → Prop} {inside : (ℕ → K) → Set (Assignment K)} {W : World n K} (E : Elements K J U) (solve : (J → K) → U) {S : State n (Charged K) K}
    (h : Settled dom inside W.ranks S) : Settled dom inside W.ranks (computeField W E solve S).1 := by
  intro r
  obtain ⟨h1, h2⟩ := h r
  refine ⟨by simpa [computeField] using h1, fun i hi a ha => ?_⟩
  have hi' : i < (S r).length := by simpa [computeField] using hi
  simp only [computeField, List.getElem_mapIdx, List.mem_map] at ha
  obtain ⟨b, hb, rfl⟩ := ha
  exact h2 i hi' b hb

theorem loopAll_particles (f : Body K → Body K) (S : State n (Charged K) K) : particles (loopAll f S) = (particles S).map f := by
  rw [particles_eq, particles_eq, map_all, map_all, map_all]
  congr 1
  funext r
  rw [loopAll, loop_flatten, List.map_map, List.map_map]
  rfl

theorem pushAll_correct {dom : (ℕ → K) → Prop} {inside : (ℕ → K) → Set (Assignment K)} {W : World n K} (hW : WorldOk dom inside W) {h : Half K} (hh : Half.Ok h) {S : State n (Charged K) K}
    (hS : Settled dom inside W.ranks S) :
    ∃ S', pushAll W h S = some S' ∧ particles S' = (particles S).map (half W.boundary h) ∧ Settled dom inside W.ranks S' := by
  have hne : ∀ r, S r ≠ [] := by
    intro r h0
    have := (hS r).1
    rw [h0] at this
    exact hW.cells r (List.length_eq_zero_iff.1 this.symm)
  unfold pushAll
  cases hm : h.moves with
  | true =>
    obtain ⟨S', e, h1, h2⟩ := transfer_correct hW.boundary hW.owned hW.ranks hW.mapped (loopAll h.kernel S) fun r h0 => hne r (by
      simpa [loopAll, particleLoop] using h0)
    refine ⟨S', by simpa using e, ?_, h2⟩
    rw [h1, loopAll_particles, Multiset.map_map]
    refine Multiset.map_congr rfl fun a _ => ?_
    simp [half, hm]
  | false =>
    refine ⟨loopAll h.kernel S, rfl, ?_, ?_⟩
    · rw [loopAll_particles]
      refine Multiset.map_congr rfl fun a _ => ?_
      simp [half, hm]
    · intro r
      obtain ⟨h1, h2⟩ := hS r
      refine ⟨by simpa [loopAll, particleLoop] using h1, fun i hi a ha => ?_⟩
      have hi' : i < (S r).length := by simpa [loopAll, particleLoop] using hi
      simp only [loopAll, particleLoop, List.getElem_map, List.mem_map] at ha
      obtain ⟨b, hb, rfl⟩ := ha
      have := hh hm (b.1, b.2.pos)
      dsimp only at this ⊢
      rw [this]
      exact h2 i hi' b hb

/-! ### The theorems -/

section main
variable {dom : (ℕ → K) → Prop} {inside : (ℕ → K) → Set (Assignment K)} {W : World n K} (hW : WorldOk dom inside W) {I : Integrator K} (h1 : Half.Ok I.first) (h2 : Half.Ok I.second)
  (E : Elements K J U) (solve : (J → K) → U) (mean fieldEnergy : U → K) (mass : K)
include hW h1 h2

/-- **C91, one time step.** From particles that are in the cells of the elements that contain them, a time step completes on all ranks and is a time step of the simulation without ranks; then the
particles are again in the cells of the elements that contain them. The energies are those of the particles of all ranks. -/
theorem step_correct (S : State n (Charged K) K) (hS : Settled dom inside W.ranks S) :
    ∃ S' u, moved (ops W I E solve mean fieldEnergy mass) (some S) = (some S', some u) ∧ TimeStep inside W.boundary I E solve (particles S) u (particles S') ∧ Settled dom inside W.ranks S' := by
  obtain ⟨S1, e1, p1, s1⟩ := pushAll_correct hW h1 hS
  have s2 := computeField_settled E solve s1
  obtain ⟨S3, e3, p3, s3⟩ := pushAll_correct hW h2 s2
  refine ⟨S3, (computeField W E solve S1).2, ?_, ?_, s3⟩
  · unfold moved ops
    simp only [Option.bind_some, e1, Option.map_some, e3]
  · refine ⟨_, ⟨located W S1, ⟨?_, located_inside s1⟩, computeField_u W E solve S1, rfl⟩, ?_⟩
    · rw [located_particles, p1]
    · rw [p3, computeField_particles]
      rfl

/-- **C91, the simulation.** Any number of time steps completes on all ranks. There is a run of the simulation without ranks, which starts with the particles of all ranks, such that after each time
step the particles of all ranks are those of this run, in the cells of the elements that contain them, and the potential is that of this run. -/
theorem simulation (S0 : State n (Charged K) K) (hS : Settled dom inside W.ranks S0) :
    ∃ (M : ℕ → Multiset (Body K)) (u : ℕ → U) (S : ℕ → State n (Charged K) K), M 0 = particles S0 ∧ (∀ k, TimeStep inside W.boundary I E solve (M k) (u k) (M (k + 1))) ∧
      ∀ k, at_ (ops W I E solve mean fieldEnergy mass) (some S0) k = (some (S k), some (u k)) ∧ particles (S k) = M (k + 1) ∧ Settled dom inside W.ranks (S k) := by
  have hb : ∀ k, ∃ S, begin_ (ops W I E solve mean fieldEnergy mass) (some S0) k = some S ∧ Settled dom inside W.ranks S := by
    intro k
    induction k with
    | zero => exact ⟨S0, rfl, hS⟩
    | succ k ih =>
      obtain ⟨S, e, s⟩ := ih
      obtain ⟨S', u, e', -, s'⟩ := step_correct hW h1 h2 E solve mean fieldEnergy mass S s
      refine ⟨S', ?_, s'⟩
      rw [begin_, e, e']
      rfl
  choose B hB hBs using hb
  choose S' u e ts s' using fun k => step_correct hW h1 h2 E solve mean fieldEnergy mass (B k) (hBs k)
  have hnext : ∀ k, B (k + 1) = S' k := by
    intro k
    have := hB (k + 1)
    rw [begin_, hB k, e k] at this
    exact (Option.some.inj this).symm
  refine ⟨fun k => particles (B k), u, S', ?_, fun k => ?_, fun k => ⟨?_, ?_, s' k⟩⟩
  · have := hB 0
    rw [begin_] at this
    rw [Option.some.inj this]
  · dsimp only
    rw [hnext]
    exact ts k
  · rw [at_, hB k, e k]
  · dsimp only
    rw [hnext]

omit hW h1 h2 in
/-- The kinetic energy that is recorded is that of all particles. -/
theorem kinetic_energy (S : State n (Charged K) K) : kineticEnergy W mass S = kinetic mass (particles S) := by
  rw [kineticEnergy, sumAll_eq, kinetic, ← located_particles W, Multiset.map_map]
  congr 1
  refine Multiset.map_congr rfl fun x _ => ?_
  simp only [Function.comp_apply]
  ring

omit hW h1 h2 in
/-- The potential energy that is recorded is that of all particles. -/
theorem potential_energy (S : State n (Charged K) K) (hS : Settled dom inside W.ranks S) (u : U) :
    Potential inside E mean u (particles S) (potentialEnergy W E mean S u) := by
  refine ⟨located W S, ⟨located_particles W S, located_inside hS⟩, ?_⟩
  rw [potentialEnergy, sumAll_eq, mul_comm]
  congr 3
  funext x
  rw [sub_eq_add_neg]

/-- **C91, the file of energies.** The file that the process of rank zero writes has the energies of a run without ranks, at the steps that are due. -/
theorem energies_file (solver : PicLoop.Solver) (c : PicLoop.Config) (garbage : ℤ) (S0 : State n (Charged K) K) (hS : Settled dom inside W.ranks S0) (globals : List (String × Option K))
    (hk : (globals.map Prod.fst).Nodup) :
    ∃ (M : ℕ → Multiset (Body K)) (u : ℕ → U) (pe : ℕ → K), M 0 = particles S0 ∧ (∀ k, TimeStep inside W.boundary I E solve (M k) (u k) (M (k + 1))) ∧
      (∀ k, Potential inside E mean (u k) (M (k + 1)) (pe k)) ∧
      (PicLoop.run solver (ops W I E solve mean fieldEnergy mass) c garbage (PicLoop.St.init (some S0) none globals)).writer.groups =
        if c.rank = 0 then (dueSteps c.writeEnergy c.numTimeSteps.toNat).map fun (k : ℕ) => ((k : ℤ),
          [("field_energy", some (fieldEnergy (u k))), ("kinetic_energy", some (kinetic mass (M (k + 1)))), ("potential_energy", some (pe k))]) else [] := by
  obtain ⟨M, u, S, e0, hts, h⟩ := simulation hW h1 h2 E solve mean fieldEnergy mass S0 hS
  refine ⟨M, u, fun k => potentialEnergy W E mean (S k) (u k), e0, hts, fun k => ?_, ?_⟩
  · rw [← (h k).2.1]
    exact potential_energy E mean (S k) (h k).2.2 (u k)
  · rw [(C87.energy_file solver (ops W I E solve mean fieldEnergy mass) c garbage (some S0) none globals hk).1]
    congr 1
    refine List.map_congr_left fun k _ => ?_
    rw [(h k).1, ← (h k).2.1, ← kinetic_energy (W := W)]
    rfl

end main

/-! ### Conservation -/

section conservation
variable {inside : (ℕ → K) → Set (Assignment K)} {boundary : (ℕ → K) → (ℕ → K)} {E : Elements K J U} {solve : (J → K) → U}

/-- Charge and mass of a particle. -/
def label (a : Body K) : K × K := (a.1.q, a.1.m)

/-- The integrator keeps charge and mass. -/
def Integrator.Keeps (I : Integrator K) : Prop := (∀ a, label (I.first.kernel a) = label a) ∧ ∀ a, label (I.second.kernel a) = label a

theorem verlet_keeps (prm : Params K) : Integrator.Keeps (verletIntegrator prm) := ⟨fun _ => rfl, fun _ => rfl⟩

theorem boris_keeps [DecidableEq K] (prm : Params K) (b : K × K × K) : Integrator.Keeps (borisIntegrator prm b) := by
  refine ⟨fun _ => rfl, fun a => ?_⟩
  simp only [borisIntegrator, boris2]
  split <;> rfl

/-- **C91, conservation.** In a time step no particle is lost or added, and each keeps its charge and mass. -/
theorem labels_kept {I : Integrator K} (hI : Integrator.Keeps I) {M M' : Multiset (Body K)} {u : U} (h : TimeStep inside boundary I E solve M u M') : M'.map label = M.map label := by
  obtain ⟨M1, ⟨A, ⟨hA, -⟩, -, hM1⟩, rfl⟩ := h
  have l2 : ∀ x : Body K, label (half boundary I.second x) = label x := fun x => hI.2 x
  have l1 : ∀ x : Body K, label (half boundary I.first x) = label x := fun x => hI.1 x
  rw [Multiset.map_map]
  simp only [Function.comp_def, l2]
  rw [hM1, Multiset.map_map]
  have : M.map label = (M.map (half boundary I.first)).map label := by
    rw [Multiset.map_map]; simp only [Function.comp_def, l1]
  rw [this, ← hA, Multiset.map_map]
  rfl

/-- **C91, the projected charge.** If a combination of the basis functions is one everywhere, then the same combination of the projected charges is the total charge of the particles, at each time step. -/
theorem projected_charge [Fintype J] {I : Integrator K} (hI : Integrator.Keeps I) (c : J → K) (hc : ∀ p, ∀ a ∈ inside p, ∑ j, c j * E.basis a.cell a.ref j = 1) {M M' : Multiset (Body K)} {u : U}
    (h : TimeStep inside boundary I E solve M u M') : ∃ rho : J → K, u = solve rho ∧ ∑ j, c j * rho j = (M.map fun a => a.1.q).sum := by
  obtain ⟨M1, ⟨A, ⟨hA, hin⟩, hu, -⟩, -⟩ := h
  refine ⟨rhs E A, hu, ?_⟩
  have l1 : ∀ x : Body K, (half boundary I.first x).1.q = x.1.q := fun x => congrArg Prod.fst (hI.1 x)
  have e1 : (M.map fun a => a.1.q).sum = (A.map fun x => x.1.1.q).sum := by
    have : M.map (fun a => a.1.q) = (M.map (half boundary I.first)).map fun a => a.1.q := by
      rw [Multiset.map_map]; simp only [Function.comp_def, l1]
    rw [this, ← hA, Multiset.map_map]
    rfl
  have : ∀ A : Multiset (Body K × Assignment K), (∀ x ∈ A, x.2 ∈ inside x.1.2) → ∑ j, c j * rhs E A j = (A.map fun x => x.1.1.q).sum := by
    intro A
    induction A using Multiset.induction_on with
    | empty => intro _; simp [rhs]
    | cons x A ih =>
      intro hx
      have h1 := hc _ _ (hx x (Multiset.mem_cons_self _ _))
      have h2 := ih fun y hy => hx y (Multiset.mem_cons_of_mem hy)
      rw [Multiset.map_cons, Multiset.sum_cons, ← h2]
      have : x.1.1.q = ∑ j, c j * (x.1.1.q * E.basis x.2.cell x.2.ref j) := by
        calc x.1.1.q = x.1.1.q * ∑ j, c j * E.basis x.2.cell x.2.ref j := by rw [h1, mul_one]
          _ = _ := by rw [Finset.mul_sum]; exact Finset.sum_congr rfl fun j _ => by ring
      rw [this, ← Finset.sum_add_distrib]
      refine Finset.sum_congr rfl fun j _ => ?_
      simp only [rhs, Multiset.map_cons, Multiset.sum_cons]
      rw [mul_add]
  rw [this A hin, e1]

end conservation

/-! ### The number of ranks -/

section ranks

/-- The values of the basis functions and of potentials at a position are the same in all elements that contain it. -/
structure SingleValued (inside : (ℕ → K) → Set (Assignment K)) (E : Elements K J U) (basis : (ℕ → K) → J → K) (value : U → (ℕ → K) → K) (gradient : U → (ℕ → K) → K × K) : Prop where
  basis : ∀ p, ∀ a ∈ inside p, E.basis a.cell a.ref = basis p
  value : ∀ u p, ∀ a ∈ inside p, E.value u a.cell a.ref = value u p
  gradient : ∀ u p, ∀ a ∈ inside p, E.gradient u a.cell a.ref = gradient u p

variable {inside : (ℕ → K) → Set (Assignment K)} {boundary : (ℕ → K) → (ℕ → K)} {E : Elements K J U} {solve : (J → K) → U} {basis : (ℕ → K) → J → K} {value : U → (ℕ → K) → K}
  {gradient : U → (ℕ → K) → K × K}

/-- The potential of particles. -/
def potentialOf (solve : (J → K) → U) (basis : (ℕ → K) → J → K) (M : Multiset (Body K)) : U := solve fun j => (M.map fun a => a.1.q * basis a.2 j).sum

/-- A particle with the gradient of a potential. -/
def atGradient (gradient : U → (ℕ → K) → K × K) (u : U) (a : Body K) : Body K := ({ a.1 with e0 := (gradient u a.2).1, e1 := (gradient u a.2).2 }, a.2)

/-- Then the time step has one result. -/
theorem timeStep_eq (hc : SingleValued inside E basis value gradient) {I : Integrator K} {M M' : Multiset (Body K)} {u : U} (h : TimeStep inside boundary I E solve M u M') :
    u = potentialOf solve basis (M.map (half boundary I.first)) ∧ M' = ((M.map (half boundary I.first)).map (atGradient gradient u)).map (half boundary I.second) := by
  obtain ⟨M1, ⟨A, ⟨hA, hin⟩, hu, hM1⟩, rfl⟩ := h
  rw [← hA]
  have e : rhs E A = fun j => ((A.map Prod.fst).map fun a => a.1.q * basis a.2 j).sum := by
    funext j
    rw [rhs, Multiset.map_map]
    congr 1
    exact Multiset.map_congr rfl fun x hx => by simp only [Function.comp_apply, hc.basis _ _ (hin x hx)]
  refine ⟨by rw [hu, e, potentialOf], ?_⟩
  congr 1
  rw [hM1, Multiset.map_map]
  exact Multiset.map_congr rfl fun x hx => by simp only [Function.comp_apply, atGradient, hc.gradient _ _ _ (hin x hx)]

theorem potential_eq (hc : SingleValued inside E basis value gradient) {mean : U → K} {u : U} {M : Multiset (Body K)} {v : K} (h : Potential inside E mean u M v) :
    v = (1 / 2) * (M.map fun a => a.1.q * (value u a.2 - mean u)).sum := by
  obtain ⟨A, ⟨hA, hin⟩, rfl⟩ := h
  rw [← hA, Multiset.map_map]
  congr 2
  exact Multiset.map_congr rfl fun x hx => by simp only [Function.comp_apply, hc.value _ _ _ (hin x hx)]

variable {n' : ℕ} {dom : (ℕ → K) → Prop} {inside' : (ℕ → K) → Set (Assignment K)} {E' : Elements K J U} {W : World n K} {W' : World n' K}

/-- **C91, the number of processes is not observable.** Two simulations of the same particles on the same mesh with different numbers of ranks and distributions of the mesh. If basis functions, potential and
gradient at a position are the same in all elements that contain it, then the two files of energies are the same, and so are the particles and the potential of each time step. -/
theorem ranks_not_observable (hc : SingleValued inside E basis value gradient) (hc' : SingleValued inside' E' basis value gradient) (hW : WorldOk dom inside W) (hW' : WorldOk dom inside' W')
    (hbd : W'.boundary = W.boundary) {I : Integrator K} (h1 : Half.Ok I.first) (h2 : Half.Ok I.second) (mean fieldEnergy : U → K) (mass : K)
    (S0 : State n (Charged K) K) (hS : Settled dom inside W.ranks S0) (S0' : State n' (Charged K) K) (hS' : Settled dom inside' W'.ranks S0') (h0 : particles S0 = particles S0') :
    (∀ k, ∃ S S' u, at_ (ops W I E solve mean fieldEnergy mass) (some S0) k = (some S, some u) ∧ at_ (ops W' I E' solve mean fieldEnergy mass) (some S0') k = (some S', some u) ∧
      particles S = particles S') ∧
    ∀ (solver : PicLoop.Solver) (c : PicLoop.Config) (garbage garbage' : ℤ) (globals : List (String × Option K)), (globals.map Prod.fst).Nodup →
      (PicLoop.run solver (ops W I E solve mean fieldEnergy mass) c garbage (PicLoop.St.init (some S0) none globals)).writer.groups =
      (PicLoop.run solver (ops W' I E' solve mean fieldEnergy mass) c garbage' (PicLoop.St.init (some S0') none globals)).writer.groups := by
  obtain ⟨M, u, S, e0, hts, h⟩ := simulation hW h1 h2 E solve mean fieldEnergy mass S0 hS
  obtain ⟨M', u', S', e0', hts', h'⟩ := simulation hW' h1 h2 E' solve mean fieldEnergy mass S0' hS'
  have hM : ∀ k, M k = M' k := by
    intro k
    induction k with
    | zero => rw [e0, e0', h0]
    | succ k ih =>
      obtain ⟨a1, a2⟩ := timeStep_eq hc (hts k)
      obtain ⟨b1, b2⟩ := timeStep_eq hc' (hts' k)
      rw [a2, b2, a1, b1, ih, hbd]
  have hu : ∀ k, u k = u' k := by
    intro k
    rw [(timeStep_eq hc (hts k)).1, (timeStep_eq hc' (hts' k)).1, hM k, hbd]
  refine ⟨fun k => ⟨S k, S' k, u k, (h k).1, ?_, ?_⟩, fun solver c garbage garbage' globals hk => ?_⟩
  · rw [(h' k).1, hu k]
  · rw [(h k).2.1, (h' k).2.1, hM]
  · rw [(C87.energy_file solver (ops W I E solve mean fieldEnergy mass) c garbage (some S0) none globals hk).1,
      (C87.energy_file solver (ops W' I E' solve mean fieldEnergy mass) c garbage' (some S0') none globals hk).1]
    congr 1
    refine List.map_congr_left fun k _ => ?_
    have e1 : kineticEnergy W mass (S k) = kineticEnergy W' mass (S' k) := by
      rw [kinetic_energy, kinetic_energy, (h k).2.1, (h' k).2.1, hM]
    have e2 : potentialEnergy W E mean (S k) (u' k) = potentialEnergy W' E' mean (S' k) (u' k) := by
      rw [potential_eq hc (potential_energy E mean (S k) (h k).2.2 (u' k)), potential_eq hc' (potential_energy E' mean (S' k) (h' k).2.2 (u' k)), (h k).2.1, (h' k).2.1, hM]
    rw [(h k).1, (h' k).1]
    simp only [ops, Option.map_some, Option.bind_some, e1, hu, e2]

end ranks

/-! ### The integrators are those of the other properties -/

section integrators
open Verif.Model.Electrostatic

/-- A particle of `Model/Electrostatic.lean`. -/
def toParticle (a : Body ℝ) : Particle := ⟨(a.2 0, a.2 1), a.1.v0, a.1.v1, a.1.v2, a.1.q, a.1.m, (a.1.e0, a.1.e1)⟩

/-- Velocity Verlet is that of properties C65 and C66, Boris is that of C51 and C87. -/
theorem same_integrators (dt eCoefficient : ℝ) (origin extent : ℝ × ℝ) (b : ℝ × ℝ × ℝ) (boundary : (ℕ → ℝ) → (ℕ → ℝ))
    (hb : ∀ p, ((boundary p) 0, (boundary p) 1) = periodic ⟨dt, eCoefficient, origin, extent⟩ (p 0, p 1)) (a : Body ℝ) :
    toParticle (half boundary (verletIntegrator ⟨dt, eCoefficient⟩).first a) = Electrostatic.verlet1 ⟨dt, eCoefficient, origin, extent⟩ (toParticle a) ∧
    toParticle (half boundary (verletIntegrator ⟨dt, eCoefficient⟩).second a) = Electrostatic.verlet2 ⟨dt, eCoefficient, origin, extent⟩ (toParticle a) ∧
    toParticle (half boundary (borisIntegrator ⟨dt, eCoefficient⟩ b).first a) = toParticle a ∧
    (a.1.m ≠ 0 → toParticle (half boundary (borisIntegrator ⟨dt, eCoefficient⟩ b).second a) = PicLoop.boris2P ⟨dt, eCoefficient, origin, extent⟩ b (toParticle a)) := by
  refine ⟨?_, rfl, rfl, fun hm => ?_⟩
  · simp only [toParticle, half, verletIntegrator, if_true, hb, Electrostatic.verlet1, halfKick, ParallelPic.verlet1, kick]
    rfl
  · simp only [toParticle, half, borisIntegrator, if_true, hb, PicLoop.boris2P, ParallelPic.boris2]
    rcases hr : Boris.boris2 (⟨dt, b.1, b.2.1, b.2.2, eCoefficient⟩ : Boris.Params ℝ) ⟨a.2 0, a.2 1, ⟨a.1.v0, a.1.v1, a.1.v2⟩, a.1.m, a.1.q, a.1.e0, a.1.e1⟩ with _ | r
    · rw [Boris.boris2, if_neg hm] at hr
      exact absurd hr (by simp)
    · rfl

end integrators

end Verif.Props.C91
