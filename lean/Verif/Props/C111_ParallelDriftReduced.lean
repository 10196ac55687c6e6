import Verif.Spec.ParallelDriftReduced
import Verif.Props.C110_ParallelNeutral
import Verif.Props.C62_Ionisation

/-!
# C111: the neutral particles of DriftReduced do not depend on the ranks

Users rely on running the DriftReduced solvers with particles on any number of ranks: the initial particles are created once, with unique identities, and reach their ranks; each particle is moved in the periodic domain and
ionised once in each sub step with the density in an element that contains it; none is lost or duplicated; the density source of the fluid is a sum over all particles.
-/

namespace Verif.Props.C111
open Verif.Model Verif.Model.ParallelDR Verif.Model.ParallelStep Verif.Model.MapChain Verif.Model.CoarseLookup Verif.Model.LineInit Verif.Model.NeutralSystem Verif.Spec.ParallelDR
open Verif.Model.ParallelPic (World gid)
open Verif.Props.C55 (Assignment)
open Verif.Props.C90 (RankOk Settled all map_all particles_eq loop_flatten forRanks_some)
open Verif.Props.C91 (WorldOk map_mapIdx mapIdx_const)
open Verif.Props.C110 (filter_all all_append)

variable {n : ℕ} {J : Type} {dom : (ℕ → ℝ) → Prop} {inside : (ℕ → ℝ) → Set (Assignment ℝ)} {C : Setup n}

/-- The numbers and the density of the simulation. -/
noncomputable def physics (C : Setup n) : Physics := ⟨C.cfg, C.world.boundary, C.fieldN⟩

/-- The particles of all ranks with the elements of their cells. -/
def located (W : World n ℝ) (S : State n Tagged ℝ) : Multiset (Body × Assignment ℝ) := (C110.located W S).map fun x => ((x.1.1.1, x.1.2), x.2)

theorem located_bodies (W : World n ℝ) (S : State n Tagged ℝ) : (located W S).map Prod.fst = bodies S := by
  rw [bodies, ← C110.located_particles W S, located, Multiset.map_map, Multiset.map_map]
  rfl

theorem located_inside {W : World n ℝ} {S : State n Tagged ℝ} (h : Settled dom inside W.ranks S) : ∀ x ∈ located W S, x.2 ∈ inside x.1.2 := by
  intro x hx
  obtain ⟨y, hy, rfl⟩ := Multiset.mem_map.1 hx
  exact C110.located_inside h y hy

/-! ### Particle loops and transfers -/

theorem loopAll_particles (f : Tagged × (ℕ → ℝ) → Tagged × (ℕ → ℝ)) (S : State n Tagged ℝ) : particles (ParallelDR.loopAll f S) = (particles S).map f := by
  rw [particles_eq, particles_eq, map_all, map_all, map_all]
  congr 1
  funext r
  rw [ParallelDR.loopAll, loop_flatten, List.map_map, List.map_map]
  rfl

theorem loopAll_length (f : Tagged × (ℕ → ℝ) → Tagged × (ℕ → ℝ)) (S : State n Tagged ℝ) (r : Fin n) : (ParallelDR.loopAll f S r).length = (S r).length := by
  simp [ParallelDR.loopAll, particleLoop]

/-- The cells of the ranks. -/
def Cells (C : Setup n) (S : State n Tagged ℝ) : Prop := ∀ r, (S r).length = (C.world.ranks r).translation.mapToNektar.length

theorem transfer_correct (hW : WorldOk dom inside C.world) (hp : C.cfg.fullyPeriodic = true) {S : State n Tagged ℝ} (hS : Cells C S) :
    ∃ S', transferParticles C S = some S' ∧ Settled dom inside C.world.ranks S' ∧ particles S' = (particles S).map fun a => (a.1, C.world.boundary a.2) := by
  obtain ⟨S', e, h1, h2⟩ := C90.transfer_correct hW.boundary hW.owned hW.ranks hW.mapped S (fun r h0 => by
    have := hS r
    rw [h0] at this
    exact hW.cells r (List.length_eq_zero_iff.1 this.symm))
  exact ⟨S', by rw [transferParticles, if_pos hp, e], h2, h1⟩

/-! ### The initial particles -/

/-- What the ranks create, as bodies. -/
noncomputable def new (C : Setup n) (total : ℕ) (r : Fin n) : List Body := (created C total r).map fun a => (a.1.1, a.2.pos)

/-- The rounds of the parallel advection: whatever positions are used, the particles and their stored positions are kept. -/
theorem rounds_correct (hW : WorldOk dom inside C.world) (hp : C.cfg.fullyPeriodic = true) (ks : List ℕ) : ∀ {S : State n Tagged ℝ}, Cells C S →
    ∃ S', ks.foldlM (fun S k => transferParticles C (advect C k S)) S = some S' ∧ Cells C S' ∧ (particles S').map Prod.fst = (particles S).map Prod.fst := by
  induction ks with
  | nil => intro S hS; exact ⟨S, rfl, hS, rfl⟩
  | cons k ks ih =>
    intro S hS
    obtain ⟨S1, e1, h1, p1⟩ := transfer_correct hW hp (S := advect C k S) (fun r => by rw [advect, loopAll_length]; exact hS r)
    obtain ⟨S2, e2, h2, p2⟩ := ih (S := S1) fun r => (h1 r).1
    refine ⟨S2, by rw [List.foldlM_cons, e1]; exact e2, h2, ?_⟩
    rw [p2, p1, advect, loopAll_particles, Multiset.map_map, Multiset.map_map]
    rfl

/-- **C111, new particles.** `add_particles` completes on all ranks; afterwards there are the particles of before and those that the ranks create, each at its position in the periodic domain, whatever positions the
parallel advection uses in between; and each is in the cell of an element that contains it. -/
theorem addParticles_correct (hW : WorldOk dom inside C.world) (hp : C.cfg.fullyPeriodic = true) {s : Sys n} (hS : Cells C s.group) :
    ∃ s', addParticles C s = some s' ∧ Settled dom inside C.world.ranks s'.group ∧ bodies s'.group = (bodies s.group + all (new C s.totalAdded)).map (fun a => (a.1, C.world.boundary a.2)) ∧
      s'.totalAdded = s.totalAdded + C.cfg.numPartsTot ∧ s'.clock = s.clock ∧ s'.simulationTime = s.simulationTime := by
  obtain ⟨S1, e1, h1⟩ := forRanks_some (f := fun r => addLocal (s.group r) (created C s.totalAdded r)) (P := fun r g' => g'.length = (s.group r).length ∧
      (g'.flatten : Multiset (Tagged × Particle ℝ)) = (s.group r).flatten + (created C s.totalAdded r : Multiset (Tagged × Particle ℝ))) (fun r => by
    obtain ⟨g, e, l, m, -⟩ := Verif.Lemmas.LineInit.addLocal_spec (s.group r) (created C s.totalAdded r) (fun a ha => by
      obtain ⟨i, -, rfl⟩ := List.mem_map.1 ha
      have hpos : 0 < (C.world.ranks r).translation.mapToNektar.length := List.length_pos_of_ne_nil (hW.cells r)
      dsimp only
      rw [hS r]
      have := Nat.mod_lt i hpos
      omega)
    exact ⟨g, e, l, m⟩)
  have hc1 : Cells C S1 := fun r => by rw [(h1 r).2.1, hS r]
  have hp1 : bodies S1 = bodies s.group + all (new C s.totalAdded) := by
    unfold bodies
    rw [particles_eq, particles_eq, Multiset.map_map, Multiset.map_map, map_all, map_all]
    unfold all
    rw [← Finset.sum_add_distrib]
    refine Finset.sum_congr rfl fun r _ => ?_
    rw [← Multiset.map_coe, (h1 r).2.2, Multiset.map_add]
    rfl
  obtain ⟨S2, e2, h2, p2⟩ := rounds_correct hW hp (List.range 20) (S := store C S1) (fun r => by rw [store, loopAll_length]; exact hc1 r)
  obtain ⟨S3, e3, h3, p3⟩ := transfer_correct hW hp (S := restore S2) (fun r => by rw [restore, loopAll_length]; exact h2 r)
  refine ⟨{ s with group := S3, totalAdded := s.totalAdded + C.cfg.numPartsTot }, ?_, h3, ?_, rfl, rfl, rfl⟩
  · rw [addParticles, e1, Option.bind_some, e2, Option.bind_some, e3, Option.map_some]
  · dsimp only
    rw [← hp1]
    have hst : (particles (store C S1)).map Prod.fst = (particles S1).map fun a => (a.1.1, a.2) := by
      rw [store, loopAll_particles, Multiset.map_map]
      rfl
    have hre : bodies S3 = ((particles S2).map Prod.fst).map fun a : Tagged => ((a.1, C.world.boundary a.2) : Body) := by
      rw [bodies, p3, restore, loopAll_particles]
      simp only [Multiset.map_map]
      rfl
    rw [hre, p2, hst, bodies]

/-- The decomposition of all particles: rank `r` creates those from `split r` to `split (r + 1) - 1`. The contract of `get_decomp_1d` (external). -/
structure SplitOk (C : Setup n) : Prop where
  first : C.split 0 = 0
  mono : ∀ r < n, C.split r ≤ C.split (r + 1)
  last : C.split n = C.cfg.numPartsTot

theorem split_sum {α : Type*} (b : ℕ → ℕ) (h0 : b 0 = 0) (f : ℕ → α) (k : ℕ) (h : ∀ r < k, b r ≤ b (r + 1)) :
    ∑ r ∈ Finset.range k, (((List.range (b (r + 1) - b r)).map fun i => f (i + b r) : List α) : Multiset α) = ((List.range (b k)).map f : List α) := by
  induction k with
  | zero => simp [h0]
  | succ k ih =>
    rw [Finset.sum_range_succ, ih fun r hr => h r (by omega)]
    have hk := h k (by omega)
    obtain ⟨d, hd⟩ := Nat.exists_eq_add_of_le hk
    rw [hd, Nat.add_sub_cancel_left, List.range_add, List.map_append, List.map_map, Multiset.coe_add]
    congr 2
    refine List.map_congr_left fun i _ => ?_
    simp [Nat.add_comm]

/-- The created particles have the identities of the next numbers, each once, and fresh weights. -/
theorem new_ids (hd : SplitOk C) (total : ℕ) : (all (new C total)).map (fun a => a.1.id) = ((List.range C.cfg.numPartsTot).map fun i => ((i + total : ℕ) : ℤ) : List ℤ) := by
  rw [map_all, all, ← hd.last, ← split_sum C.split hd.first (fun i => ((i + total : ℕ) : ℤ)) n hd.mono, Finset.sum_range]
  refine Finset.sum_congr rfl fun r _ => ?_
  simp only [new, ParallelDR.created, List.map_map]
  rfl

theorem new_fresh (total : ℕ) : ∀ a ∈ all (new C total), a.1.weight = C.cfg.particleWeight ∧ a.1.sourceDensity = 0 := by
  intro a ha
  rw [all, Multiset.mem_sum] at ha
  obtain ⟨r, -, ha⟩ := ha
  rw [Multiset.mem_coe, new, List.mem_map] at ha
  obtain ⟨b, hb, rfl⟩ := ha
  obtain ⟨i, -, rfl⟩ := List.mem_map.1 hb
  exact ⟨rfl, rfl⟩

/-- **C111, what is created.** Rank `r` creates one particle for each number of its part; particle `i` has its own random numbers: its velocity, and its distance from the centre of the source (half of the extent of the
domain in the third direction; for the centre itself see C102). -/
theorem new_drawn (total : ℕ) (r : Fin n) : (new C total r).length = C.split (r + 1) - C.split r ∧ ∀ i a, (new C total r)[i]? = some a → a.1.id = ((C.split r + i + total : ℕ) : ℤ) ∧
    (∀ d < 3, a.1.vel d = C.velocity r i d) ∧ a.2 0 = C.normal r i 0 ∧ a.2 1 = C.normal r i 1 ∧ a.2 2 = C.normal r i 2 + (C.extent 2 - C.origin 2) / 2 := by
  refine ⟨by simp [new, ParallelDR.created], fun i a ha => ?_⟩
  simp only [new, ParallelDR.created, List.map_map, List.getElem?_map, Option.map_eq_some_iff] at ha
  obtain ⟨j, hj, rfl⟩ := ha
  obtain ⟨hlt, rfl⟩ := List.getElem?_eq_some_iff.1 hj
  simp only [List.getElem_range, Function.comp_apply, NeutralSetup.centreDR]
  refine ⟨?_, fun d hd => by rw [if_pos hd], ?_, ?_, ?_⟩
  · push_cast
    ring
  all_goals norm_num

/-- **C111, the start.** From empty cells, `add_particles` completes and gives `num_particles_total` particles on all ranks together, with the identities 0, 1, ..., each once. -/
theorem initial (hW : WorldOk dom inside C.world) (hp : C.cfg.fullyPeriodic = true) (hd : SplitOk C) {s : Sys n} (hS : Cells C s.group) (h0 : bodies s.group = 0) (ht : s.totalAdded = 0) :
    ∃ s', addParticles C s = some s' ∧ Settled dom inside C.world.ranks s'.group ∧ Initial C.cfg dom (bodies s'.group) ∧ s'.totalAdded = C.cfg.numPartsTot ∧ s'.clock = s.clock ∧ s'.simulationTime = s.simulationTime := by
  obtain ⟨s', e, h1, h2, h3, h4, h5⟩ := addParticles_correct hW hp hS
  refine ⟨s', e, h1, ⟨?_, fun a ha => ?_⟩, by rw [h3, ht, Nat.zero_add], h4, h5⟩
  · rw [h2, h0, zero_add, Multiset.map_map]
    exact (new_ids hd s.totalAdded).trans (by rw [ht]; rfl)
  · rw [h2, h0, zero_add] at ha
    obtain ⟨b, hb, rfl⟩ := Multiset.mem_map.1 ha
    obtain ⟨k1, k2⟩ := new_fresh s.totalAdded b hb
    exact ⟨k1, k2, hW.boundary _⟩

/-! ### Motion -/

/-- **C111, motion.** `forward_euler` completes and moves all particles in the periodic domain; then each is in the cell of an element that contains it. -/
theorem forwardEuler_correct (hW : WorldOk dom inside C.world) (hp : C.cfg.fullyPeriodic = true) (dt : ℝ) {S : State n Tagged ℝ} (hS : Cells C S) :
    ∃ S', forwardEuler C dt S = some S' ∧ Settled dom inside C.world.ranks S' ∧ bodies S' = (bodies S).map (moved (physics C) dt) := by
  obtain ⟨S', e, h1, p1⟩ := transfer_correct hW hp (S := ParallelDR.loopAll (euler dt) S) (fun r => by rw [loopAll_length]; exact hS r)
  refine ⟨S', e, h1, ?_⟩
  rw [bodies, p1, loopAll_particles, bodies]
  simp only [Multiset.map_map]
  rfl

/-! ### Ionisation -/

/-- The particle after the ionisation. -/
noncomputable def ionOf (H : Physics) (k : ℕ) (dt : ℝ) (x : Body × Assignment ℝ) : Body :=
  match Ionisation.ioniseDR H.cfg.prm H.cfg.TeV dt (H.cfg.nBgSI + H.fieldN k x.2.cell x.2.ref * H.cfg.prm.nToSI) (toParticle x.1.1) with
  | some p => (⟨x.1.1.vel, p.id, p.weight, p.sourceDensity⟩, x.1.2)
  | none => x.1

theorem ioniseDR_some {prm : Ionisation.Params} {dt nSI TeV : ℝ} (h : 0 < TeV) (a : Neutral) :
    ∃ q, Ionisation.ioniseDR prm TeV dt nSI (toParticle a) = some q ∧ q = toParticle ⟨a.vel, q.id, q.weight, q.sourceDensity⟩ := by
  unfold Ionisation.ioniseDR Ionisation.ionRate
  rw [if_neg (not_le.2 h)]
  exact ⟨_, rfl, rfl⟩

theorem ionOf_ionised {H : Physics} {k : ℕ} {dt : ℝ} {x : Body × Assignment ℝ} (h : 0 < H.cfg.TeV) : Ionised H k dt x (ionOf H k dt x) := by
  obtain ⟨q, e, hq⟩ := ioniseDR_some (prm := H.cfg.prm) (dt := dt) (nSI := H.cfg.nBgSI + H.fieldN k x.2.cell x.2.ref * H.cfg.prm.nToSI) h x.1.1
  unfold Ionised ionOf
  rw [e]
  exact ⟨rfl, rfl, congrArg some hq⟩

/-- **C111, ionisation.** `ionise` completes for a positive temperature; each particle is ionised once, with the density in the element of its cell. -/
theorem ionise_correct (k : ℕ) (dt : ℝ) {S : State n Tagged ℝ} (hS : Settled dom inside C.world.ranks S) (hT : 0 < C.cfg.TeV) :
    ∃ S', ionise C k dt S = some S' ∧ Settled dom inside C.world.ranks S' ∧ Multiset.Rel (Ionised (physics C) k dt) (located C.world S) (bodies S') := by
  set S' : State n Tagged ℝ := fun r => (S r).mapIdx fun i c => c.map fun a =>
    (((ionOf (physics C) k dt ((a.1.1, a.2.pos), ⟨(r.val : ℤ), gid (C.world.ranks r) i, a.2.ref⟩)).1, a.1.2), a.2) with hS'
  have hcell : ∀ r (i : ℕ) (c : List (Tagged × Particle ℝ)), ioniseCell C k dt (gid (C.world.ranks r) i) c =
      some (c.map fun a => (((ionOf (physics C) k dt ((a.1.1, a.2.pos), ⟨(r.val : ℤ), gid (C.world.ranks r) i, a.2.ref⟩)).1, a.1.2), a.2)) := by
    intro r i c
    refine C108.mapM_some _ fun a _ => ?_
    obtain ⟨q, e, hq⟩ := ioniseDR_some (prm := C.cfg.prm) (dt := dt) (nSI := C.cfg.nBgSI + C.fieldN k (gid (C.world.ranks r) i) a.2.ref * C.cfg.prm.nToSI) hT a.1.1
    rw [e, Option.map_some]
    unfold ionOf physics
    dsimp only
    rw [e]
  have he : ionise C k dt S = some S' := by
    have hr : ∀ r, ((S r).zipIdx.mapM fun c => ioniseCell C k dt (gid (C.world.ranks r) c.2) c.1) = some (S' r) := by
      intro r
      rw [C108.mapM_some (g := fun c : List (Tagged × Particle ℝ) × ℕ => c.1.map fun a =>
        (((ionOf (physics C) k dt ((a.1.1, a.2.pos), ⟨(r.val : ℤ), gid (C.world.ranks r) c.2, a.2.ref⟩)).1, a.1.2), a.2)) (S r).zipIdx (by
          intro c _
          exact hcell r c.2 c.1)]
      rw [hS']
      congr 1
      refine List.ext_getElem (by simp) fun i h1 h2 => by simp
    obtain ⟨g, e, hg⟩ := forRanks_some (f := fun r => (S r).zipIdx.mapM fun c => ioniseCell C k dt (gid (C.world.ranks r) c.2) c.1) (P := fun r x => x = S' r) (by intro r; exact ⟨S' r, hr r, rfl⟩)
    rw [ionise, e]
    congr 1
    funext r
    exact (hg r).2
  refine ⟨S', he, fun r => ?_, ?_⟩
  · obtain ⟨h1, h2⟩ := hS r
    refine ⟨by simpa [hS'] using h1, fun i hi a ha => ?_⟩
    have hi' : i < (S r).length := by simpa [hS'] using hi
    simp only [hS', List.getElem_mapIdx, List.mem_map] at ha
    obtain ⟨b, hb, rfl⟩ := ha
    exact h2 i hi' b hb
  · have hp : bodies S' = (located C.world S).map (ionOf (physics C) k dt) := by
      rw [bodies, particles_eq, located, C110.located, map_all, map_all, map_all, map_all]
      congr 1
      funext r
      simp only [List.map_flatten, map_mapIdx, hS', List.map_map]
      congr 1
      refine List.ext_getElem (by simp) fun i h1 h2 => ?_
      simp only [List.getElem_mapIdx]
      refine List.map_congr_left fun a ha => ?_
      exact Prod.ext rfl (ionOf_ionised (H := physics C) (k := k) (dt := dt) (x := ((a.1.1, a.2.pos), ⟨(r.val : ℤ), gid (C.world.ranks r) i, a.2.ref⟩)) hT).1.symm
    rw [hp, Multiset.rel_map_right]
    exact Multiset.rel_refl_of_refl_on fun x _ => ionOf_ionised hT

/-! ### The theorems -/

/-- **C111, one sub step.** -/
theorem substep_correct (hW : WorldOk dom inside C.world) (hp : C.cfg.fullyPeriodic = true) (hT : 0 < C.cfg.TeV) {s : Sys n} (h : Settled dom inside C.world.ranks s.group) (d : ℝ) :
    ∃ s', substep C d s = some s' ∧ Settled dom inside C.world.ranks s'.group ∧ s'.totalAdded = s.totalAdded ∧ s'.clock = s.clock + 1 ∧ s'.simulationTime = s.simulationTime ∧
      SubStep inside (physics C) s.clock d (bodies s.group) (bodies s'.group) := by
  obtain ⟨S1, e1, h1, p1⟩ := forwardEuler_correct hW hp d (S := s.group) fun r => (h r).1
  obtain ⟨S2, e2, h2, p2⟩ := ionise_correct s.clock d h1 hT
  exact ⟨{ s with group := S2, clock := s.clock + 1 }, by rw [substep, e1, Option.bind_some, e2, Option.map_some], h2, rfl, rfl, rfl, located C.world S1, ⟨by rw [located_bodies, p1], located_inside h1⟩, p2⟩

theorem perform_correct (hW : WorldOk dom inside C.world) (hp : C.cfg.fullyPeriodic = true) (hT : 0 < C.cfg.TeV) (ds : List ℝ) : ∀ {s : Sys n}, Settled dom inside C.world.ranks s.group →
    ∃ s', C63.perform (substep C) ds s = some s' ∧ Settled dom inside C.world.ranks s'.group ∧ s'.totalAdded = s.totalAdded ∧ s'.clock = s.clock + ds.length ∧
      Run inside (physics C) ds s.clock (bodies s.group) (bodies s'.group) := by
  induction ds with
  | nil => intro s h; exact ⟨s, rfl, h, rfl, rfl, .done ..⟩
  | cons d ds ih =>
    intro s h
    obtain ⟨s1, e1, g1, a1, c1, -, st⟩ := substep_correct hW hp hT h d
    obtain ⟨s2, e2, g2, a2, c2, r2⟩ := ih g1
    refine ⟨s2, by rw [C63.perform, e1]; exact e2, g2, a2.trans a1, by rw [c2, c1, List.length_cons]; ring, ?_⟩
    rw [c1] at r2
    exact .step st r2

/-- **C111.** `integrate` completes on all ranks. If no particles were added before, it creates them; then it is a run of the simulation without ranks, with the sub steps of C63. -/
theorem integrate_correct (hW : WorldOk dom inside C.world) (hp : C.cfg.fullyPeriodic = true) (hT : 0 < C.cfg.TeV) (hd : SplitOk C) (hnum : C.cfg.numPartsTot ≠ 0) {s : Sys n}
    (h : Settled dom inside C.world.ranks s.group) (hadd : s.totalAdded = 0 → bodies s.group = 0) {timeEnd dt : ℝ} (hdt : 0 < dt) (ht : s.simulationTime < timeEnd) :
    ∃ s' M, integrate C timeEnd dt s = some s' ∧ s'.simulationTime = timeEnd ∧ Settled dom inside C.world.ranks s'.group ∧ s'.clock = s.clock + (C63.steps (timeEnd - s.simulationTime) dt).length ∧ s'.totalAdded ≠ 0 ∧
      (if s.totalAdded = 0 then Initial C.cfg dom M else M = bodies s.group) ∧ Run inside (physics C) (C63.steps (timeEnd - s.simulationTime) dt) s.clock M (bodies s'.group) := by
  obtain ⟨s1, e1, g1, a1, c1, t1, i1⟩ : ∃ s1, (if s.totalAdded = 0 then addParticles C s else some s) = some s1 ∧ Settled dom inside C.world.ranks s1.group ∧ s1.totalAdded ≠ 0 ∧ s1.clock = s.clock ∧
      s1.simulationTime = s.simulationTime ∧ (if s.totalAdded = 0 then Initial C.cfg dom (bodies s1.group) else bodies s1.group = bodies s.group) := by
    by_cases h0 : s.totalAdded = 0
    · obtain ⟨s1, e, k1, k2, k3, k4, k5⟩ := initial hW hp hd (fun r => (h r).1) (hadd h0) h0
      exact ⟨s1, by rw [if_pos h0, e], k1, by rw [k3]; exact hnum, k4, k5, by rw [if_pos h0]; exact k2⟩
    · exact ⟨s, by rw [if_neg h0], h, h0, rfl, rfl, by rw [if_neg h0]⟩
  obtain ⟨s2, e2, g2, a2, c2, r2⟩ := perform_correct hW hp hT (C63.steps (timeEnd - s.simulationTime) dt) g1
  refine ⟨{ s2 with simulationTime := timeEnd }, bodies s1.group, ?_, rfl, g2, by rw [← c1]; exact c2, by rw [← a2] at a1; exact a1, i1, by rw [← c1]; exact r2⟩
  rw [integrate, if_neg (not_lt.2 ht.le), if_neg (by push Not; exact ⟨ht.ne', hnum⟩), e1, Option.bind_some, t1, C63.loop_performs, if_neg (not_le.2 ht), if_pos hdt, e2, Option.map_some]

/-- **C111, no time or no particles.** `integrate` to the present time changes nothing, to an earlier time it fails; without particles nothing happens. -/
theorem integrate_edges {timeEnd dt : ℝ} (s : Sys n) : (timeEnd < s.simulationTime → integrate C timeEnd dt s = none) ∧ (timeEnd = s.simulationTime → integrate C timeEnd dt s = some s) ∧
    (s.simulationTime ≤ timeEnd → C.cfg.numPartsTot = 0 → integrate C timeEnd dt s = some s) := by
  refine ⟨fun h => by rw [integrate, if_pos h], fun h => ?_, fun h1 h2 => ?_⟩
  · rw [integrate, if_neg (by rw [h]; exact lt_irrefl _), if_pos (Or.inl h)]
  · rw [integrate, if_neg (not_lt.2 h1), if_pos (Or.inr h2)]

/-- **C111, walls.** Particles are not supported with boundaries that are not periodic: the program stops. -/
theorem walls_rejected (hp : C.cfg.fullyPeriodic = false) (dt : ℝ) (S : State n Tagged ℝ) : forwardEuler C dt S = none := by
  rw [forwardEuler, transferParticles, hp]
  rfl

theorem sourceRhs_eq (basis : ℤ → List ℝ → J → ℝ) (S : State n Tagged ℝ) : sourceRhs C basis S = rhs basis (located C.world S) := by
  funext j
  unfold sourceRhs rhs located C110.located
  rw [map_all, map_all, all, Multiset.sum_sum]
  refine Finset.sum_congr rfl fun r _ => ?_
  rw [Multiset.sum_coe]
  simp only [List.map_flatten, List.sum_flatten, List.map_map, map_mapIdx]
  congr 1

theorem removeAll_bodies (S : State n Tagged ℝ) : bodies (removeAll S) = (bodies S).filter fun a => a.1.id ≠ -1 := by
  rw [bodies, bodies, particles_eq, particles_eq, Multiset.map_map, Multiset.map_map, Multiset.filter_map, filter_all]
  congr 2
  funext r
  rw [removeAll, ← List.filter_flatten]
  rfl

theorem removeAll_settled {R : Fin n → Rank ℝ} {S : State n Tagged ℝ} (h : Settled dom inside R S) : Settled dom inside R (removeAll S) := by
  intro r
  have hl : (removeAll S r).length = (S r).length := by simp [removeAll]
  refine ⟨by rw [hl]; exact (h r).1, fun i hi a ha => ?_⟩
  have hi' : i < (S r).length := by rwa [hl] at hi
  simp only [removeAll, List.getElem_map, List.mem_filter] at ha
  exact (h r).2 i hi' a ha.1

/-- **C111, one time step of the fluid.** `v_PreIntegrate` on all ranks: the initial particles are created in the first time step; the particles do `m` equal sub steps; the right hand side of the projection of the density
source is a sum over the particles of all ranks, each with the basis functions of an element that contains it; then the particles with no weight left are removed, and only those. -/
theorem pre_integrate_correct (hW : WorldOk dom inside C.world) (hp : C.cfg.fullyPeriodic = true) (hT : 0 < C.cfg.TeV) (hd : SplitOk C) (hnum : C.cfg.numPartsTot ≠ 0) {s : Sys n}
    (h : Settled dom inside C.world.ranks s.group) (hadd : s.totalAdded = 0 → bodies s.group = 0) (basis : ℤ → List ℝ → J → ℝ) {timestep : ℝ} (ht : 0 < timestep) {m : ℕ} (hm : 0 < m) :
    ∃ s' M M' A, preIntegrate C basis s.simulationTime timestep m s = some (rhs basis A, s') ∧ Settled dom inside C.world.ranks s'.group ∧ s'.simulationTime = s.simulationTime + timestep ∧ s'.clock = s.clock + m ∧
      s'.totalAdded ≠ 0 ∧ (if s.totalAdded = 0 then Initial C.cfg dom M else M = bodies s.group) ∧ Run inside (physics C) (List.replicate m (timestep / m)) s.clock M M' ∧ Located inside M' A ∧
      bodies s'.group = M'.filter fun a => a.1.id ≠ -1 := by
  have hm' : (0 : ℝ) < m := by exact_mod_cast hm
  have hdt : 0 < timestep / m := div_pos ht hm'
  obtain ⟨s1, M, e, t1, g1, c1, a1, i1, r1⟩ := integrate_correct hW hp hT hd hnum h hadd (timeEnd := s.simulationTime + timestep) hdt (by linarith)
  rw [add_sub_cancel_left] at r1 c1
  have hst : C63.steps timestep (timestep / m) = List.replicate m (timestep / m) := by
    have := C63.steps_equal m (timestep / m) hm hdt
    rwa [mul_div_cancel₀ _ hm'.ne'] at this
  rw [hst] at r1 c1
  refine ⟨{ s1 with group := removeAll s1.group }, M, bodies s1.group, located C.world s1.group, ?_, removeAll_settled g1, t1, c1.trans (by rw [List.length_replicate]), a1, i1, r1,
    ⟨located_bodies _ _, located_inside g1⟩, removeAll_bodies _⟩
  rw [preIntegrate, partTimestep, e, Option.map_some, sourceRhs_eq]

end Verif.Props.C111
