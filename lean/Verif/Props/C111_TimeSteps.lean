import Verif.Props.C111_ParallelDriftReduced
import Verif.Props.C110_Mesh

/-!
C111: any number of time steps; the identities and the mass of the particles; meshes in three dimensions; an example.
-/

namespace Verif.Props.C111
open Verif.Model Verif.Model.ParallelDR Verif.Model.ParallelStep Verif.Model.MapChain Verif.Model.CoarseLookup Verif.Model.LineInit Verif.Model.NeutralSystem Verif.Spec.ParallelDR
open Verif.Model.ParallelPic (World gid)
open Verif.Props.C55 (Assignment)
open Verif.Props.C90 (Settled all)
open Verif.Props.C91 (WorldOk)

variable {n : ℕ} {J : Type} {dom : (ℕ → ℝ) → Prop} {inside : (ℕ → ℝ) → Set (Assignment ℝ)} {C : Setup n}

/-- The particle parts of `k` time steps of the fluid: the right hand sides of the projections of the density source, the latest last, and the state. -/
noncomputable def timeSteps (C : Setup n) (basis : ℤ → List ℝ → J → ℝ) (timestep : ℝ) (m : ℕ) : ℕ → Sys n → Option (List (J → ℝ) × Sys n)
  | 0, s => some ([], s)
  | k + 1, s => (timeSteps C basis timestep m k s).bind fun x => (preIntegrate C basis x.2.simulationTime timestep m x.2).map fun y => (x.1 ++ [y.1], y.2)

/-- `k` time steps without ranks, from the initial particles on: the sub steps, the right hand side of the projection, and the removal of the particles with no weight left. -/
inductive TimeSteps (dom : (ℕ → ℝ) → Prop) (inside : (ℕ → ℝ) → Set (Assignment ℝ)) (H : Physics) (basis : ℤ → List ℝ → J → ℝ) (timestep : ℝ) (m : ℕ) : ℕ → List (J → ℝ) → Multiset Body → Prop
  | start {M : Multiset Body} : Initial H.cfg dom M → TimeSteps dom inside H basis timestep m 0 [] M
  | step {k : ℕ} {l : List (J → ℝ)} {M M' : Multiset Body} {A : Multiset (Body × Assignment ℝ)} : TimeSteps dom inside H basis timestep m k l M →
      Run inside H (List.replicate m (timestep / m)) (k * m) M M' → Located inside M' A → TimeSteps dom inside H basis timestep m (k + 1) (l ++ [rhs basis A]) (M'.filter fun a => a.1.id ≠ -1)

/-- **C111, any number of time steps.** From empty cells all time steps complete on all ranks, and the particles of all ranks together and the projected sources are those of a simulation without ranks. -/
theorem time_steps_correct (hW : WorldOk dom inside C.world) (hp : C.cfg.fullyPeriodic = true) (hT : 0 < C.cfg.TeV) (hd : SplitOk C) (hnum : C.cfg.numPartsTot ≠ 0) {s : Sys n}
    (hg : s.group = fun r => List.replicate (C.world.ranks r).translation.mapToNektar.length []) (h0 : s.totalAdded = 0) (hk : s.clock = 0) (basis : ℤ → List ℝ → J → ℝ) {timestep : ℝ} (ht : 0 < timestep) {m : ℕ}
    (hm : 0 < m) (k : ℕ) : ∃ l s', timeSteps C basis timestep m (k + 1) s = some (l, s') ∧ Settled dom inside C.world.ranks s'.group ∧ s'.simulationTime = s.simulationTime + (k + 1 : ℕ) * timestep ∧
      TimeSteps dom inside (physics C) basis timestep m (k + 1) l (bodies s'.group) := by
  suffices H : ∃ l s', timeSteps C basis timestep m (k + 1) s = some (l, s') ∧ Settled dom inside C.world.ranks s'.group ∧ s'.simulationTime = s.simulationTime + (k + 1 : ℕ) * timestep ∧ s'.clock = (k + 1) * m ∧
      s'.totalAdded ≠ 0 ∧ TimeSteps dom inside (physics C) basis timestep m (k + 1) l (bodies s'.group) by
    obtain ⟨l, s', h1, h2, h3, -, -, h4⟩ := H
    exact ⟨l, s', h1, h2, h3, h4⟩
  induction k with
  | zero =>
    have hnone : bodies s.group = 0 := by
      rw [bodies, hg, C90.particles_eq]
      simp [all]
    have hset : Settled dom inside C.world.ranks s.group := by
      intro r
      rw [hg]
      refine ⟨by simp, fun i hi a ha => ?_⟩
      simp at ha
    obtain ⟨s', M, M', A, e, g, t, c, a, i, r, lo, b⟩ := pre_integrate_correct hW hp hT hd hnum hset (fun _ => hnone) basis ht hm
    rw [if_pos h0] at i
    refine ⟨[rhs basis A], s', ?_, g, by rw [t]; simp, by rw [c, hk]; ring, a, ?_⟩
    · simp only [timeSteps, Option.bind_some, e, Option.map_some, List.nil_append]
    · rw [b]
      refine TimeSteps.step (l := []) (k := 0) (.start i) ?_ lo
      rw [hk] at r
      simpa using r
  | succ k ih =>
    obtain ⟨l, s1, e1, g1, t1, c1, a1, r1⟩ := ih
    obtain ⟨s2, M, M', A, e2, g2, t2, c2, a2, i2, r2, lo, b2⟩ := pre_integrate_correct hW hp hT hd hnum g1 (fun h => absurd h a1) basis ht hm
    rw [if_neg a1] at i2
    refine ⟨l ++ [rhs basis A], s2, ?_, g2, by rw [t2, t1]; push_cast; ring, by rw [c2, c1]; ring, a2, ?_⟩
    · rw [timeSteps, e1, Option.bind_some, e2, Option.map_some]
    · rw [b2]
      rw [i2, c1] at r2
      exact .step r1 r2 lo

/-! ### Identities -/

theorem rel_ids {R : (Body × Assignment ℝ) → Body → Prop} (hR : ∀ x b, R x b → b.1.id = -1 ∨ b.1.id = x.1.1.id) {A : Multiset (Body × Assignment ℝ)} {B : Multiset Body} (h : Multiset.Rel R A B) :
    (B.map fun b => b.1.id).filter (· ≠ -1) ≤ ((A.map fun x => x.1.1.id).filter (· ≠ -1)) := by
  induction h with
  | zero => simp
  | @cons x b A B hab _ ih =>
    rw [Multiset.map_cons, Multiset.map_cons]
    by_cases hb : b.1.id = -1
    · rw [Multiset.filter_cons_of_neg _ (by simp [hb])]
      refine ih.trans (Multiset.filter_le_filter _ ?_)
      exact Multiset.le_cons_self _ _
    · have e := (hR _ _ hab).resolve_left hb
      rw [Multiset.filter_cons_of_pos _ (by simp [hb]), Multiset.filter_cons_of_pos _ (by rw [← e]; simp [hb]), e]
      exact Multiset.cons_le_cons _ ih

theorem ionised_id {H : Physics} {k : ℕ} {d : ℝ} (hd : d ≠ 0) (hn : H.cfg.prm.nToSI ≠ 0) {x : Body × Assignment ℝ} {b : Body} (h : Ionised H k d x b) : b.1.id = -1 ∨ b.1.id = x.1.1.id := by
  obtain ⟨rate, -, hi⟩ := C62.dr_ionised _ _ _ _ _ _ hd hn h.2.2
  by_cases hb : b.1.id = -1
  · exact Or.inl hb
  · exact Or.inr (hi.kept hb)

theorem run_ids {H : Physics} (hn : H.cfg.prm.nToSI ≠ 0) {ds : List ℝ} (hds : ∀ d ∈ ds, d ≠ 0) {k : ℕ} {M M' : Multiset Body} (h : Run inside H ds k M M') :
    (M'.map fun b => b.1.id).filter (· ≠ -1) ≤ (M.map fun b => b.1.id).filter (· ≠ -1) := by
  induction h with
  | done => exact le_rfl
  | @step d ds k M M1 M' st _ ih =>
    refine (ih fun d hd => hds d (List.mem_cons_of_mem _ hd)).trans ?_
    obtain ⟨A, ⟨hA, -⟩, hr⟩ := st
    refine (rel_ids (fun x b => ionised_id (hds d (List.mem_cons_self ..)) hn) hr).trans (le_of_eq ?_)
    have : A.map (fun x => x.1.1.id) = (A.map Prod.fst).map fun a => a.1.id := by rw [Multiset.map_map]; rfl
    rw [this, hA, Multiset.map_map]
    rfl

/-- **C111, identities.** At all times, the identities of the particles of all ranks together are different numbers from 0 to `num_particles_total - 1`; so there are never more particles than at the start. -/
theorem ids_unique {H : Physics} (hn : H.cfg.prm.nToSI ≠ 0) {basis : ℤ → List ℝ → J → ℝ} {timestep : ℝ} (ht : 0 < timestep) {m : ℕ} (hm : 0 < m) {k : ℕ} {l : List (J → ℝ)} {M : Multiset Body}
    (h : TimeSteps dom inside H basis timestep m k l M) : (M.map fun a => a.1.id).Nodup ∧ (∀ a ∈ M, 0 ≤ a.1.id ∧ a.1.id < H.cfg.numPartsTot) ∧ Multiset.card M ≤ H.cfg.numPartsTot := by
  have key : M.map (fun a => a.1.id) ≤ ((List.range H.cfg.numPartsTot).map fun i : ℕ => (i : ℤ) : List ℤ) := by
    induction h with
    | start hi => exact hi.ids.le
    | @step k l M M' A _ hr _ ih =>
      have h1 := run_ids hn (fun d hd => by rw [List.eq_of_mem_replicate hd]; exact (div_pos ht (by exact_mod_cast hm)).ne') hr
      have h2 : (M'.filter fun a => a.1.id ≠ -1).map (fun a => a.1.id) = (M'.map fun a => a.1.id).filter (· ≠ -1) := by rw [Multiset.filter_map]; rfl
      rw [h2]
      exact h1.trans ((Multiset.filter_le _ _).trans ih)
  refine ⟨Multiset.nodup_of_le key ?_, fun a ha => ?_, ?_⟩
  · rw [Multiset.coe_nodup]
    exact List.nodup_range.map fun a b hab => by exact_mod_cast hab
  · have := Multiset.mem_of_le key (Multiset.mem_map_of_mem _ ha)
    rw [Multiset.mem_coe, List.mem_map] at this
    obtain ⟨i, hi, e⟩ := this
    rw [List.mem_range] at hi
    rw [← e]
    omega
  · simpa using Multiset.card_le_card key

/-! ### Mass -/

/-- The weight of particles. -/
noncomputable def weight (M : Multiset Body) : ℝ := (M.map fun a => a.1.weight).sum

theorem projected_mass [Fintype J] (basis : ℤ → List ℝ → J → ℝ) (c : J → ℝ) (hc : ∀ p, ∀ a ∈ inside p, ∑ j, c j * basis a.cell a.ref j = 1) {M : Multiset Body} {A : Multiset (Body × Assignment ℝ)}
    (hA : Located inside M A) : ∑ j, c j * rhs basis A j = (M.map fun a => a.1.sourceDensity).sum := by
  obtain ⟨rfl, hin⟩ := hA
  rw [Multiset.map_map]
  induction A using Multiset.induction_on with
  | empty => simp [rhs]
  | cons x A ih =>
    have h1 := hc _ _ (hin x (Multiset.mem_cons_self _ _))
    have h2 := ih fun y hy => hin y (Multiset.mem_cons_of_mem hy)
    rw [Multiset.map_cons, Multiset.sum_cons, ← h2]
    have : x.1.1.sourceDensity = ∑ j, c j * (x.1.1.sourceDensity * basis x.2.cell x.2.ref j) := by
      calc x.1.1.sourceDensity = x.1.1.sourceDensity * ∑ j, c j * basis x.2.cell x.2.ref j := by rw [h1, mul_one]
        _ = _ := by rw [Finset.mul_sum]; exact Finset.sum_congr rfl fun j _ => by ring
    simp only [Function.comp_apply]
    rw [this, ← Finset.sum_add_distrib]
    refine Finset.sum_congr rfl fun j _ => ?_
    simp only [rhs, Multiset.map_cons, Multiset.sum_cons]
    rw [mul_add]

/-- In a sub step, what the particles lose is what they give to the fluid; and a marked particle that was not marked before has no weight left. -/
theorem mass_balance {H : Physics} {k : ℕ} {d : ℝ} (hd : d ≠ 0) (hn : H.cfg.prm.nToSI ≠ 0) {M M' : Multiset Body} (h : SubStep inside H k d M M') :
    weight M' + d * (H.cfg.prm.nToSI * (M'.map fun a => a.1.sourceDensity).sum) = weight M ∧ ((∀ a ∈ M, a.1.id ≠ -1) → ∀ b ∈ M', b.1.id = -1 → b.1.weight = 0) := by
  obtain ⟨A, ⟨hA, -⟩, hr⟩ := h
  constructor
  · have e1 : A.map (fun x => x.1.1.weight) = M'.map fun b => b.1.weight + d * (H.cfg.prm.nToSI * b.1.sourceDensity) := by
      refine C110.rel_map hr fun x b hb => ?_
      obtain ⟨rate, -, hi⟩ := C62.dr_ionised _ _ _ _ _ _ hd hn hb.2.2
      exact hi.conserved.symm
    have e2 : (A.map fun x => x.1.1.weight).sum = weight M := by
      have : A.map (fun x => x.1.1.weight) = (A.map Prod.fst).map fun a => a.1.weight := by rw [Multiset.map_map]; rfl
      rw [this, hA, Multiset.map_map]
      rfl
    rw [e1, Multiset.sum_map_add, Multiset.sum_map_mul_left, Multiset.sum_map_mul_left] at e2
    exact e2
  · intro hM b hbM hid
    obtain ⟨x, hx, hxb⟩ := Multiset.exists_mem_of_rel_of_mem (Multiset.rel_flip.2 hr) hbM
    obtain ⟨rate, -, hi⟩ := C62.dr_ionised _ _ _ _ _ _ hd hn hxb.2.2
    rcases hi.marked.1 hid with h1 | h1
    · exfalso
      have hx1 : x.1 ∈ A.map Prod.fst := Multiset.mem_map_of_mem _ hx
      rw [hA] at hx1
      obtain ⟨a, ha, hax⟩ := Multiset.mem_map.1 hx1
      refine hM a ha ?_
      have : (toParticle x.1.1).id = a.1.id := by rw [← hax]; rfl
      rw [← this]
      exact h1
    · exact h1

theorem weight_filter {M : Multiset Body} (hz : ∀ b ∈ M, b.1.id = -1 → b.1.weight = 0) : weight (M.filter fun a => a.1.id ≠ -1) = weight M := by
  have := Multiset.filter_add_not (fun a : Body => a.1.id ≠ -1) M
  conv_rhs => rw [← this]
  unfold weight
  rw [Multiset.map_add, Multiset.sum_add]
  have h0 : ((M.filter fun a => ¬a.1.id ≠ -1).map fun a => a.1.weight).sum = 0 := by
    rw [Multiset.map_congr rfl (g := fun _ => (0 : ℝ)) fun a ha => hz a (Multiset.mem_filter.1 ha).1 (not_not.1 (Multiset.mem_filter.1 ha).2)]
    simp
  rw [h0, add_zero]

/-- **C111, mass.** With one sub step in each time step (C64: with more the mass is not conserved), at all times the weights of the particles of all ranks and all the mass that the projected sources gave to the fluid add up to
the weights of the initial particles. -/
theorem mass_conserved [Fintype J] {H : Physics} (hn : H.cfg.prm.nToSI ≠ 0) {basis : ℤ → List ℝ → J → ℝ} (c : J → ℝ) (hc : ∀ p, ∀ a ∈ inside p, ∑ j, c j * basis a.cell a.ref j = 1) {timestep : ℝ}
    (ht : 0 < timestep) {k : ℕ} {l : List (J → ℝ)} {M : Multiset Body} (h : TimeSteps dom inside H basis timestep 1 k l M) :
    weight M + (l.map fun f => timestep * (H.cfg.prm.nToSI * ∑ j, c j * f j)).sum = H.cfg.numPartsTot * H.cfg.particleWeight := by
  induction h with
  | start hi =>
    rename_i M
    have hcard : Multiset.card M = H.cfg.numPartsTot := by
      have := congrArg Multiset.card hi.ids
      simpa using this
    have : M.map (fun a => a.1.weight) = M.map fun _ => H.cfg.particleWeight := Multiset.map_congr rfl fun a ha => (hi.fresh a ha).1
    rw [weight, this, Multiset.map_const', Multiset.sum_replicate, hcard, nsmul_eq_mul]
    simp
  | step hts hr hA ih =>
    rename_i k l M M' A
    have hclean : ∀ a ∈ M, a.1.id ≠ -1 := by
      intro a ha
      have := (ids_unique hn ht one_pos hts).2.1 a ha
      omega
    simp only [Nat.cast_one, div_one, List.replicate_one] at hr
    cases hr with
    | step st run =>
      cases run
      obtain ⟨b1, b2⟩ := mass_balance ht.ne' hn st
      rw [weight_filter (b2 hclean), List.map_append, List.sum_append, List.map_singleton, List.sum_singleton, projected_mass basis c hc hA, ← ih, ← b1]
      ring

/-! ### Meshes in three dimensions -/

section three
open Verif.Model.CartesianMesh Verif.Model.DeviceMapper Verif.Spec Verif.Spec.Mapping Verif.Props.C34 Verif.Props.C35 Verif.Props.C40 Verif.Model.RegularMap Verif.Model.NewtonKernel
  Verif.Model.NewtonElements Verif.Props.C84 Verif.Model.MeshHierarchy Verif.Model.Claims Verif.Spec.LinearElements Verif.Props.C85
  Verif.Model.Bytes Verif.Model.HaloExchange Verif.Model.HaloExchange3D Verif.Lemmas.Mpi Verif.Props.C90
open Verif.Model.Mpi (Reachable)

/-- The distributed mesh of C90 in three dimensions satisfies the conditions on the ranks. -/
theorem world_3d {V : View3 ℝ} {big : ℝ} (hbig : 0 < big) {scaling : ℝ → ℤ} (hsc : ∀ f, 1 < f → 0 < scaling f ∧ f ≤ (scaling f : ℝ) ^ 3) {tol0 t : ℝ} (h0 : 0 < tol0) (ht : 0 ≤ t)
    (htol : t + tol0 ≤ 1 / 10) {m : MHGeom ℝ} {owner : ℤ → ℤ} {glo ghi : ℕ → ℝ} {mesh : Fin n → Mesh3d ℝ} (h : Mesh3Ok V big m owner glo ghi mesh) (hc : GridCovers m glo ghi)
    (hper : ∀ d < 3, 1 ≤ ghi d - glo d) (w : Fin n → ℤ) {S : Mpi.Sys n Msg (Halos3d)} (hS : Reachable (Mpi.Sys.init (fun r => halos3d m owner (mesh r) r) w) S)
    (out : Fin n → Halos3d) (hout : ∀ r, S.prog r = .done (out r)) (code : Shape3 → ℤ) (hcode : Function.Injective code) (newton : List (Option (Stage ℝ × Stage ℝ))) (hnewton : ∀ s ∈ newton, s = none) (host : Stage ℝ)
    (E : Fin n → List (Elem3 ℝ)) (hE : ∀ r, (E r).Perm (known3 V (mesh r) r (out r)))
    (mapper : Fin n → Mapper ℝ) (hm : ∀ r, mkMapper 3 big scaling ((E r).map Elem3.geom) = some (mapper r)) (hfit : ∀ r, ∀ d < 3, (mapper r).lookup.mesh.cellCounts d < 2147483648)
    (hrange : ∀ r p, Dom 3 glo ghi p → InRange (mapper r) p) (geoms : Fin n → List (ℤ × ℤ)) (hgne : ∀ r, geoms r ≠ []) (hgs : ∀ r, ((geoms r).map Prod.fst).Pairwise (· < ·))
    (hgr : ∀ r, ∀ g ∈ geoms r, 0 ≤ g.1 ∧ g.1 < 2147483647) (hgi : ∀ r id, id ∈ (geoms r).map Prod.fst ↔ ∃ x ∈ (mesh r).elements, x.1 = id)
    (tr : Fin n → CellId.Translation) (htr : ∀ r, CellId.constructMaps (geoms r) = some (tr r)) :
    WorldOk (Dom 3 glo ghi) (inside3 V mesh (25 * (t + tol0)))
      (⟨wrapAll 3 glo ghi, ownerOf m owner, fun r => ⟨map3D (some ((mapper r).stage (test3d tol0 t code (E r)))) newton host, tr r⟩⟩ : World n ℝ) := by
  have htc := fun r => translation_cells (geoms r) (hgne r) (hgs r) (hgr r) (tr r) (htr r)
  have hEne : ∀ r, E r ≠ [] := by
    intro r he
    have hk := hE r
    rw [he] at hk
    have := hk.symm.eq_nil
    unfold known3 at this
    rw [List.append_eq_nil_iff, List.map_eq_nil_iff] at this
    obtain ⟨g, hg⟩ := List.exists_mem_of_ne_nil _ (hgne r)
    obtain ⟨x, hx, _⟩ := (hgi r g.1).1 (List.mem_map_of_mem hg)
    rw [this.1] at hx
    simp at hx
  refine ⟨wrapAll_dom 3 glo ghi hper, owned3 h hc, ?_, fun r => ?_, fun r h' => ?_⟩
  · rintro p a ⟨s, x, _, v, rfl, _⟩
    exact ⟨s, rfl⟩
  · refine rank3D (stage3 hbig hsc h0 ht htol h hc w hS r (out r) (hout r) code hcode (E r) (hE r) (hEne r) (mapper r) (hm r) (hfit r) (hrange r)) ?_ newton hnewton host (tr r) ?_
    · rintro p a ⟨s, x, _, v, rfl, _⟩
      exact Int.natCast_nonneg _
    · rintro p a ⟨s, x, hx, v, rfl, _⟩ hs
      have : s = r := Fin.ext (by simpa using hs)
      subst this
      exact (htc s).2 _ ((hgi s _).2 ⟨x, hx, rfl⟩)
  · have := (htc r).1
    rw [show (tr r).mapToNektar = [] from h'] at this
    exact hgne r (List.map_eq_nil_iff.1 this.symm)

/-- **C111, 3D.** A mesh of affine tetrahedra, pyramids, prisms and hexahedra that cover a box with periods of at least one, distributed over any number of ranks with at least one element each; after any execution of the
construction of the halos. All boundaries are periodic, the temperature is positive. Then any number of time steps completes on all ranks; the particles of all ranks together and the projected sources are those of a simulation
without ranks. -/
theorem drift_reduced_3d {V : View3 ℝ} {big : ℝ} (hbig : 0 < big) {scaling : ℝ → ℤ} (hsc : ∀ f, 1 < f → 0 < scaling f ∧ f ≤ (scaling f : ℝ) ^ 3) {tol0 t : ℝ} (h0 : 0 < tol0) (ht : 0 ≤ t)
    (htol : t + tol0 ≤ 1 / 10) {m : MHGeom ℝ} {owner : ℤ → ℤ} {glo ghi : ℕ → ℝ} {mesh : Fin n → Mesh3d ℝ} (h : Mesh3Ok V big m owner glo ghi mesh) (hc : GridCovers m glo ghi)
    (hper : ∀ d < 3, 1 ≤ ghi d - glo d) (w : Fin n → ℤ) {S : Mpi.Sys n Msg (Halos3d)} (hS : Reachable (Mpi.Sys.init (fun r => halos3d m owner (mesh r) r) w) S)
    (out : Fin n → Halos3d) (hout : ∀ r, S.prog r = .done (out r)) (code : Shape3 → ℤ) (hcode : Function.Injective code) (newton : List (Option (Stage ℝ × Stage ℝ))) (hnewton : ∀ s ∈ newton, s = none) (host : Stage ℝ)
    (E : Fin n → List (Elem3 ℝ)) (hE : ∀ r, (E r).Perm (known3 V (mesh r) r (out r)))
    (mapper : Fin n → Mapper ℝ) (hm : ∀ r, mkMapper 3 big scaling ((E r).map Elem3.geom) = some (mapper r)) (hfit : ∀ r, ∀ d < 3, (mapper r).lookup.mesh.cellCounts d < 2147483648)
    (hrange : ∀ r p, Dom 3 glo ghi p → InRange (mapper r) p) (geoms : Fin n → List (ℤ × ℤ)) (hgne : ∀ r, geoms r ≠ []) (hgs : ∀ r, ((geoms r).map Prod.fst).Pairwise (· < ·))
    (hgr : ∀ r, ∀ g ∈ geoms r, 0 ≤ g.1 ∧ g.1 < 2147483647) (hgi : ∀ r id, id ∈ (geoms r).map Prod.fst ↔ ∃ x ∈ (mesh r).elements, x.1 = id)
    (tr : Fin n → CellId.Translation) (htr : ∀ r, CellId.constructMaps (geoms r) = some (tr r))
    (cfg : Config) (hp : cfg.fullyPeriodic = true) (hT : 0 < cfg.TeV) (hnum : cfg.numPartsTot ≠ 0) (split : ℕ → ℕ) (hs0 : split 0 = 0) (hs1 : ∀ r < n, split r ≤ split (r + 1)) (hs2 : split n = cfg.numPartsTot)
    (normal velocity : Fin n → ℕ → ℕ → ℝ) (advected : ℕ → Tagged → (ℕ → ℝ) → (ℕ → ℝ)) (fieldN : ℕ → ℤ → List ℝ → ℝ) (basis : ℤ → List ℝ → J → ℝ) {timestep : ℝ} (hts : 0 < timestep) {substeps : ℕ} (hsub : 0 < substeps) :
    let C : Setup n := ⟨⟨wrapAll 3 glo ghi, ownerOf m owner, fun r => ⟨map3D (some ((mapper r).stage (test3d tol0 t code (E r)))) newton host, tr r⟩⟩, cfg, split, normal, velocity, glo, ghi, advected, fieldN⟩
    let inside := inside3 V mesh (25 * (t + tol0))
    ∀ s : Sys n, s.group = (fun r => List.replicate (tr r).mapToNektar.length []) → s.totalAdded = 0 → s.clock = 0 →
      ∀ k, ∃ l s', timeSteps C basis timestep substeps (k + 1) s = some (l, s') ∧ Settled (Dom 3 glo ghi) inside C.world.ranks s'.group ∧ s'.simulationTime = s.simulationTime + (k + 1 : ℕ) * timestep ∧
        TimeSteps (Dom 3 glo ghi) inside (physics C) basis timestep substeps (k + 1) l (bodies s'.group) := by
  intro C inside s e1 e2 e3 k
  exact time_steps_correct (C := C) (world_3d hbig hsc h0 ht htol h hc hper w hS out hout code hcode newton hnewton host E hE mapper hm hfit hrange geoms hgne hgs hgr hgi tr htr) hp hT ⟨hs0, hs1, hs2⟩ hnum e1 e2 e3
    basis hts hsub k

end three

/-! ### An example: two blocks on two ranks -/

namespace Example
open Verif.Props.C90
open Verif.Props.C110.Example (upper insideX hi)

/-- The domain [0, 4) x [0, 2) x [0, 2); element 12 of rank 0 is the lower half, element 13 of rank 1 the upper half. -/
theorem two_ranks : ∃ R : Fin 2 → Rank ℝ, WorldOk (Dom 3 (fun _ => 0) hi) insideX (⟨wrapAll 3 (fun _ => 0) hi, upper, R⟩ : World 2 ℝ) := by
  have hp : ∀ d < 3, 1 ≤ hi d - (fun _ => (0 : ℝ)) d := by intro d hd; interval_cases d <;> norm_num [hi]
  obtain ⟨R, hR⟩ := C110.Example.two_ranks
  have hdom : ∀ p, Dom 3 (fun _ => 0) hi p → Dom 2 (fun _ => 0) hi p := fun p h d hd => h d (by omega)
  refine ⟨R, ⟨wrapAll_dom 3 _ hi hp, fun p h => hR.owned p (hdom p h), hR.ranks, fun r => ⟨fun g hg => ?_, fun g hg => ?_, ?_⟩, hR.cells⟩⟩
  · exact (hR.mapped r).1 g fun c hc q hq => ⟨(hg c hc q hq).1, hdom _ (hg c hc q hq).2⟩
  · exact fun h2 => (hR.mapped r).2 g hg fun c hc q hq hneg => ⟨hdom _ (h2 c hc q hq hneg).1, (h2 c hc q hq hneg).2⟩
  · exact (hR.mapped r).3

/-- Three particles, of which rank 0 creates one and rank 1 two. -/
noncomputable def cfg : Config := ⟨⟨1, 1, 0⟩, 3, 1, 1, 4, true, 1, 1, 10⟩

/-- The hypotheses of `time_steps_correct`, `ids_unique` and `mass_conserved`: any number of time steps completes on two ranks, whatever the random numbers and the parallel advection; there are at most three particles with
different identities, and their weights and what the fluid got add up to three. -/
example (normal velocity : Fin 2 → ℕ → ℕ → ℝ) (advected : ℕ → Tagged → (ℕ → ℝ) → (ℕ → ℝ)) : ∃ R : Fin 2 → Rank ℝ,
    ∀ s : Sys 2, s.group = (fun r => List.replicate (R r).translation.mapToNektar.length []) → s.totalAdded = 0 → s.clock = 0 →
    ∀ k, ∃ l s', timeSteps ⟨⟨wrapAll 3 (fun _ => 0) hi, upper, R⟩, cfg, fun r => if r = 0 then 0 else if r = 1 then 1 else 3, normal, velocity, fun _ => 0, hi, advected, fun _ g _ => if g = 12 then 1 else 2⟩
        (fun _ _ (_ : Unit) => 1) (1 / 10) 1 (k + 1) s = some (l, s') ∧
      ((bodies s'.group).map fun a => a.1.id).Nodup ∧ weight (bodies s'.group) + (l.map fun f => 1 / 10 * f ()).sum = 3 := by
  obtain ⟨R, hR⟩ := two_ranks
  refine ⟨R, fun s e1 e2 e3 k => ?_⟩
  obtain ⟨l, s', k1, -, -, k2⟩ := time_steps_correct (C := ⟨⟨wrapAll 3 (fun _ => 0) hi, upper, R⟩, cfg, fun r => if r = 0 then 0 else if r = 1 then 1 else 3, normal, velocity, fun _ => 0, hi, advected,
      fun _ g _ => if g = 12 then 1 else 2⟩) hR rfl (by norm_num [cfg]) ⟨rfl, by intro r hr; interval_cases r <;> simp, rfl⟩ (by norm_num [cfg]) e1 e2 e3 (fun _ _ (_ : Unit) => 1) (show (0 : ℝ) < 1 / 10 by norm_num) one_pos k
  refine ⟨l, s', k1, (ids_unique (by norm_num [physics, cfg]) (by norm_num) one_pos k2).1, ?_⟩
  have := mass_conserved (by norm_num [physics, cfg]) (fun _ => 1) (by simp) (by norm_num) k2
  simpa [physics, cfg] using this

end Example

end Verif.Props.C111
