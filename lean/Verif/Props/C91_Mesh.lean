import Verif.Props.C91_ParallelPic
import Verif.Props.C90_Example

/-!
C91 for meshes: the hypotheses on the ranks hold for the mappers of the 2D meshes of C85 and C90. With examples: a mesh of two rectangles on two ranks and on one rank.
-/

namespace Verif.Props.C91
open Verif.Model Verif.Model.CoarseLookup Verif.Model.MapChain Verif.Model.ParallelStep Verif.Props.C55 Verif.Model.ParallelPic Verif.Spec.ParallelPic Verif.Spec.PicLoop
open Verif.Model.CartesianMesh Verif.Model.DeviceMapper Verif.Spec Verif.Spec.Mapping Verif.Props.C34 Verif.Props.C35 Verif.Props.C40 Verif.Model.RegularMap Verif.Model.NewtonKernel
  Verif.Model.NewtonElements Verif.Props.C84 Verif.Model.MeshHierarchy Verif.Model.Claims Verif.Spec.LinearElements Verif.Props.C85
  Verif.Model.Bytes Verif.Model.PackedGeom2D Verif.Model.Mpi Verif.Model.HaloExchange Verif.Lemmas.Mpi Verif.Props.C57 Verif.Props.C90

section two
variable {K : Type} [Field K] [LinearOrder K] [IsStrictOrderedRing K] [FloorRing K] {n : ℕ} {J U : Type}

/-- **C91, 2D.** A mesh of triangles and parallelograms that cover a box with periods of at least one, distributed over any number of ranks with at least one element each, and charged particles that are
anywhere. After any execution of the construction of the halos, with the mappers and cell ids of all ranks made from it: the transfer at the end of the setup completes, and so does any number of time steps
with the Verlet or the Boris integrator. There is a run of the simulation without ranks, which starts with the same particles in the periodic domain, such that after each time step the particles of all
ranks are those of this run, each in the cell of an element that contains it, and the potential is that of this run. -/
theorem pic_2d {V : View2 K} {big : K} (hbig : 0 < big) {scaling : K → ℤ} (hsc : ∀ f, 1 < f → 0 < scaling f ∧ f ≤ (scaling f : K) ^ 2) {tol0 t : K} (h0 : 0 < tol0) (ht : 0 ≤ t)
    (htol : t + tol0 ≤ 1 / 10) {m : MHGeom K} {owner : ℤ → ℤ} {glo ghi : ℕ → K} {mesh : Fin n → Mesh2d K} (h : Mesh2Ok V big m owner glo ghi mesh) (hc : GridCovers m glo ghi)
    (hper : ∀ d < 2, 1 ≤ ghi d - glo d) (w : Fin n → ℤ) {S : Sys n Msg (List Remote × List Remote)} (hS : Reachable (Sys.init (fun r => halos2d m owner (mesh r) r) w) S)
    (out : Fin n → List Remote × List Remote) (hout : ∀ r, S.prog r = .done (out r)) (E : Fin n → List (Elem2 K)) (hE : ∀ r, (E r).Perm (known V (mesh r) r (out r)))
    (mapper : Fin n → Mapper K) (hm : ∀ r, mkMapper 2 big scaling ((E r).map Elem2.geom) = some (mapper r)) (hfit : ∀ r, ∀ d < 2, (mapper r).lookup.mesh.cellCounts d < 2147483648)
    (hrange : ∀ r p, Dom 2 glo ghi p → InRange (mapper r) p) (geoms : Fin n → List (ℤ × ℤ)) (hgne : ∀ r, geoms r ≠ []) (hgs : ∀ r, ((geoms r).map Prod.fst).Pairwise (· < ·))
    (hgr : ∀ r, ∀ g ∈ geoms r, 0 ≤ g.1 ∧ g.1 < 2147483647) (hgi : ∀ r id, id ∈ (geoms r).map Prod.fst ↔ ∃ x ∈ elementsOf (mesh r), x.2.1 = id)
    (tr : Fin n → CellId.Translation) (htr : ∀ r, CellId.constructMaps (geoms r) = some (tr r))
    (prm : Params K) (b : K × K × K) (I : Integrator K) (hI : I = verletIntegrator prm ∨ I = borisIntegrator prm b)
    (El : Elements K J U) (solve : (J → K) → U) (mean fieldEnergy : U → K) (mass : K) (S0 : State n (Charged K) K) (hne : ∀ r, S0 r ≠ []) :
    let W : World n K := ⟨wrapAll 2 glo ghi, ownerOf m owner, fun r => ⟨map2D (some ((mapper r).stage (test2d tol0 t (E r)))) none, tr r⟩⟩
    let inside := inside2 V mesh (5 * (t + tol0))
    ∃ S1, transfer W.boundary W.target W.ranks S0 = some S1 ∧
    ∃ (M : ℕ → Multiset (Body K)) (u : ℕ → U) (S : ℕ → State n (Charged K) K), M 0 = (particles S0).map (fun a => (a.1, wrapAll 2 glo ghi a.2)) ∧
      (∀ k, TimeStep inside W.boundary I El solve (M k) (u k) (M (k + 1))) ∧
      ∀ k, at_ (ops W I El solve mean fieldEnergy mass) (some S1) k = (some (S k), some (u k)) ∧ particles (S k) = M (k + 1) ∧ Settled (Dom 2 glo ghi) inside W.ranks (S k) := by
  intro W inside
  obtain ⟨w1, w2, w3, w4, w5⟩ := world_2d hbig hsc h0 ht htol h hc hper w hS out hout E hE mapper hm hfit hrange geoms hgne hgs hgr hgi tr htr
  have hW : WorldOk (Dom 2 glo ghi) inside W := ⟨w1, w2, w3, w4, w5⟩
  obtain ⟨S1, e, p1, s1⟩ := transfer_correct w1 w2 w3 w4 S0 hne
  have hok : Half.Ok I.first ∧ Half.Ok I.second := by
    rcases hI with rfl | rfl
    · exact verlet_ok prm
    · exact boris_ok prm b
  obtain ⟨M, u, S, e0, h1, h2⟩ := simulation hW hok.1 hok.2 El solve mean fieldEnergy mass S1 s1
  exact ⟨S1, e, M, u, S, by rw [e0, p1], h1, h2⟩

end two

namespace Example
open Verif.Props.C90.Example

/-- The two ranks of the example of C90. -/
theorem two_ranks (w : Fin 2 → ℤ) {S : Sys 2 Msg (List Remote × List Remote)} (hS : Reachable (Sys.init (fun r => halos2d mh (fun c => c) (mesh r) r) w) S)
    (out : Fin 2 → List Remote × List Remote) (hout : ∀ r, S.prog r = .done (out r)) :
    ∃ R : Fin 2 → Rank ℚ, WorldOk (Dom 2 glo ghi) (inside2 view mesh (1 / 100)) (⟨wrapAll 2 glo ghi, ownerOf mh fun c => c, R⟩ : World 2 ℚ) := by
  have hsc : ∀ f : ℚ, 1 < f → 0 < ⌈f⌉ ∧ f ≤ (⌈f⌉ : ℚ) ^ 2 := fun f hf => ⟨Int.ceil_pos.2 (by linarith), by have := Int.le_ceil f; nlinarith⟩
  have hE := fun r => known_pair w hS r (out r) (hout r) (known view (mesh r) r (out r)) (List.Perm.refl _)
  have hadm := fun r => known_admissible ok r (out r) ((halos2d_spec input w hS).2.1 r (out r) (hout r)) (known view (mesh r) r (out r)) (List.Perm.refl _) (by
    rcases hE r with h | h <;> rw [h] <;> simp)
  choose mapper hm _ using fun r => mapper_correct 2 (by omega) (by omega) (100 : ℚ) (by norm_num) (fun f => ⌈f⌉) hsc _ (hadm r)
  let geoms : Fin 2 → List (ℤ × ℤ) := fun r => if r = 0 then [(12, 4)] else [(13, 4)]
  have hgr : ∀ r, ∀ g ∈ geoms r, 0 ≤ g.1 ∧ g.1 < 2147483647 := by intro r; fin_cases r <;> simp [geoms]
  have hgne : ∀ r, geoms r ≠ [] := by intro r; fin_cases r <;> simp [geoms]
  have hgs : ∀ r, ((geoms r).map Prod.fst).Pairwise (· < ·) := by intro r; fin_cases r <;> simp [geoms]
  choose tr htr _ using fun r => C03.constructMaps_spec (geoms r) (hgne r) ((hgs r).imp fun h => ne_of_lt h) (hgr r)
  have hfit := fun r => counts _ (hE r) (hadm r) (mapper r) (hm r)
  obtain ⟨w1, w2, w3, w4, w5⟩ := world_2d (V := view) (big := 100) (by norm_num) hsc (tol0 := 1 / 1000) (t := 1 / 1000) (by norm_num) (by norm_num) (by norm_num) ok covers (by
      intro d hd; interval_cases d <;> norm_num [glo, ghi]) w hS out hout (fun r => known view (mesh r) r (out r)) (fun r => List.Perm.refl _) mapper hm hfit (by
      intro r p hp
      refine inRange_of_bounds 2 (by omega) (by omega) 100 (by norm_num) _ hsc _ (hadm r) (mapper r) (hm r) (hfit r) p fun d hd => ?_
      have hp0 := hp 0 (by omega)
      have hp1 := hp 1 (by omega)
      simp only [glo, ghi, if_pos, if_neg one_ne_zero] at hp0 hp1
      have hA : localElem view (0 : Fin 2) .quad (12, elemA) ∈ known view (mesh r) r (out r) := by rcases hE r with h | h <;> rw [h] <;> simp
      have hB : localElem view (1 : Fin 2) .quad (13, elemB) ∈ known view (mesh r) r (out r) := by rcases hE r with h | h <;> rw [h] <;> simp
      refine ⟨⟨_, List.mem_map_of_mem hA, ?_⟩, _, List.mem_map_of_mem hB, ?_⟩ <;> interval_cases d <;>
        simp [localElem, view, elemA, elemB, base_A, base_B] <;> linarith) geoms hgne hgs hgr (by
      intro r id
      fin_cases r <;> simp [geoms, elementsOf, mesh, eq_comm]) tr htr
  have e : (5 * (1 / 1000 + 1 / 1000) : ℚ) = 1 / 100 := by norm_num
  rw [e] at w3 w4
  exact ⟨_, ⟨w1, w2, w3, w4, w5⟩⟩

/-- Linear functions on the whole mesh: the element 12 is below the element 13. -/
def x (ref : List ℚ) : ℚ := 2 + 2 * ref.getD 0 0
def y (g : ℤ) (ref : List ℚ) : ℚ := (if g = 12 then 0 else 1) + 1 / 2 + 1 / 2 * ref.getD 1 0

/-- Basis functions 1, x, y. -/
def linear : Elements ℚ (Fin 3) (Fin 3 → ℚ) where
  basis g ref j := ![1, x ref, y g ref] j
  value u g ref := u 0 + u 1 * x ref + u 2 * y g ref
  gradient u _ _ := (u 1, u 2)

theorem xy (p : ℕ → ℚ) (a : Assignment ℚ) (ha : a ∈ inside2 view mesh (1 / 100) p) : x a.ref = p 0 ∧ y a.cell a.ref = p 1 := by
  obtain ⟨s, e, he, u, v, rfl, hp, -⟩ := ha
  rcases elements s e he with ⟨rfl, rfl⟩ | ⟨rfl, rfl⟩ <;>
  · simp only [point2, Verif.Spec.Embedded.quadPoint, X, weights, weightedFrom, view, elemA, elemB, base_A, base_B] at hp
    norm_num at hp
    obtain ⟨h0, h1⟩ := hp
    rw [← h0, ← h1]
    simp only [x, y, List.getD_cons_zero, List.getD_cons_succ]
    norm_num
    constructor <;> ring

/-- They have one value at each position, also on the common edge. -/
theorem linear_single (inside : (ℕ → ℚ) → Set (Assignment ℚ)) (h : ∀ p, ∀ a ∈ inside p, x a.ref = p 0 ∧ y a.cell a.ref = p 1) :
    SingleValued inside linear (fun p => ![1, p 0, p 1]) (fun u p => u 0 + u 1 * p 0 + u 2 * p 1) (fun u _ => (u 1, u 2)) where
  basis := by
    intro p a ha
    obtain ⟨e1, e2⟩ := h p a ha
    funext j
    simp only [linear, e1, e2]
  value := by
    intro u p a ha
    obtain ⟨e1, e2⟩ := h p a ha
    simp only [linear, e1, e2]
  gradient := fun _ _ _ _ => rfl

/-- The same mesh on one rank, with a mapper that takes the lower element on the common edge. -/
def refOf (p : ℕ → ℚ) : List ℚ := [(p 0 - 2) / 2, (p 1 - (if p 1 ≤ 1 then 0 else 1) - 1 / 2) * 2]
def cellOf1 (p : ℕ → ℚ) : ℤ := if p 1 ≤ 1 then 12 else 13
def inside1 (p : ℕ → ℚ) : Set (Assignment ℚ) := {⟨0, cellOf1 p, refOf p⟩}
def mapOne (_ : ℤ) (g : Cells ℚ) : Option (Cells ℚ) :=
  some (g.map fun c => c.map fun q => if q.rank < 0 then { q with rank := 0, cell := cellOf1 q.pos, ref := refOf q.pos } else q)

theorem related_map (g : Cells ℚ) (f : Particle ℚ → Particle ℚ) (R : Particle ℚ → Particle ℚ → Prop) (h : ∀ c ∈ g, ∀ q ∈ c, R q (f q)) : Related R g (g.map fun c => c.map f) := by
  unfold Related
  induction g with
  | nil => exact List.Forall₂.nil
  | cons c g ih =>
    refine List.Forall₂.cons ?_ (ih fun c hc => h c (List.mem_cons_of_mem _ hc))
    have := h c (List.mem_cons_self ..)
    clear ih h
    induction c with
    | nil => exact List.Forall₂.nil
    | cons q c ih => exact List.Forall₂.cons (this q (List.mem_cons_self ..)) (ih fun q hq => this q (List.mem_cons_of_mem _ hq))

theorem one_rank : ∃ R : Fin 1 → Rank ℚ, WorldOk (Dom 2 glo ghi) inside1 (⟨wrapAll 2 glo ghi, fun _ => 0, R⟩ : World 1 ℚ) := by
  have hp : ∀ d < 2, 1 ≤ ghi d - glo d := by intro d hd; interval_cases d <;> norm_num [glo, ghi]
  obtain ⟨tr, htr, -⟩ := C03.constructMaps_spec [(12, 4), (13, 4)] (by simp) (by simp) (by simp)
  obtain ⟨t1, t2⟩ := translation_cells [(12, 4), (13, 4)] (by simp) (by simp) (by simp) tr htr
  refine ⟨fun _ => ⟨mapOne, tr⟩, ⟨wrapAll_dom 2 glo ghi hp, fun _ _ => ⟨0, rfl⟩, ?_, fun r => ⟨?_, ?_, ?_⟩, fun r h => ?_⟩⟩
  · rintro p a rfl
    exact ⟨0, rfl⟩
  · intro g hg
    refine ⟨_, rfl, related_map _ _ _ fun c hc q hq => Or.inr ⟨_, rfl, ?_⟩⟩
    rw [if_pos (hg c hc q hq).1]
    rfl
  · intro g _ _
    refine ⟨_, rfl, related_map _ _ _ fun c hc q hq => ?_⟩
    by_cases h : q.rank < 0
    · exact Or.inr ⟨h, _, rfl, by rw [if_pos h]; rfl⟩
    · exact Or.inl ⟨by rw [if_neg h], by omega⟩
  · rintro p a rfl -
    have := t2 (cellOf1 p) (by unfold cellOf1; split_ifs <;> simp)
    exact this
  · rw [show tr.mapToNektar = [] from h] at t1
    simp at t1

theorem xy1 (p : ℕ → ℚ) (a : Assignment ℚ) (ha : a ∈ inside1 p) : x a.ref = p 0 ∧ y a.cell a.ref = p 1 := by
  obtain rfl : a = ⟨0, cellOf1 p, refOf p⟩ := ha
  simp only [x, y, refOf, cellOf1, List.getD_cons_zero, List.getD_cons_succ]
  refine ⟨by ring, ?_⟩
  by_cases h : p 1 ≤ 1
  · simp only [if_pos h, if_true]
    ring
  · simp only [if_neg h, show ((13 : ℤ) = 12) = False by norm_num, if_false]
    ring

/-- The hypotheses of `ranks_not_observable`: the mesh on one rank and on two ranks, after any execution of the construction of the halos; charged particles that are anywhere, with the Boris integrator. The
transfers complete, and then all time steps agree. -/
example (w : Fin 2 → ℤ) {S : Sys 2 Msg (List Remote × List Remote)} (hS : Reachable (Sys.init (fun r => halos2d mh (fun c => c) (mesh r) r) w) S)
    (out : Fin 2 → List Remote × List Remote) (hout : ∀ r, S.prog r = .done (out r)) (l : List (Charged ℚ × Particle ℚ)) :
    ∃ (W : World 1 ℚ) (W' : World 2 ℚ) (S1 : State 1 (Charged ℚ) ℚ) (S1' : State 2 (Charged ℚ) ℚ),
      transfer W.boundary W.target W.ranks (fun _ => [l]) = some S1 ∧ transfer W'.boundary W'.target W'.ranks (fun r => if r = 0 then [l] else [[]]) = some S1' ∧
      ∀ k, ∃ S S' u, at_ (ops W (borisIntegrator ⟨1 / 10, 1⟩ (0, 0, 1)) linear (fun rho => rho) (fun u => u 0) (fun u => u 1) 1) (some S1) k = (some S, some u) ∧
        at_ (ops W' (borisIntegrator ⟨1 / 10, 1⟩ (0, 0, 1)) linear (fun rho => rho) (fun u => u 0) (fun u => u 1) 1) (some S1') k = (some S', some u) ∧ particles S = particles S' := by
  obtain ⟨R, hR⟩ := one_rank
  obtain ⟨R', hR'⟩ := two_ranks w hS out hout
  obtain ⟨S1, e, p1, s1⟩ := transfer_correct hR.boundary hR.owned hR.ranks hR.mapped (fun _ => [l]) (by simp)
  obtain ⟨S1', e', p1', s1'⟩ := transfer_correct hR'.boundary hR'.owned hR'.ranks hR'.mapped (fun r => if r = 0 then [l] else [[]]) (by intro r; fin_cases r <;> simp)
  obtain ⟨o1, o2⟩ := boris_ok (K := ℚ) ⟨1 / 10, 1⟩ (0, 0, 1)
  refine ⟨_, _, S1, S1', e, e', (ranks_not_observable (linear_single _ xy1) (linear_single _ xy) hR hR' rfl o1 o2 _ _ _ S1 s1 S1' s1' ?_).1⟩
  rw [p1, p1']
  congr 1

end Example

end Verif.Props.C91
