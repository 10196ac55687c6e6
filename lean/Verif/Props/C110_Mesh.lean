import Verif.Props.C110_Serial
import Verif.Props.C90_Example
import Verif.Props.C91_Mesh

/-!
C110 for meshes in two dimensions, from the construction of the source lines to any number of time steps; and an example.
-/

namespace Verif.Props.C110
open Verif.Model Verif.Model.ParallelNeutral Verif.Model.ParallelStep Verif.Model.MapChain Verif.Model.CoarseLookup Verif.Model.LineInit Verif.Model.Sampling Verif.Model.NeutralSystem Verif.Spec.ParallelNeutral
open Verif.Model.ParallelPic (World gid)
open Verif.Props.C55 (Assignment)
open Verif.Props.C90 (Settled)
open Verif.Props.C91 (WorldOk)
open Verif.Props.C108 (Usable points counts LinePoint)

variable {n : ℕ} {J : Type} {dom : (ℕ → ℝ) → Prop} {inside : (ℕ → ℝ) → Set (Assignment ℝ)} {C : Setup n}

/-- The particle parts of `k` time steps of the fluid. -/
noncomputable def timeSteps (C : Setup n) (basis : ℤ → List ℝ → J → ℝ) (timestep : ℝ) (m : ℕ) : ℕ → Sys n → Option (Sys n)
  | 0, s => some s
  | k + 1, s => (timeSteps C basis timestep m k s).bind fun s => (preIntegrate C basis s.simulationTime timestep m s).map Prod.snd

/-- `k` time steps without ranks: the sub steps of C63, then the particles with no weight left are removed. -/
inductive TimeSteps (inside : (ℕ → ℝ) → Set (Assignment ℝ)) (H : Physics) (sources : List Source) (timestep : ℝ) (m : ℕ) : ℕ → ℕ → Multiset Body → Prop
  | start : TimeSteps inside H sources timestep m 0 0 0
  | step {k drawn drawn' : ℕ} {M M' : Multiset Body} : TimeSteps inside H sources timestep m k drawn M →
      Run inside H sources (timestep / m) (List.replicate m (timestep / m)) drawn (k * m) M drawn' M' → TimeSteps inside H sources timestep m (k + 1) drawn' (M'.filter fun a => a.1.id ≠ -1)

/-- **C110, any number of time steps.** From a start without particles all time steps complete on all ranks, and the particles of all ranks together are those of a simulation without ranks. -/
theorem time_steps_correct (hW : WorldOk dom inside C.world) (href : ∀ p, ∀ a ∈ inside p, a.ref.length = 2) (hT : ∀ k p, ∀ a ∈ inside p, 0 < C.fieldT k a.cell a.ref * C.cfg.TtoEV) {s : Sys n}
    (h : Good dom inside C 0 s) (hs : particles s.group = 0) (hk : s.clock = 0) (basis : ℤ → List ℝ → J → ℝ) {timestep : ℝ} (ht : 0 < timestep) {m : ℕ} (hm : 0 < m) (k : ℕ) :
    ∃ s' D', timeSteps C basis timestep m k s = some s' ∧ Good dom inside C D' s' ∧ s'.simulationTime = s.simulationTime + k * timestep ∧
      TimeSteps inside (physics C) (s.lines.map sourceOf) timestep m k D' (particles s'.group) := by
  suffices H : ∃ s' D', timeSteps C basis timestep m k s = some s' ∧ Good dom inside C D' s' ∧ s'.simulationTime = s.simulationTime + k * timestep ∧ s'.clock = k * m ∧
      s'.lines.map sourceOf = s.lines.map sourceOf ∧ TimeSteps inside (physics C) (s.lines.map sourceOf) timestep m k D' (particles s'.group) by
    obtain ⟨s', D', h1, h2, h3, -, -, h4⟩ := H
    exact ⟨s', D', h1, h2, h3, h4⟩
  induction k with
  | zero => exact ⟨s, 0, rfl, h, by simp, by simpa using hk, rfl, by rw [hs]; exact .start⟩
  | succ k ih =>
    obtain ⟨s1, D1, e1, g1, t1, c1, l1, r1⟩ := ih
    obtain ⟨s2, D2, M, A, g2, t2, c2, l2, r2, -, e2, hM⟩ := pre_integrate_correct hW href hT g1 basis ht hm
    refine ⟨s2, D2, by rw [timeSteps, e1, Option.bind_some, e2, Option.map_some], g2, by rw [t2, t1]; push_cast; ring, by rw [c2, c1]; ring, l2.trans l1, ?_⟩
    rw [hM]
    rw [l1, c1] at r2
    exact .step r1 r2

/-- The parameters of a source line: the number of points, the ends, the splitting of the points for their creation, and the values of its generator. -/
structure LineSpec where
  npoints : ℕ
  first : List ℝ
  last : List ℝ
  split : ℕ → ℕ
  stream : ℕ → ℤ

/-- The points are in the domain, the splitting covers them, and the generator yields their indices. -/
def LineSpec.Ok (n : ℕ) (dom : (ℕ → ℝ) → Prop) (L : LineSpec) : Prop :=
  2 ≤ L.first.length ∧ 2 ≤ L.last.length ∧ 0 < L.npoints ∧ L.split 0 = 0 ∧ (∀ r < n, L.split r ≤ L.split (r + 1)) ∧ L.split n = L.npoints ∧
  (∀ i < L.npoints, ∀ p, LinePoint 2 L.npoints L.first L.last i p → dom p) ∧ ∀ k, 0 ≤ L.stream k ∧ L.stream k < L.npoints

/-- The line `l` was made from `L` by the constructors of C108. -/
def Made (C : Setup n) (L : LineSpec) (l : SourceLine n) : Prop :=
  construct 2 L.npoints L.first L.last L.split C.world.target C.world.ranks = some l.points ∧ l.stream = L.stream ∧ ∀ r : Fin n, (mkSamplers (counts l.points) 0)[r.val]? = some (l.sampler r)

/-- The points of the source are those of the line, each once. -/
def OnLine (L : LineSpec) (s : Source) : Prop :=
  s.stream = L.stream ∧ ∃ nodes, nodes.length = L.npoints ∧ (∀ i < L.npoints, ∃ p, nodes[i]? = some p ∧ LinePoint 2 L.npoints L.first L.last i p) ∧ s.points.Perm nodes

/-- **C110, from the construction on.** The source lines are constructed on all ranks, there are no particles; then any number of time steps completes on all ranks. The particles of all ranks together are those of a
simulation without ranks, whose sources are at the points of the lines. -/
theorem simulation (hW : WorldOk dom inside C.world) (href : ∀ p, ∀ a ∈ inside p, a.ref.length = 2) (hT : ∀ k p, ∀ a ∈ inside p, 0 < C.fieldT k a.cell a.ref * C.cfg.TtoEV) (lines : List LineSpec)
    (hL : ∀ L ∈ lines, L.Ok n dom) (basis : ℤ → List ℝ → J → ℝ) {timestep : ℝ} (ht : 0 < timestep) {m : ℕ} (hm : 0 < m) :
    ∃ made sources, List.Forall₂ (Made C) lines made ∧ List.Forall₂ OnLine lines sources ∧
      ∀ s : Sys n, s.group = (fun r => List.replicate (C.world.ranks r).translation.mapToNektar.length []) → s.lines = made → s.clock = 0 →
        Good dom inside C 0 s ∧ ∀ k, ∃ s' D', timeSteps C basis timestep m k s = some s' ∧ Good dom inside C D' s' ∧ s'.simulationTime = s.simulationTime + k * timestep ∧
          TimeSteps inside (physics C) sources timestep m k D' (particles s'.group) := by
  have hone : ∀ L ∈ lines, ∃ l, Made C L l ∧ OnLine L (sourceOf l) ∧ ((∀ r, Usable 2 dom inside (C.world.ranks r) r (l.points r)) ∧
      (∀ k, 0 ≤ l.stream k ∧ l.stream k < (counts l.points).sum) ∧ ∀ r : Fin n, (mkSamplers (counts l.points) 0)[r.val]? = some (l.sampler r)) := by
    intro L hLm
    obtain ⟨h1, h2, h3, h4, h5, h6, h7, h8⟩ := hL L hLm
    obtain ⟨P, e1, e2, nodes, e3, e4, e5⟩ := C108.points_distributed hW.owned hW.ranks hW.mapped hW.cells (fun p q hq => (href p q hq).ge) h1 h2 h3 h4 h5 h6 h7
    have hsum : (counts P).sum = L.npoints := by
      have h1 : (points 2 P).length = L.npoints := by rw [e5.length_eq, e3]
      have h2 := C108.counts_take P n
      rw [List.take_of_length_le (by simp [counts]), List.take_of_length_le (by simp)] at h2
      rw [h2, ← h1, points, List.flatMap_def, List.length_flatten]
    have hml : ∀ (cs : List ℤ) (acc : ℤ), (mkSamplers cs acc).length = cs.length := by
      intro cs
      induction cs with
      | nil => intro _; rfl
      | cons x cs ih => intro acc; simp [mkSamplers, ih]
    have hlen : ∀ r : Fin n, r.val < (mkSamplers (counts P) 0).length := fun r => by rw [hml]; simp [counts]
    refine ⟨⟨P, L.stream, fun r => (mkSamplers (counts P) 0)[r.val]'(hlen r)⟩, ⟨e1, rfl, fun r => List.getElem?_eq_getElem (hlen r)⟩, ⟨rfl, nodes, e3, e4, e5⟩, e2, ?_, fun r => List.getElem?_eq_getElem (hlen r)⟩
    dsimp only
    rw [hsum]
    exact h8
  obtain ⟨made, f1⟩ : ∃ made, List.Forall₂ (fun L l => Made C L l ∧ OnLine L (sourceOf l) ∧ ((∀ r, Usable 2 dom inside (C.world.ranks r) r (l.points r)) ∧
      (∀ k, 0 ≤ l.stream k ∧ l.stream k < (counts l.points).sum) ∧ ∀ r : Fin n, (mkSamplers (counts l.points) 0)[r.val]? = some (l.sampler r))) lines made := by
    clear hL
    induction lines with
    | nil => exact ⟨[], .nil⟩
    | cons L lines ih =>
      obtain ⟨l, hl⟩ := hone L (List.mem_cons_self ..)
      obtain ⟨ls, hls⟩ := ih fun L h => hone L (List.mem_cons_of_mem _ h)
      exact ⟨l :: ls, .cons hl hls⟩
  refine ⟨made, made.map sourceOf, f1.imp fun _ _ h => h.1, ?_, ?_⟩
  · rw [List.forall₂_map_right_iff]
    exact f1.imp fun _ _ h => h.2.1
  · intro s hg hl hk
    have good : Good dom inside C 0 s := init_good (fun r => by rw [hg]) (fun l hlm => by
      rw [hl] at hlm
      obtain ⟨L, -, h⟩ := C90.forall₂_right f1 l hlm
      exact h.2.2)
    refine ⟨good, fun k => ?_⟩
    rw [← hl]
    refine time_steps_correct hW href hT good ?_ hk basis ht hm k
    rw [hg, C90.particles_eq]
    have : (C90.all fun r : Fin n => (List.replicate (C.world.ranks r).translation.mapToNektar.length ([] : List (Neutral × Particle ℝ))).flatten) = 0 := by
      simp [C90.all]
    rw [this]
    rfl

/-! ### Meshes in two dimensions -/

section two
open Verif.Model.CartesianMesh Verif.Model.DeviceMapper Verif.Spec Verif.Spec.Mapping Verif.Props.C34 Verif.Props.C35 Verif.Props.C40 Verif.Model.RegularMap Verif.Model.NewtonKernel
  Verif.Model.NewtonElements Verif.Props.C84 Verif.Model.MeshHierarchy Verif.Model.Claims Verif.Spec.LinearElements Verif.Props.C85
  Verif.Model.Bytes Verif.Model.PackedGeom2D Verif.Model.HaloExchange Verif.Lemmas.Mpi Verif.Props.C57 Verif.Props.C90
open Verif.Model.Mpi (Reachable)

/-- **C110, 2D.** A mesh of triangles and parallelograms that cover a box with periods of at least one, distributed over any number of ranks with at least one element each; after any execution of the construction of the
halos. The temperature is positive and all points of the source lines are in the box. Then the source lines are constructed on all ranks, and any number of time steps completes; the particles of all ranks together are
those of a simulation without ranks. -/
theorem sol_2d {V : View2 ℝ} {big : ℝ} (hbig : 0 < big) {scaling : ℝ → ℤ} (hsc : ∀ f, 1 < f → 0 < scaling f ∧ f ≤ (scaling f : ℝ) ^ 2) {tol0 t : ℝ} (h0 : 0 < tol0) (ht : 0 ≤ t)
    (htol : t + tol0 ≤ 1 / 10) {m : MHGeom ℝ} {owner : ℤ → ℤ} {glo ghi : ℕ → ℝ} {mesh : Fin n → Mesh2d ℝ} (h : Mesh2Ok V big m owner glo ghi mesh) (hc : GridCovers m glo ghi)
    (hper : ∀ d < 2, 1 ≤ ghi d - glo d) (w : Fin n → ℤ) {S : Mpi.Sys n Msg (List Remote × List Remote)} (hS : Reachable (Mpi.Sys.init (fun r => halos2d m owner (mesh r) r) w) S)
    (out : Fin n → List Remote × List Remote) (hout : ∀ r, S.prog r = .done (out r)) (E : Fin n → List (Elem2 ℝ)) (hE : ∀ r, (E r).Perm (known V (mesh r) r (out r)))
    (mapper : Fin n → Mapper ℝ) (hm : ∀ r, mkMapper 2 big scaling ((E r).map Elem2.geom) = some (mapper r)) (hfit : ∀ r, ∀ d < 2, (mapper r).lookup.mesh.cellCounts d < 2147483648)
    (hrange : ∀ r p, Dom 2 glo ghi p → InRange (mapper r) p) (geoms : Fin n → List (ℤ × ℤ)) (hgne : ∀ r, geoms r ≠ []) (hgs : ∀ r, ((geoms r).map Prod.fst).Pairwise (· < ·))
    (hgr : ∀ r, ∀ g ∈ geoms r, 0 ≤ g.1 ∧ g.1 < 2147483647) (hgi : ∀ r id, id ∈ (geoms r).map Prod.fst ↔ ∃ x ∈ elementsOf (mesh r), x.2.1 = id)
    (tr : Fin n → CellId.Translation) (htr : ∀ r, CellId.constructMaps (geoms r) = some (tr r))
    (cfg : Config) (velocities : Fin n → ℕ → ℝ) (fieldN fieldT : ℕ → ℤ → List ℝ → ℝ) (hT : ∀ k, ∀ r : Fin n, ∀ x ∈ elementsOf (mesh r), ∀ ref, 0 < fieldT k x.2.1 ref * cfg.TtoEV)
    (lines : List LineSpec) (hL : ∀ L ∈ lines, L.Ok n (Dom 2 glo ghi)) (basis : ℤ → List ℝ → J → ℝ) {timestep : ℝ} (hts : 0 < timestep) {substeps : ℕ} (hsub : 0 < substeps) :
    let C : Setup n := ⟨⟨wrapAll 2 glo ghi, ownerOf m owner, fun r => ⟨map2D (some ((mapper r).stage (test2d tol0 t (E r)))) none, tr r⟩⟩, cfg, velocities, fieldN, fieldT⟩
    let inside := inside2 V mesh (5 * (t + tol0))
    ∃ made sources, List.Forall₂ (Made C) lines made ∧ List.Forall₂ OnLine lines sources ∧
      ∀ s : Sys n, s.group = (fun r => List.replicate (tr r).mapToNektar.length []) → s.lines = made → s.clock = 0 →
        ∀ k, ∃ s' drawn, timeSteps C basis timestep substeps k s = some s' ∧ Settled (Dom 2 glo ghi) inside C.world.ranks s'.group ∧ s'.simulationTime = s.simulationTime + k * timestep ∧
          TimeSteps inside (physics C) sources timestep substeps k drawn (particles s'.group) := by
  intro C inside
  obtain ⟨w1, w2, w3, w4, w5⟩ := world_2d hbig hsc h0 ht htol h hc hper w hS out hout E hE mapper hm hfit hrange geoms hgne hgs hgr hgi tr htr
  obtain ⟨made, sources, h1, h2, h3⟩ := simulation (C := C) (inside := inside) (dom := Dom 2 glo ghi) ⟨w1, w2, w3, w4, w5⟩ (by
    rintro p q ⟨s, x, -, u, v, rfl, -⟩
    rfl) (by
    rintro k p q ⟨s, x, hx, u, v, rfl, -⟩
    exact hT k s x hx _) lines hL basis hts hsub
  refine ⟨made, sources, h1, h2, fun s e1 e2 e3 k => ?_⟩
  obtain ⟨s', D', k1, k2, k3, k4⟩ := (h3 s e1 e2 e3).2 k
  exact ⟨s', D', k1, k2.settled, k3, k4⟩

end two

/-! ### An example: two rectangles on two ranks -/

namespace Example
open Verif.Props.C90

/-- The domain [0, 4) x [0, 2); element 12 of rank 0 is the lower half, element 13 of rank 1 the upper half. -/
noncomputable def hi : ℕ → ℝ := fun d => if d = 0 then 4 else 2
open Classical in
noncomputable def upper (p : ℕ → ℝ) : ℤ := if p 1 ≤ 1 then 0 else 1
noncomputable def refOf (p : ℕ → ℝ) : List ℝ := [(p 0 - 2) / 2, (p 1 - upper p - 1 / 2) * 2]
noncomputable def place (p : ℕ → ℝ) : Assignment ℝ := ⟨upper p, 12 + upper p, refOf p⟩
def insideX (p : ℕ → ℝ) : Set (Assignment ℝ) := {place p}
noncomputable def mapX (_ : ℤ) (g : Cells ℝ) : Option (Cells ℝ) := some (g.map fun c => c.map fun q => if q.rank < 0 then C90.assign q (place q.pos) else q)

theorem upper_cases (p : ℕ → ℝ) : upper p = 0 ∨ upper p = 1 := by
  unfold upper
  split_ifs <;> simp

theorem related_map (g : Cells ℝ) (f : Particle ℝ → Particle ℝ) (R : Particle ℝ → Particle ℝ → Prop) (h : ∀ c ∈ g, ∀ q ∈ c, R q (f q)) : C55.Related R g (g.map fun c => c.map f) := by
  unfold C55.Related
  rw [List.forall₂_map_right_iff, List.forall₂_same]
  intro c hc
  rw [List.forall₂_map_right_iff, List.forall₂_same]
  exact h c hc

theorem two_ranks : ∃ R : Fin 2 → Rank ℝ, WorldOk (Dom 2 (fun _ => 0) hi) insideX (⟨wrapAll 2 (fun _ => 0) hi, upper, R⟩ : World 2 ℝ) := by
  have hp : ∀ d < 2, 1 ≤ hi d - (fun _ => (0 : ℝ)) d := by intro d hd; interval_cases d <;> norm_num [hi]
  let geoms : Fin 2 → List (ℤ × ℤ) := fun r => [(12 + (r.val : ℤ), 4)]
  have hgr : ∀ r, ∀ g ∈ geoms r, 0 ≤ g.1 ∧ g.1 < 2147483647 := by intro r; fin_cases r <;> simp [geoms]
  have hgne : ∀ r, geoms r ≠ [] := by intro r; simp [geoms]
  have hgs : ∀ r, ((geoms r).map Prod.fst).Pairwise (· < ·) := by intro r; simp [geoms]
  choose tr htr _ using fun r => C03.constructMaps_spec (geoms r) (hgne r) ((hgs r).imp fun h => ne_of_lt h) (hgr r)
  have htc := fun r => translation_cells (geoms r) (hgne r) (hgs r) (hgr r) (tr r) (htr r)
  have hranks : ∀ p, ∃ s : Fin 2, upper p = s.val := by
    intro p
    rcases upper_cases p with h | h
    · exact ⟨0, by simp [h]⟩
    · exact ⟨1, by simp [h]⟩
  have hnn : ∀ p, 0 ≤ upper p := fun p => by rcases upper_cases p with h | h <;> omega
  refine ⟨fun r => ⟨mapX, tr r⟩, ⟨wrapAll_dom 2 _ hi hp, fun p _ => hranks p, ?_, fun r => ⟨?_, ?_, ?_⟩, fun r h => ?_⟩⟩
  · rintro p a rfl
    exact hranks p
  · intro g hg
    refine ⟨_, rfl, related_map _ _ _ fun c hc q hq => Or.inr ⟨_, rfl, ?_⟩⟩
    rw [if_pos (hg c hc q hq).1]
  · intro g _ _
    refine ⟨_, rfl, related_map _ _ _ fun c hc q hq => ?_⟩
    by_cases h : q.rank < 0
    · exact Or.inr ⟨h, _, rfl, by rw [if_pos h]⟩
    · exact Or.inl ⟨by rw [if_neg h], by omega⟩
  · rintro p a rfl hr
    refine (htc r).2 _ ?_
    have hr : upper p = r.val := hr
    simp [geoms, place, hr]
  · have := (htc r).1
    rw [show (tr r).mapToNektar = [] from h] at this
    simp [geoms] at this

/-- The line from (1/2, 1/2) to (1/2, 3/2) with two points; rank 0 creates both. Point 1 is drawn first, then point 0, then point 1 again. -/
noncomputable def aLine : LineSpec := ⟨2, [1 / 2, 1 / 2], [1 / 2, 3 / 2], fun r => if r = 0 then 0 else 2, fun k => if k % 2 = 0 then 1 else 0⟩

theorem aLine_ok : aLine.Ok 2 (Dom 2 (fun _ => 0) hi) := by
  refine ⟨by simp [aLine], by simp [aLine], by simp [aLine], by simp [aLine], ?_, by simp [aLine], ?_, ?_⟩
  · intro r hr
    interval_cases r <;> simp [aLine]
  · intro i hi' p hp d hd
    have := hp.1 d hd
    have hi2 : i < 2 := hi'
    simp only [aLine] at this
    interval_cases d <;> interval_cases i <;> norm_num [hi] at this ⊢ <;> rw [this] <;> norm_num
  · intro k
    simp only [aLine]
    split_ifs <;> simp

/-- Three particles per time step of the fluid, walls at 0 and 4, a constant temperature of 10 eV and a density that is higher in the upper half. -/
noncomputable def cfg : Config := ⟨⟨1, 1, 0⟩, 3, 1, 1, 4, false, 1, 1, 10⟩

/-- The same with periodic boundaries. -/
noncomputable def cfgP : Config := ⟨⟨1, 1, 0⟩, 3, 1, 1, 4, true, 1, 1, 10⟩

/-- The hypotheses of `simulation`, `init_good` and `time_steps_correct`: any number of time steps with two sub steps each completes. -/
example (velocities : Fin 2 → ℕ → ℝ) : ∃ (R : Fin 2 → Rank ℝ) (made : SourceLine 2), ∀ s : Sys 2, s.group = (fun r => List.replicate (R r).translation.mapToNektar.length []) → s.lines = [made] → s.clock = 0 →
    ∀ k, ∃ s', timeSteps ⟨⟨wrapAll 2 (fun _ => 0) hi, upper, R⟩, cfg, velocities, fun _ g _ => if g = 12 then 1 else 2, fun _ _ _ => 10⟩ (fun _ _ (_ : Unit) => 1) (1 / 10) 2 k s = some s' := by
  obtain ⟨R, hR⟩ := two_ranks
  obtain ⟨made, sources, h1, h2, h3⟩ := simulation (C := ⟨⟨wrapAll 2 (fun _ => 0) hi, upper, R⟩, cfg, velocities, fun _ g _ => if g = 12 then 1 else 2, fun _ _ _ => 10⟩) hR
    (by rintro p a rfl; rfl) (by intro k p a _; norm_num [cfg]) [aLine] (by simpa using aLine_ok) (fun _ _ (_ : Unit) => 1) (show (0 : ℝ) < 1 / 10 by norm_num) (show 0 < 2 by norm_num)
  cases h1 with
  | cons hm h1 =>
    rename_i l ls
    cases h1
    refine ⟨R, l, fun s e1 e2 e3 k => ?_⟩
    obtain ⟨s', D', k1, -⟩ := (h3 s e1 e2 e3).2 k
    exact ⟨s', k1⟩

/-- The hypotheses of `mass_conserved` for periodic boundaries and constant fields: in the first time step three particles of weight one appear, and what they lose is in the projected density source. -/
example (velocities : Fin 2 → ℕ → ℝ) : ∃ (R : Fin 2 → Rank ℝ) (made : SourceLine 2), ∀ s : Sys 2, s.group = (fun r => List.replicate (R r).translation.mapToNektar.length []) → s.lines = [made] → s.clock = 0 →
    ∃ s' density rest, preIntegrate ⟨⟨wrapAll 2 (fun _ => 0) hi, upper, R⟩, cfgP, velocities, fun _ _ _ => 1, fun _ _ _ => 10⟩ (fun _ _ (_ : Unit) => 1) s.simulationTime (1 / 10) 1 s =
      some (density :: rest, s') ∧ weight (particles s'.group) + 1 / 10 * density () = 3 := by
  obtain ⟨R, hR⟩ := two_ranks
  have hT : ∀ (k : ℕ) (p : ℕ → ℝ), ∀ a ∈ insideX p, (0 : ℝ) < (fun (_ : ℕ) (_ : ℤ) (_ : List ℝ) => (10 : ℝ)) k a.cell a.ref * cfgP.TtoEV := by intro k p a _; norm_num [cfgP]
  obtain ⟨made, sources, h1, h2, h3⟩ := simulation (C := ⟨⟨wrapAll 2 (fun _ => 0) hi, upper, R⟩, cfgP, velocities, fun _ _ _ => 1, fun _ _ _ => 10⟩) hR
    (by rintro p a rfl; rfl) hT [aLine] (by simpa using aLine_ok) (fun _ _ (_ : Unit) => 1) (show (0 : ℝ) < 1 / 10 by norm_num) (show 0 < 1 by norm_num)
  cases h1 with
  | cons hm h1 =>
    rename_i l ls
    cases h1
    refine ⟨R, l, fun s e1 e2 e3 => ?_⟩
    have good := (h3 s e1 e2 e3).1
    have hnone : particles s.group = 0 := by
      rw [e1, C90.particles_eq]
      simp [C90.all]
    obtain ⟨s', D', density, rest, k1, -, -, k2⟩ := mass_conserved hR (by rintro p a rfl; rfl) hT good (by rw [hnone]; simp) rfl (by norm_num [cfgP]) (fun _ _ (_ : Unit) => 1) (fun _ => 1) (by simp)
      (show (0 : ℝ) < 1 / 10 by norm_num)
    refine ⟨s', density, rest, k1, ?_⟩
    rw [hnone, e2] at k2
    have e : particlesPerLine cfgP 1 = 3 := by
      unfold particlesPerLine cfgP
      norm_num [truncZ]
    simp only [e] at k2
    simpa [weight, cfgP] using k2

/-- The hypotheses of `integrate_correct` and `serial`: `integrate` on two ranks with constant fields gives the particles of a run of the model with one list of particles. -/
example (velocities : Fin 2 → ℕ → ℝ) : ∃ (R : Fin 2 → Rank ℝ) (made : SourceLine 2), ∀ s : Sys 2, s.group = (fun r => List.replicate (R r).translation.mapToNektar.length []) → s.lines = [made] → s.clock = 0 →
    s.simulationTime = 0 → ∃ s' envs t', integrate ⟨⟨wrapAll 2 (fun _ => 0) hi, upper, R⟩, cfg, velocities, fun _ _ _ => 1, fun _ _ _ => 10⟩ 1 (3 / 10) s = some s' ∧
      C63.perform (substepSOL cfg envs (3 / 10)) (C63.steps 1 (3 / 10)) ⟨[], 0, 0, 0⟩ = some t' ∧ (t'.particles : Multiset Ionisation.Particle) = (particles s'.group).map toParticle := by
  obtain ⟨R, hR⟩ := two_ranks
  have hT : ∀ (k : ℕ) (p : ℕ → ℝ), ∀ a ∈ insideX p, (0 : ℝ) < (fun (_ : ℕ) (_ : ℤ) (_ : List ℝ) => (10 : ℝ)) k a.cell a.ref * cfg.TtoEV := by intro k p a _; norm_num [cfg]
  obtain ⟨made, sources, h1, h2, h3⟩ := simulation (C := ⟨⟨wrapAll 2 (fun _ => 0) hi, upper, R⟩, cfg, velocities, fun _ _ _ => 1, fun _ _ _ => 10⟩) hR
    (by rintro p a rfl; rfl) hT [aLine] (by simpa using aLine_ok) (fun _ _ (_ : Unit) => 1) (show (0 : ℝ) < 1 / 10 by norm_num) (show 0 < 1 by norm_num)
  cases h1 with
  | cons hm h1 =>
    rename_i l ls
    cases h1
    refine ⟨R, l, fun s e1 e2 e3 e4 => ?_⟩
    have good := (h3 s e1 e2 e3).1
    have hnone : particles s.group = 0 := by
      rw [e1, C90.particles_eq]
      simp [C90.all]
    obtain ⟨s', D', k1, -, -, -, -, run⟩ := integrate_correct hR (by rintro p a rfl; rfl) hT good (timeEnd := 1) (dt := 3 / 10) (by norm_num) (by rw [e4]; norm_num)
    rw [e4, e3, hnone, sub_zero] at run
    obtain ⟨envs, t', q1, -, q2⟩ := serial (fN := fun _ _ => 1) (fT := fun _ _ => 10) (wrap := fun q => (Periodic.wrap 0 4 q.1, Periodic.wrap 0 2 q.2)) (fun _ _ _ _ => rfl) (fun _ _ _ _ => rfl) (by
      intro p
      simp [physics, wrapAll, Periodic.kernelLoop, hi]) (by rw [e2]; rfl) run ⟨[], 0, 0, 0⟩ rfl rfl
    exact ⟨s', envs, t', k1, q1, q2⟩

end Example

end Verif.Props.C110
