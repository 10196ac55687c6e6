import Verif.Props.C90_ParallelStep
import Verif.Props.C85_Distributed
import Verif.Props.C27_Periodic
import Verif.Props.C03_CellId

/-!
C90 for distributed meshes of regular elements with periodic boundaries.
-/

namespace Verif.Props.C90
open Verif.Model Verif.Model.CoarseLookup Verif.Model.MapChain Verif.Model.ParallelStep Verif.Props.C55

/-! ### Mappers with one stage -/

section stages
variable {n : ℕ} {K : Type*} {dom : (ℕ → K) → Prop} {target : (ℕ → K) → ℤ} {inside : (ℕ → K) → Set (Assignment K)}

/-- A kernel that finds the particles in cells of the rank. -/
structure StageOk (dom : (ℕ → K) → Prop) (target : (ℕ → K) → ℤ) (inside : (ℕ → K) → Set (Assignment K)) (r : Fin n) (s : Stage K) : Prop where
  searched : ∀ q : Particle K, q.rank < 0 → dom q.pos → ∃ q', s q = some q' ∧ ((q' = q ∧ target q.pos ≠ r.val) ∨ ∃ a ∈ inside q.pos, q' = assign q a)
  mapped : ∀ q : Particle K, 0 ≤ q.rank → s q = some q

theorem runFrom_rel {R : Particle K → Particle K → Prop} (mc : ℤ) (f : Stage K) : ∀ (g : Cells K) (i : ℕ),
    (∀ (j : ℕ) (h : j < g.length), ∀ q ∈ g[j], if selected mc (i + j) then ∃ q', f q = some q' ∧ R q q' else R q q) → ∃ g', runFrom mc f i g = some g' ∧ Related R g g'
  | [], _, _ => ⟨[], rfl, .nil⟩
  | c :: g, i, h => by
    obtain ⟨g', e, hg⟩ := runFrom_rel mc f g (i + 1) (by
      intro j hj q hq
      have := h (j + 1) (by simpa using hj) q (by simpa using hq)
      rwa [show i + (j + 1) = i + 1 + j by omega] at this)
    have h0 := h 0 (by simp)
    simp only [List.getElem_cons_zero, Nat.add_zero] at h0
    have hc : ∃ c', (if selected mc i = true then c.mapM f else some c) = some c' ∧ List.Forall₂ R c c' := by
      by_cases hs : selected mc i = true
      · obtain ⟨c', e', hc'⟩ := mapM_forall₂ (f := f) c (by
          intro a ha
          have := h0 a ha
          rw [if_pos hs] at this
          obtain ⟨q', e, _⟩ := this
          exact ⟨q', e⟩)
        refine ⟨c', by rw [if_pos hs, e'], ?_⟩
        have : ∀ a ∈ c, ∀ b, f a = some b → R a b := by
          intro a ha b hab
          have := h0 a ha
          rw [if_pos hs] at this
          obtain ⟨q', e, hr⟩ := this
          rw [hab] at e
          cases e
          exact hr
        clear e'
        induction hc' with
        | nil => exact .nil
        | cons hab _ ih => exact .cons (this _ List.mem_cons_self _ hab) (ih (fun j hj q hq => h j hj q (by
            cases j with
            | zero => exact List.mem_cons_of_mem _ hq
            | succ j => exact hq)) (fun a ha => h0 a (List.mem_cons_of_mem _ ha)) fun a ha => this a (List.mem_cons_of_mem _ ha))
      · refine ⟨c, by rw [if_neg hs], ?_⟩
        have : ∀ a ∈ c, R a a := fun a ha => by
          have := h0 a ha
          rwa [if_neg hs] at this
        clear h0 h
        induction c with
        | nil => exact .nil
        | cons a c ih => exact .cons (this a List.mem_cons_self) (ih fun b hb => this b (List.mem_cons_of_mem _ hb))
    obtain ⟨c', e', hc'⟩ := hc
    exact ⟨c' :: g', by rw [runFrom, e', Option.bind_some, e]; rfl, .cons hc' hg⟩

theorem first_run {r : Fin n} {s : Stage K} (hs : StageOk dom target inside r s) (g : Cells K) (hg : ∀ c ∈ g, ∀ q ∈ c, q.rank < 0 ∧ dom q.pos) :
    ∃ g', run (-1) s g = some g' ∧ Related (fun q q' => (q' = q ∧ target q.pos ≠ r.val) ∨ ∃ a ∈ inside q.pos, q' = assign q a) g g' := by
  refine runFrom_rel (-1) s g 0 fun j hj q hq => ?_
  rw [if_pos (by simp [selected])]
  obtain ⟨h1, h2⟩ := hg _ (List.getElem_mem hj) q hq
  exact hs.searched q h1 h2

theorem second_run {r : Fin n} {s : Stage K} (hs : StageOk dom target inside r s) (g : Cells K) (h1 : ∀ c ∈ g.tail, ∀ q ∈ c, 0 ≤ q.rank)
    (h2 : ∀ c ∈ g, ∀ q ∈ c, q.rank < 0 → dom q.pos ∧ target q.pos = r.val) :
    ∃ g', run 0 s g = some g' ∧ Related (fun q q' => (q' = q ∧ 0 ≤ q.rank) ∨ (q.rank < 0 ∧ ∃ a ∈ inside q.pos, q' = assign q a)) g g' := by
  refine runFrom_rel 0 s g 0 fun j hj q hq => ?_
  split_ifs with h
  · rcases lt_or_ge q.rank 0 with hq' | hq'
    · obtain ⟨x1, x2⟩ := h2 _ (List.getElem_mem hj) q hq hq'
      obtain ⟨q', e, h⟩ := hs.searched q hq' x1
      refine ⟨q', e, Or.inr ⟨hq', ?_⟩⟩
      rcases h with h | h
      · exact absurd x2 h.2
      · exact h
    · exact ⟨q, hs.mapped q hq', Or.inl ⟨rfl, hq'⟩⟩
  · refine Or.inl ⟨rfl, h1 g[j] ?_ q hq⟩
    cases j with
    | zero => simp [selected] at h
    | succ j =>
      cases g with
      | nil => simp at hj
      | cons c g => exact List.getElem_mem _

theorem checkMap_related {g g' : Cells K} (hi : ∀ p, ∀ a ∈ inside p, 0 ≤ a.rank) (mc : ℤ)
    (h : Related (fun q q' => (q' = q ∧ 0 ≤ q.rank) ∨ (q.rank < 0 ∧ ∃ a ∈ inside q.pos, q' = assign q a)) g g') : checkMap mc g' = false := by
  refine C84.checkMap_of_all mc g' fun i h' _ q hq => ?_
  obtain ⟨c, _, hcc⟩ := forall₂_right h _ (List.getElem_mem h')
  obtain ⟨q0, _, ⟨rfl, h0⟩ | ⟨_, a, ha, rfl⟩⟩ := forall₂_right hcc q hq
  · exact h0
  · exact hi _ a ha

/-- The mapper of 2D with regular elements. -/
theorem rank2D {r : Fin n} {s : Stage K} (hs : StageOk dom target inside r s) (hi : ∀ p, ∀ a ∈ inside p, 0 ≤ a.rank) (t : CellId.Translation)
    (hc : ∀ p, ∀ a ∈ inside p, a.rank = r.val → ∃ i < t.mapToNektar.length, CellId.execute t a.cell = some (i : ℤ) ∧ t.mapToNektar[i]? = some a.cell) :
    RankOk dom target inside r ⟨map2D (some s) none, t⟩ where
  first := by
    intro g hg
    obtain ⟨g', e, h⟩ := first_run hs g hg
    exact ⟨g', by simp [map2D, runOpt, e], h⟩
  second := by
    intro g h1 h2
    obtain ⟨g', e, h⟩ := second_run hs g h1 h2
    exact ⟨g', by simp [map2D, runOpt, e, checkMap_related hi 0 h], h⟩
  cells := hc

theorem foldlM_none (mc : ℤ) (sel : Stage K × Stage K → Stage K) : ∀ (newton : List (Option (Stage K × Stage K))), (∀ s ∈ newton, s = none) → ∀ g : Cells K,
    newton.foldlM (fun g (s : Option (Stage K × Stage K)) => runOpt mc (s.map sel) g) g = some g
  | [], _, _ => rfl
  | s :: l, h, g => by
    rw [List.foldlM_cons, h s List.mem_cons_self]
    exact foldlM_none mc sel l (fun x hx => h x (List.mem_cons_of_mem _ hx)) g

/-- The mapper of 3D with regular elements; the host mapper is not used. -/
theorem rank3D {r : Fin n} {s : Stage K} (hs : StageOk dom target inside r s) (hi : ∀ p, ∀ a ∈ inside p, 0 ≤ a.rank) (newton : List (Option (Stage K × Stage K)))
    (hn : ∀ s ∈ newton, s = none) (host : Stage K) (t : CellId.Translation)
    (hc : ∀ p, ∀ a ∈ inside p, a.rank = r.val → ∃ i < t.mapToNektar.length, CellId.execute t a.cell = some (i : ℤ) ∧ t.mapToNektar[i]? = some a.cell) :
    RankOk dom target inside r ⟨map3D (some s) newton host, t⟩ where
  first := by
    intro g hg
    obtain ⟨g', e, h⟩ := first_run hs g hg
    exact ⟨g', by show map3D _ _ _ _ _ = _; rw [map3D, show runOpt (-1) (some s) g = run (-1) s g from rfl, e]; simp [foldlM_none _ _ newton hn], h⟩
  second := by
    intro g h1 h2
    obtain ⟨g', e, h⟩ := second_run hs g h1 h2
    exact ⟨g', by show map3D _ _ _ _ _ = _; rw [map3D, show runOpt 0 (some s) g = run 0 s g from rfl, e]; simp [foldlM_none _ _ newton hn, checkMap_related hi _ h], h⟩
  cells := hc

end stages

/-! ### Domain and cells -/

section domain
open Verif.Model.Claims Verif.Model.MeshHierarchy Verif.Spec Verif.Props.C85
variable {K : Type} [Field K] [LinearOrder K] [IsStrictOrderedRing K] [FloorRing K]

/-- The domain of a periodic mesh with the bounds `glo` and `ghi`. -/
def Dom (ndim : ℕ) (glo ghi : ℕ → K) (p : ℕ → K) : Prop := ∀ d < ndim, glo d ≤ p d ∧ p d < ghi d

/-- The periodic boundary condition of this domain. -/
def wrapAll (ndim : ℕ) (glo ghi : ℕ → K) : (ℕ → K) → (ℕ → K) := Periodic.kernelLoop glo (fun d => ghi d - glo d) ndim

theorem wrapAll_dom (ndim : ℕ) (glo ghi : ℕ → K) (h : ∀ d < ndim, 1 ≤ ghi d - glo d) (p : ℕ → K) : Dom ndim glo ghi (wrapAll ndim glo ghi p) := by
  have := (C27.kernel_in_domain_partial glo (fun d => ghi d - glo d) ndim p (fun i hi => by have := h i hi; linarith) (fun i hi => Or.inl (h i hi))).1
  intro d hd
  obtain ⟨⟨h1, h2⟩, _⟩ := this d hd
  exact ⟨h1, by unfold wrapAll; linarith⟩

/-- The grid of the mesh hierarchy covers the domain (C75). -/
def GridCovers (m : MHGeom K) (glo ghi : ℕ → K) : Prop := ∀ d < m.ndim, m.origin d ≤ glo d ∧ ghi d ≤ m.origin d + ((m.dims d * m.ncf : ℤ) : K) * m.width

theorem cellOf_inGrid (m : MHGeom K) (hm : GridGeom m) (glo ghi : ℕ → K) (hc : GridCovers m glo ghi) (p : ℕ → K) (hp : Dom m.ndim glo ghi p) : InGrid m.toMH (cellOf m p) := by
  intro d hd
  obtain ⟨h1, h2⟩ := hp d hd
  obtain ⟨h3, h4⟩ := hc d hd
  have hw := hm.2.2.1
  have hi := hm.2.2.2
  have hiw : 0 < m.invWidth := by
    rcases lt_or_ge 0 m.invWidth with h | h
    · exact h
    · have := mul_nonpos_of_nonpos_of_nonneg h hw.le
      rw [hi] at this
      exact absurd this (by norm_num)
  refine ⟨Int.floor_nonneg.2 (mul_nonneg (by linarith) hiw.le), Int.floor_lt.2 ?_⟩
  have h5 : p d - m.origin d < ((m.dims d * m.ncf : ℤ) : K) * m.width := by linarith
  have h6 := mul_lt_mul_of_pos_right h5 hiw
  rwa [mul_assoc, mul_comm m.width, hi, mul_one] at h6

theorem inOwnedCell (m : MHGeom K) (hm : GridGeom m) (owner : ℤ → ℤ) (glo ghi : ℕ → K) (hc : GridCovers m glo ghi) (p : ℕ → K) (hp : Dom m.ndim glo ghi p) :
    InOwnedCell m owner ghi (ownerOf m owner p) p :=
  ⟨cellOf m p, _, cellOf_inGrid m hm glo ghi hc p hp, (C23.hasLinearIndex_iff hm.1 (cellOf_inGrid m hm glo ghi hc p hp) _).2 rfl, rfl, inCell_floor m hm ghi p fun d hd => (hp d hd).2⟩

/-- The cells of a rank from the ids of its elements. -/
theorem translation_cells (geoms : List (ℤ × ℤ)) (hne : geoms ≠ []) (hs : (geoms.map Prod.fst).Pairwise (· < ·)) (hr : ∀ g ∈ geoms, 0 ≤ g.1 ∧ g.1 < 2147483647)
    (t : CellId.Translation) (ht : CellId.constructMaps geoms = some t) : t.mapToNektar = geoms.map Prod.fst ∧
      ∀ id ∈ geoms.map Prod.fst, ∃ i < t.mapToNektar.length, CellId.execute t id = some (i : ℤ) ∧ t.mapToNektar[i]? = some id := by
  obtain ⟨t', e, h1, _, h2⟩ := C03.constructMaps_spec geoms hne (hs.imp fun h => ne_of_lt h) hr
  rw [ht] at e
  cases e
  refine ⟨h1, fun id hid => ?_⟩
  rw [← h1] at hid
  obtain ⟨i, hi, rfl⟩ := List.getElem_of_mem hid
  exact ⟨i, hi, h2 i _ (List.getElem?_eq_getElem hi), List.getElem?_eq_getElem hi⟩

end domain

/-! ### Two dimensions -/

section two
open Verif.Model.CartesianMesh Verif.Model.DeviceMapper Verif.Spec Verif.Spec.Mapping Verif.Props.C34 Verif.Props.C35 Verif.Props.C40 Verif.Model.RegularMap Verif.Model.NewtonKernel
  Verif.Model.NewtonElements Verif.Props.C84 Verif.Model.MeshHierarchy Verif.Model.Claims Verif.Spec.LinearElements Verif.Props.C85
  Verif.Model.Bytes Verif.Model.PackedGeom2D Verif.Model.Mpi Verif.Model.HaloExchange Verif.Lemmas.Mpi Verif.Props.C57
variable {K : Type} [Field K] [LinearOrder K] [IsStrictOrderedRing K] [FloorRing K] {n : ℕ} {T : Type*}

/-- The elements of the distributed mesh that contain a position up to the tolerance: the rank that has the element, its id, and the reference position that it maps to the position. -/
def inside2 (V : View2 K) (mesh : Fin n → Mesh2d K) (tol : K) (p : ℕ → K) : Set (Assignment K) :=
  {a | ∃ s, ∃ x ∈ elementsOf (mesh s), ∃ u v : K, a = ⟨s.val, x.2.1, [u, v]⟩ ∧ point2 x.1 (V.verts x.1 x.2.2.geom) u v = (p 0, p 1) ∧
    InElement2 tol x.1 (V.verts x.1 x.2.2.geom) (p 0) (p 1)}

/-- The kernel of a rank of C85. -/
theorem stage2 {V : View2 K} {big : K} (hbig : 0 < big) {scaling : K → ℤ} (hsc : ∀ f, 1 < f → 0 < scaling f ∧ f ≤ (scaling f : K) ^ 2) {tol0 t : K} (h0 : 0 < tol0) (ht : 0 ≤ t)
    (htol : t + tol0 ≤ 1 / 10) {m : MHGeom K} {owner : ℤ → ℤ} {glo ghi : ℕ → K} {mesh : Fin n → Mesh2d K} (h : Mesh2Ok V big m owner glo ghi mesh) (hc : GridCovers m glo ghi)
    (w : Fin n → ℤ) {S : Sys n Msg (List Remote × List Remote)} (hS : Reachable (Sys.init (fun r => halos2d m owner (mesh r) r) w) S) (r : Fin n) (out : List Remote × List Remote)
    (hr : S.prog r = .done out) (E : List (Elem2 K)) (hE : E.Perm (known V (mesh r) r out)) (hne : E ≠ []) (mapper : Mapper K) (hm : mkMapper 2 big scaling (E.map Elem2.geom) = some mapper)
    (hfit : ∀ d < 2, mapper.lookup.mesh.cellCounts d < 2147483648) (hrange : ∀ p, Dom 2 glo ghi p → InRange mapper p) :
    StageOk (Dom 2 glo ghi) (ownerOf m owner) (inside2 V mesh (5 * (t + tol0))) r (mapper.stage (test2d tol0 t E)) where
  mapped := fun q hq => kernel_mapped mapper _ q hq
  searched := by
    intro q hq hdom
    have hpost := (halos2d_spec h.input w hS).2.1 r out hr
    have hadm := known_admissible h r out hpost E hE hne
    obtain ⟨k1, k2, k3⟩ := known_spec h r out hpost
    obtain ⟨m', hm', _, _, hk⟩ := mapper_correct 2 (by omega) (by omega) big hbig scaling hsc _ hadm
    rw [hm] at hm'
    cases hm'
    obtain ⟨q', e, hka, _⟩ := hk (test2d tol0 t E) q hq (hrange _ hdom)
    refine ⟨q', e, ?_⟩
    rcases hka with rfl | ⟨_, a, ⟨k, hkl, a1, a2, a3⟩, _, rfl⟩
    · refine Or.inl ⟨rfl, fun hown => ?_⟩
      obtain ⟨m', hm', hd⟩ := distributed_2d hbig hsc h0 ht h w hS r out hr E hE hne
      rw [hm] at hm'
      cases hm'
      obtain ⟨g', e', hall, _⟩ := hd (-1) [[q']] hfit (by
        rintro q ⟨i, hi, _, hqi, _⟩
        have hi0 : i = 0 := by simpa using hi
        subst hi0
        have hqq : q = q' := by simpa using hqi
        subst hqq
        refine ⟨fun d hd => ⟨(hdom d hd).1, (hdom d hd).2.le⟩, ?_⟩
        have := inOwnedCell m h.input.grid owner glo ghi hc q.pos (by rw [h.ndim]; exact hdom)
        rwa [hown] at this)
      have : map2D (some (mapper.stage (test2d tol0 t E))) none (-1) [[q']] = some [[q']] := by
        simp [map2D, runOpt, run, runFrom, selected, e]
      rw [this] at e'
      cases e'
      have := hall 0 (by simp) (by simp [selected]) q' (by simp)
      omega
    · have hkl' : k < E.length := by simpa using hkl
      obtain ⟨s, x, hx, hEk⟩ := k2 (E[k]) (hE.mem_iff.1 (List.getElem_mem hkl'))
      unfold test2d at a3
      rw [List.getElem?_eq_getElem hkl', Option.bind_some, Option.map_eq_some_iff] at a3
      obtain ⟨y, hy, hr'⟩ := a3
      have hreg := regular_2d tol0 t h0 ht _ _ (h.regular s x hx) (q.pos 0) (q.pos 1)
      rw [hEk] at hy
      rw [List.getElem_map] at a1 a2
      rw [hEk] at a1 a2
      refine Or.inr ⟨a, ⟨s, x, hx, y.1, y.2, ?_, hreg.2.2 y hy, hreg.2.1 htol (Option.isSome_iff_exists.2 ⟨y, hy⟩)⟩, rfl⟩
      cases a
      simp only at a1 a2 hr'
      rw [a1, a2, ← hr']
      rfl

/-- Every position of the domain has an owner. -/
theorem owned2 {V : View2 K} {big : K} {m : MHGeom K} {owner : ℤ → ℤ} {glo ghi : ℕ → K} {mesh : Fin n → Mesh2d K} (h : Mesh2Ok V big m owner glo ghi mesh) (hc : GridCovers m glo ghi)
    (p : ℕ → K) (hp : Dom 2 glo ghi p) : ∃ s : Fin n, ownerOf m owner p = s.val := by
  obtain ⟨c, id, hcg, hid, how, hcell⟩ := inOwnedCell m h.input.grid owner glo ghi hc p (by rw [h.ndim]; exact hp)
  let ι := (s : Fin n) × Fin (elementsOf (mesh s)).length
  have hmemι : ∀ i : ι, (elementsOf (mesh i.1))[i.2] ∈ elementsOf (mesh i.1) := fun i => List.getElem_mem _
  obtain ⟨i, i1, i2, i3⟩ := cell_element (ι := ι) m h.input.grid glo ghi (by rw [h.ndim]; exact h.domain)
    (fun i => (localElem V i.1 ((elementsOf (mesh i.1))[i.2]).1 ((elementsOf (mesh i.1))[i.2]).2).region) (by
      rw [h.ndim]
      intro p hpp
      obtain ⟨s, x, hx, hin⟩ := h.covers p hpp
      obtain ⟨k, hk, rfl⟩ := List.getElem_of_mem hx
      exact ⟨⟨s, k, hk⟩, hin⟩) (fun i => region2_closed _ (h.regular i.1 _ (hmemι i)))
    (fun i => V.box ((elementsOf (mesh i.1))[i.2]).1 ((elementsOf (mesh i.1))[i.2]).2.2.geom)
    (fun i p hpp => by rw [h.ndim]; exact h.contains i.1 _ (hmemι i) p hpp) c id hcg hid p (by rw [h.ndim]; exact fun d hd => ⟨(hp d hd).1, (hp d hd).2.le⟩) hcell
  have hb := (boxMeets_congr (fun d hd => h.boxes i.1 _ (hmemι i) d (by rw [h.ndim] at hd; exact hd)) id).2 i2
  have hmem : ((elementsOf (mesh i.1))[i.2]).2 ∈ (mesh i.1).tris ++ (mesh i.1).quads := by
    have := hmemι i
    generalize (elementsOf (mesh i.1))[i.2] = x at this
    rcases List.mem_append.1 this with h | h
    · obtain ⟨e, he, rfl⟩ := List.mem_map.1 h
      exact List.mem_append_left _ he
    · obtain ⟨e, he, rfl⟩ := List.mem_map.1 h
      exact List.mem_append_right _ he
  obtain ⟨o1, o2⟩ := h.input.owned i.1 _ hmem id hb
  rw [← how]
  exact ⟨⟨(owner id).toNat, by omega⟩, by simp [o1]⟩

/-- The mesh, the owners, the mappers and the cell ids of all ranks in two dimensions have what C90 uses. -/
theorem world_2d {V : View2 K} {big : K} (hbig : 0 < big) {scaling : K → ℤ} (hsc : ∀ f, 1 < f → 0 < scaling f ∧ f ≤ (scaling f : K) ^ 2) {tol0 t : K} (h0 : 0 < tol0) (ht : 0 ≤ t)
    (htol : t + tol0 ≤ 1 / 10) {m : MHGeom K} {owner : ℤ → ℤ} {glo ghi : ℕ → K} {mesh : Fin n → Mesh2d K} (h : Mesh2Ok V big m owner glo ghi mesh) (hc : GridCovers m glo ghi)
    (hper : ∀ d < 2, 1 ≤ ghi d - glo d) (w : Fin n → ℤ) {S : Sys n Msg (List Remote × List Remote)} (hS : Reachable (Sys.init (fun r => halos2d m owner (mesh r) r) w) S)
    (out : Fin n → List Remote × List Remote) (hout : ∀ r, S.prog r = .done (out r)) (E : Fin n → List (Elem2 K)) (hE : ∀ r, (E r).Perm (known V (mesh r) r (out r)))
    (mapper : Fin n → Mapper K) (hm : ∀ r, mkMapper 2 big scaling ((E r).map Elem2.geom) = some (mapper r)) (hfit : ∀ r, ∀ d < 2, (mapper r).lookup.mesh.cellCounts d < 2147483648)
    (hrange : ∀ r p, Dom 2 glo ghi p → InRange (mapper r) p) (geoms : Fin n → List (ℤ × ℤ)) (hgne : ∀ r, geoms r ≠ []) (hgs : ∀ r, ((geoms r).map Prod.fst).Pairwise (· < ·))
    (hgr : ∀ r, ∀ g ∈ geoms r, 0 ≤ g.1 ∧ g.1 < 2147483647) (hgi : ∀ r id, id ∈ (geoms r).map Prod.fst ↔ ∃ x ∈ elementsOf (mesh r), x.2.1 = id)
    (tr : Fin n → CellId.Translation) (htr : ∀ r, CellId.constructMaps (geoms r) = some (tr r)) :
    (∀ p, Dom 2 glo ghi (wrapAll 2 glo ghi p)) ∧ (∀ p, Dom 2 glo ghi p → ∃ s : Fin n, ownerOf m owner p = s.val) ∧
    (∀ p, ∀ a ∈ inside2 V mesh (5 * (t + tol0)) p, ∃ s : Fin n, a.rank = s.val) ∧
    (∀ r, RankOk (Dom 2 glo ghi) (ownerOf m owner) (inside2 V mesh (5 * (t + tol0))) r ⟨map2D (some ((mapper r).stage (test2d tol0 t (E r)))) none, tr r⟩) ∧
    ∀ r, (tr r).mapToNektar ≠ [] := by
  have htc := fun r => translation_cells (geoms r) (hgne r) (hgs r) (hgr r) (tr r) (htr r)
  have hEne : ∀ r, E r ≠ [] := by
    intro r he
    have hk := hE r
    rw [he] at hk
    have := hk.symm.eq_nil
    unfold known at this
    rw [List.append_eq_nil_iff, List.map_eq_nil_iff] at this
    obtain ⟨g, hg⟩ := List.exists_mem_of_ne_nil _ (hgne r)
    obtain ⟨x, hx, _⟩ := (hgi r g.1).1 (List.mem_map_of_mem hg)
    rw [this.1] at hx
    simp at hx
  refine ⟨wrapAll_dom 2 glo ghi hper, owned2 h hc, ?_, fun r => ?_, fun r h' => ?_⟩
  · rintro p a ⟨s, x, _, u, v, rfl, _⟩
    exact ⟨s, rfl⟩
  · refine rank2D (stage2 hbig hsc h0 ht htol h hc w hS r (out r) (hout r) (E r) (hE r) (hEne r) (mapper r) (hm r) (hfit r) (hrange r)) ?_ (tr r) ?_
    · rintro p a ⟨s, x, _, u, v, rfl, _⟩
      exact Int.natCast_nonneg _
    · rintro p a ⟨s, x, hx, u, v, rfl, _⟩ hs
      have : s = r := Fin.ext (by simpa using hs)
      subst this
      exact (htc s).2 _ ((hgi s _).2 ⟨x, hx, rfl⟩)
  · have := (htc r).1
    rw [h'] at this
    exact hgne r (List.map_eq_nil_iff.1 this.symm)

/-- **C90, 2D.** A mesh of triangles and parallelograms that cover a box with periods of at least one, distributed over any number of ranks with at least one element each. After any execution of the
construction of the halos, with the mappers and cell ids of all ranks made from it: `k` time steps of particles that are anywhere complete on all ranks; the particles are those of `k` time steps on one
process; and each is on the rank and in the cell of an element that contains it, with its reference position. -/
theorem parallel_2d {V : View2 K} {big : K} (hbig : 0 < big) {scaling : K → ℤ} (hsc : ∀ f, 1 < f → 0 < scaling f ∧ f ≤ (scaling f : K) ^ 2) {tol0 t : K} (h0 : 0 < tol0) (ht : 0 ≤ t)
    (htol : t + tol0 ≤ 1 / 10) {m : MHGeom K} {owner : ℤ → ℤ} {glo ghi : ℕ → K} {mesh : Fin n → Mesh2d K} (h : Mesh2Ok V big m owner glo ghi mesh) (hc : GridCovers m glo ghi)
    (hper : ∀ d < 2, 1 ≤ ghi d - glo d) (w : Fin n → ℤ) {S : Sys n Msg (List Remote × List Remote)} (hS : Reachable (Sys.init (fun r => halos2d m owner (mesh r) r) w) S)
    (out : Fin n → List Remote × List Remote) (hout : ∀ r, S.prog r = .done (out r)) (E : Fin n → List (Elem2 K)) (hE : ∀ r, (E r).Perm (known V (mesh r) r (out r)))
    (mapper : Fin n → Mapper K) (hm : ∀ r, mkMapper 2 big scaling ((E r).map Elem2.geom) = some (mapper r)) (hfit : ∀ r, ∀ d < 2, (mapper r).lookup.mesh.cellCounts d < 2147483648)
    (hrange : ∀ r p, Dom 2 glo ghi p → InRange (mapper r) p) (geoms : Fin n → List (ℤ × ℤ)) (hgne : ∀ r, geoms r ≠ []) (hgs : ∀ r, ((geoms r).map Prod.fst).Pairwise (· < ·))
    (hgr : ∀ r, ∀ g ∈ geoms r, 0 ≤ g.1 ∧ g.1 < 2147483647) (hgi : ∀ r id, id ∈ (geoms r).map Prod.fst ↔ ∃ x ∈ elementsOf (mesh r), x.2.1 = id)
    (tr : Fin n → CellId.Translation) (htr : ∀ r, CellId.constructMaps (geoms r) = some (tr r)) (push : Multiset (T × (ℕ → K)) → T × (ℕ → K) → T × (ℕ → K))
    (S0 : State n T K) (hne : ∀ r, S0 r ≠ []) (k : ℕ) :
    ∃ S', steps push (wrapAll 2 glo ghi) (ownerOf m owner) (fun r => ⟨map2D (some ((mapper r).stage (test2d tol0 t (E r)))) none, tr r⟩) k S0 = some S' ∧
      particles S' = (serialStep push (wrapAll 2 glo ghi))^[k] (particles S0) ∧
      (k ≠ 0 → Settled (Dom 2 glo ghi) (inside2 V mesh (5 * (t + tol0))) (fun r => ⟨map2D (some ((mapper r).stage (test2d tol0 t (E r)))) none, tr r⟩) S') := by
  obtain ⟨w1, w2, w3, w4, w5⟩ := world_2d hbig hsc h0 ht htol h hc hper w hS out hout E hE mapper hm hfit hrange geoms hgne hgs hgr hgi tr htr
  obtain ⟨S', e, h1, h2, _⟩ := steps_correct push w1 w2 w3 w4 w5 S0 hne k
  exact ⟨S', e, h1, h2⟩

end two

/-! ### Three dimensions -/

section three
open Verif.Model.CartesianMesh Verif.Model.DeviceMapper Verif.Spec Verif.Spec.Mapping Verif.Props.C34 Verif.Props.C35 Verif.Props.C40 Verif.Model.RegularMap Verif.Model.NewtonKernel
  Verif.Model.NewtonElements Verif.Props.C84 Verif.Model.MeshHierarchy Verif.Model.Claims Verif.Spec.LinearElements Verif.Props.C85
  Verif.Model.Bytes Verif.Model.PackedGeom2D Verif.Model.Mpi Verif.Model.HaloExchange Verif.Model.HaloExchange3D Verif.Model.GeomTransport3D Verif.Lemmas.Mpi Verif.Props.C60
open Verif.Props.C39 (AffineImage)
variable {K : Type} [Field K] [LinearOrder K] [IsStrictOrderedRing K] [FloorRing K] {n : ℕ} {T : Type*}

/-- As `inside3`. -/
def inside3 (V : View3 K) (mesh : Fin n → Mesh3d K) (tol : K) (p : ℕ → K) : Set (Assignment K) :=
  {a | ∃ s, ∃ x ∈ (mesh s).elements, ∃ v : V3 K, a = ⟨s.val, x.1, [v.x, v.y, v.z]⟩ ∧ V3.get ⟨p 0, p 1, p 2⟩ = (V.A x.2.geom).mulVec (V3.get v) + V.b x.2.geom ∧
    InElement3 tol (V.shape x.2.geom) (V.A x.2.geom) (V.b x.2.geom) ⟨p 0, p 1, p 2⟩}

/-- The kernel of a rank of C85. -/
theorem stage3 {V : View3 K} {big : K} (hbig : 0 < big) {scaling : K → ℤ} (hsc : ∀ f, 1 < f → 0 < scaling f ∧ f ≤ (scaling f : K) ^ 3) {tol0 t : K} (h0 : 0 < tol0) (ht : 0 ≤ t)
    (htol : t + tol0 ≤ 1 / 10) {m : MHGeom K} {owner : ℤ → ℤ} {glo ghi : ℕ → K} {mesh : Fin n → Mesh3d K} (h : Mesh3Ok V big m owner glo ghi mesh) (hc : GridCovers m glo ghi)
    (w : Fin n → ℤ) {S : Sys n Msg (Halos3d)} (hS : Reachable (Sys.init (fun r => halos3d m owner (mesh r) r) w) S) (r : Fin n) (out : Halos3d)
    (hr : S.prog r = .done out) (code : Shape3 → ℤ) (hcode : Function.Injective code) (E : List (Elem3 K)) (hE : E.Perm (known3 V (mesh r) r out)) (hne : E ≠ []) (mapper : Mapper K) (hm : mkMapper 3 big scaling (E.map Elem3.geom) = some mapper)
    (hfit : ∀ d < 3, mapper.lookup.mesh.cellCounts d < 2147483648) (hrange : ∀ p, Dom 3 glo ghi p → InRange mapper p) :
    StageOk (Dom 3 glo ghi) (ownerOf m owner) (inside3 V mesh (25 * (t + tol0))) r (mapper.stage (test3d tol0 t code E)) where
  mapped := fun q hq => kernel_mapped mapper _ q hq
  searched := by
    intro q hq hdom
    have hpost := (halos3d_spec h.input w hS).2.1 r out hr
    have hadm := known3_admissible h r out hpost E hE hne
    obtain ⟨k1, k2, k3⟩ := known3_spec h r out hpost
    obtain ⟨m', hm', _, _, hk⟩ := mapper_correct 3 (by omega) (by omega) big hbig scaling hsc _ hadm
    rw [hm] at hm'
    cases hm'
    obtain ⟨q', e, hka, _⟩ := hk (test3d tol0 t code E) q hq (hrange _ hdom)
    refine ⟨q', e, ?_⟩
    rcases hka with rfl | ⟨_, a, ⟨k, hkl, a1, a2, a3⟩, _, rfl⟩
    · refine Or.inl ⟨rfl, fun hown => ?_⟩
      obtain ⟨m', hm', hd⟩ := distributed_3d hbig hsc h0 ht h w hS r out hr code hcode E hE hne
      rw [hm] at hm'
      cases hm'
      obtain ⟨g', e', hall, _⟩ := hd [] (by simp) some (fun _ => ∅) (fun q q' e => Or.inl (by simpa using e.symm)) (-1) [[q']] hfit (by
        rintro q ⟨i, hi, _, hqi, _⟩
        have hi0 : i = 0 := by simpa using hi
        subst hi0
        have hqq : q = q' := by simpa using hqi
        subst hqq
        refine ⟨fun d hd => ⟨(hdom d hd).1, (hdom d hd).2.le⟩, ?_⟩
        have := inOwnedCell m h.input.grid owner glo ghi hc q.pos (by rw [h.ndim]; exact hdom)
        rwa [hown] at this) (by simp)
      have : map3D (some (mapper.stage (test3d tol0 t code E))) [] some (-1) [[q']] = some [[q']] := by
        simp [map3D, runOpt, run, runFrom, selected, e]
      rw [this] at e'
      cases e'
      have := hall 0 (by simp) (by simp [selected]) q' (by simp)
      omega
    · have hkl' : k < E.length := by simpa using hkl
      obtain ⟨s, x, hx, hEk⟩ := k2 (E[k]) (hE.mem_iff.1 (List.getElem_mem hkl'))
      unfold test3d at a3
      rw [List.getElem?_eq_getElem hkl', Option.bind_some, Option.map_eq_some_iff] at a3
      obtain ⟨y, hy, hr'⟩ := a3
      have hreg := regular_3d tol0 t h0 ht code hcode _ (h.affine s x hx).1 (h.affine s x hx).2 ⟨q.pos 0, q.pos 1, q.pos 2⟩
      rw [hEk] at hy
      rw [List.getElem_map] at a1 a2
      rw [hEk] at a1 a2
      refine Or.inr ⟨a, ⟨s, x, hx, y, ?_, hreg.2.2 y hy, hreg.2.1 htol (Option.isSome_iff_exists.2 ⟨y, hy⟩)⟩, rfl⟩
      cases a
      simp only at a1 a2 hr'
      rw [a1, a2, ← hr']
      rfl

/-- Every position of the domain has an owner. -/
theorem owned3 {V : View3 K} {big : K} {m : MHGeom K} {owner : ℤ → ℤ} {glo ghi : ℕ → K} {mesh : Fin n → Mesh3d K} (h : Mesh3Ok V big m owner glo ghi mesh) (hc : GridCovers m glo ghi)
    (p : ℕ → K) (hp : Dom 3 glo ghi p) : ∃ s : Fin n, ownerOf m owner p = s.val := by
  obtain ⟨c, id, hcg, hid, how, hcell⟩ := inOwnedCell m h.input.grid owner glo ghi hc p (by rw [h.ndim]; exact hp)
  let ι := (s : Fin n) × Fin ((mesh s).elements).length
  have hmemι : ∀ i : ι, ((mesh i.1).elements)[i.2] ∈ (mesh i.1).elements := fun i => List.getElem_mem _
  obtain ⟨i, i1, i2, i3⟩ := cell_element (ι := ι) m h.input.grid glo ghi (by rw [h.ndim]; exact h.domain)
    (fun i => (elem3 V i.1.val (((mesh i.1).elements)[i.2]).1 (((mesh i.1).elements)[i.2]).2.geom).region) (by
      rw [h.ndim]
      intro p hpp
      obtain ⟨s, x, hx, hin⟩ := h.covers p hpp
      obtain ⟨k, hk, rfl⟩ := List.getElem_of_mem hx
      exact ⟨⟨s, k, hk⟩, hin⟩) (fun i => region3_closed _ (h.affine i.1 _ (hmemι i)).2)
    (fun i => V.box ((mesh i.1).elements)[i.2].2.geom)
    (fun i p hpp => by rw [h.ndim]; exact h.contains i.1 _ (hmemι i) p hpp) c id hcg hid p (by rw [h.ndim]; exact fun d hd => ⟨(hp d hd).1, (hp d hd).2.le⟩) hcell
  have hb := (boxMeets_congr (fun d hd => h.boxes i.1 _ (hmemι i) d (by rw [h.ndim] at hd; exact hd)) id).2 i2
  obtain ⟨o1, o2⟩ := h.input.owned i.1 _ (hmemι i) id hb
  rw [← how]
  exact ⟨⟨(owner id).toNat, by omega⟩, by simp [o1]⟩

/-- **C90, 3D.** A mesh of affine tetrahedra, pyramids, prisms and hexahedra that cover a box with periods of at least one, distributed over any number of ranks with at least one element each. After any execution of the
construction of the halos, with the mappers and cell ids of all ranks made from it: `k` time steps of particles that are anywhere complete on all ranks; the particles are those of `k` time steps on one
process; and each is on the rank and in the cell of an element that contains it, with its reference position. -/
theorem parallel_3d {V : View3 K} {big : K} (hbig : 0 < big) {scaling : K → ℤ} (hsc : ∀ f, 1 < f → 0 < scaling f ∧ f ≤ (scaling f : K) ^ 3) {tol0 t : K} (h0 : 0 < tol0) (ht : 0 ≤ t)
    (htol : t + tol0 ≤ 1 / 10) {m : MHGeom K} {owner : ℤ → ℤ} {glo ghi : ℕ → K} {mesh : Fin n → Mesh3d K} (h : Mesh3Ok V big m owner glo ghi mesh) (hc : GridCovers m glo ghi)
    (hper : ∀ d < 3, 1 ≤ ghi d - glo d) (w : Fin n → ℤ) {S : Sys n Msg (Halos3d)} (hS : Reachable (Sys.init (fun r => halos3d m owner (mesh r) r) w) S)
    (out : Fin n → Halos3d) (hout : ∀ r, S.prog r = .done (out r)) (code : Shape3 → ℤ) (hcode : Function.Injective code) (newton : List (Option (Stage K × Stage K))) (hnewton : ∀ s ∈ newton, s = none) (host : Stage K)
    (E : Fin n → List (Elem3 K)) (hE : ∀ r, (E r).Perm (known3 V (mesh r) r (out r)))
    (mapper : Fin n → Mapper K) (hm : ∀ r, mkMapper 3 big scaling ((E r).map Elem3.geom) = some (mapper r)) (hfit : ∀ r, ∀ d < 3, (mapper r).lookup.mesh.cellCounts d < 2147483648)
    (hrange : ∀ r p, Dom 3 glo ghi p → InRange (mapper r) p) (geoms : Fin n → List (ℤ × ℤ)) (hgne : ∀ r, geoms r ≠ []) (hgs : ∀ r, ((geoms r).map Prod.fst).Pairwise (· < ·))
    (hgr : ∀ r, ∀ g ∈ geoms r, 0 ≤ g.1 ∧ g.1 < 2147483647) (hgi : ∀ r id, id ∈ (geoms r).map Prod.fst ↔ ∃ x ∈ (mesh r).elements, x.1 = id)
    (tr : Fin n → CellId.Translation) (htr : ∀ r, CellId.constructMaps (geoms r) = some (tr r)) (push : Multiset (T × (ℕ → K)) → T × (ℕ → K) → T × (ℕ → K))
    (S0 : State n T K) (hne : ∀ r, S0 r ≠ []) (k : ℕ) :
    ∃ S', steps push (wrapAll 3 glo ghi) (ownerOf m owner) (fun r => ⟨map3D (some ((mapper r).stage (test3d tol0 t code (E r)))) newton host, tr r⟩) k S0 = some S' ∧
      particles S' = (serialStep push (wrapAll 3 glo ghi))^[k] (particles S0) ∧
      (k ≠ 0 → Settled (Dom 3 glo ghi) (inside3 V mesh (25 * (t + tol0))) (fun r => ⟨map3D (some ((mapper r).stage (test3d tol0 t code (E r)))) newton host, tr r⟩) S') := by
  have htc := fun r => translation_cells (geoms r) (hgne r) (hgs r) (hgr r) (tr r) (htr r)
  have hEne : ∀ r, E r ≠ [] := by
    intro r he
    have hk := hE r
    rw [he] at hk
    have := hk.symm.eq_nil
    unfold known3 at this
    rw [List.append_eq_nil_iff, List.map_eq_nil_iff] at this
    obtain ⟨g, hg⟩ := List.exists_mem_of_ne_nil _ (hgne r)
    obtain ⟨x, hx, _⟩ := (hgi r g.1).1 (List.mem_map_of_mem hg)
    rw [this.1] at hx
    simp at hx
  obtain ⟨S', e, h1, h2, _⟩ := steps_correct (boundary := wrapAll 3 glo ghi) (dom := Dom 3 glo ghi) (target := ownerOf m owner) (inside := inside3 V mesh (25 * (t + tol0)))
    (R := fun r => ⟨map3D (some ((mapper r).stage (test3d tol0 t code (E r)))) newton host, tr r⟩) push (wrapAll_dom 3 glo ghi hper) (owned3 h hc) (by
      rintro p a ⟨s, x, _, v, rfl, _⟩
      exact ⟨s, rfl⟩) (fun r => by
      refine rank3D (stage3 hbig hsc h0 ht htol h hc w hS r (out r) (hout r) code hcode (E r) (hE r) (hEne r) (mapper r) (hm r) (hfit r) (hrange r)) ?_ newton hnewton host (tr r) ?_
      · rintro p a ⟨s, x, _, v, rfl, _⟩
        exact Int.natCast_nonneg _
      · rintro p a ⟨s, x, hx, v, rfl, _⟩ hs
        have : s = r := Fin.ext (by simpa using hs)
        subst this
        exact (htc s).2 _ ((hgi s _).2 ⟨x, hx, rfl⟩)) (fun r h' => by
      have := (htc r).1
      rw [show (tr r).mapToNektar = [] from h'] at this
      exact hgne r (List.map_eq_nil_iff.1 this.symm)) S0 hne k
  exact ⟨S', e, h1, h2⟩

end three

end Verif.Props.C90
