import Verif.Props.C90_Mappers
import Mathlib.Tactic.IntervalCases

/-!
C90: a mesh of two rectangles on two ranks has the hypotheses of `parallel_2d`.
-/

namespace Verif.Props.C90.Example
open Verif.Model Verif.Model.CoarseLookup Verif.Model.MapChain Verif.Model.ParallelStep Verif.Props.C55
open Verif.Model.CartesianMesh Verif.Model.DeviceMapper Verif.Spec Verif.Spec.Mapping Verif.Props.C34 Verif.Props.C35 Verif.Props.C40 Verif.Model.RegularMap Verif.Model.NewtonKernel
  Verif.Model.NewtonElements Verif.Props.C84 Verif.Model.MeshHierarchy Verif.Model.Claims Verif.Spec.LinearElements Verif.Props.C85
  Verif.Model.Bytes Verif.Model.PackedGeom2D Verif.Model.Mpi Verif.Model.HaloExchange Verif.Lemmas.Mpi Verif.Props.C57 Verif.Props.C90

/-- Two cells of width 2. -/
def mh : MHGeom ℚ := ⟨⟨2, fun d => if d = 0 then 2 else 1, 1⟩, fun _ => 0, 2, 1 / 2⟩

/-- The domain is 4 by 2. -/
def glo : ℕ → ℚ := fun _ => 0
def ghi : ℕ → ℚ := fun d => if d = 0 then 4 else 2

def geomA : Geom := C18.quad
def geomB : Geom := { C18.quad with id := 13 }

/-- The lower and the upper half. -/
def elemA : LGeom ℚ := ⟨geomA, fun _ => 0, fun d => if d = 0 then 4 else 1⟩
def elemB : LGeom ℚ := ⟨geomB, fun d => if d = 0 then 0 else 1, fun d => if d = 0 then 4 else 2⟩

def mesh : Fin 2 → Mesh2d ℚ := fun r => if r = 0 then ⟨[], [(12, elemA)]⟩ else ⟨[], [(13, elemB)]⟩

/-- The lower bound in y. -/
def base (g : Geom) : ℚ := if g.id = 12 then 0 else 1

def view : View2 ℚ where
  verts := fun _ g i => if i = 0 then ⟨0, base g, 0⟩ else if i = 1 then ⟨4, base g, 0⟩ else if i = 2 then ⟨4, base g + 1, 0⟩ else ⟨0, base g + 1, 0⟩
  box := fun _ g i => if i = 0 then 0 else if i = 1 then base g else if i = 2 then 0 else if i = 3 then 4 else if i = 4 then base g + 1 else 0

theorem base_A : base geomA = 0 := rfl
theorem base_B : base geomB = 1 := rfl

theorem elements (s : Fin 2) (x : Shape2 × ℤ × LGeom ℚ) (hx : x ∈ elementsOf (mesh s)) : (s = 0 ∧ x = (.quad, 12, elemA)) ∨ (s = 1 ∧ x = (.quad, 13, elemB)) := by
  fin_cases s
  · left; simpa [elementsOf, mesh] using hx
  · right; simpa [elementsOf, mesh] using hx

theorem region_iff (s : Fin 2) (e : ℤ × LGeom ℚ) (p : ℕ → ℚ) :
    p ∈ (localElem view s .quad e).region ↔ (0 ≤ p 0 ∧ p 0 ≤ 4) ∧ base e.2.geom ≤ p 1 ∧ p 1 ≤ base e.2.geom + 1 := by
  have e' : p ∈ (localElem view s .quad e).region ↔ ∃ a b, InRef2 0 .quad a b ∧ point2 .quad (view.verts .quad e.2.geom) a b = (p 0, p 1) := Iff.rfl
  have hp : ∀ a b : ℚ, point2 .quad (view.verts .quad e.2.geom) a b = (2 + 2 * a, base e.2.geom + 1 / 2 + 1 / 2 * b) := by
    intro a b
    simp only [point2, Verif.Spec.Embedded.quadPoint, X, weights, weightedFrom, view]
    norm_num
    constructor <;> ring
  simp only [e', hp, InRef2]
  constructor
  · rintro ⟨a, b, ⟨⟨h1, h2⟩, h3, h4⟩, h⟩
    obtain ⟨h5, h6⟩ := Prod.mk.inj h
    refine ⟨⟨?_, ?_⟩, ?_, ?_⟩ <;> linarith
  · rintro ⟨⟨h1, h2⟩, h3, h4⟩
    exact ⟨(p 0 - 2) / 2, (p 1 - base e.2.geom - 1 / 2) * 2, ⟨⟨by linarith, by linarith⟩, by linarith, by linarith⟩, by rw [Prod.mk.injEq]; constructor <;> ring⟩

theorem grid : GridGeom mh := ⟨⟨by decide, fun d _ => by dsimp only [mh]; split_ifs <;> omega, by decide⟩, by decide, by simp [mh], by simp [mh]⟩

theorem geomA_ok : GeomOk 4 geomA := C18.quad_ok
theorem geomB_ok : GeomOk 4 geomB := by
  obtain ⟨h1, h2, h3, h4⟩ := C18.quad_ok
  exact ⟨h1, h2, h3, h4⟩

theorem meets (s : Fin 2) (e : ℤ × LGeom ℚ) (he : e ∈ (mesh s).tris ++ (mesh s).quads) (c : ℤ) : BoxMeets mh e.2.lo e.2.hi c ↔ c = 0 ∨ c = 1 := by
  have hA : boundingBoxMap mh elemA.lo elemA.hi 0 = [(0, 2), (1, 2)] := by decide +kernel
  have hB : boundingBoxMap mh elemB.lo elemB.hi 0 = [(0, 2), (1, 2)] := by decide +kernel
  have key : ∀ x : LGeom ℚ, boundingBoxMap mh x.lo x.hi 0 = [(0, 2), (1, 2)] → (BoxMeets mh x.lo x.hi c ↔ c = 0 ∨ c = 1) := by
    intro x hx
    constructor
    · rintro ⟨c', h1, h2, h3⟩
      have hmem := ((C26.map_exact grid x.lo x.hi 0 le_rfl).1 c _).mpr ⟨c', h1, h2, h3, rfl⟩
      rw [hx] at hmem
      simp at hmem
      rcases hmem with ⟨h, _⟩ | ⟨h, _⟩
      · exact Or.inl h
      · exact Or.inr h
    · intro h
      have hmem : (c, (2 : ℚ)) ∈ boundingBoxMap mh x.lo x.hi 0 := by
        rw [hx]
        rcases h with rfl | rfl <;> simp
      obtain ⟨c', h1, h2, h3, _⟩ := ((C26.map_exact grid x.lo x.hi 0 le_rfl).1 c 2).mp hmem
      exact ⟨c', h1, h2, h3⟩
  fin_cases s
  · simp [mesh] at he
    subst he
    exact key _ hA
  · simp [mesh] at he
    subst he
    exact key _ hB

theorem input : InputOk mh (fun c => c) mesh where
  grid := grid
  ranks := by decide
  tris := by
    refine ⟨?_, ?_, ?_, ?_, ?_⟩ <;> intro s <;> fin_cases s <;> simp [mesh, packRemotes]
  quads := by
    refine ⟨?_, ?_, ?_, ?_, ?_⟩
    · intro s; fin_cases s <;> simp [mesh]
    · intro s; fin_cases s <;> simp [mesh]
    · intro s e he
      fin_cases s
      · simp [mesh] at he; subst he; exact geomA_ok
      · simp [mesh] at he; subst he; exact geomB_ok
    · intro s; fin_cases s <;> simp [mesh]
    · intro s; fin_cases s <;> decide +kernel
  owned := by
    intro s e he c hb
    rcases (meets s e he c).1 hb with rfl | rfl <;> decide

theorem ok : Mesh2Ok view 100 mh (fun c => c) glo ghi mesh where
  input := input
  ndim := rfl
  domain := by intro d hd; interval_cases d <;> norm_num [glo, ghi]
  boxes := by
    intro s x hx d hd
    rcases elements s x hx with ⟨rfl, rfl⟩ | ⟨rfl, rfl⟩ <;> interval_cases d <;> simp [view, elemA, elemB, base_A, base_B] <;> norm_num
  finite := by
    intro s x hx i hi
    rcases elements s x hx with ⟨rfl, rfl⟩ | ⟨rfl, rfl⟩ <;> simp only [view, elemA, elemB, base_A, base_B] <;> split_ifs <;> norm_num
  width := by
    intro s x hx d hd
    rcases elements s x hx with ⟨rfl, rfl⟩ | ⟨rfl, rfl⟩ <;> interval_cases d <;> norm_num [view]
  regular := by
    intro s x hx
    rcases elements s x hx with ⟨rfl, rfl⟩ | ⟨rfl, rfl⟩ <;> constructor
    · norm_num [view, lastPoint, elemA, base_A]
    · intro _; norm_num [view, elemA, base_A]
    · norm_num [view, lastPoint, elemB, base_B]
    · intro _; norm_num [view, elemB, base_B]
  contains := by
    intro s x hx p hp d hd
    rcases elements s x hx with ⟨rfl, rfl⟩ | ⟨rfl, rfl⟩ <;> obtain ⟨⟨h1, h2⟩, h3, h4⟩ := (region_iff _ _ p).1 hp <;> interval_cases d <;> simp [view] <;> constructor <;> assumption
  margin := by
    intro d hd
    left
    intro s x hx
    rcases elements s x hx with ⟨rfl, rfl⟩ | ⟨rfl, rfl⟩ <;> interval_cases d <;> simp [view, ghi, elemA, elemB, base_A, base_B] <;> norm_num
  unique := by
    intro s s' x hx x' hx' h
    rcases elements s x hx with ⟨rfl, rfl⟩ | ⟨rfl, rfl⟩ <;> rcases elements s' x' hx' with ⟨rfl, rfl⟩ | ⟨rfl, rfl⟩ <;> simp_all
  covers := by
    intro p hp
    have h0 := hp 0 (by omega)
    have h1 := hp 1 (by omega)
    simp only [glo, ghi, if_pos, if_neg one_ne_zero] at h0 h1
    rcases le_total (p 1) 1 with h | h
    · exact ⟨0, (.quad, 12, elemA), by simp [elementsOf, mesh], (region_iff _ _ p).2 ⟨h0, by rw [show base elemA.geom = 0 from rfl]; exact ⟨h1.1, by linarith⟩⟩⟩
    · exact ⟨1, (.quad, 13, elemB), by simp [elementsOf, mesh], (region_iff _ _ p).2 ⟨h0, by rw [show base elemB.geom = 1 from rfl]; exact ⟨h, by linarith⟩⟩⟩

theorem covers : GridCovers mh glo ghi := by
  intro d hd
  have : d < 2 := hd
  interval_cases d <;> norm_num [mh, glo, ghi]

/-- Both ranks know both elements. -/
theorem known_pair (w : Fin 2 → ℤ) {S : Sys 2 Msg (List Remote × List Remote)} (hS : Reachable (Sys.init (fun r => halos2d mh (fun c => c) (mesh r) r) w) S)
    (r : Fin 2) (out : List Remote × List Remote) (hr : S.prog r = .done out) (E : List (Elem2 ℚ)) (hE : E.Perm (known view (mesh r) r out)) :
    E = [localElem view (0 : Fin 2) .quad (12, elemA), localElem view (1 : Fin 2) .quad (13, elemB)] ∨
    E = [localElem view (1 : Fin 2) .quad (13, elemB), localElem view (0 : Fin 2) .quad (12, elemA)] := by
  obtain ⟨k1, k2, k3⟩ := known_spec ok r out ((halos2d_spec input w hS).2.1 r out hr)
  have hnd : (E.map fun e => e.geom.gid).Nodup := (hE.map _).nodup_iff.2 k1
  have hmem : ∀ e ∈ E, e = localElem view (0 : Fin 2) .quad (12, elemA) ∨ e = localElem view (1 : Fin 2) .quad (13, elemB) := by
    intro e he
    obtain ⟨s, x, hx, rfl⟩ := k2 e (hE.mem_iff.1 he)
    rcases elements s x hx with ⟨rfl, rfl⟩ | ⟨rfl, rfl⟩
    · exact Or.inl rfl
    · exact Or.inr rfl
  have hr' : (r.val : ℤ) = 0 ∨ (r.val : ℤ) = 1 := by fin_cases r <;> simp
  have hA : localElem view (0 : Fin 2) .quad (12, elemA) ∈ E :=
    hE.mem_iff.2 (k3 0 (.quad, 12, elemA) (by simp [elementsOf, mesh]) r.val rfl ((meets 0 (12, elemA) (by simp [mesh]) _).2 hr'))
  have hB : localElem view (1 : Fin 2) .quad (13, elemB) ∈ E :=
    hE.mem_iff.2 (k3 1 (.quad, 13, elemB) (by simp [elementsOf, mesh]) r.val rfl ((meets 1 (13, elemB) (by simp [mesh]) _).2 hr'))
  have hnd' : E.Nodup := List.Nodup.of_map _ hnd
  have hne : localElem view (0 : Fin 2) .quad (12, elemA) ≠ localElem view (1 : Fin 2) .quad (13, elemB) := by
    intro h
    have := congrArg (fun e => e.geom.gid) h
    simp [localElem] at this
  generalize localElem view (0 : Fin 2) .quad (12, elemA) = a at *
  generalize localElem view (1 : Fin 2) .quad (13, elemB) = b at *
  clear hnd k1 k2 k3 hE hr hS
  match E, hmem, hA, hB, hnd' with
  | [], _, h, _, _ => simp at h
  | [x], _, h1, h2, _ => simp at h1 h2; exact absurd (h1.trans h2.symm) hne
  | [x, y], hm, h1, h2, hnd =>
    rcases hm x (by simp) with rfl | rfl <;> rcases hm y (by simp) with rfl | rfl <;> simp_all
  | x :: y :: z :: l, hm, _, _, hnd =>
    exfalso
    rcases hm x (by simp) with rfl | rfl <;> rcases hm y (by simp) with rfl | rfl <;> rcases hm z (by simp) with rfl | rfl <;> simp_all

theorem counts (E : List (Elem2 ℚ)) (hE : E = [localElem view (0 : Fin 2) .quad (12, elemA), localElem view (1 : Fin 2) .quad (13, elemB)] ∨
    E = [localElem view (1 : Fin 2) .quad (13, elemB), localElem view (0 : Fin 2) .quad (12, elemA)]) (hadm : Admissible 2 100 (E.map Elem2.geom)) (m : Mapper ℚ)
    (hm : mkMapper 2 100 (fun f => ⌈f⌉) (E.map Elem2.geom) = some m) : ∀ d < 2, m.lookup.mesh.cellCounts d < 2147483648 := by
  have hsc : ∀ f : ℚ, 1 < f → 0 < ⌈f⌉ ∧ f ≤ (⌈f⌉ : ℚ) ^ 2 := fun f hf => ⟨Int.ceil_pos.2 (by linarith), by have := Int.le_ceil f; nlinarith⟩
  obtain ⟨L, cnt, hb, hcnt, hmesh, _, _⟩ := build_spec 2 (by omega) (by omega) (100 : ℚ) (by norm_num) (fun f => ⌈f⌉) hsc ((E.map Elem2.geom).map fun g => (g.gid, g.box)) (by
      intro g hg
      obtain ⟨g0, h0, rfl⟩ := List.mem_map.1 hg
      exact hadm.finite g0 h0) (by
      intro g hg d hd
      obtain ⟨g0, h0, rfl⟩ := List.mem_map.1 hg
      exact hadm.ordered g0 h0 d hd) (by
      intro d hd
      obtain ⟨g0, h0, h⟩ := hadm.extended d hd
      exact ⟨_, List.mem_map_of_mem h0, h⟩)
  have hL : m.lookup = L := by
    unfold mkMapper at hm
    rw [hb, Option.bind_some, Option.map_eq_some_iff] at hm
    obtain ⟨a, _, rfl⟩ := hm
    rfl
  obtain ⟨_, _, _, _, e5, _⟩ := C06.mk?_pos hmesh
  rw [hL, e5]
  have key : (gridCounts 2 2 100 (fun d => hullOf 100 ((E.map Elem2.geom).map fun g => (g.gid, g.box)) (d + 3) - hullOf 100 ((E.map Elem2.geom).map fun g => (g.gid, g.box)) d)
      (fun f : ℚ => ⌈f⌉)).map (fun c => (c 0, c 1)) = some (8, 4) := by
    rcases hE with rfl | rfl <;> decide +kernel
  rw [show ((E.map Elem2.geom).map fun g => (g.gid, g.box)).length = 2 by rcases hE with rfl | rfl <;> rfl] at hcnt
  rw [hcnt] at key
  simp only [Option.map_some, Option.some.injEq, Prod.mk.injEq] at key
  intro d hd
  interval_cases d
  · rw [key.1]; norm_num
  · rw [key.2]; norm_num

/-- The hypotheses of `parallel_2d` hold, for every execution of the construction of the halos: any number of time steps completes for particles of any kind that start anywhere. -/
example {T : Type} (w : Fin 2 → ℤ) {S : Sys 2 Msg (List Remote × List Remote)} (hS : Reachable (Sys.init (fun r => halos2d mh (fun c => c) (mesh r) r) w) S)
    (out : Fin 2 → List Remote × List Remote) (hout : ∀ r, S.prog r = .done (out r)) (push : Multiset (T × (ℕ → ℚ)) → T × (ℕ → ℚ) → T × (ℕ → ℚ)) (l : List (T × Particle ℚ)) (k : ℕ)
    (hk : k ≠ 0) :
    ∃ (R : Fin 2 → Rank ℚ) (S' : State 2 T ℚ), steps push (wrapAll 2 glo ghi) (ownerOf mh fun c => c) R k (fun r => if r = 0 then [l] else [[]]) = some S' ∧
      particles S' = (serialStep push (wrapAll 2 glo ghi))^[k] (l.map fun a => (a.1, a.2.pos)) ∧ Settled (Dom 2 glo ghi) (inside2 view mesh (1 / 100)) R S' := by
  have hsc : ∀ f : ℚ, 1 < f → 0 < ⌈f⌉ ∧ f ≤ (⌈f⌉ : ℚ) ^ 2 := fun f hf => ⟨Int.ceil_pos.2 (by linarith), by have := Int.le_ceil f; nlinarith⟩
  have hE := fun r => known_pair w hS r (out r) (hout r) (known view (mesh r) r (out r)) (List.Perm.refl _)
  have hadm := fun r => known_admissible ok r (out r) ((halos2d_spec input w hS).2.1 r (out r) (hout r)) (known view (mesh r) r (out r)) (List.Perm.refl _) (by
    rcases hE r with h | h <;> rw [h] <;> simp)
  choose mapper hm _ using fun r => mapper_correct 2 (by omega) (by omega) (100 : ℚ) (by norm_num) (fun f => ⌈f⌉) hsc _ (hadm r)
  let geoms : Fin 2 → List (ℤ × ℤ) := fun r => if r = 0 then [(12, 4)] else [(13, 4)]
  have hgr : ∀ r, ∀ g ∈ geoms r, 0 ≤ g.1 ∧ g.1 < 2147483647 := by intro r; fin_cases r <;> simp [geoms]
  have hgne : ∀ r, geoms r ≠ [] := by intro r; fin_cases r <;> simp [geoms]
  have hgs : ∀ r, ((geoms r).map Prod.fst).Pairwise (· < ·) := by intro r; fin_cases r <;> simp [geoms]
  choose tr htr _ using fun r => C03.constructMaps_spec (geoms r) (hgne r) ((hgs r).imp fun h => ne_of_lt h) (hgr r)
  have hfit := fun r => counts _ (hE r) (hadm r) (mapper r) (hm r)
  obtain ⟨S', h1, h2, h3⟩ := parallel_2d (T := T) (V := view) (big := 100) (by norm_num) hsc (tol0 := 1 / 1000) (t := 1 / 1000) (by norm_num) (by norm_num) (by norm_num) ok covers (by
      intro d hd; interval_cases d <;> norm_num [glo, ghi]) w hS out hout (fun r => known view (mesh r) r (out r)) (fun r => List.Perm.refl _) mapper hm hfit (by
      intro r p hp
      refine inRange_of_bounds 2 (by omega) (by omega) 100 (by norm_num) _ hsc _ (hadm r) (mapper r) (hm r) (hfit r) p fun d hd => ?_
      have hp0 := hp 0 (by omega)
      have hp1 := hp 1 (by omega)
      simp only [glo, ghi, if_pos, if_neg one_ne_zero] at hp0 hp1
      have hA : localElem view (0 : Fin 2) .quad (12, elemA) ∈ known view (mesh r) r (out r) := by rcases hE r with h | h <;> rw [h] <;> simp
      have hB : localElem view (1 : Fin 2) .quad (13, elemB) ∈ known view (mesh r) r (out r) := by rcases hE r with h | h <;> rw [h] <;> simp
      refine ⟨⟨_, List.mem_map_of_mem hA, ?_⟩, _, List.mem_map_of_mem hB, ?_⟩ <;> interval_cases d <;>
        simp [localElem, view, elemA, elemB, base_A, base_B] <;> linarith) geoms hgne hgs hgr (by
      intro r id
      fin_cases r <;> simp [geoms, elementsOf, mesh, eq_comm]) tr htr push (fun r => if r = 0 then [l] else [[]]) (by intro r; fin_cases r <;> simp) k
  refine ⟨_, S', h1, ?_, ?_⟩
  · rw [h2]
    congr 1
    simp [particles, List.finRange_succ]
  · have := h3 hk
    norm_num at this
    exact this

end Verif.Props.C90.Example
