import Verif.Props.C113_AllRanks
import Verif.Props.C93_Reflection

/-! C113: the report does not depend on how the mesh is spread over the ranks; a case with two ranks; a step from the boundary that is not reported. -/

namespace Verif.Props.C113
open Verif.Model Verif.Model.MeshHierarchy Verif.Model.HaloCells Verif.Model.Claims Verif.Model.CompositeCollections Verif.Model.LinePlane
open Verif.Model.CompositeIntersection Verif.Model.WallRun Verif.Spec Verif.Spec.Reflection Verif.Spec.WallRun Verif.Props.C23 Verif.Props.C33

variable {K : Type} [Field K] [LinearOrder K] [IsStrictOrderedRing K] [FloorRing K]

/-! ### The spread over the ranks -/

/-- **C113, any number of ranks.** The same elements and walls, spread over the ranks in two ways, and a particle with the same step: if the walls it
hits are reached from inside and are not at the same distance, then it is reported in one case exactly if it is in the other, with the same boundary group,
face, point and normal. -/
theorem spread_does_not_matter {m : MHGeom K} {cart : ℕ → K → ℤ} {owner owner' : ℤ → ℤ} {groups : List (ℤ × List ℤ)} {meshes meshes' : List (RankMesh K)}
    {data data' : ℤ → List (RG K)} (h : WorldOk m cart owner groups meshes data) (h' : WorldOk m cart owner' groups meshes' data') (T : Tests K)
    (hwalls : ∀ l r, IsWall groups meshes l r ↔ IsWall groups meshes' l r)
    (helems : ∀ e, (∃ mesh ∈ meshes, e ∈ mesh.elems) ↔ ∃ mesh ∈ meshes', e ∈ mesh.elems)
    {particles particles' : List (Particle K)} {res res' : List (ℤ × List (Entry K))} (hres : ReportOk m T groups meshes particles res)
    (hres' : ReportOk m T groups meshes' particles' res') (q q' : Particle K) (hq : q ∈ particles) (hq' : q' ∈ particles') (hpp : q.pp = q'.pp) (hp : q.p = q'.p)
    (hin : ∀ l r i, IsWall groups meshes l r → HitsGeom T r.geom (point m.ndim q.pp) (point m.ndim q.p) i → ReachedFromInside m.ndim meshes r q.pp q.p i)
    (hdist : ∀ l r i l' r' i', IsWall groups meshes l r → HitsGeom T r.geom (point m.ndim q.pp) (point m.ndim q.p) i →
      IsWall groups meshes l' r' → HitsGeom T r'.geom (point m.ndim q.pp) (point m.ndim q.p) i' →
      sqDist (point m.ndim q.pp) i = sqDist (point m.ndim q.pp) i' → r = r') :
    ((∃ x ∈ res, ∃ e ∈ x.2, e.particle = q) ↔ ∃ x ∈ res', ∃ e ∈ x.2, e.particle = q') ∧
      ∀ x ∈ res, ∀ e ∈ x.2, e.particle = q → ∀ x' ∈ res', ∀ e' ∈ x'.2, e'.particle = q' →
        x.1 = x'.1 ∧ e.metadata = e'.metadata ∧ e.point = e'.point ∧ e.normal = e'.normal := by
  have hreach : ∀ r i, ReachedFromInside m.ndim meshes r q.pp q.p i ↔ ReachedFromInside m.ndim meshes' r q'.pp q'.p i := by
    intro r i
    rw [← hpp, ← hp]
    unfold ReachedFromInside
    have key : ∀ P : Elem K → Prop, (∃ mesh ∈ meshes, ∃ e ∈ mesh.elems, P e) ↔ ∃ mesh ∈ meshes', ∃ e ∈ mesh.elems, P e := by
      intro P
      constructor
      · rintro ⟨mesh, a, e, b, c⟩
        obtain ⟨mesh', a', b'⟩ := (helems e).mp ⟨mesh, a, b⟩
        exact ⟨mesh', a', e, b', c⟩
      · rintro ⟨mesh, a, e, b, c⟩
        obtain ⟨mesh', a', b'⟩ := (helems e).mpr ⟨mesh, a, b⟩
        exact ⟨mesh', a', e, b', c⟩
    simp only [key]
  obtain ⟨-, hr1, hr2, -⟩ := hres
  obtain ⟨-, hr1', hr2', -⟩ := hres'
  refine ⟨⟨?_, ?_⟩, ?_⟩
  · rintro ⟨x, hx, e, he, rfl⟩
    obtain ⟨-, r, i, ⟨a, b, c, -⟩, -⟩ := hr1 x hx e he
    refine hr2' q' hq' ⟨x.1, r, i, (hwalls _ _).mp a, by rw [← hpp, ← hp]; exact b, (hreach r i).mp (hin _ _ _ a b), by rw [← hpp]; exact c⟩
  · rintro ⟨x, hx, e, he, rfl⟩
    obtain ⟨-, r, i, ⟨a, b, c, -⟩, -⟩ := hr1' x hx e he
    rw [← hpp] at b c
    rw [← hp] at b
    exact hr2 q hq ⟨x.1, r, i, (hwalls _ _).mpr a, b, hin _ _ _ ((hwalls _ _).mpr a) b, c⟩
  · rintro x hx e he rfl x' hx' e' he' rfl
    obtain ⟨-, r, i, ⟨a, b, -, d⟩, f, g, k⟩ := hr1 x hx e he
    obtain ⟨-, r', i', ⟨a', b', -, d'⟩, f', g', k'⟩ := hr1' x' hx' e' he'
    rw [← hpp, ← hp] at b'
    have aa := (hwalls _ _).mpr a'
    have le1 := d _ r' i' aa b' (hin _ _ _ aa b')
    have le2 := d' _ r i ((hwalls _ _).mp a) (by rw [← hpp, ← hp]; exact b) ((hreach r i).mp (hin _ _ _ a b))
    rw [← hpp] at le2
    obtain rfl := hdist _ r i _ r' i' a b aa b' (le_antisymm le1 le2)
    have hi : i = i' := by
      have e1 := (C32.hitPoint_iff T _ _ r.geom i).mpr b
      have e2 := (C32.hitPoint_iff T _ _ r.geom i').mpr b'
      rw [e1] at e2
      exact Option.some_inj.mp e2
    subst hi
    obtain ⟨group, -, -, hg, -⟩ := setup_exact h
    have hl : x.1 = x'.1 := by
      have e1 := (hg r.composite x.1).mpr a.1
      have e2 := (hg r.composite x'.1).mpr aa.1
      rw [e1] at e2
      exact Option.some_inj.mp e2
    exact ⟨hl, by rw [f, f', hl], by rw [g, g'], by rw [k, k']⟩

/-! ### A case with two ranks -/

/-- Two by four cells of width a half. -/
def exGeom : MHGeom ℚ := ⟨⟨2, fun d => if d = 0 then 1 else 2, 2⟩, fun _ => 0, 1 / 2, 2⟩
def exCart : ℕ → ℚ → ℤ := fun _ x => ⌊2 * x⌋

/-- The walls `x = 1`, `0 ≤ y ≤ 1` of rank 0, `x = 1`, `1 ≤ y ≤ 3/2` and `y = 3/2`, `0 ≤ x ≤ 1` of rank 1. -/
def wall1 : RG ℚ := ⟨7, 1, ⟨1, .seg, fun d => if d = 0 then 1 else 0, fun _ => 1, 2, [1, 0]⟩⟩
def wall2 : RG ℚ := ⟨7, 2, ⟨2, .seg, fun _ => 1, fun d => if d = 0 then 1 else 3 / 2, 2, [1, 0]⟩⟩
def wall3 : RG ℚ := ⟨8, 3, ⟨3, .seg, fun d => if d = 0 then 0 else 3 / 2, fun d => if d = 0 then 1 else 3 / 2, 2, [0, 1]⟩⟩
def exMesh0 : RankMesh ℚ := ⟨[⟨0, fun _ => 0, fun _ => 1⟩], fun c => if c = 7 then some [wall1.geom] else none⟩
def exMesh1 : RankMesh ℚ :=
  ⟨[⟨1, fun d => if d = 0 then 0 else 1, fun d => if d = 0 then 1 else 3 / 2⟩], fun c => if c = 7 then some [wall2.geom] else if c = 8 then some [wall3.geom] else none⟩
def exMeshes : List (RankMesh ℚ) := [exMesh0, exMesh1]
def exGroups : List (ℤ × List ℤ) := [(100, [7]), (200, [8])]

/-- The step meets the line of the wall, between its ends. -/
def exTests : Tests ℚ where
  plane _ := ⟨⟨0, 0, 0⟩, ⟨0, 0, 1⟩, 0⟩
  quadFound _ _ _ _ := false
  triFound _ _ := false
  lli g p0 p1 :=
    if g.id = 3 then
      let t := (3 / 2 - p0.y) / (p1.y - p0.y)
      let x := p0.x + t * (p1.x - p0.x)
      if p0.y ≠ p1.y ∧ 0 ≤ t ∧ t ≤ 1 ∧ 0 ≤ x ∧ x ≤ 1 then (true, ⟨x, 3 / 2, 0⟩) else (false, ⟨0, 0, 0⟩)
    else
      let t := (1 - p0.x) / (p1.x - p0.x)
      let y := p0.y + t * (p1.y - p0.y)
      if p0.x ≠ p1.x ∧ 0 ≤ t ∧ t ≤ 1 ∧ g.lo 1 ≤ y ∧ y ≤ g.hi 1 then (true, ⟨1, y, 0⟩) else (false, ⟨0, 0, 0⟩)
  gridX := 1
  gridY := 1
  realMax := 1000

/-- The owner that NESO-Particles finds, and the content of the container. -/
def exOwner (c : ℤ) : ℤ := if c ∈ claimedBy exGeom exMesh0 ∨ c ∈ claimedBy exGeom exMesh1 then 0 else mask
def exData (c : ℤ) : List (RG ℚ) :=
  match setup exGeom exOwner exGroups exMeshes with
  | some (_, given) => given.flatMap fun f => f c
  | none => []

theorem exWalls_iff (l : ℤ) (r : RG ℚ) : IsWall exGroups exMeshes l r ↔ (l = 100 ∧ (r = wall1 ∨ r = wall2)) ∨ (l = 200 ∧ r = wall3) := by
  constructor
  · rintro ⟨⟨cs, h1, h2⟩, ⟨mesh, h3, gs, h4, h5⟩, h6⟩
    obtain ⟨comp, id, g⟩ := r
    dsimp only at *
    subst h6
    simp only [exGroups, List.mem_cons, Prod.mk.injEq, List.not_mem_nil, or_false] at h1
    simp only [exMeshes, List.mem_cons, List.not_mem_nil, or_false] at h3
    rcases h1 with ⟨rfl, rfl⟩ | ⟨rfl, rfl⟩ <;> simp only [List.mem_cons, List.not_mem_nil, or_false] at h2 <;> subst h2
    · rcases h3 with rfl | rfl
      · simp only [exMesh0, if_true, Option.some_inj] at h4
        subst h4
        simp only [List.mem_cons, List.not_mem_nil, or_false] at h5
        subst h5
        exact Or.inl ⟨rfl, Or.inl rfl⟩
      · simp only [exMesh1, if_true, Option.some_inj] at h4
        subst h4
        simp only [List.mem_cons, List.not_mem_nil, or_false] at h5
        subst h5
        exact Or.inl ⟨rfl, Or.inr rfl⟩
    · rcases h3 with rfl | rfl
      · simp [exMesh0] at h4
      · simp [exMesh1] at h4
        subst h4
        simp only [List.mem_cons, List.not_mem_nil, or_false] at h5
        subst h5
        exact Or.inr ⟨rfl, rfl⟩
  · rintro (⟨rfl, rfl | rfl⟩ | ⟨rfl, rfl⟩)
    · exact ⟨⟨[7], by simp [exGroups], by simp [wall1]⟩, ⟨exMesh0, by simp [exMeshes], [wall1.geom], by simp [exMesh0, wall1], by simp⟩, rfl⟩
    · exact ⟨⟨[7], by simp [exGroups], by simp [wall2]⟩, ⟨exMesh1, by simp [exMeshes], [wall2.geom], by simp [exMesh1, wall2], by simp⟩, rfl⟩
    · exact ⟨⟨[8], by simp [exGroups], by simp [wall3]⟩, ⟨exMesh1, by simp [exMeshes], [wall3.geom], by simp [exMesh1, wall3], by simp⟩, rfl⟩

theorem two {d : ℕ} (hd : d < exGeom.ndim) : d = 0 ∨ d = 1 := by
  have : d < 2 := hd
  omega

/-- All hypotheses on the world hold for this case. -/
theorem exWorld : WorldOk exGeom exCart exOwner exGroups exMeshes exData where
  grid := ⟨⟨by decide, fun d hd => by rcases two hd with rfl | rfl <;> simp [exGeom], by decide⟩, by decide, by norm_num [exGeom], by norm_num [exGeom]⟩
  ndim := Or.inl rfl
  cart := ⟨fun d x y h => Int.floor_mono (by linarith), fun d _ x _ _ => by
    simp only [exGeom, exCart, zero_add]
    have h1 := Int.floor_le (2 * x)
    have h2 := Int.lt_floor_add_one (2 * x)
    constructor <;> linarith⟩
  owned := by
    intro c
    unfold exOwner exMeshes
    split_ifs with h
    · simpa [mask] using h
    · simpa using h
  container := by
    intro group given h c
    unfold exData
    rw [h]
  once := by decide
  elems := by
    intro mesh hmesh e he d hd
    simp only [exMeshes, List.mem_cons, List.not_mem_nil, or_false] at hmesh
    rcases hmesh with rfl | rfl
    · simp only [exMesh0, List.mem_cons, List.not_mem_nil, or_false] at he
      subst he
      rcases two hd with rfl | rfl <;> norm_num [exGeom]
    · simp only [exMesh1, List.mem_cons, List.not_mem_nil, or_false] at he
      subst he
      rcases two hd with rfl | rfl <;> norm_num [exGeom]
  walls := by
    intro l r hr
    rcases (exWalls_iff l r).mp hr with ⟨-, rfl | rfl⟩ | ⟨-, rfl⟩
    · exact ⟨Or.inl ⟨rfl, rfl⟩, fun d hd => by rcases two hd with rfl | rfl <;> norm_num [wall1], ⟨1, by decide, by norm_num [wall1]⟩, rfl⟩
    · exact ⟨Or.inl ⟨rfl, rfl⟩, fun d hd => by rcases two hd with rfl | rfl <;> norm_num [wall2], ⟨1, by decide, by norm_num [wall2]⟩, rfl⟩
    · exact ⟨Or.inl ⟨rfl, rfl⟩, fun d hd => by rcases two hd with rfl | rfl <;> norm_num [wall3], ⟨0, by decide, by norm_num [wall3]⟩, rfl⟩
  ids := by
    intro l l' r r' hr hr' h
    rcases (exWalls_iff l r).mp hr with ⟨-, rfl | rfl⟩ | ⟨-, rfl⟩ <;> rcases (exWalls_iff l' r').mp hr' with ⟨-, rfl | rfl⟩ | ⟨-, rfl⟩ <;>
      first | rfl | (exfalso; revert h; decide)

/-- A point as a function. -/
def at2 (x y : ℚ) : ℕ → ℚ := fun d => if d = 0 then x else y
/-- A particle of rank 0 that leaves through the wall of rank 1, and one of rank 1 that starts on the upper wall
and leaves through it. -/
def exPart : Particle ℚ := ⟨0, 0, at2 (3 / 2) (7 / 4), at2 (1 / 2) (3 / 4)⟩
def exLeaves : Particle ℚ := ⟨0, 0, at2 (1 / 2) (7 / 4), at2 (1 / 2) (3 / 2)⟩

/-- A call where rank 0 has the particle `exPart` and rank 1 has the particle `exLeaves`. -/
theorem exCall_exists : ∃ call, CallOk exGeom exCart exMeshes call ∧ ∃ x0 x1, call = [x0, x1] ∧ x0.particles = [exPart] ∧ x1.particles = [exLeaves] := by
  obtain ⟨r0, h0⟩ := C93.findCells_exists exGeom.toMH exCart exMesh0.elems.length 128 [exPart]
  obtain ⟨r1, h1⟩ := C93.findCells_exists exGeom.toMH exCart exMesh1.elems.length 128 [exLeaves]
  refine ⟨[⟨[exPart], 1, r0, ⟨[0, 0, 0], [0, 0]⟩⟩, ⟨[exLeaves], 1, r1, ⟨[0, 0, 0], [0, 0]⟩⟩], ⟨rfl, ?_⟩, _, _, rfl, rfl, rfl⟩
  intro i x mesh hx hmesh
  match i with
  | 0 =>
    simp only [List.getElem?_cons_zero, Option.some_inj] at hx
    obtain rfl : exMesh0 = mesh := by simpa [exMeshes] using hmesh
    subst hx
    refine ⟨⟨⟨128, h0⟩, by simp, by simp [exGeom], fun i hi => by simp at hi; subst hi; rfl⟩, by simp, fun q hq => ?_⟩
    obtain rfl : q = exPart := by simpa using hq
    refine ⟨by simp [exPart], by simp [exPart, exMesh0], fun d hd => ?_, fun d hd => ?_⟩
    · rcases two hd with rfl | rfl <;> decide +kernel
    · rcases two hd with rfl | rfl <;> decide +kernel
  | 1 =>
    simp only [List.getElem?_cons_succ, List.getElem?_cons_zero, Option.some_inj] at hx
    obtain rfl : exMesh1 = mesh := by simpa [exMeshes] using hmesh
    subst hx
    refine ⟨⟨⟨128, h1⟩, by simp, by simp [exGeom], fun i hi => by simp at hi; subst hi; rfl⟩, by simp, fun q hq => ?_⟩
    obtain rfl : q = exLeaves := by simpa using hq
    refine ⟨by simp [exLeaves], by simp [exLeaves, exMesh1], fun d hd => ?_, fun d hd => ?_⟩
    · rcases two hd with rfl | rfl <;> decide +kernel
    · rcases two hd with rfl | rfl <;> decide +kernel
  | i + 2 => simp at hx

/-- The only wall that the particle of rank 0 hits is the wall of rank 1, at `(1, 5/4)`. -/
theorem exPart_hit (l : ℤ) (r : RG ℚ) (i : LinePlane.V3 ℚ) : (IsWall exGroups exMeshes l r ∧ HitsGeom exTests r.geom (point 2 exPart.pp) (point 2 exPart.p) i) ↔
    l = 100 ∧ r = wall2 ∧ i = ⟨1, 5 / 4, 0⟩ := by
  constructor
  · rintro ⟨hw, hh⟩
    rcases (exWalls_iff l r).mp hw with ⟨rfl, rfl | rfl⟩ | ⟨rfl, rfl⟩
    · exfalso
      revert hh
      norm_num [HitsGeom, wall1, exTests, point, exPart, at2]
    · refine ⟨rfl, rfl, ?_⟩
      revert hh
      norm_num [HitsGeom, wall2, exTests, point, exPart, at2]
      exact fun h => h.symm
    · exfalso
      revert hh
      norm_num [HitsGeom, wall3, exTests, point, exPart, at2]
  · rintro ⟨rfl, rfl, rfl⟩
    refine ⟨(exWalls_iff _ _).mpr (Or.inl ⟨rfl, Or.inr rfl⟩), ?_⟩
    norm_num [HitsGeom, wall2, exTests, point, exPart, at2]

/-- It reaches this wall from inside of the element of rank 1. -/
theorem exPart_reached : ReachedFromInside 2 exMeshes wall2 exPart.pp exPart.p ⟨1, 5 / 4, 0⟩ := by
  refine ⟨1 / 2, by norm_num, by norm_num, ?_, ?_, exMesh1, by simp [exMeshes], _, List.mem_cons_self, ?_, 2 / 5, by norm_num, by norm_num, ?_⟩ <;>
    intro d hd <;> rcases two hd with rfl | rfl <;> norm_num [coords, along, exPart, at2, wall2]

/-- The hypotheses of the theorems hold, the particle of rank 0 is in the report of rank 0, and each entry for it has the wall of rank 1. -/
example : ∃ group given results call out0 out1, setup exGeom exOwner exGroups exMeshes = some (group, given) ∧ CallOk exGeom exCart exMeshes call ∧
    run exGeom.toMH exCart exTests exData (fun _ => []) group [100, 200] [{}, {}] [call] = some results ∧ results = [[out0, out1]] ∧
    (∃ x ∈ out0, ∃ e ∈ x.2, e.particle = exPart) ∧
    ∀ x ∈ out0, ∀ e ∈ x.2, e.particle = exPart → x.1 = 100 ∧ e.metadata = (100, 2) ∧ e.point = [1, 5 / 4] ∧ e.normal = [1, 0] := by
  obtain ⟨group, given, hset, hall⟩ := walls_of_all_ranks exWorld exTests fun _ => []
  obtain ⟨call, hcall, x0, x1, rfl, hx0, hx1⟩ := exCall_exists
  obtain ⟨results, h1, h2, h3⟩ := hall [[x0, x1]] (by simpa using hcall)
  obtain ⟨res, rfl⟩ := List.length_eq_one_iff.mp h2
  obtain ⟨h4, h5⟩ := h3 0 _ res rfl rfl
  obtain ⟨out0, out1, rfl⟩ := List.length_eq_two.mp h4
  obtain ⟨-, ha, hb, -⟩ := h5 0 x0 out0 rfl rfl
  refine ⟨group, given, _, _, out0, out1, hset, hcall, h1, rfl, hb exPart (by simp [hx0]) ⟨100, wall2, ⟨1, 5 / 4, 0⟩, ?_, ?_, exPart_reached, ?_⟩, ?_⟩
  · exact ((exPart_hit _ _ _).mpr ⟨rfl, rfl, rfl⟩).1
  · exact ((exPart_hit _ _ _).mpr ⟨rfl, rfl, rfl⟩).2
  · norm_num [sqDist, point, exPart, at2, exGeom, exTests]
  · intro x hx e he hq
    obtain ⟨-, r, i, ⟨hw, hh, -⟩, k1, k2, k3⟩ := ha x hx e he
    rw [hq] at hh
    obtain ⟨e1, rfl, rfl⟩ := (exPart_hit _ _ _).mp ⟨hw, hh⟩
    exact ⟨e1, by rw [k1, e1]; rfl, by rw [k2]; rfl, by rw [k3]; rfl⟩

/-! ### A particle on the boundary -/

/-- Cells of the last row have no owner, as no element reaches into them. -/
theorem no_owner (t : ℕ → ℤ) (c : ℤ) (hg : InGrid exGeom.toMH t) (hl : HasLinearIndex exGeom.toMH t c) (ht : t 1 = 3) : exOwner c = mask := by
  by_contra hn
  obtain ⟨mesh, hmesh, hc⟩ := (exWorld.owned c).mp hn
  unfold claimedBy at hc
  rw [C26.claimed_iff exWorld.grid] at hc
  obtain ⟨e, he, t', hg', hl', z, hz⟩ := hc
  have heq : t' 1 = t 1 :=
    (C25.cell_index_bijective exGeom.toMH exWorld.grid.1).2.1 t' t hg' hg
      (((hasLinearIndex_iff exWorld.grid.1 hg' _).mp hl').trans ((hasLinearIndex_iff exWorld.grid.1 hg _).mp hl).symm) 1 (by decide)
  obtain ⟨⟨-, z2⟩, z3, -⟩ := hz 1 (by decide)
  rw [heq, ht] at z3
  have hhi : e.hi 1 ≤ 3 / 2 := by
    simp only [exMeshes, List.mem_cons, List.not_mem_nil, or_false] at hmesh
    rcases hmesh with rfl | rfl
    · simp only [exMesh0, List.mem_cons, List.not_mem_nil, or_false] at he
      subst he
      norm_num
    · simp only [exMesh1, List.mem_cons, List.not_mem_nil, or_false] at he
      subst he
      norm_num
  norm_num [exGeom] at z3
  linarith

/-- **Finding.** A particle that is on the upper boundary of the mesh, when a cell boundary is there too, leaves through this wall and is not reported,
although the step hits the wall: the cells it examines have no owner, so no rank gives them the wall. -/
theorem from_the_wall_not_reported : IsWall exGroups exMeshes 200 wall3 ∧
    HitsGeom exTests wall3.geom (point 2 exLeaves.pp) (point 2 exLeaves.p) ⟨1 / 2, 3 / 2, 0⟩ ∧
    (∀ d < 2, wall3.geom.lo d ≤ exLeaves.pp d ∧ exLeaves.pp d ≤ wall3.geom.hi d) ∧ exLeaves.pp 1 < exLeaves.p 1 ∧
    ∀ junk group given, setup exGeom exOwner exGroups exMeshes = some (group, given) → ∀ x0 x1, CallOk exGeom exCart exMeshes [x0, x1] →
      x1.particles = [exLeaves] → ∃ out0 out1, run exGeom.toMH exCart exTests exData junk group [100, 200] [{}, {}] [[x0, x1]] = some [[out0, out1]] ∧
        ∀ y ∈ out1, y.2 = [] := by
  refine ⟨(exWalls_iff _ _).mpr (Or.inr ⟨rfl, rfl⟩), by norm_num [HitsGeom, wall3, exTests, point, exLeaves, at2], ?_, by norm_num [exLeaves, at2], ?_⟩
  · intro d hd
    rcases two hd with rfl | rfl <;> norm_num [wall3, exLeaves, at2]
  · intro junk group given hset x0 x1 hcall hx1
    have h0 : Held exGeom exData group 2 [({} : Rank ℚ), {}] := by
      refine ⟨by simp, fun _ => [], fun i r hr => ?_⟩
      have : r = {} := List.eq_of_mem_replicate (n := 2) (List.mem_of_getElem? hr)
      subst this
      exact ⟨by simp, by simp, by simp, by simp, by simp, by simp, ⟨by simp, by simp⟩, ⟨by simp, by simp⟩, ⟨by simp, by simp⟩,
        ⟨by simp, by simp⟩, ⟨by simp, Or.inl rfl⟩⟩
    obtain ⟨ranks', res, h1, -, h3, h4⟩ := getAll_spec exWorld exTests junk hset [{}, {}] h0 [x0, x1] hcall
    obtain ⟨out0, out1, rfl⟩ := List.length_eq_two.mp h3
    refine ⟨out0, out1, ?_, fun y hy => ?_⟩
    · have h1' : getAll exGeom.toMH exCart exTests exData junk group [100, 200] [{}, {}] [x0, x1] = some (ranks', [out0, out1]) := h1
      rw [run, h1', Option.bind_some]
      rfl
    · obtain ⟨⟨-, ha, -⟩, hb⟩ := h4 1 x1 out1 rfl rfl
      rw [List.eq_nil_iff_forall_not_mem]
      intro e he
      obtain ⟨hq, -⟩ := ha y hy e he
      rw [hx1, List.mem_singleton] at hq
      obtain ⟨c, hc, r, hr⟩ := hb y hy e he
      rw [hq] at hc
      have hgrid : InGrid exGeom.toMH fun d => exCart d (exLeaves.pp d) := fun d hd => by rcases two hd with rfl | rfl <;> decide +kernel
      obtain ⟨t, hg, hl, ht⟩ := (examined_exact exWorld.grid.1 exWorld.grid.2.1 exLeaves hgrid c).mp hc
      have ht1 := ht 1 (by decide)
      have e1 : exCart 1 (exLeaves.pp 1) = 3 := by decide +kernel
      have e2 : exCart 1 (exLeaves.p 1) = 3 := by decide +kernel
      rw [e1, e2, min_self, max_self] at ht1
      obtain ⟨group', given', -, -, hd⟩ := setup_exact exWorld
      exact ((hd c r).mp hr).2.1 (no_owner t c hg hl (le_antisymm ht1.2 ht1.1))

/-- The call of the finding can be made. -/
example : ∃ x0 x1, CallOk exGeom exCart exMeshes [x0, x1] ∧ x1.particles = [exLeaves] := by
  obtain ⟨call, h, x0, x1, rfl, -, h1⟩ := exCall_exists
  exact ⟨x0, x1, h, h1⟩

end Verif.Props.C113
