import Verif.Props.C84_Meshes

/-!
C84, meshes of regular elements: triangles and parallelograms, and the affine tetrahedra, pyramids, prisms and hexahedra.
-/

namespace Verif.Props.C84
open Verif.Model Verif.Model.CartesianMesh Verif.Model.CoarseLookup Verif.Model.MapChain Verif.Model.DeviceMapper Verif.Spec Verif.Spec.Mapping Verif.Props.C06 Verif.Props.C34
  Verif.Props.C35 Verif.Props.C55 Verif.Props.C40 Verif.Model.RegularMap Verif.Model.NewtonKernel Verif.Model.NewtonElements
open Verif.Spec.Embedded Verif.Spec.LinearElements
open Verif.Props.C39 (AffineImage)

variable {K : Type*} [Field K] [LinearOrder K] [IsStrictOrderedRing K]

/-- A linear inequality that holds at arbitrarily small positive `δ` holds at zero. -/
theorem le_of_small {a b c : K} (h : ∀ ε : K, 0 < ε → ∃ δ, 0 < δ ∧ δ < ε ∧ a + δ * b ≤ c) : a ≤ c := by
  by_contra hc
  rw [not_le] at hc
  obtain ⟨δ, h0, h1, h2⟩ := h ((a - c) / (|b| + 1)) (div_pos (by linarith) (by have := abs_nonneg b; linarith))
  have hb : 0 < |b| + 1 := by have := abs_nonneg b; linarith
  rw [lt_div_iff₀ hb] at h1
  have h3 : -|b| ≤ b := neg_abs_le b
  nlinarith

/-- An element of the plane. -/
structure Elem2 (K : Type*) where
  geom : Geom K
  shape : Shape2
  c : ℕ → V3 K

/-- An element of the space, the image of the reference element under `ξ ↦ A ξ + b`. -/
structure Elem3 (K : Type*) where
  geom : Geom K
  shape : Shape3
  c : ℕ → V3 K
  A : Matrix (Fin 3) (Fin 3) K
  b : Fin 3 → K

/-- The points of an element. -/
def Elem2.region (e : Elem2 K) : Set (ℕ → K) := {p | InElement2 0 e.shape e.c (p 0) (p 1)}
def Elem3.region (e : Elem3 K) : Set (ℕ → K) := {p | InElement3 0 e.shape e.A e.b ⟨p 0, p 1, p 2⟩}

/-- The test of the regular mapper of 2D for the elements in the list. -/
def test2d (tol0 t : K) (E : List (Elem2 K)) (p : ℕ → K) (k : ℕ) : Option (List K) :=
  (E[k]?).bind fun e => (accept2 tol0 t e.shape (e.c 0, e.c 1, e.c (lastPoint e.shape)) (p 0) (p 1)).map fun x => [x.1, x.2]

/-- The test of the regular mapper of 3D for the elements in the list. -/
def test3d (tol0 t : K) (code : Shape3 → ℤ) (E : List (Elem3 K)) (p : ℕ → K) (k : ℕ) : Option (List K) :=
  (E[k]?).bind fun e => (accept3 tol0 t code (code e.shape) (e.c ((indexV e.shape).getD 0 0)) (e.c ((indexV e.shape).getD 1 0)) (e.c ((indexV e.shape).getD 2 0))
    (e.c ((indexV e.shape).getD 3 0)) ⟨p 0, p 1, p 2⟩).map fun x => [x.x, x.y, x.z]

theorem region2_closed (e : Elem2 K) (h : Regular2 e.shape e.c) : RayClosed e.region := by
  intro p v hp
  obtain ⟨a, b, hab⟩ := point2_surj e.shape e.c h (p 0) (p 1)
  obtain ⟨a', b', hab'⟩ := point2_surj e.shape e.c h (p 0 + v 0) (p 1 + v 1)
  have hx := (xi2_iff e.shape e.c h _ _ a b).2 hab
  have hx' := (xi2_iff e.shape e.c h _ _ a' b').2 hab'
  have hline : ∀ δ : K, xi2 (e.c 0) (e.c 1) (e.c (lastPoint e.shape)) (p 0 + δ * v 0) (p 1 + δ * v 1) = (a + δ * (a' - a), b + δ * (b' - b)) := by
    intro δ
    have hd : ∀ (m : V3 K) (o : V3 K) (q : K), 2 * (NewtonElements.dot ⟨p 0 + δ * v 0 - o.x, p 1 + δ * v 1 - o.y, 0⟩ m / q) - 1
        = (2 * (NewtonElements.dot ⟨p 0 - o.x, p 1 - o.y, 0⟩ m / q) - 1)
          + δ * ((2 * (NewtonElements.dot ⟨p 0 + v 0 - o.x, p 1 + v 1 - o.y, 0⟩ m / q) - 1) - (2 * (NewtonElements.dot ⟨p 0 - o.x, p 1 - o.y, 0⟩ m / q) - 1)) := by
      intro m o q
      simp only [NewtonElements.dot]
      ring
    simp only [xi2, Prod.mk.injEq] at hx hx' ⊢
    rw [← hx.1, ← hx.2, ← hx'.1, ← hx'.2]
    exact ⟨hd _ _ _, hd _ _ _⟩
  refine ⟨a, b, ?_, hab⟩
  have hin : ∀ ε : K, 0 < ε → ∃ δ, 0 < δ ∧ δ < ε ∧ InRef2 0 e.shape (a + δ * (a' - a)) (b + δ * (b' - b)) := by
    intro ε hε
    obtain ⟨δ, h0, h1, x, y, hr, hxy⟩ := hp ε hε
    have := (xi2_iff e.shape e.c h _ _ x y).2 hxy
    rw [hline δ, Prod.mk.injEq] at this
    exact ⟨δ, h0, h1, by rw [this.1, this.2]; exact hr⟩
  have key : ∀ x u c : K, (∀ ε : K, 0 < ε → ∃ δ, 0 < δ ∧ δ < ε ∧ x + δ * u ≤ c) → x ≤ c := fun x u c => le_of_small
  cases hs : e.shape with
  | tri =>
    rw [hs] at hin
    simp only [InRef2] at hin ⊢
    refine ⟨?_, ?_, ?_⟩
    · have := key (-a) (-(a' - a)) (1 + 0) fun ε hε => by obtain ⟨δ, h0, h1, h2⟩ := hin ε hε; exact ⟨δ, h0, h1, by linarith [h2.1]⟩
      linarith
    · have := key (-b) (-(b' - b)) (1 + 0) fun ε hε => by obtain ⟨δ, h0, h1, h2⟩ := hin ε hε; exact ⟨δ, h0, h1, by linarith [h2.2.1]⟩
      linarith
    · exact key (a + b) (a' - a + (b' - b)) 0 fun ε hε => by obtain ⟨δ, h0, h1, h2⟩ := hin ε hε; exact ⟨δ, h0, h1, by linarith [h2.2.2]⟩
  | quad =>
    rw [hs] at hin
    simp only [InRef2] at hin ⊢
    refine ⟨⟨?_, ?_⟩, ?_, ?_⟩
    · have := key (-a) (-(a' - a)) (1 + 0) fun ε hε => by obtain ⟨δ, h0, h1, h2⟩ := hin ε hε; exact ⟨δ, h0, h1, by linarith [h2.1.1]⟩
      linarith
    · exact key a (a' - a) (1 + 0) fun ε hε => by obtain ⟨δ, h0, h1, h2⟩ := hin ε hε; exact ⟨δ, h0, h1, by linarith [h2.1.2]⟩
    · have := key (-b) (-(b' - b)) (1 + 0) fun ε hε => by obtain ⟨δ, h0, h1, h2⟩ := hin ε hε; exact ⟨δ, h0, h1, by linarith [h2.2.1]⟩
      linarith
    · exact key b (b' - b) (1 + 0) fun ε hε => by obtain ⟨δ, h0, h1, h2⟩ := hin ε hε; exact ⟨δ, h0, h1, by linarith [h2.2.2]⟩

theorem region3_closed (e : Elem3 K) (h : e.A.det ≠ 0) : RayClosed e.region := by
  intro p v hp
  have hu : IsUnit e.A.det := isUnit_iff_ne_zero.2 h
  set w0 : Fin 3 → K := e.A⁻¹.mulVec (V3.get ⟨p 0, p 1, p 2⟩ - e.b) with hw0
  set u : Fin 3 → K := e.A⁻¹.mulVec (V3.get ⟨v 0, v 1, v 2⟩) with hu'
  have solve : ∀ (q : V3 K) (w : V3 K), V3.get q = e.A.mulVec (V3.get w) + e.b → V3.get w = e.A⁻¹.mulVec (V3.get q - e.b) := by
    intro q w hq
    rw [hq, add_sub_cancel_right, Matrix.mulVec_mulVec, Matrix.nonsing_inv_mul _ hu, Matrix.one_mulVec]
  have hin : ∀ ε : K, 0 < ε → ∃ δ, 0 < δ ∧ δ < ε ∧ InRef3 0 e.shape (w0 0 + δ * u 0) (w0 1 + δ * u 1) (w0 2 + δ * u 2) := by
    intro ε hε
    obtain ⟨δ, h0, h1, w, hr, hw⟩ := hp ε hε
    refine ⟨δ, h0, h1, ?_⟩
    have hs := solve _ w hw
    have hq : V3.get (⟨p 0 + δ * v 0, p 1 + δ * v 1, p 2 + δ * v 2⟩ : V3 K) = V3.get ⟨p 0, p 1, p 2⟩ + δ • V3.get ⟨v 0, v 1, v 2⟩ := by
      funext i
      fin_cases i <;> simp [V3.get]
    have hl : V3.get w = w0 + δ • u := by
      rw [hs]
      show e.A⁻¹.mulVec (V3.get (⟨p 0 + δ * v 0, p 1 + δ * v 1, p 2 + δ * v 2⟩ : V3 K) - e.b) = _
      rw [hq, add_sub_right_comm, Matrix.mulVec_add, Matrix.mulVec_smul]
    have e0 : w.x = w0 0 + δ * u 0 := by simpa [V3.get] using congrFun hl 0
    have e1 : w.y = w0 1 + δ * u 1 := by simpa [V3.get] using congrFun hl 1
    have e2 : w.z = w0 2 + δ * u 2 := by simpa [V3.get] using congrFun hl 2
    rw [← e0, ← e1, ← e2]
    exact hr
  refine ⟨⟨w0 0, w0 1, w0 2⟩, ?_, ?_⟩
  · have up : ∀ (f : K → K → K → K) (c : K), (∀ δ x y z x' y' z', f (x + δ * x') (y + δ * y') (z + δ * z') = f x y z + δ * f x' y' z') →
        (∀ a b c', InRef3 0 e.shape a b c' → f a b c' ≤ c) → f (w0 0) (w0 1) (w0 2) ≤ c := by
      intro f c hf hle
      refine le_of_small (b := f (u 0) (u 1) (u 2)) fun ε hε => ?_
      obtain ⟨δ, h0, h1, h2⟩ := hin ε hε
      exact ⟨δ, h0, h1, by rw [← hf]; exact hle _ _ _ h2⟩
    have nx := fun c (h : ∀ a b c', InRef3 0 e.shape a b c' → -a ≤ c) => up (fun x _ _ => -x) c (fun δ x y z x' y' z' => by ring) h
    have ny := fun c (h : ∀ a b c', InRef3 0 e.shape a b c' → -b ≤ c) => up (fun _ y _ => -y) c (fun δ x y z x' y' z' => by ring) h
    have nz := fun c (h : ∀ a b c', InRef3 0 e.shape a b c' → -c' ≤ c) => up (fun _ _ z => -z) c (fun δ x y z x' y' z' => by ring) h
    have px := fun c (h : ∀ a b c', InRef3 0 e.shape a b c' → a ≤ c) => up (fun x _ _ => x) c (fun δ x y z x' y' z' => by ring) h
    have py := fun c (h : ∀ a b c', InRef3 0 e.shape a b c' → b ≤ c) => up (fun _ y _ => y) c (fun δ x y z x' y' z' => by ring) h
    have pz := fun c (h : ∀ a b c', InRef3 0 e.shape a b c' → c' ≤ c) => up (fun _ _ z => z) c (fun δ x y z x' y' z' => by ring) h
    have pxz := fun c (h : ∀ a b c', InRef3 0 e.shape a b c' → a + c' ≤ c) => up (fun x _ z => x + z) c (fun δ x y z x' y' z' => by ring) h
    have pyz := fun c (h : ∀ a b c', InRef3 0 e.shape a b c' → b + c' ≤ c) => up (fun _ y z => y + z) c (fun δ x y z x' y' z' => by ring) h
    have pxyz := fun c (h : ∀ a b c', InRef3 0 e.shape a b c' → a + b + c' ≤ c) => up (fun x y z => x + y + z) c (fun δ x y z x' y' z' => by ring) h
    cases hs : e.shape with
    | tet =>
      rw [hs] at nx ny nz pxyz
      simp only [InRef3] at nx ny nz pxyz ⊢
      have h1 := nx 1 fun a b c h => by linarith [h.1]
      have h2 := ny 1 fun a b c h => by linarith [h.2.1]
      have h3 := nz 1 fun a b c h => by linarith [h.2.2.1]
      have h4 := pxyz (-1) fun a b c h => by linarith [h.2.2.2]
      exact ⟨by linarith, by linarith, by linarith, by linarith⟩
    | pyr =>
      rw [hs] at nx ny nz pxz pyz
      simp only [InRef3] at nx ny nz pxz pyz ⊢
      have h1 := nx 1 fun a b c h => by linarith [h.1]
      have h2 := ny 1 fun a b c h => by linarith [h.2.1]
      have h3 := nz 1 fun a b c h => by linarith [h.2.2.1]
      have h4 := pxz 0 fun a b c h => h.2.2.2.1
      have h5 := pyz 0 fun a b c h => h.2.2.2.2
      exact ⟨by linarith, by linarith, by linarith, h4, h5⟩
    | prism =>
      rw [hs] at nx ny py nz pxz
      simp only [InRef3] at nx ny py nz pxz ⊢
      have h1 := nx 1 fun a b c h => by linarith [h.1]
      have h2 := ny 1 fun a b c h => by linarith [h.2.1.1]
      have h2' := py 1 fun a b c h => by linarith [h.2.1.2]
      have h3 := nz 1 fun a b c h => by linarith [h.2.2.1]
      have h4 := pxz 0 fun a b c h => h.2.2.2
      exact ⟨by linarith, ⟨by linarith, by linarith⟩, by linarith, h4⟩
    | hex =>
      rw [hs] at nx ny nz px py pz
      simp only [InRef3] at nx ny nz px py pz ⊢
      have h1 := nx 1 fun a b c h => by linarith [h.1.1]
      have h1' := px 1 fun a b c h => by linarith [h.1.2]
      have h2 := ny 1 fun a b c h => by linarith [h.2.1.1]
      have h2' := py 1 fun a b c h => by linarith [h.2.1.2]
      have h3 := nz 1 fun a b c h => by linarith [h.2.2.1]
      have h3' := pz 1 fun a b c h => by linarith [h.2.2.2]
      exact ⟨⟨by linarith, by linarith⟩, ⟨by linarith, by linarith⟩, by linarith, by linarith⟩
  · have : V3.get (⟨w0 0, w0 1, w0 2⟩ : V3 K) = w0 := by
      funext i
      fin_cases i <;> rfl
    rw [this, hw0, Matrix.mulVec_mulVec, Matrix.mul_nonsing_inv _ hu, Matrix.one_mulVec, sub_add_cancel]

variable [FloorRing K]

/-- **C84, regular meshes in 2D.** Let triangles and parallelograms cover a box, with bounding boxes that contain their elements, and in each direction are in the covered box or exceed their elements above. The mapper can be made, and if the cell counts of its lookup fit in an `int`, for every group
of particles in the box: the call completes, all particles of the selected cells are mapped; each particle is unchanged, or was unmapped and has the id and the rank of an element, with a reference position
that the element maps to the position of the particle. -/
theorem regular_mesh_2d (big : K) (hbig : 0 < big) (scaling : K → ℤ) (hsc : ∀ f, 1 < f → 0 < scaling f ∧ f ≤ (scaling f : K) ^ 2) (tol0 t : K) (h0 : 0 < tol0) (ht : 0 ≤ t)
    (E : List (Elem2 K)) (hE : ∀ e ∈ E, Regular2 e.shape e.c) (hadm : Admissible 2 big (E.map Elem2.geom)) (lo hi : ℕ → K) (hlh : ∀ d < 2, lo d < hi d)
    (hbox : ∀ e ∈ E, ∀ p ∈ e.region, ∀ d < 2, e.geom.box d ≤ p d ∧ p d ≤ e.geom.box (d + 3)) 
    (hhi : ∀ d < 2, (∀ e ∈ E, e.geom.box (d + 3) ≤ hi d) ∨ ∀ e ∈ E, ∀ p ∈ e.region, p d < e.geom.box (d + 3))
    (hc : ∀ p : ℕ → K, (∀ d < 2, lo d ≤ p d ∧ p d ≤ hi d) → ∃ e ∈ E, p ∈ e.region) :
    ∃ m, mkMapper 2 big scaling (E.map Elem2.geom) = some m ∧ ∀ (mc : ℤ) (g : Cells K),
      (∀ d < 2, m.lookup.mesh.cellCounts d < 2147483648) → (∀ q, Searched mc g q → ∀ d < 2, lo d ≤ q.pos d ∧ q.pos d ≤ hi d) →
      ∃ g', map2D (some (m.stage (test2d tol0 t E))) none mc g = some g' ∧ AllSel mc (fun q => 0 ≤ q.rank) g' ∧
        Related (fun q q' => q' = q ∨ (q.rank < 0 ∧ ∃ e ∈ E, ∃ x y : K, q' = { q with rank := e.geom.rank, cell := e.geom.gid, ref := [x, y] } ∧
          point2 e.shape e.c x y = (q.pos 0, q.pos 1))) g g' := by
  obtain ⟨m, hm, _⟩ := mapper_correct 2 (by omega) (by omega) big hbig scaling hsc _ hadm
  refine ⟨m, hm, fun mc g hfit hp => ?_⟩
  have hrange : ∀ p : ℕ → K, (∀ d < 2, lo d ≤ p d ∧ p d ≤ hi d) → InRange m p := by
    intro p hp
    obtain ⟨e, he, hin⟩ := hc p hp
    refine inRange_of_bounds 2 (by omega) (by omega) big hbig scaling hsc _ hadm m hm hfit p fun d hd => ?_
    obtain ⟨h1, h2⟩ := hbox e he p hin d hd
    exact ⟨⟨_, List.mem_map_of_mem he, h1⟩, _, List.mem_map_of_mem he, h2⟩
  let b : Built 2 big scaling := ⟨E.map Elem2.geom, m, hm, test2d tol0 t E, test2d tol0 t E, fun k => {p | ∃ e, E[k]? = some e ∧ p ∈ e.region}⟩
  have hk : ∀ (k : ℕ) (h : k < b.geoms.length), ∃ e ∈ E, E[k]? = some e ∧ b.geoms[k] = e.geom := by
    intro k h
    have h' : k < E.length := by simpa [b] using h
    exact ⟨E[k], List.getElem_mem h', List.getElem?_eq_getElem h', by simp [b]⟩
  have hv : Valid 2 big hi b := {
    adm := hadm
    accepted := by
      rintro k _ p ⟨e, he, hpe⟩
      left
      show (test2d tol0 t E p k).isSome
      unfold test2d
      rw [he, Option.bind_some, Option.isSome_map]
      exact (regular_2d tol0 t h0 ht e.shape e.c (hE e (List.mem_of_getElem? he)) (p 0) (p 1)).1 hpe
    inBox := by
      rintro k h p ⟨e, he, hpe⟩
      obtain ⟨e', _, h1, h2⟩ := hk k h
      rw [he, Option.some.injEq] at h1
      subst h1
      rw [h2]
      exact hbox e (List.mem_of_getElem? he) p hpe
    closed := by
      rintro k h p v hpv
      obtain ⟨e, hem, he, _⟩ := hk k h
      refine ⟨e, he, region2_closed e (hE e hem) p v fun ε hε => ?_⟩
      obtain ⟨δ, d0, d1, e', he', hd⟩ := hpv ε hε
      rw [he, Option.some.injEq] at he'
      subst he'
      exact ⟨δ, d0, d1, hd⟩
    margin := by
      intro d hd
      rcases hhi d hd with hh | hh
      · left
        intro g hg
        obtain ⟨e, he, rfl⟩ := List.mem_map.1 hg
        exact hh e he
      · right
        rintro k h p ⟨e, he, hpe⟩
        obtain ⟨e', _, h1, h2⟩ := hk k h
        rw [he, Option.some.injEq] at h1
        subst h1
        rw [h2]
        exact hh e (List.mem_of_getElem? he) p hpe }
  obtain ⟨g', e1, e2, e3⟩ := every_particle_found_2d (by omega) (by omega) hbig hsc (some b) none lo hi hlh
    (by simpa using hv) (by simp [b]) (by
      intro p hpp
      obtain ⟨e, he, hin⟩ := hc p hpp
      obtain ⟨k, hk', rfl⟩ := List.getElem_of_mem he
      exact ⟨b, by simp, k, by simpa [b] using hk', _, List.getElem?_eq_getElem hk', hin⟩) mc g (by
      intro q hq
      exact ⟨hp q hq, by simpa [b] using hrange q.pos (hp q hq)⟩)
  refine ⟨g', e1, e2, ?_⟩
  refine List.Forall₂.imp (fun c c' hcc => List.Forall₂.imp (fun q q' hqq => ?_) hcc) e3
  rcases hqq with h | ⟨hq, a, ⟨b', hb', ha⟩, _, rfl⟩
  · exact Or.inl h
  · refine Or.inr ⟨hq, ?_⟩
    have hbb : b' = b := by simpa using hb'
    subst hbb
    have ha' : a ∈ assignments b.geoms (test2d tol0 t E) q.pos := by
      rcases ha with h | h <;> exact h
    obtain ⟨k, hkl, a1, a2, a3⟩ := ha'
    obtain ⟨e, hem, he, hge⟩ := hk k hkl
    unfold test2d at a3
    rw [he, Option.bind_some, Option.map_eq_some_iff] at a3
    obtain ⟨x, hx, hr⟩ := a3
    refine ⟨e, hem, x.1, x.2, by rw [a1, a2, hge, ← hr], ?_⟩
    exact (regular_2d tol0 t h0 ht e.shape e.c (hE e hem) (q.pos 0) (q.pos 1)).2.2 x hx

/-- **C84, regular meshes in 3D.** As `regular_mesh_2d` for affine tetrahedra, pyramids, prisms and hexahedra; the particles of the cells that are not selected are mapped. -/
theorem regular_mesh_3d (big : K) (hbig : 0 < big) (scaling : K → ℤ) (hsc : ∀ f, 1 < f → 0 < scaling f ∧ f ≤ (scaling f : K) ^ 3) (tol0 t : K) (h0 : 0 < tol0) (ht : 0 ≤ t)
    (code : Shape3 → ℤ) (hcode : Function.Injective code) (E : List (Elem3 K)) (hE : ∀ e ∈ E, AffineImage (shape e.shape) e.A e.b e.c ∧ e.A.det ≠ 0)
    (hadm : Admissible 3 big (E.map Elem3.geom)) (lo hi : ℕ → K) (hlh : ∀ d < 3, lo d < hi d)
    (hbox : ∀ e ∈ E, ∀ p ∈ e.region, ∀ d < 3, e.geom.box d ≤ p d ∧ p d ≤ e.geom.box (d + 3)) 
    (hhi : ∀ d < 3, (∀ e ∈ E, e.geom.box (d + 3) ≤ hi d) ∨ ∀ e ∈ E, ∀ p ∈ e.region, p d < e.geom.box (d + 3))
    (hc : ∀ p : ℕ → K, (∀ d < 3, lo d ≤ p d ∧ p d ≤ hi d) → ∃ e ∈ E, p ∈ e.region) :
    ∃ m, mkMapper 3 big scaling (E.map Elem3.geom) = some m ∧ ∀ (newton : List (Option (Stage K × Stage K))) (_ : ∀ s ∈ newton, s = none) (host : Stage K)
      (hostAcc : (ℕ → K) → Set (Assignment K)) (_ : Sound hostAcc host) (mc : ℤ) (g : Cells K),
      (∀ d < 3, m.lookup.mesh.cellCounts d < 2147483648) → (∀ q, Searched mc g q → ∀ d < 3, lo d ≤ q.pos d ∧ q.pos d ≤ hi d) →
      (-1 < mc → ∀ (i : ℕ) (h : i < g.length), selected mc i = false → ∀ q ∈ g[i], 0 ≤ q.rank) →
      ∃ g', map3D (some (m.stage (test3d tol0 t code E))) newton host mc g = some g' ∧ AllSel mc (fun q => 0 ≤ q.rank) g' ∧
        Related (fun q q' => q' = q ∨ (q.rank < 0 ∧ ∃ e ∈ E, ∃ w : V3 K, q' = { q with rank := e.geom.rank, cell := e.geom.gid, ref := [w.x, w.y, w.z] } ∧
          V3.get ⟨q.pos 0, q.pos 1, q.pos 2⟩ = e.A.mulVec (V3.get w) + e.b) ∨ ∃ a ∈ hostAcc q.pos, q' = { q with rank := a.rank, cell := a.cell, ref := a.ref }) g g' := by
  obtain ⟨m, hm, _⟩ := mapper_correct 3 (by omega) (by omega) big hbig scaling hsc _ hadm
  refine ⟨m, hm, fun newton hnewton host hostAcc hhost mc g hfit hp hother => ?_⟩
  have hrange : ∀ p : ℕ → K, (∀ d < 3, lo d ≤ p d ∧ p d ≤ hi d) → InRange m p := by
    intro p hp
    obtain ⟨e, he, hin⟩ := hc p hp
    refine inRange_of_bounds 3 (by omega) (by omega) big hbig scaling hsc _ hadm m hm hfit p fun d hd => ?_
    obtain ⟨h1, h2⟩ := hbox e he p hin d hd
    exact ⟨⟨_, List.mem_map_of_mem he, h1⟩, _, List.mem_map_of_mem he, h2⟩
  let b : Built 3 big scaling := ⟨E.map Elem3.geom, m, hm, test3d tol0 t code E, test3d tol0 t code E, fun k => {p | ∃ e, E[k]? = some e ∧ p ∈ e.region}⟩
  have hk : ∀ (k : ℕ) (h : k < b.geoms.length), ∃ e ∈ E, E[k]? = some e ∧ b.geoms[k] = e.geom := by
    intro k h
    have h' : k < E.length := by simpa [b] using h
    exact ⟨E[k], List.getElem_mem h', List.getElem?_eq_getElem h', by simp [b]⟩
  have hv : Valid 3 big hi b := {
    adm := hadm
    accepted := by
      rintro k _ p ⟨e, he, hpe⟩
      left
      show (test3d tol0 t code E p k).isSome
      unfold test3d
      rw [he, Option.bind_some, Option.isSome_map]
      obtain ⟨hA, hdet⟩ := hE e (List.mem_of_getElem? he)
      exact (regular_3d tol0 t h0 ht code hcode e.shape hA hdet ⟨p 0, p 1, p 2⟩).1 hpe
    inBox := by
      rintro k h p ⟨e, he, hpe⟩
      obtain ⟨e', _, h1, h2⟩ := hk k h
      rw [he, Option.some.injEq] at h1
      subst h1
      rw [h2]
      exact hbox e (List.mem_of_getElem? he) p hpe
    closed := by
      rintro k h p v hpv
      obtain ⟨e, hem, he, _⟩ := hk k h
      refine ⟨e, he, region3_closed e (hE e hem).2 p v fun ε hε => ?_⟩
      obtain ⟨δ, d0, d1, e', he', hd⟩ := hpv ε hε
      rw [he, Option.some.injEq] at he'
      subst he'
      exact ⟨δ, d0, d1, hd⟩
    margin := by
      intro d hd
      rcases hhi d hd with hh | hh
      · left
        intro g hg
        obtain ⟨e, he, rfl⟩ := List.mem_map.1 hg
        exact hh e he
      · right
        rintro k h p ⟨e, he, hpe⟩
        obtain ⟨e', _, h1, h2⟩ := hk k h
        rw [he, Option.some.injEq] at h1
        subst h1
        rw [h2]
        exact hh e (List.mem_of_getElem? he) p hpe }
  have hnil : newton.filterMap id = [] := by
    rw [List.filterMap_eq_nil_iff]
    exact hnewton
  have hmap : newton = (List.replicate newton.length none).map fun o : Option (Built 3 big scaling) => o.map fun b => (b.stage1, b.stage2) := by
    rw [List.map_replicate, Option.map_none, List.eq_replicate_iff]
    exact ⟨rfl, hnewton⟩
  have hrep : (List.replicate newton.length (none : Option (Built 3 big scaling))).filterMap id = [] := by
    rw [List.filterMap_eq_nil_iff]
    intro a ha
    exact List.eq_of_mem_replicate ha
  obtain ⟨g', e1, e2, e3⟩ := every_particle_found_3d (by omega) (by omega) hbig hsc (some b) (List.replicate newton.length none) host hostAcc hhost lo hi hlh
    (by rw [hrep]; simpa using hv) (by simp [b]) (by
      intro p hpp
      obtain ⟨e, he, hin⟩ := hc p hpp
      obtain ⟨k, hk', rfl⟩ := List.getElem_of_mem he
      exact ⟨b, by simp, k, by simpa [b] using hk', _, List.getElem?_eq_getElem hk', hin⟩) mc g (by
      intro q hq
      exact ⟨hp q hq, by rw [hrep]; simpa [b] using hrange q.pos (hp q hq)⟩) hother
  rw [← hmap] at e1
  refine ⟨g', e1, e2, ?_⟩
  refine List.Forall₂.imp (fun c c' hcc => List.Forall₂.imp (fun q q' hqq => ?_) hcc) e3
  rcases hqq with h | ⟨hq, a, ha, _, rfl⟩
  · exact Or.inl h
  · rcases ha with ha | ⟨b', hb', ha⟩
    · exact Or.inr (Or.inr ⟨a, ha, rfl⟩)
    refine Or.inr (Or.inl ⟨hq, ?_⟩)
    have hbb : b' = b := by rw [hrep] at hb'; simpa using hb'
    subst hbb
    have ha' : a ∈ assignments b.geoms (test3d tol0 t code E) q.pos := by
      rcases ha with h | h <;> exact h
    obtain ⟨k, hkl, a1, a2, a3⟩ := ha'
    obtain ⟨e, hem, he, hge⟩ := hk k hkl
    unfold test3d at a3
    rw [he, Option.bind_some, Option.map_eq_some_iff] at a3
    obtain ⟨x, hx, hr⟩ := a3
    obtain ⟨hA, hdet⟩ := hE e hem
    refine ⟨e, hem, x, by rw [a1, a2, hge, ← hr], ?_⟩
    exact (regular_3d tol0 t h0 ht code hcode e.shape hA hdet ⟨q.pos 0, q.pos 1, q.pos 2⟩).2.2 x hx

/-! ### A mesh -/

/-- The unit square cut into two triangles, of the ranks 0 and 3. -/
def mesh1 : Elem2 ℚ := ⟨⟨7, 0, fun i => if i < 3 then 0 else 1⟩, .tri, fun i => if i = 0 then ⟨0, 0, 0⟩ else if i = 1 then ⟨1, 0, 0⟩ else ⟨0, 1, 0⟩⟩
def mesh2 : Elem2 ℚ := ⟨⟨4, 3, fun i => if i < 3 then 0 else 1⟩, .tri, fun i => if i = 0 then ⟨1, 1, 0⟩ else if i = 1 then ⟨0, 1, 0⟩ else ⟨1, 0, 0⟩⟩

theorem mesh1_region (p : ℕ → ℚ) : p ∈ mesh1.region ↔ 0 ≤ p 0 ∧ 0 ≤ p 1 ∧ p 0 + p 1 ≤ 1 := by
  have e : p ∈ mesh1.region ↔ ∃ a b, InRef2 0 .tri a b ∧ point2 .tri mesh1.c a b = (p 0, p 1) := Iff.rfl
  have hp : ∀ a b : ℚ, point2 .tri mesh1.c a b = ((1 + a) / 2, (1 + b) / 2) := by
    intro a b
    simp [point2, triPoint, weightedFrom, mesh1]
  simp only [e, hp, InRef2]
  constructor
  · rintro ⟨a, b, ⟨h1, h2, h3⟩, h⟩
    obtain ⟨h4, h5⟩ := Prod.mk.inj h
    refine ⟨?_, ?_, ?_⟩ <;> linarith
  · rintro ⟨h1, h2, h3⟩
    exact ⟨2 * p 0 - 1, 2 * p 1 - 1, ⟨by linarith, by linarith, by linarith⟩, by rw [Prod.mk.injEq]; constructor <;> ring⟩

theorem mesh2_region (p : ℕ → ℚ) : p ∈ mesh2.region ↔ p 0 ≤ 1 ∧ p 1 ≤ 1 ∧ 1 ≤ p 0 + p 1 := by
  have e : p ∈ mesh2.region ↔ ∃ a b, InRef2 0 .tri a b ∧ point2 .tri mesh2.c a b = (p 0, p 1) := Iff.rfl
  have hp : ∀ a b : ℚ, point2 .tri mesh2.c a b = ((1 - a) / 2, (1 - b) / 2) := by
    intro a b
    simp [point2, triPoint, weightedFrom, mesh2]
    constructor <;> ring
  simp only [e, hp, InRef2]
  constructor
  · rintro ⟨a, b, ⟨h1, h2, h3⟩, h⟩
    obtain ⟨h4, h5⟩ := Prod.mk.inj h
    refine ⟨?_, ?_, ?_⟩ <;> linarith
  · rintro ⟨h1, h2, h3⟩
    exact ⟨1 - 2 * p 0, 1 - 2 * p 1, ⟨by linarith, by linarith, by linarith⟩, by rw [Prod.mk.injEq]; constructor <;> ring⟩

/-- The hypotheses of `regular_mesh_2d` hold for this mesh: all groups of particles in the square are mapped. -/
example : ∃ m, mkMapper 2 (10 : ℚ) (fun f => ⌈f⌉) ([mesh1, mesh2].map Elem2.geom) = some m ∧ ∀ (mc : ℤ) (g : Cells ℚ),
    (∀ d < 2, m.lookup.mesh.cellCounts d < 2147483648) → (∀ q, Searched mc g q → ∀ d < 2, 0 ≤ q.pos d ∧ q.pos d ≤ 1) →
    ∃ g', map2D (some (m.stage (test2d (1 / 1000) 0 [mesh1, mesh2]))) none mc g = some g' ∧ AllSel mc (fun q => 0 ≤ q.rank) g' := by
  have r1 : ∀ p ∈ mesh1.region, ∀ d < 2, 0 ≤ p d ∧ p d ≤ 1 := by
    intro p hp d hd
    obtain ⟨h1, h2, h3⟩ := (mesh1_region p).1 hp
    interval_cases d <;> constructor <;> linarith
  have r2 : ∀ p ∈ mesh2.region, ∀ d < 2, 0 ≤ p d ∧ p d ≤ 1 := by
    intro p hp d hd
    obtain ⟨h1, h2, h3⟩ := (mesh2_region p).1 hp
    interval_cases d <;> constructor <;> linarith
  obtain ⟨m, hm, h⟩ := regular_mesh_2d (10 : ℚ) (by norm_num) (fun f => ⌈f⌉)
    (fun f hf => ⟨Int.ceil_pos.2 (by linarith), by have := Int.le_ceil f; nlinarith⟩) (1 / 1000) 0 (by norm_num) le_rfl [mesh1, mesh2]
    (by
      intro e he
      rcases List.mem_cons.1 he with rfl | he
      · refine ⟨?_, by simp [mesh1]⟩
        norm_num [mesh1, lastPoint]
      · rw [List.mem_singleton.1 he]
        refine ⟨?_, by simp [mesh2]⟩
        norm_num [mesh2, lastPoint])
    { ids := by simp [mesh1, mesh2]
      ranks := by simp [mesh1, mesh2]
      finite := by
        intro g hg i hi
        simp only [List.map_cons, List.map_nil, List.mem_cons, List.not_mem_nil, or_false] at hg
        rcases hg with rfl | rfl
        · simp only [mesh1]; split_ifs <;> norm_num
        · simp only [mesh2]; split_ifs <;> norm_num
      ordered := by
        intro g hg d hd
        simp only [List.map_cons, List.map_nil, List.mem_cons, List.not_mem_nil, or_false] at hg
        rcases hg with rfl | rfl
        · simp only [mesh1]; rw [if_pos (by omega), if_neg (by omega)]; norm_num
        · simp only [mesh2]; rw [if_pos (by omega), if_neg (by omega)]; norm_num
      extended := by
        intro d hd
        refine ⟨mesh1.geom, by simp, ?_⟩
        simp only [mesh1]; rw [if_pos (by omega), if_neg (by omega)]; norm_num } (fun _ => 0) (fun _ => 1) (by simp)
    (by
      intro e he p hp d hd
      rcases List.mem_cons.1 he with rfl | he
      · simpa [mesh1, show d < 3 by omega] using r1 p hp d hd
      · rw [List.mem_singleton.1 he] at hp ⊢
        simpa [mesh2, show d < 3 by omega] using r2 p hp d hd)
    (by
      intro d hd
      left
      intro e he
      rcases List.mem_cons.1 he with rfl | he
      · simp [mesh1]
      · rw [List.mem_singleton.1 he]
        simp [mesh2])
    (by
      intro p hp
      have h0 := hp 0 (by omega)
      have h1 := hp 1 (by omega)
      rcases le_total (p 0 + p 1) 1 with h | h
      · exact ⟨mesh1, by simp, (mesh1_region p).2 ⟨h0.1, h1.1, h⟩⟩
      · exact ⟨mesh2, by simp, (mesh2_region p).2 ⟨h0.2, h1.2, h⟩⟩)
  refine ⟨m, hm, fun mc g hf hg => ?_⟩
  obtain ⟨g', e1, e2, _⟩ := h mc g hf hg
  exact ⟨g', e1, e2⟩

end Verif.Props.C84
