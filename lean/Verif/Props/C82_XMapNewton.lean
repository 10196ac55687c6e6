import Verif.Props.C81_Curved
import Verif.Props.C39_AffineOneStep

/-!
C82. `XMapNewton`: the map of an element and its inverse on the host.

`Root` says what the search accepts. `code` and `tol` are the shape codes and `kNekZeroTol`. The results of `XMapNewtonKernel::x_inverse` are those of C36.
-/

namespace Verif.Props.C82
open Verif.Spec Verif.Spec.Generic3D Verif.Lemmas Verif.Lemmas.Generic3D Verif.Lemmas.NewtonMemory Verif.Model Verif.Model.Bary
  Verif.Model.JacobiCoeff Verif.Model.Generic3D Verif.Model.NewtonKernel Verif.Model.NewtonMemory Verif.Model.CoordMap MvPolynomial

/-- The Newton iteration from `start`, with at most 51 steps, converges for the point `p`; `xi` is the point with its collapsed coordinates moved into `[lo, hi]`, and the residual at
`xi` is within the tolerance. -/
def Root {V : Type*} (o : Ops V) (I : Impl V) (tol hi lo : V) (p start xi : V3 V) : Prop :=
  ∃ y : V3 V, xInverse o I p 51 tol (some start) = (y, true) ∧
    xi = I.fromCollapsed ⟨o.kmax (o.kmin (I.toCollapsed y).x hi) lo, o.kmax (o.kmin (I.toCollapsed y).y hi) lo, o.kmax (o.kmin (I.toCollapsed y).z hi) lo⟩ ∧
    o.le (I.residual xi p).1 tol = true

section general
variable {V M : Type*}

theorem root_iff (o : Ops V) (I : Impl V) (tol hi lo : V) (p start xi : V3 V) :
    Root o I tol hi lo p start xi ↔ tryCandidate o I ⟨tol, 51, hi, lo⟩ p (some start) = some xi := by
  unfold Root tryCandidate
  dsimp only
  constructor
  · rintro ⟨y, h1, rfl, h3⟩
    rw [h1, h3]
    rfl
  · intro h
    split_ifs at h with hc
    rw [Bool.and_eq_true] at hc
    rw [Option.some.injEq] at h
    refine ⟨_, Prod.ext rfl hc.2, h.symm, ?_⟩
    rw [← h]
    exact hc.1

theorem mem_grid (ndim gridSize : ℕ) (point : ℕ → V) (s : V3 V) : s ∈ startGrid ndim gridSize point ↔
    ∃ g0 g1 g2 : ℕ, g0 ≤ max (gridSize - 1) 1 ∧ (g1 ≤ if ndim > 1 then max (gridSize - 1) 1 else 1) ∧ (g2 ≤ if ndim > 2 then max (gridSize - 1) 1 else 1) ∧
      s = ⟨point g0, point g1, point g2⟩ := by
  unfold startGrid
  simp only [List.mem_flatMap, List.mem_range, List.mem_map, Nat.lt_succ_iff]
  constructor
  · rintro ⟨g2, h2, g1, h1, g0, h0, rfl⟩
    exact ⟨g0, g1, g2, h0, h1, h2, rfl⟩
  · rintro ⟨g0, g1, g2, h0, h1, h2, rfl⟩
    exact ⟨g2, h2, g1, h1, g0, h0, rfl⟩

theorem grid_head (ndim gridSize : ℕ) (point : ℕ → V) : ∃ rest, startGrid ndim gridSize point = ⟨point 0, point 0, point 0⟩ :: rest := by
  unfold startGrid
  simp only [List.range_succ_eq_map, List.flatMap_cons, List.map_cons, List.cons_append]
  exact ⟨_, rfl⟩

/-- **C82, the search.** For every implementation, with or without local memory (and whatever is in it), every point and all tolerances, `x_inverse` ends; it returns true exactly if the
search succeeds from one of the points `-1 + g · 2/(N-1)` of the grid with `N = num_modes_factor · num_modes` points in each direction, and then the reference position is a root found from
one of them, from the corner `(-1, -1, -1)` if there is one. -/
theorem host_inverse (o : Ops V) (MI : MImpl V M) (I : Impl V) (ok : M → Prop) (AtPoint : V3 V → M → Prop) (h : Refines MI I ok AtPoint) (ndim : ℕ) (factor modes : ℤ)
    (point : ℕ → ℕ → V) (tol hi lo : V) (p : V3 V) (xi0 : V3 V) (r0 : V) (mem : M) (hm : ok mem) :
    ∃ r : V3 V × Bool, hostInverse o MI ndim factor modes point tol hi lo p ⟨xi0, r0, false, mem⟩ = some r ∧
      (r.2 = true ↔ ∃ (g0 g1 g2 N : ℕ) (xi : V3 V), N = max ((factor * modes).toNat - 1) 1 ∧ g0 ≤ N ∧ (g1 ≤ if ndim > 1 then N else 1) ∧ (g2 ≤ if ndim > 2 then N else 1) ∧
        Root o I tol hi lo p ⟨point N g0, point N g1, point N g2⟩ xi) ∧
      (r.2 = true → ∃ (g0 g1 g2 N : ℕ), N = max ((factor * modes).toNat - 1) 1 ∧ g0 ≤ N ∧ (g1 ≤ if ndim > 1 then N else 1) ∧ (g2 ≤ if ndim > 2 then N else 1) ∧
        Root o I tol hi lo p ⟨point N g0, point N g1, point N g2⟩ r.1) ∧
      (∀ (N : ℕ) (xi : V3 V), N = max ((factor * modes).toNat - 1) 1 → Root o I tol hi lo p ⟨point N 0, point N 0, point N 0⟩ xi → r = (xi, true)) := by
  unfold hostInverse
  dsimp only
  obtain ⟨s, e, hs, ha⟩ := search_eq h o ⟨tol, 51, hi, lo⟩ p (startGrid ndim (factor * modes).toNat (point (max ((factor * modes).toNat - 1) 1))) ⟨xi0, r0, false, mem⟩ hm (by simp)
  rw [e]
  have ha' : (if s.found = true then some s.xi else none) =
      acceptFinal o I ⟨tol, 51, hi, lo⟩ (startGrid ndim (factor * modes).toNat (point (max ((factor * modes).toNat - 1) 1))) p := by simpa using ha
  have hfound : (o.le s.residual tol && s.found) = s.found := by
    by_cases hf : s.found = true
    · rw [hf, (hs hf).2]; rfl
    · rw [Bool.not_eq_true] at hf; rw [hf, Bool.and_false]
  refine ⟨_, rfl, ?_, ?_, ?_⟩
  · dsimp only
    rw [hfound]
    constructor
    · intro hf
      rw [if_pos hf] at ha'
      obtain ⟨start, hg, hst⟩ := Verif.Props.C36.accepted_final_sound _ _ _ _ _ _ ha'.symm
      obtain ⟨g0, g1, g2, h0, h1, h2, rfl⟩ := (mem_grid _ _ _ _).1 hg
      exact ⟨g0, g1, g2, _, s.xi, rfl, h0, h1, h2, (root_iff o I tol hi lo p _ _).2 hst⟩
    · rintro ⟨g0, g1, g2, N, xi, rfl, h0, h1, h2, hroot⟩
      by_contra hf
      rw [if_neg hf] at ha'
      have := (Verif.Props.C36.rejected_final _ _ _ _ _).1 ha'.symm _ ((mem_grid _ _ _ _).2 ⟨g0, g1, g2, h0, h1, h2, rfl⟩)
      rw [(root_iff o I tol hi lo p _ _).1 hroot] at this
      exact absurd this (by simp)
  · dsimp only
    rw [hfound]
    intro hf
    rw [if_pos hf] at ha'
    obtain ⟨start, hg, hst⟩ := Verif.Props.C36.accepted_final_sound _ _ _ _ _ _ ha'.symm
    obtain ⟨g0, g1, g2, h0, h1, h2, rfl⟩ := (mem_grid _ _ _ _).1 hg
    exact ⟨g0, g1, g2, _, rfl, h0, h1, h2, (root_iff o I tol hi lo p _ _).2 hst⟩
  · rintro N xi rfl hroot
    obtain ⟨rest, hrest⟩ := grid_head ndim (factor * modes).toNat (point (max ((factor * modes).toNat - 1) 1))
    rw [hrest] at ha'
    unfold acceptFinal at ha'
    rw [List.findSome?_cons, (root_iff o I tol hi lo p _ _).1 hroot] at ha'
    by_cases hf : s.found = true
    · rw [if_pos hf] at ha'
      dsimp only at ha'
      rw [Option.some.injEq] at ha'
      dsimp only
      rw [ha', hfound, hf]
    · rw [if_neg hf] at ha'
      simp at ha'

theorem ofImpl_refines (I : Impl V) : Refines (ofImpl I) I (fun _ => True) (fun _ _ => True) where
  initial _ := rfl
  toCollapsed _ := rfl
  fromCollapsed _ := rfl
  residual _ _ _ _ := ⟨(), rfl, trivial, trivial⟩
  step _ _ _ _ _ _ := rfl

end general

section curved
variable {K : Type*} [Field K] [LinearOrder K]

/-- **C82, curved elements.** The reference position for which `x_inverse` returns true is finite, its image has a relative distance of at most the tolerance to the point, and it has collapsed
coordinates in `[-1 - contained_tol, 1 + contained_tol]`; the local memory is never accessed outside of its `n0 + n1 + n2` values. -/
theorem host_inverse_curved (code : Shape3 → ℤ) (tol : K) (g : Geom3 K) (n : Fin 3 → ℕ) (z w : Fin 3 → List K) (h : GeomOk g n z w) (d : Dev K) (size : ℕ)
    (hd : writeData g = some (d, size)) (X : Fin 3 → K → K → K → K) (hX : ∀ i : Fin 3, Interpolates n z (g.phys i) (X i)) (p : V3 K) (factor modes : ℤ)
    (newtonTol ctol : K) (hct : -1 - ctol ≤ 1 + ctol) (xi0 : V3 (Dbl K)) (r0 : Dbl K) (mem : Arr K) (hm : size ≤ mem.size) :
    ∃ r : V3 (Dbl K) × Bool, hostInverse (dblOps K) (generic3D code tol d) 3 factor modes (fun N g => some (-1 + (g : K) * (2 / (N : K)))) (some newtonTol) (some (1 + ctol)) (some (-1 - ctol))
        (finite p) ⟨xi0, r0, false, mem⟩ = some r ∧
      (r.2 = true → ∃ x f : V3 K, r.1 = finite x ∧
        (∀ i, comp f i = (fun e : K × K × K => X i e.1 e.2.1 e.2.2) (dispatchTo3 code tol g.shape x.x x.y x.z) - comp p i) ∧
        relativeError3d g.scaling f.x f.y f.z ≤ newtonTol ∧
        ∃ e0 e1 e2 : K, (-1 - ctol ≤ e0 ∧ e0 ≤ 1 + ctol) ∧ (-1 - ctol ≤ e1 ∧ e1 ≤ 1 + ctol) ∧ (-1 - ctol ≤ e2 ∧ e2 ≤ 1 + ctol) ∧
          dispatchFrom3 code g.shape e0 e1 e2 = (x.x, x.y, x.z)) := by
  obtain ⟨hdev, rfl⟩ := Verif.Props.C81.dev_ok g n z w h d size hd
  have hJ : ∀ i j : Fin 3, ∃ F, Interpolates n z (g.deriv i j) F := by
    intro i j
    obtain ⟨c, hc⟩ := interpolant3 (n 0) (n 1) (n 2) (z 0) (z 1) (z 2) (h.rule 0).distinct (h.rule 1).distinct (h.rule 2).distinct
      (fun i2 i1 i0 => (g.deriv i j).getD (i2 * (n 0 * n 1) + i1 * n 0 + i0) 0)
    refine ⟨poly3 (n 0) (n 1) (n 2) c, ⟨h.deriv i j, fun i2 hi2 i1 hi1 i0 hi0 => ?_⟩, c, rfl⟩
    rw [hc i2 hi2 i1 hi1 i0 hi0]
    exact (getElem?_getD_of_lt _ _ (by rw [h.deriv]; exact idx3_lt hi0 hi1 hi2)).symm
  choose J hJ using hJ
  have R := generic_refines code tol g n z w h d hdev ⟨X, J⟩ hX hJ
  obtain ⟨r, e, _, hr, _⟩ := host_inverse (dblOps K) _ _ _ _ R 3 factor modes (fun N g => some (-1 + (g : K) * (2 / (N : K)))) (some newtonTol) (some (1 + ctol)) (some (-1 - ctol))
    (finite p) xi0 r0 mem hm
  refine ⟨r, e, fun ht => ?_⟩
  obtain ⟨_, _, _, _, _, _, _, _, y, _, hxi, h3⟩ := hr ht
  generalize r.1 = xi at hxi h3 ⊢
  cases hx : fin3 xi with
  | none =>
    simp only [pureImpl, hx] at h3
    simp [relativeErrorD, fin3, dblOps] at h3
  | some x =>
    refine ⟨x, ⟨atEta (X 0) (collapsed code tol g.shape x) - p.x, atEta (X 1) (collapsed code tol g.shape x) - p.y,
      atEta (X 2) (collapsed code tol g.shape x) - p.z⟩, fin3_some hx, ?_, ?_, ?_⟩
    · intro i; fin_cases i <;> rfl
    · simp only [pureImpl, hx] at h3
      simpa [relativeErrorD, subD, finite, fin3, dblOps] using h3
    · have hx' := fin3_some hx
      rw [hx'] at hxi
      clear h3
      generalize (pureImpl code tol g.shape g.scaling ⟨X, J⟩).toCollapsed y = eta at hxi
      obtain ⟨a, b, c⟩ := eta
      cases a <;> cases b <;> cases c <;> simp [pureImpl, lift3, fin3, dblOps] at hxi
      rename_i a b c
      have hcl : ∀ v : K, -1 - ctol ≤ max (min v (1 + ctol)) (-1 - ctol) ∧ max (min v (1 + ctol)) (-1 - ctol) ≤ 1 + ctol := fun v =>
        ⟨le_max_right _ _, max_le (min_le_right _ _) hct⟩
      exact ⟨_, _, _, hcl a, hcl b, hcl c, Prod.ext hxi.1.symm (Prod.ext hxi.2.1.symm hxi.2.2.symm)⟩

/-- **C82, the map of a curved element.** `XMapNewton::x` returns `X(ξ)`, for polynomial elements the value of the polynomials, whatever the local memory contains. -/
theorem x_curved [IsStrictOrderedRing K] (code : Shape3 → ℤ) (hcode : Function.Injective code) (tol : K) (ht : 0 < tol) (s : Shape3) (g : Geom3 K)
    (hs : g.shape = code s) (n : Fin 3 → ℕ) (z w : Fin 3 → List K) (h : GeomOk g n z w) (q : Fin 3 → MvPolynomial (Fin 3) K) (hq : PolynomialElement s g n z q) (d : Dev K) (size : ℕ)
    (hd : writeData g = some (d, size)) (xi : V3 K) (hr : Verif.Props.C07.Regular3 tol s xi.x xi.y xi.z) (mem : Arr K) (hm : size ≤ mem.size) :
    ∃ mem', xMapM (generic3D code tol d) (some 0) (finite xi) mem =
      some (finite ⟨eval (comp xi) (q 0), eval (comp xi) (q 1), eval (comp xi) (q 2)⟩, mem') := by
  obtain ⟨mem', f, e, hf, _⟩ := Verif.Props.C81.newton_on_polynomial_element code hcode tol ht s g hs n z w h q hq d size hd xi ⟨0, 0, 0⟩ hr mem hm
  refine ⟨mem', ?_⟩
  unfold xMapM
  rw [show (generic3D code tol d).residual (finite xi) ⟨some 0, some 0, some 0⟩ mem = residualM code tol d (finite xi) (finite ⟨0, 0, 0⟩) mem from rfl, e, Option.map_some]
  have h0 := hf 0
  have h1 := hf 1
  have h2 := hf 2
  obtain ⟨a, b, c⟩ := f
  simp [comp] at h0 h1 h2
  subst h0 h1 h2
  simp [comp]

end curved

section linear

variable {K : Type*} [Field K] [LinearOrder K] [IsStrictOrderedRing K]
open Verif.Model.LinearElements Verif.Model.NewtonElements Verif.Spec.LinearElements Verif.Props.C38 Verif.Props.C39

/-- **C82, the map of a straight-sided element.** `XMapNewton::x` is the interpolation of the vertices. -/
theorem x_linear (tol : K) {s : Shape} (c : ℕ → V3 K) (hs : s = .hex ∨ s = .prism ∨ s = .tet) (sc : V3 K) (js : K) (xi : V3 K) :
    xMapM (ofImpl (impl tol s c sc js)) 0 xi () = some (X s c xi, ()) := by
  have e := Verif.Props.C38.newton_f_exact s c xi ⟨0, 0, 0⟩ (by rcases hs with rfl | rfl | rfl <;> simp)
  have e2 : newtonF s c xi ⟨0, 0, 0⟩ = X s c xi := by
    rw [e]
    rcases hs with rfl | rfl | rfl <;> simp
  rcases hs with rfl | rfl | rfl <;> exact congrArg (fun v => some (v, ())) e2

/-- **C82, the inverse on affine elements.** For every hexahedron, prism or tetrahedron that is an affine image of the reference element, every point of it (away from the collapsed edge), all
tolerances and all grid sizes: `x_inverse` of `x(w)` returns true with a reference position whose residual is within the tolerance; if the first vertex is not already within the tolerance it
returns `w`. -/
theorem inverse_of_x_affine (tol : K) (htol : 0 < tol) {s : Shape} {A : Matrix (Fin 3) (Fin 3) K} {b : Fin 3 → K} {c : ℕ → V3 K}
    (h : AffineImage s A b c) (hs : s = .hex ∨ s = .prism ∨ s = .tet) (hdet : A.det ≠ 0) (sc : V3 K) (js : K) (factor modes : ℤ) (newtonTol ctol : K) (ht : 0 ≤ newtonTol)
    (hct : 0 ≤ ctol) (htol1 : tol ≤ 1) (w : V3 K) (hw : InRef3 0 (shape3 s) w.x w.y w.z) (hreg : Verif.Props.C07.Regular3 tol (shape3 s) w.x w.y w.z) (xi0 : V3 K) (r0 : K) :
    ∃ xi : V3 K, hostInverse (exactOps K) (ofImpl (impl tol s c sc js)) 3 factor modes (fun N g => -1 + (g : K) * (2 / (N : K))) newtonTol (1 + ctol) (-1 - ctol) (X s c w)
        ⟨xi0, r0, false, ()⟩ = some (xi, true) ∧
      ((impl tol s c sc js).residual xi (X s c w)).1 ≤ newtonTol ∧
      (newtonTol < ((impl tol s c sc js).residual ⟨-1, -1, -1⟩ (X s c w)).1 → xi = w) := by
  have hstart : (⟨-1 + ((0 : ℕ) : K) * (2 / ((max ((factor * modes).toNat - 1) 1 : ℕ) : K)), -1 + ((0 : ℕ) : K) * (2 / ((max ((factor * modes).toNat - 1) 1 : ℕ) : K)),
      -1 + ((0 : ℕ) : K) * (2 / ((max ((factor * modes).toNat - 1) 1 : ℕ) : K))⟩ : V3 K) = ⟨-1, -1, -1⟩ := by simp
  have hinit : ∀ p, (impl tol s c sc js).initial p = ⟨0, 0, 0⟩ := by intro p; rcases hs with rfl | rfl | rfl <;> rfl
  obtain ⟨xi, hroot, hxi⟩ : ∃ xi, Root (exactOps K) (impl tol s c sc js) newtonTol (1 + ctol) (-1 - ctol) (X s c w) ⟨-1, -1, -1⟩ xi ∧
      (newtonTol < ((impl tol s c sc js).residual ⟨-1, -1, -1⟩ (X s c w)).1 → xi = w) := by
    by_cases hc : newtonTol < ((impl tol s c sc js).residual ⟨-1, -1, -1⟩ (X s c w)).1
    · refine ⟨w, (root_iff _ _ _ _ _ _ _ _).2 ?_, fun _ => rfl⟩
      exact affine_point_accepted tol htol h hs hdet sc js ⟨newtonTol, 51, 1 + ctol, -1 - ctol⟩ (by simpa using hct) (by simpa using hct) ht (by norm_num)
        (some ⟨-1, -1, -1⟩) w hw hreg hc
    · refine ⟨⟨-1, -1, -1⟩, (root_iff _ _ _ _ _ _ _ _).2 ?_, fun h => absurd h hc⟩
      have hi := inverse_of_one_step (impl tol s c sc js) (X s c w) 51 (by norm_num) newtonTol ht (some ⟨-1, -1, -1⟩) w
        (next_exact tol h hs hdet sc js _ w) (residual_zero tol c hs sc js w)
      rw [Option.getD_some, if_neg hc] at hi
      have htwo : tol ≤ |(2 : K)| := by rw [abs_of_pos (by norm_num : (0 : K) < 2)]; linarith
      refine accept_of_inverse _ ⟨newtonTol, 51, 1 + ctol, -1 - ctol⟩ (by simpa using hct) (by simpa using hct) _ _ _ hi ?_ ?_ (not_lt.1 hc)
      · have hv : InRef3 (0 : K) (shape3 s) (-1) (-1) (-1) := by
          rcases hs with rfl | rfl | rfl <;> simp only [shape3, InRef3] <;> norm_num [InUnit]
        have := Verif.Props.C08.element_has_unit_collapsed_3d tol htol (shape3 s) (-1) (-1) (-1) hv
        rcases hs with rfl | rfl | rfl <;> exact this
      · have hv : Verif.Props.C07.Regular3 tol (shape3 s) (-1) (-1) (-1) := by
          rcases hs with rfl | rfl | rfl
          · trivial
          · show tol ≤ |1 - (-1 : K)|
            norm_num; linarith
          · show tol ≤ |1 - (-1 : K)| ∧ tol ≤ |(-1 : K) + -1|
            norm_num; linarith
        have := Verif.Props.C07.local_collapsed_local_3d tol htol (shape3 s) (-1) (-1) (-1) hv
        rcases hs with rfl | rfl | rfl
        · rfl
        · exact congrArg ofTriple this
        · exact congrArg ofTriple this
  obtain ⟨r, e, _, _, hfirst⟩ := host_inverse (exactOps K) _ _ _ _ (ofImpl_refines (impl tol s c sc js)) 3 factor modes (fun N g => -1 + (g : K) * (2 / (N : K))) newtonTol (1 + ctol)
    (-1 - ctol) (X s c w) xi0 r0 () trivial
  have hr := hfirst _ xi rfl (by rw [hstart]; exact hroot)
  refine ⟨xi, by rw [e, hr], ?_, hxi⟩
  obtain ⟨_, _, _, h3⟩ := hroot
  simpa [exactOps] using h3

theorem inverse_at_start (I : Impl K) (p start : V3 K) (n : ℤ) (t : K) (hr : (I.residual start p).1 ≤ t) : xInverse (exactOps K) I p n t (some start) = (start, true) := by
  unfold xInverse
  dsimp only
  rw [Option.getD_some]
  have : ∀ k f, iterate (exactOps K) I p t k ⟨start, (I.residual start p).1, f, false⟩ = ⟨start, (I.residual start p).1, f, false⟩ := by
    intro k f
    cases k with
    | zero => rfl
    | succ k => rw [iterate, if_neg (by simp [exactOps, hr])]
  rw [this]
  simp [exactOps, hr]

/-- **C82, the inverse on affine pyramids**, for points that are not the apex. -/
theorem inverse_of_x_affine_pyr (tol : K) (htol : 0 < tol) {A : Matrix (Fin 3) (Fin 3) K} {b : Fin 3 → K} {c : ℕ → V3 K}
    (h : AffineImage .pyr A b c) (hdet : A.det ≠ 0) (sc : V3 K) (factor modes : ℤ) (newtonTol ctol : K) (ht : 0 ≤ newtonTol)
    (hct : 0 ≤ ctol) (htol1 : tol ≤ 1) (w : V3 K) (hw : InRef3 0 .pyr w.x w.y w.z) (hreg : tol ≤ |1 - w.z|) (hv : pyrVt tol c (X .pyr c w) = false) (xi0 : V3 K) (r0 : K) :
    ∃ xi : V3 K, hostInverse (exactOps K) (ofImpl (pyrImpl tol c sc)) 3 factor modes (fun N g => -1 + (g : K) * (2 / (N : K))) newtonTol (1 + ctol) (-1 - ctol) (X .pyr c w)
        ⟨xi0, r0, false, ()⟩ = some (xi, true) ∧
      ((pyrImpl tol c sc).residual xi (X .pyr c w)).1 ≤ newtonTol ∧
      (newtonTol < ((pyrImpl tol c sc).residual ⟨-1, -1, -1⟩ (X .pyr c w)).1 → xi = w) := by
  have hstart : (⟨-1 + ((0 : ℕ) : K) * (2 / ((max ((factor * modes).toNat - 1) 1 : ℕ) : K)), -1 + ((0 : ℕ) : K) * (2 / ((max ((factor * modes).toNat - 1) 1 : ℕ) : K)),
      -1 + ((0 : ℕ) : K) * (2 / ((max ((factor * modes).toNat - 1) 1 : ℕ) : K))⟩ : V3 K) = ⟨-1, -1, -1⟩ := by simp
  obtain ⟨xi, hroot, hxi⟩ : ∃ xi, Root (exactOps K) (pyrImpl tol c sc) newtonTol (1 + ctol) (-1 - ctol) (X .pyr c w) ⟨-1, -1, -1⟩ xi ∧
      (newtonTol < ((pyrImpl tol c sc).residual ⟨-1, -1, -1⟩ (X .pyr c w)).1 → xi = w) := by
    by_cases hc : newtonTol < ((pyrImpl tol c sc).residual ⟨-1, -1, -1⟩ (X .pyr c w)).1
    · refine ⟨w, (root_iff _ _ _ _ _ _ _ _).2 ?_, fun _ => rfl⟩
      exact affine_point_accepted_pyr tol htol h hdet sc ⟨newtonTol, 51, 1 + ctol, -1 - ctol⟩ (by simpa using hct) (by simpa using hct) ht (by norm_num)
        (some ⟨-1, -1, -1⟩) w hw hreg hv (by show (-1 : K) ≠ 1; norm_num) hc
    · refine ⟨⟨-1, -1, -1⟩, (root_iff _ _ _ _ _ _ _ _).2 ?_, fun h => absurd h hc⟩
      have hi := inverse_at_start (pyrImpl tol c sc) (X .pyr c w) ⟨-1, -1, -1⟩ 51 newtonTol (not_lt.1 hc)
      refine accept_of_inverse _ ⟨newtonTol, 51, 1 + ctol, -1 - ctol⟩ (by simpa using hct) (by simpa using hct) _ _ _ hi ?_ ?_ (not_lt.1 hc)
      · have hu : InRef3 (0 : K) .pyr (-1) (-1) (-1) := by simp only [InRef3]; norm_num [InUnit]
        exact Verif.Props.C08.element_has_unit_collapsed_3d tol htol .pyr (-1) (-1) (-1) hu
      · have hu : Verif.Props.C07.Regular3 tol .pyr (-1) (-1) (-1) := by
          show tol ≤ |1 - (-1 : K)|
          norm_num; linarith
        exact congrArg ofTriple (Verif.Props.C07.local_collapsed_local_3d tol htol .pyr (-1) (-1) (-1) hu)
  obtain ⟨r, e, _, _, hfirst⟩ := host_inverse (exactOps K) _ _ _ _ (ofImpl_refines (pyrImpl tol c sc)) 3 factor modes (fun N g => -1 + (g : K) * (2 / (N : K))) newtonTol (1 + ctol)
    (-1 - ctol) (X .pyr c w) xi0 r0 () trivial
  have hr := hfirst _ xi rfl (by rw [hstart]; exact hroot)
  refine ⟨xi, by rw [e, hr], ?_, hxi⟩
  obtain ⟨_, _, _, h3⟩ := hroot
  simpa [exactOps] using h3

/-- The tetrahedron of C39: the hypotheses hold. -/
example : ∃ xi : V3 ℚ, hostInverse (exactOps ℚ) (ofImpl (impl (1 / 10 ^ 12) .tet exTet ⟨1, 1, 1⟩ 1)) 3 1 4 (fun N g => -1 + (g : ℚ) * (2 / (N : ℚ))) (1 / 10 ^ 10) (1 + 1 / 10 ^ 10)
    (-1 - 1 / 10 ^ 10) (X .tet exTet ⟨-1 / 2, -1 / 2, -1 / 2⟩) ⟨⟨0, 0, 0⟩, 10, false, ()⟩ = some (xi, true) ∧ xi = ⟨-1 / 2, -1 / 2, -1 / 2⟩ := by
  obtain ⟨A, b, hA, hdet⟩ := tet_affine exTet
  obtain ⟨xi, e, _, hxi⟩ := inverse_of_x_affine (1 / 10 ^ 12) (by norm_num) hA (Or.inr (Or.inr rfl)) (by rw [hdet]; norm_num [exTet]) ⟨1, 1, 1⟩ 1 1 4 (1 / 10 ^ 10) (1 / 10 ^ 10)
    (by norm_num) (by norm_num) (by norm_num) ⟨-1 / 2, -1 / 2, -1 / 2⟩ (by simp only [shape3, InRef3]; norm_num [InUnit]) (by
      show (1 / 10 ^ 12 : ℚ) ≤ |1 - (-1 / 2)| ∧ (1 / 10 ^ 12 : ℚ) ≤ |(-1 / 2 : ℚ) + -1 / 2|
      norm_num) ⟨0, 0, 0⟩ 10
  exact ⟨xi, e, hxi (by decide +kernel)⟩

end linear

end Verif.Props.C82
