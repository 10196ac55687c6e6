import Verif.Model.DeviceMapper
import Verif.Spec.Mapping
import Verif.Props.C55_MapChain

/-!
C84. Every particle in the mesh is found: the mappers, their lookups and the order of the calls together.
-/

namespace Verif.Props.C84
open Verif.Model Verif.Model.CartesianMesh Verif.Model.CoarseLookup Verif.Model.MapChain Verif.Model.DeviceMapper Verif.Spec Verif.Spec.Mapping Verif.Props.C06 Verif.Props.C34
  Verif.Props.C35 Verif.Props.C55

variable {K : Type*} [Field K] [LinearOrder K] [IsStrictOrderedRing K] [FloorRing K]

/-! ### One mapper -/

/-- Geometries that a mapper can be given: distinct ids, ranks, finite boxes; in each dimension one has a positive width. -/
structure Admissible (ndim : ℕ) (big : K) (geoms : List (Geom K)) : Prop where
  ids : (geoms.map Geom.gid).Nodup
  ranks : ∀ g ∈ geoms, 0 ≤ g.rank
  finite : ∀ g ∈ geoms, ∀ i < 6, -big ≤ g.box i ∧ g.box i ≤ big
  ordered : ∀ g ∈ geoms, ∀ d < ndim, g.box d ≤ g.box (d + 3)
  extended : ∀ d < ndim, ∃ g ∈ geoms, g.box d < g.box (d + 3)

/-- The position is less than 2^31 cells of the lookup away from its origin. -/
def InRange (m : Mapper K) (p : ℕ → K) : Prop :=
  ∀ d < m.lookup.mesh.ndim, |p d - m.lookup.mesh.origin d| < 2147483648 * m.lookup.mesh.cellWidths d

/-- The position is in the box; on an upper bound of the box only if no geometry of the mapper has points above it. -/
def InBox (ndim : ℕ) (geoms : List (Geom K)) (box p : ℕ → K) : Prop :=
  ∀ d < ndim, box d < box (d + 3) ∧ box d ≤ p d ∧ p d ≤ box (d + 3) ∧ (p d = box (d + 3) → ∀ g ∈ geoms, g.box (d + 3) ≤ p d)

/-- The assignments of a test. -/
def assignments (geoms : List (Geom K)) (test : (ℕ → K) → ℕ → Option (List K)) (p : ℕ → K) : Set (Assignment K) :=
  {a | ∃ (k : ℕ) (h : k < geoms.length), a.cell = (geoms[k]).gid ∧ a.rank = (geoms[k]).rank ∧ test p k = some a.ref}

omit [IsStrictOrderedRing K] in
theorem kernel_mapped (m : Mapper K) (test : (ℕ → K) → ℕ → Option (List K)) (q : Particle K) (h : 0 ≤ q.rank) : m.stage test q = some q := by
  unfold Mapper.stage kernel
  rw [if_neg (not_lt.2 h)]

theorem fits_of_inRange {ndim : ℕ} {origin extents : ℕ → K} {counts : ℕ → ℤ} {m : Mesh K} (hm : mk? ndim origin extents counts = some m) (p : ℕ → K)
    (h : ∀ d < m.ndim, |p d - m.origin d| < 2147483648 * m.cellWidths d) : ∀ d < ndim, Fits m d (p d) := by
  intro d hd
  obtain ⟨hpos, e1, e2, e3, e4, e5, e6⟩ := mk?_pos hm
  obtain ⟨he, hc⟩ := hpos d hd
  have hcK : (0 : K) < (counts d : K) := by exact_mod_cast hc
  have h' := h d (by omega)
  rw [e2, e5] at h'
  have hw : 0 < extents d / (counts d : K) := div_pos he hcK
  unfold Fits
  rw [e6, e2]
  dsimp only
  obtain ⟨x, hx⟩ : ∃ x, 1 / (extents d / (counts d : K)) * (p d - origin d) = x := ⟨_, rfl⟩
  rw [hx]
  have hx' : x = (p d - origin d) / (extents d / (counts d : K)) := by rw [← hx]; field_simp
  have habs : |x| < 2147483648 := by
    rw [hx', abs_div, abs_of_pos hw, div_lt_iff₀ hw]
    exact h'
  rw [abs_lt] at habs
  unfold truncZ
  split_ifs with h0
  · have f0 : 0 ≤ ⌊x⌋ := Int.floor_nonneg.2 h0
    have f1 : ⌊x⌋ < 2147483648 := Int.floor_lt.2 (by exact_mod_cast habs.2)
    omega
  · have f0 : ⌈x⌉ ≤ 0 := Int.ceil_le.2 (by push_cast; linarith)
    have f1 : -2147483648 < ⌈x⌉ := Int.lt_ceil.2 (by push_cast; linarith)
    omega

/-- **C84, one mapper.** For all geometries the constructor succeeds. For every test and every unmapped particle in range the kernel ends without an invalid access; the particle is left as it was
or gets the id, the rank and the reference position of a geometry whose test accepts it; if it is in the box of a geometry whose test accepts it then it is assigned. -/
theorem mapper_correct (ndim : ℕ) (hn : 0 < ndim) (h3 : ndim ≤ 3) (big : K) (hbig : 0 < big) (scaling : K → ℤ) (hsc : ∀ f, 1 < f → 0 < scaling f ∧ f ≤ (scaling f : K) ^ ndim)
    (geoms : List (Geom K)) (hg : Admissible ndim big geoms) :
    ∃ m, mkMapper ndim big scaling geoms = some m ∧ (m.cellIds = geoms.map fun g => some g.gid) ∧ (m.ranks = geoms.map fun g => some g.rank) ∧ ∀ (test : (ℕ → K) → ℕ → Option (List K)) (q : Particle K), q.rank < 0 → InRange m q.pos →
      ∃ q', m.stage test q = some q' ∧ KeptOrAssigned (assignments geoms test) q q' ∧
        ((∃ (k : ℕ) (h : k < geoms.length), InBox ndim geoms (geoms[k]).box q.pos ∧ (test q.pos k).isSome) → 0 ≤ q'.rank) := by
  set G := geoms.map fun g => (g.gid, g.box) with hG
  have hlen : G.length = geoms.length := by rw [hG, List.length_map]
  have hfin : ∀ g ∈ G, ∀ i < 6, -big ≤ g.2 i ∧ g.2 i ≤ big := by
    intro g hg'
    obtain ⟨g0, h0, rfl⟩ := List.mem_map.1 hg'
    exact hg.finite g0 h0
  have hwf : ∀ g ∈ G, BoundingBox.WellFormed ndim g.2 fun d => g.2 (d + 3) := by
    intro g hg' d hd
    obtain ⟨g0, h0, rfl⟩ := List.mem_map.1 hg'
    exact hg.ordered g0 h0 d hd
  have hpos : ∀ d < ndim, ∃ g ∈ G, g.2 d < g.2 (d + 3) := by
    intro d hd
    obtain ⟨g0, h0, h⟩ := hg.extended d hd
    exact ⟨_, List.mem_map_of_mem h0, h⟩
  have hids : (G.map Prod.fst).Nodup := by
    rw [hG, List.map_map]
    exact hg.ids
  obtain ⟨L, counts, hb, _, hm, _, _⟩ := build_spec ndim hn h3 big hbig scaling hsc G hfin hwf hpos
  obtain ⟨L', hb', hnd, hcov, hlists, hlook⟩ := lookup_exact ndim hn h3 big hbig scaling hsc G hfin hwf hpos
  rw [hb] at hb'
  cases hb'
  obtain ⟨hps, e1, e2, e3, e4, e5, e6⟩ := mk?_pos hm
  have hl := hlook hids
  have harr := mapperArrays_exact L (geoms.map fun g => (g.gid, g.rank)) (by
    intro i hi
    rw [List.length_map] at hi
    have := hl i (by omega)
    simp only [hG, List.getElem_map] at this ⊢
    exact this)
  refine ⟨⟨L, (geoms.map fun g => (g.gid, g.rank)).map fun g => some g.1, (geoms.map fun g => (g.gid, g.rank)).map fun g => some g.2⟩, ?_, ?_, ?_, ?_⟩
  · unfold mkMapper
    rw [hb, Option.bind_some, harr]
    rfl
  · exact List.map_map
  · exact List.map_map
  intro test q hq hr
  have hfits := fits_of_inRange hm q.pos hr
  obtain ⟨c, hc, hc0, hc1, hct⟩ := device_index_partial hm hn h3 q.pos hfits
  obtain ⟨t, ht, htc⟩ := (linear_index_bijective ndim hn counts fun d hd => (hps d hd).2).2.2 c hc0 hc1
  have htM : InMesh L.mesh t := by
    intro d hd
    rw [e4]
    rw [e1] at hd
    exact ht d hd
  obtain ⟨cands, hL, _, hmem, _⟩ := hlists t htM
  rw [e4, htc] at hL
  have hin : ∀ k ∈ cands, k < geoms.length := by
    intro k hk
    obtain ⟨h, _⟩ := (hmem k).1 hk
    omega
  have hstage := kernel_first_accepting L ((geoms.map fun g => (g.gid, g.rank)).map fun g => some g.1) ((geoms.map fun g => (g.gid, g.rank)).map fun g => some g.2) test q hq c hc hc0
    (by rw [e1, e4]; exact hc1) cands hL (fun k => (geoms[k]?.map Geom.gid).getD 0) (fun k => (geoms[k]?.map Geom.rank).getD 0) (by
      intro k hk
      have := hin k hk
      simp [this])
  refine ⟨_, hstage, ?_, ?_⟩
  · cases hf : cands.findSome? fun k => (test q.pos k).map fun r => (k, r) with
    | none => exact Or.inl rfl
    | some kr =>
      obtain ⟨k, hk, hkr⟩ := List.exists_of_findSome?_eq_some hf
      rw [Option.map_eq_some_iff] at hkr
      obtain ⟨r, hr', rfl⟩ := hkr
      have hkl := hin k hk
      refine Or.inr ⟨hq, ⟨(geoms[k]).rank, (geoms[k]).gid, r⟩, ⟨k, hkl, rfl, rfl, hr'⟩, hg.ranks _ (List.getElem_mem hkl), ?_⟩
      simp [hkl]
  · rintro ⟨k, hk, hbox, hacc⟩
    have hkG : k < G.length := by omega
    have hGk : (G[k]).2 = (geoms[k]).box := by simp only [hG, List.getElem_map]
    obtain ⟨t', cands', htM', hcell, hL', hlisted⟩ := candidate_listed_partial ndim hn h3 big hbig scaling hsc G hfin hwf hpos L hb k hkG q.pos
      (fun d hd => by rw [hGk]; exact (hbox d hd).1) (fun d hd => by rw [hGk]; exact ⟨(hbox d hd).2.1, (hbox d hd).2.2.1⟩)
    have hkc' : k ∈ cands' := by
      refine hlisted fun d hd => ?_
      rintro ⟨h1, h2⟩
      rw [hGk] at h1
      have htop := (hbox d hd).2.2.2 h1
      obtain ⟨g0, hg0, h0⟩ := hpos d hd
      have hle : hullOf big G (d + 3) ≤ q.pos d := by
        have hne : G.map Prod.snd ≠ [] := by
          simp only [ne_eq, List.map_eq_nil_iff]
          exact List.ne_nil_of_mem hg0
        obtain ⟨_, _, _, b, hbm, h⟩ := C02.hull_is_smallest big ndim (G.map Prod.snd) hne (by
          intro b hb
          obtain ⟨g, hg, rfl⟩ := List.mem_map.1 hb
          exact hfin g hg) d (by omega)
        rw [hull_eq ndim, h]
        obtain ⟨g, hg', rfl⟩ := List.mem_map.1 hbm
        obtain ⟨g1, hg1, rfl⟩ := List.mem_map.1 hg'
        exact htop g1 hg1
      have hM := htM' d (by omega)
      rw [e4] at hM
      have hw : (0 : K) < L.mesh.cellWidths d := by
        rw [e5]
        exact div_pos (hps d hd).1 (by exact_mod_cast (hps d hd).2)
      have h4 : gridBox L.mesh t' d + L.mesh.cellWidths d ≤ hullOf big G (d + 3) := by
        have hc1 : ((t' d : K) + 1) * L.mesh.cellWidths d ≤ (counts d : K) * L.mesh.cellWidths d := by
          refine mul_le_mul_of_nonneg_right ?_ hw.le
          exact_mod_cast hM.2
        have hcw : (counts d : K) * L.mesh.cellWidths d = hullOf big G (d + 3) - hullOf big G d := by
          rw [e5]
          have : (counts d : K) ≠ 0 := by exact_mod_cast (hps d hd).2.ne'
          field_simp
        simp only [gridBox]
        rw [if_pos (by omega), e2]
        linarith
      linarith
    have hcc : cands = cands' := by
      have h5 := hct t' hcell
      rw [e4] at hL'
      rw [← h5] at hL'
      have hlen' : cands.length = cands'.length := by
        have := hL.1.symm.trans hL'.1
        simpa using this
      refine List.ext_getElem hlen' fun i h1 h2 => ?_
      have := (hL.2 i h1).symm.trans (hL'.2 i h2)
      simpa using this
    rw [← hcc] at hkc'
    cases hf : cands.findSome? fun k => (test q.pos k).map fun r => (k, r) with
    | none =>
      rw [List.findSome?_eq_none_iff] at hf
      have := hf k hkc'
      rw [Option.map_eq_none_iff] at this
      rw [this] at hacc
      simp at hacc
    | some kr =>
      obtain ⟨k', hk', hkr⟩ := List.exists_of_findSome?_eq_some hf
      rw [Option.map_eq_some_iff] at hkr
      obtain ⟨r, hr', rfl⟩ := hkr
      have hkl := hin k' hk'
      simp [hkl]
      exact hg.ranks _ (List.getElem_mem hkl)

/-- Positions between the bounds of the geometries are in range of the lookup when its numbers of cells fit in an `int`. -/
theorem inRange_of_bounds (ndim : ℕ) (hn : 0 < ndim) (h3 : ndim ≤ 3) (big : K) (hbig : 0 < big) (scaling : K → ℤ) (hsc : ∀ f, 1 < f → 0 < scaling f ∧ f ≤ (scaling f : K) ^ ndim)
    (geoms : List (Geom K)) (hg : Admissible ndim big geoms) (m : Mapper K) (hm : mkMapper ndim big scaling geoms = some m) (hfit : ∀ d < ndim, m.lookup.mesh.cellCounts d < 2147483648)
    (p : ℕ → K) (hp : ∀ d < ndim, (∃ g ∈ geoms, g.box d ≤ p d) ∧ ∃ g ∈ geoms, p d ≤ g.box (d + 3)) : InRange m p := by
  set G := geoms.map fun g => (g.gid, g.box) with hG
  have hfin : ∀ g ∈ G, ∀ i < 6, -big ≤ g.2 i ∧ g.2 i ≤ big := by
    intro g hg'
    obtain ⟨g0, h0, rfl⟩ := List.mem_map.1 hg'
    exact hg.finite g0 h0
  have hwf : ∀ g ∈ G, BoundingBox.WellFormed ndim g.2 fun d => g.2 (d + 3) := by
    intro g hg' d hd
    obtain ⟨g0, h0, rfl⟩ := List.mem_map.1 hg'
    exact hg.ordered g0 h0 d hd
  have hpos : ∀ d < ndim, ∃ g ∈ G, g.2 d < g.2 (d + 3) := by
    intro d hd
    obtain ⟨g0, h0, h⟩ := hg.extended d hd
    exact ⟨_, List.mem_map_of_mem h0, h⟩
  obtain ⟨L, counts, hb, _, hmesh, _, _⟩ := build_spec ndim hn h3 big hbig scaling hsc G hfin hwf hpos
  have hL : m.lookup = L := by
    unfold mkMapper at hm
    rw [hb, Option.bind_some, Option.map_eq_some_iff] at hm
    obtain ⟨a, _, rfl⟩ := hm
    rfl
  rw [InRange, hL]
  rw [hL] at hfit
  obtain ⟨hps, e1, e2, e3, e4, e5, e6⟩ := mk?_pos hmesh
  intro d hd
  rw [e1] at hd
  have hne : G.map Prod.snd ≠ [] := by
    obtain ⟨g, hg', _⟩ := hpos d hd
    simp only [ne_eq, List.map_eq_nil_iff]
    exact List.ne_nil_of_mem hg'
  obtain ⟨l1, _, l2, _⟩ := C02.hull_is_smallest big ndim (G.map Prod.snd) hne (by
    intro b hb
    obtain ⟨g, hg, rfl⟩ := List.mem_map.1 hb
    exact hfin g hg) d (by omega)
  rw [← hull_eq ndim] at l1 l2
  obtain ⟨⟨g1, hg1, b1⟩, g2, hg2, b2⟩ := hp d hd
  have c1 := l1 g1.box (List.mem_map_of_mem (f := Prod.snd) (List.mem_map_of_mem (f := fun g : Geom K => (g.gid, g.box)) hg1))
  have c2 := l2 g2.box (List.mem_map_of_mem (f := Prod.snd) (List.mem_map_of_mem (f := fun g : Geom K => (g.gid, g.box)) hg2))
  have hcpos : (0 : K) < (counts d : K) := by exact_mod_cast (hps d hd).2
  have hw : (0 : K) < L.mesh.cellWidths d := by
    rw [e5]
    exact div_pos (hps d hd).1 hcpos
  have hcw : (counts d : K) * L.mesh.cellWidths d = hullOf big G (d + 3) - hullOf big G d := by
    rw [e5]
    have : (counts d : K) ≠ 0 := hcpos.ne'
    field_simp
  have hlt : (counts d : K) < 2147483648 := by
    have := hfit d hd
    rw [e4] at this
    exact_mod_cast this
  have hlt' := mul_lt_mul_of_pos_right hlt hw
  rw [e2, abs_lt]
  constructor <;> linarith

/-! ### The calls in order -/

section chain
omit [Field K] [LinearOrder K] [IsStrictOrderedRing K] [FloorRing K]

/-- A stage that ends for every unmapped particle with a position in `P`, does not move it, and leaves mapped particles alone. -/
structure Total (P : (ℕ → K) → Prop) (s : Stage K) : Prop where
  ends : ∀ q, q.rank < 0 → P q.pos → ∃ q', s q = some q' ∧ (q' = q ∨ (0 ≤ q'.rank ∧ q'.pos = q.pos))
  keeps : ∀ q, 0 ≤ q.rank → s q = some q

/-- The stage maps unmapped particles at this position. -/
def Finds (s : Stage K) (p : ℕ → K) : Prop := ∀ q : Particle K, q.pos = p → q.rank < 0 → ∃ q', s q = some q' ∧ 0 ≤ q'.rank

/-- All particles of the selected cells. -/
def AllSel (mc : ℤ) (Q : Particle K → Prop) (g : Cells K) : Prop := ∀ (i : ℕ) (h : i < g.length), selected mc i = true → ∀ q ∈ g[i], Q q

/-- Mapped, or not found by the stages in `D`. -/
def After (P : (ℕ → K) → Prop) (D : List (Stage K)) (q : Particle K) : Prop := 0 ≤ q.rank ∨ (q.rank < 0 ∧ P q.pos ∧ ∀ s ∈ D, ¬ Finds s q.pos)

theorem mapM_all {Q Q' : Particle K → Prop} (f : Stage K) (h : ∀ q, Q q → ∃ q', f q = some q' ∧ Q' q') : ∀ l : List (Particle K), (∀ q ∈ l, Q q) →
    ∃ l', l.mapM f = some l' ∧ (∀ q ∈ l', Q' q)
  | [], _ => ⟨[], by simp, by simp⟩
  | a :: l, hl => by
    obtain ⟨b, hb, hb'⟩ := h a (hl a (by simp))
    obtain ⟨l', h1, h2⟩ := mapM_all f h l fun q hq => hl q (by simp [hq])
    refine ⟨b :: l', by simp [List.mapM_cons, hb, h1], fun q hq => ?_⟩
    rcases List.mem_cons.1 hq with rfl | hq
    · exact hb'
    · exact h2 q hq

theorem runFrom_all {Q Q' : Particle K → Prop} (mc : ℤ) (f : Stage K) (h : ∀ q, Q q → ∃ q', f q = some q' ∧ Q' q') : ∀ (g : Cells K) (i : ℕ),
    (∀ (j : ℕ) (hj : j < g.length), selected mc (i + j) = true → ∀ q ∈ g[j], Q q) →
    ∃ g', runFrom mc f i g = some g' ∧ g'.length = g.length ∧ (∀ (j : ℕ) (hj : j < g'.length), selected mc (i + j) = true → ∀ q ∈ g'[j], Q' q) ∧
      ∀ j, selected mc (i + j) = false → g'[j]? = g[j]?
  | [], _, _ => ⟨[], rfl, rfl, by simp, by simp⟩
  | c :: g, i, hg => by
    obtain ⟨g', h1, h2, h3, h4⟩ := runFrom_all mc f h g (i + 1) (by
      intro j hj hs
      have := hg (j + 1) (by simp [hj]) (by rw [← Nat.add_assoc, Nat.add_right_comm]; exact hs)
      simpa using this)
    have hc : ∃ c', (if selected mc i = true then c.mapM f else some c) = some c' ∧ (selected mc i = true → ∀ q ∈ c', Q' q) ∧ (selected mc i = false → c' = c) := by
      by_cases hs : selected mc i = true
      · obtain ⟨c', e, hc'⟩ := mapM_all f h c (by have := hg 0 (by simp) (by simpa using hs); simpa using this)
        exact ⟨c', by rw [if_pos hs, e], fun _ => hc', fun hf => by rw [hs] at hf; exact absurd hf (by simp)⟩
      · exact ⟨c, by rw [if_neg hs], fun h => absurd h hs, fun _ => rfl⟩
    obtain ⟨c', e, hc1, hc2⟩ := hc
    refine ⟨c' :: g', ?_, by simp [h2], ?_, ?_⟩
    · rw [runFrom, e, Option.bind_some, h1]
      rfl
    · intro j hj hs
      cases j with
      | zero => simpa using hc1 (by simpa using hs)
      | succ j =>
        have := h3 j (by simpa using hj) (by rw [Nat.add_assoc, Nat.add_comm 1]; exact hs)
        simpa using this
    · intro j hs
      cases j with
      | zero => simp [hc2 (by simpa using hs)]
      | succ j =>
        have := h4 j (by rw [Nat.add_assoc, Nat.add_comm 1]; exact hs)
        simpa using this

theorem run_all {Q Q' : Particle K → Prop} (mc : ℤ) (f : Stage K) (h : ∀ q, Q q → ∃ q', f q = some q' ∧ Q' q') (g : Cells K) (hg : AllSel mc Q g) :
    ∃ g', run mc f g = some g' ∧ g'.length = g.length ∧ AllSel mc Q' g' ∧ ∀ j, selected mc j = false → g'[j]? = g[j]? := by
  obtain ⟨g', h1, h2, h3, h4⟩ := runFrom_all mc f h g 0 (by simpa [AllSel] using hg)
  exact ⟨g', h1, h2, by simpa [AllSel] using h3, by simpa using h4⟩

theorem after_step {P : (ℕ → K) → Prop} {s : Stage K} (hs : Total P s) (D : List (Stage K)) (q : Particle K) (h : After P D q) :
    ∃ q', s q = some q' ∧ After P (s :: D) q' := by
  rcases h with h | ⟨hr, hp, hd⟩
  · exact ⟨q, hs.keeps q h, Or.inl h⟩
  · obtain ⟨q', e, hq'⟩ := hs.ends q hr hp
    refine ⟨q', e, ?_⟩
    rcases hq' with rfl | ⟨h0, _⟩
    · refine Or.inr ⟨hr, hp, fun t ht => ?_⟩
      rcases List.mem_cons.1 ht with rfl | ht
      · intro hf
        obtain ⟨q'', e', h'⟩ := hf q' rfl hr
        rw [e] at e'
        cases e'
        omega
      · exact hd t ht
    · exact Or.inl h0

/-- The state after the stages `D`: the cells that are not selected are as in `g`. -/
structure Reached (P : (ℕ → K) → Prop) (mc : ℤ) (D : List (Stage K)) (g g' : Cells K) : Prop where
  len : g'.length = g.length
  after : AllSel mc (After P D) g'
  others : ∀ j, selected mc j = false → g'[j]? = g[j]?

theorem reach_run {P : (ℕ → K) → Prop} {mc : ℤ} {s : Stage K} (hs : Total P s) {D : List (Stage K)} {g0 g : Cells K} (h : Reached P mc D g0 g) :
    ∃ g', run mc s g = some g' ∧ Reached P mc (s :: D) g0 g' := by
  obtain ⟨g', e, h1, h2, h3⟩ := run_all mc s (after_step hs D) g h.after
  exact ⟨g', e, h1.trans h.len, h2, fun j hj => (h3 j hj).trans (h.others j hj)⟩

theorem reach_runOpt {P : (ℕ → K) → Prop} {mc : ℤ} {s : Option (Stage K)} (hs : ∀ t ∈ s, Total P t) {D : List (Stage K)} {g0 g : Cells K} (h : Reached P mc D g0 g) :
    ∃ g', runOpt mc s g = some g' ∧ Reached P mc (s.toList ++ D) g0 g' := by
  cases s with
  | none => exact ⟨g, rfl, h⟩
  | some s => exact reach_run (hs s rfl) h

theorem after_mono {P : (ℕ → K) → Prop} {D D' : List (Stage K)} (h : ∀ s ∈ D', s ∈ D) {q : Particle K} (hq : After P D q) : After P D' q := by
  rcases hq with hq | ⟨h1, h2, h3⟩
  · exact Or.inl hq
  · exact Or.inr ⟨h1, h2, fun s hs => h3 s (h s hs)⟩

theorem Reached.mono {P : (ℕ → K) → Prop} {mc : ℤ} {D D' : List (Stage K)} {g0 g : Cells K} (h : Reached P mc D g0 g) (hd : ∀ s ∈ D', s ∈ D) : Reached P mc D' g0 g :=
  ⟨h.len, fun i hi hs q hq => after_mono hd (h.after i hi hs q hq), h.others⟩

theorem reach_fold {P : (ℕ → K) → Prop} {mc : ℤ} (sel : Stage K × Stage K → Stage K) : ∀ (newton : List (Option (Stage K × Stage K))),
    (∀ s ∈ newton, ∀ d, s = some d → Total P (sel d)) → ∀ (D : List (Stage K)) (g0 g : Cells K), Reached P mc D g0 g →
    ∃ g', newton.foldlM (fun g (s : Option (Stage K × Stage K)) => runOpt mc (s.map sel) g) g = some g' ∧ Reached P mc ((newton.filterMap id).map sel ++ D) g0 g'
  | [], _, D, g0, g, h => ⟨g, rfl, h⟩
  | s :: l, hs, D, g0, g, h => by
    obtain ⟨g1, e1, h1⟩ := reach_runOpt (s := s.map sel) (by
      intro t ht
      rw [Option.mem_def, Option.map_eq_some_iff] at ht
      obtain ⟨d, hd, rfl⟩ := ht
      exact hs s (by simp) d hd) h
    obtain ⟨g2, e2, h2⟩ := reach_fold sel l (fun x hx => hs x (by simp [hx])) _ g0 g1 h1
    refine ⟨g2, by rw [List.foldlM_cons, Option.bind_eq_bind, e1, Option.bind_some, e2], h2.mono ?_⟩
    intro t ht
    simp only [List.mem_append, List.mem_map, List.mem_filterMap, id, Option.mem_toList, Option.map_eq_some_iff, List.mem_cons, exists_eq_right] at ht ⊢
    rcases ht with ⟨a, rfl | ha, rfl⟩ | h
    · exact Or.inr (Or.inl ⟨a, rfl, rfl⟩)
    · exact Or.inl ⟨a, ha, rfl⟩
    · exact Or.inr (Or.inr h)

theorem checkMap_of_all (mc : ℤ) (g : Cells K) (h : AllSel mc (fun q => 0 ≤ q.rank) g) : checkMap mc g = false := by
  unfold checkMap
  rw [List.any_eq_false]
  rintro ⟨c, i⟩ hc
  rw [List.mem_zipIdx_iff_getElem?] at hc
  dsimp only at hc
  obtain ⟨hi, rfl⟩ := List.getElem?_eq_some_iff.1 hc
  simp only [Bool.and_eq_true, not_and, Bool.not_eq_true, List.any_eq_false]
  intro hs q hq
  have := h i hi hs q hq
  simp
  omega

/-- The particles that have to be found: those of the selected cells that are not mapped. -/
def Searched (mc : ℤ) (g : Cells K) (q : Particle K) : Prop := ∃ (i : ℕ) (h : i < g.length), selected mc i = true ∧ q ∈ g[i] ∧ q.rank < 0

/-- **C84, 2D.** If all stages end for the positions of the particles and one of them finds each particle of the selected cells, the call completes and all particles of the selected cells are mapped. -/
theorem map2D_complete (P : (ℕ → K) → Prop) (regular : Option (Stage K)) (deformed : Option (Stage K × Stage K)) (mc : ℤ) (g : Cells K)
    (hr : ∀ s ∈ regular, Total P s) (hd : ∀ d ∈ deformed, Total P d.1 ∧ Total P d.2) (hP : ∀ q, Searched mc g q → P q.pos)
    (hf : ∀ p, P p → (∃ s ∈ regular, Finds s p) ∨ ∃ d ∈ deformed, Finds d.1 p ∨ Finds d.2 p) :
    ∃ g', map2D regular deformed mc g = some g' ∧ AllSel mc (fun q => 0 ≤ q.rank) g' := by
  have h0 : Reached P mc [] g g := ⟨rfl, fun i hi hs q hq => by
    by_cases h : 0 ≤ q.rank
    · exact Or.inl h
    · exact Or.inr ⟨not_le.1 h, hP q ⟨i, hi, hs, hq, not_le.1 h⟩, by simp⟩, fun _ _ => rfl⟩
  obtain ⟨g1, e1, h1⟩ := reach_runOpt hr h0
  have h2 : ∃ g2, (match deformed with
      | none => some g1
      | some d => if checkMap mc g1 then (run mc d.1 g1).bind fun g => run mc d.2 g else some g1) = some g2 ∧ AllSel mc (fun q => 0 ≤ q.rank) g2 := by
    cases deformed with
    | none =>
      refine ⟨g1, rfl, fun i hi hs q hq => ?_⟩
      rcases h1.after i hi hs q hq with h | ⟨hr', hp, hn⟩
      · exact h
      · rcases hf _ hp with ⟨s, hs', hfs⟩ | ⟨d, hd', _⟩
        · exact absurd hfs (hn s (by simpa using hs'))
        · simp at hd'
    | some d =>
      obtain ⟨d1, d2⟩ := hd d rfl
      by_cases hc : checkMap mc g1 = true
      · obtain ⟨g3, e3, h3⟩ := reach_run d1 h1
        obtain ⟨g4, e4, h4⟩ := reach_run d2 h3
        refine ⟨g4, by dsimp only; rw [if_pos hc, e3, Option.bind_some, e4], fun i hi hs q hq => ?_⟩
        rcases h4.after i hi hs q hq with h | ⟨hr', hp, hn⟩
        · exact h
        · rcases hf _ hp with ⟨s, hs', hfs⟩ | ⟨d', hd', hfd⟩
          · exact absurd hfs (hn s (by simp; right; right; simpa using hs'))
          · rw [Option.mem_def, Option.some.injEq] at hd'
            subst hd'
            rcases hfd with h | h
            · exact absurd h (hn _ (by simp))
            · exact absurd h (hn _ (by simp))
      · refine ⟨g1, by dsimp only; rw [if_neg hc], fun i hi hs => ?_⟩
        refine checkMap_false mc g1 (by simpa using hc) i hi ?_
        simpa [selected] using hs
  obtain ⟨g2, e2, h2⟩ := h2
  refine ⟨g2, ?_, h2⟩
  unfold map2D
  rw [e1, Option.bind_some]
  refine Eq.trans (congrArg (fun o => Option.bind o _) e2) ?_
  rw [Option.bind_some, checkMap_of_all mc g2 h2]
  simp

/-- **C84, 3D.** As `map2D_complete` (the host mapper is not needed). A call for one cell checks all cells at its end, so the particles of the other cells have to be mapped already (see C55,
`other_cells_checked`). -/
theorem map3D_complete (P : (ℕ → K) → Prop) (regular : Option (Stage K)) (newton : List (Option (Stage K × Stage K))) (host : Stage K) (mc : ℤ) (g : Cells K)
    (hr : ∀ s ∈ regular, Total P s) (hd : ∀ s ∈ newton, ∀ d, s = some d → Total P d.1 ∧ Total P d.2) (hP : ∀ q, Searched mc g q → P q.pos)
    (hf : ∀ p, P p → (∃ s ∈ regular, Finds s p) ∨ ∃ s ∈ newton, ∃ d ∈ s, Finds d.1 p ∨ Finds d.2 p)
    (hother : -1 < mc → ∀ (i : ℕ) (h : i < g.length), selected mc i = false → ∀ q ∈ g[i], 0 ≤ q.rank) :
    ∃ g', map3D regular newton host mc g = some g' ∧ AllSel mc (fun q => 0 ≤ q.rank) g' := by
  have h0 : Reached P mc [] g g := ⟨rfl, fun i hi hs q hq => by
    by_cases h : 0 ≤ q.rank
    · exact Or.inl h
    · exact Or.inr ⟨not_le.1 h, hP q ⟨i, hi, hs, hq, not_le.1 h⟩, by simp⟩, fun _ _ => rfl⟩
  obtain ⟨g1, e1, h1⟩ := reach_runOpt hr h0
  obtain ⟨g2, e2, h2⟩ := reach_fold Prod.fst newton (fun s hs d hd' => (hd s hs d hd').1) _ g g1 h1
  obtain ⟨g3, e3, h3⟩ := reach_fold Prod.snd newton (fun s hs d hd' => (hd s hs d hd').2) _ g g2 h2
  have hall : AllSel mc (fun q => 0 ≤ q.rank) g3 := by
    intro i hi hs q hq
    rcases h3.after i hi hs q hq with h | ⟨hr', hp, hn⟩
    · exact h
    · rcases hf _ hp with ⟨s, hs', hfs⟩ | ⟨s, hs', d, hd', hfd⟩
      · exact absurd hfs (hn s (by simp only [List.mem_append, Option.mem_toList]; exact Or.inr (Or.inr (Or.inl hs'))))
      · have hm : d ∈ newton.filterMap id := List.mem_filterMap.2 ⟨s, hs', hd'⟩
        rcases hfd with h | h
        · exact absurd h (hn _ (by simp only [List.mem_append, List.mem_map]; exact Or.inr (Or.inl ⟨d, hm, rfl⟩)))
        · exact absurd h (hn _ (by simp only [List.mem_append, List.mem_map]; exact Or.inl ⟨d, hm, rfl⟩))
  refine ⟨g3, ?_, hall⟩
  unfold map3D
  rw [e1, Option.bind_some, e2, Option.bind_some, e3, Option.bind_some]
  by_cases hm : mc > -1
  · rw [if_pos hm, checkMap_of_all mc g3 hall, if_neg (by simp), Option.bind_some, checkMap_of_all (-1) g3, if_neg (by simp)]
    intro i hi _ q hq
    by_cases hs : selected mc i = true
    · exact hall i hi hs q hq
    · have hs' : selected mc i = false := by simpa using hs
      have := h3.others i hs'
      rw [List.getElem?_eq_getElem hi, List.getElem?_eq_getElem (by rw [← h3.len]; exact hi), Option.some.injEq] at this
      exact hother hm i (by rw [← h3.len]; exact hi) hs' q (this ▸ hq)
  · rw [if_neg hm]

end chain

end Verif.Props.C84
