import Verif.Props.C84_EveryParticleFound
import Verif.Props.C40_Regular

/-!
C84, meshes: elements that cover a box.
-/

namespace Verif.Props.C84
open Verif.Model Verif.Model.CartesianMesh Verif.Model.CoarseLookup Verif.Model.MapChain Verif.Model.DeviceMapper Verif.Spec Verif.Spec.Mapping Verif.Props.C06 Verif.Props.C34
  Verif.Props.C35 Verif.Props.C55

variable {K : Type*} [Field K] [LinearOrder K] [IsStrictOrderedRing K] [FloorRing K]

omit [FloorRing K] in
/-- A position in a box that is covered by closed regions is in a region and in its bounding box, on an upper bound only if this is the bound of the covered box; the interiors of the bounding box and the
covered box meet. -/
theorem region_with_room {ι : Type*} [Finite ι] (ndim : ℕ) (lo hi : ℕ → K) (hlh : ∀ d < ndim, lo d < hi d) (region : ι → Set (ℕ → K)) (hc : Covers ndim lo hi region)
    (hcl : ∀ i, RayClosed (region i)) (box : ι → ℕ → K) (hbox : ∀ i, ∀ p ∈ region i, ∀ d < ndim, box i d ≤ p d ∧ p d ≤ box i (d + 3)) (p : ℕ → K)
    (hp : ∀ d < ndim, lo d ≤ p d ∧ p d ≤ hi d) :
    ∃ i, p ∈ region i ∧ (∀ d < ndim, box i d < box i (d + 3) ∧ box i d ≤ p d ∧ p d ≤ box i (d + 3) ∧ (p d = box i (d + 3) → p d = hi d)) ∧
      ∃ x : ℕ → K, ∀ d < ndim, (box i d < x d ∧ x d < box i (d + 3)) ∧ lo d < x d ∧ x d < hi d := by
  set v : ℕ → K := fun d => if p d < hi d then 1 else -1 with hv
  obtain ⟨room, hroom, hin⟩ : ∃ room : K, 0 < room ∧ ∀ δ, 0 < δ → δ < room → ∀ d < ndim, lo d ≤ p d + δ * v d ∧ p d + δ * v d ≤ hi d := by
    have : ∀ n ≤ ndim, ∃ room : K, 0 < room ∧ ∀ δ, 0 < δ → δ < room → ∀ d < n, lo d ≤ p d + δ * v d ∧ p d + δ * v d ≤ hi d := by
      intro n
      induction n with
      | zero => intro _; exact ⟨1, one_pos, by simp⟩
      | succ n ih =>
        intro hn
        obtain ⟨r, hr, h⟩ := ih (by omega)
        obtain ⟨h1, h2⟩ := hp n (by omega)
        have h3 := hlh n (by omega)
        by_cases hlt : p n < hi n
        · refine ⟨min r (hi n - p n), lt_min hr (by linarith), fun δ h0 hδ d hd => ?_⟩
          rw [lt_min_iff] at hδ
          rcases Nat.lt_succ_iff_lt_or_eq.1 hd with hd | rfl
          · exact h δ h0 hδ.1 d hd
          · simp only [hv, if_pos hlt]
            constructor <;> linarith [hδ.2]
        · refine ⟨min r (p n - lo n), lt_min hr (by linarith), fun δ h0 hδ d hd => ?_⟩
          rw [lt_min_iff] at hδ
          rcases Nat.lt_succ_iff_lt_or_eq.1 hd with hd | rfl
          · exact h δ h0 hδ.1 d hd
          · simp only [hv, if_neg hlt]
            constructor <;> linarith [hδ.2]
    exact this ndim le_rfl
  obtain ⟨i, hi'⟩ : ∃ i, ∀ ε : K, 0 < ε → ∃ δ, 0 < δ ∧ δ < ε ∧ (fun d => p d + δ * v d) ∈ region i := by
    by_contra hcon
    push Not at hcon
    choose ε hε hno using hcon
    obtain ⟨e, he, hle⟩ : ∃ e : K, 0 < e ∧ ∀ i, e ≤ ε i := by
      haveI := Fintype.ofFinite ι
      have : ∀ s : Finset ι, ∃ e : K, 0 < e ∧ ∀ i ∈ s, e ≤ ε i := by
        intro s
        classical
        induction s using Finset.induction_on with
        | empty => exact ⟨1, one_pos, by simp⟩
        | insert a s _ ih =>
          obtain ⟨e, he, h⟩ := ih
          refine ⟨min e (ε a), lt_min he (hε a), fun i hi => ?_⟩
          rcases Finset.mem_insert.1 hi with rfl | hi
          · exact min_le_right _ _
          · exact (min_le_left _ _).trans (h i hi)
      obtain ⟨e, he, h⟩ := this Finset.univ
      exact ⟨e, he, fun i => h i (Finset.mem_univ i)⟩
    have hm : 0 < min e room := lt_min he hroom
    have hδ0 : 0 < min e room / 2 := by linarith
    have hδ1 : min e room / 2 < e := by have := min_le_left e room; linarith
    have hδ2 : min e room / 2 < room := by have := min_le_right e room; linarith
    obtain ⟨i, h⟩ := hc _ (hin _ hδ0 hδ2)
    exact hno i _ hδ0 (hδ1.trans_le (hle i)) h
  have hpi : p ∈ region i := hcl i p v hi'
  obtain ⟨δ, h0, h1, h2⟩ := hi' room hroom
  refine ⟨i, hpi, fun d hd => ?_, fun d => p d + δ / 2 * v d, fun d hd => ?_⟩
  swap
  · have hb := hbox i p hpi d hd
    have hb' := hbox i _ h2 d hd
    have hlo := (hp d hd).1
    have hin' := hin δ h0 h1 d hd
    by_cases hlt : p d < hi d
    · simp only [hv, if_pos hlt] at hb' hin' ⊢
      exact ⟨⟨by linarith, by linarith⟩, by linarith, by linarith⟩
    · simp only [hv, if_neg hlt] at hb' hin' ⊢
      have := (hp d hd).2
      exact ⟨⟨by linarith, by linarith⟩, by linarith, by linarith⟩
  have hb := hbox i p hpi d hd
  have hb' := hbox i _ h2 d hd
  by_cases hlt : p d < hi d
  · simp only [hv, if_pos hlt] at hb'
    exact ⟨by linarith, hb.1, hb.2, fun h => by linarith⟩
  · simp only [hv, if_neg hlt] at hb'
    exact ⟨by linarith, hb.1, hb.2, fun _ => le_antisymm (hp d hd).2 (not_lt.1 hlt)⟩

/-! ### The objects -/

/-- A mapper with its geometries, tests and the set of points of each geometry. -/
structure Built (ndim : ℕ) (big : K) (scaling : K → ℤ) where
  geoms : List (Geom K)
  mapper : Mapper K
  made : mkMapper ndim big scaling geoms = some mapper
  /-- The test of `map` or `map_initial`, and that of `map_final`. -/
  test1 : (ℕ → K) → ℕ → Option (List K)
  test2 : (ℕ → K) → ℕ → Option (List K)
  region : ℕ → Set (ℕ → K)

/-- What is known of the geometries: they can be given to a mapper; the points of each are accepted, in its bounding box, and a closed set; the boxes do not exceed the domain or are padded. -/
structure Valid (ndim : ℕ) (big : K) {scaling : K → ℤ} (hi : ℕ → K) (b : Built ndim big scaling) : Prop where
  adm : Admissible ndim big b.geoms
  accepted : ∀ (k : ℕ) (h : k < b.geoms.length), ∀ p ∈ b.region k, (b.test1 p k).isSome ∨ (b.test2 p k).isSome
  inBox : ∀ (k : ℕ) (h : k < b.geoms.length), ∀ p ∈ b.region k, ∀ d < ndim, (b.geoms[k]).box d ≤ p d ∧ p d ≤ (b.geoms[k]).box (d + 3)
  closed : ∀ (k : ℕ) (h : k < b.geoms.length), RayClosed (b.region k)
  margin : ∀ d < ndim, (∀ g ∈ b.geoms, g.box (d + 3) ≤ hi d) ∨ ∀ (k : ℕ) (h : k < b.geoms.length), ∀ p ∈ b.region k, p d < (b.geoms[k]).box (d + 3)

section objects
variable {ndim : ℕ} {big : K} {scaling : K → ℤ} (hn : 0 < ndim) (h3 : ndim ≤ 3) (hbig : 0 < big) (hsc : ∀ f, 1 < f → 0 < scaling f ∧ f ≤ (scaling f : K) ^ ndim)

/-- The two stages of a mapper. -/
def Built.stage1 (b : Built ndim big scaling) : Stage K := b.mapper.stage b.test1
def Built.stage2 (b : Built ndim big scaling) : Stage K := b.mapper.stage b.test2

/-- What a mapper assigns. -/
def Built.accepts (b : Built ndim big scaling) (p : ℕ → K) : Set (Assignment K) := assignments b.geoms b.test1 p ∪ assignments b.geoms b.test2 p

include hn h3 hbig hsc

theorem built_total (b : Built ndim big scaling) (hb : Admissible ndim big b.geoms) (test : (ℕ → K) → ℕ → Option (List K)) : Total (InRange b.mapper) (b.mapper.stage test) where
  ends := by
    intro q hq hp
    obtain ⟨m, hm, _, _, h⟩ := mapper_correct ndim hn h3 big hbig scaling hsc b.geoms hb
    rw [b.made] at hm
    cases hm
    obtain ⟨q', e, hk, _⟩ := h test q hq hp
    refine ⟨q', e, ?_⟩
    rcases hk with h | ⟨_, a, _, h0, rfl⟩
    · exact Or.inl h
    · exact Or.inr ⟨h0, rfl⟩
  keeps := fun q hq => kernel_mapped b.mapper test q hq

theorem built_finds (b : Built ndim big scaling) (hb : Admissible ndim big b.geoms) (test : (ℕ → K) → ℕ → Option (List K)) (p : ℕ → K) (hp : InRange b.mapper p) (k : ℕ)
    (hk : k < b.geoms.length) (hbox : InBox ndim b.geoms (b.geoms[k]).box p) (hacc : (test p k).isSome) : Finds (b.mapper.stage test) p := by
  rintro q rfl hq
  obtain ⟨m, hm, _, _, h⟩ := mapper_correct ndim hn h3 big hbig scaling hsc b.geoms hb
  rw [b.made] at hm
  cases hm
  obtain ⟨q', e, _, hf⟩ := h test q hq hp
  exact ⟨q', e, hf ⟨k, hk, hbox, hacc⟩⟩

theorem built_sound (b : Built ndim big scaling) (hb : Admissible ndim big b.geoms) (test : (ℕ → K) → ℕ → Option (List K)) :
    Sound (assignments b.geoms test) (b.mapper.stage test) := by
  obtain ⟨m, hm, h1, h2, _⟩ := mapper_correct ndim hn h3 big hbig scaling hsc b.geoms hb
  rw [b.made] at hm
  cases hm
  have hs := kernel_sound b.mapper.lookup b.mapper.cellIds b.mapper.ranks test (by
    intro k r hr
    rw [h2, List.getElem?_map, Option.map_eq_some_iff] at hr
    obtain ⟨g, hg, hgr⟩ := hr
    rw [Option.some.injEq] at hgr
    rw [← hgr]
    exact hb.ranks g (List.mem_of_getElem? hg))
  intro q q' e
  refine KeptOrAssigned.mono (fun p a ha => ?_) (hs q q' e)
  obtain ⟨k, c1, c2, c3⟩ := ha
  rw [h1, List.getElem?_map, Option.map_eq_some_iff] at c1
  rw [h2, List.getElem?_map, Option.map_eq_some_iff] at c2
  obtain ⟨g, hg, hgc⟩ := c1
  obtain ⟨g', hg', hgr⟩ := c2
  rw [hg, Option.some.injEq] at hg'
  subst hg'
  obtain ⟨hk, rfl⟩ := List.getElem?_eq_some_iff.1 hg
  rw [Option.some.injEq] at hgc hgr
  exact ⟨k, hk, hgc.symm, hgr.symm, c3⟩

/-- Each position of the covered domain is found by a mapper. -/
theorem found_by_one (all : List (Built ndim big scaling)) (lo hi : ℕ → K) (hlh : ∀ d < ndim, lo d < hi d) (hv : ∀ b ∈ all, Valid ndim big hi b)
    (hc : ∀ p : ℕ → K, (∀ d < ndim, lo d ≤ p d ∧ p d ≤ hi d) → ∃ b ∈ all, ∃ k < b.geoms.length, p ∈ b.region k) (p : ℕ → K) (hp : ∀ d < ndim, lo d ≤ p d ∧ p d ≤ hi d)
    (hr : ∀ b ∈ all, InRange b.mapper p) : ∃ b ∈ all, ∃ k < b.geoms.length, p ∈ b.region k ∧ ((b.test1 p k).isSome → Finds b.stage1 p) ∧ ((b.test2 p k).isSome → Finds b.stage2 p) := by
  let ι := (j : Fin all.length) × Fin (all[j]).geoms.length
  obtain ⟨⟨j, k⟩, hin, hbox, _⟩ := region_with_room (ι := ι) ndim lo hi hlh (fun i => (all[i.1]).region i.2.1) (by
      intro p hp
      obtain ⟨b, hb, k, hk, h⟩ := hc p hp
      obtain ⟨j, hj, rfl⟩ := List.getElem_of_mem hb
      exact ⟨⟨⟨j, hj⟩, ⟨k, hk⟩⟩, h⟩)
    (fun i => (hv _ (List.getElem_mem i.1.2)).closed i.2.1 i.2.2) (fun i => ((all[i.1]).geoms[i.2.1]'i.2.2).box)
    (fun i => (hv _ (List.getElem_mem i.1.2)).inBox i.2.1 i.2.2) p hp
  have hb := hv _ (List.getElem_mem j.2)
  have hbox' : InBox ndim (all[j]).geoms ((all[j]).geoms[k.1]'k.2).box p := by
    intro d hd
    obtain ⟨h1, h2, h4, h5⟩ := hbox d hd
    refine ⟨h1, h2, h4, fun he g hg => ?_⟩
    rcases hb.margin d hd with h | h
    · rw [h5 he]
      exact h g hg
    · exact absurd he (h k.1 k.2 p hin).ne
  have hrange := hr _ (List.getElem_mem j.2)
  exact ⟨_, List.getElem_mem j.2, k.1, k.2, hin, fun ha => built_finds hn h3 hbig hsc _ hb.adm _ p hrange k.1 k.2 hbox' ha,
    fun ha => built_finds hn h3 hbig hsc _ hb.adm _ p hrange k.1 k.2 hbox' ha⟩

/-- **C84, 2D.** Let the elements of the mappers cover a box. Then for every group of particles with positions in the box (and in range of the lookups), for one cell or all: the call completes, every
particle of the selected cells is mapped, mapped particles and positions are unchanged, and every assignment is one that the test of an element accepted for that position. -/
theorem every_particle_found_2d (regular deformed : Option (Built ndim big scaling)) (lo hi : ℕ → K) (hlh : ∀ d < ndim, lo d < hi d)
    (hv : ∀ b ∈ regular.toList ++ deformed.toList, Valid ndim big hi b) (hreg : ∀ b ∈ regular, b.test2 = b.test1)
    (hc : ∀ p : ℕ → K, (∀ d < ndim, lo d ≤ p d ∧ p d ≤ hi d) → ∃ b ∈ regular.toList ++ deformed.toList, ∃ k < b.geoms.length, p ∈ b.region k) (mc : ℤ) (g : Cells K)
    (hp : ∀ q, Searched mc g q → (∀ d < ndim, lo d ≤ q.pos d ∧ q.pos d ≤ hi d) ∧ ∀ b ∈ regular.toList ++ deformed.toList, InRange b.mapper q.pos) :
    ∃ g', map2D (regular.map Built.stage1) (deformed.map fun b => (b.stage1, b.stage2)) mc g = some g' ∧ AllSel mc (fun q => 0 ≤ q.rank) g' ∧
      Related (KeptOrAssigned fun p => {a | ∃ b ∈ regular.toList ++ deformed.toList, a ∈ b.accepts p}) g g' := by
  set P : (ℕ → K) → Prop := fun p => (∀ d < ndim, lo d ≤ p d ∧ p d ≤ hi d) ∧ ∀ b ∈ regular.toList ++ deformed.toList, InRange b.mapper p with hP
  have tot : ∀ b ∈ regular.toList ++ deformed.toList, ∀ test, Total P (b.mapper.stage test) := fun b hb test =>
    ⟨fun q hq hp => (built_total hn h3 hbig hsc b (hv b hb).adm test).ends q hq (hp.2 b hb), fun q hq => kernel_mapped b.mapper test q hq⟩
  have snd : ∀ b ∈ regular.toList ++ deformed.toList, Sound (fun p => {a | ∃ b ∈ regular.toList ++ deformed.toList, a ∈ b.accepts p}) b.stage1 ∧
      Sound (fun p => {a | ∃ b ∈ regular.toList ++ deformed.toList, a ∈ b.accepts p}) b.stage2 := by
    intro b hb
    exact ⟨fun q q' e => KeptOrAssigned.mono (fun p a ha => show ∃ b ∈ regular.toList ++ deformed.toList, a ∈ b.accepts p from ⟨b, hb, Or.inl ha⟩) (built_sound hn h3 hbig hsc b (hv b hb).adm b.test1 q q' e),
      fun q q' e => KeptOrAssigned.mono (fun p a ha => show ∃ b ∈ regular.toList ++ deformed.toList, a ∈ b.accepts p from ⟨b, hb, Or.inr ha⟩) (built_sound hn h3 hbig hsc b (hv b hb).adm b.test2 q q' e)⟩
  obtain ⟨g', e, hall⟩ := map2D_complete P (regular.map Built.stage1) (deformed.map fun b => (b.stage1, b.stage2)) mc g (by
      intro s hs
      obtain ⟨b, hb, rfl⟩ := Option.map_eq_some_iff.1 hs
      exact tot b (by simp [hb]) _) (by
      intro d hd
      obtain ⟨b, hb, rfl⟩ := Option.map_eq_some_iff.1 hd
      exact ⟨tot b (by simp [hb]) _, tot b (by simp [hb]) _⟩) hp (by
      intro p hpp
      obtain ⟨b, hb, k, hk, hin, f1, f2⟩ := found_by_one hn h3 hbig hsc _ lo hi hlh hv hc p hpp.1 hpp.2
      have hacc := (hv b hb).accepted k hk p hin
      rw [List.mem_append, Option.mem_toList, Option.mem_toList] at hb
      rcases hb with hb | hb
      · rw [hreg b hb, or_self] at hacc
        exact Or.inl ⟨_, Option.map_eq_some_iff.2 ⟨b, hb, rfl⟩, f1 hacc⟩
      · exact Or.inr ⟨_, Option.map_eq_some_iff.2 ⟨b, hb, rfl⟩, hacc.imp f1 f2⟩)
  refine ⟨g', e, hall, ?_⟩
  refine (map2D_correct _ _ mc g g' ?_ ?_ e).1
  · intro s hs
    obtain ⟨b, hb, rfl⟩ := Option.map_eq_some_iff.1 hs
    exact (snd b (by simp [hb])).1
  · intro d hd
    obtain ⟨b, hb, rfl⟩ := Option.map_eq_some_iff.1 hd
    exact snd b (by simp [hb])

/-- **C84, 3D.** As `every_particle_found_2d`, for the regular mapper and the Newton mappers; for a call for one cell the particles of the other cells are mapped already. `hostAcc` is what the host mapper
assigns. -/
theorem every_particle_found_3d (regular : Option (Built ndim big scaling)) (newton : List (Option (Built ndim big scaling))) (host : Stage K) (hostAcc : (ℕ → K) → Set (Assignment K))
    (hhost : Sound hostAcc host) (lo hi : ℕ → K) (hlh : ∀ d < ndim, lo d < hi d)
    (hv : ∀ b ∈ regular.toList ++ newton.filterMap id, Valid ndim big hi b) (hreg : ∀ b ∈ regular, b.test2 = b.test1)
    (hc : ∀ p : ℕ → K, (∀ d < ndim, lo d ≤ p d ∧ p d ≤ hi d) → ∃ b ∈ regular.toList ++ newton.filterMap id, ∃ k < b.geoms.length, p ∈ b.region k) (mc : ℤ) (g : Cells K)
    (hp : ∀ q, Searched mc g q → (∀ d < ndim, lo d ≤ q.pos d ∧ q.pos d ≤ hi d) ∧ ∀ b ∈ regular.toList ++ newton.filterMap id, InRange b.mapper q.pos)
    (hother : -1 < mc → ∀ (i : ℕ) (h : i < g.length), selected mc i = false → ∀ q ∈ g[i], 0 ≤ q.rank) :
    ∃ g', map3D (regular.map Built.stage1) (newton.map fun o => o.map fun b => (b.stage1, b.stage2)) host mc g = some g' ∧ AllSel mc (fun q => 0 ≤ q.rank) g' ∧
      Related (KeptOrAssigned fun p => {a | a ∈ hostAcc p ∨ ∃ b ∈ regular.toList ++ newton.filterMap id, a ∈ b.accepts p}) g g' := by
  set all := regular.toList ++ newton.filterMap id with hall
  set P : (ℕ → K) → Prop := fun p => (∀ d < ndim, lo d ≤ p d ∧ p d ≤ hi d) ∧ ∀ b ∈ all, InRange b.mapper p with hP
  have tot : ∀ b ∈ all, ∀ test, Total P (b.mapper.stage test) := fun b hb test =>
    ⟨fun q hq hp => (built_total hn h3 hbig hsc b (hv b hb).adm test).ends q hq (hp.2 b hb), fun q hq => kernel_mapped b.mapper test q hq⟩
  have snd : ∀ b ∈ all, Sound (fun p => {a | a ∈ hostAcc p ∨ ∃ b ∈ all, a ∈ b.accepts p}) b.stage1 ∧
      Sound (fun p => {a | a ∈ hostAcc p ∨ ∃ b ∈ all, a ∈ b.accepts p}) b.stage2 := by
    intro b hb
    exact ⟨fun q q' e => KeptOrAssigned.mono (fun p a ha => Or.inr ⟨b, hb, Or.inl ha⟩) (built_sound hn h3 hbig hsc b (hv b hb).adm b.test1 q q' e),
      fun q q' e => KeptOrAssigned.mono (fun p a ha => Or.inr ⟨b, hb, Or.inr ha⟩) (built_sound hn h3 hbig hsc b (hv b hb).adm b.test2 q q' e)⟩
  have hmemr : ∀ b ∈ regular, b ∈ all := fun b hb => by rw [hall]; simp only [List.mem_append, Option.mem_toList]; exact Or.inl hb
  have hmemn : ∀ s ∈ newton, ∀ b ∈ s, b ∈ all := fun s hs b hb => by rw [hall]; exact List.mem_append_right _ (List.mem_filterMap.2 ⟨s, hs, hb⟩)
  have hdata : ∀ s ∈ newton.map fun o : Option (Built ndim big scaling) => o.map fun b => (b.stage1, b.stage2), ∀ d, s = some d → ∃ b ∈ all, d = (b.stage1, b.stage2) := by
    intro s hs d hd
    obtain ⟨o, ho, rfl⟩ := List.mem_map.1 hs
    obtain ⟨b, hb, rfl⟩ := Option.map_eq_some_iff.1 hd
    exact ⟨b, hmemn o ho b hb, rfl⟩
  obtain ⟨g', e, hsel⟩ := map3D_complete P (regular.map Built.stage1) (newton.map fun o => o.map fun b => (b.stage1, b.stage2)) host mc g (by
      intro s hs
      obtain ⟨b, hb, rfl⟩ := Option.map_eq_some_iff.1 hs
      exact tot b (hmemr b hb) _) (by
      intro s hs d hd
      obtain ⟨b, hb, rfl⟩ := hdata s hs d hd
      exact ⟨tot b hb _, tot b hb _⟩) hp (by
      intro p hpp
      obtain ⟨b, hb, k, hk, hin, f1, f2⟩ := found_by_one hn h3 hbig hsc _ lo hi hlh hv hc p hpp.1 hpp.2
      have hacc := (hv b hb).accepted k hk p hin
      rw [hall, List.mem_append, Option.mem_toList, List.mem_filterMap] at hb
      rcases hb with hb | ⟨o, ho, hb⟩
      · rw [hreg b hb, or_self] at hacc
        exact Or.inl ⟨_, Option.map_eq_some_iff.2 ⟨b, hb, rfl⟩, f1 hacc⟩
      · exact Or.inr ⟨_, List.mem_map_of_mem ho, _, Option.map_eq_some_iff.2 ⟨b, hb, rfl⟩, hacc.imp f1 f2⟩) hother
  refine ⟨g', e, hsel, ?_⟩
  refine (map3D_correct _ _ host mc g g' ?_ ?_ ?_ e).1
  · intro s hs
    obtain ⟨b, hb, rfl⟩ := Option.map_eq_some_iff.1 hs
    exact (snd b (hmemr b hb)).1
  · intro s hs d hd
    obtain ⟨b, hb, rfl⟩ := hdata s hs d hd
    exact snd b hb
  · intro q q' h
    exact KeptOrAssigned.mono (fun p a ha => Or.inl ha) (hhost q q' h)

end objects

end Verif.Props.C84
