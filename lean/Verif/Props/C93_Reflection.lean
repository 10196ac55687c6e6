import Mathlib.Tactic.FieldSimp
import Verif.Spec.Reflection
import Verif.Props.C32_Nearest

/-! C93: particles reflected at the walls stay in the domain. -/

namespace Verif.Props.C93
open Verif.Model Verif.Model.MeshHierarchy Verif.Model.Claims Verif.Model.CompositeCollections Verif.Model.LinePlane
open Verif.Model.CompositeIntersection Verif.Model.Reflection Verif.Model.ParameterStore Verif.Spec Verif.Spec.Reflection

/-! ### The settings -/

/-- With any configuration, whatever it says about `CompositeIntersection`, the intersections are computed with the default settings; only the reset
distance is read. The documentation of the constructor says that the configuration is passed to the intersection routines
(particle_boundary_conditions.hpp:115). -/
theorem config_not_passed {K : Type} [DivisionRing K] (config : Store K) :
    construct config = Outcome.bind (getReal config "NektarCompositeTruncatedReflection/reset_distance" (1 / 10 ^ 7))
      fun reset => .ok (⟨1 / 10 ^ 8, 1 / 10 ^ 8, 51, 1 / 10 ^ 8, 1⟩, reset) := rfl

theorem contains_of_lookup {R : Type} (config : Store R) (k : String) (v : Value R) (h : config.lookup k = some v) : contains config k = true := by
  unfold contains
  induction config with
  | nil => simp at h
  | cons x l ih =>
    obtain ⟨x1, x2⟩ := x
    rw [List.any_cons, Bool.or_eq_true]
    rw [List.lookup_cons] at h
    by_cases hk : k = x1
    · left; simp [hk]
    · right
      have : (k == x1) = false := by simpa using hk
      rw [this] at h
      exact ih h

/-- A `CompositeIntersection` made with a configuration uses its values. -/
theorem intersection_uses_config {K : Type} [DivisionRing K] (config : Store K) (a b c e : K) (n : ℤ)
    (h1 : config.lookup "CompositeIntersection/line_intersection_tol" = some (.real a)) (h2 : config.lookup "CompositeIntersection/newton_tol" = some (.real b))
    (h3 : config.lookup "CompositeIntersection/newton_max_iteration" = some (.int n)) (h4 : config.lookup "CompositeIntersection/contained_tol" = some (.real c))
    (h5 : config.lookup "CompositeIntersection/num_modes_factor" = some (.real e)) :
    intersectionSettings config = .ok ⟨a, b, n, c, e⟩ := by
  have hc := fun k v => contains_of_lookup (R := K) config k v
  unfold intersectionSettings getReal getInt
  simp only [hc _ _ h1, hc _ _ h2, hc _ _ h3, hc _ _ h4, hc _ _ h5, find, h1, h2, h3, h4, h5, Outcome.bind, if_true]

theorem contains_of_none {R : Type} (config : Store R) (k : String) (h : config.lookup k = none) : contains config k = false := by
  unfold contains
  induction config with
  | nil => rfl
  | cons x l ih =>
    obtain ⟨x1, x2⟩ := x
    rw [List.any_cons]
    rw [List.lookup_cons] at h
    by_cases hk : k = x1
    · subst hk; simp at h
    · have hb : (k == x1) = false := by simpa using hk
      rw [hb] at h
      have hb' : (x1 == k) = false := by simpa using fun e => hk e.symm
      simp only at h
      rw [ih h]
      simp [hb']

/-- A `CompositeIntersection` whose configuration does not say how close to a surface a point must be uses the tolerance of Newton's method of the same
configuration for this. -/
theorem contained_tol_default {K : Type} [DivisionRing K] (config : Store K) (a b e : K) (n : ℤ)
    (h1 : config.lookup "CompositeIntersection/line_intersection_tol" = some (.real a)) (h2 : config.lookup "CompositeIntersection/newton_tol" = some (.real b))
    (h3 : config.lookup "CompositeIntersection/newton_max_iteration" = some (.int n)) (h4 : config.lookup "CompositeIntersection/contained_tol" = none)
    (h5 : config.lookup "CompositeIntersection/num_modes_factor" = some (.real e)) :
    intersectionSettings config = .ok ⟨a, b, n, b, e⟩ := by
  have hc := fun k v => contains_of_lookup (R := K) config k v
  unfold intersectionSettings getReal getInt
  simp only [hc _ _ h1, hc _ _ h2, hc _ _ h3, contains_of_none config _ h4, hc _ _ h5, find, h1, h2, h3, h5, Outcome.bind, if_true, Bool.false_eq_true, if_false]

example : ∃ config : Store ℚ, intersectionSettings config = .ok ⟨1 / 2, 1 / 3, 7, 1 / 3, 1 / 4⟩ :=
  ⟨[("CompositeIntersection/line_intersection_tol", .real (1 / 2)), ("CompositeIntersection/newton_tol", .real (1 / 3)),
    ("CompositeIntersection/newton_max_iteration", .int 7), ("CompositeIntersection/num_modes_factor", .real (1 / 4))],
    contained_tol_default _ _ _ _ _ rfl rfl rfl rfl rfl⟩

/-- A user who sets the tolerance of Newton's method does not get it. -/
theorem newton_tol_ignored : ∃ config : Store ℚ, getReal config "CompositeIntersection/newton_tol" (1 / 10 ^ 8) = .ok (1 / 10 ^ 3) ∧
    ∃ s reset, construct config = .ok (s, reset) ∧ s.newtonTol = 1 / 10 ^ 8 :=
  ⟨[("CompositeIntersection/newton_tol", .real (1 / 10 ^ 3))], by decide +kernel, _, _, config_not_passed _, rfl⟩

/-! ### The particles of a sub group -/

variable {K : Type} [Field K] [LinearOrder K]

theorem applyEntries (B : Reflect K) (es : List (Entry K)) : ∀ parts : List (RParticle K), (es.map fun e => e.particle.index).Nodup →
    (∀ e ∈ es, ∀ q ∈ parts, q.base.index = e.particle.index → (B q e.point e.normal).base.index = q.base.index) →
    ∃ f : RParticle K → RParticle K, es.foldl (applyEntry B) parts = parts.map f ∧
      ∀ q ∈ parts, (f q = q ∧ ∀ e ∈ es, e.particle.index ≠ q.base.index) ∨ ∃ e ∈ es, e.particle.index = q.base.index ∧ f q = B q e.point e.normal := by
  induction es with
  | nil => intro parts _ _; exact ⟨id, by simp, fun q _ => Or.inl ⟨rfl, by simp⟩⟩
  | cons e l ih =>
    intro parts hn hB
    rw [List.map_cons, List.nodup_cons] at hn
    have hidx : ∀ q ∈ applyEntry B parts e, ∃ q0 ∈ parts, q.base.index = q0.base.index ∧
        q = if q0.base.index = e.particle.index then B q0 e.point e.normal else q0 := by
      intro q hq
      obtain ⟨q0, h0, rfl⟩ := List.mem_map.mp hq
      refine ⟨q0, h0, ?_, rfl⟩
      split
      · exact hB e (by simp) q0 h0 (by assumption)
      · rfl
    obtain ⟨f, hf, hf2⟩ := ih (applyEntry B parts e) hn.2 (by
      intro e' he' q hq he
      obtain ⟨q0, h0, h1, h2⟩ := hidx q hq
      rw [if_neg] at h2
      · rw [h2] at he ⊢
        exact hB e' (by simp [he']) q0 h0 he
      · intro h
        apply hn.1
        rw [← h, ← h1, he]
        exact List.mem_map.mpr ⟨e', he', rfl⟩)
    refine ⟨fun q => f (if q.base.index = e.particle.index then B q e.point e.normal else q), ?_, fun q hq => ?_⟩
    · rw [List.foldl_cons, hf, applyEntry, List.map_map]; rfl
    · dsimp only
      have hmem : (if q.base.index = e.particle.index then B q e.point e.normal else q) ∈ applyEntry B parts e := List.mem_map.mpr ⟨q, hq, rfl⟩
      have hi : (if q.base.index = e.particle.index then B q e.point e.normal else q).base.index = q.base.index := by
        split
        · exact hB e (by simp) q hq (by assumption)
        · rfl
      by_cases hc : q.base.index = e.particle.index
      · right
        refine ⟨e, by simp, hc.symm, ?_⟩
        rcases hf2 _ hmem with ⟨h1, -⟩ | ⟨e', he', h1, -⟩
        · rw [h1, if_pos hc]
        · exfalso
          apply hn.1
          rw [← hc, ← hi, ← h1]
          exact List.mem_map.mpr ⟨e', he', rfl⟩
      · rcases hf2 _ hmem with ⟨h1, h2⟩ | ⟨e', he', h1, h2⟩
        · left
          refine ⟨by rw [h1, if_neg hc], fun e' he' => ?_⟩
          rcases List.mem_cons.mp he' with rfl | he'
          · exact fun h => hc h.symm
          · rw [if_neg hc] at h2; exact h2 e' he'
        · right
          rw [if_neg hc] at h1 h2
          exact ⟨e', by simp [he'], h1, by rw [if_neg hc]; exact h2⟩

/-! ### One rank -/

theorem boundaryGroup_good {ndim : ℕ} {E : Env K} {r : RG K} (h : BoundaryShape ndim r.geom.shape ∧ r.composite ∈ E.composites ∧ r.geom.normal.length = ndim) :
    GoodGeom ndim (boundaryGroup E.composites) r := ⟨h.1, by simp [boundaryGroup, h.2.1], h.2.2⟩

theorem vec_coords {ndim : ℕ} (hnd : ndim = 2 ∨ ndim = 3) (x : ℕ → K) (d : ℕ) (hd : d < ndim) : vec (coords ndim (point ndim x)) d = x d := by
  rcases hnd with rfl | rfl <;> simp only [vec, coords, point]
  · have : d = 0 ∨ d = 1 := by omega
    rcases this with rfl | rfl <;> rfl
  · have : d = 0 ∨ d = 1 ∨ d = 2 := by omega
    rcases this with rfl | rfl | rfl <;> rfl

theorem executeRank_spec {g : MHGeom K} {E : Env K} {D : Walls K} (h : WallsOk g E D) {B : Reflect K} (hB : ReflectOk E.m.ndim B) {asked : List ℤ} {rank : Rank K}
    (hcoll : Collected E.m.ndim E.data (boundaryGroup E.composites) asked rank) (sel : ℕ → Bool) (parts : List (RParticle K)) (o : Out K)
    (hn : (parts.map fun q => q.base.index).Nodup) (hidx : ∀ q ∈ parts, q.base.index < parts.length)
    (hin : ∀ q ∈ parts, sel q.base.index = true → D.inside q.base.pp)
    (hex : ∀ q ∈ parts, sel q.base.index = true → ∀ c ∈ examined E.m E.cart q.base, c ∈ asked)
    (ho : parts.length * 3 ≤ o.int.length ∧ parts.length * E.m.ndim ≤ o.real.length) (hz : ∀ i < parts.length, o.int[i]? = some 0) :
    ∃ f : RParticle K → RParticle K, executeRank E.m E.cart E.T B rank.coll sel parts o = some (parts.map f) ∧
      ∀ q ∈ parts, (sel q.base.index = false → f q = q) ∧
        (sel q.base.index = true → (f q = q ∧ ¬ IsHit E.T E.m.ndim E.data (examined E.m E.cart q.base) q.base) ∨
          ∃ r i, Nearest E.T E.m.ndim E.data (examined E.m E.cart q.base) q.base r i ∧ f q = B q (coords E.m.ndim i) r.geom.normal) := by
  have hdim : E.m.ndim = 2 ∨ E.m.ndim = 3 := by rw [h.env]; exact h.ndim
  have hgd : g.ndim = E.m.ndim := by rw [h.env]
  set sub := (parts.filter fun q => sel q.base.index).map RParticle.base with hsub
  have hmem : ∀ b ∈ sub, ∃ q ∈ parts, sel q.base.index = true ∧ q.base = b := by
    intro b hb
    obtain ⟨q, hq, rfl⟩ := List.mem_map.mp hb
    exact ⟨q, (List.mem_filter.mp hq).1, (List.mem_filter.mp hq).2, rfl⟩
  obtain ⟨res, h1, h2, h3, h4, h5, -⟩ := C32.get_intersections_exact (T := E.T) (cart := E.cart) (npart := parts.length) (particles := sub) hdim hcoll
    (fun c _ r hr => boundaryGroup_good (hgd ▸ h.good r (h.only c r hr)))
    (fun c _ c' _ r hr r' hr' he => h.ids r (h.only c r hr) r' (h.only c' r' hr') he) [1]
    (fun c _ r hr l hl => by simp only [boundaryGroup] at hl; split at hl <;> simp_all)
    (fun b hb c hc => by obtain ⟨q, hq, hs, rfl⟩ := hmem b hb; exact hex q hq hs c hc)
    (fun b hb => by obtain ⟨q, hq, hs, rfl⟩ := hmem b hb; exact hidx q hq)
    (by
      rw [hsub, List.map_map]
      exact (List.filter_sublist.map _).nodup hn)
    o ho (fun b hb => by obtain ⟨q, hq, hs, rfl⟩ := hmem b hb; exact hz _ (hidx q hq))
  obtain ⟨es, rfl⟩ : ∃ es, res = [(1, es)] := by
    rcases res with _ | ⟨x, _ | ⟨y, l⟩⟩
    · simp at h2
    · simp at h2; exact ⟨x.2, by rw [← h2]⟩
    · simp at h2
  have huniq : ∀ q ∈ parts, ∀ q' ∈ parts, q.base.index = q'.base.index → q = q' := fun q hq q' hq' he => List.inj_on_of_nodup_map hn hq hq' he
  have hentry : ∀ e ∈ es, ∀ q ∈ parts, e.particle.index = q.base.index → sel q.base.index = true ∧
      ∃ r i, Nearest E.T E.m.ndim E.data (examined E.m E.cart q.base) q.base r i ∧ e.point = coords E.m.ndim i ∧ e.normal = r.geom.normal := by
    intro e he q hq hi
    obtain ⟨hp, -, r, i, hr, -, -, hp1, hp2⟩ := h3 _ (List.mem_singleton.mpr rfl) e he
    obtain ⟨q', hq', hs, hb⟩ := hmem _ hp
    have : q' = q := huniq _ hq' _ hq (by rw [hb]; exact hi)
    subst this
    rw [← hb] at hr
    exact ⟨hs, r, i, hr, hp1, hp2⟩
  obtain ⟨f, hf, hf2⟩ := applyEntries B es parts (h4 _ (List.mem_singleton.mpr rfl)) (by
    intro e he q hq hi
    obtain ⟨hs, r, i, hr, hp, hnor⟩ := hentry e he q hq hi.symm
    obtain ⟨c, -, hrc⟩ := hr.1.1
    obtain ⟨s, h0, hs1, his⟩ := h.sound r (h.only c r hrc) q.base.pp q.base.p i (hin q hq hs) (by rw [hgd]; exact hr.1.2)
    exact (hB q e.point e.normal ⟨s, h0, hs1, fun d hd => by rw [hp, his, hgd, vec_coords hdim _ _ hd]⟩).1.2.1)
  refine ⟨f, ?_, fun q hq => ⟨fun hs => ?_, fun hs => ?_⟩⟩
  · unfold executeRank
    rw [if_pos hdim.symm, h1, Option.map_some, List.foldl_cons, List.foldl_nil, hf]
  · rcases hf2 q hq with ⟨a, -⟩ | ⟨e, he, hi, -⟩
    · exact a
    · rw [(hentry e he q hq hi).1] at hs; exact absurd hs (by simp)
  · rcases hf2 q hq with ⟨a, hne⟩ | ⟨e, he, hi, hfe⟩
    · left
      refine ⟨a, fun hh => ?_⟩
      obtain ⟨x, hx, e, he, hep⟩ := h5 q.base (List.mem_map.mpr ⟨q, List.mem_filter.mpr ⟨hq, hs⟩, rfl⟩) hh
      rw [List.mem_singleton] at hx
      subst hx
      exact hne e he (by rw [hep])
    · right
      obtain ⟨-, r, i, hr, hp, hnor⟩ := hentry e he q hq hi
      exact ⟨r, i, hr, by rw [hfe, hp, hnor]⟩

/-! ### A wall met is a hit -/

section walls
variable [IsStrictOrderedRing K]

/-- The squared length of a step. -/
def stepLength (ndim : ℕ) (a b : ℕ → K) : K := sqDist (point ndim a) (point ndim b)

theorem sqDist_along {ndim : ℕ} (a b : ℕ → K) (t : K) : sqDist (point ndim a) (point ndim (along a b t)) = t ^ 2 * stepLength ndim a b := by
  unfold stepLength sqDist point along
  by_cases h : ndim = 3 <;> simp only [h, if_true, if_false] <;> ring

theorem stepLength_nonneg (ndim : ℕ) (a b : ℕ → K) : 0 ≤ stepLength ndim a b := by unfold stepLength sqDist; positivity

theorem surface_hit [FloorRing K] {g : MHGeom K} {E : Env K} {D : Walls K} (h : WallsOk g E D) (q : Particle K) (hin : D.inside q.pp) (r : RG K) (hr : r ∈ D.geoms) (s : K)
    (h0 : 0 ≤ s) (h1 : s ≤ 1) (hs : D.surface r (along q.pp q.p s)) :
    ∃ i, Hit E.T E.m.ndim E.data (examined E.m E.cart q) q r i ∧
      sqDist (point E.m.ndim q.pp) i ≤ sqDist (point E.m.ndim q.pp) (point E.m.ndim (along q.pp q.p s)) := by
  have hgd : g.ndim = E.m.ndim := by rw [h.env]
  obtain ⟨i, t, hi, ht0, hts, hsur, rfl⟩ := h.complete r hr q.pp q.p s hin h0 h1 hs
  obtain ⟨len, hlen, hgiven⟩ := h.given r hr
  obtain ⟨tu, c, e1, e2, e3, e4⟩ := C33.step_examined h.grid h.cart q (h.inGrid _ hin) t ht0 (le_trans hts h1) (h.wallGrid r hr _ hsur)
  have hm : r ∈ E.data c := hgiven c (C29.touching_cell_meets h.grid _ _ len hlen tu e1 c e2 _ (h.wallBox r hr _ hsur) e4)
  refine ⟨_, ⟨⟨c, by rw [h.env]; exact e3, hm⟩, by rw [← hgd]; exact hi⟩, ?_⟩
  rw [hgd, sqDist_along, sqDist_along]
  exact mul_le_mul_of_nonneg_right (by gcongr) (stepLength_nonneg _ _ _)

/-- A particle that was in the domain is, after it was left as it is because no hit was found or reflected at a nearest hit, in the domain. -/
theorem inside_after [FloorRing K] {g : MHGeom K} {E : Env K} {D : Walls K} (h : WallsOk g E D) {B : Reflect K} (hB : ReflectOk E.m.ndim B) (q q' : RParticle K)
    (hin : D.inside q.base.pp) (hlen : sqDist (point E.m.ndim q.base.pp) (point E.m.ndim q.base.p) < E.T.realMax)
    (hq : (q' = q ∧ ¬ IsHit E.T E.m.ndim E.data (examined E.m E.cart q.base) q.base) ∨
          ∃ r i, Nearest E.T E.m.ndim E.data (examined E.m E.cart q.base) q.base r i ∧ q' = B q (coords E.m.ndim i) r.geom.normal) :
    D.inside q'.base.p ∧ ReflectedAt E D B q q' ∧ (q'.id = q.id ∧ q'.base.index = q.base.index ∧ q'.base.cell = q.base.cell ∧ q'.base.pp = q.base.pp) := by
  have hdim : E.m.ndim = 2 ∨ E.m.ndim = 3 := by rw [h.env]; exact h.ndim
  have hgd : g.ndim = E.m.ndim := by rw [h.env]
  rcases hq with ⟨rfl, hno⟩ | ⟨r, i, hn, rfl⟩
  · have hno' : ∀ r ∈ D.geoms, ∀ s, 0 ≤ s → s ≤ 1 → ¬ D.surface r (along q'.base.pp q'.base.p s) := by
      intro r hr s h0 h1 hs
      obtain ⟨i, hi, hd⟩ := surface_hit h q'.base hin r hr s h0 h1 hs
      refine hno ⟨r, i, hi, lt_of_le_of_lt hd (lt_of_le_of_lt ?_ hlen)⟩
      rw [sqDist_along]
      have : s ^ 2 ≤ 1 := by nlinarith
      calc s ^ 2 * stepLength E.m.ndim q'.base.pp q'.base.p ≤ 1 * stepLength E.m.ndim q'.base.pp q'.base.p :=
            mul_le_mul_of_nonneg_right this (stepLength_nonneg _ _ _)
        _ = _ := by rw [one_mul]; rfl
    refine ⟨?_, Or.inl ⟨rfl, hno'⟩, rfl, rfl, rfl, rfl⟩
    by_contra hout
    obtain ⟨r, hr, s, h0, h1, hs⟩ := h.closed _ _ hin hout
    exact hno' r hr s h0 h1 hs
  · obtain ⟨c, -, hrc⟩ := hn.1.1
    have hr := h.only c r hrc
    obtain ⟨s, h0, hs1, his⟩ := h.sound r hr q.base.pp q.base.p i hin (by rw [hgd]; exact hn.1.2)
    rw [hgd] at his
    have hpt : ∃ s, 0 ≤ s ∧ s ≤ 1 ∧ ∀ d < E.m.ndim, vec (coords E.m.ndim i) d = along q.base.pp q.base.p s d :=
      ⟨s, h0, hs1, fun d hd => by rw [his, vec_coords hdim _ _ hd]⟩
    obtain ⟨hkeep, ⟨u, hu0, hu1, hup⟩, -, -⟩ := hB q (coords E.m.ndim i) r.geom.normal hpt
    have hnear : ∀ r' ∈ D.geoms, ∀ t, 0 ≤ t → t ≤ 1 → D.surface r' (along q.base.pp q.base.p t) →
        sqDist (point E.m.ndim q.base.pp) i ≤ sqDist (point E.m.ndim q.base.pp) (point E.m.ndim (along q.base.pp q.base.p t)) := by
      intro r' hr' t ht0 ht1 ht
      obtain ⟨i', hi', hd⟩ := surface_hit h q.base hin r' hr' t ht0 ht1 ht
      exact le_trans (hn.2 _ _ hi') hd
    refine ⟨?_, Or.inr ⟨r, hr, i, rfl, hn.1.2, hnear⟩, hkeep⟩
    by_contra hout
    -- the new position is on the step
    have hnew : ∀ d < g.ndim, along q.base.pp q.base.p (u * s) d = (B q (coords E.m.ndim i) r.geom.normal).base.p d := by
      intro d hd
      rw [hgd] at hd
      rw [hup d hd, along, along, his, vec_coords hdim _ _ hd, along]
      ring
    have hout' : ¬ D.inside (along q.base.pp q.base.p (u * s)) := fun hi => hout (h.congr _ _ hnew hi)
    obtain ⟨r', hr', t, ht0, ht1, ht⟩ := h.closed _ _ hin hout'
    have hcomb : along q.base.pp (along q.base.pp q.base.p (u * s)) t = along q.base.pp q.base.p (t * (u * s)) := by
      funext d; simp only [along]; ring
    rw [hcomb] at ht
    have hus : u * s ≤ s := by nlinarith
    have hus0 : 0 ≤ u * s := mul_nonneg hu0 h0
    have htt : t * (u * s) ≤ u * s := by nlinarith
    have hle := hnear r' hr' (t * (u * s)) (mul_nonneg ht0 hus0) (by linarith) ht
    rw [his, sqDist_along, sqDist_along] at hle
    -- either the step is at a point, or the wall found is nearer
    by_cases hz : s = 0 ∨ stepLength E.m.ndim q.base.pp q.base.p = 0
    · apply hout'
      refine h.congr _ _ (fun d hd => ?_) hin
      rw [hgd] at hd
      rcases hz with rfl | hz
      · simp [along]
      · have hd0 : q.base.p d - q.base.pp d = 0 := by
          unfold stepLength sqDist point at hz
          dsimp only at hz
          have a0 := sq_nonneg (q.base.pp 0 - q.base.p 0)
          have a1 := sq_nonneg (q.base.pp 1 - q.base.p 1)
          have a2 := sq_nonneg ((if E.m.ndim = 3 then q.base.pp 2 else 0) - if E.m.ndim = 3 then q.base.p 2 else 0)
          have b0 : (q.base.pp 0 - q.base.p 0) ^ 2 = 0 := by linarith
          have b1 : (q.base.pp 1 - q.base.p 1) ^ 2 = 0 := by linarith
          have b2 : ((if E.m.ndim = 3 then q.base.pp 2 else 0) - if E.m.ndim = 3 then q.base.p 2 else 0) ^ 2 = 0 := by linarith
          rw [pow_eq_zero_iff two_ne_zero] at b0 b1 b2
          rcases hdim with h2 | h2
          · have : d = 0 ∨ d = 1 := by omega
            rcases this with rfl | rfl <;> linarith
          · rw [if_pos h2, if_pos h2] at b2
            have : d = 0 ∨ d = 1 ∨ d = 2 := by omega
            rcases this with rfl | rfl | rfl <;> linarith
        simp [along, hd0]
    · push Not at hz
      have hL : 0 < stepLength E.m.ndim q.base.pp q.base.p := lt_of_le_of_ne (stepLength_nonneg _ _ _) (Ne.symm hz.2)
      have hspos : 0 < s := lt_of_le_of_ne h0 (Ne.symm hz.1)
      have hlt : t * (u * s) < s := lt_of_le_of_lt htt (by nlinarith)
      have : (t * (u * s)) ^ 2 < s ^ 2 := by
        have := mul_nonneg ht0 hus0
        nlinarith
      exact absurd hle (not_le.mpr (mul_lt_mul_of_pos_right this hL))

/-! ### All ranks -/

omit [IsStrictOrderedRing K] in
theorem moved_spec {adv : RParticle K → RParticle K} (hadv : AdvanceOk adv) (sel : ℕ → Bool) (l : List (RParticle K)) :
    ∃ f : RParticle K → RParticle K, advance sel adv (preAdvection sel l) = l.map f ∧
      ∀ q, (f q).id = q.id ∧ (f q).base.index = q.base.index ∧ (f q).base.cell = q.base.cell ∧ (sel q.base.index = false → f q = q) ∧
        (sel q.base.index = true → f q = adv { q with base := preIntegration q.base } ∧ (f q).base.pp = q.base.p) := by
  refine ⟨fun q => if sel q.base.index then adv { q with base := preIntegration q.base } else q, ?_, fun q => ?_⟩
  · rw [advance, preAdvection, List.map_map]
    refine List.map_congr_left fun q _ => ?_
    by_cases hs : sel q.base.index = true
    · have hs' : sel (preIntegration q.base).index = true := hs
      simp only [Function.comp, hs, hs', if_true]
    · simp only [Function.comp, hs, if_false]
      simp
      exact fun h => absurd h hs
  · dsimp only
    by_cases hs : sel q.base.index = true
    · rw [if_pos hs]
      obtain ⟨a, b, c, d⟩ := hadv { q with base := preIntegration q.base }
      exact ⟨a, b, c, fun hf => absurd (hs.symm.trans hf) (by simp), fun _ => ⟨rfl, by rw [d]; rfl⟩⟩
    · rw [if_neg hs]
      exact ⟨rfl, rfl, rfl, fun _ => rfl, fun h => absurd h hs⟩

/-- **C93.** For any move of any sub group of the particles that were in the domain, and any order of the atomic operations: `execute` does not fail on
any rank, each particle keeps its identity and rank, a particle of the sub group is left as it is if its step meets no wall and otherwise is reflected at the
nearest hit, the others are left as they are, and all particles are in the domain. -/
theorem call_spec [FloorRing K] {g : MHGeom K} {E : Env K} {D : Walls K} (h : WallsOk g E D) {B : Reflect K} (hB : ReflectOk E.m.ndim B) {adv : RParticle K → RParticle K}
    (hadv : AdvanceOk adv) (sel : ℕ → ℕ → Bool) (s : State K) (hs : Good E s) (hin : ∀ l ∈ s.parts, ∀ q ∈ l, D.inside q.base.p)
    (hr : InRange E (moved sel adv s.parts)) (res : Option (State K)) (hcall : Call E B sel adv s res) :
    ∃ s', res = some s' ∧ Good E s' ∧ s'.parts.length = s.parts.length ∧ (∀ l ∈ s'.parts, ∀ q ∈ l, D.inside q.base.p) ∧
      ∀ (i : ℕ) l, (moved sel adv s.parts)[i]? = some l → ∃ f : RParticle K → RParticle K, s'.parts[i]? = some (l.map f) ∧
        ∀ q ∈ l, (f q).id = q.id ∧ (sel i q.base.index = false → f q = q) ∧ (sel i q.base.index = true → ReflectedAt E D B q (f q)) := by
  obtain ⟨inputs, hlen, hinput, rfl⟩ := hcall
  obtain ⟨hl1, hcoll, hparts⟩ := hs
  have hdim : E.m.ndim = 2 ∨ E.m.ndim = 3 := by rw [h.env]; exact h.ndim
  have hgd : g.ndim = E.m.ndim := by rw [h.env]
  set n := s.parts.length with hn
  set M := moved sel adv s.parts with hM
  have hMlen : M.length = n := by rw [hM, moved, List.length_mapIdx]
  -- the particles before `execute`
  have hMget : ∀ (i : ℕ) l, M[i]? = some l → (l.map fun q => q.base.index).Nodup ∧ (∀ q ∈ l, q.base.index < l.length ∧ q.base.cell < E.numCells) ∧
      (∀ q ∈ l, sel i q.base.index = true → D.inside q.base.pp) ∧ ∀ q ∈ l, sel i q.base.index = false → D.inside q.base.p := by
    intro i l hl
    rw [hM, moved, List.getElem?_mapIdx] at hl
    obtain ⟨l0, hl0, rfl⟩ := Option.map_eq_some_iff.mp hl
    have hm0 := List.mem_of_getElem? hl0
    obtain ⟨f, hf, hf2⟩ := moved_spec hadv (sel i) l0
    rw [hf]
    refine ⟨?_, fun q hq => ?_, fun q hq hse => ?_, fun q hq hse => ?_⟩
    · rw [List.map_map]
      have : ((fun q : RParticle K => q.base.index) ∘ f) = fun q => q.base.index := funext fun q => (hf2 q).2.1
      rw [this]
      exact (hparts l0 hm0).1
    all_goals obtain ⟨q0, hq0, rfl⟩ := List.mem_map.mp hq
    · rw [List.length_map, (hf2 q0).2.1, (hf2 q0).2.2.1]
      exact (hparts l0 hm0).2 q0 hq0
    · rw [(hf2 q0).2.1] at hse
      rw [((hf2 q0).2.2.2.2 hse).2]
      exact hin l0 hm0 q0 hq0
    · rw [(hf2 q0).2.1] at hse
      rw [(hf2 q0).2.2.2.1 hse]
      exact hin l0 hm0 q0 hq0
  -- `find_cells`
  have hgrid : Grid E.m := by rw [h.env]; exact h.grid.1
  have h3 : E.m.ndim ≤ 3 := by omega
  have hcells : ∀ (i : ℕ) x, inputs[i]? = some x → ∃ cells, x.1 = some cells ∧
      ∀ l, M[i]? = some l → ∀ q ∈ l, sel i q.base.index = true → ∀ c ∈ examined E.m E.cart q.base, c ∈ cells := by
    intro i x hx
    have hi : i < M.length := by
      have := (List.getElem?_eq_some_iff.mp hx).1
      omega
    obtain ⟨l, hl⟩ : ∃ l, M[i]? = some l := ⟨_, List.getElem?_eq_getElem hi⟩
    obtain ⟨⟨old, hfc⟩, -⟩ := hinput i l x hl hx
    have hsubmem : ∀ b ∈ (l.filter fun q => sel i q.base.index).map RParticle.base, ∃ q ∈ l, q.base = b := by
      intro b hb
      obtain ⟨q, hq, rfl⟩ := List.mem_map.mp hb
      exact ⟨q, (List.mem_filter.mp hq).1, rfl⟩
    have hc1 : ∀ b ∈ (l.filter fun q => sel i q.base.index).map RParticle.base, b.cell < E.numCells := by
      intro b hb
      obtain ⟨q, hq, rfl⟩ := hsubmem b hb
      exact ((hMget i l hl).2.1 q hq).2
    have hc2 : C33.FitsInt E.cart E.m.ndim ((l.filter fun q => sel i q.base.index).map RParticle.base) := by
      intro b hb
      obtain ⟨q, hq, rfl⟩ := hsubmem b hb
      exact (hr l (List.mem_of_getElem? hl) q hq).1
    obtain ⟨cells, hcs, -⟩ := C33.find_cells_exact hgrid h3 hc1 hc2 old x.1 hfc
    refine ⟨cells, hcs, fun l' hl' q hq hse c hc => ?_⟩
    obtain rfl : l = l' := Option.some.inj (hl.symm.trans hl')
    obtain ⟨cells', hcs', hall⟩ := C33.examined_collected_partial hgrid h3 hc1 hc2 old x.1 hfc q.base
      (List.mem_map.mpr ⟨q, List.mem_filter.mpr ⟨hq, hse⟩, rfl⟩) (by
        rw [h.env]; exact h.inGrid _ ((hMget i l hl).2.2.1 q hq hse))
    rw [hcs] at hcs'
    obtain rfl := Option.some.inj hcs'
    exact hall c hc
  obtain ⟨cells, hcm, hcl, hcp⟩ := C29.mapM_index Prod.fst inputs
    (fun i cs => ∀ l, M[i]? = some l → ∀ q ∈ l, sel i q.base.index = true → ∀ c ∈ examined E.m E.cart q.base, c ∈ cs) (fun i x hx => hcells i x hx)
  -- `collect_geometry`
  choose! asked hasked using fun i => fun r => hcoll i r
  obtain ⟨ranks, hra, hrl, hrp⟩ := C29.history_spec (ndim := E.m.ndim) (data := E.data) (junk := E.junk) (group := boundaryGroup E.composites) n
    [cells] s.ranks (fun i => (s.ranks[i]?.map (asked i)).getD []) hl1 (by simp [hcl, hlen])
    (fun _ _ _ _ c _ r hrc => boundaryGroup_good (hgd ▸ h.good r (h.only c r hrc)))
    (fun i r hi => by rw [hi]; exact hasked i r hi)
  have hra' : collectAll E.m.ndim E.data E.junk (boundaryGroup E.composites) (s.ranks.zip cells) = some ranks := by
    rw [history] at hra
    cases hx : collectAll E.m.ndim E.data E.junk (boundaryGroup E.composites) (s.ranks.zip cells) with
    | none => rw [hx] at hra; simp at hra
    | some y => rw [hx, Option.bind_some, history] at hra; exact hra
  -- `execute` on each rank
  obtain ⟨parts', hpm, hpl, hpp⟩ := C29.mapM_index (fun x : ℕ × Rank K × List (RParticle K) × Option (List ℤ) × Out K =>
      executeRank E.m E.cart E.T B x.2.1.coll (sel x.1) x.2.2.1 x.2.2.2.2) ((List.range M.length).zip (ranks.zip (M.zip inputs)))
    (fun i l' => ∃ l, M[i]? = some l ∧ ∃ f : RParticle K → RParticle K, l' = l.map f ∧ ∀ q ∈ l, D.inside (f q).base.p ∧
      ((f q).id = q.id ∧ (f q).base.index = q.base.index ∧ (f q).base.cell = q.base.cell) ∧
      (sel i q.base.index = false → f q = q) ∧ (sel i q.base.index = true → ReflectedAt E D B q (f q))) (by
    rintro i ⟨j, rank, l, x⟩ hx
    obtain ⟨hj, hx⟩ := List.getElem?_zip_eq_some.mp hx
    obtain ⟨hrank, hx⟩ := List.getElem?_zip_eq_some.mp hx
    obtain ⟨hl, hx⟩ := List.getElem?_zip_eq_some.mp hx
    dsimp only at hj hrank hl hx
    have hj' : j = i := by
      obtain ⟨_, hj⟩ := List.getElem?_eq_some_iff.mp hj
      rw [← hj, List.getElem_range]
    subst hj'
    dsimp only
    obtain ⟨m1, m2, m3, m4⟩ := hMget j l hl
    obtain ⟨-, i1, i2, i3⟩ := hinput j l x hl hx
    obtain ⟨f, hf, hf2⟩ := executeRank_spec h hB (hrp j rank hrank) (sel j) l x.2 m1 (fun q hq => (m2 q hq).1) m3 (fun q hq hse c hc => by
      have hci : j < cells.length := by
        have := (List.getElem?_eq_some_iff.mp hx).1
        omega
      have := hcp j _ (List.getElem?_eq_getElem hci) l hl q hq hse c hc
      simp only [List.flatMap_cons, List.flatMap_nil, List.append_nil, List.mem_append]
      right
      rw [List.getD_eq_getElem?_getD, List.getElem?_eq_getElem hci]
      exact this) ⟨i1, i2⟩ i3
    refine ⟨_, hf, l, hl, f, rfl, fun q hq => ?_⟩
    obtain ⟨a, b⟩ := hf2 q hq
    cases hse : sel j q.base.index
    · rw [a hse]
      exact ⟨m4 q hq hse, ⟨rfl, rfl, rfl⟩, fun _ => rfl, by simp⟩
    · obtain ⟨c1, c2, c3, c4, c5, -⟩ := inside_after h hB q (f q) (m3 q hq hse) (hr l (List.mem_of_getElem? hl) q hq).2 (b hse)
      exact ⟨c1, ⟨c3, c4, c5⟩, by simp, fun _ => c2⟩)
  have hpl' : parts'.length = n := by
    rw [hpl]
    simp only [List.length_zip, List.length_range]
    omega
  refine ⟨⟨ranks, parts'⟩, ?_, ⟨by rw [hrl, hpl'], fun i r hi => ⟨_, hrp i r hi⟩, fun l' hl' => ?_⟩, hpl', fun l' hl' => ?_, fun i l hl => ?_⟩
  · unfold executeAll
    rw [hcm, Option.bind_some]
    dsimp only
    rw [hra', Option.bind_some, hpm, Option.map_some]
  · obtain ⟨i, hi⟩ := List.mem_iff_getElem?.mp hl'
    obtain ⟨l, hl, f, rfl, hf⟩ := hpp i l' hi
    obtain ⟨m1, m2, -, -⟩ := hMget i l hl
    constructor
    · rw [List.map_map]
      have : (l.map ((fun q : RParticle K => q.base.index) ∘ f)) = l.map fun q => q.base.index :=
        List.map_congr_left fun q hq => (hf q hq).2.1.2.1
      rw [this]
      exact m1
    · intro q' hq'
      obtain ⟨q, hq, rfl⟩ := List.mem_map.mp hq'
      rw [List.length_map, (hf q hq).2.1.2.1, (hf q hq).2.1.2.2]
      exact m2 q hq
  · obtain ⟨i, hi⟩ := List.mem_iff_getElem?.mp hl'
    obtain ⟨l, hl, f, rfl, hf⟩ := hpp i l' hi
    intro q' hq'
    obtain ⟨q, hq, rfl⟩ := List.mem_map.mp hq'
    exact (hf q hq).1
  · have hi : i < parts'.length := by
      have := (List.getElem?_eq_some_iff.mp hl).1
      omega
    obtain ⟨l2, hl2, f, hf1, hf2⟩ := hpp i _ (List.getElem?_eq_getElem hi)
    obtain rfl : l = l2 := Option.some.inj (hl.symm.trans hl2)
    exact ⟨f, by rw [List.getElem?_eq_getElem hi, hf1], fun q hq => ⟨(hf2 q hq).2.1.1, (hf2 q hq).2.2⟩⟩

/-! ### Any history -/

/-- The properties of a particle that do not depend on where it is stored. -/
def content (q : RParticle K) : ℕ × (ℕ → K) × (ℕ → K) × K × K := (q.id, q.base.p, q.v, q.total, q.last)

/-- A step of a simulation: particles are exchanged between the ranks and get other local indices and elements (`hybrid_move`, `cell_move`), or they are
moved, not too far, and reflected. -/
inductive Step (E : Env K) (B : Reflect K) (s s' : State K) : Prop
  | exchange : s'.ranks = s.ranks → (s'.parts.flatten.map content).Perm (s.parts.flatten.map content) → Good E s' → Step E B s s'
  | call (sel : ℕ → ℕ → Bool) (adv : RParticle K → RParticle K) : AdvanceOk adv → InRange E (moved sel adv s.parts) → Call E B sel adv s (some s') → Step E B s s'

theorem ids_map (l : List (RParticle K)) (f : RParticle K → RParticle K) (h : ∀ q ∈ l, (f q).id = q.id) : (l.map f).map RParticle.id = l.map RParticle.id := by
  rw [List.map_map]; exact List.map_congr_left h

/-- After any number of steps, all particles are in the domain and none is lost or made. -/
theorem history_inside [FloorRing K] {g : MHGeom K} {E : Env K} {D : Walls K} (h : WallsOk g E D) {B : Reflect K} (hB : ReflectOk E.m.ndim B) (s s' : State K) (hs : Good E s)
    (hin : ∀ l ∈ s.parts, ∀ q ∈ l, D.inside q.base.p) (hsteps : Relation.ReflTransGen (Step E B) s s') :
    Good E s' ∧ (∀ l ∈ s'.parts, ∀ q ∈ l, D.inside q.base.p) ∧ (s'.parts.flatten.map RParticle.id).Perm (s.parts.flatten.map RParticle.id) := by
  induction hsteps with
  | refl => exact ⟨hs, hin, List.Perm.refl _⟩
  | @tail a b _ hstep ih =>
    obtain ⟨ha, hia, hpa⟩ := ih
    cases hstep with
    | exchange hr hp hg =>
      refine ⟨hg, fun l hl q hq => ?_, ?_⟩
      · have : content q ∈ a.parts.flatten.map content := hp.subset (List.mem_map.mpr ⟨q, List.mem_flatten.mpr ⟨l, hl, hq⟩, rfl⟩)
        obtain ⟨q0, hq0, he⟩ := List.mem_map.mp this
        obtain ⟨l0, hl0, hq0⟩ := List.mem_flatten.mp hq0
        have hp : q0.base.p = q.base.p := congrArg (fun x => x.2.1) he
        rw [← hp]
        exact hia l0 hl0 q0 hq0
      · have := hp.map Prod.fst
        rw [List.map_map, List.map_map] at this
        exact this.trans hpa
    | call sel adv hadv hr hcall =>
      obtain ⟨b', hb, hg, hlen, hi, hall⟩ := call_spec h hB hadv sel a ha hia hr _ hcall
      obtain rfl := Option.some.inj hb
      refine ⟨hg, hi, ?_⟩
      have hids : b.parts.map (List.map RParticle.id) = a.parts.map (List.map RParticle.id) := by
        apply List.ext_getElem?
        intro i
        rw [List.getElem?_map, List.getElem?_map]
        cases hl : a.parts[i]? with
        | none =>
          have : b.parts[i]? = none := by
            rw [List.getElem?_eq_none_iff] at hl ⊢
            omega
          rw [this]
        | some l =>
          have hm : (moved sel adv a.parts)[i]? = some (advance (sel i) adv (preAdvection (sel i) l)) := by
            rw [moved, List.getElem?_mapIdx, hl]; rfl
          obtain ⟨f, hf, hf2⟩ := hall i _ hm
          obtain ⟨f0, hf0, hf02⟩ := moved_spec hadv (sel i) l
          rw [hf, Option.map_some, Option.map_some, ids_map _ _ fun q hq => (hf2 q hq).1, hf0, ids_map _ _ fun q _ => (hf02 q).1]
      rw [List.map_flatten, hids, ← List.map_flatten]
      exact hpa

/-! ### Velocity and time -/

theorem scalar_reflect (ndim : ℕ) (v n w : ℕ → K) (hw : ∀ d < ndim, w d = v d - 2 * scalar ndim v n * n d) :
    scalar ndim w w = scalar ndim v v - 4 * scalar ndim v n ^ 2 + 4 * scalar ndim v n ^ 2 * scalar ndim n n := by
  set k := 2 * scalar ndim v n with hk
  have key : ∀ m ≤ ndim, scalar m w w = scalar m v v - 2 * k * scalar m v n + k ^ 2 * scalar m n n := by
    intro m hm
    induction m with
    | zero => simp [scalar]
    | succ m ih =>
      have e := ih (by omega)
      unfold scalar at e ⊢
      simp only [List.range_succ, List.map_append, List.sum_append, List.map_cons, List.map_nil, List.sum_cons, List.sum_nil, add_zero]
      rw [e, hw m (by omega)]
      ring
  rw [key ndim le_rfl, hk]
  ring

/-- A reflection at a wall with a unit normal (C30) keeps the speed, and reverses the velocity along the normal. -/
theorem speed_kept {ndim : ℕ} {B : Reflect K} (hB : ReflectOk ndim B) (q : RParticle K) (pt n : List K) (hn : scalar ndim (vec n) (vec n) = 1)
    (hpt : ∃ s, 0 ≤ s ∧ s ≤ 1 ∧ ∀ d < ndim, vec pt d = along q.base.pp q.base.p s d) :
    scalar ndim (B q pt n).v (B q pt n).v = scalar ndim q.v q.v ∧ scalar ndim (B q pt n).v (vec n) = - scalar ndim q.v (vec n) := by
  obtain ⟨-, -, hv, -⟩ := hB q pt n hpt
  refine ⟨by rw [scalar_reflect ndim q.v (vec n) _ hv, hn]; ring, ?_⟩
  have key : ∀ m ≤ ndim, scalar m (B q pt n).v (vec n) = scalar m q.v (vec n) - 2 * scalar ndim q.v (vec n) * scalar m (vec n) (vec n) := by
    intro m hm
    induction m with
    | zero => simp [scalar]
    | succ m ih =>
      have e := ih (by omega)
      have hvm := hv m (by omega)
      unfold scalar at e hvm ⊢
      simp only [List.range_succ, List.map_append, List.sum_append, List.map_cons, List.map_nil, List.sum_cons, List.sum_nil, add_zero]
      rw [e, hvm]
      ring
  rw [key ndim le_rfl, hn]
  ring

/-- The time is rewound: if the particle moved freely with velocity `v` for the time `last`, and its time before the move was `total - last`, then after
the reflection its position is where it was after the time `last'`, and its time is the time before the move plus `last'`. -/
theorem time_rewound {ndim : ℕ} {B : Reflect K} (hB : ReflectOk ndim B) (q : RParticle K) (pt n : List K)
    (hpt : ∃ s, 0 ≤ s ∧ s ≤ 1 ∧ ∀ d < ndim, vec pt d = along q.base.pp q.base.p s d) (h0 : 0 ≤ q.last)
    (hmove : ∀ d < ndim, q.base.p d = q.base.pp d + q.last * q.v d) :
    (∀ d < ndim, (B q pt n).base.p d = q.base.pp d + (B q pt n).last * q.v d) ∧ (B q pt n).total - (B q pt n).last = q.total - q.last ∧
      0 ≤ (B q pt n).last ∧ (B q pt n).last ≤ q.last := by
  obtain ⟨-, -, -, f, hf0, hf1, hp, hl, ht⟩ := hB q pt n hpt
  refine ⟨fun d hd => ?_, by rw [ht]; ring, by rw [hl]; positivity, by rw [hl]; nlinarith⟩
  rw [hp d hd, hl, along, hmove d hd]
  ring

end walls

/-! ### A concrete case: a square, one cell, four walls -/

/-- The coordinate and the value of wall `id`: 0 is `x = 0`, 1 is `x = 1`, 2 is `y = 0`, 3 is `y = 1`. -/
def exCoord (id : ℤ) (p : V3 ℚ) : ℚ := if id < 2 then p.x else p.y
def exValue (id : ℤ) : ℚ := if id = 0 ∨ id = 2 then 0 else 1

def exTests : Tests ℚ where
  plane _ := ⟨⟨0, 0, 0⟩, ⟨0, 0, 1⟩, 0⟩
  quadFound _ _ _ _ := false
  triFound _ _ := false
  lli g p0 p1 :=
    let a := exCoord g.id p0
    let b := exCoord g.id p1
    let t := (exValue g.id - a) / (b - a)
    if a ≠ b ∧ 0 ≤ t ∧ t ≤ 1 then (true, ⟨p0.x + t * (p1.x - p0.x), p0.y + t * (p1.y - p0.y), 0⟩) else (false, ⟨0, 0, 0⟩)
  gridX := 1
  gridY := 1
  realMax := 1000

def exWall (id : ℤ) : RG ℚ :=
  ⟨7, id, ⟨id, .seg, fun _ => 0, fun _ => 1, 2, if id < 2 then [1, 0] else [0, 1]⟩⟩
def exWalls : List (RG ℚ) := [exWall 0, exWall 1, exWall 2, exWall 3]
def exGeom : MHGeom ℚ := ⟨⟨2, fun _ => 1, 1⟩, fun _ => 0, 1, 1⟩
def exEnv : Env ℚ where
  m := exGeom.toMH
  cart := fun _ x => ⌊x⌋
  T := exTests
  data := fun c => if c = 0 then exWalls else []
  junk := fun _ => []
  composites := [7]
  numCells := 1
def exDomain : Walls ℚ where
  inside := fun x => 0 < x 0 ∧ x 0 < 1 ∧ 0 < x 1 ∧ x 1 < 1
  geoms := exWalls
  surface := fun r x => 0 ≤ x 0 ∧ x 0 ≤ 1 ∧ 0 ≤ x 1 ∧ x 1 ≤ 1 ∧ (if r.id < 2 then x 0 else x 1) = exValue r.id

open Classical in
/-- A reflection that puts the particle half way to the wall. -/
noncomputable def exReflect : Reflect ℚ := fun q pt n =>
  let half := along q.base.pp (vec pt) (1 / 2)
  let f := if h : ∃ s : ℚ, 0 ≤ s ∧ s ≤ 1 ∧ ∀ d < 2, vec pt d = along q.base.pp q.base.p s d then h.choose / 2 else 0
  { q with base := { q.base with p := half }, v := fun d => q.v d - 2 * scalar 2 q.v (vec n) * vec n d, last := f * q.last, total := q.total - q.last + f * q.last }

theorem exReflect_ok : ReflectOk 2 exReflect := by
  intro q pt n hpt
  refine ⟨⟨rfl, rfl, rfl, rfl⟩, ⟨1 / 2, by norm_num, by norm_num, fun d _ => rfl⟩, fun d _ => rfl, hpt.choose / 2, ?_, ?_, fun d hd => ?_, ?_, ?_⟩
  · have := hpt.choose_spec.1; positivity
  · have := hpt.choose_spec.2.1; linarith
  · have := hpt.choose_spec.2.2 d hd
    simp only [exReflect, along] at this ⊢
    rw [this]
    ring
  · simp only [exReflect]
    rw [dif_pos hpt]
  · simp only [exReflect]

theorem exWall_mem {r : RG ℚ} (hr : r ∈ exWalls) : ∃ k : ℤ, (k = 0 ∨ k = 1 ∨ k = 2 ∨ k = 3) ∧ r = exWall k := by
  simp only [exWalls, List.mem_cons, List.not_mem_nil, or_false] at hr
  rcases hr with rfl | rfl | rfl | rfl
  exacts [⟨0, by simp, rfl⟩, ⟨1, by simp, rfl⟩, ⟨2, by simp, rfl⟩, ⟨3, by simp, rfl⟩]

/-- The way out of the unit interval. -/
theorem exit1 (a b : ℚ) (h0 : 0 < a) (h1 : a < 1) : ∃ t, 0 ≤ t ∧ t ≤ 1 ∧ (∀ u, 0 ≤ u → u ≤ t → 0 ≤ a + u * (b - a) ∧ a + u * (b - a) ≤ 1) ∧
    ((t = 1 ∧ 0 < b ∧ b < 1) ∨ a + t * (b - a) = 0 ∨ a + t * (b - a) = 1) := by
  by_cases hb0 : b ≤ 0
  · have hd : 0 < a - b := by linarith
    have hta : a / (a - b) * (a - b) = a := div_mul_cancel₀ a hd.ne'
    refine ⟨a / (a - b), by positivity, by rw [div_le_one hd]; linarith, fun u hu0 hu => ?_, Or.inr (Or.inl (by linarith))⟩
    have : u * (a - b) ≤ a := le_trans (mul_le_mul_of_nonneg_right hu hd.le) hta.le
    exact ⟨by linarith, by nlinarith⟩
  · by_cases hb1 : 1 ≤ b
    · have hd : 0 < b - a := by linarith
      have hta : (1 - a) / (b - a) * (b - a) = 1 - a := div_mul_cancel₀ _ hd.ne'
      refine ⟨(1 - a) / (b - a), div_nonneg (by linarith) hd.le, by rw [div_le_one hd]; linarith, fun u hu0 hu => ?_, Or.inr (Or.inr (by linarith))⟩
      have : u * (b - a) ≤ 1 - a := le_trans (mul_le_mul_of_nonneg_right hu hd.le) hta.le
      exact ⟨by nlinarith, by linarith⟩
    · push Not at hb0 hb1
      exact ⟨1, by norm_num, le_rfl, fun u hu0 hu => ⟨by nlinarith, by nlinarith⟩, Or.inl ⟨rfl, hb0, hb1⟩⟩

/-- All hypotheses on the walls hold for this case. -/
theorem ex_ok : WallsOk exGeom exEnv exDomain where
  grid := ⟨⟨by decide, fun d _ => by norm_num [exGeom], by decide⟩, by decide, by norm_num [exGeom], by norm_num [exGeom]⟩
  ndim := Or.inl rfl
  env := rfl
  cart := ⟨fun d x y h => Int.floor_mono h, fun d _ x _ _ => by
    simp only [exEnv, exGeom, zero_add, mul_one]
    exact ⟨Int.floor_le x, Int.lt_floor_add_one x⟩⟩
  inGrid := by
    rintro x ⟨h0, h1, h2, h3⟩ d hd
    have : d = 0 ∨ d = 1 := by simp only [exGeom] at hd; omega
    have a0 : ⌊x 0⌋ = 0 := Int.floor_eq_zero_iff.mpr ⟨h0.le, h1⟩
    have a1 : ⌊x 1⌋ = 0 := Int.floor_eq_zero_iff.mpr ⟨h2.le, h3⟩
    rcases this with rfl | rfl <;> simp [exEnv, exGeom, a0, a1]
  congr := by
    rintro x y h ⟨h0, h1, h2, h3⟩
    have e0 := h 0 (by decide)
    have e1 := h 1 (by decide)
    exact ⟨e0 ▸ h0, e0 ▸ h1, e1 ▸ h2, e1 ▸ h3⟩
  closed := by
    rintro a b ⟨a0, a1, a2, a3⟩ hb
    obtain ⟨t, ht0, ht1, htu, ht⟩ := exit1 (a 0) (b 0) a0 a1
    obtain ⟨t', hu0, hu1, huu, hu⟩ := exit1 (a 1) (b 1) a2 a3
    have hx : ∀ u, 0 ≤ u → u ≤ t → 0 ≤ along a b u 0 ∧ along a b u 0 ≤ 1 := htu
    have hy : ∀ u, 0 ≤ u → u ≤ t' → 0 ≤ along a b u 1 ∧ along a b u 1 ≤ 1 := huu
    have mk : ∀ (k : ℤ) u, (k = 0 ∨ k = 1 ∨ k = 2 ∨ k = 3) → 0 ≤ u → u ≤ 1 → u ≤ t → u ≤ t' → (if k < 2 then along a b u 0 else along a b u 1) = exValue k →
        ∃ r ∈ exWalls, ∃ s, 0 ≤ s ∧ s ≤ 1 ∧ exDomain.surface r (along a b s) := by
      intro k u hk h0 h1 h2 h3 h4
      refine ⟨exWall k, ?_, u, h0, h1, (hx u h0 h2).1, (hx u h0 h2).2, (hy u h0 h3).1, (hy u h0 h3).2, h4⟩
      rcases hk with rfl | rfl | rfl | rfl <;> simp [exWalls]
    have hX : ∀ (v : ℚ), (v = 0 ∨ v = 1) → along a b t 0 = v → t ≤ t' → ∃ r ∈ exWalls, ∃ s, 0 ≤ s ∧ s ≤ 1 ∧ exDomain.surface r (along a b s) := by
      rintro v (rfl | rfl) h hle
      · exact mk 0 t (by simp) ht0 ht1 le_rfl hle (by simpa [exValue] using h)
      · exact mk 1 t (by simp) ht0 ht1 le_rfl hle (by simpa [exValue] using h)
    have hY : ∀ (v : ℚ), (v = 0 ∨ v = 1) → along a b t' 1 = v → t' ≤ t → ∃ r ∈ exWalls, ∃ s, 0 ≤ s ∧ s ≤ 1 ∧ exDomain.surface r (along a b s) := by
      rintro v (rfl | rfl) h hle
      · exact mk 2 t' (by simp) hu0 hu1 hle le_rfl (by simpa [exValue] using h)
      · exact mk 3 t' (by simp) hu0 hu1 hle le_rfl (by simpa [exValue] using h)
    rcases le_total t t' with hle | hle
    · rcases ht with ⟨rfl, hb0⟩ | h
      · have h1 : t' = 1 := le_antisymm hu1 hle
        rcases hu with ⟨-, hb1⟩ | h
        · exact absurd ⟨hb0.1, hb0.2, hb1.1, hb1.2⟩ hb
        · exact h.elim (fun h => hY 0 (by simp) h hu1) fun h => hY 1 (by simp) h hu1
      · exact h.elim (fun h => hX 0 (by simp) h hle) fun h => hX 1 (by simp) h hle
    · rcases hu with ⟨rfl, hb1⟩ | h
      · have h1 : t = 1 := le_antisymm ht1 hle
        rcases ht with ⟨-, hb0⟩ | h
        · exact absurd ⟨hb0.1, hb0.2, hb1.1, hb1.2⟩ hb
        · exact h.elim (fun h => hX 0 (by simp) h ht1) fun h => hX 1 (by simp) h ht1
      · exact h.elim (fun h => hY 0 (by simp) h hle) fun h => hY 1 (by simp) h hle
  wallGrid := by
    rintro r hr x ⟨h0, h1, h2, h3, -⟩ d hd
    have : d = 0 ∨ d = 1 := by simp only [exGeom] at hd; omega
    rcases this with rfl | rfl <;> simp [exGeom] <;> constructor <;> assumption
  wallBox := by
    rintro r hr x ⟨h0, h1, h2, h3, -⟩ d hd
    obtain ⟨k, -, rfl⟩ := exWall_mem hr
    have : d = 0 ∨ d = 1 := by simp only [exGeom] at hd; omega
    rcases this with rfl | rfl <;> simp only [exWall] <;> constructor <;> assumption
  given := by
    intro r hr
    refine ⟨1, one_pos, ?_⟩
    rintro c ⟨t, hg, hl, -⟩
    have h0 : c = 0 := by
      obtain ⟨t', ht', rfl⟩ := hl
      have t0 := hg 0 (by decide)
      have t1 := hg 1 (by decide)
      have e0 := ht' 0 (by decide)
      have e1 := ht' 1 (by decide)
      simp only [exGeom, zero_add, Nat.reduceAdd] at t0 t1 e0 e1
      have f0 : t' 0 = 0 := by omega
      have f1 : t' 1 = 0 := by omega
      have f2 : t' 2 = 0 := by omega
      have f3 : t' 3 = 0 := by omega
      simp [tupleToLinearGlobal, exGeom, CartesianMesh.linearIndex, f0, f1, f2, f3]
    subst h0
    exact hr
  only := by
    intro c r hr
    simp only [exEnv] at hr
    split at hr
    · exact hr
    · simp at hr
  good := by
    intro r hr
    obtain ⟨k, hk, rfl⟩ := exWall_mem hr
    refine ⟨Or.inl ⟨rfl, rfl⟩, by simp [exEnv, exWall], ?_⟩
    simp only [exWall]
    split <;> rfl
  ids := by
    intro r hr r' hr' h
    obtain ⟨k, -, rfl⟩ := exWall_mem hr
    obtain ⟨k', -, rfl⟩ := exWall_mem hr'
    simp only [exWall] at h
    rw [h]
  sound := by
    intro r hr a b i _ h
    obtain ⟨k, -, rfl⟩ := exWall_mem hr
    simp only [HitsGeom, exWall, exEnv, exTests] at h
    split at h
    · rename_i hc
      refine ⟨_, hc.2.1, hc.2.2, ?_⟩
      rw [← (Prod.mk.inj h).2]
      simp [point, along, exGeom]
    · simp at h
  complete := by
    intro r hr a b s ha h0 h1 hs
    obtain ⟨k, hk, rfl⟩ := exWall_mem hr
    obtain ⟨a0, a1, a2, a3⟩ := ha
    have hcoord : ∀ x : ℕ → ℚ, exCoord k (point 2 x) = if k < 2 then x 0 else x 1 := fun x => by simp [exCoord, point]
    have hv : (if k < 2 then along a b s 0 else along a b s 1) = exValue k := hs.2.2.2.2
    have hlin : exCoord k (point 2 a) + s * (exCoord k (point 2 b) - exCoord k (point 2 a)) = exValue k := by
      rw [hcoord, hcoord, ← hv]
      split <;> rfl
    have hne : exCoord k (point 2 a) ≠ exValue k := by
      rw [hcoord]
      rcases hk with rfl | rfl | rfl | rfl <;> norm_num [exValue]
      exacts [a0.ne', a1.ne, a2.ne', a3.ne]
    have hab : exCoord k (point 2 a) ≠ exCoord k (point 2 b) := by
      intro h
      rw [h, sub_self, mul_zero, add_zero] at hlin
      exact hne (h.trans hlin)
    have ht : (exValue k - exCoord k (point 2 a)) / (exCoord k (point 2 b) - exCoord k (point 2 a)) = s := by
      rw [div_eq_iff (sub_ne_zero.mpr hab.symm)]
      linarith
    refine ⟨point 2 (along a b s), s, ?_, h0, le_rfl, hs, rfl⟩
    simp only [HitsGeom, exWall, exEnv, exTests, exGeom]
    rw [ht, if_pos ⟨hab, h0, h1⟩]
    simp [point, along]

/-- `find_cells` has a result, for some order of the operations. -/
theorem findCells_exists {K : Type} (m : MH) (cart : ℕ → K → ℤ) (numCells oldSize : ℕ) (particles : List (Particle K)) :
    ∃ result, FindCells m cart numCells oldSize particles result := by
  unfold FindCells
  cases h1 : (resetMinMaxes m.ndim numCells (List.replicate (2 * m.ndim * numCells) 0)).bind
      fun buf => (particles.flatMap (particleOps m cart numCells)).foldlM applyOp buf with
  | none => exact ⟨none, particles.flatMap (particleOps m cart numCells), List.range numCells, [], List.Perm.refl _, List.Perm.refl _, by rw [h1]⟩
  | some buf =>
    cases h2 : maxVolume m.ndim numCells buf (List.range numCells) with
    | none => exact ⟨none, particles.flatMap (particleOps m cart numCells), List.range numCells, [], List.Perm.refl _, List.Perm.refl _, by rw [h1]; simp only [h2]⟩
    | some mx =>
      cases h3 : (List.range numCells).mapM (elementCells m numCells buf) with
      | none =>
        exact ⟨none, particles.flatMap (particleOps m cart numCells), List.range numCells, [], List.Perm.refl _, List.Perm.refl _, by rw [h1]; simp only [h2, h3]⟩
      | some lists =>
        exact ⟨_, particles.flatMap (particleOps m cart numCells), List.range numCells, lists.flatten, List.Perm.refl _, List.Perm.refl _, by
          rw [h1]; simp only [h2, h3]; exact ⟨List.Perm.refl _, rfl⟩⟩

/-- A particle in the middle that moves to the right, and its move by one time step. -/
def exPart : RParticle ℚ := ⟨5, ⟨0, 0, fun _ => 1 / 2, fun _ => 0⟩, fun d => if d = 0 then 1 else 0, 0, 0⟩
def exAdvance (q : RParticle ℚ) : RParticle ℚ :=
  { q with base := { q.base with p := fun d => q.base.p d + q.v d }, total := 1, last := 1 }
def exState : State ℚ := ⟨[{}], [[exPart]]⟩

theorem exState_good : Good exEnv exState := by
  refine ⟨rfl, fun i r hi => ⟨[], ?_⟩, fun l hl => ?_⟩
  · obtain rfl : r = {} := by
      rcases i with _ | i
      · simpa [exState, eq_comm] using hi
      · simp [exState] at hi
    obtain ⟨ranks, h1, h2, h3⟩ := C29.after_any_history exEnv.m.ndim exEnv.data exEnv.junk (boundaryGroup exEnv.composites) 1 [] (by simp) (by simp)
    simp only [history, Option.some.injEq] at h1
    have := h3 0 {} (by rw [← h1]; rfl)
    simpa using this
  · obtain rfl : l = [exPart] := by simpa [exState] using hl
    exact ⟨by simp, by simp [exPart, exEnv]⟩

/-- The hypotheses of `call_spec` hold, the call can be made, and in any such call the particle is reflected: it is between the middle and the wall at
`x = 1` and moves to the left. -/
example : (∃ res, Call exEnv exReflect (fun _ _ => true) exAdvance exState res) ∧
    ∀ res, Call exEnv exReflect (fun _ _ => true) exAdvance exState res → ∃ s' q', res = some s' ∧ s'.parts = [[q']] ∧ q'.id = 5 ∧ q'.base.p 0 = 3 / 4 ∧
      q'.base.p 1 = 1 / 2 ∧ q'.v 0 = -1 := by
  set q1 : RParticle ℚ := exAdvance { exPart with base := preIntegration exPart.base } with hq1
  have hmoved : moved (fun _ _ => true) exAdvance exState.parts = [[q1]] := rfl
  have hp0 : q1.base.p 0 = 3 / 2 := by norm_num [hq1, exAdvance, exPart, preIntegration]
  have hp1 : q1.base.p 1 = 1 / 2 := by norm_num [hq1, exAdvance, exPart, preIntegration]
  have hpp : ∀ d, q1.base.pp d = 1 / 2 := fun d => rfl
  constructor
  · obtain ⟨r, hr⟩ := findCells_exists exEnv.m exEnv.cart exEnv.numCells 128 [q1.base]
    refine ⟨_, [(r, ⟨[0, 0, 0], [0, 0]⟩)], rfl, fun i l x hl hx => ?_, rfl⟩
    rw [hmoved] at hl
    rcases i with _ | i
    · simp at hl hx
      subst hl hx
      exact ⟨⟨128, hr⟩, by simp, by simp [exEnv, exGeom], fun i hi => by simp at hi; subst hi; rfl⟩
    · simp at hl
  · intro res hcall
    obtain ⟨s', hs, -, hlen, -, hall⟩ := call_spec ex_ok exReflect_ok (adv := exAdvance) (fun q => ⟨rfl, rfl, rfl, rfl⟩) (fun _ _ => true) exState exState_good
      (fun l hl q hq => by
        obtain rfl : l = [exPart] := by simpa [exState] using hl
        obtain rfl : q = exPart := by simpa using hq
        norm_num [exDomain, exPart])
      (by
        rw [hmoved]
        intro l hl q hq
        obtain rfl : l = [q1] := by simpa using hl
        obtain rfl : q = q1 := by simpa using hq
        refine ⟨fun d hd => ?_, ?_⟩
        · have : d = 0 ∨ d = 1 := by simp only [exEnv, exGeom] at hd; omega
          rcases this with rfl | rfl
          · rw [hp0]; decide +kernel
          · rw [hp1]; decide +kernel
        · simp only [sqDist, point, hp0, hp1, hpp, exEnv, exGeom, exTests]
          norm_num) res hcall
    obtain ⟨f, hf, hf2⟩ := hall 0 [q1] rfl
    obtain ⟨hid, -, href⟩ := hf2 q1 (by simp)
    refine ⟨s', f q1, hs, ?_, hid, ?_⟩
    · obtain ⟨ranks, parts⟩ := s'
      dsimp only at hf hlen
      rcases parts with _ | ⟨l, _ | ⟨l', parts⟩⟩
      · simp at hf
      · simp at hf; rw [hf]
      · simp [exState] at hlen
    rcases href rfl with ⟨-, hno⟩ | ⟨r, hr, i, hB, hhit, -⟩
    · exfalso
      refine hno (exWall 1) (by simp [exDomain, exWalls]) (1 / 2) (by norm_num) (by norm_num) ?_
      simp only [exDomain, along, hp0, hp1, hpp, exWall, exValue]
      norm_num
    · obtain ⟨k, hk, rfl⟩ := exWall_mem hr
      have hpt : point 2 q1.base.p = ⟨3 / 2, 1 / 2, 0⟩ := by simp [point, hp0, hp1]
      have hppt : point 2 q1.base.pp = ⟨1 / 2, 1 / 2, 0⟩ := by simp [point, hpp]
      have hdim : exEnv.m.ndim = 2 := rfl
      rw [hdim, hpt, hppt] at hhit
      have hk1 : k = 1 ∧ i = ⟨1, 1 / 2, 0⟩ := by
        simp only [HitsGeom, exWall, exEnv, exTests] at hhit
        rcases hk with rfl | rfl | rfl | rfl
        · norm_num [exCoord, exValue] at hhit
        · norm_num [exCoord, exValue] at hhit
          exact ⟨rfl, by rw [← hhit]⟩
        · norm_num [exCoord, exValue] at hhit
        · norm_num [exCoord, exValue] at hhit
      obtain ⟨rfl, rfl⟩ := hk1
      rw [hB]
      refine ⟨?_, ?_, ?_⟩
      · norm_num [exReflect, along, vec, coords, hpp, hdim]
      · norm_num [exReflect, along, vec, coords, hpp, hdim]
      · norm_num [exReflect, scalar, vec, exWall, hq1, exAdvance, exPart, preIntegration, List.range_succ]

end Verif.Props.C93
