import Verif.Spec.Collections
import Verif.Props.C26_BoxClaims

/-! C29: the collections of the composites hold, after any history of requests, exactly the geometries of the cells asked for. -/

namespace Verif.Props.C29
open Verif.Model Verif.Model.MeshHierarchy Verif.Model.HaloCells Verif.Model.Claims Verif.Model.CompositeCollections Verif.Spec Verif.Props.C23

variable {K : Type}

theorem _root_.Verif.Spec.MapOf.congr {α β : Type} {R R' : RG K → Prop} {key : RG K → α} {val : RG K → β → Prop} {m : α → Option β} (h : MapOf R key val m)
    (hR : ∀ r, R r ↔ R' r) : MapOf R' key val m := by
  have : R = R' := funext fun r => propext (hR r)
  rwa [← this]

theorem _root_.Verif.Spec.MapOf.update {α β : Type} [DecidableEq α] {R : RG K → Prop} {key : RG K → α} {val : RG K → β → Prop} {m : α → Option β}
    (h : MapOf R key val m) (r : RG K) (b : β) (hv : val r b) : MapOf (fun g => R g ∨ g = r) key val (Function.update m (key r) (some b)) := by
  constructor
  · rintro g (hg | rfl)
    · by_cases hk : key g = key r
      · rw [hk, Function.update_self]; exact ⟨b, rfl⟩
      · rw [Function.update_of_ne hk]; exact h.1 g hg
    · rw [Function.update_self]; exact ⟨b, rfl⟩
  · intro a b' hb
    by_cases hk : a = key r
    · subst hk
      rw [Function.update_self] at hb
      cases hb
      exact ⟨r, Or.inr rfl, rfl, hv⟩
    · rw [Function.update_of_ne hk] at hb
      obtain ⟨g, hg, h1, h2⟩ := h.2 a b' hb
      exact ⟨g, Or.inl hg, h1, h2⟩

/-- What is left untouched by the loops over the geometries. -/
structure SameCells (a b : Coll K) : Prop where
  collected : b.collected = a.collected
  stack : b.stackCollections = a.stackCollections
  tree : b.tree = a.tree
  normals : b.normals = a.normals

/-- The maps by geometry of `a` hold the geometries `R`. -/
structure Maps (R : RG K → Prop) (a : Coll K) : Prop where
  geoms : MapOf R RG.id (fun g b => b = g.geom) a.geomIdToGeoms
  composites : MapOf R RG.id (fun g b => b = g.composite) a.geomIdToComposite
  compositeGeoms : MapOf R (fun g => (g.composite, g.id)) (fun g b => b = g.geom) (fun p => a.compositesToGeoms p.1 p.2)
  modes : (∀ g, R g → g.geom.numModes ≤ a.maxNumModes) ∧ (a.maxNumModes = 0 ∨ ∃ g, R g ∧ a.maxNumModes = g.geom.numModes)

theorem Maps.congr {R R' : RG K → Prop} {a : Coll K} (h : Maps R a) (hR : ∀ r, R r ↔ R' r) : Maps R' a := by
  have : R = R' := funext fun r => propext (hR r)
  rwa [← this]

theorem Maps.push {R : RG K → Prop} {a : Coll K} (h : Maps R a) (r : RG K) : Maps (fun g => R g ∨ g = r)
    { a with
        compositesToGeoms := Function.update a.compositesToGeoms r.composite (Function.update (a.compositesToGeoms r.composite) r.id (some r.geom))
        geomIdToGeoms := Function.update a.geomIdToGeoms r.id (some r.geom)
        geomIdToComposite := Function.update a.geomIdToComposite r.id (some r.composite)
        maxNumModes := max a.maxNumModes r.geom.numModes } where
  geoms := h.geoms.update r _ rfl
  composites := h.composites.update r _ rfl
  compositeGeoms := by
    have := h.compositeGeoms.update r r.geom rfl
    convert this using 1
    funext p
    obtain ⟨x, y⟩ := p
    dsimp only
    by_cases hx : x = r.composite
    · subst hx
      rw [Function.update_self]
      by_cases hy : y = r.id
      · subst hy; rw [Function.update_self, Function.update_self]
      · rw [Function.update_of_ne hy, Function.update_of_ne (by simp [hy])]
    · rw [Function.update_of_ne hx, Function.update_of_ne (by simp [hx])]
  modes := by
    refine ⟨?_, ?_⟩
    · rintro g (hg | rfl)
      · exact le_trans (h.modes.1 g hg) (le_max_left _ _)
      · exact le_max_right _ _
    · dsimp only
      rcases le_total a.maxNumModes r.geom.numModes with hle | hle
      · right; exact ⟨r, Or.inr rfl, max_eq_right hle⟩
      · rw [max_eq_left hle]
        rcases h.modes.2 with h0 | ⟨g, hg, h1⟩
        · exact Or.inl h0
        · exact Or.inr ⟨g, Or.inl hg, h1⟩

theorem foldlM_push (group : ℤ → Option ℤ) : ∀ (l : List (RG K)) (a : Acc K) (R : RG K → Prop), Maps R a.coll →
    (∀ r ∈ l, (group r.composite).isSome) → ∃ a', l.foldlM (pushGeom group) a = some a' ∧ SameCells a.coll a'.coll ∧
      Maps (fun g => R g ∨ g ∈ l) a'.coll ∧ a'.composite = a.composite ++ l.map RG.composite ∧ a'.ids = a.ids ++ l.map RG.id ∧
      a'.groups = a.groups ++ l.map (fun r => (group r.composite).getD 0) ∧ a'.normalData = a.normalData ++ l.flatMap (fun r => r.geom.normal) ∧
      a'.normalIds = a.normalIds ++ l.map RG.id := by
  intro l
  induction l with
  | nil =>
    intro a R hR _
    exact ⟨a, rfl, ⟨rfl, rfl, rfl, rfl⟩, hR.congr (by simp), by simp, by simp, by simp, by simp, by simp⟩
  | cons r l ih =>
    intro a R hR hg
    obtain ⟨gr, hgr⟩ := Option.isSome_iff_exists.mp (hg r (by simp))
    have hp : ∃ a1, pushGeom group a r = some a1 ∧ SameCells a.coll a1.coll ∧ Maps (fun g => R g ∨ g = r) a1.coll ∧
        a1.composite = a.composite ++ [r.composite] ∧ a1.ids = a.ids ++ [r.id] ∧ a1.groups = a.groups ++ [gr] ∧
        a1.normalData = a.normalData ++ r.geom.normal ∧ a1.normalIds = a.normalIds ++ [r.id] := by
      unfold pushGeom
      rw [hgr]
      exact ⟨_, rfl, ⟨rfl, rfl, rfl, rfl⟩, hR.push r, rfl, rfl, rfl, rfl, rfl⟩
    obtain ⟨a1, h1, hs, hm, c1, c2, c3, c4, c5⟩ := hp
    obtain ⟨a', h', hs', hm', d1, d2, d3, d4, d5⟩ := ih a1 _ hm fun x hx => hg x (List.mem_cons_of_mem _ hx)
    refine ⟨a', ?_, ⟨hs'.1.trans hs.1, hs'.2.trans hs.2, hs'.3.trans hs.3, hs'.4.trans hs.4⟩, hm'.congr fun g => ?_, ?_, ?_, ?_, ?_, ?_⟩
    · rw [List.foldlM_cons, h1]; exact h'
    · simp [or_assoc]
    · rw [d1, c1]; simp
    · rw [d2, c2]; simp
    · rw [d3, c3]; simp [hgr]
    · rw [d4, c4]; simp
    · rw [d5, c5]; simp

/-! ### The normals -/

theorem take_drop_flatMap {s : ℕ} : ∀ (pre l : List (RG K)) (r : RG K), (∀ g ∈ pre ++ r :: l, g.geom.normal.length = s) →
    (((pre ++ r :: l).flatMap fun g => g.geom.normal).drop (s * pre.length)).take s = r.geom.normal := by
  intro pre l r h
  have hl : (pre.flatMap fun g => g.geom.normal).length = s * pre.length := by

    have h' : ∀ g ∈ pre, g.geom.normal.length = s := fun g hg => h g (by simp [hg])
    clear h
    induction pre with
    | nil => simp
    | cons a pre ih =>
      rw [List.flatMap_cons, List.length_append, h' a (by simp), ih fun g hg => h' g (by simp [hg]), List.length_cons]
      ring
  rw [List.flatMap_append, List.flatMap_cons, ← hl, List.drop_left]
  rw [← h r (by simp), List.take_left]

theorem addNormals_spec {s : ℕ} : ∀ (l pre : List (RG K)) (R : RG K → Prop) (m : ℤ → Option (NormalPtr K)),
    (∀ g ∈ pre ++ l, g.geom.normal.length = s) → MapOf R RG.id (fun g (p : NormalPtr K) => (p.data.drop p.offset).take s = g.geom.normal) m →
    MapOf (fun g => R g ∨ g ∈ l) RG.id (fun g (p : NormalPtr K) => (p.data.drop p.offset).take s = g.geom.normal)
      (addNormals s ((pre ++ l).flatMap fun g => g.geom.normal) (l.map RG.id) pre.length m) := by
  intro l
  induction l with
  | nil => intro pre R m _ h; exact h.congr (by simp)
  | cons r l ih =>
    intro pre R m hl h
    have h1 := h.update r ⟨(pre ++ r :: l).flatMap fun g => g.geom.normal, s * pre.length⟩ (take_drop_flatMap pre l r hl)
    have h2 := ih (pre ++ [r]) _ _ (by simpa using hl) h1
    rw [List.map_cons, addNormals]
    have e : pre ++ [r] ++ l = pre ++ r :: l := by simp
    rw [e] at h2
    have e2 : (pre ++ [r]).length = pre.length + 1 := by simp
    rw [e2] at h2
    exact h2.congr (by simp [or_assoc])

/-! ### Splitting by shape -/

theorem getGeometry_spec (ndim : ℕ) (l : List (RG K)) (h : ∀ r ∈ l, BoundaryShape ndim r.geom.shape) :
    getGeometry ndim l = some (ofShape .quad l, ofShape .tri l, ofShape .seg l) := by
  unfold getGeometry
  split_ifs with h0 h3 h2
  · subst h3
    suffices hh : ∀ (l : List (RG K)) (q t s : List (RG K)), (∀ r ∈ l, BoundaryShape 3 r.geom.shape) →
        l.foldlM (fun s gx =>
          if gx.geom.shape = .tri then some (s.1, s.2.1 ++ [gx], s.2.2)
          else if gx.geom.shape = .quad then some (s.1 ++ [gx], s.2.1, s.2.2) else none) (q, t, s) =
        some (q ++ ofShape .quad l, t ++ ofShape .tri l, s ++ ofShape .seg l) by simpa using hh l [] [] [] h
    intro l
    induction l with
    | nil => intro q t s _; simp [ofShape]
    | cons r l ih =>
      intro q t s hl
      rw [List.foldlM_cons]
      have hr := hl r (by simp)
      have hl' : ∀ r ∈ l, BoundaryShape 3 r.geom.shape := fun x hx => hl x (by simp [hx])
      unfold BoundaryShape at hr
      rcases hr with ⟨h', _⟩ | ⟨-, hs | hs⟩
      · omega
      · rw [if_pos hs]
        refine (ih _ _ _ hl').trans ?_
        simp [ofShape, hs]
      · rw [if_neg (by simp [hs]), if_pos hs]
        refine (ih _ _ _ hl').trans ?_
        simp [ofShape, hs]
  · subst h2
    suffices hh : ∀ (l : List (RG K)) (q t s : List (RG K)), (∀ r ∈ l, BoundaryShape 2 r.geom.shape) →
        l.foldlM (fun (s : List (RG K) × List (RG K) × List (RG K)) gx =>
          if gx.geom.shape = .seg then some (s.1, s.2.1, s.2.2 ++ [gx]) else none) (q, t, s) =
        some (q ++ ofShape .quad l, t ++ ofShape .tri l, s ++ ofShape .seg l) by simpa using hh l [] [] [] h
    intro l
    induction l with
    | nil => intro q t s _; simp [ofShape]
    | cons r l ih =>
      intro q t s hl
      rw [List.foldlM_cons]
      have hr := hl r (by simp)
      have hl' : ∀ r ∈ l, BoundaryShape 2 r.geom.shape := fun x hx => hl x (by simp [hx])
      unfold BoundaryShape at hr
      rcases hr with ⟨-, hs⟩ | ⟨h', _⟩
      · rw [if_pos hs]
        refine (ih _ _ _ hl').trans ?_
        simp [ofShape, hs]
      · omega
  · obtain ⟨r, hr⟩ := List.exists_mem_of_length_pos h0
    rcases h r hr with h' | h'
    · exact absurd h'.1 h2
    · exact absurd h'.1 h3
  · have : l = [] := List.length_eq_zero_iff.mp (by omega)
    subst this
    rfl

theorem mem_ofShape (s : Shape) (l : List (RG K)) (r : RG K) : r ∈ ofShape s l ↔ r ∈ l ∧ r.geom.shape = s := by
  simp [ofShape]

/-! ### One cell -/

/-- What `Collected` says of the collections alone. -/
structure CInv (ndim : ℕ) (data : ℤ → List (RG K)) (group : ℤ → Option ℤ) (asked : List ℤ) (c : Coll K) : Prop where
  nodup : c.collected.Nodup
  collected : ∀ x, x ∈ c.collected ↔ x ∈ asked
  tree : ∀ x, c.tree x = if x ∈ asked ∧ data x ≠ [] then some (collectionOf group (data x)) else none
  stack : c.stackCollections = (c.collected.filter fun x => decide (data x ≠ [])).map fun x => collectionOf group (data x)
  normals : MapOf (fun g => ∃ x ∈ asked, g ∈ data x) RG.id (fun g (p : NormalPtr K) => (p.data.drop p.offset).take ndim = g.geom.normal) c.normals
  maps : Maps (fun g => ∃ x ∈ asked, g ∈ data x) c

theorem CInv.congr {ndim : ℕ} {data : ℤ → List (RG K)} {group : ℤ → Option ℤ} {asked asked' : List ℤ} {c : Coll K}
    (h : CInv ndim data group asked c) (ha : ∀ x, x ∈ asked ↔ x ∈ asked') : CInv ndim data group asked' c where
  nodup := h.nodup
  collected x := (h.collected x).trans (ha x)
  tree x := by rw [h.tree x]; simp only [ha x]
  stack := h.stack
  normals := h.normals.congr fun g => by simp only [ha]
  maps := h.maps.congr fun g => by simp only [ha]

theorem collectCell_spec {ndim : ℕ} {data get : ℤ → List (RG K)} {group : ℤ → Option ℤ} {asked : List ℤ} {c : Coll K}
    (h : CInv ndim data group asked c) (cell : ℤ) (hget : get cell = data cell) (hgood : ∀ r ∈ data cell, GoodGeom ndim group r) :
    ∃ c', collectCell ndim get group c cell = some c' ∧ CInv ndim data group (asked ++ [cell]) c' := by
  unfold collectCell
  by_cases hc : cell ∈ c.collected
  · rw [if_pos hc]
    refine ⟨c, rfl, h.congr fun x => ?_⟩
    have := (h.collected cell).mp hc
    constructor
    · intro hx; simp [hx]
    · intro hx
      rcases List.mem_append.mp hx with hx | hx
      · exact hx
      · rw [List.mem_singleton.mp hx]; exact this
  rw [if_neg hc]
  dsimp only
  have hca : cell ∉ asked := fun hx => hc ((h.collected cell).mpr hx)
  rw [hget, getGeometry_spec ndim _ fun r hr => (hgood r hr).1]
  dsimp only
  generalize hl : data cell = l at *
  have hcol : (setInsert c.collected cell).Nodup := nodup_setInsert h.nodup cell
  have hcolm : ∀ x, x ∈ setInsert c.collected cell ↔ x ∈ asked ++ [cell] := by
    intro x
    rw [mem_setInsert, h.collected]; simp
  have hins : setInsert c.collected cell = c.collected ++ [cell] := by rw [setInsert, if_neg hc]
  have hasked : ∀ g, (∃ x ∈ asked ++ [cell], g ∈ data x) ↔ ((∃ x ∈ asked, g ∈ data x) ∨ g ∈ l) := by
    intro g
    constructor
    · rintro ⟨x, hx, hg⟩
      rcases List.mem_append.mp hx with hx | hx
      · exact Or.inl ⟨x, hx, hg⟩
      · rw [List.mem_singleton.mp hx, hl] at hg; exact Or.inr hg
    · rintro (⟨x, hx, hg⟩ | hg)
      · exact ⟨x, by simp [hx], hg⟩
      · exact ⟨cell, by simp, by rwa [hl]⟩
  have hgr : ∀ s, ∀ r ∈ ofShape s l, (group r.composite).isSome := fun s r hr => (hgood r ((mem_ofShape s l r).mp hr).1).2.1
  -- no geometries
  by_cases hnil : l = []
  · subst hnil
    have e : ∀ s, ofShape s ([] : List (RG K)) = [] := fun s => rfl
    simp only [e, List.length_nil, gt_iff_lt, lt_irrefl, or_self, if_false]
    refine ⟨_, rfl, ⟨hcol, hcolm, ?_, ?_, ?_, ?_⟩⟩
    · intro x
      rw [h.tree x]
      by_cases hx : x = cell
      · subst hx; simp [hl]
      · simp [hx]
    · dsimp only
      rw [h.stack, hins, List.filter_append]
      simp [hl]
    · exact h.normals.congr fun g => by rw [hasked]; simp
    · have := h.maps.congr (R' := fun g => ∃ x ∈ asked ++ [cell], g ∈ data x) fun g => by rw [hasked]; simp
      exact ⟨this.1, this.2, this.3, this.4⟩
  -- in both cases
  have finish : ∀ (cc : CC K) (a : Coll K) (m : ℤ → Option (NormalPtr K)), cc = collectionOf group l →
      SameCells { c with collected := setInsert c.collected cell } a →
      Maps (fun g => (∃ x ∈ asked, g ∈ data x) ∨ g ∈ l) a →
      MapOf (fun g => (∃ x ∈ asked, g ∈ data x) ∨ g ∈ l) RG.id (fun g (p : NormalPtr K) => (p.data.drop p.offset).take ndim = g.geom.normal) m →
      CInv ndim data group (asked ++ [cell]) { a with
        stackCollections := a.stackCollections ++ [cc]
        tree := Function.update a.tree cell (some cc)
        normals := m } := by
    rintro cc a m rfl hs hm hn
    have hm' := hm.congr fun g => (hasked g).symm
    refine ⟨?_, ?_, ?_, ?_, hn.congr fun g => (hasked g).symm, ⟨hm'.1, hm'.2, hm'.3, hm'.4⟩⟩
    · dsimp only; rw [hs.collected]; exact hcol
    · dsimp only; rw [hs.collected]; exact hcolm
    · intro x
      dsimp only
      rw [hs.tree]
      dsimp only
      by_cases hx : x = cell
      · subst hx
        rw [Function.update_self, if_pos ⟨by simp, by rwa [hl]⟩, hl]
      · rw [Function.update_of_ne hx, h.tree x]
        simp [hx]
    · dsimp only
      rw [hs.collected, hs.stack]
      dsimp only
      rw [hins, List.filter_append, h.stack]
      simp [hl, hnil]
  obtain ⟨r0, hr0⟩ := List.exists_mem_of_ne_nil l hnil
  by_cases h3 : ndim = 3
  · -- triangles and quads
    have hseg : ofShape .seg l = [] := by
      rw [ofShape, List.filter_eq_nil_iff]
      intro r hr
      rcases (hgood r hr).1 with ⟨h', _⟩ | ⟨-, h' | h'⟩
      · omega
      · simp [h']
      · simp [h']
    have hqt : (ofShape .quad l).length > 0 ∨ (ofShape .tri l).length > 0 := by
      rcases (hgood r0 hr0).1 with ⟨h', _⟩ | ⟨-, h' | h'⟩
      · omega
      · right; exact List.length_pos_of_mem ((mem_ofShape _ _ r0).mpr ⟨hr0, h'⟩)
      · left; exact List.length_pos_of_mem ((mem_ofShape _ _ r0).mpr ⟨hr0, h'⟩)
    have hmem : ∀ g, g ∈ l ↔ (g ∈ ofShape .quad l ∨ g ∈ ofShape .tri l) := by
      intro g
      rw [mem_ofShape, mem_ofShape]
      constructor
      · intro hg
        rcases (hgood g hg).1 with ⟨h', _⟩ | ⟨-, h' | h'⟩
        · omega
        · exact Or.inr ⟨hg, h'⟩
        · exact Or.inl ⟨hg, h'⟩
      · rintro (hg | hg) <;> exact hg.1
    rw [if_pos hqt]
    obtain ⟨aq, q1, q2, q3, q4, q5, q6, q7, q8⟩ := foldlM_push group (ofShape .quad l) { coll := { c with collected := setInsert c.collected cell } }
      (fun g => ∃ x ∈ asked, g ∈ data x) ⟨h.maps.1, h.maps.2, h.maps.3, h.maps.4⟩ (hgr _)
    obtain ⟨at', t1, t2, t3, t4, t5, t6, t7, t8⟩ := foldlM_push group (ofShape .tri l) { aq with groups := [] } _ q3 (hgr _)
    simp only [q1, t1]
    rw [hseg]
    simp only [List.length_nil, gt_iff_lt, lt_irrefl, if_false, or_false]
    rw [if_pos hqt]
    refine ⟨_, rfl, finish _ _ _ ?_ ⟨t2.1.trans q2.1, t2.2.trans q2.2, t2.3.trans q2.3, t2.4.trans q2.4⟩ ?_ ?_⟩
    · simp only [collectionOf, hseg, q4, q5, q6, t4, t5, t6, List.map_append, List.nil_append, List.map_nil, List.length_nil]
    · exact t3.congr fun g => by simp only [hmem]; rw [or_assoc]
    · rw [t7, t8, q7, q8, t2.normals, q2.normals]
      dsimp only
      rw [List.nil_append, List.nil_append, ← List.flatMap_append, ← List.map_append]
      have hn := h.normals
      rw [h3] at hn ⊢
      have := addNormals_spec (s := 3) (ofShape .quad l ++ ofShape .tri l) [] _ _ (by
        intro g hg
        rw [List.nil_append, List.mem_append, ← hmem] at hg
        rw [(hgood g hg).2.2, h3]) hn
      rw [List.nil_append] at this
      exact this.congr fun g => by rw [List.mem_append, ← hmem]
  · -- segments
    have h2 : ndim = 2 := by
      rcases (hgood r0 hr0).1 with ⟨h', _⟩ | ⟨h', _⟩
      · exact h'
      · exact absurd h' h3
    have hall : ∀ r ∈ l, r.geom.shape = .seg := by
      intro r hr
      rcases (hgood r hr).1 with ⟨_, h'⟩ | ⟨h', _⟩
      · exact h'
      · exact absurd h' h3
    have hquad : ofShape .quad l = [] := by
      rw [ofShape, List.filter_eq_nil_iff]; intro r hr; simp [hall r hr]
    have htri : ofShape .tri l = [] := by
      rw [ofShape, List.filter_eq_nil_iff]; intro r hr; simp [hall r hr]
    have hseg : ofShape .seg l = l := by
      rw [ofShape, List.filter_eq_self]; intro r hr; simp [hall r hr]
    have hlen : l.length > 0 := List.length_pos_of_mem hr0
    rw [hquad, htri, hseg]
    simp only [List.length_nil, gt_iff_lt, lt_irrefl, or_self, if_false, false_or]
    obtain ⟨as, s1, s2, s3, s4, s5, s6, s7, s8⟩ := foldlM_push group l
      { coll := { c with collected := setInsert c.collected cell }, composite := [], ids := [], groups := [] }
      (fun g => ∃ x ∈ asked, g ∈ data x) ⟨h.maps.1, h.maps.2, h.maps.3, h.maps.4⟩ (by have := hgr .seg; rwa [hseg] at this)
    simp only [gt_iff_lt] at hlen
    simp only [hlen, if_true, s1]
    refine ⟨_, rfl, finish _ _ _ ?_ s2 s3 ?_⟩
    · simp only [collectionOf, hquad, htri, hseg, s4, s5, s6, List.map_append, List.nil_append, List.map_nil, List.length_nil, List.append_nil]
    · rw [s7, s8, s2.normals]
      dsimp only
      rw [List.nil_append, List.nil_append]
      have hn := h.normals
      rw [h2] at hn ⊢
      have := addNormals_spec (s := 2) l [] _ _ (by
        intro g hg
        rw [List.nil_append] at hg
        rw [(hgood g hg).2.2, h2]) hn
      rwa [List.nil_append] at this

theorem collectCells_spec {ndim : ℕ} {data get : ℤ → List (RG K)} {group : ℤ → Option ℤ} : ∀ (cells : List ℤ) (asked : List ℤ) (c : Coll K),
    CInv ndim data group asked c → (∀ x ∈ cells, get x = data x) → (∀ x ∈ cells, ∀ r ∈ data x, GoodGeom ndim group r) →
    ∃ c', cells.foldlM (collectCell ndim get group) c = some c' ∧ CInv ndim data group (asked ++ cells) c' := by
  intro cells
  induction cells with
  | nil => intro asked c h _ _; exact ⟨c, rfl, by simpa using h⟩
  | cons x l ih =>
    intro asked c h hget hgood
    obtain ⟨c1, h1, h2⟩ := collectCell_spec h x (hget x (by simp)) (hgood x (by simp))
    obtain ⟨c', h3, h4⟩ := ih _ c1 h2 (fun y hy => hget y (by simp [hy])) fun y hy => hgood y (by simp [hy])
    refine ⟨c', ?_, by simpa using h4⟩
    rw [List.foldlM_cons, h1]
    exact h3

/-! ### The transport -/

theorem mem_newCells (t : Transport) (cells : List ℤ) (x : ℤ) : x ∈ newCells t cells ↔ x ∈ cells ∧ x ∉ t.held := by
  unfold newCells
  suffices h : ∀ (cells acc : List ℤ), x ∈ cells.foldl (fun cells cx => if cx ∈ t.held then cells else setInsert cells cx) acc ↔
      x ∈ acc ∨ (x ∈ cells ∧ x ∉ t.held) by simpa using h cells []
  intro cells
  induction cells with
  | nil => intro acc; simp
  | cons a l ih =>
    intro acc
    rw [List.foldl_cons, ih]
    split_ifs with ha
    · constructor
      · rintro (h | h)
        · exact Or.inl h
        · exact Or.inr ⟨by simp [h.1], h.2⟩
      · rintro (h | ⟨h, h'⟩)
        · exact Or.inl h
        · rcases List.mem_cons.mp h with rfl | h
          · exact absurd ha h'
          · exact Or.inr ⟨h, h'⟩
    · rw [mem_setInsert]
      constructor
      · rintro ((h | rfl) | h)
        · exact Or.inl h
        · exact Or.inr ⟨by simp, ha⟩
        · exact Or.inr ⟨by simp [h.1], h.2⟩
      · rintro (h | ⟨h, h'⟩)
        · exact Or.inl (Or.inl h)
        · rcases List.mem_cons.mp h with rfl | h
          · exact Or.inl (Or.inr rfl)
          · exact Or.inr ⟨h, h'⟩

theorem mem_foldl_setInsert (l acc : List ℤ) (x : ℤ) : x ∈ l.foldl setInsert acc ↔ x ∈ acc ∨ x ∈ l := by
  induction l generalizing acc with
  | nil => simp
  | cons a l ih => rw [List.foldl_cons, ih, mem_setInsert, List.mem_cons, or_assoc]

theorem collectGeometry_spec {ndim : ℕ} {data junk : ℤ → List (RG K)} {group : ℤ → Option ℤ} {asked : List ℤ} {r : Rank K}
    (h : Collected ndim data group asked r) (globalMax : ℕ) (cells : List ℤ) (hmax : (newCells r.transport cells).length ≤ globalMax)
    (hgood : ∀ x ∈ cells, ∀ g ∈ data x, GoodGeom ndim group g) :
    ∃ r', collectGeometry ndim data junk group globalMax r cells = some r' ∧ Collected ndim data group (asked ++ cells) r' := by
  unfold collectGeometry
  dsimp only
  have hheld : ∀ x, x ∈ (gatherCells globalMax r.transport (newCells r.transport cells)).held ↔ x ∈ asked ++ cells := by
    intro x
    simp only [gatherCells]
    rw [mem_foldl_setInsert, mem_newCells, h.held, List.mem_append]
    by_cases hx : x ∈ asked <;> simp [hx]
  have hgath : ∀ x ∈ asked ++ cells, x ∈ (gatherCells globalMax r.transport (newCells r.transport cells)).gathered := by
    intro x hx
    simp only [gatherCells]
    by_cases ha : x ∈ asked
    · have := h.gathered x ha
      split_ifs <;> simp [this]
    · have hn : x ∈ newCells r.transport cells := by
        rw [mem_newCells, h.held]
        exact ⟨(List.mem_append.mp hx).resolve_left ha, ha⟩
      have := List.length_pos_of_mem hn
      rw [if_pos (by omega)]
      simp [hn]
  obtain ⟨c', h1, h2⟩ := collectCells_spec (get := containerGet data junk (gatherCells globalMax r.transport (newCells r.transport cells)))
    cells asked r.coll ⟨h.nodup, h.collected, h.tree, h.stack, h.normals, ⟨h.geoms, h.composites, h.compositeGeoms,
      ⟨fun g ⟨x, hx, hg⟩ => h.modes.1 x hx g hg, h.modes.2.imp_right fun ⟨x, hx, g, hg, e⟩ => ⟨g, ⟨x, hx, hg⟩, e⟩⟩⟩⟩
    (fun x hx => by rw [containerGet, if_pos (hgath x (by simp [hx]))]) hgood
  rw [h1]
  exact ⟨_, rfl, ⟨hheld, h2.nodup, h2.collected, hgath, h2.tree, h2.stack, h2.normals, h2.maps.1, h2.maps.2, h2.maps.3,
    ⟨fun x hx g hg => h2.maps.4.1 g ⟨x, hx, hg⟩, h2.maps.4.2.imp_right fun ⟨g, ⟨x, hx, hg⟩, e⟩ => ⟨x, hx, g, hg, e⟩⟩⟩⟩

theorem le_foldl_max (l : List ℕ) (a : ℕ) : a ≤ l.foldl max a ∧ ∀ x ∈ l, x ≤ l.foldl max a := by
  induction l generalizing a with
  | nil => simp
  | cons b l ih =>
    rw [List.foldl_cons]
    have := ih (max a b)
    refine ⟨le_trans (le_max_left a b) this.1, fun x hx => ?_⟩
    rcases List.mem_cons.mp hx with rfl | hx
    · exact le_trans (le_max_right a x) this.1
    · exact this.2 x hx

theorem mapM_index {α β : Type} (f : α → Option β) (l : List α) (P : ℕ → β → Prop)
    (h : ∀ i a, l[i]? = some a → ∃ b, f a = some b ∧ P i b) :
    ∃ l', l.mapM f = some l' ∧ l'.length = l.length ∧ ∀ i b, l'[i]? = some b → P i b := by
  induction l generalizing P with
  | nil => exact ⟨[], rfl, rfl, by simp⟩
  | cons a l ih =>
    obtain ⟨b, hb, hP⟩ := h 0 a rfl
    obtain ⟨l', h1, h2, h3⟩ := ih (fun i b => P (i + 1) b) fun i x hx => h (i + 1) x (by simpa using hx)
    refine ⟨b :: l', ?_, by simp [h2], ?_⟩
    · rw [List.mapM_cons, hb, h1]; rfl
    · intro i x hx
      cases i with
      | zero => simp at hx; rwa [← hx]
      | succ i => exact h3 i x (by simpa using hx)

theorem history_spec {ndim : ℕ} {data junk : ℤ → List (RG K)} {group : ℤ → Option ℤ} (n : ℕ) :
    ∀ (reqs : List (List (List ℤ))) (ranks : List (Rank K)) (asked : ℕ → List ℤ), ranks.length = n → (∀ req ∈ reqs, req.length = n) →
    (∀ req ∈ reqs, ∀ cells ∈ req, ∀ x ∈ cells, ∀ g ∈ data x, GoodGeom ndim group g) →
    (∀ i r, ranks[i]? = some r → Collected ndim data group (asked i) r) →
    ∃ ranks', history ndim data junk group ranks reqs = some ranks' ∧ ranks'.length = n ∧
      ∀ i r, ranks'[i]? = some r → Collected ndim data group (asked i ++ reqs.flatMap fun req => req.getD i []) r := by
  intro reqs
  induction reqs with
  | nil => intro ranks asked hn _ _ h; exact ⟨ranks, rfl, hn, by simpa using h⟩
  | cons req l ih =>
    intro ranks asked hn hlen hgood h
    rw [history, collectAll]
    have hreq := hlen req (by simp)
    obtain ⟨r1, h1, h2, h3⟩ := mapM_index
      (fun rc => collectGeometry ndim data junk group
        (((ranks.zip req).map fun rc => (newCells rc.1.transport rc.2).length).foldl max 0) rc.1 rc.2) (ranks.zip req)
      (fun i r => Collected ndim data group (asked i ++ req.getD i []) r) (by
        intro i rc hrc
        obtain ⟨ha, hb⟩ := List.getElem?_zip_eq_some.mp hrc
        have e : req.getD i [] = rc.2 := by rw [List.getD_eq_getElem?_getD, hb]; rfl
        rw [e]
        exact collectGeometry_spec (h i _ ha) _ _ ((le_foldl_max _ _).2 _ (List.mem_map.mpr ⟨rc, List.mem_of_getElem? hrc, rfl⟩))
          (hgood req (by simp) rc.2 (List.mem_of_getElem? hb)))
    rw [h1, Option.bind_some]
    obtain ⟨ranks', h4, h5, h6⟩ := ih r1 (fun i => asked i ++ req.getD i []) (by rw [h2, List.length_zip, hn, hreq, min_self])
      (fun q hq => hlen q (by simp [hq])) (fun q hq => hgood q (by simp [hq])) h3
    exact ⟨ranks', h4, h5, fun i r hr => by simpa using h6 i r hr⟩

/-- **C29.** After any history of collective calls, on any number of ranks, each rank has collected exactly the cells it asked for, each once, and holds
for each of these the geometries of the cell; no call fails. -/
theorem after_any_history (ndim : ℕ) (data junk : ℤ → List (RG K)) (group : ℤ → Option ℤ) (n : ℕ) (reqs : List (List (List ℤ)))
    (hlen : ∀ req ∈ reqs, req.length = n) (hgood : ∀ req ∈ reqs, ∀ cells ∈ req, ∀ x ∈ cells, ∀ g ∈ data x, GoodGeom ndim group g) :
    ∃ ranks, history ndim data junk group (List.replicate n {}) reqs = some ranks ∧ ranks.length = n ∧
      ∀ i r, ranks[i]? = some r → Collected ndim data group (reqs.flatMap fun req => req.getD i []) r := by
  have hempty : ∀ (i : ℕ) (r : Rank K), (List.replicate n ({} : Rank K))[i]? = some r → Collected ndim data group [] r := by
    intro i r hr
    have : r = {} := List.eq_of_mem_replicate (List.mem_of_getElem? hr)
    subst this
    exact ⟨by simp, by simp, by simp, by simp, by simp, by simp, ⟨by simp, by simp⟩, ⟨by simp, by simp⟩, ⟨by simp, by simp⟩,
      ⟨by simp, by simp⟩, ⟨by simp, Or.inl rfl⟩⟩
  obtain ⟨ranks, h1, h2, h3⟩ := history_spec (junk := junk) n reqs _ (fun _ => []) (by simp) hlen hgood hempty
  exact ⟨ranks, h1, h2, by simpa using h3⟩

/-- Two ranks that asked for the same cells, in any order and any number of times, hold the same collections and as many of them. -/
theorem order_independent {ndim : ℕ} {data : ℤ → List (RG K)} {group : ℤ → Option ℤ} {asked asked' : List ℤ} {r r' : Rank K}
    (h : Collected ndim data group asked r) (h' : Collected ndim data group asked' r') (ha : ∀ c, c ∈ asked ↔ c ∈ asked') :
    r.coll.tree = r'.coll.tree ∧ r.coll.collected.Perm r'.coll.collected ∧ r.coll.stackCollections.Perm r'.coll.stackCollections := by
  have hp : r.coll.collected.Perm r'.coll.collected := by
    rw [List.perm_ext_iff_of_nodup h.nodup h'.nodup]
    intro c
    rw [h.collected, h'.collected, ha]
  refine ⟨funext fun c => ?_, hp, ?_⟩
  · rw [h.tree, h'.tree]; simp only [ha]
  · rw [h.stack, h'.stack]
    exact (hp.filter _).map _

/-- Asking for more cells loses nothing. -/
theorem nothing_lost {ndim : ℕ} {data : ℤ → List (RG K)} {group : ℤ → Option ℤ} {asked more : List ℤ} {r r' : Rank K}
    (h : Collected ndim data group asked r) (h' : Collected ndim data group (asked ++ more) r') (c : ℤ) (hc : c ∈ r.coll.collected) :
    c ∈ r'.coll.collected ∧ r'.coll.tree c = r.coll.tree c := by
  have := (h.collected c).mp hc
  rw [h'.collected, h'.tree, h.tree]
  simp [this]

/-- When geometries with the same global id are the same, the normal, geometry and composite found by global id are those of the geometry. -/
theorem lookup_exact {ndim : ℕ} {data : ℤ → List (RG K)} {group : ℤ → Option ℤ} {asked : List ℤ} {r : Rank K}
    (h : Collected ndim data group asked r) (hid : ∀ c ∈ asked, ∀ c' ∈ asked, ∀ g ∈ data c, ∀ g' ∈ data c', g.id = g'.id → g = g')
    (c : ℤ) (hc : c ∈ asked) (g : RG K) (hg : g ∈ data c) :
    (∃ p, r.coll.normals g.id = some p ∧ (p.data.drop p.offset).take ndim = g.geom.normal) ∧
      r.coll.geomIdToGeoms g.id = some g.geom ∧ r.coll.geomIdToComposite g.id = some g.composite := by
  refine ⟨?_, ?_, ?_⟩
  · obtain ⟨p, hp⟩ := h.normals.1 g ⟨c, hc, hg⟩
    obtain ⟨g', ⟨c', hc', hg'⟩, e, hv⟩ := h.normals.2 _ _ hp
    rw [hid c' hc' c hc g' hg' g hg e] at hv
    exact ⟨p, hp, hv⟩
  · obtain ⟨p, hp⟩ := h.geoms.1 g ⟨c, hc, hg⟩
    obtain ⟨g', ⟨c', hc', hg'⟩, e, hv⟩ := h.geoms.2 _ _ hp
    rw [hid c' hc' c hc g' hg' g hg e] at hv
    rw [hp, hv]
  · obtain ⟨p, hp⟩ := h.composites.1 g ⟨c, hc, hg⟩
    obtain ⟨g', ⟨c', hc', hg'⟩, e, hv⟩ := h.composites.2 _ _ hp
    rw [hid c' hc' c hc g' hg' g hg e] at hv
    rw [hp, hv]

/-! ### The boundary groups -/

/-- The composites of the boundary groups, with the group. -/
def pairsOf (groups : List (ℤ × List ℤ)) : List (ℤ × ℤ) := groups.flatMap fun g => g.2.map fun c => (c, g.1)

theorem groupMap_eq (groups : List (ℤ × List ℤ)) (s : List ℤ × (ℤ → Option ℤ)) :
    groups.foldlM (fun s pairx => pairx.2.foldlM (fun s cx =>
      if cx ∈ s.1 then none else some (s.1 ++ [cx], Function.update s.2 cx (some pairx.1))) s) s =
    (pairsOf groups).foldlM (fun (s : List ℤ × (ℤ → Option ℤ)) p => if p.1 ∈ s.1 then none else some (s.1 ++ [p.1], Function.update s.2 p.1 (some p.2))) s := by
  induction groups generalizing s with
  | nil => rfl
  | cons g l ih =>
    rw [List.foldlM_cons, pairsOf, List.flatMap_cons, List.foldlM_append, List.foldlM_map]
    exact congrArg _ (funext ih)

theorem pairs_fold : ∀ (l pre : List (ℤ × ℤ)) (f : ℤ → Option ℤ),
    (pre.map Prod.fst).Nodup → (∀ c g, f c = some g ↔ (c, g) ∈ pre) →
    (((pre ++ l).map Prod.fst).Nodup → ∃ f', l.foldlM (fun (s : List ℤ × (ℤ → Option ℤ)) p =>
        if p.1 ∈ s.1 then none else some (s.1 ++ [p.1], Function.update s.2 p.1 (some p.2))) (pre.map Prod.fst, f) =
        some ((pre ++ l).map Prod.fst, f') ∧ ∀ c g, f' c = some g ↔ (c, g) ∈ pre ++ l) ∧
    (¬((pre ++ l).map Prod.fst).Nodup → l.foldlM (fun (s : List ℤ × (ℤ → Option ℤ)) p =>
        if p.1 ∈ s.1 then none else some (s.1 ++ [p.1], Function.update s.2 p.1 (some p.2))) (pre.map Prod.fst, f) = none) := by
  intro l
  induction l with
  | nil =>
    intro pre f hn hf
    simp only [List.append_nil]
    exact ⟨fun _ => ⟨f, rfl, hf⟩, fun h => absurd hn h⟩
  | cons p l ih =>
    intro pre f hn hf
    obtain ⟨c, g⟩ := p
    by_cases hc : c ∈ pre.map Prod.fst
    · refine ⟨fun h => ?_, fun _ => ?_⟩
      · rw [List.map_append, List.nodup_append] at h
        exact absurd rfl (h.2.2 c hc c (by simp))
      · rw [List.foldlM_cons, if_pos hc]; rfl
    · have hn' : ((pre ++ [(c, g)]).map Prod.fst).Nodup := by
        rw [List.map_append, List.nodup_append]
        refine ⟨hn, by simp, ?_⟩
        intro a ha b hb hab
        simp only [List.map_cons, List.map_nil, List.mem_singleton] at hb
        subst hb; subst hab
        exact hc ha
      have hf' : ∀ c' g', Function.update f c (some g) c' = some g' ↔ (c', g') ∈ pre ++ [(c, g)] := by
        intro c' g'
        by_cases h : c' = c
        · subst h
          rw [Function.update_self, List.mem_append, List.mem_singleton]
          constructor
          · intro h; cases h; simp
          · rintro (h | h)
            · exact absurd (List.mem_map.mpr ⟨_, h, rfl⟩) hc
            · cases h; rfl
        · rw [Function.update_of_ne h, hf, List.mem_append, List.mem_singleton]
          simp [h]
      have := ih (pre ++ [(c, g)]) _ hn' hf'
      rw [List.append_assoc, List.singleton_append] at this
      rw [List.foldlM_cons, if_neg hc]
      rw [show (pre ++ [(c, g)]).map Prod.fst = pre.map Prod.fst ++ [c] by simp] at this
      exact this

/-- The constructor fails exactly when a composite is listed twice; otherwise each composite has the group it is listed in and no other composite has
a group. -/
theorem groups_exact (groups : List (ℤ × List ℤ)) :
    (((pairsOf groups).map Prod.fst).Nodup → ∃ f, groupMap groups = some ((pairsOf groups).map Prod.fst, f) ∧
      ∀ c g, f c = some g ↔ ∃ cs, (g, cs) ∈ groups ∧ c ∈ cs) ∧
    (¬((pairsOf groups).map Prod.fst).Nodup → groupMap groups = none) := by
  have h := pairs_fold (pairsOf groups) [] (fun _ => none) (by simp) (by simp)
  unfold groupMap
  rw [groupMap_eq]
  refine ⟨fun hn => ?_, h.2⟩
  obtain ⟨f, h1, h2⟩ := h.1 hn
  refine ⟨f, h1, fun c g => ?_⟩
  rw [h2, List.nil_append, pairsOf, List.mem_flatMap]
  constructor
  · rintro ⟨⟨g', cs⟩, hg, hm⟩
    obtain ⟨c', hc', e⟩ := List.mem_map.mp hm
    cases e
    exact ⟨cs, hg, hc'⟩
  · rintro ⟨cs, hg, hc⟩
    exact ⟨(g, cs), hg, List.mem_map.mpr ⟨c, hc, rfl⟩⟩

/-! ### The geometries of a cell -/

theorem geometryComposites_spec (ndim : ℕ) (graph : ℤ → Option (List (Geo K))) (indices : List ℤ)
    (h : ∀ ix ∈ indices, ∀ gs, graph ix = some gs → ∀ g ∈ gs, BoundaryShape ndim g.shape) :
    ∃ l, geometryComposites ndim graph indices = some l ∧ l = indices.flatMap fun ix => ((graph ix).getD []).map fun g => (g, ix) := by
  unfold geometryComposites
  suffices hh : ∀ (out : List (Geo K × ℤ)), (∀ ix ∈ indices, ∀ gs, graph ix = some gs → ∀ g ∈ gs, BoundaryShape ndim g.shape) →
      indices.foldlM (fun out ix => match graph ix with
        | none => some out
        | some geoms => geoms.foldlM (fun out g => if shapeOk ndim g.shape then some (out ++ [(g, ix)]) else none) out) out =
      some (out ++ indices.flatMap fun ix => ((graph ix).getD []).map fun g => (g, ix)) by
    have h' := hh [] h
    rw [List.nil_append] at h'
    exact ⟨_, h', rfl⟩
  have hin : ∀ (ix : ℤ) (gs : List (Geo K)) (out : List (Geo K × ℤ)), (∀ g ∈ gs, BoundaryShape ndim g.shape) →
      gs.foldlM (fun out g => if shapeOk ndim g.shape then some (out ++ [(g, ix)]) else none) out = some (out ++ gs.map fun g => (g, ix)) := by
    intro ix gs
    induction gs with
    | nil => intro out _; simp
    | cons g gs ih =>
      intro out hg
      have : shapeOk ndim g.shape = true := by
        rcases hg g (by simp) with ⟨rfl, hs⟩ | ⟨rfl, hs | hs⟩ <;> simp [shapeOk, hs]
      rw [List.foldlM_cons, if_pos this]
      refine (ih _ fun x hx => hg x (by simp [hx])).trans ?_
      simp
  induction indices with
  | nil => intro out _; simp
  | cons ix l ih =>
    intro out hg
    rw [List.foldlM_cons]
    have h' : ∀ ix ∈ l, ∀ gs, graph ix = some gs → ∀ g ∈ gs, BoundaryShape ndim g.shape := fun x hx => hg x (by simp [hx])
    cases hx : graph ix with
    | none =>
      refine (ih h' _ h').trans ?_
      simp [hx]
    | some gs =>
      dsimp only
      rw [hin ix gs out (hg ix (by simp) gs hx)]
      refine (ih h' _ h').trans ?_
      simp [hx]

/-- A composite with a geometry which is not a boundary shape fails the assertion. -/
theorem composites_wrong_shape (ndim : ℕ) (graph : ℤ → Option (List (Geo K))) (indices : List ℤ) (ix : ℤ) (hix : ix ∈ indices) (gs : List (Geo K))
    (hgs : graph ix = some gs) (g : Geo K) (hg : g ∈ gs) (h : ¬ BoundaryShape ndim g.shape) : geometryComposites ndim graph indices = none := by
  have hno : shapeOk ndim g.shape ≠ true := by
    intro hs
    refine h ?_
    simp only [shapeOk, Bool.or_eq_true, Bool.and_eq_true, decide_eq_true_eq] at hs
    rcases hs with ⟨rfl, hs⟩ | ⟨rfl, hs⟩
    · exact Or.inr ⟨rfl, hs⟩
    · exact Or.inl ⟨rfl, hs⟩
  have hin : ∀ (gs : List (Geo K)) (out : List (Geo K × ℤ)), g ∈ gs →
      gs.foldlM (fun out g => if shapeOk ndim g.shape then some (out ++ [(g, ix)]) else none) out = none := by
    intro gs
    induction gs with
    | nil => intro _ hm; simp at hm
    | cons x l ih =>
      intro out hm
      rw [List.foldlM_cons]
      by_cases hx : shapeOk ndim x.shape = true
      · rw [if_pos hx]
        refine ih _ ((List.mem_cons.mp hm).resolve_left ?_)
        rintro rfl
        exact hno hx
      · rw [if_neg hx]; rfl
  unfold geometryComposites
  suffices hh : ∀ out : List (Geo K × ℤ), indices.foldlM (fun out ix =>
    match graph ix with
    | none => some out
    | some geoms => geoms.foldlM (fun out g => if shapeOk ndim g.shape then some (out ++ [(g, ix)]) else none) out) out = none from hh []
  induction indices with
  | nil => simp at hix
  | cons i l ih =>
    intro out
    rw [List.foldlM_cons]
    by_cases hi : ix = i
    · subst hi
      rw [hgs]
      dsimp only
      rw [hin gs out hg]; rfl
    · have hl := (List.mem_cons.mp hix).resolve_left hi
      have key : ∀ o : Option (List (Geo K × ℤ)), (o.bind fun out => l.foldlM (fun out ix =>
          match graph ix with
          | none => some out
          | some geoms => geoms.foldlM (fun out g => if shapeOk ndim g.shape then some (out ++ [(g, ix)]) else none) out) out) = none := by
        intro o
        cases o with
        | none => rfl
        | some out => exact ih hl out
      exact key _

example : geometryComposites (K := ℚ) 3 (fun _ => some [⟨7, .seg, fun _ => 0, fun _ => 0, 2, []⟩]) [5] = none := by
  refine composites_wrong_shape 3 _ [5] 5 (by simp) _ rfl _ (List.mem_singleton.2 rfl) ?_
  rintro (⟨h, _⟩ | ⟨_, h | h⟩) <;> exact absurd h (by decide)

theorem cellGeomMap_mem [Field K] [LinearOrder K] [FloorRing K] (m : MHGeom K) (owner : ℤ → ℤ) (pad : K) (gcs : List (Geo K × ℤ)) (c : ℤ) (r : RG K) :
    r ∈ cellGeomMap m owner pad gcs c ↔ ∃ gc ∈ gcs, r = ⟨gc.2, gc.1.id, gc.1⟩ ∧ owner c ≠ -2147483648 ∧
      c ∈ (boundingBoxMap m gc.1.lo gc.1.hi pad).map Prod.fst := by
  rw [show (-2147483648 : ℤ) = mask from rfl]
  have hin : ∀ (rg : RG K) (l : List (ℤ × K)) (map : ℤ → List (RG K)),
      r ∈ (l.foldl (fun map cell_overlap =>
        if owner cell_overlap.1 ≠ mask then Function.update map cell_overlap.1 (map cell_overlap.1 ++ [rg]) else map) map) c ↔
      r ∈ map c ∨ (r = rg ∧ owner c ≠ mask ∧ c ∈ l.map Prod.fst) := by
    intro rg l
    induction l with
    | nil => intro map; simp
    | cons x l ih =>
      intro map
      rw [List.foldl_cons, ih]
      by_cases hx : c = x.1
      · subst hx
        split_ifs with ho
        · rw [Function.update_self, List.mem_append, List.mem_singleton]
          constructor
          · rintro ((h | h) | h)
            · exact Or.inl h
            · exact Or.inr ⟨h, ho, by simp⟩
            · exact Or.inr ⟨h.1, h.2.1, by simp⟩
          · rintro (h | h)
            · exact Or.inl (Or.inl h)
            · exact Or.inl (Or.inr h.1)
        · constructor
          · rintro (h | h)
            · exact Or.inl h
            · exact absurd h.2.1 ho
          · rintro (h | h)
            · exact Or.inl h
            · exact absurd h.2.1 ho
      · have e : (if owner x.1 ≠ mask then Function.update map x.1 (map x.1 ++ [rg]) else map) c = map c := by
          split_ifs
          · rw [Function.update_of_ne hx]
          · rfl
        rw [e, List.map_cons, List.mem_cons]
        simp [hx]
  unfold cellGeomMap
  suffices hh : ∀ (map : ℤ → List (RG K)), r ∈ (gcs.foldl (fun map gc =>
      (boundingBoxMap m gc.1.lo gc.1.hi pad).foldl (fun map cell_overlap =>
        if owner cell_overlap.1 ≠ mask then
          Function.update map cell_overlap.1 (map cell_overlap.1 ++ [(⟨gc.2, gc.1.id, gc.1⟩ : RG K)]) else map) map) map) c ↔
      r ∈ map c ∨ ∃ gc ∈ gcs, r = ⟨gc.2, gc.1.id, gc.1⟩ ∧ owner c ≠ mask ∧ c ∈ (boundingBoxMap m gc.1.lo gc.1.hi pad).map Prod.fst by
    simpa using hh fun _ => []
  induction gcs with
  | nil => intro map; simp
  | cons gc l ih =>
    intro map
    rw [List.foldl_cons, ih, hin]
    simp only [List.mem_cons, exists_eq_or_imp, or_assoc]

section cells
variable [Field K] [LinearOrder K] [IsStrictOrderedRing K] [FloorRing K]

/-- A geometry is given for a cell exactly when it is in one of the composites, the cell has an owner and the bounding box, enlarged on all sides by
0.02 times its largest side, meets the cell. -/
theorem given_exact {m : MHGeom K} (hm : GridGeom m) (owner : ℤ → ℤ) (graph : ℤ → Option (List (Geo K))) (indices : List ℤ)
    (hshape : ∀ ix ∈ indices, ∀ gs, graph ix = some gs → ∀ g ∈ gs, BoundaryShape m.ndim g.shape)
    (hbox : ∀ ix ∈ indices, ∀ gs, graph ix = some gs → ∀ g ∈ gs, ∀ d < m.ndim, g.lo d ≤ g.hi d) (c : ℤ) (r : RG K) :
    ∃ l, geometryComposites m.ndim graph indices = some l ∧
      (r ∈ cellGeomMap m owner (1 / 50) l c ↔ r.composite ∈ indices ∧ (∃ gs, graph r.composite = some gs ∧ r.geom ∈ gs) ∧ r.id = r.geom.id ∧
        owner c ≠ -2147483648 ∧ ∃ len, (∀ d < m.ndim, r.geom.hi d - r.geom.lo d ≤ len) ∧ (∃ d < m.ndim, len = r.geom.hi d - r.geom.lo d) ∧
          BoxMeets m (fun d => r.geom.lo d - len / 50) (fun d => r.geom.hi d + len / 50) c) := by
  obtain ⟨l, h1, h2⟩ := geometryComposites_spec m.ndim graph indices hshape
  refine ⟨l, h1, ?_⟩
  rw [cellGeomMap_mem]
  have key : ∀ ix ∈ indices, ∀ gs, graph ix = some gs → ∀ g ∈ gs, (c ∈ (boundingBoxMap m g.lo g.hi (1 / 50)).map Prod.fst ↔
      ∃ len, (∀ d < m.ndim, g.hi d - g.lo d ≤ len) ∧ (∃ d < m.ndim, len = g.hi d - g.lo d) ∧
          BoxMeets m (fun d => g.lo d - len / 50) (fun d => g.hi d + len / 50) c) := by
    intro ix hix gs hgs g hg
    have hb := hbox ix hix gs hgs g hg
    obtain ⟨L, hL1, hL2, hL3, -⟩ := C26.map_padded_exact hm g.lo g.hi hb (1 / 50) (by norm_num)
    have e1 : ∀ len : K, (fun d => g.lo d - 1 / 50 * len) = fun d => g.lo d - len / 50 := fun len => funext fun d => by ring
    have e2 : ∀ len : K, (fun d => g.hi d + 1 / 50 * len) = fun d => g.hi d + len / 50 := fun len => funext fun d => by ring
    rw [e1, e2] at hL3
    constructor
    · intro hc
      obtain ⟨⟨c', v⟩, hcv, rfl⟩ := List.mem_map.mp hc
      obtain ⟨t, ht1, ht2, ht3, -⟩ := (hL3 _ _).mp hcv
      exact ⟨L, hL1, hL2, t, ht1, ht2, ht3⟩
    · rintro ⟨len, h1, ⟨d, hd, h2⟩, t, ht1, ht2, ht3⟩
      have : len = L := by
        obtain ⟨d', hd', h2'⟩ := hL2
        have := hL1 d hd
        have := h1 d' hd'
        linarith
      subst this
      exact List.mem_map.mpr ⟨(c, _), (hL3 _ _).mpr ⟨t, ht1, ht2, ht3, rfl⟩, rfl⟩
  subst h2
  constructor
  · rintro ⟨⟨g, ix⟩, hgc, rfl, ho, hc⟩
    obtain ⟨ix', hix, hmem⟩ := List.mem_flatMap.mp hgc
    obtain ⟨g', hg', e⟩ := List.mem_map.mp hmem
    cases e
    cases hgr : graph ix with
    | none => rw [hgr] at hg'; simp at hg'
    | some gs =>
      rw [hgr] at hg'
      exact ⟨hix, ⟨gs, rfl, hg'⟩, rfl, ho, (key ix hix gs hgr g hg').mp hc⟩
  · rintro ⟨hix, ⟨gs, hgr, hg⟩, hid, ho, hlen⟩
    obtain ⟨ix, id, g⟩ := r
    dsimp only at *
    subst hid
    refine ⟨(g, ix), List.mem_flatMap.mpr ⟨ix, hix, List.mem_map.mpr ⟨g, ?_, rfl⟩⟩, rfl, ho, (key ix hix gs hgr g hg).mpr hlen⟩
    rw [hgr]; exact hg

/-- A cell with a point in common with the bounding box of a geometry, on the boundary of the cell or not, meets the enlarged box: the geometry is
found in every cell it has a point in. -/
theorem touching_cell_meets {m : MHGeom K} (hm : GridGeom m) (lo hi : ℕ → K) (len : K) (hlen : 0 < len) (t : ℕ → ℤ) (ht : InGrid m.toMH t) (c : ℤ)
    (hc : HasLinearIndex m.toMH t c) (x : ℕ → K) (hx : ∀ d < m.ndim, lo d ≤ x d ∧ x d ≤ hi d)
    (hxt : ∀ d < m.ndim, m.origin d + (t d : K) * m.width ≤ x d ∧ x d ≤ m.origin d + ((t d : K) + 1) * m.width) :
    BoxMeets m (fun d => lo d - len / 50) (fun d => hi d + len / 50) c := by
  refine ⟨t, ht, hc, fun d => (max (lo d - len / 50) (m.origin d + (t d : K) * m.width) + min (hi d + len / 50) (m.origin d + ((t d : K) + 1) * m.width)) / 2,
    fun d hd => ?_⟩
  have hw := hm.2.2.1
  have h1 := hx d hd
  have h2 := hxt d hd
  have hp : 0 < len / 50 := by positivity
  have hlt : max (lo d - len / 50) (m.origin d + (t d : K) * m.width) < min (hi d + len / 50) (m.origin d + ((t d : K) + 1) * m.width) := by
    rw [max_lt_iff, lt_min_iff, lt_min_iff]
    refine ⟨⟨?_, ?_⟩, ?_, ?_⟩ <;> nlinarith
  have a1 := le_max_left (lo d - len / 50) (m.origin d + (t d : K) * m.width)
  have a2 := le_max_right (lo d - len / 50) (m.origin d + (t d : K) * m.width)
  have b1 := min_le_left (hi d + len / 50) (m.origin d + ((t d : K) + 1) * m.width)
  have b2 := min_le_right (hi d + len / 50) (m.origin d + ((t d : K) + 1) * m.width)
  refine ⟨⟨?_, ?_⟩, ?_, ?_⟩ <;> dsimp only <;> linarith

end cells

/-! ### A concrete case -/

/-- Three ranks in 2D; the cells 0 and 1 have segments, cell 2 has none. -/
def exSeg (id : ℤ) : Geo ℚ := ⟨id, .seg, fun _ => 0, fun _ => 1, 4, [1, 0]⟩
def exData (c : ℤ) : List (RG ℚ) := if c = 0 then [⟨7, 1, exSeg 1⟩] else if c = 1 then [⟨7, 1, exSeg 1⟩, ⟨8, 2, exSeg 2⟩] else []
def exGroup (c : ℤ) : Option ℤ := if c = 7 then some 100 else if c = 8 then some 200 else none

example : (∀ req ∈ [[[0, 1], [], [2]], [[1], [0], []]], req.length = 3) ∧
    ∀ req ∈ [[[0, 1], [], [2]], [[1], [0], []]], ∀ cells ∈ req, ∀ x ∈ cells, ∀ g ∈ exData x, GoodGeom 2 exGroup g := by
  refine ⟨by simp, ?_⟩
  have : ∀ x, ∀ g ∈ exData x, GoodGeom 2 exGroup g := by
    intro x g hg
    unfold exData at hg
    split_ifs at hg
    · simp only [List.mem_singleton] at hg
      subst hg
      exact ⟨Or.inl ⟨rfl, rfl⟩, by simp [exGroup], rfl⟩
    · simp only [List.mem_cons, List.not_mem_nil, or_false] at hg
      rcases hg with rfl | rfl
      · exact ⟨Or.inl ⟨rfl, rfl⟩, by simp [exGroup], rfl⟩
      · exact ⟨Or.inl ⟨rfl, rfl⟩, by simp [exGroup], rfl⟩
    · simp at hg
  intro _ _ _ _ x _ g hg
  exact this x g hg

example : groupMap [(100, [7, 9]), (200, [8])] ≠ none ∧ groupMap [(100, [7, 9]), (200, [9])] = none := by
  constructor
  · obtain ⟨f, h, -⟩ := (groups_exact [(100, [7, 9]), (200, [8])]).1 (by decide)
    rw [h]; simp
  · exact (groups_exact [(100, [7, 9]), (200, [9])]).2 (by decide)

end Verif.Props.C29
