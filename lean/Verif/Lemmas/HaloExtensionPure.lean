import Verif.Model.HaloExtension
import Verif.Lemmas.SortedMap
import Verif.Props.C26_BoxClaims

/-! The maps and sets of `extend_halos_fixed_offset`. -/

namespace Verif.Lemmas.HaloExtension
open Verif.Model Verif.Model.Bytes Verif.Model.PackedGeom2D Verif.Model.Claims Verif.Model.HaloCells Verif.Model.HaloExchange Verif.Model.HaloExtension
  Verif.Spec Verif.Lemmas

/-! ### Sets -/

section
variable {κ : Type} [LinearOrder κ]

/-- A set made by insertions. -/
def setFrom (l : List κ) : List κ := l.foldl (fun s c => setAdd c s) []

theorem foldl_setAdd (l : List κ) : ∀ s : List κ, s.Pairwise (· < ·) → (l.foldl (fun s c => setAdd c s) s).Pairwise (· < ·) ∧
    ∀ x, x ∈ l.foldl (fun s c => setAdd c s) s ↔ x ∈ s ∨ x ∈ l := by
  induction l with
  | nil => intro s hs; exact ⟨hs, by simp⟩
  | cons a l ih =>
    intro s hs
    obtain ⟨h1, h2⟩ := ih _ (sorted_setAdd a s hs)
    refine ⟨h1, fun x => ?_⟩
    rw [List.foldl_cons, h2, mem_setAdd, List.mem_cons]
    tauto

theorem sorted_setFrom (l : List κ) : (setFrom l).Pairwise (· < ·) := (foldl_setAdd l [] List.Pairwise.nil).1
theorem mem_setFrom (l : List κ) (x : κ) : x ∈ setFrom l ↔ x ∈ l := by
  unfold setFrom
  have := (foldl_setAdd l [] List.Pairwise.nil).2 x
  simpa using this

/-- A sorted list is determined by its members. -/
theorem sorted_ext {a b : List κ} (ha : a.Pairwise (· < ·)) (hb : b.Pairwise (· < ·)) (h : ∀ x, x ∈ a ↔ x ∈ b) : a = b := by
  have hp : a.Perm b := (List.perm_ext_iff_of_nodup (nodup_of_sorted ha) (nodup_of_sorted hb)).mpr h
  exact hp.eq_of_pairwise (fun x y _ _ h1 h2 => absurd (h1.trans h2) (lt_irrefl _)) ha hb

theorem setFrom_congr {a b : List κ} (h : ∀ x, x ∈ a ↔ x ∈ b) : setFrom a = setFrom b :=
  sorted_ext (sorted_setFrom a) (sorted_setFrom b) fun x => by rw [mem_setFrom, mem_setFrom, h]

/-! ### Maps -/

variable {α : Type}

/-- The pairs of a list give each key one value. -/
def Functional (l : List (κ × α)) : Prop := ∀ x ∈ l, ∀ y ∈ l, x.1 = y.1 → x = y

theorem sorted_functional {l : List (κ × α)} (h : Sorted l) : Functional l := by
  intro x hx y hy hxy
  exact List.inj_on_of_nodup_map h.nodup hx hy hxy

theorem foldl_mapSet (l : List (κ × α)) : ∀ s : List (κ × α), Sorted s → Functional (s ++ l) →
    Sorted (l.foldl (fun s x => mapSet x.1 x.2 s) s) ∧ ∀ x, x ∈ l.foldl (fun s x => mapSet x.1 x.2 s) s ↔ x ∈ s ∨ x ∈ l := by
  induction l with
  | nil => intro s hs _; exact ⟨hs, by simp⟩
  | cons a l ih =>
    intro s hs hf
    have hmem : ∀ x, x ∈ mapSet a.1 a.2 s ↔ x = a ∨ x ∈ s := by
      intro x
      obtain ⟨k, v⟩ := x
      rw [mem_mapSet a.1 a.2 s hs]
      constructor
      · rintro (⟨rfl, rfl⟩ | ⟨_, h⟩)
        · exact Or.inl rfl
        · exact Or.inr h
      · rintro (h | h)
        · rw [← h]; exact Or.inl ⟨rfl, rfl⟩
        · by_cases hk : k = a.1
          · have := hf (k, v) (List.mem_append_left _ h) a (List.mem_append_right _ List.mem_cons_self) hk
            left; rw [← this]; exact ⟨rfl, rfl⟩
          · exact Or.inr ⟨hk, h⟩
    have hf' : Functional (mapSet a.1 a.2 s ++ l) := by
      intro x hx y hy
      refine hf x ?_ y ?_
      · rcases List.mem_append.mp hx with h | h
        · rcases (hmem x).mp h with rfl | h
          · exact List.mem_append_right _ List.mem_cons_self
          · exact List.mem_append_left _ h
        · exact List.mem_append_right _ (List.mem_cons_of_mem _ h)
      · rcases List.mem_append.mp hy with h | h
        · rcases (hmem y).mp h with rfl | h
          · exact List.mem_append_right _ List.mem_cons_self
          · exact List.mem_append_left _ h
        · exact List.mem_append_right _ (List.mem_cons_of_mem _ h)
    obtain ⟨h1, h2⟩ := ih _ (sorted_mapSet a.1 a.2 s hs) hf'
    refine ⟨h1, fun x => ?_⟩
    rw [List.foldl_cons, h2, hmem, List.mem_cons]
    tauto

theorem map_sorted_ext {a b : List (κ × α)} (ha : Sorted a) (hb : Sorted b) (h : ∀ x, x ∈ a ↔ x ∈ b) : a = b := by
  have na : a.Nodup := List.Nodup.of_map _ ha.nodup
  have nb : b.Nodup := List.Nodup.of_map _ hb.nodup
  have hp : a.Perm b := (List.perm_ext_iff_of_nodup na nb).mpr h
  exact hp.eq_of_pairwise (fun x y _ _ h1 h2 => absurd (lt_trans h1 h2) (lt_irrefl _)) ha hb

end

/-! ### The geometries of a rank -/

/-- The entries of the map of a rank, in the order of insertion. -/
def entries (rank : ℤ) (p : Pmi2d) : RankGeoms :=
  p.tris.map (fun e => (toLex (rank, e.1), Shape2.tri, e.2)) ++ p.quads.map (fun e => (toLex (rank, e.1), Shape2.quad, e.2)) ++
    p.remoteTris.map (fun x => (keyOf x, Shape2.tri, x.geom)) ++ p.remoteQuads.map (fun x => (keyOf x, Shape2.quad, x.geom))

theorem rankToGeoms2d_eq (rank : ℤ) (p : Pmi2d) : rankToGeoms2d rank p = (entries rank p).foldl (fun s x => mapSet x.1 x.2 s) [] := by
  unfold rankToGeoms2d addRemotes localGeoms entries
  simp only [List.foldl_append, List.foldl_map]

theorem rankToGeoms2d_spec (rank : ℤ) (p : Pmi2d) (h : Functional (entries rank p)) :
    Sorted (rankToGeoms2d rank p) ∧ ∀ x, x ∈ rankToGeoms2d rank p ↔ x ∈ entries rank p := by
  rw [rankToGeoms2d_eq]
  obtain ⟨h1, h2⟩ := foldl_mapSet (entries rank p) [] List.Pairwise.nil (by simpa using h)
  exact ⟨h1, fun x => by rw [h2]; simp⟩

variable {n : ℕ}

/-! ### The cells of the ranks -/

theorem rankToCells_spec (rank : Fin n) (owner : ℤ → ℤ) (cells : List ℤ) :
    (rankToCells rank owner cells).1.Pairwise (· < ·) ∧
    (∀ d, d ∈ (rankToCells rank owner cells).1 ↔ d ≠ rank ∧ ∃ c ∈ cells, owner c = d.val) ∧
    ∀ d, (rankToCells rank owner cells).2 d = if d = rank then [] else cells.filter fun c => decide (owner c = d.val) := by
  unfold rankToCells
  suffices H : ∀ (l done : List ℤ) (st : List (Fin n) × (Fin n → List ℤ)), st.1.Pairwise (· < ·) →
      (∀ d, d ∈ st.1 ↔ d ≠ rank ∧ ∃ c ∈ done, owner c = d.val) →
      (∀ d, st.2 d = if d = rank then [] else done.filter fun c => decide (owner c = d.val)) →
      (l.foldl (rankToCellsStep rank owner) st).1.Pairwise (· < ·) ∧
      (∀ d, d ∈ (l.foldl (rankToCellsStep rank owner) st).1 ↔ d ≠ rank ∧ ∃ c ∈ done ++ l, owner c = d.val) ∧
      ∀ d, (l.foldl (rankToCellsStep rank owner) st).2 d = if d = rank then [] else (done ++ l).filter fun c => decide (owner c = d.val) by
    have := H cells [] ([], fun _ => []) List.Pairwise.nil (by simp) (by simp)
    simpa using this
  intro l
  induction l with
  | nil => intro done st h1 h2 h3; simpa using ⟨h1, h2, h3⟩
  | cons c l ih =>
    intro done st h1 h2 h3
    rw [List.foldl_cons, show done ++ c :: l = (done ++ [c]) ++ l by simp]
    unfold rankToCellsStep
    by_cases hc : 0 ≤ owner c ∧ owner c < n
    · simp only [hc, and_self, dite_true]
      have hrem : ∀ d : Fin n, d = (⟨(owner c).toNat, by omega⟩ : Fin n) ↔ owner c = d.val := by
        intro d
        rw [Fin.ext_iff]
        simp only
        omega
      by_cases hr : (⟨(owner c).toNat, by omega⟩ : Fin n) ≠ rank
      · rw [if_pos hr]
        refine ih _ _ (sorted_setAdd _ _ h1) (fun d => ?_) (fun d => ?_)
        · rw [mem_setAdd, h2, hrem]
          simp only [List.mem_append, List.mem_singleton]
          constructor
          · rintro (h | ⟨h, x, hx, ho⟩)
            · exact ⟨by rw [(hrem d).mpr h]; exact hr, c, Or.inr rfl, h⟩
            · exact ⟨h, x, Or.inl hx, ho⟩
          · rintro ⟨h, x, hx | rfl, ho⟩
            · exact Or.inr ⟨h, x, hx, ho⟩
            · exact Or.inl ho
        · by_cases hd : owner c = d.val
          · have hd' := (hrem d).mpr hd
            simp only
            rw [← hd', Function.update_self, h3, if_neg (by rw [hd']; exact hr), if_neg (by rw [hd']; exact hr)]
            simp [hd]
          · simp only
            rw [Function.update_of_ne (fun h => hd ((hrem d).mp h)), h3]
            simp [hd]
      · rw [if_neg hr]
        push Not at hr
        have hrk := (hrem rank).mp hr.symm
        refine ih _ _ h1 (fun d => ?_) (fun d => ?_)
        · rw [h2]
          refine and_congr_right fun hdr => ?_
          simp only [List.mem_append, List.mem_singleton]
          constructor
          · rintro ⟨x, hx, ho⟩; exact ⟨x, Or.inl hx, ho⟩
          · rintro ⟨x, hx | rfl, ho⟩
            · exact ⟨x, hx, ho⟩
            · exact absurd (Fin.ext (by omega)) hdr
        · rw [h3]
          split_ifs with hdr
          · rfl
          · have : owner c ≠ d.val := fun h => hdr (Fin.ext (by omega))
            simp [this]
    · rw [dif_neg hc]
      have hne : ∀ d : Fin n, owner c ≠ d.val := fun d h => hc ⟨by omega, by have := d.isLt; omega⟩
      refine ih _ _ h1 (fun d => ?_) (fun d => ?_)
      · rw [h2]
        refine and_congr_right fun _ => ?_
        simp only [List.mem_append, List.mem_singleton]
        constructor
        · rintro ⟨x, hx, ho⟩; exact ⟨x, Or.inl hx, ho⟩
        · rintro ⟨x, hx | rfl, ho⟩
          · exact ⟨x, hx, ho⟩
          · exact absurd ho (hne d)
      · rw [h3]
        simp [hne d]

/-! ### The geometries of the cells -/

variable {K : Type} [Field K] [LinearOrder K] [IsStrictOrderedRing K] [FloorRing K] {m : MHGeom K}

/-- A geometry meets a cell. -/
def Meets (m : MHGeom K) (box : Geom → (ℕ → K) × (ℕ → K)) (g : Geom) (c : ℤ) : Prop := BoxMeets m (box g).1 (box g).2 c

theorem mem_boundingBoxMap (hm : GridGeom m) (lo hi : ℕ → K) (c : ℤ) : c ∈ (boundingBoxMap m lo hi 0).map Prod.fst ↔ BoxMeets m lo hi c := by
  obtain ⟨hx, -⟩ := Props.C26.map_exact hm lo hi 0 le_rfl
  rw [List.mem_map]
  constructor
  · rintro ⟨⟨i, v⟩, hiv, rfl⟩
    obtain ⟨c, h1, h2, h3, _⟩ := (hx i v).mp hiv
    exact ⟨c, h1, h2, h3⟩
  · rintro ⟨c', h1, h2, h3⟩
    exact ⟨(c, _), (hx c _).mpr ⟨c', h1, h2, h3, rfl⟩, rfl⟩

theorem mem_cellsToGeoms {V : Type} (hm : GridGeom m) (info : V → ℤ × (ℕ → K) × (ℕ → K)) (geoms : List (Key × V)) (cells : List ℤ) (c : ℤ) (key : Key) :
    key ∈ cellsToGeoms m info geoms cells c ↔ c ∈ cells ∧ ∃ k v, (k, v) ∈ geoms ∧ key = toLex ((ofLex k).1, (info v).1) ∧
      BoxMeets m (info v).2.1 (info v).2.2 c := by
  have inner : ∀ (l : List (ℤ × K)) (k : Key) (f : ℤ → List Key),
      key ∈ (l.foldl (fun f c => if c.1 ∈ cells then Function.update f c.1 (f c.1 ++ [k]) else f) f) c ↔
        key ∈ f c ∨ (c ∈ cells ∧ key = k ∧ c ∈ l.map Prod.fst) := by
    intro l k
    induction l with
    | nil => intro f; simp
    | cons x l ih =>
      intro f
      rw [List.foldl_cons, ih, List.map_cons, List.mem_cons]
      by_cases hx : x.1 ∈ cells
      · rw [if_pos hx]
        by_cases hcx : c = x.1
        · subst hcx; rw [Function.update_self, List.mem_append, List.mem_singleton]; tauto
        · rw [Function.update_of_ne hcx]; tauto
      · rw [if_neg hx]
        constructor
        · rintro (h | ⟨a, b, d⟩)
          · exact Or.inl h
          · exact Or.inr ⟨a, b, Or.inr d⟩
        · rintro (h | ⟨a, b, rfl | d⟩)
          · exact Or.inl h
          · exact absurd a hx
          · exact Or.inr ⟨a, b, d⟩
  unfold cellsToGeoms
  have outer : ∀ (l : List (Key × V)) (f : ℤ → List Key),
      key ∈ (l.foldl (fun f g => (boundingBoxMap m (info g.2).2.1 (info g.2).2.2 0).foldl (fun (f : ℤ → List Key) c =>
        if c.1 ∈ cells then Function.update f c.1 (f c.1 ++ [toLex ((ofLex g.1).1, (info g.2).1)]) else f) f) f) c ↔
      key ∈ f c ∨ (c ∈ cells ∧ ∃ k v, (k, v) ∈ l ∧ key = toLex ((ofLex k).1, (info v).1) ∧ BoxMeets m (info v).2.1 (info v).2.2 c) := by
    intro l
    induction l with
    | nil => intro f; simp
    | cons g l ih =>
      intro f
      rw [List.foldl_cons, ih, inner, mem_boundingBoxMap hm]
      simp only [List.mem_cons]
      constructor
      · rintro ((h | ⟨a, b, d⟩) | ⟨a, k, v, hv, hk, hb⟩)
        · exact Or.inl h
        · exact Or.inr ⟨a, g.1, g.2, Or.inl rfl, b, d⟩
        · exact Or.inr ⟨a, k, v, Or.inr hv, hk, hb⟩
      · rintro (h | ⟨a, k, v, rfl | hv, hk, hb⟩)
        · exact Or.inl (Or.inl h)
        · exact Or.inl (Or.inr ⟨a, hk, hb⟩)
        · exact Or.inr ⟨a, k, v, hv, hk, hb⟩
  rw [outer]; simp

theorem mem_cellsToGeoms_key {V : Type} (hm : GridGeom m) (info : V → ℤ × (ℕ → K) × (ℕ → K)) (geoms : List (Key × V))
    (hid : ∀ k v, (k, v) ∈ geoms → (info v).1 = (ofLex k).2) (cells : List ℤ) (c : ℤ) (key : Key) :
    key ∈ cellsToGeoms m info geoms cells c ↔ c ∈ cells ∧ ∃ v, (key, v) ∈ geoms ∧ BoxMeets m (info v).2.1 (info v).2.2 c := by
  rw [mem_cellsToGeoms hm]
  refine and_congr_right fun _ => ?_
  constructor
  · rintro ⟨k, v, hv, rfl, hb⟩
    refine ⟨v, ?_, hb⟩
    rw [hid k v hv]
    exact hv
  · rintro ⟨v, hv, hb⟩
    refine ⟨key, v, hv, ?_, hb⟩
    rw [hid key v hv]
    rfl

theorem mem_cellsToGeoms2 (hm : GridGeom m) (box : Geom → (ℕ → K) × (ℕ → K)) (geoms : RankGeoms)
    (hid : ∀ k v, (k, v) ∈ geoms → v.2.id.toInt = (ofLex k).2) (cells : List ℤ) (c : ℤ) (key : Key) :
    key ∈ cellsToGeoms m (info2d box) geoms cells c ↔ c ∈ cells ∧ ∃ v, (key, v) ∈ geoms ∧ Meets m box v.2 c :=
  mem_cellsToGeoms_key hm (info2d box) geoms hid cells c key

theorem geomsSet_spec (toGeoms : ℤ → List Key) (cells : List ℤ) :
    (geomsSet toGeoms cells).Pairwise (· < ·) ∧ ∀ key, key ∈ geomsSet toGeoms cells ↔ ∃ c ∈ cells, key ∈ toGeoms c := by
  have : geomsSet toGeoms cells = setFrom (cells.flatMap toGeoms) := by
    unfold geomsSet setFrom
    rw [List.foldl_flatMap]
  rw [this]
  exact ⟨sorted_setFrom _, fun key => by rw [mem_setFrom, List.mem_flatMap]⟩

/-- The geometry with this key as it is sent. -/
def remoteAt (key : Key) (g : Geom) : Remote := ⟨BitVec.ofInt 32 (ofLex key).1, BitVec.ofInt 32 (ofLex key).2, g⟩

theorem toSend_spec (shape : Shape2) {geoms : RankGeoms} (hs : Sorted geoms) (keys : List Key) (hk : ∀ key ∈ keys, ∃ v, (key, v) ∈ geoms) :
    ∃ l, toSend shape geoms keys = some l ∧ (∀ x, x ∈ l ↔ ∃ key ∈ keys, ∃ g, (key, shape, g) ∈ geoms ∧ x = remoteAt key g) ∧
      ((∀ key ∈ keys, ∀ key' ∈ keys, ∀ g g', remoteAt key g = remoteAt key' g' → key = key') → keys.Nodup → l.Nodup) := by
  unfold toSend
  induction keys with
  | nil => exact ⟨[], rfl, by simp, fun _ _ => List.nodup_nil⟩
  | cons key keys ih =>
    obtain ⟨l, h1, h2, h3⟩ := ih fun k h => hk k (List.mem_cons_of_mem _ h)
    obtain ⟨⟨s, g⟩, hv⟩ := hk key List.mem_cons_self
    have hg : mapGet geoms key = some (s, g) := (mapGet_eq hs.nodup _ _).mpr hv
    obtain ⟨l', hl', rfl⟩ := Option.map_eq_some_iff.mp h1
    have huniq : ∀ s' g', (key, s', g') ∈ geoms ↔ s' = s ∧ g' = g := by
      intro s' g'
      constructor
      · intro h
        have := hs.inj h hv
        simpa using this
      · rintro ⟨rfl, rfl⟩; exact hv
    refine ⟨(if s = shape then [remoteAt key g] else []) ++ l'.flatten, ?_, ?_, ?_⟩
    · rw [List.mapM_cons, hg, hl']; rfl
    · intro x
      rw [List.mem_append, h2]
      simp only [List.mem_cons, exists_eq_or_imp, huniq]
      refine or_congr ?_ Iff.rfl
      by_cases hsh : s = shape
      · subst hsh; simp
      · rw [if_neg hsh]
        simp only [List.not_mem_nil, false_iff, not_exists]
        rintro g' ⟨⟨h, _⟩, _⟩
        exact hsh h.symm
    · intro hinj hnd
      rw [List.nodup_cons] at hnd
      have ih' := h3 (fun a ha b hb => hinj a (List.mem_cons_of_mem _ ha) b (List.mem_cons_of_mem _ hb)) hnd.2
      by_cases hsh : s = shape
      · rw [if_pos hsh, List.singleton_append, List.nodup_cons]
        refine ⟨fun hx => ?_, ih'⟩
        obtain ⟨k', hk', g', _, he⟩ := (h2 _).mp hx
        have := hinj key List.mem_cons_self k' (List.mem_cons_of_mem _ hk') g g' he
        exact hnd.1 (this ▸ hk')
      · rw [if_neg hsh, List.nil_append]; exact ih'

/-! ### Unpacking -/

/-- The unpacking for any kind of geometries. -/
def unpackG {X V : Type} (keyOf : X → Key) (val : X → V) (st : List (Key × V) × List X) (tmp : List X) : List (Key × V) × List X :=
  tmp.foldl (fun st x => if (mapGet st.1 (keyOf x)).isSome then st else (mapSet (keyOf x) (val x) st.1, st.2 ++ [x])) st

theorem unpackG_spec {X V : Type} (keyOf : X → Key) (val : X → V) (tmp : List X) : ∀ st : List (Key × V) × List X, Sorted st.1 →
    Functional (st.1 ++ tmp.map fun x => (keyOf x, val x)) → (∀ x ∈ tmp, ∀ y ∈ tmp, keyOf x = keyOf y → x = y) →
    Sorted (unpackG keyOf val st tmp).1 ∧
    (∀ e, e ∈ (unpackG keyOf val st tmp).1 ↔ e ∈ st.1 ∨ e ∈ tmp.map fun x => (keyOf x, val x)) ∧
    ∃ new, (unpackG keyOf val st tmp).2 = st.2 ++ new ∧ (new.map keyOf).Nodup ∧
      ∀ x, x ∈ new ↔ x ∈ tmp ∧ ∀ v, (keyOf x, v) ∉ st.1 := by
  unfold unpackG
  induction tmp with
  | nil => intro st hs _ _; exact ⟨hs, by simp, [], by simp, List.nodup_nil, by simp⟩
  | cons a tmp ih =>
    intro st hs hf hu
    rw [List.foldl_cons]
    by_cases h : (mapGet st.1 (keyOf a)).isSome
    · rw [if_pos h]
      obtain ⟨v, hv⟩ := Option.isSome_iff_exists.mp h
      have hmem := (mapGet_eq hs.nodup _ _).mp hv
      have hva := hf _ (List.mem_append_left _ hmem) (keyOf a, val a) (List.mem_append_right _ (by simp)) rfl
      obtain ⟨i1, i2, new, i3, i4, i5⟩ := ih st hs (by
        intro x hx y hy
        refine hf x ?_ y ?_
        · rcases List.mem_append.mp hx with h | h
          · exact List.mem_append_left _ h
          · exact List.mem_append_right _ (by rw [List.map_cons]; exact List.mem_cons_of_mem _ h)
        · rcases List.mem_append.mp hy with h | h
          · exact List.mem_append_left _ h
          · exact List.mem_append_right _ (by rw [List.map_cons]; exact List.mem_cons_of_mem _ h))
        (fun x hx y hy => hu x (List.mem_cons_of_mem _ hx) y (List.mem_cons_of_mem _ hy))
      refine ⟨i1, fun e => ?_, new, i3, i4, fun x => ?_⟩
      · rw [i2, List.map_cons, List.mem_cons]
        constructor
        · rintro (h | h)
          · exact Or.inl h
          · exact Or.inr (Or.inr h)
        · rintro (h | rfl | h)
          · exact Or.inl h
          · rw [← hva]; exact Or.inl hmem
          · exact Or.inr h
      · rw [i5, List.mem_cons]
        constructor
        · rintro ⟨h1, h2⟩; exact ⟨Or.inr h1, h2⟩
        · rintro ⟨rfl | h1, h2⟩
          · exact absurd hmem (h2 v)
          · exact ⟨h1, h2⟩
    · rw [if_neg h]
      have hnot : ∀ v, (keyOf a, v) ∉ st.1 := by
        intro v hv
        rw [(mapGet_eq hs.nodup _ _).mpr hv] at h
        exact h rfl
      have hms : ∀ e, e ∈ mapSet (keyOf a) (val a) st.1 ↔ e = (keyOf a, val a) ∨ e ∈ st.1 := by
        rintro ⟨k, v⟩
        rw [mem_mapSet _ _ _ hs]
        constructor
        · rintro (⟨rfl, rfl⟩ | ⟨_, h⟩)
          · exact Or.inl rfl
          · exact Or.inr h
        · rintro (h | h)
          · exact Or.inl (Prod.mk.inj h)
          · by_cases hk : k = keyOf a
            · subst hk; exact absurd h (hnot v)
            · exact Or.inr ⟨hk, h⟩
      obtain ⟨i1, i2, new, i3, i4, i5⟩ := ih (mapSet (keyOf a) (val a) st.1, st.2 ++ [a]) (sorted_mapSet _ _ _ hs) (by
        intro x hx y hy
        refine hf x ?_ y ?_
        · rcases List.mem_append.mp hx with h | h
          · rcases (hms x).mp h with rfl | h
            · exact List.mem_append_right _ (by simp)
            · exact List.mem_append_left _ h
          · exact List.mem_append_right _ (by rw [List.map_cons]; exact List.mem_cons_of_mem _ h)
        · rcases List.mem_append.mp hy with h | h
          · rcases (hms y).mp h with rfl | h
            · exact List.mem_append_right _ (by simp)
            · exact List.mem_append_left _ h
          · exact List.mem_append_right _ (by rw [List.map_cons]; exact List.mem_cons_of_mem _ h))
        (fun x hx y hy => hu x (List.mem_cons_of_mem _ hx) y (List.mem_cons_of_mem _ hy))
      refine ⟨i1, fun e => ?_, a :: new, by rw [i3]; simp, ?_, fun x => ?_⟩
      · rw [i2, hms, List.map_cons, List.mem_cons]
        tauto
      · rw [List.map_cons, List.nodup_cons]
        refine ⟨fun hm => ?_, i4⟩
        obtain ⟨x, hx, hk⟩ := List.mem_map.mp hm
        exact ((i5 x).mp hx).2 (val a) ((hms _).mpr (Or.inl (by rw [hk])))
      · rw [List.mem_cons, List.mem_cons, i5]
        constructor
        · rintro (rfl | ⟨h1, h2⟩)
          · exact ⟨Or.inl rfl, hnot⟩
          · exact ⟨Or.inr h1, fun v hv => h2 v ((hms _).mpr (Or.inr hv))⟩
        · rintro ⟨rfl | h1, h2⟩
          · exact Or.inl rfl
          · by_cases hk : keyOf x = keyOf a
            · left; exact hu x (List.mem_cons_of_mem _ h1) a List.mem_cons_self hk
            · right
              refine ⟨h1, fun v hv => ?_⟩
              rcases (hms _).mp hv with h | h
              · exact hk (Prod.ext_iff.mp h).1
              · exact h2 v h

theorem unpack2d_spec (shape : Shape2) (tmp : List Remote) : ∀ st : RankGeoms × List Remote, Sorted st.1 →
    Functional (st.1 ++ tmp.map fun x => (keyOf x, shape, x.geom)) → (∀ x ∈ tmp, ∀ y ∈ tmp, keyOf x = keyOf y → x = y) →
    Sorted (unpack2d shape st tmp).1 ∧
    (∀ e, e ∈ (unpack2d shape st tmp).1 ↔ e ∈ st.1 ∨ e ∈ tmp.map fun x => (keyOf x, shape, x.geom)) ∧
    ∃ new, (unpack2d shape st tmp).2 = st.2 ++ new ∧ (new.map keyOf).Nodup ∧
      ∀ x, x ∈ new ↔ x ∈ tmp ∧ ∀ v, (keyOf x, v) ∉ st.1 := 
  unpackG_spec keyOf (fun x => (shape, x.geom)) tmp

end Verif.Lemmas.HaloExtension
