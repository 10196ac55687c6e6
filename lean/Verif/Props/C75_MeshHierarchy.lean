import Verif.Model.MeshConstruct
import Verif.Props.C26_BoxClaims
import Verif.Props.C25_MeshTuple
import Verif.Props.C02_BoxSet
import Verif.Lemmas.Fold
import Mathlib.Order.Bounds.Basic
import Mathlib.Tactic.Linarith
import Mathlib.Tactic.FieldSimp
import Mathlib.Tactic.NormNum

/-! C75: the mesh hierarchy built by the constructor of `ParticleMeshInterface` covers the elements of all of the ranks. -/

namespace Verif.Props.C75
open Verif.Lemmas Verif.Model.MeshConstruct Verif.Model.BoundingBox Verif.Model.Claims Verif.Model.MeshHierarchy Verif.Spec

/-! ### The global bounding box -/

theorem localBox_lower (big : ℝ) (l : List Box) (i : ℕ) (hi : i < 3) : localBox big l i = l.foldl (fun m b => min m (b i)) big := by
  unfold localBox; rw [C02.hull_lower _ _ _ hi]; simp [resetBox, hi]

theorem localBox_upper (big : ℝ) (l : List Box) (i : ℕ) (hi : 3 ≤ i) : localBox big l i = l.foldl (fun m b => max m (b i)) (-big) := by
  unfold localBox; rw [C02.hull_upper _ _ _ hi]; simp [resetBox, Nat.not_lt.2 hi]

theorem foldl_reduce_lower (l : List Box) (x : Box) (i : ℕ) (hi : i < 3) :
    (l.foldl (fun a b i => if i < 3 then min (a i) (b i) else max (a i) (b i)) x) i = l.foldl (fun m b => min m (b i)) (x i) := by
  induction l generalizing x with
  | nil => rfl
  | cons b l ih => simp only [List.foldl_cons]; rw [ih]; simp [hi]

theorem foldl_reduce_upper (l : List Box) (x : Box) (i : ℕ) (hi : 3 ≤ i) :
    (l.foldl (fun a b i => if i < 3 then min (a i) (b i) else max (a i) (b i)) x) i = l.foldl (fun m b => max m (b i)) (x i) := by
  induction l generalizing x with
  | nil => rfl
  | cons b l ih => simp only [List.foldl_cons]; rw [ih]; simp [Nat.not_lt.2 hi]

/-- A lower bound of the global box is the least of `big` and the lower bounds of the elements of all ranks. -/
theorem global_lower {big : ℝ} {ranks : List (List Box)} {g : Box} (h : globalBox big ranks = some g) (i : ℕ) (hi : i < 3) :
    IsLeast {x | x = big ∨ ∃ b ∈ ranks.flatten, x = b i} (g i) := by
  unfold globalBox allreduce at h
  cases ranks with
  | nil => simp at h
  | cons r rs =>
    simp only [List.map_cons, Option.some.injEq] at h
    subst h
    rw [foldl_reduce_lower _ _ _ hi]
    have a := foldl_min_le (fun b : Box => b i) (rs.map (localBox big)) (localBox big r i)
    have b := foldl_min_mem (fun b : Box => b i) (rs.map (localBox big)) (localBox big r i)
    have L := fun l : List Box => foldl_min_le (fun b : Box => b i) l big
    have M := fun l : List Box => foldl_min_mem (fun b : Box => b i) l big
    have all : ∀ l ∈ r :: rs, (rs.map (localBox big)).foldl (fun m b => min m (b i)) (localBox big r i) ≤ localBox big l i := by
      intro l hl
      rcases List.mem_cons.mp hl with rfl | hl
      · exact a.1
      · exact a.2 _ (List.mem_map_of_mem hl)
    have pick : ∃ l ∈ r :: rs, (rs.map (localBox big)).foldl (fun m b => min m (b i)) (localBox big r i) = localBox big l i := by
      rcases b with b | ⟨x, hx, b⟩
      · exact ⟨r, by simp, b⟩
      · obtain ⟨l, hl, rfl⟩ := List.mem_map.mp hx
        exact ⟨l, by simp [hl], b⟩
    constructor
    · obtain ⟨l, hl, e⟩ := pick
      rw [Set.mem_setOf_eq, e, localBox_lower _ _ _ hi]
      rcases M l with m | ⟨x, hx, m⟩
      · exact Or.inl m
      · exact Or.inr ⟨x, List.mem_flatten.mpr ⟨l, hl, hx⟩, m⟩
    · rintro x (rfl | ⟨b, hb, rfl⟩)
      · refine (all r (by simp)).trans ?_
        rw [localBox_lower _ _ _ hi]; exact (L r).1
      · obtain ⟨l, hl, hb⟩ := List.mem_flatten.mp hb
        refine (all l hl).trans ?_
        rw [localBox_lower _ _ _ hi]; exact (L l).2 b hb

/-- An upper bound of the global box is the greatest of `-big` and the upper bounds of the elements of all ranks. -/
theorem global_upper {big : ℝ} {ranks : List (List Box)} {g : Box} (h : globalBox big ranks = some g) (i : ℕ) (hi : 3 ≤ i) :
    IsGreatest {x | x = -big ∨ ∃ b ∈ ranks.flatten, x = b i} (g i) := by
  unfold globalBox allreduce at h
  cases ranks with
  | nil => simp at h
  | cons r rs =>
    simp only [List.map_cons, Option.some.injEq] at h
    subst h
    rw [foldl_reduce_upper _ _ _ hi]
    have a := foldl_max_ge (fun b : Box => b i) (rs.map (localBox big)) (localBox big r i)
    have b := foldl_max_mem (fun b : Box => b i) (rs.map (localBox big)) (localBox big r i)
    have L := fun l : List Box => foldl_max_ge (fun b : Box => b i) l (-big)
    have M := fun l : List Box => foldl_max_mem (fun b : Box => b i) l (-big)
    have all : ∀ l ∈ r :: rs, localBox big l i ≤ (rs.map (localBox big)).foldl (fun m b => max m (b i)) (localBox big r i) := by
      intro l hl
      rcases List.mem_cons.mp hl with rfl | hl
      · exact a.1
      · exact a.2 _ (List.mem_map_of_mem hl)
    have pick : ∃ l ∈ r :: rs, (rs.map (localBox big)).foldl (fun m b => max m (b i)) (localBox big r i) = localBox big l i := by
      rcases b with b | ⟨x, hx, b⟩
      · exact ⟨r, by simp, b⟩
      · obtain ⟨l, hl, rfl⟩ := List.mem_map.mp hx
        exact ⟨l, by simp [hl], b⟩
    constructor
    · obtain ⟨l, hl, e⟩ := pick
      rw [Set.mem_setOf_eq, e, localBox_upper _ _ _ hi]
      rcases M l with m | ⟨x, hx, m⟩
      · exact Or.inl m
      · exact Or.inr ⟨x, List.mem_flatten.mpr ⟨l, hl, hx⟩, m⟩
    · rintro x (rfl | ⟨b, hb, rfl⟩)
      · refine le_trans ?_ (all r (by simp))
        rw [localBox_upper _ _ _ hi]; exact (L r).1
      · obtain ⟨l, hl, hb⟩ := List.mem_flatten.mp hb
        refine le_trans ?_ (all l hl)
        rw [localBox_upper _ _ _ hi]; exact (L l).2 b hb

/-- Finite coordinates, small enough for the extents to be finite. -/
def Finite (big : ℝ) (ranks : List (List Box)) : Prop := ∀ b ∈ ranks.flatten, ∀ i < 6, -(big / 2) ≤ b i ∧ b i ≤ big / 2

/-- **C75 (bounding box).** If any rank has an element, `global_bounding_box` is, on every rank, the smallest box around the elements of all of the ranks.
A rank without elements does not change it. -/
theorem global_box_hull {big : ℝ} (hbig : 0 < big) {ranks : List (List Box)} (hne : ranks.flatten ≠ []) (hfin : Finite big ranks) {g : Box}
    (h : globalBox big ranks = some g) (d : ℕ) (hd : d < 3) :
    IsLeast {x | ∃ b ∈ ranks.flatten, x = b d} (g d) ∧ IsGreatest {x | ∃ b ∈ ranks.flatten, x = b (d + 3)} (g (d + 3)) := by
  obtain ⟨b, hb⟩ := List.exists_mem_of_ne_nil _ hne
  have l := global_lower h d hd
  have u := global_upper h (d + 3) (by omega)
  have f1 := (hfin b hb d (by omega)).2
  have f2 := (hfin b hb (d + 3) (by omega)).1
  have l1 := l.2 (Or.inr ⟨b, hb, rfl⟩)
  have u1 := u.2 (Or.inr ⟨b, hb, rfl⟩)
  refine ⟨⟨?_, fun x hx => l.2 (Or.inr hx)⟩, ⟨?_, fun x hx => u.2 (Or.inr hx)⟩⟩
  · rcases l.1 with e | e
    · rw [e] at l1; linarith
    · exact e
  · rcases u.1 with e | e
    · rw [e] at u1; linarith
    · exact e

/-- The box depends only on which elements there are, not on the ranks they are on. -/
theorem globalBox_congr (big : ℝ) {r s : List (List Box)} (hr : r ≠ []) (hs : s ≠ []) (h : ∀ b, b ∈ r.flatten ↔ b ∈ s.flatten) :
    globalBox big r = globalBox big s := by
  have ex : ∀ t : List (List Box), t ≠ [] → ∃ g, globalBox big t = some g := by
    intro t ht; cases t with
    | nil => exact absurd rfl ht
    | cons a l => exact ⟨_, rfl⟩
  obtain ⟨g, hg⟩ := ex r hr
  obtain ⟨k, hk⟩ := ex s hs
  rw [hg, hk]; congr 1; funext i
  by_cases hi : i < 3
  · have a := global_lower hg i hi
    have b := global_lower hk i hi
    simp only [h] at a
    exact a.unique b
  · have a := global_upper hg i (by omega)
    have b := global_upper hk i (by omega)
    simp only [h] at a
    exact a.unique b

theorem cellCount_eq (l : List Box) : cellCount l = l.length := by
  have : ∀ (l : List Box) (c : ℤ), l.foldl (fun c _ => c + 1) c = c + l.length := by
    intro l; induction l with
    | nil => simp
    | cons b l ih => intro c; rw [List.foldl_cons, ih]; push_cast [List.length_cons]; ring
  unfold cellCount; rw [this]; simp

/-- `global_num_elements` is the number of elements of the mesh. -/
theorem num_elements (ranks : List (List Box)) (hr : ranks ≠ []) : allreduce (· + ·) (ranks.map cellCount) = some (ranks.flatten.length : ℤ) := by
  cases ranks with
  | nil => exact absurd rfl hr
  | cons r rs =>
    simp only [List.map_cons, allreduce, Option.some.injEq]
    have : ∀ (l : List (List Box)) (c : ℤ), (l.map cellCount).foldl (· + ·) c = c + l.flatten.length := by
      intro l; induction l with
      | nil => simp
      | cons b l ih => intro c; rw [List.map_cons, List.foldl_cons, ih, cellCount_eq, List.flatten_cons, List.length_append]; push_cast; ring
    rw [this, cellCount_eq, List.flatten_cons, List.length_append]; push_cast; ring

/-- **C75 (independence).** However the elements of a mesh are distributed over however many ranks, all of the ranks construct the same mesh hierarchy. -/
theorem same_for_every_partition (big : ℝ) (ndim : ℕ) (offset : ℤ) {r s : List (List Box)} (hr : r ≠ []) (hs : s ≠ [])
    (h : r.flatten.Perm s.flatten) : construct big ndim offset r = construct big ndim offset s := by
  unfold construct createHierarchy
  rw [globalBox_congr big hr hs fun b => h.mem_iff, num_elements r hr, num_elements s hs, h.length_eq]

/-! ### The hierarchy -/

theorem minExtent_spec (big : ℝ) (n : ℕ) (box : Box) (hn : 0 < n) (h : ∀ d < n, extent box d ≤ big) :
    (∀ d < n, minExtent big n box ≤ extent box d) ∧ ∃ d < n, minExtent big n box = extent box d := by
  unfold minExtent
  have a := foldl_min_le (fun d => extent box d) (List.range n) big
  refine ⟨fun d hd => a.2 d (List.mem_range.mpr hd), ?_⟩
  rcases foldl_min_mem (fun d => extent box d) (List.range n) big with e | ⟨d, hd, e⟩
  · refine ⟨0, hn, le_antisymm (a.2 0 (List.mem_range.mpr hn)) ?_⟩
    rw [e]; exact h 0 hn
  · exact ⟨d, List.mem_range.mp hd, e⟩

theorem maxExtent_spec (big : ℝ) (n : ℕ) (box : Box) (hn : 0 < n) (h : ∀ d < n, -big ≤ extent box d) :
    (∀ d < n, extent box d ≤ maxExtent big n box) ∧ ∃ d < n, maxExtent big n box = extent box d := by
  unfold maxExtent
  have a := foldl_max_ge (fun d => extent box d) (List.range n) (-big)
  refine ⟨fun d hd => a.2 d (List.mem_range.mpr hd), ?_⟩
  rcases foldl_max_mem (fun d => extent box d) (List.range n) (-big) with e | ⟨d, hd, e⟩
  · refine ⟨0, hn, le_antisymm ?_ (a.2 0 (List.mem_range.mpr hn))⟩
    rw [e]; exact h 0 hn
  · exact ⟨d, List.mem_range.mp hd, e⟩

/-- The extents of the domain: the greatest upper bound minus the least lower bound of an element. -/
def IsExtent (ranks : List (List Box)) (d : ℕ) (lo hi : ℝ) : Prop :=
  IsLeast {x | ∃ b ∈ ranks.flatten, x = b d} lo ∧ IsGreatest {x | ∃ b ∈ ranks.flatten, x = b (d + 3)} hi

theorem IsExtent.unique {ranks : List (List Box)} {d : ℕ} {lo hi lo' hi' : ℝ} (h : IsExtent ranks d lo hi) (h' : IsExtent ranks d lo' hi') :
    lo = lo' ∧ hi = hi' := ⟨h.1.unique h'.1, h.2.unique h'.2⟩

/-- What the constructor computes when it does not fail. -/
theorem construct_some {big : ℝ} {ndim : ℕ} {offset : ℤ} {ranks : List (List Box)} {m : MHGeom ℝ} (h : construct big ndim offset ranks = some m) :
    (ndim = 2 ∨ ndim = 3) ∧ ∃ g, globalBox big ranks = some g ∧ 0 < minExtent big ndim g ∧
      m = mkHierarchy ndim (coarseDim g (coarseCellSize (minExtent big ndim g) (maxExtent big ndim g))) (fun d => g d)
        (coarseCellSize (minExtent big ndim g) (maxExtent big ndim g))
        (subdivisionOrder ndim ranks.flatten.length (hmCellCount ndim g (coarseCellSize (minExtent big ndim g) (maxExtent big ndim g))) offset) := by
  unfold construct at h
  by_cases hd : ndim = 2 ∨ ndim = 3
  · rw [if_pos hd] at h
    refine ⟨hd, ?_⟩
    cases hr : ranks with
    | nil => rw [hr] at h; simp [globalBox, allreduce] at h
    | cons r rs =>
      rw [← hr]
      cases hg : globalBox big ranks with
      | none => rw [hg] at h; simp at h
      | some g =>
        rw [hg, Option.bind_some] at h
        unfold createHierarchy at h
        rw [num_elements ranks (by simp [hr])] at h
        dsimp only at h
        by_cases hp : minExtent big ndim g > 0
        · rw [if_pos hp] at h
          exact ⟨g, rfl, hp, (Option.some.inj h).symm⟩
        · rw [if_neg hp] at h; simp at h
  · rw [if_neg hd] at h; simp at h

theorem nonempty_of_some {big : ℝ} (hbig : 0 < big) {ndim : ℕ} {offset : ℤ} {ranks : List (List Box)} {m : MHGeom ℝ}
    (h : construct big ndim offset ranks = some m) : ranks.flatten ≠ [] := by
  obtain ⟨hd, g, hg, hp, _⟩ := construct_some h
  intro e
  have l := (global_lower hg 0 (by omega)).1
  have u := (global_upper hg 3 (by omega)).1
  rw [e] at l u
  simp only [List.not_mem_nil, false_and, exists_false, or_false, Set.mem_setOf_eq] at l u
  have := (foldl_min_le (fun d => extent g d) (List.range ndim) big).2 0 (List.mem_range.mpr (by omega))
  change minExtent big ndim g ≤ extent g 0 at this
  unfold extent at this
  rw [zero_add, l, u] at this
  linarith

section
variable {big : ℝ} {ndim : ℕ} {offset : ℤ} {ranks : List (List Box)} {m : MHGeom ℝ}

theorem extent_bounds (hfin : Finite big ranks) {g : Box} (hext : ∀ d < 3, IsExtent ranks d (g d) (g (d + 3))) (d : ℕ) (hd : d < 3) :
    -big ≤ extent g d ∧ extent g d ≤ big := by
  obtain ⟨⟨⟨a, ha, ea⟩, _⟩, ⟨⟨b, hb, eb⟩, _⟩⟩ := hext d hd
  have f := hfin a ha d (by omega)
  have k := hfin b hb (d + 3) (by omega)
  unfold extent; rw [ea, eb]
  constructor <;> linarith [f.1, f.2, k.1, k.2]

/-- The width of a coarse cell: between the smallest and the largest extent of the domain. -/
theorem size_bounds {minExt maxExt : ℝ} (h0 : 0 < minExt) (h : minExt ≤ maxExt) : minExt ≤ coarseCellSize minExt maxExt ∧ coarseCellSize minExt maxExt ≤ maxExt := by
  unfold coarseCellSize; split
  · exact ⟨le_rfl, h⟩
  · exact ⟨h, le_rfl⟩

/-- **C75 (cover).** The mesh hierarchy of a mesh starts at the lower corner of the smallest box around all elements, its cells have a positive width, and in each
dimension it has the least number of coarse cells, at least one, such that it reaches the upper corner. -/
theorem hierarchy_covers (hbig : 0 < big) (hfin : Finite big ranks) (h : construct big ndim offset ranks = some m) :
    GridGeom m ∧ m.ndim = ndim ∧ ∀ d < ndim, ∃ hi, IsExtent ranks d (m.origin d) hi ∧
      hi ≤ m.origin d + ((m.dims d * m.ncf : ℤ) : ℝ) * m.width ∧ m.origin d + (((m.dims d - 1) * m.ncf : ℤ) : ℝ) * m.width < hi := by
  have hne := nonempty_of_some hbig h
  obtain ⟨hd, g, hg, hp, rfl⟩ := construct_some h
  have hext : ∀ d < 3, IsExtent ranks d (g d) (g (d + 3)) := fun d hd => global_box_hull hbig hne hfin hg d hd
  have hn : 0 < ndim := by omega
  have hb := extent_bounds hfin hext
  obtain ⟨min1, dm, hdm, min2⟩ := minExtent_spec big ndim g hn fun d hd => (hb d (by omega)).2
  obtain ⟨max1, _⟩ := maxExtent_spec big ndim g hn fun d hd => (hb d (by omega)).1
  have hs := size_bounds hp ((min1 0 hn).trans (max1 0 hn))
  generalize hsz : coarseCellSize (minExtent big ndim g) (maxExtent big ndim g) = size at hs ⊢
  have hs0 : 0 < size := lt_of_lt_of_le hp hs.1
  generalize subdivisionOrder _ _ _ _ = order
  have hpow : (0 : ℝ) < 2 ^ order.toNat := by positivity
  have hwidth : (2 : ℝ) ^ order.toNat * (size / 2 ^ order.toNat) = size := by field_simp
  refine ⟨⟨⟨hn, fun d hd' => ?_, ?_⟩, by dsimp [mkHierarchy]; omega, ?_, ?_⟩, rfl, fun d hd' => ?_⟩
  · dsimp only [mkHierarchy] at hd' ⊢
    exact Int.ceil_pos.mpr (div_pos (lt_of_lt_of_le hp (min1 d hd')) hs0)
  · dsimp only [mkHierarchy]; positivity
  · dsimp only [mkHierarchy]; positivity
  · dsimp only [mkHierarchy]; field_simp
  · refine ⟨g (d + 3), hext d (by omega), ?_, ?_⟩
    · dsimp only [mkHierarchy, coarseDim]
      have := Int.le_ceil (extent g d / size)
      rw [div_le_iff₀ hs0] at this
      push_cast
      rw [mul_assoc, hwidth]
      unfold extent at this ⊢
      linarith
    · dsimp only [mkHierarchy, coarseDim]
      have := Int.ceil_lt_add_one (extent g d / size)
      rw [← sub_lt_iff_lt_add, lt_div_iff₀ hs0] at this
      push_cast
      rw [mul_assoc, hwidth]
      unfold extent at this ⊢
      linarith

/-- **C75 (coarse cells).** The coarse cells are cubes. If the largest extent of the domain is at least twice the smallest, the smallest is their width.
Otherwise the largest is, and there is a single coarse cell. -/
theorem coarse_cells (hbig : 0 < big) (hfin : Finite big ranks) (h : construct big ndim offset ranks = some m) (lo hi : ℕ → ℝ)
    (hext : ∀ d < ndim, IsExtent ranks d (lo d) (hi d)) :
    ∃ a < ndim, ∃ b < ndim, (∀ d < ndim, hi a - lo a ≤ hi d - lo d ∧ hi d - lo d ≤ hi b - lo b) ∧
      (2 * (hi a - lo a) ≤ hi b - lo b → (m.ncf : ℝ) * m.width = hi a - lo a) ∧
      (hi b - lo b < 2 * (hi a - lo a) → (m.ncf : ℝ) * m.width = hi b - lo b ∧ ∀ d < ndim, m.dims d = 1) := by
  have hne := nonempty_of_some hbig h
  obtain ⟨hd, g, hg, hp, rfl⟩ := construct_some h
  have hext' : ∀ d < 3, IsExtent ranks d (g d) (g (d + 3)) := fun d hd => global_box_hull hbig hne hfin hg d hd
  have hn : 0 < ndim := by omega
  have hb := extent_bounds hfin hext'
  obtain ⟨min1, a, ha, min2⟩ := minExtent_spec big ndim g hn fun d hd => (hb d (by omega)).2
  obtain ⟨max1, b, hb', max2⟩ := maxExtent_spec big ndim g hn fun d hd => (hb d (by omega)).1
  have he : ∀ d < ndim, extent g d = hi d - lo d := fun d hd' => by
    obtain ⟨e1, e2⟩ := (hext d hd').unique (hext' d (by omega))
    unfold extent; rw [e1, e2]
  rw [he a ha] at min2
  rw [he b hb'] at max2
  generalize subdivisionOrder _ _ _ _ = order
  have hpow : (0 : ℝ) < 2 ^ order.toNat := by positivity
  refine ⟨a, ha, b, hb', fun d hd' => ?_, fun h2 => ?_, fun h2 => ?_⟩
  · rw [← min2, ← max2, ← he d hd']; exact ⟨min1 d hd', max1 d hd'⟩
  · have hc : coarseCellSize (minExtent big ndim g) (maxExtent big ndim g) = hi a - lo a := by
      unfold coarseCellSize
      rw [if_pos]
      · exact min2
      · rw [ge_iff_le, le_div_iff₀ hp, min2, max2]; exact h2
    dsimp only [mkHierarchy]
    rw [hc]; push_cast; field_simp
  · have hc : coarseCellSize (minExtent big ndim g) (maxExtent big ndim g) = hi b - lo b := by
      unfold coarseCellSize
      rw [if_neg]
      · exact max2
      · rw [not_le, div_lt_iff₀ hp, min2, max2]; exact h2
    have hpos : 0 < hi b - lo b := by
      have := max1 a ha; rw [he a ha, max2, ← min2] at this; linarith
    constructor
    · dsimp only [mkHierarchy]
      rw [hc]; push_cast; field_simp
    · intro d hd'
      dsimp only [mkHierarchy, coarseDim]
      rw [hc, Int.ceil_eq_iff]
      have h1 := min1 d hd'
      have h3 := max1 d hd'
      rw [max2] at h3
      refine ⟨?_, ?_⟩
      · norm_num; exact div_pos (by linarith) hpos
      · rw [div_le_iff₀ hpos]; push_cast; linarith

/-- **C75 (success).** The construction succeeds exactly if the mesh has two or three dimensions and the box around its elements has a positive extent in each
of them; a mesh without elements is rejected. -/
theorem constructs_iff (hbig : 0 < big) (hfin : Finite big ranks) :
    (construct big ndim offset ranks).isSome ↔ (ndim = 2 ∨ ndim = 3) ∧ ∀ d < ndim, ∃ a ∈ ranks.flatten, ∃ b ∈ ranks.flatten, a d < b (d + 3) := by
  constructor
  · intro h
    obtain ⟨m, hm⟩ := Option.isSome_iff_exists.mp h
    have hne := nonempty_of_some hbig hm
    obtain ⟨hd, g, hg, hp, _⟩ := construct_some hm
    refine ⟨hd, fun d hd' => ?_⟩
    obtain ⟨⟨⟨a, ha, ea⟩, _⟩, ⟨⟨b, hb, eb⟩, _⟩⟩ := global_box_hull hbig hne hfin hg d (by omega)
    have := (foldl_min_le (fun d => extent g d) (List.range ndim) big).2 d (List.mem_range.mpr hd')
    change minExtent big ndim g ≤ extent g d at this
    unfold extent at this
    exact ⟨a, ha, b, hb, by rw [← ea, ← eb]; linarith⟩
  · rintro ⟨hd, h⟩
    have hn : 0 < ndim := by omega
    obtain ⟨a, ha, _⟩ := h 0 hn
    have hne : ranks.flatten ≠ [] := List.ne_nil_of_mem ha
    have hr : ranks ≠ [] := by rintro rfl; simp at hne
    obtain ⟨g, hg⟩ : ∃ g, globalBox big ranks = some g := by
      cases ranks with
      | nil => exact absurd rfl hr
      | cons r rs => exact ⟨_, rfl⟩
    have hext : ∀ d < 3, IsExtent ranks d (g d) (g (d + 3)) := fun d hd => global_box_hull hbig hne hfin hg d hd
    obtain ⟨_, d, hd', e⟩ := minExtent_spec big ndim g hn fun d hd' => (extent_bounds hfin hext d (by omega)).2
    have hp : minExtent big ndim g > 0 := by
      rw [e]
      obtain ⟨a, ha, b, hb, hab⟩ := h d hd'
      have l := (hext d (by omega)).1.2 ⟨a, ha, rfl⟩
      have u := (hext d (by omega)).2.2 ⟨b, hb, rfl⟩
      unfold extent; linarith
    unfold construct createHierarchy
    rw [if_pos hd, hg, Option.bind_some]
    dsimp only
    rw [if_pos hp, num_elements ranks hr]; simp

/-- **C75 (points).** Each point inside of the bounding box of an element is in a cell of the hierarchy, and this is a cell that meets the box of the element. -/
theorem point_in_cell (hbig : 0 < big) (hfin : Finite big ranks) (h : construct big ndim offset ranks = some m) {b : Box} (hb : b ∈ ranks.flatten)
    (x : ℕ → ℝ) (hx : ∀ d < ndim, b d < x d ∧ x d < b (d + 3)) :
    ∃ c, InGrid m.toMH c ∧ (∀ d < ndim, m.origin d + (c d : ℝ) * m.width ≤ x d ∧ x d < m.origin d + ((c d : ℝ) + 1) * m.width) ∧
      BoxMeetsCell m (fun d => b d) (fun d => b (d + 3)) c := by
  obtain ⟨hgrid, hdim, hcov⟩ := hierarchy_covers hbig hfin h
  have hw := hgrid.2.2.1
  have cell : ∀ d < ndim, m.origin d + (⌊(x d - m.origin d) / m.width⌋ : ℝ) * m.width ≤ x d ∧
      x d < m.origin d + ((⌊(x d - m.origin d) / m.width⌋ : ℝ) + 1) * m.width := by
    intro d hd
    have f1 := Int.floor_le ((x d - m.origin d) / m.width)
    have f2 := Int.lt_floor_add_one ((x d - m.origin d) / m.width)
    rw [le_div_iff₀ hw] at f1
    rw [div_lt_iff₀ hw] at f2
    exact ⟨by linarith, by linarith⟩
  refine ⟨fun d => ⌊(x d - m.origin d) / m.width⌋, fun d hd => ?_, cell, ?_⟩
  · rw [hdim] at hd
    obtain ⟨hi, hext, hle, _⟩ := hcov d hd
    have l := hext.1.2 ⟨b, hb, rfl⟩
    have u := hext.2.2 ⟨b, hb, rfl⟩
    have hx' := hx d hd
    refine ⟨Int.floor_nonneg.mpr (div_nonneg (by linarith) hw.le), ?_⟩
    rw [Int.floor_lt, div_lt_iff₀ hw]
    linarith
  · rw [C26.meets_iff hgrid]
    intro d hd
    rw [hdim] at hd
    have hx' := hx d hd
    have c1 := cell d hd
    rw [C26.overlap1d_pos]
    refine ⟨by linarith, by linarith, by linarith, hw⟩

/-- The elements of a rank as `claim_cells` sees them. -/
def elemsOf (l : List Box) : List (Elem ℝ) := l.zipIdx.map fun p => ⟨p.2, fun d => p.1 d, fun d => p.1 (d + 3)⟩

/-- **C75 (claims).** Each point inside of the bounding box of an element is in a cell which the rank of the element claims: a particle in the element is in a cell of
the hierarchy that has an owner. -/
theorem point_in_claimed_cell (hbig : 0 < big) (hfin : Finite big ranks) (h : construct big ndim offset ranks = some m) {r : List Box} (hr : r ∈ ranks) {b : Box}
    (hb : b ∈ r) (x : ℕ → ℝ) (hx : ∀ d < ndim, b d < x d ∧ x d < b (d + 3)) :
    ∃ c id, InGrid m.toMH c ∧ HasLinearIndex m.toMH c id ∧
      (∀ d < ndim, m.origin d + (c d : ℝ) * m.width ≤ x d ∧ x d < m.origin d + ((c d : ℝ) + 1) * m.width) ∧
      id ∈ (claimCells m (LocalClaim.empty, fun _ => []) (elemsOf r)).1.cells := by
  have hgrid := (hierarchy_covers hbig hfin h).1
  obtain ⟨c, h1, h2, h3⟩ := point_in_cell hbig hfin h (List.mem_flatten.mpr ⟨r, hr, hb⟩) x hx
  have hi : HasLinearIndex m.toMH c (tupleToLinearGlobal m.toMH (meshTupleToMhTuple m.toMH c)) := (C23.hasLinearIndex_iff hgrid.1 h1 _).mpr rfl
  refine ⟨c, _, h1, hi, h2, (C26.claimed_iff hgrid _ _ _).mpr ?_⟩
  obtain ⟨i, hi', e⟩ := List.mem_iff_getElem.mp hb
  refine ⟨⟨i, fun d => b d, fun d => b (d + 3)⟩, ?_, c, h1, hi, h3⟩
  unfold elemsOf
  rw [List.mem_map]
  exact ⟨(b, i), by rw [List.mem_zipIdx_iff_getElem?]; simp [← e, hi'], rfl⟩

end

/-! ### An example -/

/-- A 3 × 1 domain of two elements on three ranks, one without elements. -/
noncomputable def exRanks : List (List Box) :=
  [[fun i => if i = 3 then 1 else if i = 4 then 1 else 0], [], [fun i => if i = 0 then 1 else if i = 3 then 3 else if i = 4 then 1 else 0]]

theorem ex_finite : Finite 100 exRanks := by
  intro b hb i hi
  simp only [exRanks, List.flatten_cons, List.flatten_nil, List.append_nil, List.nil_append, List.cons_append, List.mem_cons, List.not_mem_nil, or_false] at hb
  rcases hb with rfl | rfl <;> dsimp only <;> (constructor <;> split_ifs <;> norm_num)

example : (construct 100 2 0 exRanks).isSome := by
  rw [constructs_iff (by norm_num) ex_finite]
  refine ⟨Or.inl rfl, fun d hd => ?_⟩
  have hm : ∀ b, b = (fun i => if i = 3 then (1 : ℝ) else if i = 4 then 1 else 0) → b ∈ exRanks.flatten := by rintro b rfl; simp [exRanks]
  refine ⟨_, hm _ rfl, _, hm _ rfl, ?_⟩
  interval_cases d <;> norm_num

end Verif.Props.C75
