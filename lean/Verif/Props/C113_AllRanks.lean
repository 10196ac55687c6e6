import Verif.Spec.WallRun
import Verif.Props.C32_Nearest

/-! C113: the walls of all ranks are seen by the particles of every rank. -/

namespace Verif.Props.C113
open Verif.Model Verif.Model.MeshHierarchy Verif.Model.HaloCells Verif.Model.Claims Verif.Model.CompositeCollections Verif.Model.LinePlane
open Verif.Model.CompositeIntersection Verif.Model.WallRun Verif.Spec Verif.Spec.Reflection Verif.Spec.WallRun Verif.Props.C23 Verif.Props.C33

variable {K : Type} [Field K] [LinearOrder K] [IsStrictOrderedRing K] [FloorRing K]

/-! ### A cell with an owner -/

/-- In one dimension: `o`, `w`, `M` are the origin, width and number of cells, `lo`, `hi` the box of the element, `a`, `b` the ends of the step. -/
theorem owned_cell_1d (cart : K → ℤ) (o w : K) (M : ℤ) (hw : 0 < w) (hmono : ∀ x y, x ≤ y → cart x ≤ cart y)
    (hcell : ∀ x, o ≤ x → x < o + (M : K) * w → o + (cart x : K) * w ≤ x ∧ x < o + ((cart x : K) + 1) * w)
    (lo hi a b s s' : K) (hlo : o ≤ lo) (hhi : hi ≤ o + (M : K) * w) (hs'0 : 0 ≤ s') (hs' : s' < s) (hs1 : s ≤ 1)
    (hx : lo ≤ a + s * (b - a) ∧ a + s * (b - a) ≤ hi) (hy : lo < a + s' * (b - a) ∧ a + s' * (b - a) < hi) :
    ∃ t : ℤ, (0 ≤ t ∧ t < M) ∧ (min (cart a) (cart b) ≤ t ∧ t ≤ max (cart a) (cart b)) ∧
      (o + (t : K) * w ≤ a + s * (b - a) ∧ a + s * (b - a) ≤ o + ((t : K) + 1) * w) ∧
      ∃ z, (lo < z ∧ z < hi) ∧ o + (t : K) * w < z ∧ z < o + ((t : K) + 1) * w := by
  -- the cell of a point
  have hunique : ∀ (t : ℤ) (z : K), o ≤ z → z < o + (M : K) * w → o + (t : K) * w ≤ z → z < o + ((t : K) + 1) * w → cart z = t := by
    intro t z h0 h1 h2 h3
    obtain ⟨c0, c1⟩ := hcell z h0 h1
    have p : (t : K) < (cart z : K) + 1 := lt_of_mul_lt_mul_right (by linarith) hw.le
    have q : (cart z : K) < (t : K) + 1 := lt_of_mul_lt_mul_right (by linarith) hw.le
    have p' : t < cart z + 1 := by exact_mod_cast p
    have q' : cart z < t + 1 := by exact_mod_cast q
    omega
  generalize hX : a + s * (b - a) = x at *
  generalize hY : a + s' * (b - a) = y at *
  rcases lt_trichotomy a b with hab | hab | hab
  · -- upwards
    have hay : a ≤ y := by rw [← hY]; nlinarith
    have hyx : y < x := by rw [← hX, ← hY]; nlinarith
    have hxb : x ≤ b := by rw [← hX]; nlinarith
    have hc0 := Int.le_ceil ((x - o) / w)
    have hc1 := Int.ceil_lt_add_one ((x - o) / w)
    set k := ⌈(x - o) / w⌉ with hk
    rw [div_le_iff₀ hw] at hc0
    rw [← sub_lt_iff_lt_add, lt_div_iff₀ hw] at hc1
    have e0 : o + (((k - 1 : ℤ)) : K) * w < x := by push_cast; linarith
    have e1 : x ≤ o + (((k - 1 : ℤ) : K) + 1) * w := by push_cast; linarith
    have hk0 : 0 ≤ k - 1 := by
      by_contra hn
      push Not at hn
      have : (k : K) ≤ 0 := by exact_mod_cast (by omega : k ≤ 0)
      nlinarith
    have hk1 : k - 1 < M := by
      by_contra hn
      push Not at hn
      have : (M : K) ≤ ((k - 1 : ℤ) : K) := by exact_mod_cast hn
      nlinarith
    have hz1 : max y (o + (((k - 1 : ℤ)) : K) * w) < x := max_lt hyx e0
    have ha1 := le_max_left y (o + (((k - 1 : ℤ)) : K) * w)
    have ha2 := le_max_right y (o + (((k - 1 : ℤ)) : K) * w)
    have hz : cart ((max y (o + (((k - 1 : ℤ)) : K) * w) + x) / 2) = k - 1 :=
      hunique _ _ (by linarith) (by linarith) (by linarith) (by linarith)
    refine ⟨k - 1, ⟨hk0, hk1⟩, ⟨?_, ?_⟩, ⟨e0.le, e1⟩, (max y (o + (((k - 1 : ℤ)) : K) * w) + x) / 2, ⟨by linarith, by linarith⟩, by linarith, by linarith⟩
    · rw [← hz]; exact le_trans (min_le_left _ _) (hmono _ _ (by linarith))
    · rw [← hz]; exact le_trans (hmono _ _ (by linarith)) (le_max_right _ _)
  · -- no movement
    subst hab
    have ex : x = a := by rw [← hX]; ring
    have ey : y = a := by rw [← hY]; ring
    subst ex
    rw [ey] at hy
    obtain ⟨c0, c1⟩ := hcell x (by linarith) (by linarith)
    have h1 : x < min hi (o + ((cart x : K) + 1) * w) := lt_min hy.2 c1
    have m1 := min_le_left hi (o + ((cart x : K) + 1) * w)
    have m2 := min_le_right hi (o + ((cart x : K) + 1) * w)
    refine ⟨cart x, ⟨?_, ?_⟩, ⟨min_le_left _ _, le_max_left _ _⟩, ⟨c0, c1.le⟩, (x + min hi (o + ((cart x : K) + 1) * w)) / 2,
      ⟨by linarith, by linarith⟩, by linarith, by linarith⟩
    · by_contra hn
      push Not at hn
      have : (cart x : K) + 1 ≤ 0 := by exact_mod_cast hn
      nlinarith
    · by_contra hn
      push Not at hn
      have : (M : K) ≤ (cart x : K) := by exact_mod_cast hn
      nlinarith
  · -- downwards
    have hay : y ≤ a := by rw [← hY]; nlinarith
    have hyx : x < y := by rw [← hX, ← hY]; nlinarith
    have hxb : b ≤ x := by rw [← hX]; nlinarith
    obtain ⟨c0, c1⟩ := hcell x (by linarith) (by linarith)
    have h1 : x < min y (o + ((cart x : K) + 1) * w) := lt_min hyx c1
    have m1 := min_le_left y (o + ((cart x : K) + 1) * w)
    have m2 := min_le_right y (o + ((cart x : K) + 1) * w)
    have hk0 : 0 ≤ cart x := by
      by_contra hn
      push Not at hn
      have : (cart x : K) + 1 ≤ 0 := by exact_mod_cast hn
      nlinarith
    have hk1 : cart x < M := by
      by_contra hn
      push Not at hn
      have : (M : K) ≤ (cart x : K) := by exact_mod_cast hn
      nlinarith
    refine ⟨cart x, ⟨hk0, hk1⟩, ⟨?_, ?_⟩, ⟨c0, c1.le⟩, (x + min y (o + ((cart x : K) + 1) * w)) / 2,
      ⟨by linarith, by linarith⟩, by linarith, by linarith⟩
    · exact le_trans (min_le_right _ _) (hmono _ _ hxb)
    · exact le_trans (hmono _ _ (by linarith)) (le_max_left _ _)

/-- A point the step reaches from inside of an element is in an examined cell that the rank of the element claims. -/
theorem owned_cell_examined {m : MHGeom K} (hm : GridGeom m) {cart : ℕ → K → ℤ} (hcart : CartOk m cart) (q : Particle K)
    (hq : InGrid m.toMH fun d => cart d (q.pp d)) (mesh : RankMesh K) (e : Elem K) (he : e ∈ mesh.elems)
    (hel : ∀ d < m.ndim, m.origin d ≤ e.lo d ∧ e.hi d ≤ m.origin d + ((m.dims d * m.ncf : ℤ) : K) * m.width)
    (s s' : K) (hs1 : s ≤ 1) (hs'0 : 0 ≤ s') (hs' : s' < s) (hx : ∀ d < m.ndim, e.lo d ≤ along q.pp q.p s d ∧ along q.pp q.p s d ≤ e.hi d)
    (hy : ∀ d < m.ndim, e.lo d < along q.pp q.p s' d ∧ along q.pp q.p s' d < e.hi d) :
    ∃ t c, InGrid m.toMH t ∧ HasLinearIndex m.toMH t c ∧ c ∈ examined m.toMH cart q ∧ c ∈ claimedBy m mesh ∧
      ∀ d < m.ndim, m.origin d + (t d : K) * m.width ≤ along q.pp q.p s d ∧ along q.pp q.p s d ≤ m.origin d + ((t d : K) + 1) * m.width := by
  have key := fun d (hd : d < m.ndim) => owned_cell_1d (cart d) (m.origin d) m.width (m.dims d * m.ncf) hm.2.2.1 (hcart.mono d) (hcart.cell d hd)
    (e.lo d) (e.hi d) (q.pp d) (q.p d) s s' (hel d hd).1 (hel d hd).2 hs'0 hs' hs1 (hx d hd) (hy d hd)
  choose! t ht1 ht2 ht3 z hz using key
  have hg : InGrid m.toMH t := fun d hd => ht1 d hd
  have hl := ((C25.cell_index_bijective m.toMH hm.1).1 t hg).1
  refine ⟨t, _, hg, hl, ?_, ?_, fun d hd => ht3 d hd⟩
  · rw [examined_exact hm.1 hm.2.1 q hq]
    exact ⟨t, hg, hl, fun d hd => ht2 d hd⟩
  · unfold claimedBy
    rw [C26.claimed_iff hm]
    exact ⟨e, he, t, hg, hl, z, fun d hd => hz d hd⟩

/-! ### The construction -/

section world
variable {m : MHGeom K} {cart : ℕ → K → ℤ} {owner : ℤ → ℤ} {groups : List (ℤ × List ℤ)} {meshes : List (RankMesh K)} {data : ℤ → List (RG K)}

omit [IsStrictOrderedRing K] in
theorem pairsOf_fst (groups : List (ℤ × List ℤ)) : (C29.pairsOf groups).map Prod.fst = groups.flatMap Prod.snd := by
  unfold C29.pairsOf
  rw [List.map_flatMap]
  simp [Function.comp_def]

omit [Field K] [LinearOrder K] [IsStrictOrderedRing K] [FloorRing K] in
theorem mapM_all {α β : Type} (f : α → Option β) : ∀ (l : List α), (∀ a ∈ l, ∃ b, f a = some b) →
    ∃ l', l.mapM f = some l' ∧ ∀ b, b ∈ l' ↔ ∃ a ∈ l, f a = some b := by
  intro l
  induction l with
  | nil => intro _; exact ⟨[], rfl, by simp⟩
  | cons a l ih =>
    intro h
    obtain ⟨b, hb⟩ := h a (by simp)
    obtain ⟨l', h1, h2⟩ := ih fun x hx => h x (by simp [hx])
    refine ⟨b :: l', by rw [List.mapM_cons, hb, h1]; rfl, fun y => ?_⟩
    rw [List.mem_cons, h2]
    constructor
    · rintro (rfl | ⟨x, hx, hy⟩)
      · exact ⟨a, by simp, hb⟩
      · exact ⟨x, by simp [hx], hy⟩
    · rintro ⟨x, hx, hy⟩
      rcases List.mem_cons.mp hx with rfl | hx
      · left; rw [hb] at hy; exact (Option.some_inj.mp hy).symm
      · exact Or.inr ⟨x, hx, hy⟩

/-- The construction succeeds; each composite has the group it is listed in; a face is given for a cell exactly if it is a wall, the cell has an owner and
meets the enlarged box of the face. -/
theorem setup_exact (h : WorldOk m cart owner groups meshes data) :
    ∃ group given, setup m owner groups meshes = some (group, given) ∧ (∀ c l, group c = some l ↔ ∃ cs, (l, cs) ∈ groups ∧ c ∈ cs) ∧
      ∀ c r, r ∈ data c ↔ (∃ l, IsWall groups meshes l r) ∧ owner c ≠ mask ∧
        ∃ len, (∀ d < m.ndim, r.geom.hi d - r.geom.lo d ≤ len) ∧ (∃ d < m.ndim, len = r.geom.hi d - r.geom.lo d) ∧
          BoxMeets m (fun d => r.geom.lo d - len / 50) (fun d => r.geom.hi d + len / 50) c := by
  obtain ⟨group, hg1, hg2⟩ := (C29.groups_exact groups).1 (by rw [pairsOf_fst]; exact h.once)
  rw [pairsOf_fst] at hg1
  have hmem : ∀ ix, ix ∈ groups.flatMap Prod.snd ↔ ∃ l cs, (l, cs) ∈ groups ∧ ix ∈ cs := by
    intro ix
    rw [List.mem_flatMap]
    constructor
    · rintro ⟨⟨l, cs⟩, h1, h2⟩; exact ⟨l, cs, h1, h2⟩
    · rintro ⟨l, cs, h1, h2⟩; exact ⟨(l, cs), h1, h2⟩
  have hwall : ∀ mesh ∈ meshes, ∀ ix ∈ groups.flatMap Prod.snd, ∀ gs, mesh.graph ix = some gs → ∀ g ∈ gs, ∃ l, IsWall groups meshes l ⟨ix, g.id, g⟩ := by
    intro mesh hmesh ix hix gs hgs g hg
    obtain ⟨l, cs, h1, h2⟩ := (hmem ix).mp hix
    exact ⟨l, ⟨cs, h1, h2⟩, ⟨mesh, hmesh, gs, hgs, hg⟩, rfl⟩
  have hgiven : ∀ mesh ∈ meshes, ∃ f, givenBy m owner (groups.flatMap Prod.snd) mesh = some f ∧ ∀ c r, r ∈ f c ↔
      r.composite ∈ groups.flatMap Prod.snd ∧ (∃ gs, mesh.graph r.composite = some gs ∧ r.geom ∈ gs) ∧ r.id = r.geom.id ∧
        owner c ≠ -2147483648 ∧ ∃ len, (∀ d < m.ndim, r.geom.hi d - r.geom.lo d ≤ len) ∧ (∃ d < m.ndim, len = r.geom.hi d - r.geom.lo d) ∧
          BoxMeets m (fun d => r.geom.lo d - len / 50) (fun d => r.geom.hi d + len / 50) c := by
    intro mesh hmesh
    have hx := fun c r => C29.given_exact h.grid owner mesh.graph (groups.flatMap Prod.snd)
      (fun ix hix gs hgs g hg => by obtain ⟨l, hl⟩ := hwall mesh hmesh ix hix gs hgs g hg; exact (h.walls l _ hl).1)
      (fun ix hix gs hgs g hg => by obtain ⟨l, hl⟩ := hwall mesh hmesh ix hix gs hgs g hg; exact (h.walls l _ hl).2.1) c r
    obtain ⟨l0, hl0, -⟩ := hx 0 ⟨0, 0, ⟨0, .other, fun _ => 0, fun _ => 0, 0, []⟩⟩
    refine ⟨cellGeomMap m owner (1 / 50) l0, by unfold givenBy; rw [hl0]; rfl, fun c r => ?_⟩
    obtain ⟨l1, hl1, hr⟩ := hx c r
    rw [hl0] at hl1
    cases hl1
    exact hr
  obtain ⟨given, hs1, hs2⟩ := mapM_all (givenBy m owner (groups.flatMap Prod.snd)) meshes fun mesh hmesh => by
    obtain ⟨f, hf, -⟩ := hgiven mesh hmesh
    exact ⟨f, hf⟩
  have hset : setup m owner groups meshes = some (group, given) := by
    unfold setup
    rw [hg1, Option.bind_some]
    dsimp only
    rw [hs1]
    rfl
  refine ⟨group, given, hset, hg2, fun c r => ?_⟩
  rw [(h.container group given hset c).mem_iff, List.mem_flatMap]
  constructor
  · rintro ⟨f, hf, hr⟩
    obtain ⟨mesh, hmesh, hf⟩ := (hs2 f).mp hf
    obtain ⟨f', hf', hx⟩ := hgiven mesh hmesh
    rw [hf] at hf'
    cases hf'
    obtain ⟨h1, h2, h3, h4, h5⟩ := (hx c r).mp hr
    obtain ⟨l, cs, a, b⟩ := (hmem _).mp h1
    obtain ⟨gs, hgs, hg⟩ := h2
    exact ⟨⟨l, ⟨cs, a, b⟩, ⟨mesh, hmesh, gs, hgs, hg⟩, h3⟩, h4, h5⟩
  · rintro ⟨⟨l, ⟨cs, a, b⟩, ⟨mesh, hmesh, hgs⟩, h3⟩, h4, h5⟩
    obtain ⟨f, hf, hx⟩ := hgiven mesh hmesh
    exact ⟨f, (hs2 f).mpr ⟨mesh, hmesh, hf⟩, (hx c r).mpr ⟨(hmem _).mpr ⟨l, cs, a, b⟩, hgs, h3, h4, h5⟩⟩

/-- A wall that the step reaches from inside is given for an examined cell. -/
theorem reached_examined (h : WorldOk m cart owner groups meshes data) (q : Particle K) (hq : InGrid m.toMH fun d => cart d (q.pp d)) (l : ℤ) (r : RG K)
    (hr : IsWall groups meshes l r) (i : V3 K) (hi : ReachedFromInside m.ndim meshes r q.pp q.p i) : ∃ c ∈ examined m.toMH cart q, r ∈ data c := by
  obtain ⟨s, hs0, hs1, -, hbox, mesh, hmesh, e, he, hx, s', hs'0, hs', hy⟩ := hi
  obtain ⟨t, c, h1, h2, h3, h4, h5⟩ := owned_cell_examined h.grid h.cart q hq mesh e he (h.elems mesh hmesh e he) s s' hs1 hs'0 hs' hx hy
  obtain ⟨group, given, -, -, hd⟩ := setup_exact h
  refine ⟨c, h3, (hd c r).mpr ⟨⟨l, hr⟩, (h.owned c).mpr ⟨mesh, hmesh, h4⟩, ?_⟩⟩
  obtain ⟨-, w1, ⟨d0, hd0, w2⟩, -⟩ := h.walls l r hr
  obtain ⟨L, hL1, hL2, -⟩ := C26.map_padded_exact h.grid r.geom.lo r.geom.hi w1 (1 / 50) (by norm_num)
  have hL : 0 < L := by have := hL1 d0 hd0; linarith
  exact ⟨L, hL1, hL2, C29.touching_cell_meets h.grid _ _ L hL t h1 c h2 _ hbox h5⟩

/-! ### A call -/

/-- What each rank holds between calls. -/
def Held (m : MHGeom K) (data : ℤ → List (RG K)) (group : ℤ → Option ℤ) (n : ℕ) (ranks : List (Rank K)) : Prop :=
  ranks.length = n ∧ ∃ asked : ℕ → List ℤ, ∀ (i : ℕ) r, ranks[i]? = some r → Collected m.ndim data group (asked i) r

omit [Field K] [LinearOrder K] [IsStrictOrderedRing K] [FloorRing K] in
theorem mapM_fst (call : List (RankIn K)) (f : ℕ → List ℤ) (h : ∀ (i : ℕ) x, call[i]? = some x → x.cells = some (f i)) :
    ∃ cells, call.mapM RankIn.cells = some cells ∧ cells.length = call.length ∧ ∀ (i : ℕ), i < call.length → cells[i]? = some (f i) := by
  induction call generalizing f with
  | nil => exact ⟨[], rfl, rfl, by simp⟩
  | cons x l ih =>
    obtain ⟨cells, h1, h2, h3⟩ := ih (fun i => f (i + 1)) fun i y hy => h (i + 1) y (by simpa using hy)
    refine ⟨f 0 :: cells, ?_, by simp [h2], fun i hi => ?_⟩
    · rw [List.mapM_cons, h 0 x rfl, h1]; rfl
    · cases i with
      | zero => rfl
      | succ i => simpa using h3 i (by simpa using hi)

/-- A call on all ranks: it does not fail, and every rank gets the right report. -/
theorem getAll_spec (h : WorldOk m cart owner groups meshes data) (T : Tests K) (junk : ℤ → List (RG K)) {group : ℤ → Option ℤ}
    {given : List (ℤ → List (RG K))} (hset : setup m owner groups meshes = some (group, given)) (ranks : List (Rank K))
    (hheld : Held m data group meshes.length ranks) (call : List (RankIn K)) (hcall : CallOk m cart meshes call) :
    ∃ ranks' res, getAll m.toMH cart T data junk group (groups.map Prod.fst) ranks call = some (ranks', res) ∧ Held m data group meshes.length ranks' ∧
      res.length = meshes.length ∧ ∀ (i : ℕ) x out, call[i]? = some x → res[i]? = some out → ReportOk m T groups meshes x.particles out ∧
        ∀ y ∈ out, ∀ e ∈ y.2, ∃ c ∈ examined m.toMH cart e.particle, ∃ r, r ∈ data c := by
  obtain ⟨group', given', hset', hgroup, hdata⟩ := setup_exact h
  rw [hset] at hset'
  cases hset'
  obtain ⟨hlen, asked, hasked⟩ := hheld
  obtain ⟨hcl, hc⟩ := hcall
  have hgood : ∀ c, ∀ r ∈ data c, GoodGeom m.ndim group r := by
    intro c r hr
    obtain ⟨⟨l, hl⟩, -⟩ := (hdata c r).mp hr
    have hw := h.walls l r hl
    exact ⟨hw.1, by rw [(hgroup r.composite l).mpr hl.1]; rfl, hw.2.2.2⟩
  have hid : ∀ c c' : ℤ, ∀ g ∈ data c, ∀ g' ∈ data c', g.id = g'.id → g = g' := by
    intro c c' g hg g' hg' e
    obtain ⟨⟨l, hl⟩, -⟩ := (hdata c g).mp hg
    obtain ⟨⟨l', hl'⟩, -⟩ := (hdata c' g').mp hg'
    exact h.ids l l' g g' hl hl' e
  -- the cells each rank finds
  have hfind : ∀ (i : ℕ) x, call[i]? = some x → ∃ cells, x.cells = some cells ∧ ∀ q ∈ x.particles, ∀ c ∈ examined m.toMH cart q, c ∈ cells := by
    intro i x hx
    have hi : i < meshes.length := by rw [← hcl]; exact (List.getElem?_eq_some_iff.mp hx).1
    obtain ⟨⟨⟨oldSize, hf⟩, -⟩, -, hp⟩ := hc i x meshes[i] hx (List.getElem?_eq_getElem hi)
    obtain ⟨cells, hcells, -, -⟩ := find_cells_exact h.grid.1 h.grid.2.1 (fun q hq => (hp q hq).2.1) (fun q hq => (hp q hq).2.2.2) oldSize _ hf
    refine ⟨cells, hcells, fun q hq c hc' => ?_⟩
    obtain ⟨cells', h1, h2⟩ := examined_collected_partial h.grid.1 h.grid.2.1 (fun q hq => (hp q hq).2.1) (fun q hq => (hp q hq).2.2.2) oldSize _ hf q hq
      (hp q hq).2.2.1
    rw [hcells] at h1
    cases h1
    exact h2 c hc'
  have hf : ∃ f : ℕ → List ℤ, ∀ (i : ℕ) x, call[i]? = some x → x.cells = some (f i) ∧ ∀ q ∈ x.particles, ∀ c ∈ examined m.toMH cart q, c ∈ f i := by
    refine ⟨fun i => ((call[i]?.bind RankIn.cells).getD []), fun i x hx => ?_⟩
    obtain ⟨cells, h1, h2⟩ := hfind i x hx
    dsimp only
    rw [hx, Option.bind_some, h1]
    exact ⟨rfl, h2⟩
  obtain ⟨f, hf⟩ := hf
  obtain ⟨cells, hm1, hm2, hm3⟩ := mapM_fst call f fun i x hx => (hf i x hx).1
  obtain ⟨ranks', hh1, hh2, hh3⟩ := C29.history_spec (ndim := m.ndim) (data := data) (junk := junk) (group := group) meshes.length [cells] ranks asked hlen
    (by simp [hm2, hcl]) (fun req _ cs _ x _ g hg => hgood x g hg) hasked
  have hcoll : collectAll m.ndim data junk group (ranks.zip cells) = some ranks' := by
    unfold history at hh1
    cases hx : collectAll m.ndim data junk group (ranks.zip cells) with
    | none => rw [hx] at hh1; cases hh1
    | some y => rw [hx, Option.bind_some] at hh1; unfold history at hh1; exact hh1
  have hasked' : ∀ (i : ℕ) r, ranks'[i]? = some r → Collected m.ndim data group (asked i ++ cells.getD i []) r := by
    intro i r hr
    simpa using hh3 i r hr
  unfold getAll
  rw [hm1, Option.bind_some, hcoll, Option.bind_some]
  obtain ⟨res, hr1, hr2, hr3⟩ := C29.mapM_index
    (fun x : Rank K × RankIn K => getIntersections m.toMH cart T x.1.coll (groups.map Prod.fst) x.2.npart x.2.particles x.2.out) (ranks'.zip call)
    (fun i out => ∀ x, call[i]? = some x → ReportOk m T groups meshes x.particles out ∧
      ∀ y ∈ out, ∀ e ∈ y.2, ∃ c ∈ examined m.toMH cart e.particle, ∃ r, r ∈ data c) (by
      rintro i ⟨rank, x⟩ hrx
      obtain ⟨ha, hb⟩ := List.getElem?_zip_eq_some.mp hrx
      dsimp only at ha hb ⊢
      have hi : i < meshes.length := by rw [← hcl]; exact (List.getElem?_eq_some_iff.mp hb).1
      obtain ⟨⟨-, hs1, hs2, hs3⟩, hp1, hp⟩ := hc i x meshes[i] hb (List.getElem?_eq_getElem hi)
      have hcellsi : cells.getD i [] = f i := by
        rw [List.getD_eq_getElem?_getD, hm3 i (by omega)]; rfl
      have hcollected := hasked' i rank ha
      rw [hcellsi] at hcollected
      have hex : ∀ q ∈ x.particles, ∀ c ∈ examined m.toMH cart q, c ∈ asked i ++ f i := fun q hq c hc' =>
        List.mem_append_right _ ((hf i x hb).2 q hq c hc')
      obtain ⟨out, g1, g2, g3, g4, g5, g6⟩ := C32.get_intersections_exact (m := m.toMH) (T := T) (cart := cart) (npart := x.npart) (particles := x.particles)
        h.ndim hcollected (fun c _ r hr => hgood c r hr) (fun c _ c' _ g hg g' hg' e => hid c c' g hg g' hg' e) (groups.map Prod.fst)
        (fun c _ r hr l hl => by
          obtain ⟨cs, hcs, -⟩ := (hgroup r.composite l).mp hl
          exact List.mem_map.mpr ⟨(l, cs), hcs, rfl⟩)
        hex (fun q hq => (hp q hq).1) hp1 x.out ⟨hs1, hs2⟩ (fun q hq => hs3 _ (hp q hq).1)
      refine ⟨out, g1, fun x' hx' => ?_⟩
      rw [hb] at hx'
      cases hx'
      refine ⟨⟨g2, ?_, ?_, g4, g6⟩, fun y hy e he => by obtain ⟨-, -, r, j, ⟨⟨⟨c, hc', hr⟩, -⟩, -⟩, -⟩ := g3 y hy e he; exact ⟨c, hc', r, hr⟩⟩
      · intro y hy e he
        obtain ⟨k1, k2, r, j, hn, k3, k4, k5, k6⟩ := g3 y hy e he
        refine ⟨k1, r, j, ⟨?_, hn.1.2, ?_, ?_⟩, k4, k5, k6⟩
        · obtain ⟨c, -, hr⟩ := hn.1.1
          obtain ⟨⟨l, hl⟩, -⟩ := (hdata c r).mp hr
          exact ⟨(hgroup r.composite y.1).mp k3, hl.2⟩
        · obtain ⟨r', i', hh', hlt⟩ := k2
          exact lt_of_le_of_lt (hn.2 r' i' hh') hlt
        · intro l' r' i' hw hh' hre
          obtain ⟨c, hc', hr'⟩ := reached_examined h e.particle (hp _ k1).2.2.1 l' r' hw i' hre
          exact hn.2 r' i' ⟨⟨c, hc', hr'⟩, hh'⟩
      · rintro q hq ⟨l, r, j, hw, hh', hre, hlt⟩
        obtain ⟨c, hc', hr'⟩ := reached_examined h q (hp _ hq).2.2.1 l r hw j hre
        exact g5 q hq ⟨r, j, ⟨⟨c, hc', hr'⟩, hh'⟩, hlt⟩)
  refine ⟨ranks', res, by rw [hr1]; rfl, ⟨hh2, _, hasked'⟩, by rw [hr2, List.length_zip, hh2, hcl, min_self], fun i x out hx hout => hr3 i out hout x hx⟩

/-- **C113.** The construction on all ranks succeeds. For any number of calls, with any particles on each rank and any order of the atomic operations, no
call fails, and each rank gets, for each of its particles, the right report with respect to the walls of all ranks. -/
theorem walls_of_all_ranks (h : WorldOk m cart owner groups meshes data) (T : Tests K) (junk : ℤ → List (RG K)) :
    ∃ group given, setup m owner groups meshes = some (group, given) ∧ ∀ calls : List (List (RankIn K)), (∀ call ∈ calls, CallOk m cart meshes call) →
      ∃ results, run m.toMH cart T data junk group (groups.map Prod.fst) (List.replicate meshes.length {}) calls = some results ∧
        results.length = calls.length ∧ ∀ (k : ℕ) call res, calls[k]? = some call → results[k]? = some res → res.length = meshes.length ∧
          ∀ (i : ℕ) x out, call[i]? = some x → res[i]? = some out → ReportOk m T groups meshes x.particles out := by
  obtain ⟨group, given, hset, -⟩ := setup_exact h
  refine ⟨group, given, hset, fun calls hcalls => ?_⟩
  have h0 : Held m data group meshes.length (List.replicate meshes.length ({} : Rank K)) := by
    refine ⟨by simp, fun _ => [], fun i r hr => ?_⟩
    have : r = {} := List.eq_of_mem_replicate (List.mem_of_getElem? hr)
    subst this
    exact ⟨by simp, by simp, by simp, by simp, by simp, by simp, ⟨by simp, by simp⟩, ⟨by simp, by simp⟩, ⟨by simp, by simp⟩,
      ⟨by simp, by simp⟩, ⟨by simp, Or.inl rfl⟩⟩
  generalize List.replicate meshes.length ({} : Rank K) = ranks at h0
  induction calls generalizing ranks with
  | nil => exact ⟨[], rfl, rfl, by simp⟩
  | cons call l ih =>
    obtain ⟨ranks', res, h1, h2, h3, h4⟩ := getAll_spec h T junk hset ranks h0 call (hcalls call (by simp))
    obtain ⟨results, h5, h6, h7⟩ := ih (fun c hc => hcalls c (by simp [hc])) ranks' h2
    refine ⟨res :: results, by rw [run, h1, Option.bind_some]; dsimp only; rw [h5]; rfl, by simp [h6], fun k c r hc hr => ?_⟩
    cases k with
    | zero =>
      simp only [List.getElem?_cons_zero, Option.some_inj] at hc hr
      subst hc; subst hr
      exact ⟨h3, fun i x out hx hout => (h4 i x out hx hout).1⟩
    | succ k => exact h7 k c r (by simpa using hc) (by simpa using hr)

end world

end Verif.Props.C113
