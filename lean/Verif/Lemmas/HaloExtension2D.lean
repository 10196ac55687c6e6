import Verif.Lemmas.HaloExtension
import Verif.Spec.Halo
import Verif.Props.C23_HaloStencil
import Mathlib.Order.Interval.Finset.Basic
import Mathlib.Data.Int.Interval

/-! One call of `extend_halos_fixed_offset` on a 2D mesh. -/

namespace Verif.Lemmas.HaloExtension
open Verif.Model Verif.Model.Bytes Verif.Model.PackedGeom2D Verif.Model.MeshHierarchy Verif.Model.Mpi Verif.Model.Claims Verif.Model.HaloCells
  Verif.Model.HaloExchange Verif.Model.HaloExtension Verif.Spec Verif.Lemmas Verif.Lemmas.Mpi Verif.Lemmas.HaloExchange

variable {n : ℕ}

/-- The elements of a shape of a rank. -/
def elsOf : Shape2 → Pmi2d → List (ℤ × Geom)
  | .tri, p => p.tris
  | .quad, p => p.quads
/-- The halo of a shape of a rank. -/
def remsOf : Shape2 → Pmi2d → List Remote
  | .tri, p => p.remoteTris
  | .quad, p => p.remoteQuads
/-- The number of edges. -/
def edgesOf : Shape2 → ℕ
  | .tri => 3
  | .quad => 4
/-- The value of Nektar++'s enum. -/
def codeOf : Shape2 → I32
  | .tri => 3
  | .quad => 4

/-- All of the elements of a shape. -/
def allOf (sh : Shape2) (pmi : Fin n → Pmi2d) : List Remote := (List.finRange n).flatMap fun s => (elsOf sh (pmi s)).map (remoteOf s)

variable {K : Type} [Field K] [LinearOrder K]

/-- The conditions on the mesh: ids are `int`s, those of the geometries and unique on their rank, geometries are well formed, the sizes of the buffers and the number of
cells are `int`s, the cells of a rank are cells of the grid, a rank owns its `owned` cells, and every cell which an element meets has an owner. -/
structure MeshOk (m : MHGeom K) (owner : ℤ → ℤ) (box : Geom → (ℕ → K) × (ℕ → K)) (pmi : Fin n → Pmi2d) : Prop where
  grid : GridGeom m
  ranks : n ≤ 2 ^ 31
  ncells : ncellsGlobal m.toMH < 2 ^ 31
  ids : ∀ s, (((pmi s).tris ++ (pmi s).quads).map Prod.fst).Nodup
  range : ∀ s sh, ∀ e ∈ elsOf sh (pmi s), -2 ^ 31 ≤ e.1 ∧ e.1 < 2 ^ 31
  gid : ∀ s sh, ∀ e ∈ elsOf sh (pmi s), e.2.id.toInt = e.1
  wf : ∀ s sh, ∀ e ∈ elsOf sh (pmi s), GeomOk (edgesOf sh) e.2
  count : ∀ sh, (allOf sh pmi).length < 2 ^ 31
  size : ∀ sh, n * (packRemotes (codeOf sh) (allOf sh pmi)).length < 2 ^ 31
  cells : ∀ s, ∀ c ∈ (pmi s).owned ++ (pmi s).unowned, 0 ≤ c ∧ c < ncellsGlobal m.toMH
  owned : ∀ s, ∀ c ∈ (pmi s).owned, owner c = s.val
  owner : ∀ s sh, ∀ e ∈ elsOf sh (pmi s), ∀ c, Meets m box e.2 c → 0 ≤ owner c ∧ owner c < n

/-- The conditions on the halos: they hold elements of other ranks, each once, and at least those which meet the cells of the rank. -/
structure HalosOk (m : MHGeom K) (owner : ℤ → ℤ) (box : Geom → (ℕ → K) × (ℕ → K)) (pmi : Fin n → Pmi2d) : Prop where
  sound : ∀ r sh, ∀ x ∈ remsOf sh (pmi r), ∃ s, s ≠ r ∧ ∃ e ∈ elsOf sh (pmi s), x = remoteOf s e
  once : ∀ r sh, ((remsOf sh (pmi r)).map keyOf).Nodup
  knows : ∀ r sh c, owner c = r.val → ∀ s, s ≠ r → ∀ e ∈ elsOf sh (pmi s), Meets m box e.2 c → remoteOf s e ∈ remsOf sh (pmi r)

/-- The state of a rank up to the order of the halo. -/
structure Same (a b : Pmi2d) : Prop where
  tris : a.tris = b.tris
  quads : a.quads = b.quads
  owned : a.owned = b.owned
  unowned : a.unowned = b.unowned
  rems : ∀ sh x, x ∈ remsOf sh a ↔ x ∈ remsOf sh b
  once : ∀ sh, ((remsOf sh a).map keyOf).Nodup

theorem Same.els {a b : Pmi2d} (h : Same a b) (sh : Shape2) : elsOf sh a = elsOf sh b := by
  cases sh
  · exact h.tris
  · exact h.quads

/-- The cell `c` is near one of the cells. -/
def Near (m : Verif.Model.MeshHierarchy.MH) (w : ℤ) (pbc : Bool) (cells : List ℤ) (c : ℤ) : Prop := ∃ b ∈ cells, NearCell m w pbc b c

section
variable {m : MHGeom K} {owner : ℤ → ℤ} {box : Geom → (ℕ → K) × (ℕ → K)} {pmi : Fin n → Pmi2d}

theorem key_remoteOf (hn : n ≤ 2 ^ 31) (s : Fin n) {e : ℤ × Geom} (he : -2 ^ 31 ≤ e.1 ∧ e.1 < 2 ^ 31) :
    keyOf (remoteOf s e) = toLex ((s.val : ℤ), e.1) := by
  have := s.isLt
  unfold keyOf remoteOf
  simp only
  rw [toInt_ofNat32 _ (by omega), BitVec.toInt_ofInt, Int.bmod_eq_of_le (by omega) (by omega)]

theorem remoteAt_key (s : Fin n) (e : ℤ × Geom) : remoteAt (toLex ((s.val : ℤ), e.1)) e.2 = remoteOf s e := by
  unfold remoteAt remoteOf
  simp only [ofLex_toLex]
  rw [BitVec.ofInt_natCast]

theorem key_inj {s s' : Fin n} {i i' : ℤ} (h : (toLex ((s.val : ℤ), i) : Key) = toLex ((s'.val : ℤ), i')) : s = s' ∧ i = i' := by
  have h' : ((s.val : ℤ), i) = ((s'.val : ℤ), i') := h
  simp only [Prod.mk.injEq] at h'
  exact ⟨Fin.ext (by omega), h'.2⟩

theorem MeshOk.elem_unique (h : MeshOk m owner box pmi) {s : Fin n} {sh sh' : Shape2} {e e' : ℤ × Geom} (he : e ∈ elsOf sh (pmi s))
    (he' : e' ∈ elsOf sh' (pmi s)) (hi : e.1 = e'.1) : sh = sh' ∧ e = e' := by
  have hn := h.ids s
  rw [List.map_append, List.nodup_append] at hn
  obtain ⟨h1, h2, h3⟩ := hn
  cases sh <;> cases sh'
  · exact ⟨rfl, List.inj_on_of_nodup_map h1 he he' hi⟩
  · exact absurd hi (h3 e.1 (List.mem_map_of_mem he) e'.1 (List.mem_map_of_mem he'))
  · exact absurd hi.symm (h3 e'.1 (List.mem_map_of_mem he') e.1 (List.mem_map_of_mem he))
  · exact ⟨rfl, List.inj_on_of_nodup_map h2 he he' hi⟩

theorem MeshOk.remote_inj (h : MeshOk m owner box pmi) {s s' : Fin n} {sh sh' : Shape2} {e e' : ℤ × Geom} (he : e ∈ elsOf sh (pmi s))
    (he' : e' ∈ elsOf sh' (pmi s')) (hk : keyOf (remoteOf s e) = keyOf (remoteOf s' e')) : s = s' ∧ sh = sh' ∧ e = e' := by
  rw [key_remoteOf h.ranks s (h.range s sh e he), key_remoteOf h.ranks s' (h.range s' sh' e' he')] at hk
  obtain ⟨rfl, hi⟩ := key_inj hk
  exact ⟨rfl, h.elem_unique he he' hi⟩

/-- The entries of a rank are its own elements and those of its halo. -/
theorem mem_entries (h : MeshOk m owner box pmi) (hh : HalosOk m owner box pmi) {r : Fin n} {st : Pmi2d} (hs : Same st (pmi r))
    (key : Key) (sh : Shape2) (g : Geom) : (key, sh, g) ∈ entries r.val st ↔
      ∃ s i, (i, g) ∈ elsOf sh (pmi s) ∧ key = toLex ((s.val : ℤ), i) ∧ (s = r ∨ remoteOf s (i, g) ∈ remsOf sh (pmi r)) := by
  have key1 : (key, sh, g) ∈ entries r.val st ↔ (∃ i, (i, g) ∈ elsOf sh st ∧ key = toLex ((r.val : ℤ), i)) ∨
      ∃ x ∈ remsOf sh st, keyOf x = key ∧ x.geom = g := by
    unfold entries
    simp only [List.mem_append, List.mem_map, Prod.mk.injEq]
    cases sh
    · simp only [elsOf, remsOf, reduceCtorEq, false_and, and_false, exists_false, or_false, true_and]
      refine or_congr ⟨?_, ?_⟩ Iff.rfl
      · rintro ⟨e, he, rfl, rfl⟩; exact ⟨e.1, he, rfl⟩
      · rintro ⟨i, hi, rfl⟩; exact ⟨(i, g), hi, rfl, rfl⟩
    · simp only [elsOf, remsOf, reduceCtorEq, false_and, and_false, exists_false, false_or, true_and, or_false]
      refine or_congr ⟨?_, ?_⟩ Iff.rfl
      · rintro ⟨e, he, rfl, rfl⟩; exact ⟨e.1, he, rfl⟩
      · rintro ⟨i, hi, rfl⟩; exact ⟨(i, g), hi, rfl, rfl⟩
  rw [key1, hs.els]
  constructor
  · rintro (⟨i, hi, rfl⟩ | ⟨x, hx, rfl, rfl⟩)
    · exact ⟨r, i, hi, rfl, Or.inl rfl⟩
    · rw [hs.rems] at hx
      obtain ⟨s, _, e, he, rfl⟩ := hh.sound r sh x hx
      exact ⟨s, e.1, he, key_remoteOf h.ranks s (h.range s sh e he), Or.inr hx⟩
  · rintro ⟨s, i, hi, rfl, rfl | hx⟩
    · exact Or.inl ⟨i, hi, rfl⟩
    · exact Or.inr ⟨_, (hs.rems _ _).mpr hx, key_remoteOf h.ranks s (h.range s sh (i, g) hi), rfl⟩

theorem entries_functional (h : MeshOk m owner box pmi) (hh : HalosOk m owner box pmi) {r : Fin n} {st : Pmi2d} (hs : Same st (pmi r)) :
    Functional (entries r.val st) := by
  rintro ⟨k, sh, g⟩ hx ⟨k', sh', g'⟩ hy hk
  obtain ⟨s, i, h1, rfl, _⟩ := (mem_entries h hh hs _ _ _).mp hx
  obtain ⟨s', i', h1', rfl, _⟩ := (mem_entries h hh hs _ _ _).mp hy
  obtain ⟨rfl, rfl⟩ := key_inj hk
  obtain ⟨rfl, h2⟩ := h.elem_unique h1 h1' rfl
  obtain ⟨-, rfl⟩ := Prod.mk.inj h2
  rfl

/-- What a rank knows depends on the contents of its halo, not on its order. -/
theorem known_eq (h : MeshOk m owner box pmi) (hh : HalosOk m owner box pmi) {r : Fin n} {st : Pmi2d} (hs : Same st (pmi r)) :
    rankToGeoms2d r.val st = rankToGeoms2d r.val (pmi r) := by
  have hs' : Same (pmi r) (pmi r) := ⟨rfl, rfl, rfl, rfl, fun _ _ => Iff.rfl, hh.once r⟩
  obtain ⟨a1, a2⟩ := rankToGeoms2d_spec r.val st (entries_functional h hh hs)
  obtain ⟨b1, b2⟩ := rankToGeoms2d_spec r.val (pmi r) (entries_functional h hh hs')
  refine map_sorted_ext a1 b1 ?_
  rintro ⟨k, sh, g⟩
  rw [a2, b2, mem_entries h hh hs, mem_entries h hh hs']

theorem mem_known (h : MeshOk m owner box pmi) (hh : HalosOk m owner box pmi) (r : Fin n) :
    Sorted (rankToGeoms2d r.val (pmi r)) ∧ ∀ key sh g, (key, sh, g) ∈ rankToGeoms2d r.val (pmi r) ↔
      ∃ s i, (i, g) ∈ elsOf sh (pmi s) ∧ key = toLex ((s.val : ℤ), i) ∧ (s = r ∨ remoteOf s (i, g) ∈ remsOf sh (pmi r)) := by
  have hs' : Same (pmi r) (pmi r) := ⟨rfl, rfl, rfl, rfl, fun _ _ => Iff.rfl, hh.once r⟩
  obtain ⟨b1, b2⟩ := rankToGeoms2d_spec r.val (pmi r) (entries_functional h hh hs')
  exact ⟨b1, fun key sh g => by rw [b2, mem_entries h hh hs']⟩

end

variable [IsStrictOrderedRing K] [FloorRing K] {m : MHGeom K} {owner : ℤ → ℤ} {box : Geom → (ℕ → K) × (ℕ → K)} {pmi : Fin n → Pmi2d}

/-! ### The plan of a call -/

/-- The cells `r` requests, by owner. -/
def reqOf (m : MHGeom K) (owner : ℤ → ℤ) (w : ℤ) (pbc : Bool) (pmi : Fin n → Pmi2d) (r : Fin n) : List (Fin n) × (Fin n → List ℤ) :=
  match requestedCells m.toMH w pbc (pmi r).owned (pmi r).unowned with
  | some (some cells) => rankToCells r owner (setFrom cells)
  | _ => ([], fun _ => [])

def recvOf (m : MHGeom K) (owner : ℤ → ℤ) (w : ℤ) (pbc : Bool) (pmi : Fin n → Pmi2d) (r : Fin n) : List (Fin n) := (reqOf m owner w pbc pmi r).1
def wantedOf (m : MHGeom K) (owner : ℤ → ℤ) (w : ℤ) (pbc : Bool) (pmi : Fin n → Pmi2d) (r q : Fin n) : List ℤ := (reqOf m owner w pbc pmi r).2 q
def sendOf (m : MHGeom K) (owner : ℤ → ℤ) (w : ℤ) (pbc : Bool) (pmi : Fin n → Pmi2d) (q : Fin n) : List (Fin n) :=
  (List.finRange n).filter fun d => decide (q ∈ recvOf m owner w pbc pmi d)
/-- All of the cells which are requested of `q`. -/
def csetOf (m : MHGeom K) (owner : ℤ → ℤ) (w : ℤ) (pbc : Bool) (pmi : Fin n → Pmi2d) (q : Fin n) : List ℤ :=
  setFrom ((List.finRange n).flatMap fun d => wantedOf m owner w pbc pmi d q)
/-- What `q` sends to `d`. -/
def contOf (m : MHGeom K) (owner : ℤ → ℤ) (box : Geom → (ℕ → K) × (ℕ → K)) (w : ℤ) (pbc : Bool) (pmi : Fin n → Pmi2d) (sh : Shape2)
    (q d : Fin n) : List Remote :=
  (toSend sh (rankToGeoms2d q.val (pmi q)) (geomsSet (cellsToGeoms m (info2d box) (rankToGeoms2d q.val (pmi q)) (csetOf m owner w pbc pmi q))
    (wantedOf m owner w pbc pmi d q))).getD []

/-- The phases of a call. -/
def extendPhases (m : MHGeom K) (owner : ℤ → ℤ) (box : Geom → (ℕ → K) × (ℕ → K)) (w : ℤ) (pbc : Bool) (pmi : Fin n → Pmi2d) : List (Phase n Msg) :=
  [.bar, .acc fun s d => decide (d ∈ recvOf m owner w pbc pmi s),
   .comm 145 (msgs (recvOf m owner w pbc pmi) fun s d => .int (toInt32 (wantedOf m owner w pbc pmi s d).length)),
   .comm 146 (msgs (recvOf m owner w pbc pmi) fun s d => .ints (wantedOf m owner w pbc pmi s d)),
   .comm 451 (msgs (sendOf m owner w pbc pmi) fun s d => .int (toInt32 (packRemotes 3 (contOf m owner box w pbc pmi .tri s d)).length)),
   .comm 461 (msgs (sendOf m owner w pbc pmi) fun s d => .bytes (packRemotes 3 (contOf m owner box w pbc pmi .tri s d))),
   .comm 451 (msgs (sendOf m owner w pbc pmi) fun s d => .int (toInt32 (packRemotes 4 (contOf m owner box w pbc pmi .quad s d)).length)),
   .comm 461 (msgs (sendOf m owner w pbc pmi) fun s d => .bytes (packRemotes 4 (contOf m owner box w pbc pmi .quad s d)))]

theorem mem_sendOf (w : ℤ) (pbc : Bool) (q d : Fin n) : d ∈ sendOf m owner w pbc pmi q ↔ q ∈ recvOf m owner w pbc pmi d := by
  unfold sendOf; simp

theorem nodup_sendOf (w : ℤ) (pbc : Bool) (q : Fin n) : (sendOf m owner w pbc pmi q).Nodup := (List.nodup_finRange n).filter _

variable (h : MeshOk m owner box pmi) (hh : HalosOk m owner box pmi) {w : ℤ} (hw0 : 0 ≤ w) (hw : ∀ d < m.ndim, w ≤ m.dims d * m.ncf) (pbc : Bool)
include h hw0 hw

theorem req_spec (r : Fin n) : ∃ S, requestedCells m.toMH w pbc (pmi r).owned (pmi r).unowned = some (some S) ∧
    reqOf m owner w pbc pmi r = rankToCells r owner (setFrom S) ∧
    (recvOf m owner w pbc pmi r).Pairwise (· < ·) ∧
    (∀ d, d ∈ recvOf m owner w pbc pmi r ↔ d ≠ r ∧ ∃ c, c ∈ wantedOf m owner w pbc pmi r d) ∧
    (∀ d c, c ∈ wantedOf m owner w pbc pmi r d ↔
      d ≠ r ∧ owner c = d.val ∧ c ∉ (pmi r).owned ∧ Near m.toMH w pbc ((pmi r).owned ++ (pmi r).unowned) c) ∧
    ∀ d, (wantedOf m owner w pbc pmi r d).length < 2 ^ 31 := by
  obtain ⟨S, h1, h2, h3⟩ := Props.C23.requested_cells_exact m.toMH h.grid.1 h.grid.2.1 w hw0 hw pbc (pmi r).owned (pmi r).unowned (h.cells r)
  have hreq : reqOf m owner w pbc pmi r = rankToCells r owner (setFrom S) := by unfold reqOf; rw [h1]
  obtain ⟨a1, a2, a3⟩ := rankToCells_spec r owner (setFrom S)
  have hmem : ∀ d c, c ∈ wantedOf m owner w pbc pmi r d ↔
      d ≠ r ∧ owner c = d.val ∧ c ∉ (pmi r).owned ∧ Near m.toMH w pbc ((pmi r).owned ++ (pmi r).unowned) c := by
    intro d c
    unfold wantedOf
    rw [hreq, a3]
    by_cases hd : d = r
    · simp [hd]
    · rw [if_neg hd, List.mem_filter, mem_setFrom, h3, decide_eq_true_eq]
      unfold Near NearCell
      constructor
      · rintro ⟨⟨a, c', b, c, base, d, e⟩, f⟩; exact ⟨hd, f, a, base, d, c', b, c, e⟩
      · rintro ⟨_, f, a, base, d, c', b, c, e⟩; exact ⟨⟨a, c', b, c, base, d, e⟩, f⟩
  refine ⟨S, h1, hreq, by unfold recvOf; rw [hreq]; exact a1, fun d => ?_, hmem, fun d => ?_⟩
  · unfold recvOf wantedOf
    rw [hreq, a2, a3]
    refine and_congr_right fun hd => ?_
    rw [if_neg hd]
    simp only [List.mem_filter, decide_eq_true_eq]
  · unfold wantedOf
    rw [hreq, a3]
    have hlt : (setFrom S).length < 2 ^ 31 := by
      have hnd := nodup_of_sorted (sorted_setFrom S)
      have hsub : (setFrom S).toFinset ⊆ Finset.Ico 0 (ncellsGlobal m.toMH) := by
        intro x hx
        rw [List.mem_toFinset, mem_setFrom] at hx
        obtain ⟨_, c, hc, hl, _⟩ := (h3 x).mp hx
        rw [Finset.mem_Ico, ← (Props.C23.hasLinearIndex_iff h.grid.1 hc x).mp hl]
        exact ((Props.C25.cell_index_bijective m.toMH h.grid.1).1 c hc).2
      have hcard := Finset.card_le_card hsub
      rw [List.toFinset_card_of_nodup hnd, Int.card_Ico] at hcard
      have := h.ncells
      omega
    split_ifs
    · simp
    · exact lt_of_le_of_lt (List.length_filter_le _ _) hlt

include hh

theorem cont_spec (sh : Shape2) (q d : Fin n) :
    toSend sh (rankToGeoms2d q.val (pmi q)) (geomsSet (cellsToGeoms m (info2d box) (rankToGeoms2d q.val (pmi q)) (csetOf m owner w pbc pmi q))
      (wantedOf m owner w pbc pmi d q)) = some (contOf m owner box w pbc pmi sh q d) ∧
    (∀ x, x ∈ contOf m owner box w pbc pmi sh q d ↔ ∃ s, ∃ e ∈ elsOf sh (pmi s), x = remoteOf s e ∧
      ∃ c ∈ wantedOf m owner w pbc pmi d q, Meets m box e.2 c) ∧
    (contOf m owner box w pbc pmi sh q d).Nodup := by
  obtain ⟨ks, km⟩ := mem_known h hh q
  have hid : ∀ k v, (k, v) ∈ rankToGeoms2d q.val (pmi q) → v.2.id.toInt = (ofLex k).2 := by
    rintro k ⟨sh', g⟩ hv
    obtain ⟨s, i, hi, rfl, _⟩ := (km _ _ _).mp hv
    exact h.gid s sh' (i, g) hi
  obtain ⟨gs, gm⟩ := geomsSet_spec (cellsToGeoms m (info2d box) (rankToGeoms2d q.val (pmi q)) (csetOf m owner w pbc pmi q))
    (wantedOf m owner w pbc pmi d q)
  obtain ⟨_, _, _, _, _, wm, _⟩ := req_spec h hw0 hw pbc d
  have hcs : ∀ c ∈ wantedOf m owner w pbc pmi d q, c ∈ csetOf m owner w pbc pmi q := by
    intro c hc
    unfold csetOf
    rw [mem_setFrom, List.mem_flatMap]
    exact ⟨d, List.mem_finRange d, hc⟩
  have gm' : ∀ key, key ∈ geomsSet (cellsToGeoms m (info2d box) (rankToGeoms2d q.val (pmi q)) (csetOf m owner w pbc pmi q))
      (wantedOf m owner w pbc pmi d q) ↔ ∃ s sh' i g, (i, g) ∈ elsOf sh' (pmi s) ∧ key = toLex ((s.val : ℤ), i) ∧
        ∃ c ∈ wantedOf m owner w pbc pmi d q, Meets m box g c := by
    intro key
    rw [gm]
    constructor
    · rintro ⟨c, hc, hk⟩
      obtain ⟨_, ⟨sh', g⟩, hv, hb⟩ := (mem_cellsToGeoms2 h.grid box _ hid _ c key).mp hk
      obtain ⟨s, i, hi, rfl, _⟩ := (km _ _ _).mp hv
      exact ⟨s, sh', i, g, hi, rfl, c, hc, hb⟩
    · rintro ⟨s, sh', i, g, hi, rfl, c, hc, hb⟩
      refine ⟨c, hc, (mem_cellsToGeoms2 h.grid box _ hid _ c _).mpr ⟨hcs c hc, (sh', g), (km _ _ _).mpr ⟨s, i, hi, rfl, ?_⟩, hb⟩⟩
      by_cases hsq : s = q
      · exact Or.inl hsq
      · exact Or.inr (hh.knows q sh' c ((wm q c).mp hc).2.1 s hsq (i, g) hi hb)
  obtain ⟨l, l1, l2, l3⟩ := toSend_spec sh ks (geomsSet (cellsToGeoms m (info2d box) (rankToGeoms2d q.val (pmi q)) (csetOf m owner w pbc pmi q))
    (wantedOf m owner w pbc pmi d q)) (by
      intro key hk
      obtain ⟨c, hc, hk⟩ := (gm key).mp hk
      obtain ⟨_, v, hv, _⟩ := (mem_cellsToGeoms2 h.grid box _ hid _ c key).mp hk
      exact ⟨v, hv⟩)
  have hcont : contOf m owner box w pbc pmi sh q d = l := by unfold contOf; rw [l1]; rfl
  rw [hcont]
  refine ⟨l1, fun x => ?_, ?_⟩
  · rw [l2]
    constructor
    · rintro ⟨key, hk, g, hg, rfl⟩
      obtain ⟨s, i, hi, rfl, _⟩ := (km _ _ _).mp hg
      obtain ⟨s', sh', i', g', hi', hk', hc⟩ := (gm' _).mp hk
      obtain ⟨rfl, rfl⟩ := key_inj hk'
      obtain ⟨rfl, he⟩ := h.elem_unique hi hi' rfl
      obtain ⟨-, rfl⟩ := Prod.mk.inj he
      exact ⟨s, (i, g), hi, remoteAt_key s (i, g), hc⟩
    · rintro ⟨s, e, he, rfl, c, hc, hb⟩
      refine ⟨toLex ((s.val : ℤ), e.1), (gm' _).mpr ⟨s, sh, e.1, e.2, he, rfl, c, hc, hb⟩, e.2, (km _ _ _).mpr ⟨s, e.1, he, rfl, ?_⟩,
        (remoteAt_key s e).symm⟩
      by_cases hsq : s = q
      · exact Or.inl hsq
      · exact Or.inr (hh.knows q sh c ((wm q c).mp hc).2.1 s hsq e he hb)
  · refine l3 ?_ (nodup_of_sorted gs)
    intro k1 hk1 k2 hk2 g1 g2 heq
    obtain ⟨s1, sh1, i1, e1, hi1, rfl, _⟩ := (gm' _).mp hk1
    obtain ⟨s2, sh2, i2, e2, hi2, rfl, _⟩ := (gm' _).mp hk2
    rw [remoteAt_key s1 (i1, g1), remoteAt_key s2 (i2, g2)] at heq
    have := congrArg keyOf heq
    rwa [key_remoteOf h.ranks s1 (e := (i1, g1)) (h.range s1 sh1 (i1, e1) hi1),
      key_remoteOf h.ranks s2 (e := (i2, g2)) (h.range s2 sh2 (i2, e2) hi2)] at this

omit [IsStrictOrderedRing K] [FloorRing K] h hh hw0 hw in
theorem sum_le_of_subperm {α : Type} (f : α → ℕ) {a b : List α} (h : a.Subperm b) : (a.map f).sum ≤ (b.map f).sum := by
  obtain ⟨l, hp, hs⟩ := h
  rw [← (hp.map f).sum_eq]
  exact (hs.map f).sum_le_sum (fun _ _ => Nat.zero_le _)

theorem cont_subperm (sh : Shape2) (q d : Fin n) : (contOf m owner box w pbc pmi sh q d).Subperm (allOf sh pmi) := by
  obtain ⟨_, c2, c3⟩ := cont_spec h hh hw0 hw pbc sh q d
  refine List.subperm_of_subset c3 ?_
  intro x hx
  obtain ⟨s, e, he, rfl, _⟩ := (c2 x).mp hx
  unfold allOf
  rw [List.mem_flatMap]
  exact ⟨s, List.mem_finRange s, List.mem_map_of_mem he⟩

theorem cont_ok (sh : Shape2) (q d : Fin n) : (∀ x ∈ contOf m owner box w pbc pmi sh q d, RemoteOk (edgesOf sh) x) ∧
    (contOf m owner box w pbc pmi sh q d).length < 2 ^ 31 ∧ n * (packRemotes (codeOf sh) (contOf m owner box w pbc pmi sh q d)).length < 2 ^ 31 := by
  have hsp := cont_subperm h hh hw0 hw pbc sh q d
  refine ⟨?_, lt_of_le_of_lt hsp.length_le (h.count sh), ?_⟩
  · intro x hx
    obtain ⟨s, e, he, rfl, _⟩ := ((cont_spec h hh hw0 hw pbc sh q d).2.1 x).mp hx
    refine ⟨?_, h.wf s sh e he⟩
    have := s.isLt
    have := h.ranks
    unfold remoteOf
    simp only
    rw [toInt_ofNat32 _ (by omega)]
    omega
  · refine lt_of_le_of_lt (Nat.mul_le_mul_left _ ?_) (h.size sh)
    have hl : ∀ gs : List Remote, (packRemotes (codeOf sh) gs).length = 4 + (gs.map fun g => (packGeom (codeOf sh) g.rank g.id g.geom).length).sum := by
      intro gs
      unfold packRemotes
      rw [List.length_append, length_enc32, List.length_flatMap]
    rw [hl, hl]
    exact Nat.add_le_add_left (sum_le_of_subperm _ hsp) _

/-- What the call adds: the halo is kept, and extended by the elements of other ranks which meet a cell near the cells of the rank. -/
def Extended (m : MHGeom K) (box : Geom → (ℕ → K) × (ℕ → K)) (pmi : Fin n → Pmi2d) (w : ℤ) (pbc : Bool) (r : Fin n) (sh : Shape2)
    (old out : List Remote) : Prop :=
  old <+: out ∧ (out.map keyOf).Nodup ∧
  ∀ x, x ∈ out ↔ ∃ s, s ≠ r ∧ ∃ e ∈ elsOf sh (pmi s), x = remoteOf s e ∧
    (x ∈ old ∨ ∃ c, Near m.toMH w pbc ((pmi r).owned ++ (pmi r).unowned) c ∧ Meets m box e.2 c)

/-- The unpacking of what a rank receives. -/
theorem unpack_extended (sh : Shape2) {r : Fin n} {st : Pmi2d} (hs : Same st (pmi r)) {recv : List (Fin n)}
    (hrecv : ∀ q, q ∈ recv ↔ q ∈ recvOf m owner w pbc pmi r) {known : RankGeoms} (hks : Sorted known)
    (hkm : ∀ key g, (key, sh, g) ∈ known ↔ (key, sh, g) ∈ rankToGeoms2d r.val (pmi r))
    (hke : ∀ key sh' g, (key, sh', g) ∈ known → ∃ s i, (i, g) ∈ elsOf sh' (pmi s) ∧ key = toLex ((s.val : ℤ), i)) :
    Extended m box pmi w pbc r sh (remsOf sh st) (unpack2d sh (known, remsOf sh st) (recv.flatMap fun q => contOf m owner box w pbc pmi sh q r)).2 ∧
    Sorted (unpack2d sh (known, remsOf sh st) (recv.flatMap fun q => contOf m owner box w pbc pmi sh q r)).1 ∧
    (∀ key sh' g, (key, sh', g) ∈ (unpack2d sh (known, remsOf sh st) (recv.flatMap fun q => contOf m owner box w pbc pmi sh q r)).1 →
      (key, sh', g) ∈ known ∨ sh' = sh ∧ ∃ s i, (i, g) ∈ elsOf sh (pmi s) ∧ key = toLex ((s.val : ℤ), i)) ∧
    ∀ e ∈ known, e ∈ (unpack2d sh (known, remsOf sh st) (recv.flatMap fun q => contOf m owner box w pbc pmi sh q r)).1 := by
  obtain ⟨_, _, _, _, rm, wm, _⟩ := req_spec h hw0 hw pbc r
  have htmp : ∀ x, x ∈ recv.flatMap (fun q => contOf m owner box w pbc pmi sh q r) ↔
      ∃ s, ∃ e ∈ elsOf sh (pmi s), x = remoteOf s e ∧ ∃ q, ∃ c ∈ wantedOf m owner w pbc pmi r q, Meets m box e.2 c := by
    intro x
    rw [List.mem_flatMap]
    constructor
    · rintro ⟨q, _, hx⟩
      obtain ⟨s, e, he, rfl, hc⟩ := ((cont_spec h hh hw0 hw pbc sh q r).2.1 x).mp hx
      exact ⟨s, e, he, rfl, q, hc⟩
    · rintro ⟨s, e, he, rfl, q, c, hc, hb⟩
      refine ⟨q, (hrecv q).mpr ((rm q).mpr ⟨((wm q c).mp hc).1, c, hc⟩), ((cont_spec h hh hw0 hw pbc sh q r).2.1 _).mpr ⟨s, e, he, rfl, c, hc, hb⟩⟩
  generalize recv.flatMap (fun q => contOf m owner box w pbc pmi sh q r) = tmp at htmp ⊢
  have helem : ∀ x ∈ tmp, ∃ s i, (i, x.geom) ∈ elsOf sh (pmi s) ∧ keyOf x = toLex ((s.val : ℤ), i) ∧ x = remoteOf s (i, x.geom) := by
    intro x hx
    obtain ⟨s, e, he, rfl, _⟩ := (htmp x).mp hx
    exact ⟨s, e.1, he, key_remoteOf h.ranks s (h.range s sh e he), rfl⟩
  have hfe : ∀ e ∈ known ++ tmp.map (fun x => (keyOf x, sh, x.geom)), ∃ s i, (i, e.2.2) ∈ elsOf e.2.1 (pmi s) ∧ e.1 = toLex ((s.val : ℤ), i) := by
    rintro ⟨k, sh', g⟩ he
    rcases List.mem_append.mp he with he | he
    · exact hke k sh' g he
    · obtain ⟨x, hx, hxe⟩ := List.mem_map.mp he
      simp only [Prod.mk.injEq] at hxe
      obtain ⟨rfl, rfl, rfl⟩ := hxe
      obtain ⟨s, i, h1, h2, _⟩ := helem x hx
      exact ⟨s, i, h1, h2⟩
  have hfun : Functional (known ++ tmp.map fun x => (keyOf x, sh, x.geom)) := by
    rintro ⟨k1, sh1, g1⟩ hx ⟨k2, sh2, g2⟩ hy hk
    obtain ⟨s1, i1, a1, b1⟩ := hfe _ hx
    obtain ⟨s2, i2, a2, b2⟩ := hfe _ hy
    simp only at hk a1 b1 a2 b2
    subst b1 b2
    obtain ⟨rfl, rfl⟩ := key_inj hk
    obtain ⟨rfl, he⟩ := h.elem_unique a1 a2 rfl
    obtain ⟨-, rfl⟩ := Prod.mk.inj he
    rfl
  have hinj : ∀ x ∈ tmp, ∀ y ∈ tmp, keyOf x = keyOf y → x = y := by
    intro x hx y hy hk
    obtain ⟨s, e, he, rfl, _⟩ := (htmp x).mp hx
    obtain ⟨s', e', he', rfl, _⟩ := (htmp y).mp hy
    obtain ⟨rfl, _, rfl⟩ := h.remote_inj he he' hk
    rfl
  obtain ⟨u1, u2, new, u3, u4, u5⟩ := unpack2d_spec sh tmp (known, remsOf sh st) hks hfun hinj
  refine ⟨⟨⟨new, u3.symm⟩, ?_, ?_⟩, u1, ?_, fun e he => (u2 e).mpr (Or.inl he)⟩
  · rw [u3, List.map_append, List.nodup_append]
    refine ⟨hs.once sh, u4, ?_⟩
    intro a ha b hb hab
    subst hab
    obtain ⟨x, hx, rfl⟩ := List.mem_map.mp ha
    obtain ⟨y, hy, hxy⟩ := List.mem_map.mp hb
    rw [hs.rems] at hx
    obtain ⟨s, _, e, he, rfl⟩ := hh.sound r sh x hx
    refine ((u5 y).mp hy).2 (sh, e.2) ?_
    rw [hxy, hkm, (mem_known h hh r).2]
    exact ⟨s, e.1, he, key_remoteOf h.ranks s (h.range s sh e he), Or.inr hx⟩
  · intro x
    rw [u3, List.mem_append, u5, htmp]
    constructor
    · rintro (hx | ⟨⟨s, e, he, rfl, q, c, hc, hb⟩, hk⟩)
      · obtain ⟨s, hsr, e, he, rfl⟩ := hh.sound r sh x ((hs.rems sh x).mp hx)
        exact ⟨s, hsr, e, he, rfl, Or.inl hx⟩
      · refine ⟨s, ?_, e, he, rfl, Or.inr ⟨c, ((wm q c).mp hc).2.2.2, hb⟩⟩
        rintro rfl
        refine hk (sh, e.2) ?_
        rw [hkm, (mem_known h hh s).2]
        exact ⟨s, e.1, he, key_remoteOf h.ranks s (h.range s sh e he), Or.inl rfl⟩
    · rintro ⟨s, hsr, e, he, rfl, hx | ⟨c, hc, hb⟩⟩
      · exact Or.inl hx
      · obtain ⟨o1, o2⟩ := h.owner s sh e he c hb
        by_cases hor : owner c = r.val
        · exact Or.inl ((hs.rems _ _).mpr (hh.knows r sh c hor s hsr e he hb))
        · by_cases hk : ∃ v, (keyOf (remoteOf s e), v) ∈ known
          · obtain ⟨⟨sh', g⟩, hv⟩ := hk
            obtain ⟨s', i, hi, hki⟩ := hke _ _ _ hv
            rw [key_remoteOf h.ranks s (h.range s sh e he)] at hki
            obtain ⟨rfl, rfl⟩ := key_inj hki
            obtain ⟨rfl, hg⟩ := h.elem_unique he hi rfl
            rw [hkm, (mem_known h hh r).2] at hv
            obtain ⟨s'', i', hi', hk', hor'⟩ := hv
            rw [key_remoteOf h.ranks s (h.range s sh e he)] at hk'
            obtain ⟨rfl, rfl⟩ := key_inj hk'
            rcases hor' with rfl | hx
            · exact absurd rfl hsr
            · left
              rw [hs.rems]
              rw [← hg] at hx
              exact hx
          · refine Or.inr ⟨⟨s, e, he, rfl, ⟨(owner c).toNat, by omega⟩, c, (wm _ c).mpr ⟨?_, by simp only; omega, ?_, hc⟩, hb⟩, ?_⟩
            · intro heq
              have := congrArg Fin.val heq
              simp only at this
              omega
            · exact fun hco => hor (h.owned r c hco)
            · exact fun v hv => hk ⟨v, hv⟩
  · intro key sh' g hg
    rcases (u2 _).mp hg with hg | hg
    · exact Or.inl hg
    · obtain ⟨x, hx, hxe⟩ := List.mem_map.mp hg
      simp only [Prod.mk.injEq] at hxe
      obtain ⟨rfl, rfl, rfl⟩ := hxe
      obtain ⟨s, i, h1, h2, _⟩ := helem x hx
      exact Or.inr ⟨rfl, s, i, h1, h2⟩

variable {O : Type} {ps : List (Phase n Msg)} {post : Fin n → O → Prop} {p : ℕ} {r : Fin n} {base : Option (ℤ × ℕ)}

theorem conf_extend (hps : ∀ i < 8, ps[p + i]? = (extendPhases m owner box w pbc pmi)[i]?)
    (hq0 : quietB (ps.map Phase.kind) p = true) (hq2 : quietB (ps.map Phase.kind) (p + 2) = true) (ha : anyB (ps.map Phase.kind) (p + 2) 145 = true)
    {st : Pmi2d} (hs : Same st (pmi r)) {K : List Remote × List Remote → Prog n Msg O}
    (hK : ∀ out : List Remote × List Remote, Extended m box pmi w pbc r .tri st.remoteTris out.1 → Extended m box pmi w pbc r .quad st.remoteQuads out.2 →
      Conf (ofPhases ps post) r (K out) (.at (p + 8) (some (0, p)))) :
    Conf (ofPhases ps post) r (extendHalos2d m owner box w pbc r st K) (.at p base) := by
  obtain ⟨S, h1, h2, h3, h4, h5, h6⟩ := req_spec h hw0 hw pbc r
  unfold extendHalos2d
  rw [hs.owned, hs.unowned, h1]
  simp only
  have hrc : rankToCells r owner (S.foldl (fun s c => setAdd c s) []) = reqOf m owner w pbc pmi r := h2.symm
  rw [hrc]
  refine conf_countRanks (hps 0 (by omega)) (hps 1 (by omega)) hq0 hq2 (nodup_of_sorted h3) (fun d => by rw [decide_eq_true_eq]) ?_
  refine conf_getSendCells (recvOf m owner w pbc pmi) (wantedOf m owner w pbc pmi) (hps 2 (by omega)) (hps 3 (by omega)) ha (nodup_of_sorted h3)
    (fun hr => ((h4 r).mp hr).1 rfl) (fun s d => (req_spec h hw0 hw pbc s).choose_spec.2.2.2.2.2 d) ?_
  intro sr snd smem
  rw [known_eq h hh hs]
  have hcs : sendCellsSet (sr.map fun s => (s, wantedOf m owner w pbc pmi s r)) = csetOf m owner w pbc pmi r := by
    have : sendCellsSet (sr.map fun s => (s, wantedOf m owner w pbc pmi s r)) =
        setFrom ((sr.map fun s => (s, wantedOf m owner w pbc pmi s r)).flatMap Prod.snd) := rfl
    rw [this]
    unfold csetOf
    refine setFrom_congr fun c => ?_
    rw [List.flatMap_map]
    simp only [List.mem_flatMap, List.mem_finRange, true_and]
    constructor
    · rintro ⟨d, _, hc⟩; exact ⟨d, hc⟩
    · rintro ⟨d, hc⟩
      obtain ⟨_, _, _, _, rm, wm, _⟩ := req_spec h hw0 hw pbc d
      exact ⟨d, (smem d).mpr ((rm r).mpr ⟨((wm r c).mp hc).1, c, hc⟩), hc⟩
  rw [hcs]
  have hsend : ∀ sh, ((sr.map fun s => (s, wantedOf m owner w pbc pmi s r)).map fun x => geomsSet
      (cellsToGeoms m (info2d box) (rankToGeoms2d r.val (pmi r)) (csetOf m owner w pbc pmi r)) x.2).mapM (toSend sh (rankToGeoms2d r.val (pmi r))) =
      some (sr.map fun d => contOf m owner box w pbc pmi sh r d) := by
    intro sh
    rw [List.map_map]
    have hd := fun d => (cont_spec h hh hw0 hw pbc sh r d).1
    clear smem snd hcs
    induction sr with
    | nil => rfl
    | cons a l ih =>
      simp only [List.map_cons, List.mapM_cons, Function.comp_def, hd] at ih ⊢
      rw [ih]; rfl
  rw [hsend .tri, hsend .quad]
  simp only [List.map_map, Function.comp_def, List.map_id']
  have hsr : ∀ d, d ∈ sr ↔ d ∈ sendOf m owner w pbc pmi r := fun d => by rw [smem, mem_sendOf]
  have hrr : ∀ q, q ∈ recvOf m owner w pbc pmi r ↔ r ∈ sendOf m owner w pbc pmi q := fun q => (mem_sendOf w pbc q r).symm
  refine conf_exchangeGeoms2d 3 3 (sendOf m owner w pbc pmi) (contOf m owner box w pbc pmi .tri) (hps 4 (by omega)) (hps 5 (by omega)) hsr snd
    (fun s d => (cont_ok h hh hw0 hw pbc .tri s d).1) (fun s d => (cont_ok h hh hw0 hw pbc .tri s d).2.1)
    (fun s d => (cont_ok h hh hw0 hw pbc .tri s d).2.2) (nodup_of_sorted h3) hrr ?_
  refine conf_exchangeGeoms2d 4 4 (sendOf m owner w pbc pmi) (contOf m owner box w pbc pmi .quad) (hps 6 (by omega)) (hps 7 (by omega)) hsr snd
    (fun s d => (cont_ok h hh hw0 hw pbc .quad s d).1) (fun s d => (cont_ok h hh hw0 hw pbc .quad s d).2.1)
    (fun s d => (cont_ok h hh hw0 hw pbc .quad s d).2.2) (nodup_of_sorted h3) hrr ?_
  obtain ⟨ks, km⟩ := mem_known h hh r
  obtain ⟨e1, s1, m1, k1⟩ := unpack_extended h hh hw0 hw pbc .tri hs (recv := recvOf m owner w pbc pmi r) (fun _ => Iff.rfl) ks (fun _ _ => Iff.rfl)
    (by
      intro key sh' g hg
      obtain ⟨s, i, a, b, _⟩ := (km _ _ _).mp hg
      exact ⟨s, i, a, b⟩)
  obtain ⟨e2, _, _, _⟩ := unpack_extended h hh hw0 hw pbc .quad hs (recv := recvOf m owner w pbc pmi r) (fun _ => Iff.rfl) s1
    (by
      intro key g
      constructor
      · intro hg
        rcases m1 _ _ _ hg with hg | ⟨hc, _⟩
        · exact hg
        · cases hc
      · exact fun hg => k1 _ hg)
    (by
      intro key sh' g hg
      rcases m1 _ _ _ hg with hg | ⟨rfl, s, i, a, b⟩
      · obtain ⟨s, i, a, b, _⟩ := (km _ _ _).mp hg
        exact ⟨s, i, a, b⟩
      · exact ⟨s, i, a, b⟩)
  exact hK _ e1 e2

end Verif.Lemmas.HaloExtension
