import Verif.Spec.Halo
import Verif.Lemmas.HaloExchange
import Verif.Lemmas.MpiTermination
import Verif.Props.C18_PackedGeom2D
import Verif.Props.C26_BoxClaims
import Mathlib.Tactic.FinCases

/-! C57: the halo of a 2D mesh. -/

namespace Verif.Props.C57
open Verif.Model Verif.Model.Bytes Verif.Model.PackedGeom2D Verif.Model.Mpi Verif.Model.Claims Verif.Model.HaloExchange Verif.Spec Verif.Lemmas.Mpi
  Verif.Lemmas Verif.Lemmas.HaloExchange Verif.Props.C24 Verif.Props.C26

variable {K : Type} [Field K] [LinearOrder K] [IsStrictOrderedRing K] [FloorRing K] {n : ℕ}

/-- The conditions on the triangles or quadrilaterals of the ranks: ids are `int`s and unique on their rank, the geometries are well formed, and
the sizes of the buffers are `int`s. -/
structure ElementsOk (shape : I32) (kEdges : ℕ) (els : Fin n → List (ℤ × LGeom K)) : Prop where
  ids : ∀ s, ((els s).map Prod.fst).Nodup
  range : ∀ s, ∀ e ∈ els s, -2 ^ 31 ≤ e.1 ∧ e.1 < 2 ^ 31
  wf : ∀ s, ∀ e ∈ els s, GeomOk kEdges e.2.geom
  count : ∀ s, (els s).length < 2 ^ 31
  size : ∀ s, n * (packRemotes shape ((els s).map (asRemote s))).length < 2 ^ 31

/-- The conditions on the input. All of the ranks have the same mesh hierarchy; every claimed cell has an owner. -/
structure InputOk (m : MHGeom K) (owner : ℤ → ℤ) (mesh : Fin n → Mesh2d K) : Prop where
  grid : GridGeom m
  ranks : n ≤ 2 ^ 31
  tris : ElementsOk 3 3 fun s => (mesh s).tris
  quads : ElementsOk 4 4 fun s => (mesh s).quads
  owned : ∀ s, ∀ e ∈ (mesh s).tris ++ (mesh s).quads, ∀ c, BoxMeets m e.2.lo e.2.hi c → 0 ≤ owner c ∧ owner c < n

theorem packRemotes_length (shape : I32) (gs : List Remote) :
    (packRemotes shape gs).length = 4 + (gs.map fun g => (packGeom shape g.rank g.id g.geom).length).sum := by
  unfold packRemotes
  rw [List.length_append, Verif.Lemmas.length_enc32, List.length_flatMap]

theorem sum_le_of_subperm {α : Type} (f : α → ℕ) {a b : List α} (h : a.Subperm b) : (a.map f).sum ≤ (b.map f).sum := by
  obtain ⟨l, hp, hs⟩ := h
  rw [← (hp.map f).sum_eq]
  exact (hs.map f).sum_le_sum (fun _ _ => Nat.zero_le _)

/-! ### The claims -/

theorem mem_claims {m : MHGeom K} (hm : GridGeom m) (mesh : Mesh2d K) (c : ℤ) :
    c ∈ (localClaims m mesh).1.cells ↔ ∃ e ∈ mesh.tris ++ mesh.quads, BoxMeets m e.2.lo e.2.hi c := by
  have h1 : (localClaims m mesh).1 = (claimCells m (LocalClaim.empty, fun _ => []) (elems (mesh.tris ++ mesh.quads))).1 := by
    unfold localClaims
    simp only [claimCells_calls]
    unfold callsOf elems
    rw [List.map_append, List.flatMap_append, List.foldl_append]
  rw [h1, claimed_iff hm]
  unfold elems
  constructor
  · rintro ⟨e, he, h⟩
    obtain ⟨x, hx, rfl⟩ := List.mem_map.mp he
    exact ⟨x, hx, h⟩
  · rintro ⟨x, hx, h⟩
    exact ⟨_, List.mem_map.mpr ⟨x, hx, rfl⟩, h⟩

theorem nodup_claims (m : MHGeom K) (mesh : Mesh2d K) : (localClaims m mesh).1.cells.Nodup := by
  have h1 : (localClaims m mesh).1 = claims (callsOf m (elems (mesh.tris ++ mesh.quads))) := by
    unfold localClaims claims
    simp only [claimCells_calls]
    unfold callsOf elems
    rw [List.map_append, List.flatMap_append, List.foldl_append]
  rw [h1]
  exact (claimed_cells _).1

/-- `get_unowned_cells`: the claimed cells are split by their owner, each cell once. -/
theorem cells_split {m : MHGeom K} (hm : GridGeom m) (owner : ℤ → ℤ) (mesh : Mesh2d K) (rank : Fin n) :
    (ownedCells owner rank (localClaims m mesh).1).Nodup ∧ (unownedCells owner rank (localClaims m mesh).1).Nodup ∧
    (∀ c, c ∈ ownedCells owner rank (localClaims m mesh).1 ↔
      owner c = rank.val ∧ ∃ e ∈ mesh.tris ++ mesh.quads, BoxMeets m e.2.lo e.2.hi c) ∧
    (∀ c, c ∈ unownedCells owner rank (localClaims m mesh).1 ↔
      owner c ≠ rank.val ∧ ∃ e ∈ mesh.tris ++ mesh.quads, BoxMeets m e.2.lo e.2.hi c) := by
  unfold ownedCells unownedCells
  have hn := nodup_claims m mesh
  refine ⟨List.nodup_reverse.mpr (hn.filter _), List.nodup_reverse.mpr (hn.filter _), fun c => ?_, fun c => ?_⟩ <;>
    rw [List.mem_reverse, List.mem_filter, mem_claims hm, decide_eq_true_eq, and_comm]

theorem mem_geomMap {m : MHGeom K} (hm : GridGeom m) (st : LocalClaim K) (l : List (ℤ × LGeom K)) (c i : ℤ) :
    i ∈ (claimCells m (st, fun _ => []) (elems l)).2 c ↔ ∃ e ∈ l, e.1 = i ∧ BoxMeets m e.2.lo e.2.hi c := by
  classical
  rw [geom_map_exact hm]
  simp only [List.nil_append, List.mem_map, List.mem_filter, elems, decide_eq_true_eq]
  constructor
  · rintro ⟨_, ⟨⟨x, hx, rfl⟩, h⟩, rfl⟩; exact ⟨x, hx, rfl, h⟩
  · rintro ⟨x, hx, rfl, h⟩; exact ⟨_, ⟨⟨x, hx, rfl⟩, h⟩, rfl⟩

/-! ### One exchange -/

/-- What `exchange_get_send_ranks` computes on all of the ranks. -/
structure Sends (m : MHGeom K) (owner : ℤ → ℤ) (mesh : Fin n → Mesh2d K) (els : Fin n → List (ℤ × LGeom K)) (gm : Fin n → GeomMap)
    (ranks : Fin n → List (Fin n)) (rem : Fin n → Fin n → List (ℤ × Geom)) : Prop where
  eq : ∀ s, exchangeGetSendRanks s owner ((els s).map fun x => (x.1, x.2.geom)) (gm s) (unownedCells owner s (localClaims m (mesh s)).1) =
    some (ranks s, rem s)
  nodup : ∀ s, (ranks s).Nodup
  mem : ∀ s d, d ∈ ranks s ↔ s ≠ d ∧ ∃ e ∈ (mesh s).tris ++ (mesh s).quads, ∃ c, owner c = d.val ∧ BoxMeets m e.2.lo e.2.hi c
  sorted : ∀ s d, Sorted (rem s d)
  sent : ∀ s d x, x ∈ rem s d ↔ s ≠ d ∧ ∃ e ∈ els s, x = (e.1, e.2.geom) ∧ ∃ c, owner c = d.val ∧ BoxMeets m e.2.lo e.2.hi c

theorem exists_sends {m : MHGeom K} {owner : ℤ → ℤ} {mesh : Fin n → Mesh2d K} (h : InputOk m owner mesh) (els : Fin n → List (ℤ × LGeom K))
    (hids : ∀ s, ((els s).map Prod.fst).Nodup) (hels : ∀ s, ∀ e ∈ els s, e ∈ (mesh s).tris ++ (mesh s).quads) (gm : Fin n → GeomMap)
    (hgm : ∀ s c i, i ∈ gm s c ↔ ∃ e ∈ els s, e.1 = i ∧ BoxMeets m e.2.lo e.2.hi c) : ∃ ranks rem, Sends m owner mesh els gm ranks rem := by
  have hm := h.grid
  have key : ∀ s : Fin n, _ := fun s => sendRanks_spec (elementMap := (els s).map fun x => (x.1, x.2.geom)) s owner (gm s)
    (by rw [List.map_map]; exact hids s) (unownedCells owner s (localClaims m (mesh s)).1)
    (by
      intro c hc
      obtain ⟨ho, e, he, hb⟩ := ((cells_split hm owner (mesh s) s).2.2.2 c).mp hc
      exact ⟨(h.owned s e he c hb).1, (h.owned s e he c hb).2, ho⟩)
    (by
      intro c _ i hi
      obtain ⟨e, he, rfl, _⟩ := (hgm s c i).mp hi
      rw [List.map_map]
      exact List.mem_map.mpr ⟨e, he, rfl⟩)
  choose ranks rem h1 h2 h3 h4 h5 using key
  have hne : ∀ {s d : Fin n} {c : ℤ}, owner c = d.val → (owner c ≠ s.val ↔ s ≠ d) := by
    intro s d c hc
    rw [hc, ne_eq, ne_eq, Fin.ext_iff]
    omega
  refine ⟨ranks, rem, h1, h2, fun s d => ?_, h4, fun s d x => ?_⟩
  · rw [h3]
    constructor
    · rintro ⟨c, hc, ho⟩
      obtain ⟨ho', e, he, hb⟩ := ((cells_split hm owner (mesh s) s).2.2.2 c).mp hc
      exact ⟨(hne ho).mp ho', e, he, c, ho, hb⟩
    · rintro ⟨hsd, e, he, c, ho, hb⟩
      exact ⟨c, ((cells_split hm owner (mesh s) s).2.2.2 c).mpr ⟨(hne ho).mpr hsd, e, he, hb⟩, ho⟩
  · rw [h5]
    constructor
    · rintro ⟨c, hc, ho, hi, hx⟩
      obtain ⟨ho', _⟩ := ((cells_split hm owner (mesh s) s).2.2.2 c).mp hc
      obtain ⟨e, he, hid, hb⟩ := (hgm s c x.1).mp hi
      obtain ⟨e', he', rfl⟩ := List.mem_map.mp hx
      have : e = e' := List.inj_on_of_nodup_map (hids s) he he' hid
      subst this
      exact ⟨(hne ho).mp ho', e, he, rfl, c, ho, hb⟩
    · rintro ⟨hsd, e, he, rfl, c, ho, hb⟩
      exact ⟨c, ((cells_split hm owner (mesh s) s).2.2.2 c).mpr ⟨(hne ho).mpr hsd, e, hels s e he, hb⟩, ho, (hgm s c _).mpr ⟨e, he, rfl, hb⟩,
        List.mem_map.mpr ⟨e, he, rfl⟩⟩

variable {m : MHGeom K} {owner : ℤ → ℤ} {mesh : Fin n → Mesh2d K} {els : Fin n → List (ℤ × LGeom K)} {gm : Fin n → GeomMap}
  {ranks : Fin n → List (Fin n)} {rem : Fin n → Fin n → List (ℤ × Geom)} {shape : I32} {kEdges : ℕ}

theorem Sends.subset (S : Sends m owner mesh els gm ranks rem) (s d : Fin n) :
    (rem s d).Subperm ((els s).map fun x => (x.1, x.2.geom)) := by
  refine List.subperm_of_subset ?_ ?_
  · exact List.Nodup.of_map _ (S.sorted s d).nodup
  · intro x hx
    obtain ⟨_, e, he, rfl, _⟩ := (S.sent s d x).mp hx
    exact List.mem_map.mpr ⟨e, he, rfl⟩

theorem Sends.size (S : Sends m owner mesh els gm ranks rem) (h : ElementsOk shape kEdges els) (s d : Fin n) :
    n * (packRemotes shape (contents rem s d)).length < 2 ^ 31 := by
  refine lt_of_le_of_lt (Nat.mul_le_mul_left _ ?_) (h.size s)
  rw [packRemotes_length, packRemotes_length]
  refine Nat.add_le_add_left ?_ _
  have := sum_le_of_subperm (fun g : ℤ × Geom => (packGeom shape (BitVec.ofNat 32 s.val) (BitVec.ofInt 32 g.1) g.2).length) (S.subset s d)
  simpa only [contents, asRemote, List.map_map, Function.comp_def] using this

theorem ofInt_inj {a b : ℤ} (ha : -2 ^ 31 ≤ a ∧ a < 2 ^ 31) (hb : -2 ^ 31 ≤ b ∧ b < 2 ^ 31) (h : BitVec.ofInt 32 a = BitVec.ofInt 32 b) :
    a = b := by
  have := congrArg BitVec.toInt h
  rw [BitVec.toInt_ofInt, BitVec.toInt_ofInt, Int.bmod_eq_of_le (by omega) (by omega), Int.bmod_eq_of_le (by omega) (by omega)] at this
  exact this

theorem Sends.isHalo (S : Sends m owner mesh els gm ranks rem) (h : ElementsOk shape kEdges els) (hn : n ≤ 2 ^ 31)
    (hels : ∀ s, ∀ e ∈ els s, e ∈ (mesh s).tris ++ (mesh s).quads) (r : Fin n) {recvRanks : List (Fin n)} (h1 : recvRanks.Nodup)
    (h2 : ∀ s, s ∈ recvRanks ↔ r ∈ ranks s) : IsHalo m owner els r (recvRanks.flatMap fun s => contents rem s r) := by
  constructor
  · rw [List.map_flatMap, List.nodup_flatMap]
    constructor
    · intro s _
      unfold contents
      rw [List.map_map]
      refine List.Nodup.map_on ?_ (List.Nodup.of_map _ (S.sorted s r).nodup)
      intro x hx y hy hxy
      have hxy' : BitVec.ofInt 32 x.1 = BitVec.ofInt 32 y.1 := (Prod.ext_iff.mp hxy).2
      obtain ⟨_, e, he, rfl, _⟩ := (S.sent s r x).mp hx
      obtain ⟨_, e', he', rfl, _⟩ := (S.sent s r y).mp hy
      have hid := ofInt_inj (h.range s e he) (h.range s e' he') hxy'
      have : e = e' := List.inj_on_of_nodup_map (h.ids s) he he' hid
      rw [this]
    · refine h1.imp fun {a b} hab => ?_
      intro x hx hy
      unfold contents at hx hy
      simp only [List.map_map, List.mem_map] at hx hy
      obtain ⟨u, _, rfl⟩ := hx
      obtain ⟨v, _, hv⟩ := hy
      have : BitVec.ofNat 32 b.val = BitVec.ofNat 32 a.val := (Prod.ext_iff.mp hv).1
      have := congrArg BitVec.toInt this
      have ha := a.isLt
      have hb := b.isLt
      rw [Verif.Lemmas.toInt_ofNat32 _ (by omega), Verif.Lemmas.toInt_ofNat32 _ (by omega)] at this
      exact hab (Fin.ext (by omega))
  · intro x
    simp only [List.mem_flatMap, contents, List.mem_map]
    constructor
    · rintro ⟨s, _, y, hy, rfl⟩
      obtain ⟨hsr, e, he, rfl, hc⟩ := (S.sent s r y).mp hy
      exact ⟨s, hsr, e, he, rfl, hc⟩
    · rintro ⟨s, hsr, e, he, rfl, c, ho, hb⟩
      refine ⟨s, (h2 s).mpr ((S.mem s r).mpr ⟨hsr, e, hels s e he, c, ho, hb⟩), (e.1, e.2.geom), ?_, rfl⟩
      exact (S.sent s r _).mpr ⟨hsr, e, he, rfl, c, ho, hb⟩

/-- The specification of the result: the halos of triangles and of quadrilaterals. -/
def Post (m : MHGeom K) (owner : ℤ → ℤ) (mesh : Fin n → Mesh2d K) (r : Fin n) (out : List Remote × List Remote) : Prop :=
  IsHalo m owner (fun s => (mesh s).tris) r out.1 ∧ IsHalo m owner (fun s => (mesh s).quads) r out.2

/-- The constructor as a part of a larger program. -/
theorem conf_createHalos2d (h : InputOk m owner mesh) : ∃ blk : List (Phase n Msg),
    blk.map Phase.kind = [.bar, .acc, .comm 45, .comm 46, .bar, .acc, .comm 45, .comm 46] ∧
    ∀ {O : Type} {ps : List (Phase n Msg)} {post : Fin n → O → Prop} {p : ℕ} (r : Fin n) {base : Option (ℤ × ℕ)},
    (∀ i < 8, ps[p + i]? = blk[i]?) → quietB (ps.map Phase.kind) p = true → quietB (ps.map Phase.kind) (p + 2) = true →
    quietB (ps.map Phase.kind) (p + 4) = true → quietB (ps.map Phase.kind) (p + 6) = true →
    anyB (ps.map Phase.kind) (p + 2) 45 = true → anyB (ps.map Phase.kind) (p + 6) 45 = true →
    ∀ {k : List Remote × List Remote → Prog n Msg O},
    (∀ out, Post m owner mesh r out → Conf (ofPhases ps post) r (k out) (.at (p + 8) (some (0, p + 4)))) →
    Conf (ofPhases ps post) r (createHalos2d m owner (mesh r) r k) (.at p base) := by
  have ht : ∀ s, ∀ e ∈ (mesh s).tris, e ∈ (mesh s).tris ++ (mesh s).quads := fun s e he => List.mem_append_left _ he
  have hq : ∀ s, ∀ e ∈ (mesh s).quads, e ∈ (mesh s).tris ++ (mesh s).quads := fun s e he => List.mem_append_right _ he
  obtain ⟨rt, mt, T⟩ := exists_sends h (fun s => (mesh s).tris) h.tris.ids ht (fun s => (localClaims m (mesh s)).2.1)
    (fun s c i => mem_geomMap h.grid _ _ c i)
  obtain ⟨rq, mq, Q⟩ := exists_sends h (fun s => (mesh s).quads) h.quads.ids hq (fun s => (localClaims m (mesh s)).2.2)
    (fun s c i => mem_geomMap h.grid _ _ c i)
  refine ⟨packedPhases 3 rt mt ++ packedPhases 4 rq mq, rfl, ?_⟩
  intro O ps post p r base hps hq0 hq2 hq4 hq6 ha2 ha6 k hK
  unfold createHalos2d exchangeGeometry2d
  simp only [T.eq r]
  refine conf_exchangePacked 3 3 rt mt (p := p) ?_ hq0 hq2 ha2 (T.nodup r) ?_ ?_ h.ranks (T.size h.tris) ?_
  · intro i hi
    rw [hps i (by omega), List.getElem?_append_left (by exact hi)]
  · intro s d g hg
    obtain ⟨_, e, he, rfl, _⟩ := (T.sent s d g).mp hg
    exact h.tris.wf s e he
  · intro s d
    have := (T.subset s d).length_le
    rw [List.length_map] at this
    exact lt_of_le_of_lt this (h.tris.count s)
  intro recv1 a1 a2
  simp only [Q.eq r]
  refine conf_exchangePacked 4 4 rq mq (p := p + 4) ?_ hq4 hq6 ha6 (Q.nodup r) ?_ ?_ h.ranks (Q.size h.quads) ?_
  · intro i hi
    rw [Nat.add_assoc, hps (4 + i) (by omega), List.getElem?_append_right (by exact Nat.le_add_right 4 i)]
    rw [show 4 + i - (packedPhases 3 rt mt).length = i by exact Nat.add_sub_cancel_left 4 i]
  · intro s d g hg
    obtain ⟨_, e, he, rfl, _⟩ := (Q.sent s d g).mp hg
    exact h.quads.wf s e he
  · intro s d
    have := (Q.subset s d).length_le
    rw [List.length_map] at this
    exact lt_of_le_of_lt this (h.quads.count s)
  intro recv2 b1 b2
  refine hK _ ?_
  simp only [List.nil_append]
  exact ⟨T.isHalo h.tris h.ranks ht r a1 a2, Q.isHalo h.quads h.ranks hq r b1 b2⟩

/-- In every state of every execution: no rank has failed; a rank which has returned holds, each once, the elements of the other ranks which meet
its cells; and if not all of the ranks have returned then some rank can make a step, even when sends are not buffered. -/
theorem halos2d_spec (h : InputOk m owner mesh) (w : Fin n → ℤ) {S : Sys n Msg (List Remote × List Remote)}
    (hS : Reachable (Sys.init (fun r => halos2d m owner (mesh r) r) w) S) :
    (∀ r, S.prog r ≠ .fail) ∧ (∀ r out, S.prog r = .done out → Post m owner mesh r out) ∧ (S.Finished ∨ ∃ S', Step true S S') := by
  obtain ⟨blk, hk, hc⟩ := conf_createHalos2d h
  refine correct (ofPhases blk (Post m owner mesh)) _ w (fun r => ?_) hS
  have hl : blk.length = 8 := by rw [← List.length_map (f := Phase.kind), hk]; rfl
  refine hc r (fun i _ => by rw [Nat.zero_add]) (by rw [hk]; decide) (by rw [hk]; decide) (by rw [hk]; decide) (by rw [hk]; decide)
    (by rw [hk]; decide) (by rw [hk]; decide) ?_
  intro out hout
  have := conf_done (ps := blk) (post := Post m owner mesh) (r := r) (base := some (0, 0 + 4)) hout
  rw [hl] at this
  exact this

/-- Every element of the mesh whose bounding box meets a cell owned by a rank is known to that rank: it is its own or in its halo. -/
theorem halos2d_cover (h : InputOk m owner mesh) (w : Fin n → ℤ) {S : Sys n Msg (List Remote × List Remote)}
    (hS : Reachable (Sys.init (fun r => halos2d m owner (mesh r) r) w) S) {r : Fin n} {out : List Remote × List Remote} (hr : S.prog r = .done out)
    {c : ℤ} (hc : owner c = r.val) (s : Fin n) (e : ℤ × LGeom K) :
    (e ∈ (mesh s).tris → BoxMeets m e.2.lo e.2.hi c → e ∈ (mesh r).tris ∨ asRemote s e ∈ out.1) ∧
    (e ∈ (mesh s).quads → BoxMeets m e.2.lo e.2.hi c → e ∈ (mesh r).quads ∨ asRemote s e ∈ out.2) := by
  obtain ⟨ht, hq⟩ := (halos2d_spec h w hS).2.1 r out hr
  by_cases hs : s = r
  · subst hs; exact ⟨fun h _ => Or.inl h, fun h _ => Or.inl h⟩
  · exact ⟨fun he hb => Or.inr ((ht.2 _).mpr ⟨s, hs, e, he, rfl, c, hc, hb⟩), fun he hb => Or.inr ((hq.2 _).mpr ⟨s, hs, e, he, rfl, c, hc, hb⟩)⟩

/-- Every execution can be completed, also without buffering. -/
theorem halos2d_completes (h : InputOk m owner mesh) (w : Fin n → ℤ) {S : Sys n Msg (List Remote × List Remote)}
    (hS : Reachable (Sys.init (fun r => halos2d m owner (mesh r) r) w) S) :
    ∃ S', Relation.ReflTransGen (Step true) S S' ∧ S'.Finished :=
  completes (fun _ h' => (halos2d_spec h w h').2.2) S hS

/-- There is no infinite execution: with `halos2d_spec`, all of the ranks return. -/
theorem halos2d_terminates (f : ℕ → Sys n Msg (List Remote × List Remote)) : ¬ ∀ i, Step false (f i) (f (i + 1)) := no_infinite false f

/-- `collect_neighbour_ranks`: the ranks of the elements of the halo, in order and each once. -/
theorem neighbourRanks_spec (tris quads : List Remote) :
    (neighbourRanks tris quads).Pairwise (· < ·) ∧ ∀ i, i ∈ neighbourRanks tris quads ↔ ∃ x ∈ tris ++ quads, x.rank.toInt = i := by
  unfold neighbourRanks
  have : ∀ (l : List Remote) (s : List ℤ), s.Pairwise (· < ·) → (l.foldl (fun s g => setAdd g.rank.toInt s) s).Pairwise (· < ·) ∧
      ∀ i, i ∈ l.foldl (fun s g => setAdd g.rank.toInt s) s ↔ i ∈ s ∨ ∃ x ∈ l, x.rank.toInt = i := by
    intro l
    induction l with
    | nil => intro s hs; exact ⟨hs, by simp⟩
    | cons g l ih =>
      intro s hs
      obtain ⟨h1, h2⟩ := ih _ (sorted_setAdd g.rank.toInt s hs)
      refine ⟨h1, fun i => ?_⟩
      rw [List.foldl_cons, h2, mem_setAdd]
      simp only [List.mem_cons, exists_eq_or_imp]
      constructor
      · rintro ((rfl | h) | h)
        · exact Or.inr (Or.inl rfl)
        · exact Or.inl h
        · exact Or.inr (Or.inr h)
      · rintro (h | rfl | h)
        · exact Or.inl (Or.inr h)
        · exact Or.inl (Or.inl rfl)
        · exact Or.inr h
  obtain ⟨h1, h2⟩ := this (tris ++ quads) [] List.Pairwise.nil
  exact ⟨h1, fun i => by rw [h2]; simp⟩

/-- The neighbours of a rank are the other ranks with an element which meets its cells. -/
theorem neighbours (h : InputOk m owner mesh) (w : Fin n → ℤ) {S : Sys n Msg (List Remote × List Remote)}
    (hS : Reachable (Sys.init (fun r => halos2d m owner (mesh r) r) w) S) {r : Fin n} {out : List Remote × List Remote} (hr : S.prog r = .done out)
    (i : ℤ) : i ∈ neighbourRanks out.1 out.2 ↔
      ∃ s : Fin n, i = s.val ∧ s ≠ r ∧ ∃ e ∈ (mesh s).tris ++ (mesh s).quads, ∃ c, owner c = r.val ∧ BoxMeets m e.2.lo e.2.hi c := by
  obtain ⟨ht, hq⟩ := (halos2d_spec h w hS).2.1 r out hr
  rw [(neighbourRanks_spec out.1 out.2).2]
  have hs : ∀ (s : Fin n) (e : ℤ × LGeom K), (asRemote s e).rank.toInt = s.val := by
    intro s e
    have := s.isLt
    have := h.ranks
    exact Verif.Lemmas.toInt_ofNat32 _ (by omega)
  constructor
  · rintro ⟨x, hx, rfl⟩
    rcases List.mem_append.mp hx with hx | hx
    · obtain ⟨s, h1, e, he, rfl, h2⟩ := (ht.2 x).mp hx
      exact ⟨s, hs s e, h1, e, List.mem_append_left _ he, h2⟩
    · obtain ⟨s, h1, e, he, rfl, h2⟩ := (hq.2 x).mp hx
      exact ⟨s, hs s e, h1, e, List.mem_append_right _ he, h2⟩
  · rintro ⟨s, rfl, h1, e, he, h2⟩
    refine ⟨asRemote s e, ?_, hs s e⟩
    rcases List.mem_append.mp he with he | he
    · exact List.mem_append_left _ ((ht.2 _).mpr ⟨s, h1, e, he, rfl, h2⟩)
    · exact List.mem_append_right _ ((hq.2 _).mpr ⟨s, h1, e, he, rfl, h2⟩)

/-! ### An example -/

/-- A quadrilateral which covers both cells of `C26.exampleMesh`. -/
def exQuad : LGeom ℚ := ⟨C18.quad, fun d => if d = 0 then -1/2 else 1/4, fun d => if d = 0 then 3 else 3/4⟩
/-- Rank 0 has the quadrilateral, rank 1 nothing. Rank 1 owns cell 1. -/
def exMesh : Fin 2 → Mesh2d ℚ := fun r => if r = 0 then ⟨[], [(7, exQuad)]⟩ else ⟨[], []⟩

theorem exOk : InputOk exampleMesh (fun c => c) exMesh where
  grid := ⟨⟨by decide, fun d _ => by dsimp only [exampleMesh]; split_ifs <;> omega, by decide⟩, by decide, by simp [exampleMesh], by simp [exampleMesh]⟩
  ranks := by decide
  tris := by
    refine ⟨?_, ?_, ?_, ?_, ?_⟩ <;> intro s <;> fin_cases s <;> simp [exMesh, packRemotes]
  quads := by
    refine ⟨?_, ?_, ?_, ?_, ?_⟩
    · intro s; fin_cases s <;> simp [exMesh]
    · intro s; fin_cases s <;> simp [exMesh]
    · intro s e he
      fin_cases s
      · simp [exMesh] at he; subst he; exact C18.quad_ok
      · simp [exMesh] at he
    · intro s; fin_cases s <;> simp [exMesh]
    · intro s; fin_cases s <;> decide +kernel
  owned := by
    intro s e he c hb
    fin_cases s
    · simp [exMesh] at he
      subst he
      obtain ⟨c', h1, h2, h3⟩ := hb
      have hmem := ((map_exact (m := exampleMesh)
        ⟨⟨by decide, fun d _ => by dsimp only [exampleMesh]; split_ifs <;> omega, by decide⟩, by decide, by simp [exampleMesh], by simp [exampleMesh]⟩
        exQuad.lo exQuad.hi 0 le_rfl).1 c _).mpr ⟨c', h1, h2, h3, rfl⟩
      have he : boundingBoxMap exampleMesh exQuad.lo exQuad.hi 0 = [(0, 1/4), (1, 1/2)] := by decide +kernel
      rw [he] at hmem
      simp at hmem
      rcases hmem with ⟨rfl, _⟩ | ⟨rfl, _⟩ <;> decide
    · simp [exMesh] at he

theorem exMeets : BoxMeets exampleMesh exQuad.lo exQuad.hi 1 := by
  have he : ((1 : ℤ), (1/2 : ℚ)) ∈ boundingBoxMap exampleMesh exQuad.lo exQuad.hi 0 := by decide +kernel
  obtain ⟨c, h1, h2, h3, _⟩ := ((map_exact exOk.grid exQuad.lo exQuad.hi 0 le_rfl).1 1 (1/2)).mp he
  exact ⟨c, h1, h2, h3⟩

/-- Rank 1 receives the quadrilateral of rank 0. -/
example (w : Fin 2 → ℤ) {S : Sys 2 Msg (List Remote × List Remote)}
    (hS : Reachable (Sys.init (fun r => halos2d exampleMesh (fun c => c) (exMesh r) r) w) S) {out : List Remote × List Remote}
    (hr : S.prog 1 = .done out) : (⟨0, 7, C18.quad⟩ : Remote) ∈ out.2 := by
  have := (halos2d_cover exOk w hS hr (c := 1) rfl 0 (7, exQuad)).2 (by simp [exMesh]) exMeets
  rcases this with h | h
  · simp [exMesh] at h
  · exact h

end Verif.Props.C57
