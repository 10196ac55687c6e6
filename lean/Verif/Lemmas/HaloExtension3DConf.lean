import Verif.Lemmas.HaloExtension3D
import Verif.Lemmas.MpiBlocks

/-! One call of `extend_halos_fixed_offset` on a 3D mesh: the communication. -/

namespace Verif.Lemmas.HaloExtension3D
open Verif.Model Verif.Model.Bytes Verif.Model.PackedGeom2D Verif.Model.RemoteGeom Verif.Model.GeomTransport3D Verif.Model.MeshHierarchy Verif.Model.Mpi
  Verif.Model.Claims Verif.Model.HaloCells Verif.Model.HaloExchange Verif.Model.HaloExchange3D Verif.Model.HaloExtension Verif.Model.HaloExtension3D
  Verif.Spec Verif.Lemmas Verif.Lemmas.Mpi Verif.Lemmas.HaloExchange Verif.Lemmas.HaloExchange3D Verif.Lemmas.HaloExtension Verif.Props

variable {n : ℕ}

theorem conf_exchange3d {O : Type} {ps : List (Phase n Msg)} {post : Fin n → O → Prop} {p : ℕ} {r : Fin n} {base : Option (ℤ × ℕ)}
    (ranks : Fin n → List (Fin n)) (cont : Fin n → Fin n → List (Remote3 Geom))
    (hp1 : ps[p]? = some (.comm 452 (msgs ranks fun s d => .int (toInt32 (C20.message (cont s d)).length))))
    (hp2 : ps[p + 1]? = some (.comm 135 (msgs ranks fun s d => .ints (C20.message (cont s d)))))
    {sr : List (Fin n)} (hsr : ∀ d, d ∈ sr ↔ d ∈ ranks r) (hnd : sr.Nodup) (hsize : ∀ s d, n * (C20.message (cont s d)).length < 2 ^ 31)
    {recvRanks : List (Fin n)} (hrn : recvRanks.Nodup) (hr : ∀ s, s ∈ recvRanks ↔ r ∈ ranks s)
    {elements : ElementMap Geom} (hel : ∀ g ∈ recvRanks.flatMap (fun s => cont s r), C20.Rebuildable elements g)
    {K : List (Remote3 Geom) → Prog n Msg O}
    (hK : Conf (ofPhases ps post) r (K (recvRanks.flatMap fun s => cont s r)) (.at (p + 2) base)) :
    Conf (ofPhases ps post) r (exchange3d sr (sr.map fun d => cont r d) recvRanks elements K) (.at p base) := by
  have hpk : (sr.map fun d => cont r d).map (fun l => l.flatMap fun g => deconstruct g.rank g.id g.geom) = sr.map fun d => C20.message (cont r d) := by
    rw [List.map_map]; rfl
  unfold exchange3d
  simp only
  rw [hpk]
  simp only [List.map_map]
  rw [zip_map_self]
  refine conf_named hp1 hrn (fun s => ?_) (sendsOf_map ranks r hsr hnd fun s d => Msg.int (toInt32 (C20.message (cont s d)).length)) ?_
  · rw [hr]; exact (isSome_ite _ _).symm
  · intro res hres hfst
    obtain ⟨he, -⟩ := received_map hres
    rw [hfst] at he
    rw [he, intsOf_map]
    simp only
    refine conf_sendrecvGeoms3d ranks (fun s d => C20.message (cont s d)) hp2 hsr hnd hsize hrn hr ?_
    rw [message_flatMap, C20.round_trip elements _ [] hel, List.nil_append]
    exact hK

variable {K : Type} [Field K] [LinearOrder K] [IsStrictOrderedRing K] [FloorRing K] {m : MHGeom K} {owner : ℤ → ℤ}
  {box : Geom3 Geom → (ℕ → K) × (ℕ → K)} {pmi : Fin n → Pmi3d}

/-- The phases of a call. -/
def extendPhases3 (m : MHGeom K) (owner : ℤ → ℤ) (box : Geom3 Geom → (ℕ → K) × (ℕ → K)) (w : ℤ) (pbc : Bool) (pmi : Fin n → Pmi3d) : List (Phase n Msg) :=
  let fl : Fin n → Pmi2d := fun s => flat (pmi s)
  [.bar, .acc fun s d => decide (d ∈ recvOf m owner w pbc fl s),
   .comm 145 (msgs (recvOf m owner w pbc fl) fun s d => .int (toInt32 (wantedOf m owner w pbc fl s d).length)),
   .comm 146 (msgs (recvOf m owner w pbc fl) fun s d => .ints (wantedOf m owner w pbc fl s d)),
   .comm 451 (msgs (sendOf m owner w pbc fl) fun s d => .int (toInt32 (packRemotes 3 (contF m owner box w pbc pmi .tri s d)).length)),
   .comm 461 (msgs (sendOf m owner w pbc fl) fun s d => .bytes (packRemotes 3 (contF m owner box w pbc pmi .tri s d))),
   .comm 451 (msgs (sendOf m owner w pbc fl) fun s d => .int (toInt32 (packRemotes 4 (contF m owner box w pbc pmi .quad s d)).length)),
   .comm 461 (msgs (sendOf m owner w pbc fl) fun s d => .bytes (packRemotes 4 (contF m owner box w pbc pmi .quad s d))),
   .comm 452 (msgs (sendOf m owner w pbc fl) fun s d => .int (toInt32 (C20.message (contG m owner box w pbc pmi s d)).length)),
   .comm 135 (msgs (sendOf m owner w pbc fl) fun s d => .ints (C20.message (contG m owner box w pbc pmi s d)))]

variable (h : Mesh3Ok m owner box pmi) (hh : Halos3Ok m owner box pmi) {w : ℤ} (hw0 : 0 ≤ w) (hw : ∀ d < m.ndim, w ≤ m.dims d * m.ncf) (pbc : Bool)
include h hh hw0 hw

/-- What a rank does with what it received. -/
theorem unpack3_extended {r : Fin n} {st : Pmi3d} (hs : Same3 st (pmi r)) :
    let recv := recvOf m owner w pbc (fun s => flat (pmi s)) r
    let s1 := unpack2d .tri (rankToGeoms2d r.val (flat (pmi r)), st.halos.tris) (recv.flatMap fun q => contF m owner box w pbc pmi .tri q r)
    let s2 := unpack2d .quad (s1.1, st.halos.quads) (recv.flatMap fun q => contF m owner box w pbc pmi .quad q r)
    (∀ g ∈ recv.flatMap (fun q => contG m owner box w pbc pmi q r), C20.Rebuildable (toElementMap s2.1) g) ∧
    ∃ s3, unpack3d (rankToGeoms3d r.val (pmi r), st.halos.geoms) (recv.flatMap fun q => contG m owner box w pbc pmi q r) = some s3 ∧
      Extended3 m box pmi w pbc r st.halos ⟨s1.2, s2.2, s3.2⟩ := by
  intro recv s1 s2
  obtain ⟨ks, km⟩ := mem_known h.flat (hh.flat h) r
  obtain ⟨newT, t1, t2, t3, t4⟩ := unpackF_extended h hh hw0 hw pbc .tri hs (recv := recv) ks (fun _ _ => Iff.rfl) (by
    intro key sh' g hg
    obtain ⟨s, i, a, b, _⟩ := (km _ _ _).mp hg
    exact ⟨s, i, a, b⟩)
  obtain ⟨newQ, q1, q2, q3, q4⟩ := unpackF_extended h hh hw0 hw pbc .quad hs (recv := recv) t3 (by
      intro key g
      rw [t4]
      constructor
      · rintro (hg | ⟨hc, _⟩)
        · exact hg
        · cases hc
      · exact Or.inl)
    (by
      intro key sh' g hg
      rcases (t4 _ _ _).mp hg with hg | ⟨rfl, x, hx, rfl, rfl⟩
      · obtain ⟨s, i, a, b, _⟩ := (km _ _ _).mp hg
        exact ⟨s, i, a, b⟩
      · obtain ⟨s, e, he, _, f, hf, hsh, rfl⟩ := (mem_tmpF h hh hw0 hw pbc .tri x).mp hx
        have hmem := (h.face he hf).2 .tri hsh
        exact ⟨s, f.gid, hmem, key_remoteOf h.ranks s (h.flat.range s .tri _ hmem)⟩)
  obtain ⟨newG, g1, g2, g3, g4⟩ := unpackG_extended h hh hw0 hw pbc hs (recv := recv) (fun _ => Iff.rfl)
  have hgen := mem_tmpG h hh hw0 hw pbc (r := r) (recv := recv) (fun _ => Iff.rfl)
  refine ⟨?_, _, unpack3d_eq _ ?_ _, ?_⟩
  · intro g hg
    obtain ⟨s, e, he, rfl, _⟩ := (hgen g).mp hg
    refine ⟨h.gid s e he, h.wf s e he, fun f hf => ?_⟩
    have hf' : f ∈ e.2.faces := hf
    obtain ⟨sh, hsh⟩ := faceShape_surj f.shape
    have hmem := (h.face he hf').2 sh hsh
    have hkey := key_remoteOf h.ranks s (h.flat.range s sh _ hmem)
    have hx := (mem_tmpF h hh hw0 hw pbc sh (recv := recv) (r := r) _).mpr ⟨s, e, he, hg, f, hf', hsh, rfl⟩
    have hin : (toLex ((s.val : ℤ), f.gid), sh, f.data) ∈ s2.1 := by
      refine (q4 _ _ _).mpr ?_
      cases sh
      · exact Or.inl ((t4 _ _ _).mpr (Or.inr ⟨rfl, _, hx, hkey.symm, rfl⟩))
      · exact Or.inr ⟨rfl, _, hx, hkey.symm, rfl⟩
    unfold toElementMap
    have hget := (mapGet_eq q3.nodup _ _).mpr hin
    show (mapGet s2.1 (toLex ((s.val : ℤ), f.gid))).map _ = some f
    rw [show mapGet s2.1 (toLex ((s.val : ℤ), f.gid)) = _ from hget]
    simp only [Option.map_some, Option.some.injEq]
    rw [h.faceGid s _ (h.faces s e he f hf'), ← hsh]
  · intro x hx
    obtain ⟨s, e, he, rfl, _⟩ := (hgen x).mp hx
    exact h.gid s e he
  · have e1 : s1.2 = st.halos.tris ++ newT := t1
    have e2 : s2.2 = st.halos.quads ++ newQ := q1
    rw [e1, e2, g1]
    exact ⟨⟨List.prefix_append _ _, List.prefix_append _ _, List.prefix_append _ _⟩, g2, g4, t2 g3, q2 g3⟩

variable {O : Type} {ps : List (Phase n Msg)} {post : Fin n → O → Prop} {p : ℕ} {r : Fin n} {base : Option (ℤ × ℕ)}

theorem conf_extend3 (hps : ∀ i < 10, ps[p + i]? = (extendPhases3 m owner box w pbc pmi)[i]?)
    (hq0 : quietB (ps.map Phase.kind) p = true) (hq2 : quietB (ps.map Phase.kind) (p + 2) = true) (ha : anyB (ps.map Phase.kind) (p + 2) 145 = true)
    {st : Pmi3d} (hs : Same3 st (pmi r)) {K : Halos3d → Prog n Msg O}
    (hK : ∀ out : Halos3d, Extended3 m box pmi w pbc r st.halos out → Conf (ofPhases ps post) r (K out) (.at (p + 10) (some (0, p)))) :
    Conf (ofPhases ps post) r (extendHalos3d m owner box w pbc r st K) (.at p base) := by
  obtain ⟨S, h1, h2, h3, h4, h5, h6⟩ := req_spec h.flat hw0 hw pbc r
  unfold extendHalos3d
  have hreq : requestedCells m.toMH w pbc st.owned st.unowned = some (some S) := by rw [hs.owned, hs.unowned]; exact h1
  rw [hreq]
  simp only
  have hrc : rankToCells r owner (S.foldl (fun s c => setAdd c s) []) = reqOf m owner w pbc (fun s => flat (pmi s)) r := h2.symm
  rw [hrc]
  refine conf_countRanks (hps 0 (by omega)) (hps 1 (by omega)) hq0 hq2 (nodup_of_sorted h3) (fun d => by rw [decide_eq_true_eq]) ?_
  refine conf_getSendCells (recvOf m owner w pbc fun s => flat (pmi s)) (wantedOf m owner w pbc fun s => flat (pmi s)) (hps 2 (by omega)) (hps 3 (by omega)) ha
    (nodup_of_sorted h3) (fun hr => ((h4 r).mp hr).1 rfl) (fun s d => (req_spec h.flat hw0 hw pbc s).choose_spec.2.2.2.2.2 d) ?_
  intro sr snd smem
  rw [known_eq h.flat (hh.flat h) (hs.flat (hh.faces r)), known3_eq h hh hs]
  have hcs : sendCellsSet (sr.map fun s => (s, wantedOf m owner w pbc (fun s => flat (pmi s)) s r)) = csetOf m owner w pbc (fun s => flat (pmi s)) r := by
    have : sendCellsSet (sr.map fun s => (s, wantedOf m owner w pbc (fun s => flat (pmi s)) s r)) =
        setFrom ((sr.map fun s => (s, wantedOf m owner w pbc (fun s => flat (pmi s)) s r)).flatMap Prod.snd) := rfl
    rw [this]
    unfold csetOf
    refine setFrom_congr fun c => ?_
    rw [List.flatMap_map]
    simp only [List.mem_flatMap, List.mem_finRange, true_and]
    constructor
    · rintro ⟨d, _, hc⟩; exact ⟨d, hc⟩
    · rintro ⟨d, hc⟩
      obtain ⟨_, _, _, _, rm, wm, _⟩ := req_spec h.flat hw0 hw pbc d
      exact ⟨d, (smem d).mpr ((rm r).mpr ⟨((wm r c).mp hc).1, c, hc⟩), hc⟩
  rw [hcs]
  have mapM_some : ∀ {α β : Type} (l : List α) (f : α → Option β) (g : α → β), (∀ a, f a = some (g a)) → l.mapM f = some (l.map g) := by
    intro α β l f g hfg
    induction l with
    | nil => rfl
    | cons a l ih => rw [List.mapM_cons, hfg, ih]; rfl
  have hsets : ((sr.map fun s => (s, wantedOf m owner w pbc (fun s => flat (pmi s)) s r)).mapM fun x => sendSets (rankToGeoms3d r.val (pmi r))
      (cellsToGeoms m (info3d box) (rankToGeoms3d r.val (pmi r)) (csetOf m owner w pbc (fun s => flat (pmi s)) r)) x.2) =
      some (sr.map fun d => setsOf m owner box w pbc pmi r d) := by
    rw [List.mapM_map]
    exact mapM_some _ _ _ fun d => (sets_spec h hh hw0 hw pbc r d).1
  rw [hsets]
  simp only [List.mapM_map]
  have hF : ∀ sh, sr.mapM ((fun x : List Key × List Key => toSend sh (rankToGeoms2d r.val (flat (pmi r))) x.2) ∘ fun d => setsOf m owner box w pbc pmi r d) =
      some (sr.map fun d => contF m owner box w pbc pmi sh r d) := fun sh => mapM_some _ _ _ fun d => (contF_spec h hh hw0 hw pbc sh r d).1
  have hG : sr.mapM ((fun x : List Key × List Key => toSend3 (rankToGeoms3d r.val (pmi r)) x.1) ∘ fun d => setsOf m owner box w pbc pmi r d) =
      some (sr.map fun d => contG m owner box w pbc pmi r d) := mapM_some _ _ _ fun d => (contG_spec h hh hw0 hw pbc r d).1
  rw [hF .tri, hF .quad, hG]
  simp only [List.map_map, Function.comp_def, List.map_id']
  have hsr : ∀ d, d ∈ sr ↔ d ∈ sendOf m owner w pbc (fun s => flat (pmi s)) r := fun d => by rw [smem, mem_sendOf]
  have hrr : ∀ q, q ∈ recvOf m owner w pbc (fun s => flat (pmi s)) r ↔ r ∈ sendOf m owner w pbc (fun s => flat (pmi s)) q := fun q => (mem_sendOf w pbc q r).symm
  refine conf_exchangeGeoms2d 3 3 (sendOf m owner w pbc fun s => flat (pmi s)) (contF m owner box w pbc pmi .tri) (hps 4 (by omega)) (hps 5 (by omega)) hsr snd
    (fun s d => (contF_ok h hh hw0 hw pbc .tri s d).1) (fun s d => (contF_ok h hh hw0 hw pbc .tri s d).2.1)
    (fun s d => (contF_ok h hh hw0 hw pbc .tri s d).2.2) (nodup_of_sorted h3) hrr ?_
  refine conf_exchangeGeoms2d 4 4 (sendOf m owner w pbc fun s => flat (pmi s)) (contF m owner box w pbc pmi .quad) (hps 6 (by omega)) (hps 7 (by omega)) hsr snd
    (fun s d => (contF_ok h hh hw0 hw pbc .quad s d).1) (fun s d => (contF_ok h hh hw0 hw pbc .quad s d).2.1)
    (fun s d => (contF_ok h hh hw0 hw pbc .quad s d).2.2) (nodup_of_sorted h3) hrr ?_
  obtain ⟨u1, s3, u2, u3⟩ := unpack3_extended h hh hw0 hw pbc hs
  refine conf_exchange3d (sendOf m owner w pbc fun s => flat (pmi s)) (contG m owner box w pbc pmi) (hps 8 (by omega)) (hps 9 (by omega)) hsr snd
    (fun s d => contG_size h hh hw0 hw pbc s d) (nodup_of_sorted h3) hrr u1 ?_
  rw [u2]
  exact hK _ u3

end Verif.Lemmas.HaloExtension3D
