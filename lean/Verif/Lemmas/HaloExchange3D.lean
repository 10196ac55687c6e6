import Verif.Lemmas.HaloExchange
import Verif.Model.HaloExchange3D
import Verif.Props.C20_Geom3D

/-! The steps of the exchange of 3D geometries. -/

namespace Verif.Lemmas.HaloExchange3D
open Verif.Model.Bytes Verif.Model.PackedGeom2D Verif.Model.RemoteGeom Verif.Model.GeomTransport3D Verif.Model.Mpi Verif.Model.HaloExchange
  Verif.Model.HaloExchange3D Verif.Lemmas Verif.Lemmas.Mpi Verif.Lemmas.HaloExchange Verif.Spec Verif.Props

variable {n : ℕ}

theorem sortMap_spec {α : Type} (l : List (ℤ × α)) (h : (l.map Prod.fst).Nodup) : Sorted (sortMap l) ∧ ∀ x, x ∈ sortMap l ↔ x ∈ l := by
  unfold sortMap
  suffices H : ∀ (l s : List (ℤ × α)), (l.map Prod.fst).Nodup → Sorted s → (∀ x ∈ l, ∀ y ∈ s, x.1 ≠ y.1) →
      Sorted (l.foldl (fun s x => mapSet x.1 x.2 s) s) ∧ ∀ x, x ∈ l.foldl (fun s x => mapSet x.1 x.2 s) s ↔ x ∈ s ∨ x ∈ l by
    obtain ⟨h1, h2⟩ := H l [] h List.Pairwise.nil (by simp)
    exact ⟨h1, fun x => by rw [h2]; simp⟩
  intro l
  induction l with
  | nil => intro s _ hs _; exact ⟨hs, by simp⟩
  | cons a l ih =>
    intro s hn hs hd
    rw [List.map_cons, List.nodup_cons] at hn
    have hm : ∀ x, x ∈ mapSet a.1 a.2 s ↔ x = a ∨ x ∈ s := by
      rintro ⟨k, v⟩
      rw [mem_mapSet _ _ _ hs]
      constructor
      · rintro (⟨rfl, rfl⟩ | ⟨_, h⟩)
        · exact Or.inl rfl
        · exact Or.inr h
      · rintro (rfl | h)
        · exact Or.inl ⟨rfl, rfl⟩
        · exact Or.inr ⟨fun e => hd a List.mem_cons_self _ h e.symm, h⟩
    obtain ⟨h1, h2⟩ := ih (mapSet a.1 a.2 s) hn.2 (sorted_mapSet _ _ _ hs) (by
      intro x hx y hy
      rcases (hm y).mp hy with rfl | hy
      · exact fun e => hn.1 (e ▸ List.mem_map_of_mem hx)
      · exact hd x (List.mem_cons_of_mem _ hx) y hy)
    refine ⟨h1, fun x => ?_⟩
    rw [List.foldl_cons, h2, hm, List.mem_cons]
    tauto

/-- What is sent to a rank which gets the elements `gs`. -/
theorem part_spec (rank : Fin n) (faces : List (ℤ × Geom2 Geom)) (gs : List (ℤ × Geom3 Geom))
    (h : ∀ g ∈ gs, ∀ f ∈ g.2.faces, mapGet faces f.gid = some f) :
    (part rank faces gs).isNone = false ∧ partInts rank faces gs = C20.message (gs.map fun g => ⟨rank.val, g.1, g.2⟩) ∧
    Sorted (partTris rank faces gs) ∧ Sorted (partQuads rank faces gs) ∧
    (∀ x, x ∈ partTris rank faces gs ↔ ∃ g ∈ gs, ∃ f ∈ g.2.faces, f.shape = .tri ∧ x = (f.gid, f.data)) ∧
    ∀ x, x ∈ partQuads rank faces gs ↔ ∃ g ∈ gs, ∃ f ∈ g.2.faces, f.shape = .quad ∧ x = (f.gid, f.data) := by
  obtain ⟨p, h1, h2, h3, h4, h5, h6⟩ := (C20.per_rank_faces rank.val (mapGet faces) gs).2 h
  have hp : part rank faces gs = some p := h1
  unfold partInts partTris partQuads
  rw [hp]
  simp only [Option.map_some, Option.getD_some, Option.isNone_some, true_and]
  have key : ∀ (l : List (ℤ × Geom2 Geom)) (sh : FaceShape), (∀ x, x ∈ l ↔ x.2.shape = sh ∧ x.1 = x.2.gid ∧ ∃ g ∈ gs, x.2 ∈ g.2.faces) →
      (l.map Prod.fst).Nodup → Sorted (sortMap (l.map fun x => (x.1, x.2.data))) ∧
      ∀ x, x ∈ sortMap (l.map fun x => (x.1, x.2.data)) ↔ ∃ g ∈ gs, ∃ f ∈ g.2.faces, f.shape = sh ∧ x = (f.gid, f.data) := by
    intro l sh hl hn
    obtain ⟨a, b⟩ := sortMap_spec (l.map fun x => (x.1, x.2.data)) (by rw [List.map_map]; exact hn)
    refine ⟨a, fun x => ?_⟩
    rw [b, List.mem_map]
    constructor
    · rintro ⟨y, hy, rfl⟩
      obtain ⟨h1, h2, g, hg, hf⟩ := (hl y).mp hy
      exact ⟨g, hg, y.2, hf, h1, by rw [h2]⟩
    · rintro ⟨g, hg, f, hf, hs, rfl⟩
      exact ⟨(f.gid, f), (hl _).mpr ⟨hs, rfl, g, hg, hf⟩, rfl⟩
  obtain ⟨a1, a2⟩ := key p.tris .tri h3 h5
  obtain ⟨b1, b2⟩ := key p.quads .quad h4 h6
  exact ⟨h2, a1, b1, a2, b2⟩

/-- A face which is in one of the containers is found, if all entries with its rank and id are the same. -/
theorem elementMap2d_spec (tris quads : List Remote) {x : (ℤ × ℤ) × Geom2 Geom} (hx : x ∈ faceEntries tris quads)
    (hu : ∀ y ∈ faceEntries tris quads, y.1 = x.1 → y.2 = x.2) : elementMap2d tris quads x.1.1 x.1.2 = some x.2 := by
  unfold elementMap2d
  generalize faceEntries tris quads = l at hx hu
  suffices H : ∀ (l : List ((ℤ × ℤ) × Geom2 Geom)) (m : ElementMap Geom), (∀ y ∈ l, y.1 = x.1 → y.2 = x.2) →
      (x ∈ l ∨ m x.1.1 x.1.2 = some x.2) →
      l.foldl (fun m x rank id => if rank = x.1.1 ∧ id = x.1.2 then some x.2 else m rank id) m x.1.1 x.1.2 = some x.2 from
    H l _ hu (Or.inl hx)
  intro l
  induction l with
  | nil => intro m _ h; simpa using h
  | cons a l ih =>
    intro m hu h
    rw [List.foldl_cons]
    refine ih _ (fun y hy => hu y (List.mem_cons_of_mem _ hy)) ?_
    by_cases he : x.1.1 = a.1.1 ∧ x.1.2 = a.1.2
    · right
      rw [if_pos he, hu a List.mem_cons_self (Prod.ext he.1.symm he.2.symm)]
    · rcases h with h | h
      · rcases List.mem_cons.mp h with rfl | h
        · exact absurd ⟨rfl, rfl⟩ he
        · exact Or.inl h
      · right; rw [if_neg he]; exact h

theorem listsOf_map (l : List (Fin n)) (f : Fin n → List ℤ) : listsOf (l.map fun s => (s, Msg.ints (f s))) = some (l.map f) := by
  unfold listsOf
  induction l with
  | nil => rfl
  | cons a l ih => simp only [List.map_cons, List.mapM_cons, ih]; rfl

variable {O : Type} {ps : List (Phase n Msg)} {post : Fin n → O → Prop} {p : ℕ} {r : Fin n} {base : Option (ℤ × ℕ)}

theorem sum_le_mul (l : List ℕ) (b : ℕ) (h : ∀ x ∈ l, x ≤ b) : l.sum ≤ l.length * b := by
  induction l with
  | nil => simp
  | cons a l ih =>
    have h1 := h a List.mem_cons_self
    have h2 := ih fun x hx => h x (List.mem_cons_of_mem _ hx)
    rw [List.sum_cons, List.length_cons, Nat.add_mul, Nat.one_mul]
    omega

theorem sum_lt (recv : List (Fin n)) (hrn : recv.Nodup) (f : Fin n → ℕ) (h : ∀ s, n * f s < 2 ^ 31) : (recv.map f).sum < 2 ^ 31 := by
  have hl : recv.length ≤ n := by simpa using hrn.length_le_card
  rcases Nat.eq_zero_or_pos n with h0 | hn
  · have : recv = [] := List.eq_nil_of_length_eq_zero (by omega)
    rw [this]; simp
  · have : ∀ x ∈ recv.map f, x ≤ (2 ^ 31 - 1) / n := by
      intro x hx
      obtain ⟨s, _, rfl⟩ := List.mem_map.mp hx
      rw [Nat.le_div_iff_mul_le hn, Nat.mul_comm]
      have := h s
      omega
    have h1 := sum_le_mul _ _ this
    rw [List.length_map] at h1
    have h2 : recv.length * ((2 ^ 31 - 1) / n) ≤ n * ((2 ^ 31 - 1) / n) := Nat.mul_le_mul_right _ hl
    have h3 : n * ((2 ^ 31 - 1) / n) ≤ 2 ^ 31 - 1 := Nat.mul_div_le _ _
    omega

theorem conf_sendrecvGeoms3d (ranks : Fin n → List (Fin n)) (cont : Fin n → Fin n → List ℤ)
    (hp : ps[p]? = some (.comm 135 (msgs ranks fun s d => .ints (cont s d))))
    {sr : List (Fin n)} (hsr : ∀ d, d ∈ sr ↔ d ∈ ranks r) (hnd : sr.Nodup) (hsize : ∀ s d, n * (cont s d).length < 2 ^ 31)
    {recvRanks : List (Fin n)} (hrn : recvRanks.Nodup) (hr : ∀ s, s ∈ recvRanks ↔ r ∈ ranks s)
    {K : List ℤ → Prog n Msg O}
    (hK : Conf (ofPhases ps post) r (K (recvRanks.flatMap fun s => cont s r)) (.at (p + 1) base)) :
    Conf (ofPhases ps post) r (sendrecvGeoms3d sr (sr.map fun d => cont r d) (sr.map fun d => toInt32 (cont r d).length) recvRanks
      (recvRanks.map fun s => toInt32 (cont s r).length) K) (.at p base) := by
  have hn : 0 < n := r.pos
  have hi : ∀ s d, toInt32 (cont s d).length = (cont s d).length := by
    intro s d
    refine toInt32_eq ?_
    have := hsize s d
    have : 1 * (cont s d).length ≤ n * (cont s d).length := Nat.mul_le_mul_right _ hn
    omega
  simp only [hi]
  unfold sendrecvGeoms3d
  have hsum : (recvRanks.map fun s => ((cont s r).length : ℤ)).sum < 2 ^ 31 := by
    have := sum_lt recvRanks hrn (fun s => (cont s r).length) (fun s => hsize s r)
    have hcast : ∀ l : List (Fin n), (l.map fun s => ((cont s r).length : ℤ)).sum = ((l.map fun s => (cont s r).length).sum : ℕ) := by
      intro l
      induction l with
      | nil => rfl
      | cons a l ih => simp only [List.map_cons, List.sum_cons, ih]; push_cast; rfl
    rw [hcast]
    exact_mod_cast this
  rw [if_neg (not_not.mpr ⟨by
      intro x hx; obtain ⟨s, _, rfl⟩ := List.mem_map.mp hx; exact Int.natCast_nonneg _, hsum⟩),
    if_neg (by simp [List.map_map, Function.comp_def])]
  rw [List.map_map, zip_map_self]
  refine conf_named hp hrn (fun s => ?_) (sendsOf_map ranks r hsr hnd fun s d => Msg.ints (cont s d)) ?_
  · rw [hr]; exact (isSome_ite _ _).symm
  · intro res hres hfst
    obtain ⟨he, -⟩ := received_map hres
    rw [hfst] at he
    rw [he, listsOf_map]
    simp only
    have h1 := C20.messages_in_order (recvRanks.map fun s => cont s r) (List.range (recvRanks.map fun s => cont s r).length) (List.Perm.refl _)
    have h2 : (recvRanks.map fun s => ((cont s r).length : ℤ)).map Int.toNat = (recvRanks.map fun s => cont s r).map List.length := by
      simp [List.map_map, Function.comp_def]
    rw [h2, h1]
    simp only
    rw [← List.flatMap_def]
    exact hK

/-- The phases of the exchange of the 3D geometries. -/
def geomPhases (ranks : Fin n → List (Fin n)) (cont : Fin n → Fin n → List ℤ) : List (Phase n Msg) :=
  [.bar, .acc fun s d => decide (d ∈ ranks s), .comm 45 (msgs ranks fun s d => .int (toInt32 (cont s d).length)),
    .comm 135 (msgs ranks fun s d => .ints (cont s d))]

theorem message_flatMap {α V : Type} (l : List α) (f : α → List (Remote3 V)) : l.flatMap (fun a => C20.message (f a)) = C20.message (l.flatMap f) := by
  unfold C20.message
  induction l with
  | nil => rfl
  | cons a l ih => simp [ih]

theorem conf_exchangeGeoms3d (ranks : Fin n → List (Fin n)) (sent : Fin n → Fin n → List (Remote3 Geom))
    (hps : ∀ i < 4, ps[p + i]? = (geomPhases ranks fun s d => C20.message (sent s d))[i]?)
    (hq0 : quietB (ps.map Phase.kind) p = true) (hq2 : quietB (ps.map Phase.kind) (p + 2) = true) (ha : anyB (ps.map Phase.kind) (p + 2) 45 = true)
    (hnd : (ranks r).Nodup) (hsize : ∀ s d, n * (C20.message (sent s d)).length < 2 ^ 31)
    {elements : ElementMap Geom} (hel : ∀ s, r ∈ ranks s → ∀ g ∈ sent s r, C20.Rebuildable elements g)
    {K : List (Remote3 Geom) → Prog n Msg O}
    (hK : ∀ recvRanks : List (Fin n), recvRanks.Nodup → (∀ s, s ∈ recvRanks ↔ r ∈ ranks s) →
      Conf (ofPhases ps post) r (K (recvRanks.flatMap fun s => sent s r)) (.at (p + 4) (some (0, p)))) :
    Conf (ofPhases ps post) r (exchangeGeoms3d (ranks r) ((ranks r).map fun d => C20.message (sent r d)) elements K) (.at p base) := by
  unfold exchangeGeoms3d
  simp only [List.map_map]
  refine conf_countRanks (hps 0 (by omega)) (hps 1 (by omega)) hq0 hq2 hnd (fun d => by simp) ?_
  refine conf_getRecvRanks ranks (fun s d => toInt32 (C20.message (sent s d)).length) (hps 2 (by omega)) ha hnd ?_
  intro recvRanks h1 h2
  refine conf_sendrecvGeoms3d ranks (fun s d => C20.message (sent s d)) (hps 3 (by omega)) (fun _ => Iff.rfl) hnd hsize h1 h2 ?_
  rw [message_flatMap, C20.round_trip elements _ [] (by
    intro g hg
    obtain ⟨s, hs, hg⟩ := List.mem_flatMap.mp hg
    exact hel s ((h2 s).mp hs) g hg), List.nil_append]
  exact hK recvRanks h1 h2

end Verif.Lemmas.HaloExchange3D
