import Verif.Lemmas.HaloExtensionPure
import Verif.Lemmas.HaloExchange

/-! The exchanges of `extend_halos_fixed_offset`. -/

namespace Verif.Lemmas.HaloExtension
open Verif.Model Verif.Model.Bytes Verif.Model.PackedGeom2D Verif.Model.Mpi Verif.Model.HaloExchange Verif.Model.HaloExtension
  Verif.Spec Verif.Lemmas Verif.Lemmas.Mpi Verif.Lemmas.HaloExchange

variable {n : ℕ} {O : Type} {ps : List (Phase n Msg)} {post : Fin n → O → Prop} {p : ℕ} {r : Fin n} {base : Option (ℤ × ℕ)}

theorem intListsOf_map (l : List (Fin n)) (f : Fin n → List ℤ) : intListsOf (l.map fun s => (s, Msg.ints (f s))) = some (l.map f) := by
  unfold intListsOf
  induction l with
  | nil => rfl
  | cons a l ih => simp only [List.map_cons, List.mapM_cons, ih]; rfl

theorem conf_getSendCells (recvRanks : Fin n → List (Fin n)) (wanted : Fin n → Fin n → List ℤ)
    (hp1 : ps[p]? = some (.comm 145 (msgs recvRanks fun s d => .int (toInt32 (wanted s d).length))))
    (hp2 : ps[p + 1]? = some (.comm 146 (msgs recvRanks fun s d => .ints (wanted s d))))
    (ha : anyB (ps.map Phase.kind) p 145 = true) (hnd : (recvRanks r).Nodup) (hself : r ∉ recvRanks r)
    (hlen : ∀ s d, (wanted s d).length < 2 ^ 31) {K : List (Fin n × List ℤ) → Prog n Msg O}
    (hK : ∀ sendRanks : List (Fin n), sendRanks.Nodup → (∀ s, s ∈ sendRanks ↔ r ∈ recvRanks s) →
      Conf (ofPhases ps post) r (K (sendRanks.map fun s => (s, wanted s r))) (.at (p + 2) base)) :
    Conf (ofPhases ps post) r (getSendCells r ((Finset.univ.filter fun s => decide (r ∈ recvRanks s) = true).card : ℕ) (recvRanks r) (wanted r) K)
      (.at p base) := by
  unfold getSendCells
  rw [if_neg (by omega), Int.toNat_natCast]
  refine conf_any hp1 ha ?_ (sendsOf_map recvRanks r (fun _ => Iff.rfl) hnd fun s d => Msg.int (toInt32 (wanted s d).length)) ?_
  · congr 1
    ext s
    simp only [Finset.mem_filter, Finset.mem_univ, true_and, decide_eq_true_eq]
    exact (isSome_ite _ _).symm
  · intro res hres
    obtain ⟨he, hm⟩ := received_map hres
    rw [he, intsOf_map]
    have hnd' := hres.nodup
    generalize res.map Prod.fst = sr at he hm hnd'
    simp only [List.map_map, Function.comp_def, List.map_id']
    rw [if_neg (by
      rintro (h | ⟨s, hs, h⟩)
      · exact hself ((hm r).mp h)
      · obtain ⟨q, _, rfl⟩ := List.mem_map.mp hs
        rw [toInt32_eq (hlen q r)] at h
        omega)]
    refine conf_named hp2 hnd' (fun s => ?_) (sendsOf_map recvRanks r (fun _ => Iff.rfl) hnd fun s d => Msg.ints (wanted s d)) ?_
    · rw [hm]; exact (isSome_ite _ _).symm
    · intro res2 hres2 hfst
      obtain ⟨he2, -⟩ := received_map hres2
      rw [hfst] at he2
      rw [he2, intListsOf_map]
      simp only
      have hz : ((sr.map fun s => toInt32 (wanted s r).length).zip (sr.map fun s => wanted s r)).mapM (fun x => recvInts x.1 x.2) =
          some (sr.map fun s => wanted s r) := by
        clear hfst he2 hres2 he hm hnd'
        induction sr with
        | nil => rfl
        | cons a l ih =>
          simp only [List.map_cons, List.zip_cons_cons, List.mapM_cons]
          have h1 : recvInts (toInt32 (wanted a r).length) (wanted a r) = some (wanted a r) := by
            unfold recvInts
            rw [toInt32_eq (hlen a r), if_neg (by omega), Int.toNat_natCast, Nat.sub_self, List.replicate_zero, List.append_nil]
          rw [h1, ih]; rfl
      rw [hz]
      simp only
      rw [zip_map_self]
      exact hK sr hnd' hm

theorem conf_exchangeGeoms2d (shape : I32) (kEdges : ℕ) (ranks : Fin n → List (Fin n)) (cont : Fin n → Fin n → List Remote)
    (hp1 : ps[p]? = some (.comm 451 (msgs ranks fun s d => .int (toInt32 (packRemotes shape (cont s d)).length))))
    (hp2 : ps[p + 1]? = some (.comm 461 (msgs ranks fun s d => .bytes (packRemotes shape (cont s d)))))
    {sr : List (Fin n)} (hsr : ∀ d, d ∈ sr ↔ d ∈ ranks r) (hnd : sr.Nodup) (hok : ∀ s d, ∀ g ∈ cont s d, RemoteOk kEdges g)
    (hcount : ∀ s d, (cont s d).length < 2 ^ 31) (hsize : ∀ s d, n * (packRemotes shape (cont s d)).length < 2 ^ 31)
    {recvRanks : List (Fin n)} (hrn : recvRanks.Nodup) (hr : ∀ s, s ∈ recvRanks ↔ r ∈ ranks s) {K : List Remote → Prog n Msg O}
    (hK : Conf (ofPhases ps post) r (K (recvRanks.flatMap fun s => cont s r)) (.at (p + 2) base)) :
    Conf (ofPhases ps post) r (exchangeGeoms2d shape kEdges sr (sr.map fun d => cont r d) recvRanks K) (.at p base) := by
  unfold exchangeGeoms2d
  simp only [List.map_map]
  rw [zip_map_self]
  refine conf_named hp1 hrn (fun s => ?_) (sendsOf_map ranks r hsr hnd fun s d => Msg.int (toInt32 (packRemotes shape (cont s d)).length)) ?_
  · rw [hr]; exact (isSome_ite _ _).symm
  · intro res hres hfst
    obtain ⟨he, -⟩ := received_map hres
    rw [hfst] at he
    rw [he, intsOf_map]
    simp only
    refine conf_exchangeBuffers shape 461 kEdges ranks cont hp2 hsr hnd hok hcount hsize hrn hr ?_
    rw [List.nil_append]
    exact hK

end Verif.Lemmas.HaloExtension
