import Verif.Props.C108_LineInit
import Verif.Props.C90_Example

/-!
C108: a source line on the mesh of C90's example, two rectangles on two ranks, has the hypotheses of `line_2d`.
-/

namespace Verif.Props.C108.Example
open Verif.Model Verif.Model.CoarseLookup Verif.Model.MapChain Verif.Model.ParallelStep Verif.Props.C55 Verif.Model.LineInit Verif.Props.C108
open Verif.Model.CartesianMesh Verif.Model.DeviceMapper Verif.Spec Verif.Spec.Mapping Verif.Props.C34 Verif.Props.C35 Verif.Props.C40 Verif.Model.RegularMap Verif.Model.NewtonKernel
  Verif.Model.NewtonElements Verif.Props.C84 Verif.Model.MeshHierarchy Verif.Model.Claims Verif.Spec.LinearElements Verif.Props.C85
  Verif.Model.Bytes Verif.Model.PackedGeom2D Verif.Model.Mpi Verif.Model.HaloExchange Verif.Lemmas.Mpi Verif.Props.C57 Verif.Props.C90 Verif.Props.C90.Example

/-- The line from (0, 1/2) to (4, 3/2) has three points; rank 0 creates two of them and rank 1 one. Two calls of the sampler draw the points 0, 2, 1, 0 and then 2. For every execution of the construction of
the halos the points are distributed and the particles of the second call are created. -/
example {T : Type} (w : Fin 2 → ℤ) {S : Sys 2 Msg (List Remote × List Remote)} (hS : Reachable (Sys.init (fun r => halos2d mh (fun c => c) (mesh r) r) w) S)
    (out : Fin 2 → List Remote × List Remote) (hout : ∀ r, S.prog r = .done (out r)) (other : Fin 2 → ℕ → T) :
    ∃ (R : Fin 2 → Rank ℚ) (P : Fin 2 → Points ℚ), construct 2 3 [0, 1 / 2] [4, 3 / 2] (fun r => min 3 (2 * r)) (ownerOf mh fun c => c) R = some P ∧
      (∀ r, Usable 2 (Dom 2 glo ghi) (inside2 view mesh (1 / 100)) (R r) r (P r)) ∧ (points 2 P).length = 3 ∧
      ∃ (samples : Fin 2 → List ℤ) (G' : State 2 T ℚ), addLine P samples other (fun r => List.replicate (R r).translation.mapToNektar.length []) = some G' ∧
        ∑ r, (G' r).flatten.length = 1 := by
  have hsc : ∀ f : ℚ, 1 < f → 0 < ⌈f⌉ ∧ f ≤ (⌈f⌉ : ℚ) ^ 2 := fun f hf => ⟨Int.ceil_pos.2 (by linarith), by have := Int.le_ceil f; nlinarith⟩
  have hE := fun r => known_pair w hS r (out r) (hout r) (known view (mesh r) r (out r)) (List.Perm.refl _)
  have hadm := fun r => known_admissible ok r (out r) ((halos2d_spec input w hS).2.1 r (out r) (hout r)) (known view (mesh r) r (out r)) (List.Perm.refl _) (by
    rcases hE r with h | h <;> rw [h] <;> simp)
  choose mapper hm _ using fun r => mapper_correct 2 (by omega) (by omega) (100 : ℚ) (by norm_num) (fun f => ⌈f⌉) hsc _ (hadm r)
  let geoms : Fin 2 → List (ℤ × ℤ) := fun r => if r = 0 then [(12, 4)] else [(13, 4)]
  have hgr : ∀ r, ∀ g ∈ geoms r, 0 ≤ g.1 ∧ g.1 < 2147483647 := by intro r; fin_cases r <;> simp [geoms]
  have hgne : ∀ r, geoms r ≠ [] := by intro r; fin_cases r <;> simp [geoms]
  have hgs : ∀ r, ((geoms r).map Prod.fst).Pairwise (· < ·) := by intro r; fin_cases r <;> simp [geoms]
  choose tr htr _ using fun r => C03.constructMaps_spec (geoms r) (hgne r) ((hgs r).imp fun h => ne_of_lt h) (hgr r)
  have hfit := fun r => C90.Example.counts _ (hE r) (hadm r) (mapper r) (hm r)
  obtain ⟨P, nodes, h1, h2, h3, -, h4, samples, G', new, -, h5, h6, -, -, h7, -⟩ := line_2d (T := T) (V := view) (big := 100) (by norm_num) hsc (tol0 := 1 / 1000) (t := 1 / 1000) (by norm_num) (by norm_num) (by norm_num) ok covers (by
      intro d hd; interval_cases d <;> norm_num [glo, ghi]) w hS out hout (fun r => known view (mesh r) r (out r)) (fun r => List.Perm.refl _) mapper hm hfit (by
      intro r p hp
      refine inRange_of_bounds 2 (by omega) (by omega) 100 (by norm_num) _ hsc _ (hadm r) (mapper r) (hm r) (hfit r) p fun d hd => ?_
      have hp0 := hp 0 (by omega)
      have hp1 := hp 1 (by omega)
      simp only [glo, ghi, if_pos, if_neg one_ne_zero] at hp0 hp1
      have hA : localElem view (0 : Fin 2) .quad (12, elemA) ∈ known view (mesh r) r (out r) := by rcases hE r with h | h <;> rw [h] <;> simp
      have hB : localElem view (1 : Fin 2) .quad (13, elemB) ∈ known view (mesh r) r (out r) := by rcases hE r with h | h <;> rw [h] <;> simp
      refine ⟨⟨_, List.mem_map_of_mem hA, ?_⟩, _, List.mem_map_of_mem hB, ?_⟩ <;> interval_cases d <;>
        simp [localElem, view, elemA, elemB, base_A, base_B] <;> linarith) geoms hgne hgs hgr (by
      intro r id
      fin_cases r <;> simp [geoms, elementsOf, mesh, eq_comm]) tr htr (npoints := 3) (a := [0, 1 / 2]) (e := [4, 3 / 2]) (by simp) (by simp) (by omega) (b := fun r => min 3 (2 * r)) (by simp)
    (by intro r hr; omega) (by simp) (by
      intro i hi p hp d hd
      have := hp.1 d hd
      interval_cases d <;> interval_cases i <;> norm_num [glo, ghi] at this ⊢ <;> rw [this] <;> norm_num)
    (fun k => [0, 2, 1, 0, 2].getD k 0) (by
      intro k
      rcases Nat.lt_or_ge k 5 with h | h
      · interval_cases k <;> decide
      · rw [List.getD_eq_getElem?_getD, List.getElem?_eq_none (by simpa using h)]; decide) [4, 1] 1 [2] (by rfl) other (fun r => List.replicate (tr r).mapToNektar.length []) (fun r => by simp)
  refine ⟨_, P, h1, ?_, by rw [h4.length_eq, h3], samples, G', h5, ?_⟩
  · intro r
    have := h2 r
    rw [show (5 * (1 / 1000 + 1 / 1000) : ℚ) = 1 / 100 by norm_num] at this
    exact this
  · have e : ∀ r, (G' r).flatten.length = (new r).length := fun r => by
      have := congrArg Multiset.card (h6 r).2
      simpa using this
    simp only [e]
    simpa [C90.all] using h7

end Verif.Props.C108.Example
