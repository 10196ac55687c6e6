import Verif.Props.C109_LineField
import Verif.Props.C91_Mesh

/-!
C109 for the boxes that the meshes of C90 and C91 cover, and an example on two ranks.
-/

namespace Verif.Props.C109
open Verif.Model Verif.Model.LineField Verif.Model.ParallelStep Verif.Model.ParallelPic Verif.Spec.PicLoop Verif.Spec.ParallelPic
open Verif.Props.C55 (Assignment)
open Verif.Props.C90 (Dom Settled all)
open Verif.Props.C91 (WorldOk SingleValued)

/-- The midpoints of the boxes are in the domain. -/
theorem midpoint_dom {K : Type} [Field K] [LinearOrder K] [IsStrictOrderedRing K] {glo ghi : ℕ → K} (hlt : ∀ d < 2, glo d < ghi d) {nx ny : ℤ} (i j : ℤ) (p : ℕ → K)
    (hi : 0 ≤ i) (hi' : i < nx) (hj : 0 ≤ j) (hj' : j < ny) (hp : Midpoint glo (fun d => ghi d - glo d) nx ny i j p) : Dom 2 glo ghi p := by
  have key : ∀ (k m : ℤ) (a b : K), 0 ≤ k → k < m → a < b → a ≤ a + ((k : K) + 1 / 2) / (m : K) * (b - a) ∧ a + ((k : K) + 1 / 2) / (m : K) * (b - a) < b := by
    intro k m a b hk hm hab
    have hk' : (0 : K) ≤ k := by exact_mod_cast hk
    have hm' : (k : K) + 1 ≤ m := by exact_mod_cast hm
    have hm0 : (0 : K) < m := by linarith
    have hba : 0 < b - a := by linarith
    have h1 : 0 ≤ ((k : K) + 1 / 2) / (m : K) := by positivity
    have h2 : ((k : K) + 1 / 2) / (m : K) < 1 := by rw [div_lt_one hm0]; linarith
    constructor
    · nlinarith [mul_nonneg h1 hba.le]
    · nlinarith [mul_pos (sub_pos.2 h2) hba]
  intro d hd
  match d with
  | 0 => rw [hp.1]; exact key i nx _ _ hi hi' (hlt 0 (by omega))
  | 1 => rw [hp.2.1]; exact key j ny _ _ hj hj' (hlt 1 (by omega))

/-- **C109, boxes.** On a mesh that covers a box (C91), with the grid of the whole box as in the solvers: the file is as required for all sizes of the grid and all calls. -/
theorem line_box {K : Type} [Field K] [LinearOrder K] [IsStrictOrderedRing K] {n : ℕ} {J U : Type} {glo ghi : ℕ → K} (hlt : ∀ d < 2, glo d < ghi d) {inside : (ℕ → K) → Set (Assignment K)} {W : World n K}
    (hW : WorldOk (Dom 2 glo ghi) inside W) (E : Elements K J U) (mean : U → K) {nx ny : ℤ} (hx : 0 ≤ nx) (hy : 0 ≤ ny) (hfit : nx * ny < 2147483648) (derivative meanShift : Bool) :
    ∃ L A, construct W glo (fun d => ghi d - glo d) nx ny derivative meanShift = some L ∧ IsGrid glo (fun d => ghi d - glo d) nx ny (A.map Prod.fst) ∧ (∀ x ∈ A, x.2 ∈ inside x.1.2) ∧
      ∀ calls : List (ℤ × U), FileOk E mean derivative meanShift A calls (writes W E mean L calls).file :=
  line_file hW E mean hx hy hfit (fun i j p => midpoint_dom hlt i j p) derivative meanShift

/-- With both the derivatives and the shift by the mean (no solver uses this), only the first derivative is shifted, and by the mean of the field, not of the derivative. On the box from 0 to 4 (in x) the field x has mean 2;
all records have the derivatives -1 and 0 instead of 1 and 0 (or 0 and 0). -/
theorem derivative_mean_shift {n : ℕ} {inside : (ℕ → ℚ) → Set (Assignment ℚ)} {W : World n ℚ} (hW : WorldOk (Dom 2 C90.Example.glo C90.Example.ghi) inside W) :
    ∃ L f, construct W C90.Example.glo (fun d => C90.Example.ghi d - C90.Example.glo d) 3 2 true true = some L ∧
      (write W C91.Example.linear (fun u => u 0 + u 1 * 2 + u 2 * 1) L (-1) ![0, 1, 0]).file = [f] ∧ (∃ x, x ∈ all f.records) ∧ ∀ x ∈ all f.records, x.eval = [-1, 0] := by
  have hlt : ∀ d < 2, C90.Example.glo d < C90.Example.ghi d := by intro d hd; interval_cases d <;> norm_num [C90.Example.glo, C90.Example.ghi]
  obtain ⟨L, A, e, hG, -, hF⟩ := line_box hlt hW C91.Example.linear (fun u => u 0 + u 1 * 2 + u 2 * 1) (nx := 3) (ny := 2) (by decide) (by decide) (by decide) true true
  obtain ⟨-, h1, h2⟩ := hF [(-1, ![0, 1, 0])]
  obtain ⟨f, hf⟩ := List.length_eq_one_iff.1 h1
  refine ⟨L, f, e, hf, ?_⟩
  have h3 := h2 0 (by decide) (by rw [h1]; decide)
  simp only [hf, List.getElem_cons_zero] at h3
  rw [h3]
  constructor
  · obtain ⟨x, hx, -⟩ := Multiset.mem_map.1 ((hG.2 0 0 (gridPoint C90.Example.glo (fun d => C90.Example.ghi d - C90.Example.glo d) 3 2 0 0)).2 ⟨le_rfl, by decide, le_rfl, by decide, gridPoint_midpoint ..⟩)
    exact ⟨_, Multiset.mem_map_of_mem _ hx⟩
  · intro x hx
    obtain ⟨y, -, rfl⟩ := Multiset.mem_map.1 hx
    simp [expected, C91.Example.linear]
    norm_num

namespace Example
open Verif.Props.C90.Example Verif.Props.C91.Example Verif.Model.HaloExchange Verif.Model.Mpi Verif.Lemmas.Mpi Verif.Model.MeshHierarchy Verif.Model.PackedGeom2D

/-- Two ranks, a grid of three times two boxes, the fields 5 and x + 10 y with three calls, the first two without a number: for every execution of the construction of the halos the file has the steps 0, 1 and 7, and
the record of box (2, 1) in step 1 has the value 10/3 + 15 less the mean. -/
example (w : Fin 2 → ℤ) {S : Sys 2 Msg (List Remote × List Remote)} (hS : Reachable (Sys.init (fun r => halos2d mh (fun c => c) (mesh r) r) w) S)
    (out : Fin 2 → List Remote × List Remote) (hout : ∀ r, S.prog r = .done (out r)) (mean : (Fin 3 → ℚ) → ℚ) :
    ∃ (R : Fin 2 → Rank ℚ) (L : Line 2 ℚ), solverLine ⟨C90.wrapAll 2 glo ghi, ownerOf mh fun c => c, R⟩ glo (fun d => ghi d - glo d) 3 2 false = some L ∧
      let file := (writes ⟨C90.wrapAll 2 glo ghi, ownerOf mh fun c => c, R⟩ linear mean L [(-1, ![5, 0, 0]), (-1, ![0, 1, 10]), (7, ![0, 1, 10])]).file
      file.map Frame.step = [0, 1, 7] ∧ ∃ f p, file[1]? = some f ∧ (⟨(2, 1), p, [10 / 3 + 15 - mean ![0, 1, 10]]⟩ : Record ℚ) ∈ all f.records := by
  obtain ⟨R, hW⟩ := two_ranks w hS out hout
  obtain ⟨L, G, e, hG, hF⟩ := line_values hW linear mean (linear_single _ xy) (nx := 3) (ny := 2) (by decide) (by decide) (by decide)
    (fun i j p => midpoint_dom (by intro d hd; interval_cases d <;> norm_num [glo, ghi]) i j p) false
  refine ⟨R, L, e, ?_⟩
  intro file
  obtain ⟨⟨h1, h2⟩, h3, h4⟩ := hF [(-1, ![5, 0, 0]), (-1, ![0, 1, 10]), (7, ![0, 1, 10])]
  change (file.map Frame.step).length = _ at h1
  change file.length = 3 at h3
  have k0 := (h2 0 (by decide) (by rw [h1]; decide)).2 (by decide)
  have k1 := (h2 1 (by decide) (by rw [h1]; decide)).2 (by decide)
  have k2 := (h2 2 (by decide) (by rw [h1]; decide)).1 (by decide)
  change (file.map Frame.step)[0]'_ = 0 at k0
  change (file.map Frame.step)[1]'_ = (file.map Frame.step)[0]'_ + 1 at k1
  change (file.map Frame.step)[2]'_ = 7 at k2
  constructor
  · refine List.ext_getElem (by rw [h1]; rfl) fun k hk hk' => ?_
    have : k < 3 := hk'
    interval_cases k
    · exact k0
    · rw [k1, k0]; rfl
    · exact k2
  · have q := h4 1 (by decide) (by show 1 < file.length; omega)
    refine ⟨file[1], fun d => if d = 0 then 10 / 3 else if d = 1 then 3 / 2 else 0, List.getElem?_eq_getElem (by omega), ?_⟩
    change all file[1].records = _ at q
    rw [q]
    refine Multiset.mem_map.2 ⟨((2, 1), fun d => if d = 0 then 10 / 3 else if d = 1 then 3 / 2 else 0), (hG.2 2 1 _).2 ⟨by decide, by decide, by decide, by decide, ?_⟩, ?_⟩
    · refine ⟨by norm_num [glo, ghi], by norm_num [glo, ghi], fun d hd => ?_⟩
      dsimp only
      rw [if_neg (by omega), if_neg (by omega)]
    · simp
      norm_num

end Example

end Verif.Props.C109
