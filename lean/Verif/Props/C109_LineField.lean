import Verif.Lemmas.LineInit
import Verif.Model.LineField
import Verif.Props.C91_ParallelPic

/-!
# C109: the potential on a grid of probes

Both electrostatic solvers write the potential and its derivatives at the midpoints of a grid of `nx` times `ny` boxes. Users rely on every point of the grid being in each step of the file exactly once, on any number
of ranks, with its index and the value of the field of that step at the point, and on the steps being numbered by the time step.
-/

namespace Verif.Props.C109
open Verif.Model Verif.Model.LineField Verif.Model.ParallelStep Verif.Model.ParallelPic Verif.Model.LineInit Verif.Model.MapChain Verif.Model.CoarseLookup Verif.Lemmas.LineInit Verif.Spec.PicLoop Verif.Spec.ParallelPic
open Verif.Props.C55 (Assignment)
open Verif.Props.C90 (RankOk Settled all map_all particles_eq)
open Verif.Props.C91 (WorldOk Half.Ok SingleValued)

variable {n : ℕ} {K : Type} [Field K] {J U : Type}

/-! ### Specification -/

/-- The midpoint of box `(i, j)` of the grid. -/
def Midpoint (origin extent : ℕ → K) (nx ny i j : ℤ) (p : ℕ → K) : Prop :=
  p 0 = origin 0 + ((i : K) + 1 / 2) / (nx : K) * extent 0 ∧ p 1 = origin 1 + ((j : K) + 1 / 2) / (ny : K) * extent 1 ∧ ∀ d, 2 ≤ d → p d = 0

/-- The indices and positions of the grid: every index once, with the midpoint of its box. -/
def IsGrid (origin extent : ℕ → K) (nx ny : ℤ) (M : Multiset ((ℤ × ℤ) × (ℕ → K))) : Prop :=
  (M.map Prod.fst).Nodup ∧ ∀ i j p, ((i, j), p) ∈ M ↔ 0 ≤ i ∧ i < nx ∧ 0 ≤ j ∧ j < ny ∧ Midpoint origin extent nx ny i j p

/-- What the file has to contain for a point in the element and at the reference position of `a`: the value or the derivatives; the mean of the field is subtracted from the first component if this is enabled. -/
def expected (E : Elements K J U) (mean : U → K) (derivative meanShift : Bool) (u : U) (a : Assignment K) : List K :=
  let m := if meanShift then mean u else 0
  if derivative then [(E.gradient u a.cell a.ref).1 - m, (E.gradient u a.cell a.ref).2] else [E.value u a.cell a.ref - m]

/-- The numbers of the steps for the arguments of the calls of `write`: the argument if it is not negative, else the number after that of the previous step, which is zero for the first call. -/
def Numbered (args numbers : List ℤ) : Prop :=
  numbers.length = args.length ∧ ∀ (k : ℕ) (h : k < args.length) (h' : k < numbers.length),
    (0 ≤ args[k] → numbers[k] = args[k]) ∧ (args[k] < 0 → numbers[k] = if hk : k = 0 then 0 else numbers[k - 1]'(by omega) + 1)

/-- The file for the calls: its steps are numbered as above, and step `k` has one record for each point of the grid, with its index, its position and the value of field `k` there. `A` are the points with the
elements that are used for them, the same in all steps. -/
def FileOk (E : Elements K J U) (mean : U → K) (derivative meanShift : Bool) (A : Multiset (((ℤ × ℤ) × (ℕ → K)) × Assignment K)) (calls : List (ℤ × U)) (file : List (Frame n K)) : Prop :=
  Numbered (calls.map Prod.fst) (file.map Frame.step) ∧ file.length = calls.length ∧
  ∀ (k : ℕ) (h : k < calls.length) (h' : k < file.length), all file[k].records = A.map fun x => ⟨x.1.1, x.1.2, expected E mean derivative meanShift calls[k].2 x.2⟩

/-! ### The constructor -/

theorem gridPoint_midpoint (origin extent : ℕ → K) (nx ny : ℤ) (i j : ℕ) : Midpoint origin extent nx ny i j (gridPoint origin extent nx ny i j) := by
  refine ⟨?_, ?_, fun d hd => ?_⟩
  · simp only [gridPoint, if_pos]
    push_cast
    ring
  · simp only [gridPoint, if_pos, if_neg one_ne_zero]
    push_cast
    ring
  · unfold gridPoint
    dsimp only
    rw [if_neg (by omega), if_neg (by omega)]

theorem midpoint_unique {origin extent : ℕ → K} {nx ny i j : ℤ} {p q : ℕ → K} (hp : Midpoint origin extent nx ny i j p) (hq : Midpoint origin extent nx ny i j q) : p = q := by
  funext d
  match d with
  | 0 => rw [hp.1, hq.1]
  | 1 => rw [hp.2.1, hq.2.1]
  | d + 2 => rw [hp.2.2 _ (by omega), hq.2.2 _ (by omega)]

/-- The indices and positions of the probes. -/
def key (a : Probe K × (ℕ → K)) : (ℤ × ℤ) × (ℕ → K) := ((a.1.i, a.1.j), a.2)

theorem probes_grid (origin extent : ℕ → K) (derivative : Bool) (nx ny : ℤ) :
    IsGrid origin extent nx ny ((probes origin extent derivative nx ny).map fun a => key (a.1, a.2.pos) : List _) := by
  constructor
  · rw [Multiset.map_coe, Multiset.coe_nodup]
    unfold probes
    rw [List.map_map, List.map_flatMap]
    simp only [List.map_map, Function.comp_def, key]
    refine List.nodup_flatMap.2 ⟨fun i _ => ?_, ?_⟩
    · refine List.Nodup.map (fun a b h => by simpa using h) List.nodup_range
    · refine List.nodup_range.imp fun {a b} hab => ?_
      rw [Function.onFun, List.disjoint_left]
      intro x hx hx'
      obtain ⟨_, -, rfl⟩ := List.mem_map.1 hx
      obtain ⟨_, -, e⟩ := List.mem_map.1 hx'
      simp only [Prod.mk.injEq, Nat.cast_inj] at e
      exact hab e.1.symm
  · intro i j p
    rw [Multiset.mem_coe]
    simp only [probes, List.map_flatMap, List.mem_flatMap, List.mem_map, List.mem_range, key, Prod.mk.injEq, exists_exists_and_eq_and, Function.comp]
    constructor
    · rintro ⟨a, ha, b, hb, ⟨rfl, rfl⟩, rfl⟩
      exact ⟨by omega, by omega, by omega, by omega, gridPoint_midpoint ..⟩
    · rintro ⟨h1, h2, h3, h4, h5⟩
      obtain ⟨a, rfl⟩ := Int.eq_ofNat_of_zero_le h1
      obtain ⟨b, rfl⟩ := Int.eq_ofNat_of_zero_le h3
      exact ⟨a, by omega, b, by omega, ⟨rfl, rfl⟩, midpoint_unique (gridPoint_midpoint ..) h5⟩

/-- Without a boundary condition the transfer is correct for particles of the domain. -/
theorem transfer_id {T : Type} {dom : (ℕ → K) → Prop} {inside : (ℕ → K) → Set (Assignment K)} {W : World n K} (hW : WorldOk dom inside W) (S0 : State n T K) (hne : ∀ r, S0 r ≠ [])
    (hdom : ∀ a ∈ particles S0, dom a.2) : ∃ S, transfer id W.target W.ranks S0 = some S ∧ particles S = particles S0 ∧ Settled dom inside W.ranks S := by
  classical
  set bd : (ℕ → K) → (ℕ → K) := fun p => if dom p then p else W.boundary p with hbd
  have hbdom : ∀ p, dom (bd p) := by
    intro p
    simp only [hbd]
    split_ifs with h
    · exact h
    · exact hW.boundary p
  have hin : ∀ r, ∀ c ∈ S0 r, ∀ x ∈ c, dom x.2.pos := by
    intro r c hc x hx
    refine hdom (x.1, x.2.pos) ?_
    unfold particles
    rw [Multiset.mem_coe]
    exact List.mem_map.2 ⟨x, List.mem_flatMap.2 ⟨r, List.mem_finRange r, List.mem_flatten.2 ⟨c, hc, hx⟩⟩, rfl⟩
  have htr : transfer id W.target W.ranks S0 = transfer bd W.target W.ranks S0 := by
    have : (fun r => particleLoop (fun a : T × Particle K => (a.1, { a.2 with pos := id a.2.pos })) (S0 r)) = fun r => particleLoop (fun a : T × Particle K => (a.1, { a.2 with pos := bd a.2.pos })) (S0 r) := by
      funext r
      unfold particleLoop
      refine List.map_congr_left fun c hc => List.map_congr_left fun x hx => ?_
      simp only [id, hbd, if_pos (hin r c hc x hx)]
    unfold transfer
    rw [this]
  obtain ⟨S, e, h1, h2⟩ := C90.transfer_correct hbdom hW.owned hW.ranks hW.mapped S0 hne
  refine ⟨S, by rw [htr, e], ?_, h2⟩
  rw [h1]
  refine (Multiset.map_congr rfl fun x hx => ?_).trans (Multiset.map_id _)
  simp only [hbd, if_pos (hdom x hx), id]

/-- The probes of all ranks with the elements of their cells. -/
def located (W : World n K) (S : State n (Probe K) K) : Multiset ((Probe K × (ℕ → K)) × Assignment K) :=
  all fun r => ((S r).mapIdx fun i c => c.map fun a => (((a.1, a.2.pos), ⟨(r.val : ℤ), gid (W.ranks r) i, a.2.ref⟩) : (Probe K × (ℕ → K)) × Assignment K)).flatten

theorem located_particles (W : World n K) (S : State n (Probe K) K) : (located W S).map Prod.fst = particles S := by
  rw [particles_eq, located, map_all, map_all]
  congr 1
  funext r
  rw [List.map_flatten, C91.map_mapIdx, List.map_flatten]
  congr 1
  simp only [List.map_map, Function.comp_def]
  exact C91.mapIdx_const _ _

theorem located_inside {dom : (ℕ → K) → Prop} {inside : (ℕ → K) → Set (Assignment K)} {W : World n K} {S : State n (Probe K) K} (h : Settled dom inside W.ranks S) :
    ∀ x ∈ located W S, x.2 ∈ inside x.1.2 := by
  intro x hx
  rw [located, all, Multiset.mem_sum] at hx
  obtain ⟨r, -, hx⟩ := hx
  rw [Multiset.mem_coe, List.mem_flatten] at hx
  obtain ⟨l, hl, hx⟩ := hx
  rw [List.mem_mapIdx] at hl
  obtain ⟨i, hi, rfl⟩ := hl
  rw [List.mem_map] at hx
  obtain ⟨a, ha, rfl⟩ := hx
  obtain ⟨-, -, -, g, hg, hin⟩ := (h r).2 i hi a ha
  have : gid (W.ranks r) i = g := by rw [gid, List.getD_eq_getElem?_getD, hg, Option.getD_some]
  dsimp only
  rw [this]
  exact hin

/-- The grid points with the elements of their cells. -/
def places (W : World n K) (S : State n (Probe K) K) : Multiset (((ℤ × ℤ) × (ℕ → K)) × Assignment K) := (located W S).map fun x => (key x.1, x.2)

/-! ### One step -/

/-- What one call leaves on the probes. -/
theorem after_write (W : World n K) (E : Elements K J U) (mean : U → K) (L : Line n K) (stepIn : ℤ) (u : U) :
    places W (write W E mean L stepIn u).group = places W L.group ∧
    all (records (write W E mean L stepIn u).group) = (places W L.group).map fun x => ⟨x.1.1, x.1.2, expected E mean L.derivative L.meanShift u x.2⟩ := by
  have hgroup : (write W E mean L stepIn u).group = fun r => (L.group r).mapIdx fun i c => c.map fun a =>
      ({ a.1 with eval := expected E mean L.derivative L.meanShift u ⟨(r.val : ℤ), gid (W.ranks r) i, a.2.ref⟩ }, a.2) := by
    funext r
    unfold write evaluate shift particleLoop expected
    cases L.meanShift <;> cases L.derivative <;> simp only [Bool.false_eq_true, if_true, if_false, sub_zero]
    all_goals
      rw [C91.map_mapIdx]
      congr 1
      funext i c
      rw [List.map_map]
      rfl
  rw [hgroup]
  unfold places located records
  constructor
  · rw [map_all, map_all]
    congr 1
    funext r
    rw [List.map_flatten, List.map_flatten, C91.map_mapIdx, C91.map_mapIdx, List.mapIdx_mapIdx]
    congr 2
    funext i c
    simp only [Function.comp, List.map_map]
    rfl
  · rw [map_all, map_all]
    congr 1
    funext r
    rw [List.map_flatten, List.map_flatten, List.map_flatten, C91.map_mapIdx, C91.map_mapIdx, C91.map_mapIdx]
    congr 2
    funext i c
    simp only [Function.comp, List.map_map]
    rfl

/-! ### All steps -/

theorem writes_snoc (W : World n K) (E : Elements K J U) (mean : U → K) (L : Line n K) (calls : List (ℤ × U)) (c : ℤ × U) :
    writes W E mean L (calls ++ [c]) = write W E mean (writes W E mean L calls) c.1 c.2 := by
  unfold writes
  rw [List.foldl_append]
  rfl

/-- What holds after some calls of a new object. -/
structure Inv (W : World n K) (E : Elements K J U) (mean : U → K) (derivative meanShift : Bool) (S : State n (Probe K) K) (calls : List (ℤ × U)) (L : Line n K) : Prop where
  hderivative : L.derivative = derivative
  hmeanShift : L.meanShift = meanShift
  hplaces : places W L.group = places W S
  hstep : L.step = if h : L.file = [] then 0 else (L.file.getLast h).step + 1
  hfile : FileOk E mean derivative meanShift (places W S) calls L.file

theorem inv_writes (W : World n K) (E : Elements K J U) (mean : U → K) (derivative meanShift : Bool) (S : State n (Probe K) K) (calls : List (ℤ × U)) :
    Inv W E mean derivative meanShift S calls (writes W E mean ⟨0, derivative, meanShift, S, []⟩ calls) := by
  induction calls using List.reverseRecOn with
  | nil => exact ⟨rfl, rfl, rfl, rfl, ⟨rfl, fun k h => absurd h (by simp)⟩, rfl, fun k h => absurd h (by simp)⟩
  | append_singleton calls c ih =>
    rw [writes_snoc]
    generalize writes W E mean ⟨0, derivative, meanShift, S, []⟩ calls = L at ih ⊢
    obtain ⟨h1, h2, h3, h4, ⟨hl, hnum⟩, h5, h6⟩ := ih
    obtain ⟨a1, a2⟩ := after_write W E mean L c.1 c.2
    set step := if c.1 > -1 then c.1 else L.step with hstep
    have hfile : (write W E mean L c.1 c.2).file = L.file ++ [⟨step, records (write W E mean L c.1 c.2).group⟩] := rfl
    simp only [List.length_map] at hl hnum
    refine ⟨h1, h2, a1.trans h3, ?_, ⟨?_, ?_⟩, ?_, ?_⟩
    · rw [dif_neg (by rw [hfile]; simp)]
      simp only [hfile, List.getLast_append_singleton]
      rfl
    · rw [hfile]; simp [hl]
    · intro k hk hk'
      simp only [hfile, List.map_append, List.map_cons, List.map_nil] at hk hk' ⊢
      simp only [List.length_append, List.length_map, List.length_singleton] at hk hk'
      rcases Nat.lt_or_ge k calls.length with hlt | hge
      · have := hnum k hlt (by omega)
        rw [List.getElem_append_left (by simpa using hlt), List.getElem_append_left (by simpa using (by omega : k < L.file.length))]
        refine ⟨this.1, fun hn => ?_⟩
        rw [this.2 hn]
        by_cases hk0 : k = 0
        · rw [dif_pos hk0, dif_pos hk0]
        · rw [dif_neg hk0, dif_neg hk0, List.getElem_append_left (by simp; omega)]
      · have hkc : k = calls.length := by omega
        subst hkc
        rw [List.getElem_append_right (by simp), List.getElem_append_right (by simp; omega)]
        simp only [List.length_map, h5, Nat.sub_self, List.getElem_cons_zero]
        refine ⟨fun hc => ?_, fun hc => ?_⟩
        · rw [hstep, if_pos (by omega)]
        · have hs : step = L.step := by rw [hstep, if_neg (by omega)]
          refine (hs.trans h4).trans ?_
          by_cases hk0 : calls.length = 0
          · rw [dif_pos hk0, dif_pos (List.eq_nil_of_length_eq_zero (by omega))]
          · have hne : L.file ≠ [] := fun h => by rw [h] at h5; simp at h5; omega
            rw [dif_neg hk0, dif_neg hne, List.getElem_append_left (by simp; omega), List.getElem_map, List.getLast_eq_getElem]
            simp only [h5]
    · rw [hfile]; simp [h5]
    · intro k hk hk'
      simp only [hfile] at hk' ⊢
      simp only [List.length_append, List.length_singleton] at hk hk'
      rcases Nat.lt_or_ge k calls.length with hlt | hge
      · rw [List.getElem_append_left (by omega)]
        simp only [List.getElem_append_left hlt]
        exact h6 k hlt (by omega)
      · have hkc : k = calls.length := by omega
        subst hkc
        rw [List.getElem_append_right (by omega)]
        simp only [h5, Nat.sub_self, List.getElem_cons_zero, List.getElem_append_right le_rfl]
        rw [a2, h3, h1, h2]

/-! ### The theorems -/

/-- **C109, memory.** A probe is created with a component for each value that an evaluation writes. -/
theorem components_fit (W : World n K) (E : Elements K J U) (derivative : Bool) (u : U) (origin extent : ℕ → K) (nx ny : ℤ) (S : State n (Probe K) K) :
    ∀ a ∈ probes origin extent derivative nx ny, ∀ r, ∀ c ∈ evaluate W E derivative u S r, ∀ b ∈ c, b.1.eval.length = a.1.eval.length := by
  intro a ha r c hc b hb
  simp only [probes, List.mem_flatMap, List.mem_map] at ha
  obtain ⟨_, _, _, _, rfl⟩ := ha
  simp only [evaluate, List.mem_mapIdx] at hc
  obtain ⟨i, _, rfl⟩ := hc
  obtain ⟨b0, _, rfl⟩ := List.mem_map.1 hb
  cases derivative <;> simp [ncomp]

section main
variable {dom : (ℕ → K) → Prop} {inside : (ℕ → K) → Set (Assignment K)} {W : World n K} (hW : WorldOk dom inside W) (E : Elements K J U) (mean : U → K)
include hW

/-- **C109, the file.** The constructor completes on all ranks if the midpoints of the boxes are in the domain. After any calls of `write`, the steps of the file are numbered as the arguments say, and each step has one
record for each box of the grid, with its index, its midpoint and the value (or the derivatives) of the field at the time of the call, in an element that contains the midpoint; this element is the same in all steps. -/
theorem line_file {origin extent : ℕ → K} {nx ny : ℤ} (hx : 0 ≤ nx) (hy : 0 ≤ ny) (hfit : nx * ny < 2147483648)
    (hdom : ∀ i j p, 0 ≤ i → i < nx → 0 ≤ j → j < ny → Midpoint origin extent nx ny i j p → dom p) (derivative meanShift : Bool) :
    ∃ L A, LineField.construct W origin extent nx ny derivative meanShift = some L ∧ IsGrid origin extent nx ny (A.map Prod.fst) ∧ (∀ x ∈ A, x.2 ∈ inside x.1.2) ∧
      ∀ calls : List (ℤ × U), FileOk E mean derivative meanShift A calls (writes W E mean L calls).file := by
  obtain ⟨s0, -⟩ := hW.owned _ (hW.boundary 0)
  have hn : 0 < n := s0.pos
  have hp := probes_grid origin extent derivative nx ny
  obtain ⟨S0, e0, h0⟩ := C90.forRanks_some (f := fun r : Fin n => addLocal (List.replicate (W.ranks r).translation.mapToNektar.length []) (if r.val = 0 then probes origin extent derivative nx ny else []))
    (P := fun r g => g ≠ [] ∧ (g.flatten : Multiset (Probe K × Particle K)) = ((if r.val = 0 then probes origin extent derivative nx ny else [] : List _) : Multiset (Probe K × Particle K)))
    (fun r => by
      have hm := List.length_pos_of_ne_nil (hW.cells r)
      obtain ⟨g, e, e1, e2, -⟩ := addLocal_spec (List.replicate (W.ranks r).translation.mapToNektar.length []) (if r.val = 0 then probes origin extent derivative nx ny else []) (fun a ha => by
        have : a.2.cell = 0 := by
          split_ifs at ha with h
          · obtain ⟨_, _, ha⟩ := List.mem_flatMap.1 ha
            obtain ⟨_, _, rfl⟩ := List.mem_map.1 ha
            rfl
          · simp at ha
        rw [this]
        simpa using hm)
      refine ⟨g, e, fun hg => ?_, by simpa using e2⟩
      rw [hg] at e1
      simp at e1
      omega)
  have hS0 : (particles S0).map key = ((probes origin extent derivative nx ny).map fun a => key (a.1, a.2.pos) : List _) := by
    rw [particles_eq, all, Multiset.map_map]
    have : ∑ r, ((S0 r).flatten : Multiset (Probe K × Particle K)) = (probes origin extent derivative nx ny : Multiset (Probe K × Particle K)) := by
      rw [Finset.sum_eq_single (⟨0, hn⟩ : Fin n)]
      · rw [(h0 _).2.2, if_pos rfl]
      · intro r _ hr
        rw [(h0 r).2.2, if_neg fun h => hr (Fin.ext h)]
        rfl
      · intro h; exact absurd (Finset.mem_univ _) h
    rw [this, Multiset.map_coe]
    rfl
  obtain ⟨S, eS, hS, hset⟩ := transfer_id hW S0 (fun r => (h0 r).2.1) (fun a ha => by
    have : key a ∈ (particles S0).map key := Multiset.mem_map_of_mem _ ha
    rw [hS0] at this
    obtain ⟨q1, q2, q3, q4, q5⟩ := (hp.2 a.1.i a.1.j a.2).1 this
    exact hdom _ _ _ q1 q2 q3 q4 q5)
  refine ⟨⟨0, derivative, meanShift, S, []⟩, places W S, ?_, ?_, ?_, fun calls => (inv_writes W E mean derivative meanShift S calls).hfile⟩
  · unfold LineField.construct
    rw [if_pos ⟨hx, hy, hfit⟩, e0, Option.bind_some, eS]
    rfl
  · have : (places W S).map Prod.fst = ((located W S).map Prod.fst).map key := by
      unfold places
      rw [Multiset.map_map, Multiset.map_map]
      rfl
    rw [this, located_particles, hS, hS0]
    exact hp
  · intro x hx
    obtain ⟨y, hy, rfl⟩ := Multiset.mem_map.1 hx
    exact located_inside hset y hy

/-- If the field has one value at each position then the records do not depend on the elements, hence not on the ranks. -/
theorem line_values {basis : (ℕ → K) → J → K} {value : U → (ℕ → K) → K} {gradient : U → (ℕ → K) → K × K} (hc : SingleValued inside E basis value gradient)
    {origin extent : ℕ → K} {nx ny : ℤ} (hx : 0 ≤ nx) (hy : 0 ≤ ny) (hfit : nx * ny < 2147483648)
    (hdom : ∀ i j p, 0 ≤ i → i < nx → 0 ≤ j → j < ny → Midpoint origin extent nx ny i j p → dom p) (deriv : Bool) :
    ∃ L G, solverLine W origin extent nx ny deriv = some L ∧ IsGrid origin extent nx ny G ∧ ∀ calls : List (ℤ × U),
      Numbered (calls.map Prod.fst) ((writes W E mean L calls).file.map Frame.step) ∧ (writes W E mean L calls).file.length = calls.length ∧
      ∀ (k : ℕ) (h : k < calls.length) (h' : k < (writes W E mean L calls).file.length), all (writes W E mean L calls).file[k].records =
        G.map fun x => ⟨x.1, x.2, if deriv then [(gradient calls[k].2 x.2).1, (gradient calls[k].2 x.2).2] else [value calls[k].2 x.2 - mean calls[k].2]⟩ := by
  obtain ⟨L, A, e, hG, hA, hF⟩ := line_file hW E mean hx hy hfit hdom deriv (!deriv)
  refine ⟨L, A.map Prod.fst, e, hG, fun calls => ⟨(hF calls).1, (hF calls).2.1, fun k h h' => ?_⟩⟩
  rw [(hF calls).2.2 k h h', Multiset.map_map]
  refine Multiset.map_congr rfl fun x hx => ?_
  have ha := hA x hx
  cases deriv
  · simp [expected, hc.value _ _ _ ha]
  · simp [expected, hc.gradient _ _ _ ha]

/-- **C109, the solvers.** On any number of ranks the run of both solvers calls `write` of both objects exactly at the time steps that are multiples of a positive period, with the potential of that time step; so these are
the steps of the two files, in order, and their records are the values less the mean, or the derivatives, of this potential. -/
theorem solver_files {I : Integrator K} (h1 : Half.Ok I.first) (h2 : Half.Ok I.second) (solve : (J → K) → U) (fieldEnergy : U → K) (mass : K) (solver : PicLoop.Solver) (c : PicLoop.Config) (garbage : ℤ)
    (S0 : State n (Charged K) K) (hS : Settled dom inside W.ranks S0) (globals : List (String × Option K)) (hk : (globals.map Prod.fst).Nodup) {period : ℤ} (hper : c.lineStep = some period)
    {origin extent : ℕ → K} {nx ny : ℤ} (hx : 0 ≤ nx) (hy : 0 ≤ ny) (hfit : nx * ny < 2147483648)
    (hdom : ∀ i j p, 0 ≤ i → i < nx → 0 ≤ j → j < ny → Midpoint origin extent nx ny i j p → dom p) :
    ∃ (M : ℕ → Multiset (Body K)) (u : ℕ → U), M 0 = particles S0 ∧ (∀ k, TimeStep inside W.boundary I E solve (M k) (u k) (M (k + 1))) ∧
      ∀ deriv, ∃ (L : Line n K) (A : Multiset (((ℤ × ℤ) × (ℕ → K)) × Assignment K)), solverLine W origin extent nx ny deriv = some L ∧ IsGrid origin extent nx ny (A.map Prod.fst) ∧ (∀ x ∈ A, x.2 ∈ inside x.1.2) ∧
        let calls := (PicLoop.run solver (ops W I E solve mean fieldEnergy mass) c garbage (PicLoop.St.init (some S0) none globals)).out.filterMap (C87.selLines deriv)
        calls = (dueSteps period c.numTimeSteps.toNat).map (fun k => (k, some (u k))) ∧
        ((writes W E mean L (calls.filterMap fun c => c.2.map fun u => ((c.1 : ℤ), u))).file.map fun f => (f.step, all f.records)) =
          (dueSteps period c.numTimeSteps.toNat).map fun (k : ℕ) => ((k : ℤ), A.map fun x => ⟨x.1.1, x.1.2, expected E mean deriv (!deriv) (u k) x.2⟩) := by
  obtain ⟨M, u, S, e0, hts, h⟩ := C91.simulation hW h1 h2 E solve mean fieldEnergy mass S0 hS
  refine ⟨M, u, e0, hts, fun deriv => ?_⟩
  obtain ⟨L, A, e, hG, hA, hF⟩ := line_file hW E mean hx hy hfit hdom deriv (!deriv)
  refine ⟨L, A, e, hG, hA, ?_⟩
  intro calls
  have hcalls : calls = (dueSteps period c.numTimeSteps.toNat).map (fun k => (k, some (u k))) := by
    have := C87.line_writes solver (ops W I E solve mean fieldEnergy mass) c garbage (some S0) none globals hk deriv
    rw [hper] at this
    rw [show calls = _ from this]
    exact List.map_congr_left fun k _ => by rw [(h k).1]
  refine ⟨hcalls, ?_⟩
  have hcalls2 : (calls.filterMap fun c => c.2.map fun u => ((c.1 : ℤ), u)) = (dueSteps period c.numTimeSteps.toNat).map fun (k : ℕ) => ((k : ℤ), u k) := by
    rw [hcalls, List.filterMap_map]
    simp [Function.comp_def, List.filterMap_eq_map']
  rw [hcalls2]
  obtain ⟨⟨g1, g2⟩, g3, g4⟩ := hF ((dueSteps period c.numTimeSteps.toNat).map fun (k : ℕ) => ((k : ℤ), u k))
  generalize (writes W E mean L ((dueSteps period c.numTimeSteps.toNat).map fun (k : ℕ) => ((k : ℤ), u k))).file = file at *
  simp only [List.length_map] at g1 g2 g3 g4
  refine List.ext_getElem (by simp [g3]) fun k k1 k2 => ?_
  simp only [List.length_map] at k1 k2
  have q1 := g2 k k2 k1
  have q2 := g4 k k2 k1
  simp only [List.getElem_map] at q1 q2 ⊢
  rw [q2, q1.1 (by positivity)]

end main

end Verif.Props.C109
