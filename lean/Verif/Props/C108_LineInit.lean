import Verif.Lemmas.LineInit
import Verif.Props.C46_Sampling
import Verif.Props.C90_Mappers

/-!
# C108: the points of a source line on several ranks

A source line is a set of equidistant points. Each is stored on the rank that owns it, with its element and its reference position; then particles are created at sampled points. Users rely on every point
being stored exactly once, on every rank creating its particles in the elements that contain them, so that fields can be evaluated there at once, and on the number of particles and the distribution over the points
not depending on the ranks.
-/

namespace Verif.Props.C108
open Verif.Model Verif.Model.LineInit Verif.Model.ParallelStep Verif.Model.MapChain Verif.Model.CoarseLookup Verif.Model.Sampling Verif.Lemmas.LineInit
open Verif.Props.C55 (Assignment)
open Verif.Props.C90 (RankOk Settled Dom GridCovers)

variable {n : ℕ} {K : Type} [Field K] {T : Type}

/-! ### Specification -/

/-- Point `i` of `npoints` points of the line from `lineStart` to `lineEnd`: the start is one of them, the end is not. -/
def LinePoint (ndim npoints : ℕ) (lineStart lineEnd : List K) (i : ℕ) (p : ℕ → K) : Prop :=
  (∀ d < ndim, p d = lineStart.getD d 0 + (i : K) / (npoints : K) * (lineEnd.getD d 0 - lineStart.getD d 0)) ∧ ∀ d, ndim ≤ d → p d = 0

/-- The position of stored point `i`. -/
def position (ndim : ℕ) (pts : Points K) (i : ℕ) : ℕ → K := fun d => if d < ndim then (pts.phys d).getD i 0 else 0

/-- The stored points of a rank are usable: all arrays have an entry for each point; the cell is a cell of the rank, the point is inside of its element, and the reference position is that of the point there. -/
def Usable (ndim : ℕ) (dom : (ℕ → K) → Prop) (inside : (ℕ → K) → Set (Assignment K)) (R : Rank K) (r : Fin n) (pts : Points K) : Prop :=
  pts.cells.length = pts.npointsLocal ∧ (∀ d < ndim, (pts.phys d).length = pts.npointsLocal ∧ (pts.ref d).length = pts.npointsLocal) ∧
  ∀ i < pts.npointsLocal, dom (position ndim pts i) ∧ ∃ (c : ℕ) (gid : ℤ) (ref : List K), pts.cells[i]? = some (c : ℤ) ∧ R.translation.mapToNektar[c]? = some gid ∧
    (∀ d < ndim, (pts.ref d)[i]? = ref[d]?) ∧ ndim ≤ ref.length ∧ (⟨r.val, gid, ref⟩ : Assignment K) ∈ inside (position ndim pts i)

/-- The points of all ranks, rank after rank. -/
def points (ndim : ℕ) (P : Fin n → Points K) : List (ℕ → K) := (List.finRange n).flatMap fun r => (List.range (P r).npointsLocal).map (position ndim (P r))

/-! ### The constructor -/

theorem nodeAt_linePoint (ndim npoints : ℕ) (a b : List K) (i : ℕ) : LinePoint ndim npoints a b i (nodeAt ndim npoints a b i) := by
  unfold LinePoint nodeAt
  refine ⟨fun d hd => ?_, fun d hd => by rw [if_neg (by omega)]⟩
  rw [if_pos hd]
  dsimp only
  ring

theorem linePoint_unique {ndim npoints : ℕ} {a b : List K} {i : ℕ} {p q : ℕ → K} (hp : LinePoint ndim npoints a b i p) (hq : LinePoint ndim npoints a b i q) : p = q := by
  funext d
  rcases lt_or_ge d ndim with h | h
  · rw [hp.1 d h, hq.1 d h]
  · rw [hp.2 d h, hq.2 d h]

/-- The points that are created on the ranks. -/
theorem created_all {ndim npoints : ℕ} {a e : List K} {b : ℕ → ℕ} (h0 : b 0 = 0) (hb : ∀ r < n, b r ≤ b (r + 1)) (hn : b n = npoints) :
    (C90.all fun r : Fin n => (created ndim npoints a e (b r) (b (r + 1))).map fun x => x.2.pos) = ((List.range npoints).map (nodeAt ndim npoints a e) : List (ℕ → K)) := by
  have key : ∀ k ≤ n, (∑ r ∈ Finset.range k, (((created ndim npoints a e (b r) (b (r + 1))).map fun x => x.2.pos : List (ℕ → K)) : Multiset (ℕ → K))) =
      ((List.range (b k)).map (nodeAt ndim npoints a e) : List (ℕ → K)) := by
    intro k
    induction k with
    | zero => intro _; simp [h0]
    | succ k ih =>
      intro hk
      rw [Finset.sum_range_succ, ih (by omega)]
      have hle := hb k (by omega)
      have : List.range (b (k + 1)) = List.range (b k) ++ (List.range (b (k + 1) - b k)).map (b k + ·) := by
        rw [← List.range_add]; congr 1; omega
      rw [this, List.map_append, ← Multiset.coe_add]
      congr 2
      simp [created, Function.comp_def]
  unfold C90.all
  rw [show (List.range npoints) = List.range (b n) by rw [hn], ← key n le_rfl, ← Fin.sum_univ_eq_sum_range (fun r => (((created ndim npoints a e (b r) (b (r + 1))).map fun x => x.2.pos : List (ℕ → K)) : Multiset (ℕ → K))) n]

theorem addLocal_zero (m : ℕ) (hm : 0 < m) (l : List (Unit × Particle K)) (h : ∀ a ∈ l, a.2.cell = 0) : ∃ g, addLocal (List.replicate m []) l = some g ∧ g ≠ [] ∧
    (g.flatten : Multiset (Unit × Particle K)) = (l : Multiset (Unit × Particle K)) := by
  obtain ⟨g, e, e1, e2, -⟩ := addLocal_spec (List.replicate m []) l (fun a ha => by rw [h a ha]; simp; omega)
  refine ⟨g, e, fun hg => ?_, by simpa using e2⟩
  rw [hg] at e1
  simp at e1
  omega

section main
variable {dom : (ℕ → K) → Prop} {target : (ℕ → K) → ℤ} {inside : (ℕ → K) → Set (Assignment K)} {R : Fin n → Rank K}

/-- **C108, the points.** On all ranks the constructor completes if all points are in the domain. Then each point of the line is stored on exactly one rank, exactly once (together the ranks have the points
of the line), and what is stored with it is the cell of an element of this rank that contains the point, and the reference position there. -/
theorem points_distributed (ht : ∀ p, dom p → ∃ s : Fin n, target p = s.val) (hi : ∀ p, ∀ a ∈ inside p, ∃ s : Fin n, a.rank = s.val) (hR : ∀ r, RankOk dom target inside r (R r))
    (hcells : ∀ r, (R r).translation.mapToNektar ≠ []) {ndim npoints : ℕ} (href : ∀ p, ∀ a ∈ inside p, ndim ≤ a.ref.length) {a e : List K} (ha : ndim ≤ a.length) (he : ndim ≤ e.length) (hn : 0 < npoints)
    {b : ℕ → ℕ} (h0 : b 0 = 0) (hb : ∀ r < n, b r ≤ b (r + 1)) (hbn : b n = npoints) (hdom : ∀ i < npoints, ∀ p, LinePoint ndim npoints a e i p → dom p) :
    ∃ P, construct ndim npoints a e b target R = some P ∧ (∀ r, Usable ndim dom inside (R r) r (P r)) ∧
      ∃ nodes : List (ℕ → K), nodes.length = npoints ∧ (∀ i < npoints, ∃ p, nodes[i]? = some p ∧ LinePoint ndim npoints a e i p) ∧ (points ndim P).Perm nodes := by
  have hdom' : ∀ i < npoints, dom (nodeAt ndim npoints a e i) := fun i hi => hdom i hi _ (nodeAt_linePoint ..)
  have hbl : ∀ r < n, b (r + 1) ≤ npoints := by
    have : ∀ k r, r + k = n → b r ≤ npoints := by
      intro k
      induction k with
      | zero => intro r hr; rw [Nat.add_zero] at hr; rw [hr, hbn]
      | succ k ih => intro r hr; exact (hb r (by omega)).trans (ih (r + 1) (by omega))
    exact fun r hr => this (n - (r + 1)) (r + 1) (by omega)
  obtain ⟨S0, e0, h0S⟩ := C90.forRanks_some (f := fun r : Fin n => addLocal (List.replicate (R r).translation.mapToNektar.length []) (created ndim npoints a e (b r) (b (r + 1))))
    (P := fun r g => g ≠ [] ∧ (g.flatten : Multiset (Unit × Particle K)) = (created ndim npoints a e (b r) (b (r + 1)) : Multiset (Unit × Particle K)))
    (fun r => addLocal_zero _ (List.length_pos_of_ne_nil (hcells r)) _ (fun x hx => by
      obtain ⟨_, _, rfl⟩ := List.mem_map.1 hx; rfl))
  -- the boundary condition has no effect on positions of the domain
  classical
  have hq : dom (nodeAt ndim npoints a e 0) := hdom' 0 hn
  set bd : (ℕ → K) → (ℕ → K) := fun p => if dom p then p else nodeAt ndim npoints a e 0 with hbd
  have hbdom : ∀ p, dom (bd p) := by
    intro p
    simp only [hbd]
    split_ifs with h
    · exact h
    · exact hq
  have hin : ∀ r, ∀ c ∈ S0 r, ∀ x ∈ c, dom x.2.pos := by
    intro r c hc x hx
    have hm : x ∈ ((S0 r).flatten : Multiset (Unit × Particle K)) := Multiset.mem_coe.2 (List.mem_flatten.2 ⟨c, hc, hx⟩)
    rw [(h0S r).2.2, Multiset.mem_coe] at hm
    obtain ⟨px, hpx, rfl⟩ := List.mem_map.1 hm
    rw [List.mem_range] at hpx
    have := hbl r r.isLt
    exact hdom' _ (by omega)
  have htr : transfer id target R S0 = transfer bd target R S0 := by
    have : (fun r => particleLoop (fun a : Unit × Particle K => (a.1, { a.2 with pos := id a.2.pos })) (S0 r)) = fun r => particleLoop (fun a : Unit × Particle K => (a.1, { a.2 with pos := bd a.2.pos })) (S0 r) := by
      funext r
      unfold particleLoop
      refine List.map_congr_left fun c hc => List.map_congr_left fun x hx => ?_
      simp only [id, hbd, if_pos (hin r c hc x hx)]
    unfold transfer
    rw [this]
  obtain ⟨S, eS, hS, hset⟩ := C90.transfer_correct hbdom ht hi hR S0 (fun r => (h0S r).2.1)
  obtain ⟨P, eP, hP⟩ := C90.forRanks_some (f := fun r : Fin n => collect ndim (S r)) (P := fun r pts => pts.npointsLocal = (S r).flatten.length ∧ pts.cells = (tagged (S r)).map (fun x => (x.1 : ℤ)) ∧
      (∀ d < ndim, pts.phys d = (tagged (S r)).map (fun x => x.2.2.pos d)) ∧ ∀ d < ndim, pts.ref d = (tagged (S r)).map (fun x => x.2.2.ref.getD d 0))
    (fun r => collect_spec (fun c hc x hx => by
      obtain ⟨i, hi', rfl⟩ := List.getElem_of_mem hc
      obtain ⟨-, -, -, gid, -, hmem⟩ := (hset r).2 i hi' x hx
      exact href _ _ hmem))
  have hpos0 : ∀ r, ∀ x ∈ (S r).flatten, ∃ i < npoints, x.2.pos = nodeAt ndim npoints a e i := by
    intro r x hx
    have : ((), x.2.pos) ∈ particles S := by
      unfold particles
      rw [Multiset.mem_coe]
      refine List.mem_map.2 ⟨x, List.mem_flatMap.2 ⟨r, List.mem_finRange r, hx⟩, rfl⟩
    rw [hS, Multiset.mem_map] at this
    obtain ⟨y, hy, hxy⟩ := this
    unfold particles at hy
    rw [Multiset.mem_coe] at hy
    obtain ⟨z, hz, rfl⟩ := List.mem_map.1 hy
    obtain ⟨s, -, hz⟩ := List.mem_flatMap.1 hz
    have hm : z ∈ ((S0 s).flatten : Multiset (Unit × Particle K)) := Multiset.mem_coe.2 hz
    rw [(h0S s).2.2, Multiset.mem_coe] at hm
    obtain ⟨px, hpx, rfl⟩ := List.mem_map.1 hm
    rw [List.mem_range] at hpx
    have := hbl s s.isLt
    refine ⟨b s + px, by omega, ?_⟩
    have h2 := congrArg Prod.snd hxy
    dsimp only at h2
    rw [← h2]
    exact if_pos (hdom' _ (by omega))
  have hlen : ∀ r, (tagged (S r)).length = (S r).flatten.length := fun r => by rw [← tagged_snd, List.length_map]
  have hposition : ∀ r (i : ℕ) (hi : i < (tagged (S r)).length), position ndim (P r) i = (tagged (S r))[i].2.2.pos := by
    intro r i hi'
    obtain ⟨p1, p2, p3, p4⟩ := (hP r).2
    have hx : (tagged (S r))[i].2 ∈ (S r).flatten := by rw [← tagged_snd]; exact List.mem_map.2 ⟨_, List.getElem_mem hi', rfl⟩
    obtain ⟨k, -, hk⟩ := hpos0 r _ hx
    funext d
    unfold position
    split_ifs with hd
    · rw [p3 d hd, List.getD_eq_getElem?_getD, List.getElem?_map, List.getElem?_eq_getElem hi']; rfl
    · rw [hk, (nodeAt_linePoint ndim npoints a e k).2 d (by omega)]
  refine ⟨P, ?_, fun r => ?_, (List.range npoints).map (nodeAt ndim npoints a e), by simp, fun i hi' => ⟨nodeAt ndim npoints a e i, by simp [hi'], nodeAt_linePoint ..⟩, ?_⟩
  · unfold construct
    rw [if_pos ⟨ha, he, hn⟩, e0]
    simp only [Option.bind_some]
    rw [htr, eS]
    exact eP
  · obtain ⟨p1, p2, p3, p4⟩ := (hP r).2
    refine ⟨by rw [p2, p1, List.length_map, hlen], fun d hd => ⟨by rw [p3 d hd, p1, List.length_map, hlen], by rw [p4 d hd, p1, List.length_map, hlen]⟩, fun i hi' => ?_⟩
    have hi2 : i < (tagged (S r)).length := by rw [hlen, ← p1]; exact hi'
    obtain ⟨hc, hx⟩ := mem_tagged.1 (List.getElem_mem hi2)
    obtain ⟨q1, q2, q3, gid, q4, q5⟩ := (hset r).2 _ hc _ hx
    rw [hposition r i hi2]
    refine ⟨q1, (tagged (S r))[i].1, gid, (tagged (S r))[i].2.2.ref, ?_, q4, fun d hd => ?_, href _ _ q5, q5⟩
    · rw [p2, List.getElem?_map, List.getElem?_eq_getElem hi2]; rfl
    · rw [p4 d hd, List.getElem?_map, List.getElem?_eq_getElem hi2]
      have := href _ _ q5
      dsimp only at this
      rw [Option.map_some, List.getD_eq_getElem?_getD, List.getElem?_eq_getElem (by omega)]; rfl
  · rw [← Multiset.coe_eq_coe]
    have h1 : (points ndim P : Multiset (ℕ → K)) = (particles S).map Prod.snd := by
      rw [C90.particles_eq, Multiset.map_map, C90.map_all]
      unfold points
      rw [C90.all_flatMap]
      congr 1
      funext r
      rw [(hP r).2.1, ← hlen]
      refine List.ext_getElem (by rw [List.length_map, List.length_range, hlen, List.length_map]) fun i h1 h2 => ?_
      simp only [List.getElem_map, List.getElem_range, Function.comp]
      simp only [List.length_map, List.length_range] at h1
      rw [hposition r i h1]
      have : (S r).flatten[i]'(by rw [← hlen]; exact h1) = ((tagged (S r)).map Prod.snd)[i]'(by simpa using h1) := by congr 1; exact (tagged_snd _).symm
      rw [this, List.getElem_map]
    rw [h1, hS, Multiset.map_map, C90.particles_eq, Multiset.map_map, ← created_all (n := n) (ndim := ndim) (a := a) (e := e) h0 hb hbn, C90.map_all]
    unfold C90.all
    refine Finset.sum_congr rfl fun r _ => ?_
    rw [← Multiset.map_coe, (h0S r).2.2, Multiset.map_coe]
    refine congrArg _ (List.map_congr_left fun x hx => ?_)
    obtain ⟨px, hpx, rfl⟩ := List.mem_map.1 hx
    rw [List.mem_range] at hpx
    have := hbl r r.isLt
    exact if_pos (hdom' _ (by omega))

/-! ### Particles at sampled points -/

omit [Field K] in
theorem mapM_some {α β : Type} {f : α → Option β} {g : α → β} (l : List α) (h : ∀ x ∈ l, f x = some (g x)) : l.mapM f = some (l.map g) := by
  induction l with
  | nil => rfl
  | cons x l ih =>
    rw [List.mapM_cons, h x (by simp), ih fun y hy => h y (by simp [hy])]
    rfl

/-- The numbers of points of the ranks. -/
def counts (P : Fin n → Points K) : List ℤ := List.ofFn fun r => ((P r).npointsLocal : ℤ)

/-- The particle for a stored point. -/
def particleAt (pts : Points K) (idx : ℤ) (other : T) : T × Particle K :=
  (other, ⟨position 2 pts idx.toNat, 0, pts.cells.getD idx.toNat 0, [(pts.ref 0).getD idx.toNat 0, (pts.ref 1).getD idx.toNat 0]⟩)

theorem newAt_eq {r : Fin n} {R : Rank K} {pts : Points K} (h : Usable 2 dom inside R r pts) {idx : ℤ} (h0 : 0 ≤ idx) (h1 : idx < pts.npointsLocal) (other : T) :
    newAt pts idx other = some (particleAt pts idx other) := by
  obtain ⟨i, rfl⟩ := Int.eq_ofNat_of_zero_le h0
  obtain ⟨hc, hl, -⟩ := h
  have hi : i < pts.npointsLocal := by exact_mod_cast h1
  have rd : ∀ {α : Type} (l : List α) (z : α), l.length = pts.npointsLocal → Mem.read l (i : ℤ) = some (l.getD i z) := by
    intro α l z hl
    rw [Mem.read_ofNat, List.getD_eq_getElem?_getD, List.getElem?_eq_getElem (by omega)]; rfl
  unfold newAt
  rw [rd _ 0 (hl 0 (by omega)).1, rd _ 0 (hl 0 (by omega)).2, rd _ 0 (hl 1 (by omega)).1, rd _ 0 (hl 1 (by omega)).2, rd _ 0 hc]
  simp only [Option.bind_eq_bind, Option.bind_some, Option.pure_def, particleAt, Int.toNat_natCast]
  congr 3
  funext d
  unfold position
  match d with
  | 0 => simp
  | 1 => simp
  | d + 2 => simp

omit [Field K] in
theorem flatten_offset {α : Type} (L : List (List α)) (r : ℕ) (hr : r < L.length) (i : ℕ) (hi : i < L[r].length) : L.flatten[((L.take r).map List.length).sum + i]? = some (L[r][i]) := by
  induction L generalizing r with
  | nil => simp at hr
  | cons c L ih =>
    cases r with
    | zero =>
      simp only [List.take_zero, List.map_nil, List.sum_nil, Nat.zero_add, List.flatten_cons, List.getElem_cons_zero] at hi ⊢
      rw [List.getElem?_append_left hi, List.getElem?_eq_getElem hi]
    | succ r =>
      simp only [List.take_succ_cons, List.map_cons, List.sum_cons, List.flatten_cons, List.getElem_cons_succ] at hi ⊢
      rw [List.getElem?_append_right (by omega)]
      have := ih r (by simpa using hr) hi
      rw [← this]
      congr 1
      omega

theorem counts_take (P : Fin n → Points K) (r : ℕ) : ((counts P).take r).sum = ((((List.finRange n).map fun r => (List.range (P r).npointsLocal).map (position 2 (P r))).take r).map List.length).sum := by
  unfold counts
  rw [List.ofFn_eq_map, ← List.map_take, ← List.map_take, List.map_map]
  have : ∀ l : List (Fin n), (l.map fun r => ((P r).npointsLocal : ℤ)).sum = ((l.map (List.length ∘ fun r => (List.range (P r).npointsLocal).map (position 2 (P r)))).sum : ℕ) := by
    intro l
    induction l with
    | nil => rfl
    | cons x l ih => simp only [List.map_cons, List.sum_cons, ih, Function.comp, List.length_map, List.length_range]; push_cast; rfl
  exact this _

/-- The point for a value of the generator. -/
theorem points_get (P : Fin n → Points K) (r : Fin n) {x : ℤ} (h1 : ((counts P).take r).sum ≤ x) (h2 : x < ((counts P).take (r + 1)).sum) :
    (points 2 P)[x.toNat]? = some (position 2 (P r) (x - ((counts P).take r).sum).toNat) := by
  have hlen : (counts P).length = n := by simp [counts]
  have hs : ((counts P).take (r + 1)).sum = ((counts P).take r).sum + (P r).npointsLocal := by
    rw [List.take_add_one, List.getElem?_eq_getElem (by omega)]
    simp [counts]
  have hk := counts_take P r
  set L := (List.finRange n).map fun r => (List.range (P r).npointsLocal).map (position 2 (P r)) with hL
  have hLl : L.length = n := by simp [hL]
  have hLr : L[r.val]'(by omega) = (List.range (P r).npointsLocal).map (position 2 (P r)) := by simp [hL]
  have := flatten_offset L r (by omega) (x - ((counts P).take r).sum).toNat (by rw [hLr]; simp; omega)
  have e : x.toNat = ((L.take r).map List.length).sum + (x - ((counts P).take r).sum).toNat := by omega
  unfold points
  rw [List.flatMap_def, ← hL, e, this]
  simp [hLr]

/-- The particles of one call of the sampler: `l` are the values of the generator, each rank keeps those of its points. -/
theorem particles_core {P : Fin n → Points K} (hU : ∀ r, Usable 2 dom inside (R r) r (P r)) (href : ∀ p, ∀ a ∈ inside p, a.ref.length = 2) (l : List ℤ) (hlr : ∀ x ∈ l, 0 ≤ x ∧ x < (counts P).sum)
    (samples : Fin n → List ℤ) (hsamples : ∀ r, samples r = (l.filter fun x => ((counts P).take r).sum ≤ x ∧ x < ((counts P).take (r + 1)).sum).map (fun x => x - ((counts P).take r).sum))
    (other : Fin n → ℕ → T) (S : State n T K) (hS : ∀ r, (S r).length = (R r).translation.mapToNektar.length) :
    ∃ (S' : State n T K) (new : Fin n → List (T × Particle K)), addLine P samples other S = some S' ∧
      (∀ r, (S' r).length = (S r).length ∧ ((S' r).flatten : Multiset (T × Particle K)) = (S r).flatten + (new r : Multiset (T × Particle K))) ∧
      (∀ r (i : ℕ) (h : i < (S' r).length) (h' : i < (S r).length), ∀ a ∈ (S' r)[i], a ∈ (S r)[i] ∨
        dom a.2.pos ∧ a.2.cell = i ∧ ∃ gid, (R r).translation.mapToNektar[i]? = some gid ∧ (⟨r.val, gid, a.2.ref⟩ : Assignment K) ∈ inside a.2.pos) ∧
      (∀ r, (new r).map Prod.fst = (List.range (new r).length).map (other r)) ∧ (∀ r, (new r).length = (samples r).length) ∧
      (C90.all fun r => (new r).map fun a => some a.2.pos) = (l.map fun x => (points 2 P)[x.toNat]? : List (Option (ℕ → K))) ∧
      ∀ x ∈ l, ∃ p, (points 2 P)[x.toNat]? = some p := by
  have hlen : (counts P).length = n := by simp [counts]
  have hnn : ∀ k ∈ counts P, 0 ≤ k := by
    intro k hk
    obtain ⟨r, rfl⟩ := (List.mem_ofFn' _ _).1 hk
    positivity
  have h3 := fun x (hx : x ∈ l) => C46.owner_unique (counts P) hnn x (hlr x hx).1 (hlr x hx).2
  have hr : ∀ r : Fin n, samples r = (l.filter fun x => ((counts P).take r).sum ≤ x ∧ x < ((counts P).take (r + 1)).sum).map (fun x => x - ((counts P).take r).sum) ∧ ∀ i ∈ samples r, 0 ≤ i ∧ i < (P r).npointsLocal := by
    intro r
    refine ⟨hsamples r, fun i hi => ?_⟩
    rw [hsamples r] at hi
    obtain ⟨x, hx, rfl⟩ := List.mem_map.1 hi
    have hx2 : ((counts P).take r).sum ≤ x ∧ x < ((counts P).take (r + 1)).sum := by simpa using (List.mem_filter.1 hx).2
    have hs : ((counts P).take (r + 1)).sum = ((counts P).take r).sum + (P r).npointsLocal := by
      rw [List.take_add_one, List.getElem?_eq_getElem (by omega)]
      simp [counts]
    omega
  set new : Fin n → List (T × Particle K) := fun r => (samples r).reverse.zipIdx.map fun x => particleAt (P r) x.1 (other r x.2) with hnew
  have hlp : ∀ r, lineParticles (P r) (samples r) (other r) = some (new r) := by
    intro r
    refine mapM_some _ fun x hx => ?_
    have hx1 : x.1 ∈ samples r := by
      obtain ⟨_, e⟩ := List.mem_zipIdx' hx
      rw [e]
      exact List.mem_reverse.1 (List.getElem_mem _)
    obtain ⟨k1, k2⟩ := (hr r).2 _ hx1
    exact newAt_eq (hU r) k1 k2 _
  have hgood : ∀ r, ∀ a ∈ new r, ∃ (k : ℕ) (gid : ℤ), dom a.2.pos ∧ a.2.cell = k ∧ (R r).translation.mapToNektar[k]? = some gid ∧ (⟨r.val, gid, a.2.ref⟩ : Assignment K) ∈ inside a.2.pos := by
    intro r a ha
    obtain ⟨x, hx, rfl⟩ := List.mem_map.1 ha
    have hx1 : x.1 ∈ samples r := by
      obtain ⟨_, e⟩ := List.mem_zipIdx' hx
      rw [e]
      exact List.mem_reverse.1 (List.getElem_mem _)
    obtain ⟨k1, k2⟩ := (hr r).2 _ hx1
    obtain ⟨-, -, hpt⟩ := hU r
    obtain ⟨p1, k, gid, ref, p2, p3, p4, p5, p6⟩ := hpt x.1.toNat (by omega)
    have hr2 := href _ _ p6
    dsimp only at hr2
    refine ⟨k, gid, p1, ?_, p3, ?_⟩
    · simp only [particleAt, List.getD_eq_getElem?_getD, p2, Option.getD_some]
    · simp only [particleAt, List.getD_eq_getElem?_getD, p4 0 (by omega), p4 1 (by omega)]
      have : [ref[0]?.getD 0, ref[1]?.getD 0] = ref := by
        match ref, hr2 with
        | [u, v], _ => rfl
      rw [this]; exact p6
  obtain ⟨S', e, hS'⟩ := C90.forRanks_some (f := fun r => (lineParticles (P r) (samples r) (other r)).bind (addLocal (S r)))
    (P := fun r g' => g'.length = (S r).length ∧ (g'.flatten : Multiset (T × Particle K)) = (S r).flatten + (new r : Multiset (T × Particle K)) ∧
      ∀ (i : ℕ) (hi : i < g'.length) (hi' : i < (S r).length), ∀ a ∈ g'[i], a ∈ (S r)[i] ∨ (a ∈ new r ∧ a.2.cell = i))
    (fun r => by
      rw [hlp r, Option.bind_some]
      refine addLocal_spec _ _ fun a ha => ?_
      obtain ⟨k, gid, -, q2, q3, -⟩ := hgood r a ha
      have := (List.getElem?_eq_some_iff.1 q3).1
      rw [hS r, q2]
      omega)
  refine ⟨S', new, e, fun r => ⟨(hS' r).2.1, (hS' r).2.2.1⟩, fun r i h h' a ha => ?_, fun r => ?_, fun r => by simp [hnew], ?_, ?_⟩
  · rcases (hS' r).2.2.2 i h h' a ha with q | ⟨q, qi⟩
    · exact Or.inl q
    · obtain ⟨k, gid, q1, q2, q3, q4⟩ := hgood r a q
      have : k = i := by omega
      subst this
      exact Or.inr ⟨q1, q2, gid, q3, q4⟩
  · simp only [hnew, List.map_map, List.length_map, List.length_zipIdx, List.length_reverse]
    have : (Prod.fst ∘ fun x : ℤ × ℕ => particleAt (P r) x.1 (other r x.2)) = (other r) ∘ Prod.snd := by funext x; rfl
    rw [this, ← List.map_map, List.zipIdx_map_snd, ← List.range_eq_range', List.length_reverse]
  · -- each value belongs to one rank
    choose! ow how how2 using h3
    have key : ∀ x ∈ l, ∀ r : Fin n, (((counts P).take r).sum ≤ x ∧ x < ((counts P).take (r + 1)).sum) ↔ ((ow x : ℤ) = r.val) := by
      intro x hx r
      constructor
      · intro h
        have := how2 x hx r ⟨by rw [hlen]; exact r.isLt, h⟩
        rw [← this]
      · intro h
        have : ow x = r.val := by exact_mod_cast h
        rw [← this]
        exact (how x hx).2
    have hsum := C90.sum_filter_key (n := n) (l : Multiset ℤ) (fun x => (ow x : ℤ)) (fun x hx => by
      obtain ⟨k1, -⟩ := how x (by simpa using hx)
      rw [hlen] at k1
      exact ⟨⟨ow x, k1⟩, rfl⟩)
    rw [← Multiset.map_coe]
    conv_rhs => rw [← hsum]
    unfold C90.all
    rw [show Multiset.map (fun x : ℤ => (points 2 P)[x.toNat]?) (∑ r : Fin n, Multiset.filter (fun a => (ow a : ℤ) = r.val) (l : Multiset ℤ)) =
      ∑ r : Fin n, Multiset.map (fun x : ℤ => (points 2 P)[x.toNat]?) (Multiset.filter (fun a => (ow a : ℤ) = r.val) (l : Multiset ℤ)) from
        map_sum (Multiset.mapAddMonoidHom _) _ _]
    refine Finset.sum_congr rfl fun r _ => ?_
    rw [Multiset.filter_coe, Multiset.map_coe]
    have e1 : (new r).map (fun a => some a.2.pos) = ((samples r).map fun i => some (position 2 (P r) i.toNat)).reverse := by
      simp only [hnew, List.map_map]
      have : ((fun a : T × Particle K => some a.2.pos) ∘ fun x : ℤ × ℕ => particleAt (P r) x.1 (other r x.2)) = (fun i : ℤ => some (position 2 (P r) i.toNat)) ∘ Prod.fst := by funext x; rfl
      rw [this, ← List.map_map, List.zipIdx_map_fst, List.map_reverse]
    dsimp only
    rw [e1, Multiset.coe_reverse, (hr r).1, List.map_map]
    congr 1
    have e2 : l.filter (fun x => decide (((counts P).take r).sum ≤ x ∧ x < ((counts P).take (r + 1)).sum)) = l.filter (fun a => decide ((ow a : ℤ) = r.val)) :=
      List.filter_congr fun x hx => by rw [decide_eq_decide]; exact key x hx r
    rw [e2]
    refine List.map_congr_left fun x hx => ?_
    obtain ⟨hx1, hx2⟩ := List.mem_filter.1 hx
    have hx3 := (key x hx1 r).2 (by simpa using hx2)
    rw [points_get P r hx3.1 hx3.2]
    rfl
  · intro x hx
    obtain ⟨r, ⟨k1, k2, k3⟩, -⟩ := h3 x hx
    rw [hlen] at k1
    exact ⟨_, points_get P ⟨r, k1⟩ k2 k3⟩

/-- **C108, the particles.** Whatever the values of the common generator, `add_particles` completes on all ranks for the samples of each call: it adds on each rank some particles, each in the cell of an element that
contains it and with its reference position there. Over all ranks these are exactly the points whose numbers were drawn: each value of the generator stands for one of the points that the ranks store together, no matter
which rank stores it. -/
theorem particles_at_points {P : Fin n → Points K} (hU : ∀ r, Usable 2 dom inside (R r) r (P r)) (href : ∀ p, ∀ a ∈ inside p, a.ref.length = 2) (stream : ℕ → ℤ) (hstream : ∀ k, 0 ≤ stream k ∧ stream k < (counts P).sum)
    (calls : List ℕ) (c : ℕ) (l : List ℤ) (hl : (C46.callSamples stream 0 calls)[c]? = some l) (samples : Fin n → List ℤ)
    (hsamples : ∀ r s, (mkSamplers (counts P) 0)[r.val]? = some s → (getSamplesHistory stream s calls)[c]? = some (samples r)) (other : Fin n → ℕ → T) (S : State n T K)
    (hS : ∀ r, (S r).length = (R r).translation.mapToNektar.length) :
    ∃ (S' : State n T K) (new : Fin n → List (T × Particle K)), addLine P samples other S = some S' ∧
      (∀ r, (S' r).length = (S r).length ∧ ((S' r).flatten : Multiset (T × Particle K)) = (S r).flatten + (new r : Multiset (T × Particle K))) ∧
      (∀ r (i : ℕ) (h : i < (S' r).length) (h' : i < (S r).length), ∀ a ∈ (S' r)[i], a ∈ (S r)[i] ∨
        dom a.2.pos ∧ a.2.cell = i ∧ ∃ gid, (R r).translation.mapToNektar[i]? = some gid ∧ (⟨r.val, gid, a.2.ref⟩ : Assignment K) ∈ inside a.2.pos) ∧
      (∀ r, (new r).map Prod.fst = (List.range (new r).length).map (other r)) ∧
      (C90.all fun r => (new r).map fun a => some a.2.pos) = (l.map fun x => (points 2 P)[x.toNat]? : List (Option (ℕ → K))) ∧
      ∀ x ∈ l, ∃ p, (points 2 P)[x.toNat]? = some p := by
  have hlen : (counts P).length = n := by simp [counts]
  have hnn : ∀ k ∈ counts P, 0 ≤ k := by
    intro k hk
    obtain ⟨r, rfl⟩ := (List.mem_ofFn' _ _).1 hk
    positivity
  have hml : ∀ (cs : List ℤ) (acc : ℤ), (mkSamplers cs acc).length = cs.length := by
    intro cs
    induction cs with
    | nil => intro _; rfl
    | cons x cs ih => intro acc; simp [mkSamplers, ih]
  obtain ⟨-, h2, h3⟩ := C46.sampler_partition stream (counts P) hnn hstream calls c l hl
  have hr : ∀ r : Fin n, samples r = (l.filter fun x => ((counts P).take r).sum ≤ x ∧ x < ((counts P).take (r + 1)).sum).map (fun x => x - ((counts P).take r).sum) ∧ ∀ i ∈ samples r, 0 ≤ i ∧ i < (P r).npointsLocal := by
    intro r
    have hs : r.val < (mkSamplers (counts P) 0).length := by rw [hml, hlen]; exact r.isLt
    have e1 := hsamples r _ (List.getElem?_eq_getElem hs)
    obtain ⟨k1, k2⟩ := h2 r _ ((P r).npointsLocal : ℤ) (List.getElem?_eq_getElem hs) (by simp [counts])
    rw [e1] at k1 k2
    exact ⟨Option.some.inj k1, k2⟩
  obtain ⟨S', new, q1, q2, q3, q4, -, q5, q6⟩ := particles_core hU href l (fun x hx => by
    obtain ⟨r, ⟨-, k2, k3⟩, -⟩ := h3 x hx
    exact ⟨le_trans (C46.take_sum_mono _ hnn 0 r (by omega) |> fun h => by simpa using h) k2, lt_of_lt_of_le k3 (by
      rcases le_total (r + 1) (counts P).length with h | h
      · have := C46.take_sum_mono _ hnn _ _ h
        rwa [List.take_length] at this
      · rw [List.take_of_length_le h])⟩) samples (fun r => (hr r).1) other S hS
  exact ⟨S', new, q1, q2, q3, q4, q5, q6⟩

end main

/-! ### Meshes in two dimensions -/

section two
open Verif.Model.CartesianMesh Verif.Model.DeviceMapper Verif.Spec Verif.Spec.Mapping Verif.Props.C34 Verif.Props.C35 Verif.Props.C40 Verif.Model.RegularMap Verif.Model.NewtonKernel
  Verif.Model.NewtonElements Verif.Props.C84 Verif.Model.MeshHierarchy Verif.Model.Claims Verif.Spec.LinearElements Verif.Props.C85
  Verif.Model.Bytes Verif.Model.PackedGeom2D Verif.Model.Mpi Verif.Model.HaloExchange Verif.Lemmas.Mpi Verif.Props.C60
variable {K : Type} [Field K] [LinearOrder K] [IsStrictOrderedRing K] [FloorRing K] {n : ℕ} {T : Type}

/-- **C108, 2D.** A mesh of triangles and parallelograms that cover a box (as in C90), distributed over any number of ranks with at least one element each. If all points of the source line are in the box then
the constructor completes on all ranks, together the ranks store the points of the line, each once, with an element of the rank that contains it and its reference position. Then for every call of the sampler the
particles are created on all ranks, in the cells of elements that contain them and with their reference positions, at the points whose numbers were drawn. -/
theorem line_2d {V : View2 K} {big : K} (hbig : 0 < big) {scaling : K → ℤ} (hsc : ∀ f, 1 < f → 0 < scaling f ∧ f ≤ (scaling f : K) ^ 2) {tol0 t : K} (h0 : 0 < tol0) (ht : 0 ≤ t)
    (htol : t + tol0 ≤ 1 / 10) {m : MHGeom K} {owner : ℤ → ℤ} {glo ghi : ℕ → K} {mesh : Fin n → Mesh2d K} (h : Mesh2Ok V big m owner glo ghi mesh) (hc : GridCovers m glo ghi)
    (hper : ∀ d < 2, 1 ≤ ghi d - glo d) (w : Fin n → ℤ) {S : Sys n Msg (List Remote × List Remote)} (hS : Reachable (Sys.init (fun r => halos2d m owner (mesh r) r) w) S)
    (out : Fin n → List Remote × List Remote) (hout : ∀ r, S.prog r = .done (out r)) (E : Fin n → List (Elem2 K)) (hE : ∀ r, (E r).Perm (known V (mesh r) r (out r)))
    (mapper : Fin n → Mapper K) (hm : ∀ r, mkMapper 2 big scaling ((E r).map Elem2.geom) = some (mapper r)) (hfit : ∀ r, ∀ d < 2, (mapper r).lookup.mesh.cellCounts d < 2147483648)
    (hrange : ∀ r p, Dom 2 glo ghi p → InRange (mapper r) p) (geoms : Fin n → List (ℤ × ℤ)) (hgne : ∀ r, geoms r ≠ []) (hgs : ∀ r, ((geoms r).map Prod.fst).Pairwise (· < ·))
    (hgr : ∀ r, ∀ g ∈ geoms r, 0 ≤ g.1 ∧ g.1 < 2147483647) (hgi : ∀ r id, id ∈ (geoms r).map Prod.fst ↔ ∃ x ∈ elementsOf (mesh r), x.2.1 = id)
    (tr : Fin n → CellId.Translation) (htr : ∀ r, CellId.constructMaps (geoms r) = some (tr r))
    {npoints : ℕ} {a e : List K} (ha : 2 ≤ a.length) (he : 2 ≤ e.length) (hn : 0 < npoints) {b : ℕ → ℕ} (hb0 : b 0 = 0) (hb : ∀ r < n, b r ≤ b (r + 1)) (hbn : b n = npoints)
    (hdom : ∀ i < npoints, ∀ p, LinePoint 2 npoints a e i p → Dom 2 glo ghi p) (stream : ℕ → ℤ) (hstream : ∀ k, 0 ≤ stream k ∧ stream k < npoints) (calls : List ℕ) (c : ℕ) (l : List ℤ)
    (hl : (C46.callSamples stream 0 calls)[c]? = some l) (other : Fin n → ℕ → T) (G : State n T K) (hG : ∀ r, (G r).length = (tr r).mapToNektar.length) :
    let R : Fin n → Rank K := fun r => ⟨map2D (some ((mapper r).stage (test2d tol0 t (E r)))) none, tr r⟩
    let inside := C90.inside2 V mesh (5 * (t + tol0))
    ∃ P nodes, construct 2 npoints a e b (ownerOf m owner) R = some P ∧ (∀ r, Usable 2 (Dom 2 glo ghi) inside (R r) r (P r)) ∧
      nodes.length = npoints ∧ (∀ i < npoints, ∃ p, nodes[i]? = some p ∧ LinePoint 2 npoints a e i p) ∧ (points 2 P).Perm nodes ∧
      ∃ (samples : Fin n → List ℤ) (G' : State n T K) (new : Fin n → List (T × Particle K)),
        (∀ r s, (mkSamplers (counts P) 0)[r.val]? = some s → (getSamplesHistory stream s calls)[c]? = some (samples r)) ∧ addLine P samples other G = some G' ∧
        (∀ r, (G' r).length = (G r).length ∧ ((G' r).flatten : Multiset (T × Particle K)) = (G r).flatten + (new r : Multiset (T × Particle K))) ∧
        (∀ r (i : ℕ) (h : i < (G' r).length) (h' : i < (G r).length), ∀ q ∈ (G' r)[i], q ∈ (G r)[i] ∨
          Dom 2 glo ghi q.2.pos ∧ q.2.cell = i ∧ ∃ gid, (tr r).mapToNektar[i]? = some gid ∧ (⟨r.val, gid, q.2.ref⟩ : Assignment K) ∈ inside q.2.pos) ∧
        (C90.all fun r => (new r).map fun q => some q.2.pos) = (l.map fun x => (points 2 P)[x.toNat]? : List (Option (ℕ → K))) ∧ (C90.all new).card = l.length ∧
        ∀ x ∈ l, ∃ p, (points 2 P)[x.toNat]? = some p := by
  obtain ⟨-, w2, w3, w4, w5⟩ := C90.world_2d hbig hsc h0 ht htol h hc hper w hS out hout E hE mapper hm hfit hrange geoms hgne hgs hgr hgi tr htr
  intro R inside
  have href : ∀ p, ∀ q ∈ inside p, q.ref.length = 2 := by
    rintro p q ⟨s, x, -, u, v, rfl, -⟩
    rfl
  obtain ⟨P, e1, e2, nodes, e3, e4, e5⟩ := points_distributed w2 w3 w4 w5 (fun p q hq => (href p q hq).ge) ha he hn hb0 hb hbn hdom
  have hsum : (counts P).sum = npoints := by
    have h1 : (points 2 P).length = npoints := by rw [e5.length_eq, e3]
    have h2 := counts_take P n
    rw [List.take_of_length_le (by simp [counts]), List.take_of_length_le (by simp)] at h2
    rw [h2, ← h1, points, List.flatMap_def, List.length_flatten]
  have hnn : ∀ k ∈ counts P, 0 ≤ k := by
    intro k hk
    obtain ⟨r, rfl⟩ := (List.mem_ofFn' _ _).1 hk
    positivity
  have hml : ∀ (cs : List ℤ) (acc : ℤ), (mkSamplers cs acc).length = cs.length := by
    intro cs
    induction cs with
    | nil => intro _; rfl
    | cons x cs ih => intro acc; simp [mkSamplers, ih]
  have hstream' : ∀ k, 0 ≤ stream k ∧ stream k < (counts P).sum := by rw [hsum]; exact hstream
  obtain ⟨-, h2, -⟩ := C46.sampler_partition stream (counts P) hnn hstream' calls c l hl
  have hex : ∀ r : Fin n, ∃ x, ∀ s, (mkSamplers (counts P) 0)[r.val]? = some s → (getSamplesHistory stream s calls)[c]? = some x := by
    intro r
    have hs : r.val < (mkSamplers (counts P) 0).length := by rw [hml]; simp [counts]
    refine ⟨_, fun s hs' => (h2 r s ((P r).npointsLocal : ℤ) hs' (by simp [counts])).1⟩
  choose samples hsamples using hex
  obtain ⟨G', new, k1, k2, k3, -, k5, k6⟩ := particles_at_points (T := T) e2 href stream hstream' calls c l hl samples hsamples other G hG
  refine ⟨P, nodes, e1, e2, e3, e4, e5, samples, G', new, hsamples, k1, k2, k3, k5, ?_, k6⟩
  have := congrArg Multiset.card k5
  rw [Multiset.coe_card, List.length_map] at this
  rw [← this, ← C90.map_all, Multiset.card_map]

end two

end Verif.Props.C108
