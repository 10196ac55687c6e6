import Verif.Model.CellId
import Verif.Lemmas.Fold
import Mathlib.Data.List.Nodup
import Mathlib.Data.List.Sort
import Mathlib.Tactic.Linarith

namespace Verif.Props.C03
open Verif.Model.CellId Verif.Model.Mem Verif.Lemmas

theorem idMin_le (ids : List ℤ) (x : ℤ) (hx : x ∈ ids) : idMin ids ≤ x := by
  have := (foldl_min_le (fun z : ℤ => z) ids intMax).2 x hx
  simpa [idMin] using this

theorem le_idMax (ids : List ℤ) (x : ℤ) (hx : x ∈ ids) : x ≤ idMax ids := by
  have := (foldl_max_ge (fun z : ℤ => z) ids intLowest).2 x hx
  simpa [idMax] using this

theorem idMin_mem (ids : List ℤ) (hne : ids ≠ []) (h : ∀ x ∈ ids, x < intMax) : idMin ids ∈ ids := by
  rcases foldl_min_mem (fun z : ℤ => z) ids intMax with h' | ⟨b, hb, h'⟩
  · obtain ⟨c, hc⟩ := List.exists_mem_of_ne_nil _ hne
    have h1 := idMin_le ids c hc
    have h2 := h c hc
    have h' : idMin ids = intMax := h'
    omega
  · have h' : idMin ids = b := h'
    rwa [h']

theorem idMax_mem (ids : List ℤ) (hne : ids ≠ []) (h : ∀ x ∈ ids, intLowest < x) : idMax ids ∈ ids := by
  rcases foldl_max_mem (fun z : ℤ => z) ids intLowest with h' | ⟨b, hb, h'⟩
  · obtain ⟨c, hc⟩ := List.exists_mem_of_ne_nil _ hne
    have h1 := le_idMax ids c hc
    have h2 := h c hc
    have h' : idMax ids = intLowest := h'
    omega
  · have h' : idMax ids = b := h'
    rwa [h']

theorem fill_spec (shift : ℤ) (ids : List ℤ) (hnd : ids.Nodup) (ex : ℤ) (buf : List (Option ℤ))
    (hin : ∀ id ∈ ids, 0 ≤ id - shift ∧ id - shift < buf.length) :
    ∃ buf', fillIdMap shift ids ex buf = some buf' ∧ buf'.length = buf.length ∧
      (∀ (j : ℕ) (id : ℤ), ids[j]? = some id → buf'[(id - shift).toNat]? = some (some (ex + j))) ∧
      (∀ k : ℕ, (∀ id ∈ ids, k ≠ (id - shift).toNat) → buf'[k]? = buf[k]?) := by
  induction ids generalizing ex buf with
  | nil => exact ⟨buf, rfl, rfl, by simp, by simp⟩
  | cons a as ih =>
    have ha := hin a (by simp)
    have hw : write buf (a - shift) (some ex) = some (buf.set (a - shift).toNat (some ex)) := by
      simp only [write, if_pos (And.intro ha.1 ha.2)]
    obtain ⟨buf', h1, h2, h3, h4⟩ := ih (List.nodup_cons.1 hnd).2 (ex + 1)
      (buf.set (a - shift).toNat (some ex))
      (fun id hid => by simpa using hin id (List.mem_cons_of_mem _ hid))
    refine ⟨buf', ?_, by simpa using h2, ?_, ?_⟩
    · simp only [fillIdMap, hw, h1]
    · intro j id hj
      cases j with
      | zero =>
        simp only [List.getElem?_cons_zero, Option.some.injEq] at hj
        subst hj
        rw [h4]
        · rw [List.getElem?_set_self (by omega)]; simp
        · intro id hid heq
          have h5 := hin id (List.mem_cons_of_mem _ hid)
          have : id = a := by omega
          subst this
          exact (List.nodup_cons.1 hnd).1 hid
      | succ j =>
        rw [h3 j id (by simpa using hj)]
        push_cast; congr 2; omega
    · intro k hk
      rw [h4 k fun id hid => hk id (List.mem_cons_of_mem _ hid)]
      rw [List.getElem?_set_ne]
      exact fun h => hk a (by simp) h.symm

/-- What the constructor produces for a non-empty set of (distinct) non-negative ids. -/
theorem constructMaps_spec (geoms : List (ℤ × ℤ)) (hne : geoms ≠ [])
    (hnd : (geoms.map Prod.fst).Nodup) (hr : ∀ g ∈ geoms, 0 ≤ g.1 ∧ g.1 < 2147483647) :
    ∃ t, constructMaps geoms = some t ∧ t.mapToNektar = geoms.map Prod.fst ∧
      t.geomType = geoms.map Prod.snd ∧
      ∀ (j : ℕ) (id : ℤ), t.mapToNektar[j]? = some id → execute t id = some (j : ℤ) := by
  change ∀ g ∈ geoms, 0 ≤ g.1 ∧ g.1 < intMax at hr
  set ids := geoms.map Prod.fst with hids
  have hne' : ids ≠ [] := by simpa [hids] using hne
  have hr' : ∀ x ∈ ids, 0 ≤ x ∧ x < intMax := by
    intro x hx
    obtain ⟨g, hg, rfl⟩ := List.mem_map.1 hx
    exact hr g hg
  have hmin := idMin_mem ids hne' fun x hx => (hr' x hx).2
  have hmax := idMax_mem ids hne' fun x hx => by have := (hr' x hx).1; unfold intLowest; omega
  have h1 := hr' _ hmin
  have h2 := hr' _ hmax
  have h3 := le_idMax ids _ hmin
  have hcond : ¬ (idMax ids - idMin ids < intLowest ∨ intMax ≤ idMax ids - idMin ids) := by
    unfold intLowest; omega
  obtain ⟨buf, hb1, hb2, hb3, -⟩ := fill_spec (idMin ids) ids hnd 0
    (List.replicate (idMax ids - idMin ids + 1).toNat none) (fun id hid => by
      have := idMin_le ids id hid
      have := le_idMax ids id hid
      simp only [List.length_replicate]
      omega)
  refine ⟨⟨ids, geoms.map Prod.snd, idMin ids, buf⟩, ?_, rfl, rfl, ?_⟩
  · simp only [constructMaps, ← hids, if_neg hcond, hb1]
  · intro j id hj
    have hmem : id ∈ ids := List.mem_of_getElem? hj
    have := idMin_le ids id hmem
    simp only [execute, Verif.Model.Mem.read, if_pos (show 0 ≤ id - idMin ids by omega), hb3 j id hj]
    simp

/-- **C03.** For every non-empty finite set of geometry ids (with the `std::map` ordering; ids as
Nektar++ global ids: non-negative `int`s) construction succeeds without out-of-bounds
access, and

* `map_to_nektar` lists the ids in increasing order, the NESO cells are exactly `0 .. n-1`;
* translating the id of NESO cell `c` gives back `c` (in particular the lookup is in bounds and
  initialised);
* translating any local id gives a cell whose `map_to_nektar` entry is this id and whose recorded shape
  type is that of the geometry with this id. -/
theorem cell_id_round_trip (geoms : List (ℤ × ℤ)) (hne : geoms ≠ [])
    (hsorted : (geoms.map Prod.fst).Pairwise (· < ·)) (hr : ∀ g ∈ geoms, 0 ≤ g.1 ∧ g.1 < 2147483647) :
    ∃ t, constructMaps geoms = some t ∧
      t.mapToNektar.length = geoms.length ∧
      t.mapToNektar.Pairwise (· < ·) ∧
      (∀ c < geoms.length, ∃ id, t.mapToNektar[c]? = some id ∧ execute t id = some (c : ℤ)) ∧
      (∀ g ∈ geoms, ∃ c < geoms.length,
        execute t g.1 = some (c : ℤ) ∧ t.mapToNektar[c]? = some g.1 ∧ t.geomType[c]? = some g.2) := by
  change ∀ g ∈ geoms, 0 ≤ g.1 ∧ g.1 < intMax at hr
  have hnd : (geoms.map Prod.fst).Nodup := hsorted.imp (fun h => ne_of_lt h)
  obtain ⟨t, ht, h1, h2, h3⟩ := constructMaps_spec geoms hne hnd hr
  refine ⟨t, ht, by simp [h1], by rw [h1]; exact hsorted, ?_, ?_⟩
  · intro c hc
    have : t.mapToNektar[c]? = some (geoms[c]).1 := by simp [h1, hc]
    exact ⟨_, this, h3 _ _ this⟩
  · intro g hg
    obtain ⟨c, hc, rfl⟩ := List.getElem_of_mem hg
    have : t.mapToNektar[c]? = some (geoms[c]).1 := by simp [h1, hc]
    exact ⟨c, hc, h3 _ _ this, this, by simp [h2, hc]⟩

/-- The round trip is injective: two local ids with the same NESO cell are equal. -/
theorem cell_id_injective (geoms : List (ℤ × ℤ)) (hne : geoms ≠ [])
    (hsorted : (geoms.map Prod.fst).Pairwise (· < ·)) (hr : ∀ g ∈ geoms, 0 ≤ g.1 ∧ g.1 < 2147483647)
    (t : Translation) (ht : constructMaps geoms = some t) (g g' : ℤ × ℤ) (hg : g ∈ geoms)
    (hg' : g' ∈ geoms) (h : execute t g.1 = execute t g'.1) : g = g' := by
  change ∀ g ∈ geoms, 0 ≤ g.1 ∧ g.1 < intMax at hr
  obtain ⟨t', ht', -, -, -, h5⟩ := cell_id_round_trip geoms hne hsorted hr
  obtain rfl : t = t' := by rw [ht] at ht'; exact Option.some.inj ht'
  obtain ⟨c, -, e1, e2, e3⟩ := h5 g hg
  obtain ⟨c', -, f1, f2, f3⟩ := h5 g' hg'
  rw [e1, f1] at h
  have hcc : c = c' := by simpa using h
  subst hcc
  rw [e2] at f2; rw [e3] at f3
  exact Prod.ext (Option.some.inj f2) (Option.some.inj f3)

/-- A limit of the interface, for the record: an id that is *not* local but lies in a gap between
local ids reads an entry of the table that was never initialised. -/
theorem gap_id_reads_uninitialised :
    ∃ t, constructMaps [(3, 0), (7, 1)] = some t ∧ execute t 5 = none := by
  exact ⟨_, rfl, by decide⟩

/-- A rank without any elements computes `id_max - id_min` on its sentinels: `int` overflow. -/
theorem empty_rank_overflows : constructMaps [] = none := by decide

/-- Non-vacuity: ids 3, 7, 20 with gaps. -/
example : ([(3, 0), (7, 1), (20, 0)] : List (ℤ × ℤ)) ≠ [] ∧
    (([(3, 0), (7, 1), (20, 0)] : List (ℤ × ℤ)).map Prod.fst).Pairwise (· < ·) ∧
    (∀ g ∈ ([(3, 0), (7, 1), (20, 0)] : List (ℤ × ℤ)), 0 ≤ g.1 ∧ g.1 < 2147483647) ∧
    (constructMaps [(3, 0), (7, 1), (20, 0)]).bind (fun t => execute t 7) = some 1 := by
  refine ⟨by simp, by decide, by decide, by decide⟩

end Verif.Props.C03
