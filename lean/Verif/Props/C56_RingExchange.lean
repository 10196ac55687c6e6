import Verif.Model.RingExchange
import Verif.Lemmas.Mpi
import Verif.Lemmas.MpiTermination
import Verif.Props.C18_PackedGeom2D
import Mathlib.Data.List.FinRange
import Mathlib.Algebra.Group.Fin.Basic

/-! C56: the collection of all remote 2D geometries. -/

namespace Verif.Props.C56
open Verif.Model.Bytes Verif.Model.PackedGeom2D Verif.Model.Mpi Verif.Model.RingExchange Verif.Spec Verif.Lemmas.Mpi

variable {n : ℕ} [NeZero n]

/-- The geometries of rank `q` as they are described on the other ranks. -/
def remotesOf (geoms : Fin n → List (I32 × Geom)) (q : Fin n) : List Remote :=
  (geoms q).map fun g => ⟨BitVec.ofNat 32 q.val, g.1, g.2⟩

/-- The ranks in the order in which their geometries arrive at `r`: `r - 1`, `r - 2`, ... modulo `n`. -/
def sources (r : Fin n) : List (Fin n) := (List.range (n - 1)).map fun s => r - Fin.ofNat n (s + 1)

/-- Every other rank is a source exactly once. -/
theorem sources_perm (r : Fin n) : (sources r).Perm ((List.finRange n).filter (· ≠ r)) := by
  refine (List.perm_ext_iff_of_nodup ?_ ((List.nodup_finRange n).filter _)).mpr ?_
  · refine List.Nodup.map_on ?_ List.nodup_range
    intro a ha b hb h
    rw [List.mem_range] at ha hb
    have h' := sub_right_injective (G := Fin n) (b := r) h
    have := congrArg Fin.val h'
    simp only [Fin.val_ofNat] at this
    rw [Nat.mod_eq_of_lt (by omega), Nat.mod_eq_of_lt (by omega)] at this
    omega
  · intro q
    simp only [sources, List.mem_map, List.mem_range, List.mem_filter, List.mem_finRange, true_and, decide_eq_true_eq]
    constructor
    · rintro ⟨s, hs, rfl⟩ h
      have h0 : Fin.ofNat n (s + 1) = 0 := sub_eq_self.mp h
      have := congrArg Fin.val h0
      simp only [Fin.val_ofNat, Fin.val_zero] at this
      rw [Nat.mod_eq_of_lt (by omega)] at this
      omega
    · intro h
      have hpos : 0 < (r - q).val := by
        rcases Nat.eq_zero_or_pos (r - q).val with h0 | h0
        · exact absurd (sub_eq_zero.mp (Fin.ext h0 : r - q = 0)).symm h
        · exact h0
      have hlt := (r - q).isLt
      refine ⟨(r - q).val - 1, by omega, ?_⟩
      rw [Nat.sub_add_cancel hpos]
      simp

theorem posMod_succ (r : Fin n) : Fin.ofNat n (posMod ((r.val : ℤ) + 1) n).toNat = r + 1 := by
  have hn : 0 < n := Nat.pos_of_ne_zero (NeZero.ne n)
  apply Fin.ext
  unfold posMod
  have h0 := Int.emod_nonneg ((r.val : ℤ) + 1) (by omega : (n : ℤ) ≠ 0)
  have h1 : ((r.val : ℤ) + 1).tmod n = ((r.val : ℤ) + 1) % n := Int.tmod_eq_emod_of_nonneg (by omega)
  rw [h1, Int.tmod_eq_emod_of_nonneg (by omega), Int.add_emod_right, Int.emod_emod_of_dvd _ (dvd_refl _)]
  simp only [Fin.val_ofNat, Fin.val_add]
  rw [show ((r.val : ℤ) + 1) % n = (((r.val + 1) % n : ℕ) : ℤ) by push_cast; rfl, Int.toNat_natCast]
  rw [Nat.mod_mod]
  conv_rhs => rw [Nat.add_mod]
  rcases Nat.lt_or_ge 1 n with h | h
  · simp [Nat.mod_eq_of_lt h]
  · have : n = 1 := by omega
    subst this; simp [Nat.mod_one]

theorem posMod_pred (r : Fin n) : Fin.ofNat n (posMod ((r.val : ℤ) - 1) n).toNat = r - 1 := by
  have hn : 0 < n := Nat.pos_of_ne_zero (NeZero.ne n)
  have hr := r.isLt
  have key : posMod ((r.val : ℤ) - 1) n = (((r.val + (n - 1)) % n : ℕ) : ℤ) := by
    unfold posMod
    rcases Nat.eq_zero_or_pos r.val with h | h
    · rw [h]
      rcases Nat.lt_or_ge 1 n with h1 | h1
      · have h2 : (1 : ℤ).tmod n = 1 := by rw [Int.tmod_eq_emod_of_nonneg (by omega), Int.emod_eq_of_lt (by omega) (by omega)]
        rw [show (((0 : ℕ) : ℤ) - 1) = -1 by rfl, Int.neg_tmod, h2, Int.tmod_eq_emod_of_nonneg (by omega), Int.emod_eq_of_lt (by omega) (by omega),
          Nat.zero_add, Nat.mod_eq_of_lt (by omega)]
        omega
      · have : n = 1 := by omega
        subst this; simp
    · have h2 : ((r.val : ℤ) - 1).tmod n = (r.val : ℤ) - 1 := by
        rw [Int.tmod_eq_emod_of_nonneg (by omega), Int.emod_eq_of_lt (by omega) (by omega)]
      rw [h2, Int.tmod_eq_emod_of_nonneg (by omega)]
      push_cast
      rw [show ((r.val : ℤ) - 1 + n) = (r.val : ℤ) + ((n - 1 : ℕ) : ℤ) by omega]
  apply Fin.ext
  rw [key, Int.toNat_natCast]
  simp only [Fin.val_ofNat, Fin.val_sub, Nat.mod_mod]
  rcases Nat.lt_or_ge 1 n with h1 | h1
  · have : (1 : Fin n).val = 1 := by
      rw [Fin.val_one', Nat.mod_eq_of_lt h1]
    rw [this, Nat.add_comm]
  · have : n = 1 := by omega
    subst this; simp [Nat.mod_one]

variable (shape : I32) (kEdges : ℕ) (geoms : Fin n → List (I32 × Geom))

/-- The message of rank `q`. -/
def bufOf (q : Fin n) : List Byte := resize (localBuf shape geoms q) (maxBufSize shape geoms)

/-- Phase `p`: every rank passes on the message of the rank `p` before it. -/
def proto : Protocol n (List Byte) (List Remote) where
  hist p s d t := if p < n - 1 ∧ d = s + 1 ∧ t = s.val then [bufOf shape geoms (s - Fin.ofNat n p)] else []
  accs _ _ _ := 0
  isBar _ := false
  isAcc _ := false
  last := n - 1
  post r o := o = (sources r).flatMap (remotesOf geoms)
  hacc _ _ := rfl

theorem le_maxBufSize (q : Fin n) : (localBuf shape geoms q).length ≤ maxBufSize shape geoms := by
  have : ∀ (l : List (Fin n)) (a : ℕ), a ≤ l.foldl (fun m r => max m (localBuf shape geoms r).length) a ∧
      ∀ r ∈ l, (localBuf shape geoms r).length ≤ l.foldl (fun m r => max m (localBuf shape geoms r).length) a := by
    intro l
    induction l with
    | nil => intro a; simp
    | cons x l ih =>
      intro a
      obtain ⟨h1, h2⟩ := ih (max a (localBuf shape geoms x).length)
      refine ⟨(le_max_left _ _).trans h1, ?_⟩
      intro r hr
      rcases List.mem_cons.mp hr with rfl | hr
      · exact (le_max_right _ _).trans h1
      · exact h2 r hr
  exact (this _ 0).2 q (List.mem_finRange q)

theorem unpack_bufOf (hg : ∀ q, ∀ g ∈ geoms q, GeomOk kEdges g.2) (hn : ∀ q, (geoms q).length < 2 ^ 31) (hranks : n ≤ 2 ^ 31)
    (q : Fin n) (out : List Remote) :
    unpackGeoms kEdges (bufOf shape geoms q) (maxBufSize shape geoms) out = .ok (out ++ remotesOf geoms q) := by
  have hle := le_maxBufSize shape geoms q
  unfold bufOf resize
  rw [List.take_of_length_le hle]
  refine C18.unpack_packGeoms shape (BitVec.ofNat 32 q.val) (geoms q) ?_ (hg q) (hn q) _ _ (by exact_mod_cast hle) out
  have := q.isLt
  rw [Verif.Lemmas.toInt_ofNat32 _ (by omega)]
  omega

theorem conf_loop (hg : ∀ q, ∀ g ∈ geoms q, GeomOk kEdges g.2) (hn : ∀ q, (geoms q).length < 2 ^ 31) (hranks : n ≤ 2 ^ 31)
    (r : Fin n) (k : ℕ) : ∀ p, p + k = n - 1 →
    Conf (proto shape geoms) r (ringLoop kEdges (maxBufSize shape geoms) r k (bufOf shape geoms (r - Fin.ofNat n p))
      (((List.range p).map fun s => r - Fin.ofNat n (s + 1)).flatMap (remotesOf geoms))) (.at p none) := by
  induction k with
  | zero =>
    intro p hp
    have hp' : p = n - 1 := by omega
    subst hp'
    refine ⟨rfl, rfl, rfl, rfl, ?_, ?_⟩
    · intro t
      left
      refine ⟨rfl, fun s => ?_⟩
      simp [Ghost.at, proto]
    · funext d t
      simp [Ghost.at, proto]
  | succ k ih =>
    intro p hp
    have hplt : p < n - 1 := by omega
    unfold ringLoop
    rw [posMod_succ, posMod_pred]
    have hcov : (proto shape geoms).Covers r p [(some (r - 1), (r - 1).val)] := by
      intro t
      left
      refine ⟨by simp, fun s => ?_⟩
      simp only [proto, hplt, true_and]
      by_cases h : r = s + 1 ∧ t = s.val
      · obtain ⟨rfl, rfl⟩ := h
        simp
      · rw [if_neg h, List.length_nil, List.count_eq_zero]
        intro hm
        simp only [List.mem_singleton, Prod.mk.injEq, Option.some.injEq] at hm
        obtain ⟨rfl, rfl⟩ := hm
        exact h ⟨by simp, rfl⟩
    refine ⟨rfl, rfl, rfl, rfl, rfl, hcov, ?_, rfl, rfl, hplt, hcov, ?_, rfl, ?_⟩
    · simp [Ghost.at, proto, hplt]
    · funext d t
      simp only [addSent, Ghost.at, proto, hplt, true_and, List.nil_append]
    · intro got hmat
      simp only [Ghost.at, List.nil_append] at hmat ⊢
      have hlen := hmat.len (some (r - 1), (r - 1).val)
      rw [List.count_cons_self, List.count_nil] at hlen
      obtain ⟨⟨q, buf⟩, hx⟩ := List.length_eq_one_iff.mp hlen
      have hq := hmat.src (r - 1) (r - 1).val (q, buf) (by rw [hx]; simp)
      have hnone : got (none, (r - 1).val) = [] := List.length_eq_zero_iff.mp ((hmat.len _).trans (by simp))
      have heq := hmat.eq (r - 1) (r - 1).val
      unfold D at heq
      rw [hx, hnone] at heq
      simp only [proto, hplt, true_and, sub_add_cancel, and_self, if_true, List.filter_nil, List.append_nil, List.map_cons,
        List.map_nil, List.cons.injEq, and_true] at heq
      subst heq
      have hc : collect [(some (r - 1), (r - 1).val)] got = [(q, bufOf shape geoms (r - 1 - Fin.ofNat n p))] := by
        simp [collect, hx]
      rw [hc]
      simp only
      rw [unpack_bufOf shape kEdges geoms hg hn hranks]
      simp only
      have hsub : r - 1 - Fin.ofNat n p = r - Fin.ofNat n (p + 1) := by
        rw [sub_sub]
        congr 1
        apply Fin.ext
        simp [Fin.val_add, Fin.val_ofNat, Nat.add_comm]
      rw [hsub]
      have := ih (p + 1) (by omega)
      rw [List.range_succ, List.map_append, List.flatMap_append] at this
      simpa [Ghost.at] using this

/-- The conditions on the input: the geometries are well formed (`GeomOk`), and their number and the number of ranks are values of `int`. -/
structure InputOk (kEdges : ℕ) (geoms : Fin n → List (I32 × Geom)) : Prop where
  wf : ∀ q, ∀ g ∈ geoms q, GeomOk kEdges g.2
  count : ∀ q, (geoms q).length < 2 ^ 31
  ranks : n ≤ 2 ^ 31

/-- In every state of every execution: no rank has failed; a rank which has returned holds, in the order of `sources`, the geometries of all of
the other ranks; and if not all of the ranks have returned then some rank can make a step, even when sends are not buffered. -/
theorem ring_spec (h : InputOk kEdges geoms) (w : Fin n → ℤ) {S : Sys n (List Byte) (List Remote)}
    (hS : Reachable (Sys.init (getAllRemoteGeoms2d shape kEdges geoms) w) S) :
    (∀ r, S.prog r ≠ .fail) ∧ (∀ r out, S.prog r = .done out → out = (sources r).flatMap (remotesOf geoms)) ∧
      (S.Finished ∨ ∃ S', Step true S S') := by
  refine correct (proto shape geoms) _ w (fun r => ?_) hS
  have := conf_loop shape kEdges geoms h.wf h.count h.ranks r (n - 1) 0 (by omega)
  simpa [getAllRemoteGeoms2d, bufOf] using this

/-- The result is every geometry of every other rank, once. -/
theorem ring_all_others (h : InputOk kEdges geoms) (w : Fin n → ℤ) {S : Sys n (List Byte) (List Remote)}
    (hS : Reachable (Sys.init (getAllRemoteGeoms2d shape kEdges geoms) w) S) {r : Fin n} {out : List Remote} (hr : S.prog r = .done out) :
    out.Perm (((List.finRange n).filter (· ≠ r)).flatMap (remotesOf geoms)) := by
  rw [(ring_spec shape kEdges geoms h w hS).2.1 r out hr]
  exact (sources_perm r).flatMap_right _

/-- Every execution can be completed, also without buffering. -/
theorem ring_completes (h : InputOk kEdges geoms) (w : Fin n → ℤ) {S : Sys n (List Byte) (List Remote)}
    (hS : Reachable (Sys.init (getAllRemoteGeoms2d shape kEdges geoms) w) S) :
    ∃ S', Relation.ReflTransGen (Step true) S S' ∧ S'.Finished :=
  completes (fun _ h' => (ring_spec shape kEdges geoms h w h').2.2) S hS

/-- There is no infinite execution: with `ring_spec`, all of the ranks return. -/
theorem ring_terminates (f : ℕ → Sys n (List Byte) (List Remote)) : ¬ ∀ i, Step false (f i) (f (i + 1)) := no_infinite false f

/-- Three ranks: a triangle on rank 0, none on rank 1, two on rank 2. -/
def ex : Fin 3 → List (I32 × Geom) := fun r => if r = 0 then [(5, C18.tri)] else if r = 2 then [(0, C18.tri), (9, C18.tri)] else []

theorem ex_ok : InputOk 3 ex := by
  refine ⟨?_, ?_, by decide⟩
  · intro q g hg
    have : g.2 = C18.tri := by
      unfold ex at hg
      split_ifs at hg <;> simp at hg
      · rw [hg]
      · rcases hg with rfl | rfl <;> rfl
    rw [this]; exact C18.tri_ok
  · intro q; unfold ex; split_ifs <;> simp

example : (sources (1 : Fin 3)).flatMap (remotesOf ex) = [⟨0, 5, C18.tri⟩, ⟨2, 0, C18.tri⟩, ⟨2, 9, C18.tri⟩] := by decide +kernel

example (w : Fin 3 → ℤ) {S : Sys 3 (List Byte) (List Remote)} (hS : Reachable (Sys.init (getAllRemoteGeoms2d 3 3 ex) w) S) :
    S.prog 1 ≠ .fail := (ring_spec 3 3 ex ex_ok w hS).1 1

end Verif.Props.C56
