import Verif.Lemmas.SortedMap
import Verif.Lemmas.MpiRounds
import Verif.Props.C18_PackedGeom2D

/-! The steps of the exchange of 2D geometries. -/

namespace Verif.Lemmas.HaloExchange
open Verif.Model.Bytes Verif.Model.PackedGeom2D Verif.Model.Mpi Verif.Model.HaloExchange Verif.Lemmas Verif.Lemmas.Mpi Verif.Spec Verif.Props

variable {n : ℕ}

section
variable {α : Type} (elementMap : List (ℤ × α)) (remote : Fin n)

theorem addElements_spec (hn : (elementMap.map Prod.fst).Nodup) (ids : List ℤ) (hids : ∀ i ∈ ids, i ∈ elementMap.map Prod.fst) :
    ∀ rem : Fin n → List (ℤ × α), (∀ d, Sorted (rem d)) → (∀ d x, x ∈ rem d → x ∈ elementMap) →
    ∃ rem', ids.foldlM (addElement elementMap remote) rem = some rem' ∧ (∀ d, Sorted (rem' d)) ∧
      ∀ d x, x ∈ rem' d ↔ x ∈ rem d ∨ (d = remote ∧ x.1 ∈ ids ∧ x ∈ elementMap) := by
  induction ids with
  | nil => intro rem hs hr; exact ⟨rem, rfl, hs, fun d x => by simp⟩
  | cons i ids ih =>
    intro rem hs hr
    obtain ⟨v, hv⟩ := Option.isSome_iff_exists.mp ((mapGet_isSome i).mpr (hids i List.mem_cons_self))
    have hmem := (mapGet_eq hn i v).mp hv
    have hstep : addElement elementMap remote rem i = some (Function.update rem remote (mapSet i v (rem remote))) := by
      unfold addElement; rw [hv]; rfl
    have key : ∀ d x, x ∈ Function.update rem remote (mapSet i v (rem remote)) d ↔ x ∈ rem d ∨ (d = remote ∧ x = (i, v)) := by
      rintro d ⟨k, w⟩
      by_cases hd : d = remote
      · subst hd
        rw [Function.update_self, mem_mapSet _ _ _ (hs d)]
        constructor
        · rintro (⟨rfl, rfl⟩ | ⟨_, h⟩)
          · right; exact ⟨rfl, rfl⟩
          · left; exact h
        · rintro (h | ⟨_, h⟩)
          · by_cases hk : k = i
            · subst hk
              left
              have := (mapGet_eq hn k w).mpr (hr d _ h)
              rw [hv] at this
              exact ⟨rfl, (Option.some.inj this).symm⟩
            · right; exact ⟨hk, h⟩
          · simp only [Prod.mk.injEq] at h; left; exact h
      · rw [Function.update_of_ne hd]
        simp [hd]
    obtain ⟨rem', h1, h2, h3⟩ := ih (fun j hj => hids j (List.mem_cons_of_mem _ hj)) (Function.update rem remote (mapSet i v (rem remote)))
      (by
        intro d
        by_cases hd : d = remote
        · subst hd; rw [Function.update_self]; exact sorted_mapSet _ _ _ (hs d)
        · rw [Function.update_of_ne hd]; exact hs d)
      (by
        intro d x hx
        rcases (key d x).mp hx with h | ⟨_, rfl⟩
        · exact hr d x h
        · exact hmem)
    refine ⟨rem', by rw [List.foldlM_cons, hstep]; exact h1, h2, fun d x => ?_⟩
    rw [h3, key]
    constructor
    · rintro ((h | ⟨h, rfl⟩) | h)
      · exact Or.inl h
      · exact Or.inr ⟨h, List.mem_cons_self, hmem⟩
      · exact Or.inr ⟨h.1, List.mem_cons_of_mem _ h.2.1, h.2.2⟩
    · rintro (h | ⟨h, h', h''⟩)
      · exact Or.inl (Or.inl h)
      · rcases List.mem_cons.mp h' with e | e
        · refine Or.inl (Or.inr ⟨h, ?_⟩)
          obtain ⟨k, w⟩ := x
          subst e
          have := (mapGet_eq hn k w).mpr h''
          rw [hv] at this
          rw [Option.some.inj this]
        · exact Or.inr ⟨h, e, h''⟩

/-- The ranks to send to are the owners of the cells, and each gets the elements of its cells. -/
theorem sendRanks_spec (rank : Fin n) (owner : ℤ → ℤ) (geomMap : ℤ → List ℤ) (hn : (elementMap.map Prod.fst).Nodup) (unowned : List ℤ)
    (hown : ∀ c ∈ unowned, 0 ≤ owner c ∧ owner c < n ∧ owner c ≠ rank.val) (hids : ∀ c ∈ unowned, ∀ i ∈ geomMap c, i ∈ elementMap.map Prod.fst) :
    ∃ ranks rem, exchangeGetSendRanks rank owner elementMap geomMap unowned = some (ranks, rem) ∧
      ranks.Nodup ∧ (∀ d, d ∈ ranks ↔ ∃ c ∈ unowned, owner c = d.val) ∧ (∀ d, Sorted (rem d)) ∧
      ∀ d x, x ∈ rem d ↔ ∃ c ∈ unowned, owner c = d.val ∧ x.1 ∈ geomMap c ∧ x ∈ elementMap := by
  unfold exchangeGetSendRanks
  suffices H : ∀ (l done : List ℤ) (st : List (Fin n) × (Fin n → List (ℤ × α))), (∀ c ∈ l, c ∈ unowned) →
      st.1.Pairwise (· < ·) → (∀ d, d ∈ st.1 ↔ ∃ c ∈ done, owner c = d.val) → (∀ d, Sorted (st.2 d)) →
      (∀ d x, x ∈ st.2 d ↔ ∃ c ∈ done, owner c = d.val ∧ x.1 ∈ geomMap c ∧ x ∈ elementMap) →
      ∃ ranks rem, l.foldlM (sendRanksStep rank owner elementMap geomMap) st = some (ranks, rem) ∧
      ranks.Pairwise (· < ·) ∧ (∀ d, d ∈ ranks ↔ ∃ c ∈ done ++ l, owner c = d.val) ∧ (∀ d, Sorted (rem d)) ∧
      ∀ d x, x ∈ rem d ↔ ∃ c ∈ done ++ l, owner c = d.val ∧ x.1 ∈ geomMap c ∧ x ∈ elementMap by
    obtain ⟨ranks, rem, h1, h2, h3, h4, h5⟩ := H unowned [] ([], fun _ => []) (fun _ h => h) List.Pairwise.nil (by simp)
      (fun _ => List.Pairwise.nil) (by simp)
    exact ⟨ranks, rem, h1, nodup_of_sorted h2, h3, h4, h5⟩
  intro l
  induction l with
  | nil => intro done st _ h1 h2 h3 h4; exact ⟨st.1, st.2, rfl, h1, by simpa using h2, h3, by simpa using h4⟩
  | cons c l ih =>
    intro done st hl h1 h2 h3 h4
    have hc := hl c List.mem_cons_self
    obtain ⟨o1, o2, o3⟩ := hown c hc
    have hd : 0 ≤ owner c ∧ owner c < n := ⟨o1, o2⟩
    let remote : Fin n := ⟨(owner c).toNat, by omega⟩
    have hrem : ∀ d : Fin n, d = remote ↔ owner c = d.val := by
      intro d
      rw [Fin.ext_iff]
      show d.val = (owner c).toNat ↔ _
      omega
    have hne : remote ≠ rank := by
      intro h; exact o3 ((hrem rank).mp h.symm)
    obtain ⟨rem', e1, e2, e3⟩ := addElements_spec elementMap remote hn (geomMap c) (hids c hc) st.2 h3
      (fun d x hx => by obtain ⟨_, _, _, _, h⟩ := (h4 d x).mp hx; exact h)
    have hstep : sendRanksStep rank owner elementMap geomMap st c = some (setAdd remote st.1, rem') := by
      unfold sendRanksStep
      simp only
      rw [dif_pos hd]
      change (if remote ≠ rank then _ else _) = _
      rw [if_pos hne]
      change (((geomMap c).foldlM (addElement elementMap remote) st.2).map fun rem => (setAdd remote st.1, rem)) = _
      rw [e1]; rfl
    obtain ⟨ranks, rem, g1, g2, g3, g4, g5⟩ := ih (done ++ [c]) (setAdd remote st.1, rem') (fun c' h => hl c' (List.mem_cons_of_mem _ h))
      (sorted_setAdd _ _ h1) (by
        intro d
        rw [mem_setAdd, h2, hrem]
        simp only [List.mem_append, List.mem_singleton, or_and_right, exists_or, exists_eq_left]
        exact or_comm) e2 (by
        intro d x
        rw [e3, h4, hrem]
        simp only [List.mem_append, List.mem_singleton, or_and_right, exists_or, exists_eq_left])
    refine ⟨ranks, rem, by rw [List.foldlM_cons, hstep]; exact g1, g2, ?_, g4, ?_⟩
    · simpa using g3
    · simpa using g5
end

/-! ### The receive buffer -/

theorem take_writeAt (buf data : List Byte) (off k : ℕ) (hk : k ≤ off) (h : off + data.length ≤ buf.length) :
    (writeAt buf off data).take k = buf.take k := by
  unfold writeAt
  rw [List.take_append, List.take_take, List.length_take]
  rw [show min k off = k by omega, show k - min off buf.length = 0 by omega]
  simp

theorem length_writeAt (buf data : List Byte) (off : ℕ) (h : off + data.length ≤ buf.length) : (writeAt buf off data).length = buf.length := by
  unfold writeAt
  simp only [List.length_append, List.length_take, List.length_drop]
  omega

theorem drop_writeAt (buf data : List Byte) (off : ℕ) (h : off + data.length ≤ buf.length) : data <+: (writeAt buf off data).drop off := by
  unfold writeAt
  have h2 : (buf.take off).length = off := by rw [List.length_take]; omega
  rw [List.drop_append, List.drop_eq_nil_of_le (by omega), h2, Nat.sub_self, List.drop_zero, List.nil_append]
  exact List.prefix_append _ _

theorem recvBlocks_spec (maxSize : ℕ) (ms : List (List Byte)) (hmax : ∀ m ∈ ms, m.length ≤ maxSize) : ∀ (i : ℕ) (buf : List Byte),
    (i + ms.length) * maxSize ≤ buf.length →
    ∃ buf', recvBlocks maxSize i ((ms.map fun m => (m.length : ℤ)).zip ms) buf = some buf' ∧ buf'.take (i * maxSize) = buf.take (i * maxSize) ∧
      ∀ j (h : j < ms.length), ms[j] <+: buf'.drop ((i + j) * maxSize) := by
  induction ms with
  | nil => intro i buf _; exact ⟨buf, rfl, rfl, fun j h => absurd h (by simp)⟩
  | cons m ms ih =>
    intro i buf hb
    rw [List.length_cons] at hb
    have hm := hmax m List.mem_cons_self
    have hfit : i * maxSize + m.length ≤ buf.length := by
      have : (i + 1) * maxSize ≤ (i + (ms.length + 1)) * maxSize := Nat.mul_le_mul_right _ (by omega)
      rw [Nat.add_mul] at this
      omega
    obtain ⟨buf', h1, h2, h3⟩ := ih (fun m' h => hmax m' (List.mem_cons_of_mem _ h)) (i + 1) (writeAt buf (i * maxSize) m) (by
      rw [length_writeAt _ _ _ hfit, show i + 1 + ms.length = i + (ms.length + 1) by omega]; exact hb)
    refine ⟨buf', ?_, ?_, ?_⟩
    · rw [List.map_cons, List.zip_cons_cons]
      unfold recvBlocks
      rw [if_neg (lt_irrefl _), if_neg (by omega)]
      exact h1
    · have : (buf'.take ((i + 1) * maxSize)).take (i * maxSize) = ((writeAt buf (i * maxSize) m).take ((i + 1) * maxSize)).take (i * maxSize) := by
        rw [h2]
      have hle : i * maxSize ≤ (i + 1) * maxSize := Nat.mul_le_mul_right _ (by omega)
      rw [List.take_take, List.take_take, Nat.min_eq_left hle] at this
      rw [this, take_writeAt _ _ _ _ le_rfl hfit]
    · intro j hj
      cases j with
      | zero =>
        simp only [List.getElem_cons_zero, Nat.add_zero]
        have hp := drop_writeAt buf m (i * maxSize) hfit
        have hpre : ∀ b : List Byte, m <+: b.drop (i * maxSize) ↔ ((b.take ((i + 1) * maxSize)).drop (i * maxSize)).take m.length = m := by
          intro b
          rw [List.drop_take, List.take_take, show min m.length ((i + 1) * maxSize - i * maxSize) = m.length by
            rw [Nat.add_mul, Nat.one_mul]; omega]
          rw [List.prefix_iff_eq_take]
          exact eq_comm
        rw [hpre] at hp ⊢
        rw [h2]; exact hp
      | succ j =>
        have := h3 j (by simpa using hj)
        rw [show i + 1 + j = i + (j + 1) by omega] at this
        simpa using this

theorem packGeoms_eq (shape rank : I32) (gs : List (I32 × Geom)) :
    packGeoms shape rank gs = packRemotes shape (gs.map fun g => ⟨rank, g.1, g.2⟩) := by
  unfold packGeoms packRemotes
  rw [List.length_map, List.flatMap_map]

theorem unpackBlocks_spec (kEdges maxSize : ℕ) (buf : List Byte) (shape : I32) (blocks : List (List Remote))
    (hg : ∀ b ∈ blocks, ∀ g ∈ b, RemoteOk kEdges g) (hn : ∀ b ∈ blocks, b.length < 2 ^ 31) : ∀ (i : ℕ) (out : List Remote),
    (∀ j (h : j < blocks.length), packRemotes shape blocks[j] <+: buf.drop ((i + j) * maxSize)) →
    unpackBlocks kEdges maxSize buf i (blocks.map fun b => ((packRemotes shape b).length : ℤ)) out = .ok (out ++ blocks.flatten) := by
  induction blocks with
  | nil => intro i out _; simp [unpackBlocks]
  | cons b blocks ih =>
    intro i out hb
    rw [List.map_cons]
    unfold unpackBlocks
    obtain ⟨rest, hrest⟩ := hb 0 (by simp)
    simp only [List.getElem_cons_zero, Nat.add_zero] at hrest
    rw [← hrest, C18.unpack_packRemotes shape b (hg b List.mem_cons_self) (hn b List.mem_cons_self) rest _ le_rfl]
    simp only
    rw [ih (fun b' h => hg b' (List.mem_cons_of_mem _ h)) (fun b' h => hn b' (List.mem_cons_of_mem _ h)) (i + 1)]
    · simp
    · intro j hj
      have := hb (j + 1) (by simpa using hj)
      rw [show i + (j + 1) = i + 1 + j by omega] at this
      simpa using this

theorem maxRecvSize_spec (sizes : List ℤ) (hs : ∀ x ∈ sizes, 0 ≤ x) : (∀ x ∈ sizes, x ≤ maxRecvSize sizes.length sizes) ∧
    (maxRecvSize sizes.length sizes = 0 ∨ maxRecvSize sizes.length sizes ∈ sizes) ∧ 0 ≤ maxRecvSize sizes.length sizes := by
  have key : ∀ (l : List ℤ) (a : ℤ), a ≤ l.foldl max a ∧ (∀ x ∈ l, x ≤ l.foldl max a) ∧ (l.foldl max a = a ∨ l.foldl max a ∈ l) := by
    intro l
    induction l with
    | nil => intro a; simp
    | cons x l ih =>
      intro a
      obtain ⟨h1, h2, h3⟩ := ih (max a x)
      rw [List.foldl_cons]
      refine ⟨(le_max_left _ _).trans h1, ?_, ?_⟩
      · intro y hy
        rcases List.mem_cons.mp hy with rfl | hy
        · exact (le_max_right _ _).trans h1
        · exact h2 y hy
      · rcases h3 with h3 | h3
        · rcases max_choice a x with hm | hm
          · left; rw [h3, hm]
          · right; rw [h3, hm]; exact List.mem_cons_self
        · right; exact List.mem_cons_of_mem _ h3
  unfold maxRecvSize
  cases sizes with
  | nil => simp
  | cons a l =>
    rw [if_pos (by simp only [List.length_cons, gt_iff_lt]; omega)]
    simp only [List.tail_cons, List.headD_cons]
    obtain ⟨h1, h2, h3⟩ := key l a
    refine ⟨?_, ?_, (hs a List.mem_cons_self).trans h1⟩
    · intro x hx
      rcases List.mem_cons.mp hx with rfl | hx
      · exact h1
      · exact h2 x hx
    · right
      rcases h3 with h3 | h3
      · rw [h3]; exact List.mem_cons_self
      · exact List.mem_cons_of_mem _ h3

theorem toInt32_eq {k : ℕ} (h : k < 2 ^ 31) : toInt32 k = k := Verif.Lemmas.toInt_ofNat32 _ h

/-! ### The phases -/

theorem zip_map_self {α β : Type} (l : List α) (f : α → β) : l.zip (l.map f) = l.map fun d => (d, f d) := by
  induction l with
  | nil => rfl
  | cons a l ih => simp [ih]

theorem sendsOf_map {M : Type} (ranks : Fin n → List (Fin n)) (r : Fin n) {sr : List (Fin n)} (hsr : ∀ d, d ∈ sr ↔ d ∈ ranks r) (hnd : sr.Nodup)
    (f : Fin n → Fin n → M) :
    SendsOf (fun s d => if d ∈ ranks s then some (f s d) else none) r (sr.map fun d => (d, f r d)) where
  nodup := by simpa [List.map_map, Function.comp_def] using hnd
  mem d m := by
    rw [List.mem_map]
    constructor
    · rintro ⟨d', hd, he⟩
      simp only [Prod.mk.injEq] at he
      obtain ⟨rfl, rfl⟩ := he
      rw [if_pos ((hsr _).mp hd)]
    · intro h
      by_cases hd : d ∈ ranks r
      · rw [if_pos hd] at h; exact ⟨d, (hsr d).mpr hd, by rw [Option.some.inj h]⟩
      · rw [if_neg hd] at h; cases h

theorem isSome_ite {M : Type} (c : Prop) [Decidable c] (x : M) : (if c then some x else none).isSome = true ↔ c := by
  by_cases h : c <;> simp [h]

theorem received_map {M : Type} {ranks : Fin n → List (Fin n)} {f : Fin n → Fin n → M} {r : Fin n} {res : List (Fin n × M)}
    (h : Received (fun s d => if d ∈ ranks s then some (f s d) else none) r res) :
    res = (res.map Prod.fst).map (fun s => (s, f s r)) ∧ ∀ s, s ∈ res.map Prod.fst ↔ r ∈ ranks s := by
  constructor
  · rw [List.map_map]
    conv_lhs => rw [← List.map_id res]
    refine List.map_congr_left fun x hx => ?_
    obtain ⟨s, m⟩ := x
    have := (h.mem s m).mp hx
    by_cases hd : r ∈ ranks s
    · rw [if_pos hd] at this; simp [Option.some.inj this]
    · rw [if_neg hd] at this; cases this
  · intro s
    rw [List.mem_map]
    constructor
    · rintro ⟨⟨s', m⟩, hx, rfl⟩
      have := (h.mem s' m).mp hx
      by_contra hd
      rw [if_neg hd] at this; cases this
    · intro hd
      exact ⟨(s, f s r), (h.mem s _).mpr (if_pos hd), rfl⟩

theorem bytesOf_map (l : List (Fin n)) (f : Fin n → List Byte) : bytesOf (l.map fun s => (s, Msg.bytes (f s))) = some (l.map f) := by
  unfold bytesOf
  induction l with
  | nil => rfl
  | cons a l ih => simp only [List.map_cons, List.mapM_cons, ih]; rfl

theorem intsOf_map (l : List (Fin n)) (f : Fin n → ℤ) : intsOf (l.map fun s => (s, Msg.int (f s))) = some (l.map f) := by
  unfold intsOf
  induction l with
  | nil => rfl
  | cons a l ih => simp only [List.map_cons, List.mapM_cons, ih]; rfl

variable {O : Type} {ps : List (Phase n Msg)} {post : Fin n → O → Prop} {p : ℕ} {r : Fin n} {base : Option (ℤ × ℕ)}

/-- The message `f s d` of each rank `s` to each of its ranks `d`. -/
def msgs (ranks : Fin n → List (Fin n)) (f : Fin n → Fin n → Msg) (s d : Fin n) : Option Msg := if d ∈ ranks s then some (f s d) else none

theorem conf_exchangeBuffers (shape : I32) (tag kEdges : ℕ) (ranks : Fin n → List (Fin n)) (cont : Fin n → Fin n → List Remote)
    (hp : ps[p]? = some (.comm tag (msgs ranks fun s d => .bytes (packRemotes shape (cont s d)))))
    {sr : List (Fin n)} (hsr : ∀ d, d ∈ sr ↔ d ∈ ranks r) (hnd : sr.Nodup) (hok : ∀ s d, ∀ g ∈ cont s d, RemoteOk kEdges g) (hcount : ∀ s d, (cont s d).length < 2 ^ 31)
    (hsize : ∀ s d, n * (packRemotes shape (cont s d)).length < 2 ^ 31)
    {recvRanks : List (Fin n)} (hrn : recvRanks.Nodup) (hr : ∀ s, s ∈ recvRanks ↔ r ∈ ranks s)
    {out : List Remote} {K : List Remote → Prog n Msg O}
    (hK : Conf (ofPhases ps post) r (K (out ++ recvRanks.flatMap fun s => cont s r)) (.at (p + 1) base)) :
    Conf (ofPhases ps post) r (exchangeBuffers tag kEdges sr (sr.map fun d => packRemotes shape (cont r d))
      (sr.map fun d => toInt32 (packRemotes shape (cont r d)).length) recvRanks
      (recvRanks.map fun s => toInt32 (packRemotes shape (cont s r)).length) out K) (.at p base) := by
  have hn : 0 < n := r.pos
  have hlen : ∀ s d, (packRemotes shape (cont s d)).length < 2 ^ 31 := by
    intro s d
    have := hsize s d
    have : 1 * (packRemotes shape (cont s d)).length ≤ n * (packRemotes shape (cont s d)).length := Nat.mul_le_mul_right _ hn
    omega
  have hi : ∀ s d, toInt32 (packRemotes shape (cont s d)).length = (packRemotes shape (cont s d)).length := fun s d => toInt32_eq (hlen s d)
  simp only [hi]
  unfold exchangeBuffers
  simp only
  generalize hsz : (recvRanks.map fun s => ((packRemotes shape (cont s r)).length : ℤ)) = sizes
  have hszl : sizes.length = recvRanks.length := by rw [← hsz, List.length_map]
  have hs0 : ∀ x ∈ sizes, 0 ≤ x := by
    intro x hx; rw [← hsz] at hx; obtain ⟨s, _, rfl⟩ := List.mem_map.mp hx; exact Int.natCast_nonneg _
  obtain ⟨m1, m2, m3⟩ := maxRecvSize_spec sizes hs0
  rw [hszl] at m1 m2 m3
  generalize hmax : maxRecvSize (recvRanks.length : ℤ) sizes = mx at m1 m2 m3
  have hrl : recvRanks.length ≤ n := by
    have := hrn.length_le_card
    simpa using this
  have hprod : 0 ≤ mx * (recvRanks.length : ℤ) ∧ mx * (recvRanks.length : ℤ) < 2 ^ 31 := by
    refine ⟨by positivity, ?_⟩
    rcases m2 with h | h
    · rw [h]; norm_num
    · rw [← hsz] at h
      obtain ⟨s, _, rfl⟩ := List.mem_map.mp h
      have h1 := hsize s r
      have h2 : (packRemotes shape (cont s r)).length * recvRanks.length ≤ (packRemotes shape (cont s r)).length * n := Nat.mul_le_mul_left _ hrl
      rw [Nat.mul_comm] at h1
      have h3 : (packRemotes shape (cont s r)).length * recvRanks.length < 2 ^ 31 := lt_of_le_of_lt h2 h1
      exact_mod_cast h3
  rw [if_neg (by simpa using hprod), if_neg (by simp [List.map_map, Function.comp_def])]
  rw [List.map_map, zip_map_self]
  refine conf_named hp hrn (fun s => ?_) (sendsOf_map ranks r hsr hnd fun s d => Msg.bytes (packRemotes shape (cont s d))) ?_
  · rw [hr]; exact (isSome_ite _ _).symm
  · intro res hres hfst
    obtain ⟨he, -⟩ := received_map hres
    rw [hfst] at he
    rw [he, bytesOf_map]
    simp only
    obtain ⟨mxn, rfl⟩ := Int.eq_ofNat_of_zero_le m3
    have hms : ∀ m ∈ recvRanks.map (fun s => packRemotes shape (cont s r)), m.length ≤ mxn := by
      intro m hm
      obtain ⟨s, hs, rfl⟩ := List.mem_map.mp hm
      have := m1 (packRemotes shape (cont s r)).length (by rw [← hsz]; exact List.mem_map.mpr ⟨s, hs, rfl⟩)
      exact_mod_cast this
    have htn : ((mxn : ℤ) * (recvRanks.length : ℤ)).toNat = mxn * recvRanks.length := by
      rw [← Int.natCast_mul, Int.toNat_natCast]
    obtain ⟨buf, h1, -, h3⟩ := recvBlocks_spec mxn (recvRanks.map fun s => packRemotes shape (cont s r)) hms 0
      (List.replicate ((mxn : ℤ) * (recvRanks.length : ℤ)).toNat 0) (by
        rw [htn, List.length_replicate, List.length_map, Nat.zero_add, Nat.mul_comm])
    have hsz2 : (recvRanks.map fun s => packRemotes shape (cont s r)).map (fun m => (m.length : ℤ)) = sizes := by
      rw [← hsz, List.map_map]; rfl
    rw [hsz2] at h1
    rw [Int.toNat_natCast, h1]
    simp only
    have hu := unpackBlocks_spec kEdges mxn buf shape (recvRanks.map fun s => cont s r)
      (by intro b hb; obtain ⟨s, _, rfl⟩ := List.mem_map.mp hb; exact hok s r)
      (by intro b hb; obtain ⟨s, _, rfl⟩ := List.mem_map.mp hb; exact hcount s r) 0 out (by
        intro j hj
        have := h3 j (by simpa using hj)
        simpa using this)
    rw [List.map_map] at hu
    have hsz3 : recvRanks.map ((fun b => ((packRemotes shape b).length : ℤ)) ∘ fun s => cont s r) = sizes := by
      rw [← hsz]; rfl
    rw [hsz3] at hu
    rw [hu]
    simp only
    rw [← List.flatMap_def]
    exact hK

theorem conf_getRecvRanks (ranks : Fin n → List (Fin n)) (f : Fin n → Fin n → ℤ)
    (hp : ps[p]? = some (.comm 45 (msgs ranks fun s d => .int (f s d)))) (hs : anyB (ps.map Phase.kind) p 45 = true) (hnd : (ranks r).Nodup)
    {K : List (Fin n) → List ℤ → Prog n Msg O}
    (hK : ∀ recvRanks : List (Fin n), recvRanks.Nodup → (∀ s, s ∈ recvRanks ↔ r ∈ ranks s) →
      Conf (ofPhases ps post) r (K recvRanks (recvRanks.map fun s => f s r)) (.at (p + 1) base)) :
    Conf (ofPhases ps post) r (exchangeGetRecvRanks (ranks r) ((ranks r).map (f r))
      ((Finset.univ.filter fun s => decide (r ∈ ranks s) = true).card : ℕ) K) (.at p base) := by
  unfold exchangeGetRecvRanks
  rw [if_neg (by omega), Int.toNat_natCast, List.map_map, zip_map_self]
  refine conf_any hp hs ?_ (sendsOf_map ranks r (fun _ => Iff.rfl) hnd fun s d => Msg.int (f s d)) ?_
  · congr 1
    ext s
    simp only [Finset.mem_filter, Finset.mem_univ, true_and, decide_eq_true_eq]
    exact (isSome_ite _ _).symm
  · intro res hres
    obtain ⟨he, hm⟩ := received_map hres
    rw [he, intsOf_map]
    have := hK _ hres.nodup hm
    simpa [List.map_map, Function.comp_def] using this

/-- The contents of the message of `s` to `d`. -/
def contents (rem : Fin n → Fin n → List (ℤ × Geom)) (s d : Fin n) : List Remote :=
  (rem s d).map fun g => ⟨BitVec.ofNat 32 s.val, BitVec.ofInt 32 g.1, g.2⟩

/-- The phases of `exchange_packed_2d`. -/
def packedPhases (shape : I32) (ranks : Fin n → List (Fin n)) (rem : Fin n → Fin n → List (ℤ × Geom)) : List (Phase n Msg) :=
  [.bar, .acc fun s d => decide (d ∈ ranks s), .comm 45 (msgs ranks fun s d => .int (toInt32 (packRemotes shape (contents rem s d)).length)),
    .comm 46 (msgs ranks fun s d => .bytes (packRemotes shape (contents rem s d)))]

theorem conf_exchangePacked (shape : I32) (kEdges : ℕ) (ranks : Fin n → List (Fin n)) (rem : Fin n → Fin n → List (ℤ × Geom))
    (hps : ∀ i < 4, ps[p + i]? = (packedPhases shape ranks rem)[i]?)
    (hq0 : quietB (ps.map Phase.kind) p = true) (hq2 : quietB (ps.map Phase.kind) (p + 2) = true) (ha : anyB (ps.map Phase.kind) (p + 2) 45 = true)
    (hnd : (ranks r).Nodup) (hok : ∀ s d, ∀ g ∈ rem s d, GeomOk kEdges g.2) (hcount : ∀ s d, (rem s d).length < 2 ^ 31) (hranks : n ≤ 2 ^ 31)
    (hsize : ∀ s d, n * (packRemotes shape (contents rem s d)).length < 2 ^ 31)
    {out : List Remote} {K : List Remote → Prog n Msg O}
    (hK : ∀ recvRanks : List (Fin n), recvRanks.Nodup → (∀ s, s ∈ recvRanks ↔ r ∈ ranks s) →
      Conf (ofPhases ps post) r (K (out ++ recvRanks.flatMap fun s => contents rem s r)) (.at (p + 4) (some (0, p)))) :
    Conf (ofPhases ps post) r (exchangePacked2d shape kEdges r (ranks r) (rem r) out K) (.at p base) := by
  unfold exchangePacked2d
  have hpk : ∀ d, packGeoms shape (BitVec.ofNat 32 r.val) ((rem r d).map fun g => (BitVec.ofInt 32 g.1, g.2)) = packRemotes shape (contents rem r d) := by
    intro d
    rw [packGeoms_eq]
    unfold contents
    rw [List.map_map]; rfl
  simp only [hpk, List.map_map]
  refine conf_countRanks (hps 0 (by omega)) (hps 1 (by omega)) hq0 hq2 hnd (fun d => by simp) ?_
  refine conf_getRecvRanks ranks (fun s d => toInt32 (packRemotes shape (contents rem s d)).length) (hps 2 (by omega)) ha hnd ?_
  intro recvRanks h1 h2
  refine conf_exchangeBuffers shape 46 kEdges ranks (contents rem) (hps 3 (by omega)) (fun _ => Iff.rfl) hnd ?_ ?_ hsize h1 h2 (hK recvRanks h1 h2)
  · intro s d g hg
    obtain ⟨x, hx, rfl⟩ := List.mem_map.mp hg
    refine ⟨?_, hok s d x hx⟩
    have := s.isLt
    rw [Verif.Lemmas.toInt_ofNat32 _ (by omega)]
    omega
  · intro s d
    unfold contents
    rw [List.length_map]; exact hcount s d

end Verif.Lemmas.HaloExchange
