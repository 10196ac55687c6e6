import Verif.Props.C53_Parameters

/-! C54: the sections for species, boundaries and reactions. -/

namespace Verif.Props.C54
open Verif.Model.ParticleReader
open Verif.Spec.Config Verif.Spec.NameValue

/-! ### `std::stoi` -/

theorem digitsVal_eq (s : Str) : digitsVal s = decimal s := by
  have : ∀ (l : Str), (l.reverse.foldl (fun a c => 10 * a + (c.toNat - '0'.toNat)) 0) = Nat.ofDigits 10 (l.map fun c => c.toNat - 48) := by
    intro l
    induction l with
    | nil => rfl
    | cons c l ih =>
      rw [List.reverse_cons, List.foldl_append, ih, List.map_cons, Nat.ofDigits_cons]
      simp only [List.foldl_cons, List.foldl_nil]
      rw [show '0'.toNat = 48 from rfl, Nat.add_comm]
  have h := this s.reverse
  rw [List.reverse_reverse] at h
  exact h

theorem takeWhile_split {p : Char → Bool} (ds rest : Str) (h1 : ∀ c ∈ ds, p c = true) (h2 : ∀ c, rest.head? = some c → p c = false) :
    (ds ++ rest).takeWhile p = ds ∧ (ds ++ rest).dropWhile p = rest := by
  induction ds with
  | nil =>
    cases rest with
    | nil => simp
    | cons c l => simp [h2 c rfl]
  | cons d l ih =>
    have := ih fun c hc => h1 c (by simp [hc])
    simp [h1 d (by simp), this.1, this.2]

theorem of_takeWhile {p : Char → Bool} {c : Char} {l : Str} (h : c ∈ l.takeWhile p) : p c = true := by
  induction l with
  | nil => simp at h
  | cons x l ih =>
    rw [List.takeWhile_cons] at h
    split_ifs at h with hx
    · rcases List.mem_cons.1 h with rfl | h
      · exact hx
      · exact ih h
    · simp at h

/-- White space is the white space of the C locale. -/
theorem isSpace_iff (c : Char) : isSpace c = true ↔ c.toNat ∈ [9, 10, 11, 12, 13, 32] := by
  have key : ∀ n, n ∈ [9, 10, 11, 12, 13, 32] → (c = Char.ofNat n ↔ c.toNat = n) := by
    intro n hn
    refine ⟨fun h => ?_, fun h => ?_⟩
    · subst h
      revert n; decide
    · rw [← h, Char.ofNat_toNat]
  have e1 : ' ' = Char.ofNat 32 := rfl
  have e2 : '\t' = Char.ofNat 9 := rfl
  have e3 : '\n' = Char.ofNat 10 := rfl
  have e4 : '\r' = Char.ofNat 13 := rfl
  unfold isSpace
  rw [e1, e2, e3, e4]
  simp only [Bool.or_eq_true, decide_eq_true_eq, List.mem_cons, List.not_mem_nil, or_false]
  rw [key 32 (by decide), key 9 (by decide), key 10 (by decide), key 11 (by decide), key 12 (by decide), key 13 (by decide)]
  tauto

theorem not_space_of_digit (c : Char) (h : c.isDigit = true) : isSpace c = false ∧ c ≠ '-' ∧ c ≠ '+' := by
  have key : ∀ x : Char, x.isDigit = false → c ≠ x := fun x hx e => by rw [e, hx] at h; exact absurd h (by simp)
  refine ⟨?_, key _ (by decide), key _ (by decide)⟩
  unfold isSpace
  simp only [key ' ' (by decide), key '\t' (by decide), key '\n' (by decide), key (Char.ofNat 11) (by decide), key (Char.ofNat 12) (by decide),
    key '\r' (by decide), decide_false, Bool.or_self]

/-- **Integers.** `std::stoi` gives `v` exactly if the string starts with the integer `v` and this is an `int`. Anything after the digits is ignored. -/
theorem stoi_iff (s : Str) (v : ℤ) : stoi s = some v ↔ ReadsInt s v := by
  unfold ReadsInt
  have core : ∀ (u : Str) (neg : Bool), (if u.takeWhile Char.isDigit = [] then none else
      let w : ℤ := if neg then -(digitsVal (u.takeWhile Char.isDigit) : ℤ) else digitsVal (u.takeWhile Char.isDigit)
      if -2 ^ 31 ≤ w ∧ w < 2 ^ 31 then some w else none) = some v ↔
      ∃ ds rest, u = ds ++ rest ∧ ds ≠ [] ∧ (∀ c ∈ ds, c.isDigit = true) ∧ (∀ c, rest.head? = some c → c.isDigit = false) ∧
        v = (if neg then -(decimal ds : ℤ) else decimal ds) ∧ -2 ^ 31 ≤ v ∧ v < 2 ^ 31 := by
    intro u neg
    constructor
    · intro h
      by_cases h1 : u.takeWhile Char.isDigit = []
      · rw [if_pos h1] at h
        exact absurd h (by simp)
      rw [if_neg h1] at h
      dsimp only at h
      rw [digitsVal_eq] at h
      generalize hw : (if neg = true then -(decimal (u.takeWhile Char.isDigit) : ℤ) else (decimal (u.takeWhile Char.isDigit) : ℤ)) = w at h
      by_cases hr : -2 ^ 31 ≤ w ∧ w < 2 ^ 31
      · rw [if_pos hr, Option.some.injEq] at h
        subst h
        refine ⟨u.takeWhile Char.isDigit, u.dropWhile Char.isDigit, (List.takeWhile_append_dropWhile).symm, h1, fun c hc => ?_, fun c hc => ?_, hw.symm, hr⟩
        · exact of_takeWhile hc
        · have := List.head?_dropWhile_not Char.isDigit u
          rw [hc] at this
          simpa using this
      · rw [if_neg hr] at h
        exact absurd h (by simp)
    · rintro ⟨ds, rest, rfl, h1, h2, h3, rfl, h4⟩
      have ht := (takeWhile_split ds rest h2 h3).1
      rw [ht, if_neg h1]
      dsimp only
      rw [digitsVal_eq, if_pos h4]
  constructor
  · intro h
    have hs : s = s.takeWhile isSpace ++ s.dropWhile isSpace := (List.takeWhile_append_dropWhile).symm
    have hw : ∀ c ∈ s.takeWhile isSpace, c.toNat ∈ [9, 10, 11, 12, 13, 32] := fun c hc => (isSpace_iff c).1 (of_takeWhile hc)
    unfold stoi at h
    dsimp only at h
    split at h
    · rename_i u hu
      obtain ⟨ds, rest, rfl, h1, h2, h3, h4, h5⟩ := (core u true).1 h
      refine ⟨⟨_, ['-'], ds, rest, ?_, hw, h1, h2, h3, Or.inr (Or.inr ⟨rfl, h4⟩)⟩, h5⟩
      rw [List.singleton_append, ← hu]; exact hs
    · rename_i u hu
      obtain ⟨ds, rest, rfl, h1, h2, h3, h4, h5⟩ := (core u false).1 h
      refine ⟨⟨_, ['+'], ds, rest, ?_, hw, h1, h2, h3, Or.inr (Or.inl ⟨rfl, h4⟩)⟩, h5⟩
      rw [List.singleton_append, ← hu]; exact hs
    · obtain ⟨ds, rest, e, h1, h2, h3, h4, h5⟩ := (core (s.dropWhile isSpace) false).1 h
      refine ⟨⟨_, [], ds, rest, ?_, hw, h1, h2, h3, Or.inl ⟨rfl, h4⟩⟩, h5⟩
      rw [List.nil_append, ← e]; exact hs
  · rintro ⟨⟨ws, sign, ds, rest, rfl, hws, h1, h2, h3, h4⟩, h5⟩
    have hd : ∀ x l, ds = x :: l → isSpace x = false ∧ x ≠ '-' ∧ x ≠ '+' := fun x l e => not_space_of_digit x (h2 x (by rw [e]; simp))
    obtain ⟨x, l, hxl⟩ := List.exists_cons_of_ne_nil h1
    have hdrop : (ws ++ (sign ++ (ds ++ rest))).dropWhile isSpace = sign ++ (ds ++ rest) := by
      refine (takeWhile_split ws _ (fun c hc => (isSpace_iff c).2 (hws c hc)) fun c hc => ?_).2
      rcases h4 with ⟨rfl, _⟩ | ⟨rfl, _⟩ | ⟨rfl, _⟩
      · rw [hxl] at hc
        simp only [List.nil_append, List.cons_append, List.head?_cons, Option.some.injEq] at hc
        rw [← hc]; exact (hd x l hxl).1
      · simp only [List.singleton_append, List.head?_cons, Option.some.injEq] at hc
        rw [← hc]; decide
      · simp only [List.singleton_append, List.head?_cons, Option.some.injEq] at hc
        rw [← hc]; decide
    unfold stoi
    dsimp only
    rw [hdrop]
    rcases h4 with ⟨rfl, h4⟩ | ⟨rfl, h4⟩ | ⟨rfl, h4⟩
    · rw [List.nil_append]
      split
      · rename_i u hu
        rw [hxl] at hu
        simp only [List.cons_append, List.cons.injEq] at hu
        exact absurd hu.1 (hd x l hxl).2.1
      · rename_i u hu
        rw [hxl] at hu
        simp only [List.cons_append, List.cons.injEq] at hu
        exact absurd hu.1 (hd x l hxl).2.2
      · exact (core (ds ++ rest) false).2 ⟨ds, rest, rfl, h1, h2, h3, h4, h5⟩
    · simp only [List.singleton_append]
      exact (core (ds ++ rest) false).2 ⟨ds, rest, rfl, h1, h2, h3, h4, h5⟩
    · simp only [List.singleton_append]
      exact (core (ds ++ rest) true).2 ⟨ds, rest, rfl, h1, h2, h3, h4, h5⟩

/-- The integer of an attribute. -/
theorem attr_iff (e : Elem) (name : String) (v : ℤ) : (e.attr name.toList).bind stoi = some v ↔ AttrInt e name v := by
  unfold AttrInt
  rw [Option.bind_eq_some_iff]
  simp only [stoi_iff]

theorem attr_unique (e : Elem) (name : String) (v w : ℤ) (h : AttrInt e name v) (h' : AttrInt e name w) : v = w := by
  rw [← attr_iff] at h h'
  rw [h] at h'
  exact Option.some.inj h'

theorem stoi_nil : stoi [] = none := by decide

/-- Either no element has the property or one is the last. -/
theorem none_or_last (Q : Elem → Prop) : ∀ l : List Elem, (∀ e ∈ l, ¬ Q e) ∨ ∃ e, IsLast l Q e
  | [] => Or.inl (by simp)
  | x :: l => by
    rcases none_or_last Q l with h | ⟨e, b, a, rfl, hq, ha⟩
    · by_cases hx : Q x
      · exact Or.inr ⟨x, [], l, rfl, hx, h⟩
      · exact Or.inl (by simpa [hx] using h)
    · exact Or.inr ⟨e, x :: b, a, rfl, hq, ha⟩

theorem last_unique (Q : Elem → Prop) (l : List Elem) (e e' : Elem) (h : IsLast l Q e) (h' : IsLast l Q e') : e = e' := by
  obtain ⟨b, a, rfl, hq, ha⟩ := h
  obtain ⟨b', a', e2, hq', ha'⟩ := h'
  rcases List.append_eq_append_iff.1 e2 with ⟨c, h1, h2⟩ | ⟨c, h1, h2⟩
  · cases c with
    | nil => simp only [List.nil_append, List.cons.injEq] at h2; exact h2.1
    | cons y c =>
      simp only [List.cons_append, List.cons.injEq] at h2
      exact absurd hq' (ha e' (by rw [h2.2]; simp))
  · cases c with
    | nil => simp only [List.nil_append, List.cons.injEq] at h2; exact h2.1.symm
    | cons y c =>
      simp only [List.cons_append, List.cons.injEq] at h2
      exact absurd hq (ha' e (by rw [h2.2]; simp))

/-! ### Boundaries -/

/-- One condition element: it must have a SPECIES attribute that starts with an integer. -/
theorem condition_spec (P : Parsers) (all : List ℤ) (e : Elem) (m m' : Map ℤ BType) (h : readCondition P all e m = some m') :
    ∃ id, AttrInt e "SPECIES" id ∧ ((∃ t, HasType e t ∧ m' = m.put id t) ∨ ((∀ t, ¬ HasType e t) ∧ m' = m)) := by
  unfold readCondition at h
  cases h1 : e.attr "SPECIES".toList with
  | none => rw [h1] at h; exact absurd h (by simp)
  | some d =>
    rw [h1] at h
    dsimp only at h
    cases h2 : stoi d with
    | none => rw [h2] at h; exact absurd h (by simp)
    | some id =>
      rw [h2] at h
      dsimp only at h
      have hd : d ≠ [] := fun hd => by rw [hd, stoi_nil] at h2; exact absurd h2 (by simp)
      refine ⟨id, (attr_iff e "SPECIES" id).1 (by rw [h1]; exact h2), ?_⟩
      unfold HasType
      by_cases hc : e.name = ['C']
      · rw [if_pos hc, if_neg hd] at h
        have ha : e.attrs ≠ [] := fun ha => by simp [Elem.attr, ha] at h1
        rw [if_pos ha] at h
        split_ifs at h with h3
        rw [Option.some.injEq] at h
        exact Or.inl ⟨_, Or.inl ⟨hc, rfl⟩, h.symm⟩
      · rw [if_neg hc] at h
        by_cases hp : e.name = ['P']
        · rw [if_pos hp, if_neg hd] at h
          have ha : e.attrs ≠ [] := fun ha => by simp [Elem.attr, ha] at h1
          rw [if_pos ha] at h
          split_ifs at h with h3
          rw [Option.some.injEq] at h
          exact Or.inl ⟨_, Or.inr ⟨hp, rfl⟩, h.symm⟩
        · rw [if_neg hp, Option.some.injEq] at h
          exact Or.inr ⟨fun t ht => by rcases ht with ⟨h', _⟩ | ⟨h', _⟩ <;> contradiction, h.symm⟩

theorem hasType_unique (e : Elem) (t t' : BType) (h : HasType e t) (h' : HasType e t') : t = t' := by
  unfold HasType at h h'
  rcases h with ⟨h1, rfl⟩ | ⟨h1, rfl⟩ <;> rcases h' with ⟨h2, rfl⟩ | ⟨h2, rfl⟩ <;> first | rfl | (rw [h1] at h2; exact absurd h2 (by decide))

theorem lastCondition_cons (e : Elem) (l : List Elem) (id : ℤ) (t : BType) : LastCondition (e :: l) id t ↔
    LastCondition l id t ∨ ((∀ t, ¬ LastCondition l id t) ∧ AttrInt e "SPECIES" id ∧ HasType e t) := by
  constructor
  · rintro ⟨x, ⟨b, a, h1, h2, h3⟩, h4⟩
    cases b with
    | nil =>
      simp only [List.nil_append, List.cons.injEq] at h1
      obtain ⟨rfl, rfl⟩ := h1
      refine Or.inr ⟨?_, h2.1, h4⟩
      rintro t' ⟨y, ⟨b', a', rfl, h5, _⟩, _⟩
      exact h3 y (by simp) h5
    | cons y b =>
      simp only [List.cons_append, List.cons.injEq] at h1
      obtain ⟨rfl, rfl⟩ := h1
      exact Or.inl ⟨x, ⟨b, a, rfl, h2, h3⟩, h4⟩
  · rintro (⟨x, ⟨b, a, rfl, h2, h3⟩, h4⟩ | ⟨h1, h2, h3⟩)
    · exact ⟨x, ⟨e :: b, a, rfl, h2, h3⟩, h4⟩
    · refine ⟨e, ⟨[], l, rfl, ⟨h2, t, h3⟩, fun x hx hc => ?_⟩, h3⟩
      rcases none_or_last (fun x => AttrInt x "SPECIES" id ∧ ∃ t, HasType x t) l with h | ⟨y, hy⟩
      · exact h x hx hc
      · have hy' := hy
        obtain ⟨_, _, _, ⟨_, t', ht'⟩, _⟩ := hy'
        exact h1 t' ⟨y, hy, ht'⟩

/-- The conditions of a region: for each species the last one counts. -/
theorem conditions_spec (P : Parsers) (all : List ℤ) : ∀ (l : List Elem) (m m' : Map ℤ BType), readConditions P all l m = some m' → ∀ id t,
    m' id = some t ↔ LastCondition l id t ∨ ((∀ t, ¬ LastCondition l id t) ∧ m id = some t)
  | [], m, m', h, id, t => by
    simp only [readConditions, Option.some.injEq] at h
    subst h
    have : ∀ t, ¬ LastCondition [] id t := by
      rintro t ⟨e, ⟨b, a, h, _⟩, _⟩
      exact absurd h (by simp)
    simp [this]
  | e :: l, m, m', h, id, t => by
    rw [readConditions, Option.bind_eq_some_iff] at h
    obtain ⟨m1, h1, h2⟩ := h
    rw [conditions_spec P all l m1 m' h2 id t]
    simp only [lastCondition_cons e l id]
    obtain ⟨i, hi, hc⟩ := condition_spec P all e m m1 h1
    by_cases hl : ∃ t, LastCondition l id t
    · obtain ⟨t0, ht0⟩ := hl
      have hn : ¬ ∀ t, ¬ LastCondition l id t := fun hc => hc t0 ht0
      constructor
      · rintro (h | ⟨h, _⟩)
        · exact Or.inl (Or.inl h)
        · exact absurd h hn
      · rintro ((h | ⟨h, _⟩) | ⟨h, _⟩)
        · exact Or.inl h
        · exact absurd h hn
        · exact absurd (Or.inl ht0) (h t0)
    · have hn : ∀ t, ¬ LastCondition l id t := fun t ht => hl ⟨t, ht⟩
      rcases hc with ⟨t1, ht1, rfl⟩ | ⟨hno, rfl⟩
      · by_cases hid : id = i
        · subst hid
          simp only [hn, Map.put, if_true, Option.some.injEq, hi, not_false_eq_true, implies_true, true_and, false_or]
          constructor
          · rintro rfl; exact Or.inl ht1
          · rintro (h | ⟨h, _⟩)
            · exact hasType_unique e _ _ ht1 h
            · exact absurd ht1 (h t1)
        · have : ¬ AttrInt e "SPECIES" id := fun h => hid (attr_unique e _ _ _ h hi)
          simp [hn, Map.put, hid, this]
      · simp [hn, hno]

/-- **C54, boundaries.** If the boundary section is read: no two regions have the same reference; every region has one; the boundaries have exactly the
regions of the section; and for every region and species the type is that of the last condition in the region for that species. -/
theorem regions_spec (P : Parsers) (all : List ℤ) : ∀ (l : List Elem) (m m' : Map ℤ (Map ℤ BType)), readRegions P all l m = some m' →
    (∀ e ∈ l, ∃ id, AttrInt e "REF" id ∧ m id = none) ∧
    l.Pairwise (fun e e' => ∀ id, AttrInt e "REF" id → ¬ AttrInt e' "REF" id) ∧
    (∀ e ∈ l, ∀ id, AttrInt e "REF" id → ∃ c, m' id = some c ∧ ∀ s t, c s = some t ↔ LastCondition e.elems s t) ∧
    (∀ id, (∀ e ∈ l, ¬ AttrInt e "REF" id) → m' id = m id)
  | [], m, m', h => by
    simp only [readRegions, Option.some.injEq] at h
    subst h
    simp
  | e :: l, m, m', h => by
    rw [readRegions] at h
    cases h1 : (e.attr "REF".toList).bind stoi with
    | none => rw [h1] at h; exact absurd h (by simp)
    | some id =>
      rw [h1] at h
      dsimp only at h
      split_ifs at h with h2
      rw [Option.bind_eq_some_iff] at h
      obtain ⟨c, hc, hr⟩ := h
      have hid := (attr_iff e "REF" id).1 h1
      obtain ⟨r1, r2, r3, r4⟩ := regions_spec P all l _ _ hr
      have hne : ∀ x ∈ l, ¬ AttrInt x "REF" id := by
        intro x hx hax
        obtain ⟨i, hi, hn⟩ := r1 x hx
        rw [attr_unique x _ _ _ hi hax] at hn
        simp [Map.put] at hn
      refine ⟨?_, ?_, ?_, ?_⟩
      · rw [List.forall_mem_cons]
        refine ⟨⟨id, hid, by simpa using h2⟩, fun x hx => ?_⟩
        obtain ⟨i, hi, hn⟩ := r1 x hx
        refine ⟨i, hi, ?_⟩
        simp only [Map.put] at hn
        split_ifs at hn
        exact hn
      · refine List.pairwise_cons.2 ⟨fun x hx i hi => ?_, r2⟩
        rw [attr_unique e _ _ _ hi hid]
        exact hne x hx
      · rw [List.forall_mem_cons]
        refine ⟨fun i hi => ?_, r3⟩
        rw [attr_unique e _ _ _ hi hid, r4 id hne]
        refine ⟨c, by simp [Map.put], fun s t => ?_⟩
        rw [conditions_spec P all _ _ _ hc s t]
        simp
      · intro i hi
        rw [List.forall_mem_cons] at hi
        rw [r4 i hi.2]
        have : i ≠ id := fun e' => hi.1 (e' ▸ hid)
        simp [Map.put, this]

/-- **C54, duplicates.** Two regions with the same reference: reading fails. -/
theorem duplicate_rejected (P : Parsers) (all : List ℤ) (b1 b2 b3 : List Elem) (e e' : Elem) (id : ℤ) (h : AttrInt e "REF" id) (h' : AttrInt e' "REF" id)
    (m : Map ℤ (Map ℤ BType)) : readRegions P all (b1 ++ e :: b2 ++ e' :: b3) m = none := by
  cases hr : readRegions P all (b1 ++ e :: b2 ++ e' :: b3) m with
  | none => rfl
  | some m' =>
    have := (regions_spec P all _ _ _ hr).2.1
    rw [List.append_assoc, List.pairwise_append] at this
    have h1 := this.2.1
    rw [List.cons_append, List.pairwise_cons] at h1
    exact absurd h' (h1.1 e' (by simp) id h)

/-- Finding: a condition without a SPECIES attribute, or with an empty one, is never accepted, so there is no way to state a condition for all species. -/
theorem all_species_unreachable (P : Parsers) (all : List ℤ) (e : Elem) (h : e.attr "SPECIES".toList = none ∨ e.attr "SPECIES".toList = some []) (m : Map ℤ BType) :
    readCondition P all e m = none := by
  unfold readCondition
  rcases h with h | h <;> rw [h]
  simp [stoi_nil]

/-- Finding: of a list of species only the first is used. -/
theorem only_first_species (P : Parsers) (all : List ℤ) : (readCondition P all ⟨['C'], [("SPECIES".toList, "1,2".toList)], []⟩ fun _ => none).map
    (fun m => (m 1, m 2)) = some (some .reflective, none) := by rfl

/-! ### Reactions -/

/-- The pieces of a split string have no separator and give the string when joined. -/
theorem split_spec (c : Char) : ∀ s : Str, (∀ p ∈ split c s, c ∉ p) ∧ [c].intercalate (split c s) = s ∧ split c s ≠ []
  | [] => by simp [split, List.intercalate]
  | x :: l => by
    obtain ⟨h1, h2, h3⟩ := split_spec c l
    rw [split]
    by_cases hx : x = c
    · rw [if_pos hx]
      obtain ⟨f, r, hf⟩ := List.exists_cons_of_ne_nil h3
      refine ⟨?_, ?_, by simp⟩
      · rw [List.forall_mem_cons]; exact ⟨by simp, h1⟩
      · rw [hf] at h2 ⊢
        rw [List.intercalate] at h2 ⊢
        simp only [List.intersperse_cons_cons, List.flatten_cons, List.nil_append] at h2 ⊢
        rw [hx, List.singleton_append, h2]
    · rw [if_neg hx]
      obtain ⟨f, r, hf⟩ := List.exists_cons_of_ne_nil h3
      rw [hf] at h1 h2 ⊢
      dsimp only
      refine ⟨?_, ?_, by simp⟩
      · rw [List.forall_mem_cons] at h1 ⊢
        exact ⟨by simpa [Ne.symm hx] using h1.1, h1.2⟩
      · rw [List.intercalate] at h2 ⊢
        cases r with
        | nil => simpa using h2
        | cons g r => simpa using h2

theorem reactionSpecies_iff {S : Type} (species : Map ℤ S) : ∀ (l : List Str) (ids : List ℤ), reactionSpecies species l = some ids ↔
    List.Forall₂ ReadsInt l ids ∧ ∀ i ∈ ids, (species i).isSome = true
  | [], ids => by
    simp only [reactionSpecies, Option.some.injEq, List.forall₂_nil_left_iff]
    constructor
    · rintro rfl; simp
    · rintro ⟨rfl, _⟩; rfl
  | s :: l, ids => by
    rw [reactionSpecies]
    cases hs : stoi s with
    | none =>
      simp only [reduceCtorEq, false_iff, not_and]
      intro h
      cases h with
      | cons h _ => rw [(stoi_iff _ _).2 h] at hs; exact absurd hs (by simp)
    | some i =>
      dsimp only
      have hi := (stoi_iff _ _).1 hs
      constructor
      · intro h
        split_ifs at h with hd
        rw [Option.map_eq_some_iff] at h
        obtain ⟨ids', h', rfl⟩ := h
        obtain ⟨h1, h2⟩ := (reactionSpecies_iff species l ids').1 h'
        exact ⟨.cons hi h1, by rw [List.forall_mem_cons]; exact ⟨hd, h2⟩⟩
      · rintro ⟨h1, h2⟩
        cases h1 with
        | cons ha hb =>
          rename_i b ids'
          rw [(stoi_iff _ _).2 ha, Option.some.injEq] at hs
          subst hs
          rw [List.forall_mem_cons] at h2
          rw [if_pos h2.1, (reactionSpecies_iff species l ids').2 ⟨hb, h2.2⟩]
          rfl

/-- What a reaction element gives. -/
structure ReactionOf {σ V S : Type} (I : Interp σ V) (known : Map ℤ S) (e : Elem) (r : Reaction V) : Prop where
  type : e.attr "TYPE".toList = some r.type ∧ r.type ≠ []
  species : ∃ d, e.attr "SPECIES".toList = some d ∧ List.Forall₂ ReadsInt (split ',' d) r.species
  declared : ∀ i ∈ r.species, (known i).isSome = true
  params : C53.Short (e.fromFirst ['P']) → ∃ s s' ds, Defines I s (e.fromFirst ['P']) s' ds ∧ ∀ name, r.params (upper name) = lastDef ds name

theorem params_of {σ V : Type} (I : Interp σ V) (l : List Elem) (hl : C53.Short l) (s s' : σ) (m : Map Str V) (h : readParamLoop I l (s, fun _ => none) = some (s', m)) :
    ∃ ds, Defines I s l s' ds ∧ ∀ name, m (upper name) = lastDef ds name := by
  obtain ⟨ds, hd, rfl⟩ := (C53.loop_iff I l hl _ _ _ _).1 h
  refine ⟨ds, hd, fun name => ?_⟩
  simp only [Option.or_none, lastDef, C53.same_iff]

theorem reaction_spec {σ V S : Type} (I : Interp σ V) (species : Map ℤ S) (e : Elem) (st st' : σ × Map ℤ (Reaction V))
    (h : readReaction I species e st = some st') : ∃ id r, AttrInt e "ID" id ∧ ReactionOf I species e r ∧ st'.2 = st.2.put id r := by
  unfold readReaction at h
  cases h1 : e.attr "ID".toList with
  | none => rw [h1] at h; exact absurd h (by simp)
  | some d =>
    cases h2 : e.attr "TYPE".toList with
    | none => rw [h1, h2] at h; exact absurd h (by simp)
    | some ty =>
      cases h3 : e.attr "SPECIES".toList with
      | none => rw [h1, h2, h3] at h; exact absurd h (by simp)
      | some sp =>
        rw [h1, h2, h3] at h
        dsimp only at h
        split_ifs at h with h4 h5
        rw [Option.bind_eq_some_iff] at h
        obtain ⟨ids, hids, h⟩ := h
        rw [Option.bind_eq_some_iff] at h
        obtain ⟨r, hr, h⟩ := h
        rw [Option.map_eq_some_iff] at h
        obtain ⟨i, hi, rfl⟩ := h
        obtain ⟨g1, g2⟩ := (reactionSpecies_iff species _ _).1 hids
        refine ⟨i, ⟨ty, ids, r.2⟩, (attr_iff e "ID" i).1 (by rw [h1]; exact hi), ⟨⟨h2, h5⟩, ⟨sp, h3, g1⟩, g2, fun hs => ?_⟩, rfl⟩
        obtain ⟨ds, hd, hp⟩ := params_of I _ hs _ _ _ hr
        exact ⟨_, _, ds, hd, hp⟩

theorem isLast_cons (Q : Elem → Prop) (e : Elem) (l : List Elem) (x : Elem) : IsLast (e :: l) Q x ↔ IsLast l Q x ∨ ((∀ y ∈ l, ¬ Q y) ∧ Q e ∧ x = e) := by
  constructor
  · rintro ⟨b, a, h1, h2, h3⟩
    cases b with
    | nil =>
      simp only [List.nil_append, List.cons.injEq] at h1
      obtain ⟨rfl, rfl⟩ := h1
      exact Or.inr ⟨h3, h2, rfl⟩
    | cons y b =>
      simp only [List.cons_append, List.cons.injEq] at h1
      obtain ⟨rfl, rfl⟩ := h1
      exact Or.inl ⟨b, a, rfl, h2, h3⟩
  · rintro (⟨b, a, rfl, h2, h3⟩ | ⟨h1, h2, rfl⟩)
    · exact ⟨e :: b, a, rfl, h2, h3⟩
    · exact ⟨[], l, rfl, h2, h1⟩

/-- **C54, reactions.** If the reactions are read: every reaction element names only declared species, and the reaction with an identifier is that of the
last element with that identifier: its type, its species in order, and its parameters. -/
theorem reactions_spec {σ V S : Type} (I : Interp σ V) (species : Map ℤ S) : ∀ (l : List Elem) (st st' : σ × Map ℤ (Reaction V)),
    readReactionsLoop I species l st = some st' →
    (∀ e ∈ l, ∃ id r, AttrInt e "ID" id ∧ ReactionOf I species e r) ∧
    (∀ id e, IsLast l (fun x => AttrInt x "ID" id) e → ∃ r, st'.2 id = some r ∧ ReactionOf I species e r) ∧
    (∀ id, (∀ e ∈ l, ¬ AttrInt e "ID" id) → st'.2 id = st.2 id)
  | [], st, st', h => by
    simp only [readReactionsLoop, Option.some.injEq] at h
    subst h
    refine ⟨by simp, ?_, by simp⟩
    rintro id e ⟨b, a, h, _⟩
    exact absurd h (by simp)
  | e :: l, st, st', h => by
    rw [readReactionsLoop, Option.bind_eq_some_iff] at h
    obtain ⟨st1, h1, h2⟩ := h
    obtain ⟨id, r, hid, hr, hput⟩ := reaction_spec I species e st st1 h1
    obtain ⟨r1, r2, r3⟩ := reactions_spec I species l st1 st' h2
    refine ⟨?_, ?_, ?_⟩
    · rw [List.forall_mem_cons]; exact ⟨⟨id, r, hid, hr⟩, r1⟩
    · intro i x hx
      rcases (isLast_cons _ e l x).1 hx with h | ⟨hn, hq, rfl⟩
      · exact r2 i x h
      · rw [r3 i hn, hput, attr_unique x _ _ _ hq hid]
        exact ⟨r, by simp [Map.put], hr⟩
    · intro i hi
      rw [List.forall_mem_cons] at hi
      rw [r3 i hi.2, hput]
      have : i ≠ id := fun e' => hi.1 (e' ▸ hid)
      simp [Map.put, this]

/-- **C54, undeclared species.** A reaction that names a species which is not declared: reading fails. -/
theorem undeclared_rejected {σ V S : Type} (I : Interp σ V) (species : Map ℤ S) (l : List Elem) (st : σ × Map ℤ (Reaction V)) (e : Elem) (he : e ∈ l) (d s : Str)
    (hd : e.attr "SPECIES".toList = some d) (hs : s ∈ split ',' d) (i : ℤ) (hi : ReadsInt s i) (hn : species i = none) :
    readReactionsLoop I species l st = none := by
  cases h : readReactionsLoop I species l st with
  | none => rfl
  | some st' =>
    obtain ⟨_, r, _, hr⟩ := (reactions_spec I species l st st' h).1 e he
    obtain ⟨d', hd', hf⟩ := hr.species
    rw [hd, Option.some.injEq] at hd'
    subst hd'
    obtain ⟨j, hj, hji⟩ : ∃ j ∈ r.species, ReadsInt s j := by
      clear h hr hd
      generalize split ',' d = w at hf hs
      generalize r.species = q at hf
      induction hf with
      | nil => simp at hs
      | cons ha _ ih =>
        rcases List.mem_cons.1 hs with rfl | hs
        · exact ⟨_, by simp, ha⟩
        · obtain ⟨j, hj, h⟩ := ih hs
          exact ⟨j, by simp [hj], h⟩
    have : i = j := by
      have h1 := (stoi_iff s i).2 hi
      have h2 := (stoi_iff s j).2 hji
      rw [h1] at h2
      exact Option.some.inj h2
    have := hr.declared j hj
    rw [← ‹i = j›, hn] at this
    exact absurd this (by simp)

/-! ### Species -/

/-- What a species element gives. -/
structure SpeciesOf {σ V : Type} (P : Parsers) (I : Interp σ V) (e : Elem) (s : Species V) : Prop where
  name : e.attr "NAME".toList = some s.name ∧ s.name ≠ []
  params : C53.Short (e.fromFirst ['P']) → ∃ a a' ds, Defines I a (e.fromFirst ['P']) a' ds ∧ ∀ name, s.params (upper name) = lastDef ds name
  functions : readFunctions P (e.named "FUNCTION".toList) (fun _ => none) = some s.functions

theorem specie_spec {σ V : Type} (P : Parsers) (I : Interp σ V) (e : Elem) (st st' : σ × Map ℤ (Species V))
    (h : readSpecie P I e st = some st') : ∃ id s, AttrInt e "ID" id ∧ SpeciesOf P I e s ∧ st'.2 = st.2.put id s := by
  unfold readSpecie at h
  cases h1 : e.attr "ID".toList with
  | none => rw [h1] at h; exact absurd h (by simp)
  | some d =>
    cases h2 : e.attr "NAME".toList with
    | none => rw [h1, h2] at h; exact absurd h (by simp)
    | some nm =>
      rw [h1, h2] at h
      dsimp only at h
      split_ifs at h with h4 h5
      rw [Option.bind_eq_some_iff] at h
      obtain ⟨r, hr, h⟩ := h
      rw [Option.bind_eq_some_iff] at h
      obtain ⟨fs, hf, h⟩ := h
      rw [Option.map_eq_some_iff] at h
      obtain ⟨i, hi, rfl⟩ := h
      refine ⟨i, ⟨nm, r.2, fs⟩, (attr_iff e "ID" i).1 (by rw [h1]; exact hi), ⟨⟨h2, h5⟩, fun hs => ?_, hf⟩, rfl⟩
      obtain ⟨ds, hd, hp⟩ := params_of I _ hs _ _ _ hr
      exact ⟨_, _, ds, hd, hp⟩

/-- **C54, species.** If the species are read: the species with an identifier is that of the last element with that identifier: its name, parameters and
functions; and there are no others. -/
theorem species_spec {σ V : Type} (P : Parsers) (I : Interp σ V) : ∀ (l : List Elem) (st st' : σ × Map ℤ (Species V)),
    readSpeciesLoop P I l st = some st' →
    (∀ e ∈ l, ∃ id s, AttrInt e "ID" id ∧ SpeciesOf P I e s) ∧
    (∀ id e, IsLast l (fun x => AttrInt x "ID" id) e → ∃ s, st'.2 id = some s ∧ SpeciesOf P I e s) ∧
    (∀ id, (∀ e ∈ l, ¬ AttrInt e "ID" id) → st'.2 id = st.2 id)
  | [], st, st', h => by
    simp only [readSpeciesLoop, Option.some.injEq] at h
    subst h
    refine ⟨by simp, ?_, by simp⟩
    rintro id e ⟨b, a, h, _⟩
    exact absurd h (by simp)
  | e :: l, st, st', h => by
    rw [readSpeciesLoop, Option.bind_eq_some_iff] at h
    obtain ⟨st1, h1, h2⟩ := h
    obtain ⟨id, r, hid, hr, hput⟩ := specie_spec P I e st st1 h1
    obtain ⟨r1, r2, r3⟩ := species_spec P I l st1 st' h2
    refine ⟨?_, ?_, ?_⟩
    · rw [List.forall_mem_cons]; exact ⟨⟨id, r, hid, hr⟩, r1⟩
    · intro i x hx
      rcases (isLast_cons _ e l x).1 hx with h | ⟨hn, hq, rfl⟩
      · exact r2 i x h
      · rw [r3 i hn, hput, attr_unique x _ _ _ hq hid]
        exact ⟨r, by simp [Map.put], hr⟩
    · intro i hi
      rw [List.forall_mem_cons] at hi
      rw [r3 i hi.2, hput]
      have : i ≠ id := fun e' => hi.1 (e' ▸ hid)
      simp [Map.put, this]

/-! ### Functions of species -/

/-- The definition stored for the variable of index `i`. -/
def storedDef (fd : FunDef) (fv : List Str) (i : ℕ) : Option FunDef := if fv = [] then some fd else (fv[i]?).map fun v => { fd with fileVariable := v }

theorem addKeys_spec (fd : FunDef) (fv : List Str) : ∀ (ks : List (ℕ × Str × ℕ)) (m m' : Map (Str × ℕ) FunDef), addKeys fd fv ks m = some m' →
    (ks.map Prod.snd).Nodup ∧ (∀ k ∈ ks, m k.2 = none ∧ m' k.2 = storedDef fd fv k.1 ∧ (m' k.2).isSome = true) ∧ (∀ key, (∀ k ∈ ks, k.2 ≠ key) → m' key = m key)
  | [], m, m', h => by
    simp only [addKeys, Option.some.injEq] at h
    subst h
    simp
  | (i, v, d) :: l, m, m', h => by
    rw [addKeys] at h
    split_ifs at h with h1 h2
    · cases h3 : fv[i]? with
      | none => rw [h3] at h; exact absurd h (by simp)
      | some x =>
        rw [h3] at h
        dsimp only at h
        obtain ⟨r1, r2, r3⟩ := addKeys_spec fd fv l _ _ h
        have hne : fv ≠ [] := fun e => by simp [e] at h2
        have hk : ∀ k ∈ l, k.2 ≠ (v, d) := fun k hk e => by
          have := (r2 k hk).1
          simp [Map.put, e] at this
        refine ⟨?_, ?_, ?_⟩
        · rw [List.map_cons, List.nodup_cons]
          refine ⟨fun hm => ?_, r1⟩
          obtain ⟨k, hk1, hk2⟩ := List.mem_map.1 hm
          exact hk k hk1 hk2
        · rw [List.forall_mem_cons]
          have hm := r3 (v, d) hk
          refine ⟨⟨by simpa using h1, ?_, ?_⟩, fun k hk' => ⟨?_, (r2 k hk').2⟩⟩
          · rw [hm]; simp [Map.put, storedDef, hne, h3]
          · rw [hm]; simp [Map.put]
          · have := (r2 k hk').1
            simpa [Map.put, hk k hk'] using this
        · intro key hkey
          rw [List.forall_mem_cons] at hkey
          rw [r3 key hkey.2]
          simp [Map.put, Ne.symm hkey.1]
    · obtain ⟨r1, r2, r3⟩ := addKeys_spec fd fv l _ _ h
      have hne : fv = [] := by
        cases fv with
        | nil => rfl
        | cons a b => simp at h2
      have hk : ∀ k ∈ l, k.2 ≠ (v, d) := fun k hk e => by
        have := (r2 k hk).1
        simp [Map.put, e] at this
      refine ⟨?_, ?_, ?_⟩
      · rw [List.map_cons, List.nodup_cons]
        refine ⟨fun hm => ?_, r1⟩
        obtain ⟨k, hk1, hk2⟩ := List.mem_map.1 hm
        exact hk k hk1 hk2
      · rw [List.forall_mem_cons]
        have hm := r3 (v, d) hk
        refine ⟨⟨by simpa using h1, ?_, ?_⟩, fun k hk' => ⟨?_, (r2 k hk').2⟩⟩
        · rw [hm]; simp [Map.put, storedDef, hne]
        · rw [hm]; simp [Map.put]
        · have := (r2 k hk').1
          simpa [Map.put, hk k hk'] using this
      · intro key hkey
        rw [List.forall_mem_cons] at hkey
        rw [r3 key hkey.2]
        simp [Map.put, Ne.symm hkey.1]

/-- The pairs of a variable and a domain of an entry. -/
theorem mem_keysOf (vars : List Str) (ds : List ℕ) (i : ℕ) (v : Str) (d : ℕ) : (i, v, d) ∈ keysOf vars ds ↔ vars[i]? = some v ∧ d ∈ ds := by
  unfold keysOf
  simp only [List.mem_flatMap, List.mem_map, Prod.mk.injEq, Prod.exists]
  constructor
  · rintro ⟨a, b, h1, x, h2, rfl, rfl, rfl⟩
    exact ⟨List.mk_mem_zipIdx_iff_getElem?.1 h1, h2⟩
  · rintro ⟨h1, h2⟩
    exact ⟨v, i, List.mk_mem_zipIdx_iff_getElem?.2 h1, d, h2, rfl, rfl, rfl⟩

/-- **C54, functions.** If the entries of a function are read: no pair of a variable and a domain is given twice; each pair of each entry has the
definition of that entry, with the name of its own variable in the file; and there are no other pairs. -/
theorem entries_spec (P : Parsers) : ∀ (l : List Elem) (m m' : Map (Str × ℕ) FunDef), readEntries P l m = some m' →
    (l.flatMap fun v => (keysOf (entryVars P v) (entryDomains P v)).map Prod.snd).Nodup ∧
    (∀ v ∈ l, ∃ fd fv, funDef P v (entryVars P v) (entryEvars v) = some (fd, fv) ∧
      ∀ (i : ℕ) (x : Str) (d : ℕ), (entryVars P v)[i]? = some x → d ∈ entryDomains P v → m (x, d) = none ∧ m' (x, d) = storedDef fd fv i ∧ (m' (x, d)).isSome = true) ∧
    (∀ key, (∀ v ∈ l, ¬ (key.1 ∈ entryVars P v ∧ key.2 ∈ entryDomains P v)) → m' key = m key)
  | [], m, m', h => by
    simp only [readEntries, Option.some.injEq] at h
    subst h
    simp
  | v :: l, m, m', h => by
    rw [readEntries, Option.bind_eq_some_iff] at h
    obtain ⟨⟨fd, fv⟩, h1, h⟩ := h
    rw [Option.bind_eq_some_iff] at h
    obtain ⟨m1, h2, h3⟩ := h
    obtain ⟨a1, a2, a3⟩ := addKeys_spec fd fv _ _ _ h2
    obtain ⟨r1, r2, r3⟩ := entries_spec P l m1 m' h3
    have later : ∀ w ∈ l, ∀ (i : ℕ) (x : Str) (d : ℕ), (entryVars P w)[i]? = some x → d ∈ entryDomains P w → ∀ k ∈ keysOf (entryVars P v) (entryDomains P v), k.2 ≠ (x, d) := by
      intro w hw i x d hx hd k hk e
      obtain ⟨_, _, _, hr⟩ := r2 w hw
      have h4 := (hr i x d hx hd).1
      have h5 := (a2 k hk).2.2
      rw [e, h4] at h5
      exact absurd h5 (by simp)
    have keep : ∀ k ∈ keysOf (entryVars P v) (entryDomains P v), m' k.2 = m1 k.2 := by
      intro k hk
      refine r3 k.2 fun w hw hc => ?_
      obtain ⟨i, hi⟩ := List.mem_iff_getElem?.1 hc.1
      exact later w hw i k.2.1 k.2.2 hi hc.2 k hk rfl
    refine ⟨?_, ?_, ?_⟩
    · rw [List.flatMap_cons, List.nodup_append]
      refine ⟨a1, r1, ?_⟩
      intro x hx y hy e
      subst e
      obtain ⟨k, hk, rfl⟩ := List.mem_map.1 hx
      obtain ⟨w, hw, hy⟩ := List.mem_flatMap.1 hy
      obtain ⟨⟨i, x, d⟩, hk', e⟩ := List.mem_map.1 hy
      obtain ⟨g1, g2⟩ := (mem_keysOf _ _ i x d).1 hk'
      exact later w hw i x d g1 g2 k hk e.symm
    · rw [List.forall_mem_cons]
      refine ⟨⟨fd, fv, h1, fun i x d hx hd => ?_⟩, fun w hw => ?_⟩
      · have hk := (mem_keysOf _ _ i x d).2 ⟨hx, hd⟩
        have := a2 _ hk
        have hk' := keep _ hk
        dsimp only at this hk'
        rw [hk']
        exact this
      · obtain ⟨fd', fv', g1, g2⟩ := r2 w hw
        refine ⟨fd', fv', g1, fun i x d hx hd => ?_⟩
        have := g2 i x d hx hd
        refine ⟨?_, this.2⟩
        rw [← this.1]
        exact (a3 (x, d) (later w hw i x d hx hd)).symm
    · intro key hkey
      rw [List.forall_mem_cons] at hkey
      rw [r3 key hkey.2, a3 key]
      rintro ⟨i, x, d⟩ hk e
      obtain ⟨g1, g2⟩ := (mem_keysOf _ _ i x d).1 hk
      dsimp only at e
      subst e
      exact hkey.1 ⟨List.mem_of_getElem? g1, g2⟩

/-! ### The whole section -/

/-- The elements of a subsection. -/
def sub (p : Elem) (name item : String) : List Elem := match p.first name.toList with
  | none => []
  | some b => b.named item.toList

/-- **C54.** If `read_particles` of a new reader succeeds: the species are exactly those of the species section; every reaction names only declared species;
every region has one entry and for every species the type of the last condition for it. -/
theorem read_particles_spec {σ V : Type} (P : Parsers) (I : Interp σ V) (keys : Map ℤ (Species V) → List ℤ) (p : Elem) (s : σ) (d : Data σ V)
    (h : readParticles P I keys p s = some d) :
    (∀ id, (d.species id).isSome = true ↔ ∃ e ∈ sub p "SPECIES" "S", AttrInt e "ID" id) ∧
    (∀ id e, IsLast (sub p "SPECIES" "S") (fun x => AttrInt x "ID" id) e → ∃ sp, d.species id = some sp ∧ SpeciesOf P I e sp) ∧
    (∀ id r, d.reactions id = some r → ∀ i ∈ r.species, ∃ e ∈ sub p "SPECIES" "S", AttrInt e "ID" i) ∧
    (∀ id, (d.reactions id).isSome = true ↔ ∃ e ∈ sub p "REACTIONS" "R", AttrInt e "ID" id) ∧
    (∀ e ∈ sub p "BOUNDARYINTERACTION" "REGION", ∀ id, AttrInt e "REF" id → ∃ c, d.boundaries id = some c ∧ ∀ s t, c s = some t ↔ LastCondition e.elems s t) ∧
    (∀ id, (d.boundaries id).isSome = true ↔ ∃ e ∈ sub p "BOUNDARYINTERACTION" "REGION", AttrInt e "REF" id) := by
  unfold readParticles at h
  rw [Option.bind_eq_some_iff] at h
  obtain ⟨pr, h1, h⟩ := h
  rw [Option.bind_eq_some_iff] at h
  obtain ⟨sp, h2, h⟩ := h
  rw [Option.bind_eq_some_iff] at h
  obtain ⟨b, h3, h⟩ := h
  rw [Option.bind_eq_some_iff] at h
  obtain ⟨r, h4, h⟩ := h
  rw [Option.some.injEq] at h
  subst h
  have h2' : readSpeciesLoop P I (sub p "SPECIES" "S") (pr.1, fun _ => none) = some sp := by
    unfold readSpecies at h2
    unfold sub
    cases hf : p.first "SPECIES".toList with
    | none => rw [hf] at h2; exact h2
    | some x => rw [hf] at h2; exact h2
  have h3' : readRegions P (keys sp.2) (sub p "BOUNDARYINTERACTION" "REGION") (fun _ => none) = some b := by
    unfold readBoundary at h3
    unfold sub
    simp only [Bool.false_eq_true, if_false] at h3
    cases hf : p.first "BOUNDARYINTERACTION".toList with
    | none => rw [hf] at h3; exact h3
    | some x => rw [hf] at h3; exact h3
  have h4' : readReactionsLoop I sp.2 (sub p "REACTIONS" "R") (sp.1, fun _ => none) = some r := by
    unfold readReactions at h4
    unfold sub
    cases hf : p.first "REACTIONS".toList with
    | none => rw [hf] at h4; exact h4
    | some x => rw [hf] at h4; exact h4
  obtain ⟨s1, s2, s3⟩ := species_spec P I _ _ _ h2'
  obtain ⟨b1, b2, b3, b4⟩ := regions_spec P _ _ _ _ h3'
  obtain ⟨r1, r2, r3⟩ := reactions_spec I _ _ _ _ h4'
  have hs : ∀ id, (sp.2 id).isSome = true ↔ ∃ e ∈ sub p "SPECIES" "S", AttrInt e "ID" id := by
    intro id
    rcases none_or_last (fun x => AttrInt x "ID" id) (sub p "SPECIES" "S") with hn | ⟨e, he⟩
    · rw [s3 id hn]
      simp only [Option.isSome_none, Bool.false_eq_true, false_iff, not_exists, not_and]
      exact hn
    · obtain ⟨x, hx, _⟩ := s2 id e he
      obtain ⟨_, _, he1, he2, _⟩ := he
      simp only [hx, Option.isSome_some, true_iff]
      exact ⟨e, by rw [he1]; simp, he2⟩
  have hlast : ∀ id, (r.2 id).isSome = true ↔ ∃ e ∈ sub p "REACTIONS" "R", AttrInt e "ID" id := by
    intro id
    rcases none_or_last (fun x => AttrInt x "ID" id) (sub p "REACTIONS" "R") with hn | ⟨e, he⟩
    · rw [r3 id hn]
      simp only [Option.isSome_none, Bool.false_eq_true, false_iff, not_exists, not_and]
      exact hn
    · obtain ⟨x, hx, _⟩ := r2 id e he
      obtain ⟨_, _, he1, he2, _⟩ := he
      simp only [hx, Option.isSome_some, true_iff]
      exact ⟨e, by rw [he1]; simp, he2⟩
  refine ⟨hs, s2, ?_, hlast, b3, ?_⟩
  · intro id rr hrr i hi
    dsimp only at hrr
    rcases none_or_last (fun x => AttrInt x "ID" id) (sub p "REACTIONS" "R") with hn | ⟨e, he⟩
    · rw [r3 id hn] at hrr; exact absurd hrr (by simp)
    · obtain ⟨x, hx, hx'⟩ := r2 id e he
      rw [hx, Option.some.injEq] at hrr
      subst hrr
      exact (hs i).1 (hx'.declared i hi)
  · intro id
    constructor
    · intro hb
      by_contra hc
      have hc' : ∀ e ∈ sub p "BOUNDARYINTERACTION" "REGION", ¬ AttrInt e "REF" id := fun e he ha => hc ⟨e, he, ha⟩
      dsimp only at hb
      rw [b4 id hc'] at hb
      exact absurd hb (by simp)
    · rintro ⟨e, he, ha⟩
      obtain ⟨c, hc, _⟩ := b3 e he id ha
      dsimp only
      rw [hc]; rfl

/-! ### An example -/

def exParsers : Parsers := ⟨fun s => split ',' s, fun s => (stoi s).map fun i => [i.toNat], fun s => some (s = ['1']), fun _ _ => true⟩

def attr (n v : String) : Str × Str := (n.toList, v.toList)

def exDoc : Elem := ⟨"PARTICLES".toList, [], [
  .elem "SPECIES".toList [] [.elem ['S'] [attr "ID" "0", attr "NAME" "Argon"] [.elem ['P'] [] [.text "Mass = 40".toList],
      .elem "FUNCTION".toList [attr "NAME" "Init"] [.elem ['E'] [attr "VAR" "u,v", attr "VALUE" "x"] [], .elem ['F'] [attr "VAR" "a,b", attr "FILE" "f:p,q"] []]],
    .elem ['S'] [attr "ID" "1", attr "NAME" "Krypton"] []],
  .elem "BOUNDARYINTERACTION".toList [] [.elem "REGION".toList [attr "REF" "100"] [.elem ['C'] [attr "SPECIES" "0"] [],
    .elem ['P'] [attr "SPECIES" " 1", attr "VALUE" "[2]"] [], .elem ['P'] [attr "SPECIES" "0"] []]],
  .elem "REACTIONS".toList [] [.elem ['R'] [attr "ID" "7", attr "TYPE" "Ionisation", attr "SPECIES" "0,1"] [.elem ['P'] [] [.text "rate = 1".toList]]]]⟩

/-- A document with species, a region, and a reaction. -/
example : ((readParticles exParsers C53.toy (fun _ => [0, 1]) exDoc []).map fun d =>
    ((d.species 0).map Species.name, (d.species 1).map Species.name, (d.species 2).map Species.name, loadSpeciesDouble d.species 0 "MASS".toList,
      (d.boundaries 100).map fun c => (c 0, c 1, c 2), (d.reactions 7).map Reaction.species, loadReactionDouble d.reactions 7 "Rate".toList,
      (d.species 0).map fun s => (s.functions "INIT".toList).map fun f => (f ("v".toList, 0), f ("b".toList, 0)))) =
    some (some "Argon".toList, some "Krypton".toList, none, some 2, some (some .periodic, some .periodic, none), some [0, 1], some 1,
      some (some (some ⟨kExpression, some ("x".toList, "x y z t".toList), [], []⟩, some ⟨kFile, none, "f".toList, "q".toList⟩))) := by
  rfl

end Verif.Props.C54
