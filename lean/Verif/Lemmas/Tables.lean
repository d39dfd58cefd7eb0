import Verif.Spec.Tables
import Verif.Lemmas.ListRes
import Verif.Lemmas.Bearing
import Mathlib.Data.List.TakeWhile

/-! # Lemmas about reading tables -/

namespace Ross.TableLemmas

open Ross.Tables Ross.Spec

/-! ### Texts -/

theorem lower_eq {s w : String} : lower s = w ↔ lowered s = w.toList := by
  unfold lower lowered
  constructor
  · rintro rfl
    rw [String.toList_ofList]
  · intro h
    rw [h, String.ofList_toList]

theorem lower_toList (s : String) : (lower s).toList = lowered s := by
  unfold lower lowered
  rw [String.toList_ofList]

theorem hasSub_iff {p s : String} : hasSub p s = true ↔ p.toList <:+: s.toList := by
  unfold hasSub
  rw [List.any_eq_true]
  constructor
  · rintro ⟨t, ht, hp⟩
    rw [List.isPrefixOf_iff_prefix] at hp
    rw [List.mem_tails] at ht
    exact hp.isInfix.trans ht.isInfix
  · rintro ⟨a, b, h⟩
    refine ⟨p.toList ++ b, ?_, ?_⟩
    · rw [List.mem_tails]
      exact ⟨a, by rw [← h, List.append_assoc]⟩
    · rw [List.isPrefixOf_iff_prefix]
      exact List.prefix_append _ _

/-- The row has the key word. -/
def rowKey (key : String) (row : List Cell) : Bool :=
  row.any fun c => match c with
    | .str s => decide (lower s = key)
    | _ => false

/-- The row contains a text. -/
def rowHas (w : String) (row : List Cell) : Bool :=
  row.any fun c => match c with
    | .str s => hasSub w (lower s)
    | _ => false

/-- The row mentions units of lengths or forces. -/
def rowUs (row : List Cell) : Bool := rowHas "inches" row || rowHas "lb" row

theorem rowKey_iff {key : String} {row : List Cell} : rowKey key row = true ↔ HasText key row := by
  unfold rowKey HasText
  rw [List.any_eq_true]
  constructor
  · rintro ⟨c, hc, h⟩
    cases c with
    | str s => exact ⟨s, hc, lower_eq.1 (by simpa using h)⟩
    | _ => cases h
  · rintro ⟨s, hs, h⟩
    exact ⟨_, hs, by simpa using lower_eq.2 h⟩

theorem rowHas_iff {w : String} {row : List Cell} :
    rowHas w row = true ↔ ∃ s, Cell.str s ∈ row ∧ w.toList <:+: lowered s := by
  unfold rowHas
  rw [List.any_eq_true]
  constructor
  · rintro ⟨c, hc, h⟩
    cases c with
    | str s => exact ⟨s, hc, by rw [← lower_toList]; exact hasSub_iff.1 h⟩
    | _ => cases h
  · rintro ⟨s, hs, h⟩
    exact ⟨_, hs, hasSub_iff.2 (by rw [lower_toList]; exact h)⟩

theorem mentions_iff {w : String} {rows : Sheet} :
    Mentions w rows ↔ ∃ row ∈ rows, rowHas w row = true := by
  simp only [Mentions, rowHas_iff]

theorem us_iff {rows : Sheet} : Us rows ↔ ∃ row ∈ rows, rowUs row = true := by
  simp only [Us, mentions_iff, rowUs, Bool.or_eq_true]
  constructor
  · rintro (⟨r, h, h'⟩ | ⟨r, h, h'⟩)
    · exact ⟨r, h, .inl h'⟩
    · exact ⟨r, h, .inr h'⟩
  · rintro ⟨r, h, h' | h'⟩
    · exact .inl ⟨r, h, h'⟩
    · exact .inr ⟨r, h, h'⟩

/-! ### The header -/

theorem lbm_lb {s : String} (h : hasSub "lbm" s = true) : hasSub "lb" s = true := by
  rw [hasSub_iff] at h ⊢
  refine List.IsInfix.trans ?_ h
  exact ⟨[], ['m'], rfl⟩

theorem scanCell_eq (key : String) (i : ℕ) (st : Scan) (c : Cell) :
    scanCell key i st c =
      ⟨st.header.or (if rowKey key [c] then some i else none), st.metric || rowUs [c],
        st.rpm || rowHas "rpm" [c]⟩ := by
  obtain ⟨h, m, r⟩ := st
  cases c with
  | str s =>
    have hm : (hasSub "inches" (lower s) || hasSub "lbm" (lower s) || hasSub "lb" (lower s)) =
        (hasSub "inches" (lower s) || hasSub "lb" (lower s)) := by
      cases h1 : hasSub "lbm" (lower s) with
      | false => simp
      | true => simp [lbm_lb h1]
    simp only [scanCell, hm, rowKey, rowUs, rowHas, List.any_cons, List.any_nil, Bool.or_false]
    cases h <;> by_cases h1 : lower s = key <;>
      cases h2 : (hasSub "inches" (lower s) || hasSub "lb" (lower s)) <;>
      cases h3 : hasSub "rpm" (lower s) <;> simp [h1]
  | _ => simp [scanCell, rowKey, rowUs, rowHas]

theorem any_cons_or (p : Cell → Bool) (c : Cell) (t : List Cell) :
    (c :: t).any p = ([c].any p || t.any p) := by simp

theorem scanRow_eq (key : String) (i : ℕ) : ∀ (row : List Cell) (st : Scan),
    scanRow key i st row =
      ⟨st.header.or (if rowKey key row then some i else none), st.metric || rowUs row,
        st.rpm || rowHas "rpm" row⟩
  | [], st => by simp [scanRow, rowKey, rowUs, rowHas]
  | c :: t, st => by
    have e1 : rowKey key (c :: t) = (rowKey key [c] || rowKey key t) := any_cons_or _ _ _
    have e2 : ∀ w, rowHas w (c :: t) = (rowHas w [c] || rowHas w t) := fun w => any_cons_or _ _ _
    have e3 : rowUs (c :: t) = (rowUs [c] || rowUs t) := by
      simp only [rowUs, e2]
      cases rowHas "inches" [c] <;> cases rowHas "inches" t <;> cases rowHas "lb" [c] <;> rfl
    unfold scanRow
    dsimp only
    rw [scanRow_eq key i t, scanCell_eq]
    dsimp only
    rw [e1, e2, e3]
    obtain ⟨h, m, r⟩ := st
    dsimp only
    split_ifs with h1
    all_goals
      generalize rowKey key [c] = a at *
      generalize rowKey key t = a' at *
      generalize rowUs [c] = b at *
      generalize rowUs t = b' at *
      generalize rowHas "rpm" [c] = d at *
      generalize rowHas "rpm" t = d' at *
      revert a a' b b' d d' m r
      cases h <;> simp <;> decide

theorem scan_header (key : String) : ∀ (sheet : Sheet) (i : ℕ) (st : Scan),
    (scan key i st sheet).header =
      st.header.or ((sheet.findIdx? (rowKey key)).map (· + i))
  | [], i, st => by simp [scan]
  | row :: t, i, st => by
    unfold scan
    rw [scanRow_eq]
    dsimp only
    rw [List.findIdx?_cons]
    by_cases h1 : (((st.header.or (if rowKey key row = true then some i else none)).isSome &&
        (st.metric || rowUs row)) = true)
    · rw [if_pos h1]
      rw [Bool.and_eq_true] at h1
      dsimp only
      cases h2 : rowKey key row with
      | true => cases h : st.header <;> simp
      | false =>
        cases h : st.header with
        | none => rw [h, h2] at h1; simp at h1
        | some x => simp
    · rw [if_neg h1, scan_header key t]
      dsimp only
      cases h2 : rowKey key row with
      | true => cases h : st.header <;> simp
      | false =>
        cases h : st.header <;>
          simp [Option.map_map, Function.comp_def, Nat.add_assoc, Nat.add_comm 1 i]

theorem scan_metric (key : String) : ∀ (sheet : Sheet) (i : ℕ) (st : Scan),
    (scan key i st sheet).metric = (st.metric || sheet.any rowUs)
  | [], i, st => by simp [scan]
  | row :: t, i, st => by
    unfold scan
    rw [scanRow_eq]
    dsimp only
    by_cases h1 : (((st.header.or (if rowKey key row = true then some i else none)).isSome &&
        (st.metric || rowUs row)) = true)
    · rw [if_pos h1]
      rw [Bool.and_eq_true] at h1
      dsimp only
      simp only [List.any_cons]
      rw [h1.2, ← Bool.or_assoc, h1.2, Bool.true_or]
    · rw [if_neg h1, scan_metric key t]
      simp [Bool.or_assoc]

theorem scan_rpm (key : String) : ∀ (sheet : Sheet) (i : ℕ) (st : Scan),
    (scan key i st sheet).rpm = true ↔ st.rpm = true ∨ ∃ k row, sheet[k]? = some row ∧
      rowHas "rpm" row = true ∧ (k = 0 ∨
        ¬ ((st.header.isSome ∨ ∃ r ∈ sheet.take k, rowKey key r = true) ∧
          (st.metric = true ∨ ∃ r ∈ sheet.take k, rowUs r = true)))
  | [], i, st => by simp [scan]
  | row :: t, i, st => by
    unfold scan
    rw [scanRow_eq]
    dsimp only
    by_cases h1 : (((st.header.or (if rowKey key row = true then some i else none)).isSome &&
        (st.metric || rowUs row)) = true)
    · rw [if_pos h1]
      rw [Bool.and_eq_true] at h1
      simp only [Bool.or_eq_true]
      constructor
      · rintro (h | h)
        · exact .inl h
        · exact .inr ⟨0, row, rfl, h, .inl rfl⟩
      · rintro (h | ⟨k, r, hk, hr, h⟩)
        · exact .inl h
        · cases k with
          | zero => simp only [List.getElem?_cons_zero, Option.some.injEq] at hk; subst hk; exact .inr hr
          | succ k =>
            rcases h with h | h
            · cases h
            · refine (h ⟨?_, ?_⟩).elim
              · have := h1.1
                cases hh : st.header with
                | some x => exact .inl rfl
                | none =>
                  rw [hh] at this
                  refine .inr ⟨row, by simp, ?_⟩
                  by_contra hc
                  simp [hc] at this
              · have := h1.2
                rw [Bool.or_eq_true] at this
                rcases this with h | h
                · exact .inl h
                · exact .inr ⟨row, by simp, h⟩
    · rw [if_neg h1, scan_rpm key t]
      dsimp only
      rw [Bool.or_eq_true]
      have hb : ¬ ((st.header.isSome = true ∨ rowKey key row = true) ∧
          (st.metric = true ∨ rowUs row = true)) := by
        rintro ⟨ha, hb⟩
        apply h1
        rw [Bool.and_eq_true, Bool.or_eq_true]
        refine ⟨?_, hb⟩
        cases hh : st.header with
        | some x => rfl
        | none =>
          rw [hh] at ha
          simp at ha
          simp [ha]
      have e1 : ((st.header.or (if rowKey key row = true then some i else none)).isSome = true) ↔
          (st.header.isSome = true ∨ rowKey key row = true) := by
        cases st.header <;> cases rowKey key row <;> simp
      constructor
      · rintro ((h | h) | ⟨k, r, hk, hr, h⟩)
        · exact .inl h
        · exact .inr ⟨0, row, rfl, h, .inl rfl⟩
        · refine .inr ⟨k + 1, r, by simpa using hk, hr, .inr ?_⟩
          rintro ⟨g1, g2⟩
          simp only [List.take_succ_cons, List.mem_cons, exists_eq_or_imp] at g1 g2
          rcases h with rfl | h
          · simp only [List.take_zero, List.not_mem_nil, false_and, exists_false, or_false] at g1 g2
            exact hb ⟨g1, g2⟩
          · apply h
            rw [e1, Bool.or_eq_true, or_assoc, or_assoc]
            exact ⟨g1, g2⟩
      · rintro (h | ⟨k, r, hk, hr, h⟩)
        · exact .inl (.inl h)
        · cases k with
          | zero =>
            simp only [List.getElem?_cons_zero, Option.some.injEq] at hk
            subst hk
            exact .inl (.inr hr)
          | succ k =>
            refine .inr ⟨k, r, by simpa using hk, hr, .inr ?_⟩
            rcases h with h | h
            · cases h
            · rintro ⟨g1, g2⟩
              apply h
              simp only [List.take_succ_cons, List.mem_cons, exists_eq_or_imp]
              rw [e1, or_assoc] at g1
              rw [Bool.or_eq_true, or_assoc] at g2
              exact ⟨g1, g2⟩

theorem findIdx_header {key : String} {sheet : Sheet} {h : ℕ} :
    sheet.findIdx? (rowKey key) = some h ↔ IsHeader key sheet h := by
  rw [List.findIdx?_eq_some_iff_getElem]
  unfold IsHeader
  constructor
  · rintro ⟨hl, h1, h2⟩
    refine ⟨⟨_, List.getElem?_eq_getElem hl, rowKey_iff.1 h1⟩, fun i hi row hr hc => ?_⟩
    obtain ⟨hi', rfl⟩ := List.getElem?_eq_some_iff.1 hr
    have := h2 i hi
    rw [rowKey_iff.2 hc] at this
    simp at this
  · rintro ⟨⟨row, h1, h2⟩, h3⟩
    obtain ⟨hl, rfl⟩ := List.getElem?_eq_some_iff.1 h1
    refine ⟨hl, rowKey_iff.2 h2, fun j hj => ?_⟩
    have := h3 j hj _ (List.getElem?_eq_getElem (hj.trans hl))
    rw [← rowKey_iff] at this
    simpa using this

theorem scan_start (key : String) (sheet : Sheet) :
    (∀ h, (scan key 0 ⟨none, false, false⟩ sheet).header = some h ↔ IsHeader key sheet h) ∧
    ((scan key 0 ⟨none, false, false⟩ sheet).metric = true ↔ Us sheet) ∧
    ((scan key 0 ⟨none, false, false⟩ sheet).rpm = true ↔ RpmSeen key sheet) := by
  refine ⟨fun h => ?_, ?_, ?_⟩
  · rw [scan_header]
    simp only [Option.none_or, Nat.add_zero, Option.map_id']
    exact findIdx_header
  · rw [scan_metric, us_iff]
    simp
  · rw [scan_rpm]
    unfold RpmSeen
    simp only [Bool.false_eq_true, false_or, Option.isSome_none]
    constructor
    · rintro ⟨k, row, hk, hr, h⟩
      refine ⟨k, row, hk, mentions_iff.2 ⟨row, by simp, hr⟩, ?_⟩
      rintro ⟨⟨r, h1, h2⟩, h3⟩
      rcases h with rfl | h
      · simp at h1
      · exact h ⟨⟨r, h1, rowKey_iff.2 h2⟩, us_iff.1 h3⟩
    · rintro ⟨k, row, hk, hr, h⟩
      refine ⟨k, row, hk, ?_, .inr ?_⟩
      · obtain ⟨r, h1, h2⟩ := mentions_iff.1 hr
        rw [List.mem_singleton] at h1
        subst h1
        exact h2
      · rintro ⟨⟨r, h1, h2⟩, h3⟩
        exact h ⟨⟨r, h1, rowKey_iff.1 h2⟩, us_iff.2 h3⟩

/-! ### Columns -/

theorem nameOf_eq (j : ℕ) (c : Cell) (w : String) :
    (match c with
      | .str s => some (lower s)
      | .blank => some ("unnamed: " ++ toString j)
      | _ => none) = some w ↔ Named.nameOf j c = some w.toList := by
  cases c with
  | str s => simp [Named.nameOf, lower_eq]
  | blank =>
    simp only [Named.nameOf, Option.some.injEq]
    rw [← String.toList_append]
    exact String.toList_inj.symm
  | _ => simp [Named.nameOf]

theorem column_iff {hdr : List Cell} {w : String} {j : ℕ} :
    column (names hdr) w = some j ↔ Named hdr w j := by
  unfold column Named
  rw [List.findIdx?_eq_some_iff_getElem]
  simp only [names, List.length_mapIdx, List.getElem_mapIdx, decide_eq_true_eq]
  constructor
  · rintro ⟨hl, h1, h2⟩
    refine ⟨⟨_, List.getElem?_eq_getElem hl, (nameOf_eq _ _ _).1 h1⟩, fun i hi c hc => ?_⟩
    obtain ⟨hi', rfl⟩ := List.getElem?_eq_some_iff.1 hc
    rw [Ne, ← nameOf_eq]
    exact h2 i hi
  · rintro ⟨⟨c, h1, h2⟩, h3⟩
    obtain ⟨hl, rfl⟩ := List.getElem?_eq_some_iff.1 h1
    refine ⟨hl, (nameOf_eq _ _ _).2 h2, fun i hi => ?_⟩
    have := h3 i hi _ (List.getElem?_eq_getElem (hi.trans hl))
    rw [Ne, ← nameOf_eq] at this
    exact this

theorem column_none {hdr : List Cell} {w : String} :
    column (names hdr) w = none ↔ ∀ j, ¬ Named hdr w j := by
  constructor
  · intro h j hj
    rw [← column_iff, h] at hj
    cases hj
  · intro h
    cases hc : column (names hdr) w with
    | none => rfl
    | some j => exact (h j (column_iff.1 hc)).elim

theorem firstColumn_iff {hdr : List Cell} {l : List String} {j : ℕ} :
    firstColumn (names hdr) l = some j ↔ Picks hdr l j := by
  unfold firstColumn Picks
  rw [List.findSome?_eq_some_iff]
  constructor
  · rintro ⟨a, w, b, h1, h2, h3⟩
    exact ⟨a, w, b, h1, column_iff.1 h2, fun w' hw => column_none.1 (h3 w' hw)⟩
  · rintro ⟨a, w, b, h1, h2, h3⟩
    exact ⟨a, w, b, h1, column_iff.2 h2, fun w' hw => column_none.2 (h3 w' hw)⟩

theorem firstColumn_none {hdr : List Cell} {l : List String} :
    firstColumn (names hdr) l = none ↔ ∀ j, ¬ Picks hdr l j := by
  constructor
  · intro h j hj
    rw [← firstColumn_iff, h] at hj
    cases hj
  · intro h
    cases hc : firstColumn (names hdr) l with
    | none => rfl
    | some j => exact (h j (firstColumn_iff.1 hc)).elim

theorem named_of_text {key : String} {hdr : List Cell} (h : HasText key hdr) :
    ∃ j, Named hdr key j := by
  by_contra hc
  push Not at hc
  have := column_none.2 hc
  unfold column at this
  rw [List.findIdx?_eq_none_iff] at this
  obtain ⟨s, hs, hk⟩ := h
  obtain ⟨i, hi, he⟩ := List.getElem_of_mem hs
  have h1 : some (lower s) ∈ names hdr := by
    unfold names
    rw [List.mem_mapIdx]
    exact ⟨i, hi, by rw [he]⟩
  have := this _ h1
  simp [lower_eq.2 hk] at this

/-! ### The block -/

theorem isolate_done (data : List Cell → Bool) : ∀ t : Sheet, isolate data true true t = (true, [])
  | [] => rfl
  | _ :: t => by simp [isolate, isolate_done data t]

theorem isolate_in (data : List Cell → Bool) : ∀ t : Sheet,
    isolate data true false t = (true, t.takeWhile data)
  | [] => rfl
  | r :: t => by
    cases h : data r <;> simp [isolate, h, isolate_done, isolate_in data t]

theorem isolate_eq (data : List Cell → Bool) : ∀ t : Sheet,
    isolate data false false t = (t.any data, (t.dropWhile fun r => !data r).takeWhile data)
  | [] => rfl
  | r :: t => by
    cases h : data r <;> simp [isolate, h, isolate_in, isolate_eq data t]

theorem isNumber_iff {c : Cell} : isNumber false c = true ↔ Numeric c := by
  cases c <;> simp [isNumber, Numeric]

theorem cellAt_eq (r : List Cell) (j : ℕ) : cellAt r j = r.getD j .blank := rfl

theorem allInt_iff {rows : Sheet} : allInt rows = true ↔ ∀ r ∈ rows, ∀ c ∈ r, Whole c := by
  unfold allInt
  simp only [List.all_eq_true]
  refine forall₄_congr fun r _ c _ => ?_
  cases c <;> simp [Whole]

theorem isNumber_int {rows : Sheet} (h : allInt rows = true) {r : List Cell} (hr : r ∈ rows) (j : ℕ) :
    isNumber true (cellAt r j) = false := by
  rw [cellAt_eq, List.getD_eq_getElem?_getD]
  cases hc : r[j]? with
  | none => rfl
  | some c =>
    have := allInt_iff.1 h r hr c (List.mem_of_getElem? hc)
    cases c <;> first | rfl | cases this

theorem block_of {j : ℕ} {body : Sheet}
    (h : body.any (fun r => isNumber (allInt body) (cellAt r j)) = true) :
    allInt body = false ∧ IsBlock j body
      ((body.dropWhile fun r => !isNumber (allInt body) (cellAt r j)).takeWhile
        fun r => isNumber (allInt body) (cellAt r j)) := by
  have hi : allInt body = false := by
    by_contra hc
    rw [Bool.not_eq_false] at hc
    rw [List.any_eq_true] at h
    obtain ⟨r, hr, hn⟩ := h
    rw [hc, isNumber_int hc hr j] at hn
    cases hn
  refine ⟨hi, ?_⟩
  rw [hi] at h ⊢
  have hne : body.dropWhile (fun r => !isNumber false (cellAt r j)) ≠ [] := by
    rw [Ne, List.dropWhile_eq_nil_iff]
    intro hc
    obtain ⟨r, hr, hn⟩ := List.any_eq_true.1 h
    have := hc r hr
    rw [hn] at this
    cases this
  refine ⟨?_, ?_, body.takeWhile (fun r => !isNumber false (cellAt r j)),
    (body.dropWhile fun r => !isNumber false (cellAt r j)).dropWhile
      fun r => isNumber false (cellAt r j), ?_, ?_, ?_⟩
  · obtain ⟨a, t, ht⟩ := List.exists_cons_of_ne_nil hne
    have h1 := List.head_dropWhile_not (p := fun r => !isNumber false (cellAt r j)) (l := body) hne
    rw [ht]
    simp only [ht, List.head_cons] at h1
    rw [List.takeWhile_cons_of_pos (by simpa using h1)]
    exact List.cons_ne_nil _ _
  · intro r hr
    have := List.mem_takeWhile_imp hr
    exact isNumber_iff.1 this
  · rw [List.append_assoc, List.takeWhile_append_dropWhile, List.takeWhile_append_dropWhile]
  · intro r hr hc
    have := List.mem_takeWhile_imp hr
    rw [cellAt_eq, isNumber_iff.2 hc] at this
    cases this
  · intro r hr hc
    rw [Option.mem_def, List.head?_eq_some_iff] at hr
    obtain ⟨t, ht⟩ := hr
    have h1 := List.head_dropWhile_not (p := fun r => isNumber false (cellAt r j))
      (l := body.dropWhile fun r => !isNumber false (cellAt r j)) (by rw [ht]; exact List.cons_ne_nil _ _)
    simp only [ht, List.head_cons] at h1
    rw [cellAt_eq, isNumber_iff.2 hc] at h1
    cases h1

/-- The block is determined by the rows. -/
theorem block_unique {j : ℕ} {body rows : Sheet} (hb : IsBlock j body rows) (hi : allInt body = false) :
    isolate (fun r => isNumber (allInt body) (cellAt r j)) false false body = (true, rows) := by
  obtain ⟨h1, h2, pre, post, rfl, h3, h4⟩ := hb
  rw [isolate_eq, hi]
  have e1 : (pre ++ rows ++ post).dropWhile (fun r => !isNumber false (cellAt r j)) = rows ++ post := by
    rw [List.append_assoc, List.dropWhile_append_of_pos]
    · obtain ⟨a, t, ht⟩ := List.exists_cons_of_ne_nil h1
      subst ht
      rw [List.cons_append, List.dropWhile_cons_of_neg]
      have : isNumber false (cellAt a j) = true := isNumber_iff.2 (h2 a (by simp))
      rw [this]
      decide
    · intro r hr
      have := h3 r hr
      rw [← isNumber_iff] at this
      simpa [cellAt_eq] using this
  have e2 : (rows ++ post).takeWhile (fun r => isNumber false (cellAt r j)) = rows := by
    rw [List.takeWhile_append_of_pos (p := fun r => isNumber false (cellAt r j))
      (fun r hr => isNumber_iff.2 (h2 r hr))]
    cases post with
    | nil => simp
    | cons a t =>
      rw [List.takeWhile_cons_of_neg, List.append_nil]
      have := h4 a (by simp)
      rw [← isNumber_iff] at this
      simpa [cellAt_eq] using this
  rw [e1, e2]
  congr 1
  rw [List.any_eq_true]
  obtain ⟨a, t, ht⟩ := List.exists_cons_of_ne_nil h1
  exact ⟨a, by simp [ht], isNumber_iff.2 (h2 a (by simp [ht]))⟩

/-! ### The conversions -/

theorem mapM_comp {α β γ : Type} (f : α → Res β) (g : β → Res γ) (l : List α) (r : List γ) :
    (l.mapM f >>= fun l' => l'.mapM g) = .ok r ↔ l.mapM (fun x => f x >>= g) = .ok r := by
  rw [BearingLemmas.bind_ok]
  constructor
  · rintro ⟨m, h1, h2⟩
    rw [mapM_ok_iff] at h1 h2 ⊢
    have e : l.map (fun x => f x >>= g) = (l.map f).map (fun y => y >>= g) := by
      rw [List.map_map]; rfl
    rw [e, h1, ← h2, List.map_map]
    rfl
  · intro h
    induction l generalizing r with
    | nil =>
      refine ⟨[], rfl, ?_⟩
      simpa using h
    | cons a t ih =>
      rw [List.mapM_cons] at h
      simp only [BearingLemmas.bind_ok] at h
      obtain ⟨c, ⟨b, h1, h2⟩, cs, h3, h4⟩ := h
      cases h4
      obtain ⟨m, h5, h6⟩ := ih cs h3
      refine ⟨b :: m, ?_, ?_⟩
      · rw [List.mapM_cons]
        simp only [BearingLemmas.bind_ok]
        exact ⟨b, h1, m, h5, rfl⟩
      · rw [List.mapM_cons]
        simp only [BearingLemmas.bind_ok]
        exact ⟨c, h2, cs, h6, rfl⟩

theorem mapM_pure {α : Type} (l : List α) : l.mapM (fun x => (pure x : Res α)) = .ok l := by
  rw [mapM_ok_iff]
  rfl

/-- What `change` does to an entry. -/
noncomputable def entry (k : String) (f : PVal → Res PVal) (kv : String × TableParam) :
    Res (String × TableParam) :=
  match kv.2 with
  | .list l => if kv.1 = k then do
      let l' ← l.mapM f
      pure (kv.1, .list l')
    else pure kv
  | .one _ => pure kv

theorem change_eq (k : String) (f : PVal → Res PVal) (d : Dict String TableParam) :
    change k f d = d.mapM (entry k f) := rfl

/-- What happens to one value of the list of `k`. -/
noncomputable def step (kind : Kind) (metric rpm : Bool) (k : String) (v : PVal) : Res PVal := do
  let v ← onlyIf (kind = .shaft true) (onlyIf (k = "material") materialName) v
  let v ← onlyIf (kind ≠ .bearing) (onlyIf (k = "n") minusOne) v
  let v ← onlyIf (metric = true)
    (fun v => (metricFactors kind).foldlM (fun v kf => onlyIf (k = kf.1) (times kf.2) v) v) v
  onlyIf (rpm = true ∧ kind = .bearing) (onlyIf (k = "frequency") (times 0.1047197551197)) v

/-- A change of entries that changes the lists of numbers value by value. -/
def ByValue (F : String × TableParam → Res (String × TableParam)) (g : String → PVal → Res PVal) : Prop :=
  (∀ k n, F (k, .one n) = .ok (k, .one n)) ∧
    ∀ k l e, F (k, .list l) = .ok e ↔ ∃ l', e = (k, .list l') ∧ l.mapM (g k) = .ok l'

theorem byValue_pure : ByValue (fun e => pure e) fun _ v => pure v := by
  refine ⟨fun k n => rfl, fun k l e => ?_⟩
  rw [mapM_pure]
  constructor
  · intro h
    exact ⟨l, (Except.ok.inj h).symm, rfl⟩
  · rintro ⟨l', rfl, h⟩
    cases h
    rfl

theorem byValue_entry (k₀ : String) (f : PVal → Res PVal) :
    ByValue (entry k₀ f) fun k => onlyIf (k = k₀) f := by
  refine ⟨fun k n => rfl, fun k l e => ?_⟩
  unfold entry
  dsimp only
  by_cases h : k = k₀
  · have : onlyIf (k = k₀) f = f := funext fun v => if_pos h
    rw [this]
    simp only [if_pos h]
    rw [BearingLemmas.bind_ok]
    constructor
    · rintro ⟨l', h1, h2⟩
      exact ⟨l', (Except.ok.inj h2).symm, h1⟩
    · rintro ⟨l', rfl, h1⟩
      exact ⟨l', h1, rfl⟩
  · have : onlyIf (k = k₀) f = fun v => pure v := funext fun v => if_neg h
    rw [this]
    simp only [if_neg h]
    exact byValue_pure.2 k l e

theorem ByValue.comp {F G : String × TableParam → Res (String × TableParam)} {f g : String → PVal → Res PVal}
    (hF : ByValue F f) (hG : ByValue G g) :
    ByValue (fun e => F e >>= G) fun k v => f k v >>= g k := by
  refine ⟨fun k n => ?_, fun k l e => ?_⟩
  · exact BearingLemmas.bind_ok.2 ⟨_, hF.1 k n, hG.1 k n⟩
  · rw [BearingLemmas.bind_ok]
    constructor
    · rintro ⟨e', h1, h2⟩
      obtain ⟨l', rfl, h3⟩ := (hF.2 k l e').1 h1
      obtain ⟨l'', rfl, h4⟩ := (hG.2 k l' e).1 h2
      exact ⟨l'', rfl, (mapM_comp _ _ _ _).1 (BearingLemmas.bind_ok.2 ⟨l', h3, h4⟩)⟩
    · rintro ⟨l', rfl, h⟩
      obtain ⟨m, h1, h2⟩ := BearingLemmas.bind_ok.1 ((mapM_comp _ _ _ _).2 h)
      exact ⟨_, (hF.2 k l _).2 ⟨m, rfl, h1⟩, (hG.2 k m _).2 ⟨l', rfl, h2⟩⟩

theorem byValue_fold : ∀ fs : List (String × ℝ),
    ByValue (fun e => fs.foldlM (fun e kf => entry kf.1 (times kf.2) e) e)
      fun k v => fs.foldlM (fun v kf => onlyIf (k = kf.1) (times kf.2) v) v
  | [] => byValue_pure
  | kf :: fs => by
    simp only [List.foldlM_cons]
    exact (byValue_entry kf.1 (times kf.2)).comp (byValue_fold fs)

theorem fold_change (fs : List (String × ℝ)) (d r : Dict String TableParam) :
    fs.foldlM (fun d kf => change kf.1 (times kf.2) d) d = .ok r ↔
      d.mapM (fun e => fs.foldlM (fun e kf => entry kf.1 (times kf.2) e) e) = .ok r := by
  induction fs generalizing d with
  | nil =>
    simp only [List.foldlM_nil]
    rw [mapM_pure]
    rfl
  | cons kf fs ih =>
    simp only [List.foldlM_cons]
    rw [← mapM_comp, BearingLemmas.bind_ok, BearingLemmas.bind_ok]
    exact exists_congr fun a => and_congr (by rw [change_eq]) (ih a)

/-- The conversions of one entry. -/
noncomputable def entryAll (kind : Kind) (metric rpm : Bool) (e : String × TableParam) :
    Res (String × TableParam) := do
  let e ← onlyIf (kind = .shaft true) (entry "material" materialName) e
  let e ← onlyIf (kind ≠ .bearing) (entry "n" minusOne) e
  let e ← onlyIf (metric = true)
    (fun e => (metricFactors kind).foldlM (fun e kf => entry kf.1 (times kf.2) e) e) e
  onlyIf (rpm = true ∧ kind = .bearing) (entry "frequency" (times 0.1047197551197)) e

theorem onlyIf_mapM (p : Prop) [Decidable p] {F : String × TableParam → Res (String × TableParam)}
    {G : Dict String TableParam → Res (Dict String TableParam)}
    (hG : ∀ d r, G d = .ok r ↔ d.mapM F = .ok r) (d r : Dict String TableParam) :
    onlyIf p G d = .ok r ↔ d.mapM (onlyIf p F) = .ok r := by
  by_cases h : p
  · have e : onlyIf p F = F := funext fun v => if_pos h
    rw [e, ← hG, onlyIf, if_pos h]
  · have e : onlyIf p F = fun v => pure v := funext fun v => if_neg h
    rw [e, mapM_pure, onlyIf, if_neg h]
    rfl

theorem convertAll_iff (kind : Kind) (metric rpm : Bool) (d r : Dict String TableParam) :
    convertAll kind metric rpm d = .ok r ↔ d.mapM (entryAll kind metric rpm) = .ok r := by
  have k0 : ∀ k f (d r : Dict String TableParam), change k f d = .ok r ↔ d.mapM (entry k f) = .ok r :=
    fun k f d r => by rw [change_eq]
  unfold convertAll
  simp only [BearingLemmas.bind_ok, onlyIf_mapM _ (k0 _ _), onlyIf_mapM _ (fold_change _)]
  have e : entryAll kind metric rpm = fun e =>
      onlyIf (kind = .shaft true) (entry "material" materialName) e >>= fun e =>
      onlyIf (kind ≠ .bearing) (entry "n" minusOne) e >>= fun e =>
      onlyIf (metric = true)
        (fun e => (metricFactors kind).foldlM (fun e kf => entry kf.1 (times kf.2) e) e) e >>=
      onlyIf (rpm = true ∧ kind = .bearing) (entry "frequency" (times 0.1047197551197)) := rfl
  rw [e]
  rw [← mapM_comp, BearingLemmas.bind_ok]
  refine exists_congr fun a => and_congr Iff.rfl ?_
  rw [← mapM_comp, BearingLemmas.bind_ok]
  refine exists_congr fun a => and_congr Iff.rfl ?_
  rw [← mapM_comp, BearingLemmas.bind_ok]

theorem byValue_if (p : Prop) [Decidable p] {F : String × TableParam → Res (String × TableParam)}
    {f : String → PVal → Res PVal} (h : ByValue F f) :
    ByValue (onlyIf p F) fun k => onlyIf p (f k) := by
  by_cases hp : p
  · have e : onlyIf p F = F := funext fun v => if_pos hp
    have e' : (fun k => onlyIf p (f k)) = f := funext fun k => funext fun v => if_pos hp
    rw [e, e']
    exact h
  · have e : onlyIf p F = fun v => pure v := funext fun v => if_neg hp
    have e' : (fun k => onlyIf p (f k)) = fun _ v => pure v := funext fun k => funext fun v => if_neg hp
    rw [e, e']
    exact byValue_pure

theorem byValue_all (kind : Kind) (metric rpm : Bool) :
    ByValue (entryAll kind metric rpm) (step kind metric rpm) :=
  (byValue_if (kind = .shaft true) (byValue_entry "material" materialName)).comp
    ((byValue_if (kind ≠ .bearing) (byValue_entry "n" minusOne)).comp
      ((byValue_if (metric = true) (byValue_fold (metricFactors kind))).comp
        (byValue_if (rpm = true ∧ kind = .bearing)
          (byValue_entry "frequency" (times 0.1047197551197)))))

/-- The keys of the lists that are returned. -/
def listKeys (kind : Kind) : List String := mandatory kind ++ (leftOut kind).map Prod.fst

theorem fold_step (kind : Kind) (k : String) (hk : k ∈ listKeys kind) (v : PVal) :
    (metricFactors kind).foldlM (fun v kf => onlyIf (k = kf.1) (times kf.2) v) v =
      onlyIf (k ∈ Changed.changedBy kind) (times (usFactor kind k)) v := by
  rcases kind with _ | m | _
  · simp only [listKeys, mandatory, leftOut, List.map, List.cons_append, List.nil_append,
      List.mem_cons, List.not_mem_nil, or_false] at hk
    rcases hk with rfl | rfl | rfl | rfl | rfl | rfl | rfl | rfl | rfl <;>
      simp [metricFactors, onlyIf, Changed.changedBy, usFactor]
  · simp only [listKeys, mandatory, leftOut, List.map, List.cons_append, List.nil_append,
      List.mem_cons, List.not_mem_nil, or_false] at hk
    rcases hk with rfl | rfl | rfl | rfl | rfl | rfl | rfl | rfl | rfl | rfl | rfl | rfl | rfl <;>
      simp [metricFactors, onlyIf, Changed.changedBy, usFactor]
  · simp only [listKeys, mandatory, leftOut, List.map, List.append_nil,
      List.mem_cons, List.not_mem_nil, or_false] at hk
    rcases hk with rfl | rfl | rfl | rfl <;>
      simp [metricFactors, onlyIf, Changed.changedBy, usFactor]

theorem factor_one (kind : Kind) (k : String) (hk : k ∈ listKeys kind)
    (h : k ∉ Changed.changedBy kind) : usFactor kind k = 1 := by
  rcases kind with _ | m | _
  · simp only [listKeys, mandatory, leftOut, List.map, List.cons_append, List.nil_append,
      List.mem_cons, List.not_mem_nil, or_false] at hk
    rcases hk with rfl | rfl | rfl | rfl | rfl | rfl | rfl | rfl | rfl <;>
      first | rfl | (exact absurd (by decide) h)
  · simp only [listKeys, mandatory, leftOut, List.map, List.cons_append, List.nil_append,
      List.mem_cons, List.not_mem_nil, or_false] at hk
    rcases hk with rfl | rfl | rfl | rfl | rfl | rfl | rfl | rfl | rfl | rfl | rfl | rfl | rfl <;>
      first | rfl | (exact absurd (by simp [Changed.changedBy]) h)
  · simp only [listKeys, mandatory, leftOut, List.map, List.append_nil,
      List.mem_cons, List.not_mem_nil, or_false] at hk
    rcases hk with rfl | rfl | rfl | rfl <;>
      first | rfl | (exact absurd (by decide) h)

theorem onlyIf_pos {α : Type} {p : Prop} [Decidable p] (h : p) (f : α → Res α) (x : α) :
    onlyIf p f x = f x := if_pos h

theorem onlyIf_neg {α : Type} {p : Prop} [Decidable p] (h : ¬ p) (f : α → Res α) (x : α) :
    onlyIf p f x = .ok x := if_neg h

theorem ok_bind {α β : Type} (x : α) (f : α → Res β) : ((.ok x : Res α) >>= f) = f x := rfl

theorem bind_ok_self {α : Type} (x : Res α) : (x >>= fun a => (.ok a : Res α)) = x := by
  cases x <;> rfl

theorem step_material (m r : Bool) (v : PVal) :
    step (.shaft true) m r "material" v = materialName v := by
  unfold step
  rw [onlyIf_pos rfl, onlyIf_pos rfl]
  have e : ∀ v : PVal, (onlyIf (Kind.shaft true ≠ .bearing) (onlyIf ("material" = "n") minusOne) v >>=
      fun v => onlyIf (m = true)
        (fun v => (metricFactors (.shaft true)).foldlM
          (fun v kf => onlyIf ("material" = kf.1) (times kf.2) v) v) v >>=
      fun v => onlyIf (r = true ∧ Kind.shaft true = .bearing)
        (onlyIf ("material" = "frequency") (times 0.1047197551197)) v) = .ok v := by
    intro v
    rw [onlyIf_pos (by decide), onlyIf_neg (by decide), ok_bind]
    cases m
    · rw [onlyIf_neg (by decide), ok_bind, onlyIf_neg (by simp)]
    · rw [onlyIf_pos rfl, fold_step _ _ (by decide), onlyIf_neg (by decide), ok_bind,
        onlyIf_neg (by simp)]
  simp only [e]
  exact bind_ok_self _

theorem step_n (kind : Kind) (hk : kind ≠ .bearing) (m r : Bool) (v : PVal) :
    step kind m r "n" v = minusOne v := by
  unfold step
  have e0 : onlyIf (kind = .shaft true) (onlyIf ("n" = "material") materialName) v = .ok v := by
    by_cases h : kind = .shaft true
    · rw [onlyIf_pos h, onlyIf_neg (by decide)]
    · rw [onlyIf_neg h]
  rw [e0, ok_bind, onlyIf_pos hk, onlyIf_pos rfl]
  have e : ∀ v : PVal, (onlyIf (m = true)
        (fun v => (metricFactors kind).foldlM
          (fun v kf => onlyIf ("n" = kf.1) (times kf.2) v) v) v >>=
      fun v => onlyIf (r = true ∧ kind = .bearing)
        (onlyIf ("n" = "frequency") (times 0.1047197551197)) v) = .ok v := by
    intro v
    cases m
    · rw [onlyIf_neg (by decide), ok_bind, onlyIf_neg (by simp [hk])]
    · rw [onlyIf_pos rfl]
      have h1 : "n" ∈ listKeys kind := by
        rcases kind with _ | _ | _
        · exact absurd rfl hk
        · simp [listKeys, leftOut]
        · decide
      have h2 : "n" ∉ Changed.changedBy kind := by
        rcases kind with _ | _ | _ <;> simp [Changed.changedBy]
      rw [fold_step _ _ h1, onlyIf_neg h2, ok_bind, onlyIf_neg (by simp [hk])]
  simp only [e]
  exact bind_ok_self _

theorem step_other (kind : Kind) (k : String) (hk : k ∈ listKeys kind)
    (h1 : ¬ (kind = .shaft true ∧ k = "material")) (h2 : ¬ (kind ≠ .bearing ∧ k = "n"))
    (m r : Bool) (v : PVal) :
    step kind m r k v = if r = true ∧ kind = .bearing ∧ k = "frequency" then times 0.1047197551197 v
      else if m = true ∧ k ∈ Changed.changedBy kind then times (usFactor kind k) v else .ok v := by
  unfold step
  have e0 : onlyIf (kind = .shaft true) (onlyIf (k = "material") materialName) v = .ok v := by
    by_cases h : kind = .shaft true
    · rw [onlyIf_pos h, onlyIf_neg (fun h' => h1 ⟨h, h'⟩)]
    · rw [onlyIf_neg h]
  have e1 : onlyIf (kind ≠ .bearing) (onlyIf (k = "n") minusOne) v = .ok v := by
    by_cases h : kind ≠ .bearing
    · rw [onlyIf_pos h, onlyIf_neg (fun h' => h2 ⟨h, h'⟩)]
    · rw [onlyIf_neg h]
  rw [e0, ok_bind, e1, ok_bind]
  have e2 : onlyIf (m = true) (fun v => (metricFactors kind).foldlM
      (fun v kf => onlyIf (k = kf.1) (times kf.2) v) v) v =
      onlyIf (m = true ∧ k ∈ Changed.changedBy kind) (times (usFactor kind k)) v := by
    cases m
    · simp [onlyIf]
    · rw [onlyIf_pos rfl, fold_step _ _ hk]
      simp [onlyIf]
  rw [e2]
  by_cases hf : r = true ∧ kind = .bearing ∧ k = "frequency"
  · rw [if_pos hf]
    obtain ⟨a, rfl, rfl⟩ := hf
    rw [onlyIf_neg (by simp [Changed.changedBy]), ok_bind, onlyIf_pos ⟨a, rfl⟩, onlyIf_pos rfl]
  · rw [if_neg hf]
    have : ∀ v, onlyIf (r = true ∧ kind = .bearing)
        (onlyIf (k = "frequency") (times 0.1047197551197)) v = .ok v := by
      intro v
      by_cases h : r = true ∧ kind = .bearing
      · rw [onlyIf_pos h, onlyIf_neg (fun h' => hf ⟨h.1, h.2, h'⟩)]
      · rw [onlyIf_neg h]
    simp only [this]
    rw [bind_ok_self]
    rfl

theorem times_ok {f : ℝ} {c : Cell} {v : PVal} : times f (PVal.ofCell c) = .ok v ↔
    match c with
    | .int z => v = .num ((z : ℝ) * f)
    | .num x => v = .num (x * f)
    | .blank => v = .nan
    | .str _ => False := by
  cases c <;> simp [times, PVal.ofCell, eq_comm]

/-- What the conversions make of a cell. -/
theorem step_cell (kind : Kind) (k : String) (hk : k ∈ listKeys kind) (m r : Bool) (c : Cell)
    (v : PVal) :
    step kind m r k (PVal.ofCell c) = .ok v ↔ Becomes kind (m = true) (r = true) k c v := by
  unfold Becomes
  by_cases h1 : kind = .shaft true ∧ k = "material"
  · rw [if_pos h1]
    obtain ⟨rfl, rfl⟩ := h1
    rw [step_material]
    cases c <;> simp [materialName, toInt, PVal.ofCell, numberIn, intPart, eq_comm,
      pure, Except.pure, Bind.bind, Except.bind]
  · rw [if_neg h1]
    by_cases h2 : kind ≠ .bearing ∧ k = "n"
    · have hc : Changed kind (m = true) (r = true) k := Or.inr (Or.inr h2)
      have hs : shiftOf kind k = 1 := if_pos h2
      have hf : factorOf kind (m = true) (r = true) k = 1 := by
        unfold factorOf
        rw [if_neg (c := r = true ∧ kind = .bearing ∧ k = "frequency") (fun h => h2.1 h.2.1),
          mul_one]
        split_ifs
        · apply factor_one _ _ hk
          rw [h2.2]
          rcases kind with _ | _ | _ <;> simp [Changed.changedBy]
        · rfl
      rw [hs, hf]
      obtain ⟨a, rfl⟩ := h2
      rw [step_n _ a]
      cases c <;> simp [minusOne, PVal.ofCell, eq_comm, hc]
    · have hs : shiftOf kind k = 0 := if_neg h2
      rw [hs, step_other kind k hk h1 h2]
      by_cases h3 : r = true ∧ kind = .bearing ∧ k = "frequency"
      · rw [if_pos h3, times_ok]
        have hc : Changed kind (m = true) (r = true) k := Or.inr (Or.inl h3)
        have hf : factorOf kind (m = true) (r = true) k = 0.1047197551197 := by
          unfold factorOf
          rw [if_pos h3]
          obtain ⟨_, rfl, rfl⟩ := h3
          simp [usFactor]
        rw [hf]
        cases c <;> simp [hc]
      · rw [if_neg h3]
        by_cases h4 : m = true ∧ k ∈ Changed.changedBy kind
        · rw [if_pos h4, times_ok]
          have hc : Changed kind (m = true) (r = true) k := Or.inl h4
          have hf : factorOf kind (m = true) (r = true) k = usFactor kind k := by
            unfold factorOf
            rw [if_neg h3, if_pos h4.1, mul_one]
          rw [hf]
          cases c <;> simp [hc]
        · rw [if_neg h4]
          have hc : ¬ Changed kind (m = true) (r = true) k := by
            rintro (h | h | h)
            exacts [h4 h, h3 h, h2 h]
          have hf : factorOf kind (m = true) (r = true) k = 1 := by
            unfold factorOf
            rw [if_neg h3, mul_one]
            split_ifs with hm
            · exact factor_one _ _ hk fun h => h4 ⟨hm, h⟩
            · rfl
          rw [hf]
          cases c <;> simp [hc, PVal.ofCell, eq_comm]

/-- What the conversions make of the value of a missing column. -/
theorem step_default (kind : Kind) (k : String) (u : PVal) (hk : (k, u) ∈ leftOut kind) (m r : Bool)
    (v : PVal) :
    step kind m r k u = .ok v ↔ v = u ∧ ¬ (u = .null ∧ Changed kind (m = true) (r = true) k) := by
  have hk' : k ∈ listKeys kind := List.mem_append_right _ (List.mem_map.2 ⟨_, hk, rfl⟩)
  have hm : ¬ (kind = .shaft true ∧ k = "material") := by
    rintro ⟨rfl, rfl⟩
    simp [leftOut] at hk
  by_cases h2 : kind ≠ .bearing ∧ k = "n"
  · have hc : Changed kind (m = true) (r = true) k := Or.inr (Or.inr h2)
    obtain ⟨a, rfl⟩ := h2
    rw [step_n _ a]
    rcases kind with _ | _ | _
    · exact absurd rfl a
    · simp only [leftOut, List.mem_cons, Prod.mk.injEq, List.not_mem_nil, or_false] at hk
      have : u = .null := by simpa using hk
      subst this
      simp [minusOne, hc]
    · simp [leftOut] at hk
  · rw [step_other kind k hk' hm h2]
    have hu : ∀ f : ℝ, (u = .null ∨ u = .num 0) →
        (times f u = .ok v ↔ v = u ∧ ¬ u = .null) := by
      rintro f (rfl | rfl) <;> simp [times, eq_comm]
    by_cases h3 : r = true ∧ kind = .bearing ∧ k = "frequency"
    · rw [if_pos h3]
      have hc : Changed kind (m = true) (r = true) k := Or.inr (Or.inl h3)
      obtain ⟨_, rfl, rfl⟩ := h3
      have : u = .null := by simpa [leftOut] using hk
      rw [hu _ (Or.inl this)]
      simp [hc]
    · rw [if_neg h3]
      by_cases h4 : m = true ∧ k ∈ Changed.changedBy kind
      · rw [if_pos h4]
        have hc : Changed kind (m = true) (r = true) k := Or.inl h4
        have : u = .null ∨ u = .num 0 := by
          rcases kind with _ | _ | _ <;>
            simp only [leftOut, List.mem_cons, Prod.mk.injEq, List.not_mem_nil, or_false] at hk
          · rcases hk with h | h | h | h | h | h | h <;> simp [h.2]
          · rcases hk with h | h | h | h | h | h | h <;>
              first | (simp [h.2]; done) | (have := h4.2; rw [h.1] at this; simp [Changed.changedBy] at this)
        rw [hu _ this]
        simp [hc]
      · rw [if_neg h4]
        have hc : ¬ Changed kind (m = true) (r = true) k := by
          rintro (h | h | h)
          exacts [h4 h, h3 h, h2 h]
        simp [hc, eq_comm]

end Ross.TableLemmas
