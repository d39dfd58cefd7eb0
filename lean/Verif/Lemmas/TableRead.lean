import Verif.Lemmas.Tables
import Verif.Lemmas.DictLemmas
import Mathlib.Data.List.Forall2

/-!
# Reading a whole table
-/

namespace Ross.TableLemmas

open Spec Tables

theorem mapM_forall₂ {α β : Type} (f : α → Res β) (l : List α) (r : List β) :
    l.mapM f = .ok r ↔ List.Forall₂ (fun a b => f a = .ok b) l r := by
  rw [mapM_ok_iff, ← List.forall₂_eq_eq_eq, List.forall₂_map_left_iff, List.forall₂_map_right_iff]

theorem required_eq (kind : Kind) :
    requiredColumns kind = (mandatory kind).map fun k => (k, namesOf kind k) := by
  rcases kind with _ | _ | _ <;> rfl

theorem optional_eq (kind : Kind) :
    optionalColumns kind = (leftOut kind).map fun e => (e.1, namesOf kind e.1, e.2) := by
  rcases kind with _ | _ | _ <;> rfl

theorem headerKey_eq (kind : Kind) : headerKey kind = keyWord kind := by
  rcases kind with _ | m | _
  · rfl
  · cases m <;> rfl
  · rfl

theorem values_step (kind : Kind) (k : String) (hk : k ∈ listKeys kind) (m r : Bool) (rows : Sheet)
    (j : ℕ) (vs : List PVal) :
    (values rows j).mapM (step kind m r k) = .ok vs ↔
      List.Forall₂ (fun r' v => Becomes kind (m = true) (r = true) k (r'.getD j .blank) v) rows vs := by
  rw [mapM_forall₂, values, List.forall₂_map_left_iff]
  simp only [step_cell kind k hk, cellAt_eq]

theorem default_step (kind : Kind) (k : String) (u : PVal) (hk : (k, u) ∈ leftOut kind) (m r : Bool)
    (n : ℕ) (hn : n ≠ 0) (vs : List PVal) :
    (List.replicate n u).mapM (step kind m r k) = .ok vs ↔
      vs = List.replicate n u ∧ ¬ (u = .null ∧ Changed kind (m = true) (r = true) k) := by
  rw [mapM_forall₂]
  constructor
  · intro h
    have hl := h.length_eq
    rw [List.length_replicate] at hl
    have h' := List.forall₂_iff_get.1 h
    have h2 : ∀ i (hi : i < vs.length), vs[i] = u ∧
        ¬ (u = .null ∧ Changed kind (m = true) (r = true) k) := by
      intro i hi
      have := h'.2 i (by simpa [hl] using hi) hi
      simp only [List.get_eq_getElem, List.getElem_replicate] at this
      exact (step_default kind k u hk m r _).1 this
    refine ⟨?_, (h2 0 (by omega)).2⟩
    rw [List.eq_replicate_iff]
    refine ⟨hl.symm, fun b hb => ?_⟩
    obtain ⟨i, hi, rfl⟩ := List.getElem_of_mem hb
    exact (h2 i hi).1
  · rintro ⟨rfl, h⟩
    have := (step_default kind k u hk m r u).2 ⟨rfl, h⟩
    clear hn h
    induction n with
    | zero => exact .nil
    | succ n ih => exact .cons this ih

theorem required_step (kind : Kind) (k : String) (hk : k ∈ mandatory kind) (m r : Bool)
    (hdr : List Cell) (rows : Sheet) (e : String × TableParam) :
    (required (names hdr) rows (k, namesOf kind k) >>= entryAll kind m r) = .ok e ↔
      ∃ vs, e = (k, .list vs) ∧ ReadsAs kind (m = true) (r = true) hdr rows k none vs := by
  have hk' : k ∈ listKeys kind := List.mem_append_left _ hk
  rw [BearingLemmas.bind_ok]
  unfold required
  dsimp only
  cases hc : firstColumn (names hdr) (namesOf kind k) with
  | none =>
    constructor
    · rintro ⟨a, h, _⟩
      cases h
    · rintro ⟨vs, rfl, h⟩
      rcases h with ⟨j, hj, _⟩ | ⟨_, u, hu, _⟩
      · exact absurd hj (firstColumn_none.1 hc j)
      · cases hu
  | some j =>
    constructor
    · rintro ⟨a, h, h'⟩
      cases h
      obtain ⟨vs, rfl, h1⟩ := ((byValue_all kind m r).2 _ _ _).1 h'
      exact ⟨vs, rfl, .inl ⟨j, firstColumn_iff.1 hc, (values_step kind k hk' m r rows j vs).1 h1⟩⟩
    · rintro ⟨vs, rfl, h⟩
      refine ⟨_, rfl, ((byValue_all kind m r).2 _ _ _).2 ⟨vs, rfl, ?_⟩⟩
      rcases h with ⟨j', hj, h1⟩ | ⟨h1, _⟩
      · rw [← firstColumn_iff, hc] at hj
        cases hj
        exact (values_step kind k hk' m r rows j vs).2 h1
      · exact absurd (firstColumn_iff.1 hc) (h1 j)

theorem optional_step (kind : Kind) (k : String) (u : PVal) (hk : (k, u) ∈ leftOut kind) (m r : Bool)
    (hdr : List Cell) (rows : Sheet) (hr : rows ≠ []) (e : String × TableParam) :
    entryAll kind m r (Tables.optional (names hdr) rows (k, namesOf kind k, u)) = .ok e ↔
      ∃ vs, e = (k, .list vs) ∧ ReadsAs kind (m = true) (r = true) hdr rows k (some u) vs := by
  have hk' : k ∈ listKeys kind := List.mem_append_right _ (List.mem_map.2 ⟨_, hk, rfl⟩)
  unfold Tables.optional
  dsimp only
  cases hc : firstColumn (names hdr) (namesOf kind k) with
  | none =>
    dsimp only
    rw [(byValue_all kind m r).2]
    refine exists_congr fun vs => and_congr Iff.rfl ?_
    rw [default_step kind k u hk m r _ (by simpa using hr)]
    constructor
    · rintro ⟨h1, h2⟩
      exact .inr ⟨firstColumn_none.1 hc, u, rfl, h1, h2⟩
    · rintro (⟨j, hj, _⟩ | ⟨_, u', hu, h1, h2⟩)
      · exact absurd hj (firstColumn_none.1 hc j)
      · cases hu
        exact ⟨h1, h2⟩
  | some j =>
    dsimp only
    rw [(byValue_all kind m r).2]
    refine exists_congr fun vs => and_congr Iff.rfl ?_
    rw [values_step kind k hk']
    constructor
    · intro h
      exact .inl ⟨j, firstColumn_iff.1 hc, h⟩
    · rintro (⟨j', hj, h1⟩ | ⟨h1, _⟩)
      · rw [← firstColumn_iff, hc] at hj
        cases hj
        exact h1
      · exact absurd (firstColumn_iff.1 hc) (h1 j)

theorem forall₂_congr' {α β : Type} {R S : α → β → Prop} :
    ∀ {l : List α} {r : List β}, (∀ a ∈ l, ∀ b, R a b ↔ S a b) →
      (List.Forall₂ R l r ↔ List.Forall₂ S l r)
  | [], r, _ => by cases r <;> simp
  | a :: l, [], _ => by simp
  | a :: l, b :: r, h => by
    rw [List.forall₂_cons, List.forall₂_cons, h a (by simp) b,
      forall₂_congr' fun a' ha => h a' (List.mem_cons_of_mem _ ha)]

/-- The lists for the columns, in order. -/
theorem lists_iff (kind : Kind) (m r : Bool) (n : ℕ) (hdr : List Cell) (rows : Sheet) (hr : rows ≠ [])
    (d : Dict String TableParam) :
    ((requiredColumns kind).mapM (required (names hdr) rows) >>= fun req =>
      convertAll kind m r ((if kind = .bearing then [("n", TableParam.one n)] else []) ++ req ++
        (optionalColumns kind).map (Tables.optional (names hdr) rows))) = .ok d ↔
    ∃ d1 d2, d = (if kind = .bearing then [("n", TableParam.one n)] else []) ++ d1 ++ d2 ∧
      List.Forall₂ (fun k e => ∃ vs, e = (k, .list vs) ∧
        ReadsAs kind (m = true) (r = true) hdr rows k none vs) (mandatory kind) d1 ∧
      List.Forall₂ (fun ku e => ∃ vs, e = (ku.1, .list vs) ∧
        ReadsAs kind (m = true) (r = true) hdr rows ku.1 (some ku.2) vs) (leftOut kind) d2 := by
  have h1 : ∀ d1, ((requiredColumns kind).mapM (required (names hdr) rows) >>= fun req =>
      req.mapM (entryAll kind m r)) = .ok d1 ↔ List.Forall₂ (fun k e => ∃ vs, e = (k, .list vs) ∧
        ReadsAs kind (m = true) (r = true) hdr rows k none vs) (mandatory kind) d1 := by
    intro d1
    rw [mapM_comp, mapM_forall₂, required_eq, List.forall₂_map_left_iff]
    exact forall₂_congr' fun k hk e => required_step kind k hk m r hdr rows e
  have h2 : ∀ d2, (((optionalColumns kind).map (Tables.optional (names hdr) rows)).mapM
      (entryAll kind m r)) = .ok d2 ↔ List.Forall₂ (fun ku e => ∃ vs, e = (ku.1, .list vs) ∧
        ReadsAs kind (m = true) (r = true) hdr rows ku.1 (some ku.2) vs) (leftOut kind) d2 := by
    intro d2
    rw [mapM_forall₂, optional_eq, List.forall₂_map_left_iff, List.forall₂_map_left_iff]
    exact forall₂_congr' fun k hk e => optional_step kind k.1 k.2 hk m r hdr rows hr e
  have h0 : (if kind = .bearing then [("n", TableParam.one n)] else []).mapM (entryAll kind m r) =
      .ok (if kind = .bearing then [("n", TableParam.one n)] else []) := by
    split_ifs
    · rw [mapM_forall₂]
      exact .cons ((byValue_all kind m r).1 _ _) .nil
    · rfl
  simp only [← h1, ← h2]
  rw [BearingLemmas.bind_ok]
  simp only [convertAll_iff, List.mapM_append, BearingLemmas.bind_ok, h0]
  constructor
  · rintro ⟨req, hq, a, ⟨a0, h3, a1, h4, h5⟩, a2, h6, h7⟩
    cases h3
    cases h5
    cases h7
    exact ⟨a1, a2, rfl, ⟨req, hq, h4⟩, h6⟩
  · rintro ⟨d1, d2, rfl, ⟨req, hq, h3⟩, h4⟩
    exact ⟨req, hq, _, ⟨_, rfl, d1, h3, rfl⟩, d2, h4, rfl⟩

/-- When a table is read, and what is returned. -/
theorem read_iff (sheet : Sheet) (kind : Kind) (n : ℕ) (d : Dict String TableParam) :
    readTable sheet kind n = .ok d ↔
    ∃ hdr rows mats d1 d2, IsTable kind sheet hdr rows ∧
      onlyIf (kind = .shaft true) (fun _ =>
        materials sheet (scan (keyWord kind) 0 ⟨none, false, false⟩ sheet).metric) [] = .ok mats ∧
      d = (if kind = .bearing then [("n", TableParam.one n)] else []) ++ d1 ++ d2 ++ mats ∧
      List.Forall₂ (fun k e => ∃ vs, e = (k, .list vs) ∧
        ReadsAs kind (Us sheet) (RpmSeen (keyWord kind) sheet) hdr rows k none vs) (mandatory kind) d1 ∧
      List.Forall₂ (fun ku e => ∃ vs, e = (ku.1, .list vs) ∧
        ReadsAs kind (Us sheet) (RpmSeen (keyWord kind) sheet) hdr rows ku.1 (some ku.2) vs)
          (leftOut kind) d2 := by
  obtain ⟨s1, s2, s3⟩ := scan_start (keyWord kind) sheet
  rw [← propext s2, ← propext s3]
  unfold readTable
  dsimp only
  rw [headerKey_eq]
  generalize hst : scan (keyWord kind) 0 ⟨none, false, false⟩ sheet = st at s1 s2 s3 ⊢
  cases hh : st.header with
  | none =>
    constructor
    · intro h
      cases h
    · rintro ⟨hdr, rows, mats, d1, d2, ⟨h, j, h1, _⟩, _⟩
      rw [← s1, hh] at h1
      cases h1
  | some h =>
    have hI := (s1 h).1 hh
    obtain ⟨⟨hdr, e1, e2⟩, e3⟩ := id hI
    have hg : sheet.getD h [] = hdr := by rw [List.getD_eq_getElem?_getD, e1]; rfl
    obtain ⟨j, hj⟩ := named_of_text e2
    dsimp only
    rw [hg, column_iff.2 hj]
    dsimp only
    have hl := lists_iff kind st.metric st.rpm n hdr
    rw [BearingLemmas.bind_ok]
    cases hb : isolate (fun row => isNumber (allInt (sheet.drop (h + 1))) (cellAt row j)) false false
      (sheet.drop (h + 1)) with
    | mk found rows =>
    cases found with
    | false =>
      constructor
      · rintro ⟨mats, _, h2⟩
        cases h2
      · rintro ⟨hdr', rows', mats, d1, d2, ⟨h', j', h1, h2, h3, h4, h5⟩, _⟩
        rw [← s1, hh] at h1
        cases h1
        rw [e1] at h2
        cases h2
        rw [← column_iff, column_iff.2 hj] at h3
        cases h3
        rw [← allInt_iff, Bool.not_eq_true] at h5
        rw [block_unique h4 h5] at hb
        cases hb
    | true =>
      have hb' := hb
      rw [isolate_eq] at hb'
      obtain ⟨q1, q2⟩ := Prod.mk.inj hb'
      obtain ⟨q3, q4⟩ := block_of q1
      rw [q2] at q4
      have hr : rows ≠ [] := q4.1
      have hT : IsTable kind sheet hdr rows := ⟨h, j, hI, e1, hj, q4, by rw [← allInt_iff, q3]; decide⟩
      constructor
      · rintro ⟨mats, h1, h2⟩
        dsimp only [Bool.not_true] at h2
        rw [if_neg (by decide)] at h2
        have h3 : ∃ d', (((requiredColumns kind).mapM (required (names hdr) rows) >>= fun req =>
            convertAll kind st.metric st.rpm ((if kind = .bearing then [("n", TableParam.one n)] else []) ++
              req ++ (optionalColumns kind).map (Tables.optional (names hdr) rows))) = .ok d') ∧
            d = d' ++ mats := by
          obtain ⟨req, h3, h4⟩ := BearingLemmas.bind_ok.1 h2
          obtain ⟨d', h5, h6⟩ := BearingLemmas.bind_ok.1 h4
          exact ⟨d', BearingLemmas.bind_ok.2 ⟨req, h3, h5⟩, (Except.ok.inj h6).symm⟩
        obtain ⟨d', h4, rfl⟩ := h3
        obtain ⟨d1, d2, rfl, h5, h6⟩ := (hl rows hr d').1 h4
        exact ⟨hdr, rows, mats, d1, d2, hT, h1, rfl, h5, h6⟩
      · rintro ⟨hdr', rows', mats, d1, d2, ⟨h', j', h1, h2, h3, h4, h5⟩, h6, rfl, h7, h8⟩
        rw [← s1, hh] at h1
        cases h1
        rw [e1] at h2
        cases h2
        rw [← column_iff, column_iff.2 hj] at h3
        cases h3
        rw [← allInt_iff, Bool.not_eq_true] at h5
        rw [block_unique h4 h5] at hb
        cases hb
        refine ⟨mats, h6, ?_⟩
        dsimp only [Bool.not_true]
        rw [if_neg (by decide)]
        obtain ⟨req, h9, h10⟩ := BearingLemmas.bind_ok.1 ((hl rows hr _).2 ⟨d1, d2, rfl, h7, h8⟩)
        exact BearingLemmas.bind_ok.2 ⟨req, h9, BearingLemmas.bind_ok.2 ⟨_, h10, rfl⟩⟩

/-! ### Materials -/

theorem raw_iff {hdr : List Cell} {w : String} {j : ℕ} (hw : ∀ t, w.toList ≠ 'U' :: t) :
    column (rawNames hdr) w = some j ↔ Titled hdr w j := by
  have key : ∀ (i : ℕ) (c : Cell), (match c with
      | .str s => some s
      | .blank => some ("Unnamed: " ++ toString i)
      | _ => none) = some w ↔ c = .str w := by
    intro i c
    cases c with
    | str s => simp
    | blank =>
      simp only [Option.some.injEq, reduceCtorEq, iff_false]
      intro h
      apply hw ("nnamed: ".toList ++ (toString i).toList)
      rw [← h, String.toList_append]
      rfl
    | _ => simp
  unfold column Titled
  rw [List.findIdx?_eq_some_iff_getElem]
  simp only [rawNames, List.length_mapIdx, List.getElem_mapIdx, decide_eq_true_eq]
  constructor
  · rintro ⟨hl, h1, h2⟩
    refine ⟨?_, fun i hi hc => ?_⟩
    · rw [List.getElem?_eq_getElem hl, (key _ _).1 h1]
    · obtain ⟨hi', he⟩ := List.getElem?_eq_some_iff.1 hc
      exact h2 i hi ((key _ _).2 he)
  · rintro ⟨h1, h3⟩
    obtain ⟨hl, he⟩ := List.getElem?_eq_some_iff.1 h1
    refine ⟨hl, (key _ _).2 he, fun i hi hc => ?_⟩
    exact h3 i hi (List.getElem?_eq_some_iff.2 ⟨hi.trans hl, (key _ _).1 hc⟩)

theorem columnOf_iff {hdr : List Cell} {w : String} {j : ℕ} (hw : ∀ t, w.toList ≠ 'U' :: t) :
    columnOf (rawNames hdr) w = .ok j ↔ Titled hdr w j := by
  rw [← raw_iff hw]
  unfold columnOf
  cases column (rawNames hdr) w <;> simp

theorem materialHeader_iff {sheet : Sheet} {h : ℕ} :
    materialHeader sheet = .ok h ↔ IsHeader "matno" sheet h := by
  rw [← findIdx_header]
  have e : (fun row : List Cell => row.any isMatno) = rowKey "matno" := by
    funext row
    unfold rowKey
    congr 1
  unfold materialHeader
  rw [e]
  cases sheet.findIdx? (rowKey "matno") <;> simp

theorem materialRows_iff {hdr : List Cell} {body rows : Sheet} :
    materialRows (rawNames hdr) body = .ok rows ↔ ∃ post, body = rows ++ post ∧
      (body ≠ [] → ∃ j, Titled hdr "matno" j ∧ (∀ r ∈ rows, ¬ Blank (r.getD j .blank)) ∧
        ∀ r ∈ post.head?, Blank (r.getD j .blank)) := by
  unfold materialRows
  by_cases hb : body = []
  · subst hb
    simp only [List.isEmpty_nil, if_true]
    constructor
    · intro h
      cases h
      exact ⟨[], rfl, fun h => absurd rfl h⟩
    · rintro ⟨post, h, _⟩
      have := (List.append_eq_nil_iff.1 h.symm).1
      subst this
      rfl
  · have he : body.isEmpty = false := by simpa using hb
    rw [he, if_neg (by decide), BearingLemmas.bind_ok]
    have hp : ∀ (c : Cell), notBlank c = true ↔ ¬ Blank c := by
      intro c
      cases c <;> simp [Blank, notBlank]
    constructor
    · rintro ⟨j, h1, h2⟩
      have h2 := (Except.ok.inj h2).symm
      subst h2
      refine ⟨body.dropWhile fun r => notBlank (cellAt r j), (List.takeWhile_append_dropWhile).symm, fun _ => ⟨j, (columnOf_iff (by simp)).1 h1,
          fun r hr => ?_, fun r hr => ?_⟩⟩
      · have := List.mem_takeWhile_imp hr
        rw [hp] at this
        exact this
      · rw [Option.mem_def, List.head?_eq_some_iff] at hr
        obtain ⟨t, ht⟩ := hr
        have h1 := List.head_dropWhile_not (p := fun r => notBlank (cellAt r j)) (l := body) (by rw [ht]; exact List.cons_ne_nil _ _)
        simp only [ht, List.head_cons] at h1
        by_contra hc
        rw [cellAt_eq, (hp _).2 hc] at h1
        cases h1
    · rintro ⟨post, rfl, h⟩
      obtain ⟨j, h1, h2, h3⟩ := h hb
      refine ⟨j, (columnOf_iff (by simp)).2 h1, congrArg Except.ok ?_⟩
      rw [List.takeWhile_append_of_pos (p := fun r => notBlank (cellAt r j)) (fun r hr => (hp _).2 (h2 r hr))]
      cases post with
      | nil => simp
      | cons a t =>
        rw [List.takeWhile_cons_of_neg, List.append_nil]
        rw [hp]
        exact fun hc => hc (h3 a (by simp))

theorem property_iff {hdr : List Cell} {rows : Sheet} {w : String} {vs : List PVal}
    (hw : ∀ t, w.toList ≠ 'U' :: t) :
    property (rawNames hdr) rows w = .ok vs ↔
      ∃ j, (rows ≠ [] → Titled hdr w j) ∧ vs = values rows j := by
  unfold property
  by_cases hb : rows = []
  · subst hb
    simp [values, pure, Except.pure, eq_comm]
  · have he : rows.isEmpty = false := by simpa using hb
    rw [he, if_neg (by decide), BearingLemmas.bind_ok]
    refine exists_congr fun j => and_congr ?_ ?_
    · rw [columnOf_iff hw]
      simp [hb]
    · simp [pure, Except.pure, eq_comm]

theorem scaled_iff {metric : Bool} {f : ℝ} {rows : Sheet} {j : ℕ} {vs : List PVal} :
    onlyIf (metric = true) (fun l => l.mapM (times f)) (values rows j) = .ok vs ↔
      List.Forall₂ (fun r v => Scaled (metric = true) f (r.getD j .blank) v) rows vs := by
  cases metric with
  | false =>
    rw [onlyIf_neg (by decide)]
    have : ∀ (c : Cell) (v : PVal), Scaled (false = true) f c v ↔ PVal.ofCell c = v := by
      intro c v
      cases c <;> simp [Scaled, PVal.ofCell, eq_comm]
    simp only [this]
    rw [Except.ok.injEq, ← List.forall₂_eq_eq_eq, values, List.forall₂_map_left_iff]
    rfl
  | true =>
    rw [onlyIf_pos rfl, mapM_forall₂, values, List.forall₂_map_left_iff]
    refine forall₂_congr' fun r _ v => ?_
    rw [times_ok, cellAt_eq]
    cases r.getD j .blank <;> simp [Scaled]

theorem number_iff {rows : Sheet} {j : ℕ} {zs : List ℤ} :
    (values rows j).mapM toInt = .ok zs ↔
      List.Forall₂ (fun r z => ∃ x, numberIn (r.getD j .blank) = some x ∧ z = intPart x) rows zs := by
  rw [mapM_forall₂, values, List.forall₂_map_left_iff]
  refine forall₂_congr' fun r _ z => ?_
  rw [cellAt_eq]
  cases r.getD j .blank <;> simp [toInt, PVal.ofCell, numberIn, intPart, eq_comm]

theorem colors_spec {hdr : List Cell} {rows : Sheet} :
    (∃ j, Titled hdr "color" j ∧
        List.Forall₂ (fun r v => Colored (r.getD j .blank) v) rows (colors (rawNames hdr) rows)) ∨
      (∀ j, ¬ Titled hdr "color" j) ∧
        colors (rawNames hdr) rows = List.replicate rows.length (.str "#525252") := by
  unfold colors
  cases hc : column (rawNames hdr) "color" with
  | none =>
    refine .inr ⟨fun j hj => ?_, rfl⟩
    rw [← raw_iff (by simp), hc] at hj
    cases hj
  | some j =>
    refine .inl ⟨j, (raw_iff (by simp)).1 hc, ?_⟩
    dsimp only
    rw [values, List.map_map, List.forall₂_map_right_iff]
    refine List.forall₂_same.2 fun r _ => ?_
    simp only [Function.comp_apply, cellAt_eq]
    cases r.getD j .blank <;> simp [Colored, PVal.ofCell]

/-- When the materials are read, and what is returned. -/
theorem materials_iff (sheet : Sheet) (metric : Bool) (d : Dict String TableParam) :
    materials sheet metric = .ok d ↔ ∃ hdr rows no rho e g, IsMaterials sheet hdr rows ∧
      FromColumn hdr rows "matno" (fun c v => ∃ x, numberIn c = some x ∧ v = .num (intPart x)) no ∧
      FromColumn hdr rows "rhoa" (Scaled (metric = true) 27679.904) rho ∧
      FromColumn hdr rows "ea" (Scaled (metric = true) 6894.757) e ∧
      FromColumn hdr rows "ga" (Scaled (metric = true) 6894.757) g ∧
      d = [("matno", .list no), ("rhoa", .list rho), ("ea", .list e), ("ga", .list g),
        ("color", .list (colors (rawNames hdr) rows))] := by
  unfold materials
  simp only [BearingLemmas.bind_ok]
  constructor
  · rintro ⟨h, h1, rows, h2, no, h3, rho, h4, e, h5, g, h6, zs, h7, rho', h8, e', h9, g', h10, h11⟩
    rw [materialHeader_iff] at h1
    obtain ⟨⟨hdr, q1, q2⟩, q3⟩ := id h1
    have hg : sheet.getD h [] = hdr := by rw [List.getD_eq_getElem?_getD, q1]; rfl
    rw [hg] at h2 h3 h4 h5 h6 h11
    obtain ⟨post, h2a, h2b⟩ := materialRows_iff.1 h2
    obtain ⟨j3, h3', rfl⟩ := (property_iff (by simp)).1 h3
    obtain ⟨j4, h4', rfl⟩ := (property_iff (by simp)).1 h4
    obtain ⟨j5, h5', rfl⟩ := (property_iff (by simp)).1 h5
    obtain ⟨j6, h6', rfl⟩ := (property_iff (by simp)).1 h6
    refine ⟨hdr, rows, _, rho', e', g', ⟨h, post, h1, q1, h2a, h2b⟩, ⟨j3, h3', ?_⟩,
      ⟨j4, h4', scaled_iff.1 h8⟩, ⟨j5, h5', scaled_iff.1 h9⟩, ⟨j6, h6', scaled_iff.1 h10⟩,
      (Except.ok.inj h11).symm⟩
    rw [List.forall₂_map_right_iff]
    refine (number_iff.1 h7).imp fun r z => ?_
    rintro ⟨x, hx, rfl⟩
    exact ⟨x, hx, rfl⟩
  · rintro ⟨hdr, rows, no, rho, e, g, ⟨h, post, h1, q1, h2a, h2b⟩, ⟨j3, h3, h3'⟩, ⟨j4, h4, h4'⟩,
      ⟨j5, h5, h5'⟩, ⟨j6, h6, h6'⟩, rfl⟩
    have hg : sheet.getD h [] = hdr := by rw [List.getD_eq_getElem?_getD, q1]; rfl
    have hz : ∃ zs : List ℤ, no = zs.map (fun z : ℤ => PVal.num z) ∧ (values rows j3).mapM toInt = .ok zs := by
      simp only [number_iff]
      clear h2a h2b h3 h4 h4' h5 h5' h6 h6'
      induction h3' with
      | nil => exact ⟨[], rfl, .nil⟩
      | cons a _ ih =>
        obtain ⟨zs, rfl, hz⟩ := ih
        obtain ⟨x, hx, rfl⟩ := a
        exact ⟨intPart x :: zs, rfl, .cons ⟨x, hx, rfl⟩ hz⟩
    obtain ⟨zs, rfl, hz⟩ := hz
    refine ⟨h, materialHeader_iff.2 h1, rows, ?_, values rows j3, ?_, values rows j4, ?_, values rows j5,
      ?_, values rows j6, ?_, zs, hz, rho, scaled_iff.2 h4', e, scaled_iff.2 h5', g, scaled_iff.2 h6', ?_⟩
    · rw [hg]
      exact materialRows_iff.2 ⟨post, h2a, h2b⟩
    · rw [hg]
      exact (property_iff (by simp)).2 ⟨j3, h3, rfl⟩
    · rw [hg]
      exact (property_iff (by simp)).2 ⟨j4, h4, rfl⟩
    · rw [hg]
      exact (property_iff (by simp)).2 ⟨j5, h5, rfl⟩
    · rw [hg]
      exact (property_iff (by simp)).2 ⟨j6, h6, rfl⟩
    · rw [hg]
      rfl

/-! ### The keys of the dictionary -/

theorem get?_of_mem {d : Dict String TableParam} (hd : d.keys.Nodup) {k : String} {p : TableParam}
    (h : (k, p) ∈ d) : d.get? k = some p := by
  induction d with
  | nil => cases h
  | cons a t ih =>
    obtain ⟨k', p'⟩ := a
    rw [Dict.keys, List.map_cons, List.nodup_cons] at hd
    rcases List.mem_cons.1 h with h | h
    · cases h
      simp [Dict.get?]
    · have hne : k' ≠ k := by
        rintro rfl
        exact hd.1 (List.mem_map.2 ⟨_, h, rfl⟩)
      have := ih hd.2 h
      simpa [Dict.get?, List.find?_cons, hne] using this

theorem keys_first {l : List String} {R : String → List PVal → Prop} {d : Dict String TableParam}
    (h : List.Forall₂ (fun k e => ∃ vs, e = (k, TableParam.list vs) ∧ R k vs) l d) : d.map Prod.fst = l := by
  induction h with
  | nil => rfl
  | cons a _ ih =>
    obtain ⟨vs, rfl, _⟩ := a
    rw [List.map_cons, ih]

theorem keys_second {l : List (String × PVal)} {R : String × PVal → List PVal → Prop}
    {d : Dict String TableParam}
    (h : List.Forall₂ (fun ku e => ∃ vs, e = (ku.1, TableParam.list vs) ∧ R ku vs) l d) :
    d.map Prod.fst = l.map Prod.fst := by
  induction h with
  | nil => rfl
  | cons a _ ih =>
    obtain ⟨vs, rfl, _⟩ := a
    rw [List.map_cons, List.map_cons, ih]

theorem mem_second {α β : Type} {R : α → β → Prop} {l : List α} {d : List β}
    (h : List.Forall₂ R l d) {a : α} (ha : a ∈ l) : ∃ b ∈ d, R a b := by
  induction h with
  | nil => cases ha
  | cons hab _ ih =>
    rcases List.mem_cons.1 ha with rfl | ha
    · exact ⟨_, by simp, hab⟩
    · obtain ⟨b, hb, h⟩ := ih ha
      exact ⟨b, List.mem_cons_of_mem _ hb, h⟩

/-- The keys of the dictionary. -/
theorem keys_read {sheet : Sheet} {kind : Kind} {n : ℕ} {d : Dict String TableParam}
    (h : readTable sheet kind n = .ok d) :
    d.keys = (if kind = .bearing then ["n"] else []) ++ mandatory kind ++ (leftOut kind).map Prod.fst ++
      if kind = .shaft true then ["matno", "rhoa", "ea", "ga", "color"] else [] := by
  obtain ⟨hdr, rows, mats, d1, d2, _, h2, rfl, h4, h5⟩ := (read_iff sheet kind n d).1 h
  have hm : Dict.keys mats = if kind = .shaft true then ["matno", "rhoa", "ea", "ga", "color"] else [] := by
    by_cases hk : kind = .shaft true
    · rw [onlyIf_pos hk] at h2
      obtain ⟨_, _, _, _, _, _, _, _, _, _, _, rfl⟩ := (materials_iff _ _ _).1 h2
      rw [if_pos hk]
      rfl
    · rw [onlyIf_neg hk] at h2
      cases h2
      rw [if_neg hk]
      rfl
  rw [Dict.keys, List.map_append, List.map_append, List.map_append, keys_first h4, keys_second h5]
  rw [Dict.keys] at hm
  rw [hm]
  congr 3
  split_ifs <;> rfl

theorem keys_nodup {sheet : Sheet} {kind : Kind} {n : ℕ} {d : Dict String TableParam}
    (h : readTable sheet kind n = .ok d) : d.keys.Nodup := by
  rw [keys_read h]
  rcases kind with _ | m | _
  · decide
  · cases m <;> decide
  · decide

theorem build_first {l : List String} {R : String → List PVal → Prop}
    (h : ∀ k ∈ l, ∃ vs, R k vs) :
    ∃ d : Dict String TableParam, List.Forall₂ (fun k e => ∃ vs, e = (k, TableParam.list vs) ∧ R k vs) l d := by
  induction l with
  | nil => exact ⟨[], .nil⟩
  | cons a t ih =>
    obtain ⟨d, hd⟩ := ih fun k hk => h k (List.mem_cons_of_mem _ hk)
    obtain ⟨vs, hv⟩ := h a (by simp)
    exact ⟨(a, .list vs) :: d, .cons ⟨vs, rfl, hv⟩ hd⟩

theorem build_second {l : List (String × PVal)} {R : String × PVal → List PVal → Prop}
    (h : ∀ ku ∈ l, ∃ vs, R ku vs) :
    ∃ d : Dict String TableParam,
      List.Forall₂ (fun ku e => ∃ vs, e = (ku.1, TableParam.list vs) ∧ R ku vs) l d := by
  induction l with
  | nil => exact ⟨[], .nil⟩
  | cons a t ih =>
    obtain ⟨d, hd⟩ := ih fun k hk => h k (List.mem_cons_of_mem _ hk)
    obtain ⟨vs, hv⟩ := h a (by simp)
    exact ⟨(a.1, .list vs) :: d, .cons ⟨vs, rfl, hv⟩ hd⟩

end Ross.TableLemmas
