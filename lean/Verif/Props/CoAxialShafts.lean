import Verif.Spec.CoAxialShafts
import Verif.Props.CoAxialDofs
import Verif.Props.CoAxial

/-! # C126: the shaft of an element of a coaxial rotor -/

namespace Ross.CoAxialLemmas

open Ross Ross.Spec Ross.Spec.CoAxial Ross.BearingLemmas Ross.Rotor Ross.RotorLemmas

/-- What holds of the rows and of the pending elements at the start, and is kept by each assignment, holds at the
end. -/
theorem loop_inv {els : List Elm} (hne : els ≠ []) {P : List CoAxial.Row → List (Option String) → Prop}
    (hP : ∀ rows pending x z, x ∈ els → x.tag ∈ pending → CoAxial.findNum rows x = some z → P rows pending →
      P (CoAxial.setNum rows x.tag z) (pending.filter (· ≠ x.tag))) :
    ∀ (fuel : ℕ) (todo : List Elm) (rows : List CoAxial.Row) (pending : List (Option String)) {df : List CoAxial.Row},
      (∀ x ∈ todo, x ∈ els) → P rows pending → CoAxial.loop els fuel todo rows pending = some df → P df [] := by
  intro fuel
  induction fuel with
  | zero => intro todo rows pending df _ _ h; cases h
  | succ f ih =>
    intro todo rows pending df htodo hp h
    cases todo with
    | nil =>
      cases els with
      | nil => exact absurd rfl hne
      | cons c t =>
        simp only [CoAxial.loop] at h
        exact ih _ _ _ (fun x hx => hx) hp h
    | cons x rest =>
      have hrest : ∀ y ∈ rest, y ∈ els := fun y hy => htodo y (List.mem_cons_of_mem _ hy)
      simp only [CoAxial.loop] at h
      split_ifs at h with h0 hx
      · cases Option.some.inj h
        subst h0
        exact hp
      · cases hf : CoAxial.findNum rows x with
        | none =>
          rw [hf] at h
          exact ih _ _ _ hrest hp h
        | some z =>
          rw [hf] at h
          exact ih _ _ _ hrest (hP rows pending x z (htodo x List.mem_cons_self) hx hf hp) h
      · exact ih _ _ _ hrest hp h

/-- The columns that never change. -/
def fixedCols (r : CoAxial.Row) : Option String × Option ℕ × Option ℕ := (r.tag, r.n_l, r.n_r)

theorem fixed_setNum (rows : List CoAxial.Row) (t : Option String) (z : Option ℕ) :
    (CoAxial.setNum rows t z).map fixedCols = rows.map fixedCols := by
  unfold CoAxial.setNum
  rw [List.map_map]
  refine List.map_congr_left fun r _ => ?_
  simp only [Function.comp_apply]
  split_ifs <;> rfl

theorem of_fixed {rows rows₀ : List CoAxial.Row} (h : rows.map fixedCols = rows₀.map fixedCols) {r : CoAxial.Row}
    (hr : r ∈ rows) : ∃ r₀ ∈ rows₀, r₀.tag = r.tag ∧ r₀.n_l = r.n_l ∧ r₀.n_r = r.n_r := by
  have : fixedCols r ∈ rows₀.map fixedCols := h ▸ List.mem_map.2 ⟨r, hr, rfl⟩
  obtain ⟨r₀, h0, e⟩ := List.mem_map.1 this
  simp only [fixedCols, Prod.mk.injEq] at e
  exact ⟨r₀, h0, e.1, e.2.1, e.2.2⟩

theorem init_df {sort : List CoAxial.Row → List CoAxial.Row} {num : ShaftEl → ℕ} {fuel : ℕ} {a : CoAxial.Args}
    {r : CoAxial.Rotor'} {p : Parts} (hp : CoAxial.parts a = .ok p) (h : CoAxial.init sort num fuel a = some (.ok r)) :
    CoAxial.loop p.elements fuel p.elements (sort (CoAxial.rows p num)) (CoAxial.unassigned p) = some r.df := by
  unfold CoAxial.init at h
  simp only [hp] at h
  cases hc : checkNumberDof p.sh p.dk p.br with
  | error e => simp [hc] at h
  | ok nd =>
    simp only [hc] at h
    split_ifs at h with h1 h2
    all_goals first | (cases Option.some.inj h; done) | skip
    cases hl : CoAxial.loop p.elements fuel p.elements (sort (CoAxial.rows p num)) (CoAxial.unassigned p) with
    | none => simp [hl] at h
    | some df =>
      simp only [hl] at h
      cases hm : p.elements.mapM (place 4 (lastNode p.sh)) with
      | error e => simp [hm] at h
      | ok pl =>
        simp only [hm] at h
        cases Except.ok.inj (Option.some.inj h)
        rfl

/-- The rows of the table at the start. -/
theorem mem_rows {a : CoAxial.Args} {p : Parts} (h : Fine a) (hp : CoAxial.parts a = .ok p) {num : ShaftEl → ℕ}
    {r : CoAxial.Row} (hr : r ∈ CoAxial.rows p num) :
    (∃ x k, Elm.shaft x ∈ elements a ∧ x.s.n = some k ∧
      r = ⟨x.s.tag, some k, some (k + 1), none, some (num x)⟩) ∨
    (∃ e n, e ∈ elements a ∧ SitsOn n e ∧ e.n = some n ∧ r.tag = e.tag ∧ r.n_l = some n ∧ r.n_r = some n ∧
      r.shaft_number = none) ∨
    (r.n_l = none ∧ r.n_r = none ∧ ∃ m, Elm.pm m ∈ elements a ∧ r.tag = (Elm.pm m).tag) := by
  obtain ⟨h1, h2, h3, h4⟩ := mem_fine h hp
  have hm := fun x : Elm => (elements_fine h hp).mem_iff (a := x)
  simp only [CoAxial.rows, List.mem_append, List.mem_map] at hr
  rcases hr with ((⟨x, hx, rfl⟩ | ⟨x, hx, rfl⟩) | ⟨x, hx, rfl⟩) | ⟨x, hx, rfl⟩
  · left
    obtain ⟨l, hl, hel⟩ := (h1 x).1 hx
    obtain ⟨k, hk⟩ := Option.isSome_iff_exists.1 (h.node l hl x hel)
    exact ⟨x, k, (hm _).1 (by simp [Parts.elements, hx]), hk, by simp [nodeOf, hk]⟩
  · exact Or.inr (Or.inl ⟨.disk x, x.d.n, (hm _).1 (by simp [Parts.elements, hx]), rfl, rfl, rfl, rfl, rfl, rfl⟩)
  · exact Or.inr (Or.inl ⟨.brg x, x.n, (hm _).1 (by simp [Parts.elements, hx]), rfl, rfl, rfl, rfl, rfl, rfl⟩)
  · exact Or.inr (Or.inr ⟨rfl, rfl, x, (hm _).1 (by simp [Parts.elements, hx]), rfl⟩)

theorem row_of {a : CoAxial.Args} {p : Parts} (h : Fine a) (hp : CoAxial.parts a = .ok p) {num : ShaftEl → ℕ} {e : Elm}
    {n : ℕ} (he : e ∈ elements a) (hs : SitsOn n e) :
    ∃ r ∈ CoAxial.rows p num, r.tag = e.tag ∧ r.n_l = some n := by
  have hm := ((elements_fine h hp).mem_iff (a := e)).2 he
  rcases e with e | e | e | e
  · exact absurd hs id
  · have : e ∈ p.dk := by simpa [Parts.elements] using hm
    refine ⟨⟨e.d.tag, some e.d.n, some e.d.n, none, none⟩, ?_, rfl, congrArg some hs⟩
    simp only [CoAxial.rows, List.mem_append, List.mem_map]
    exact Or.inl (Or.inl (Or.inr ⟨e, this, rfl⟩))
  · have : e ∈ p.br := by simpa [Parts.elements] using hm
    refine ⟨⟨e.tag, some e.n, some e.n, e.n_link, none⟩, ?_, rfl, congrArg some hs⟩
    simp only [CoAxial.rows, List.mem_append, List.mem_map]
    exact Or.inl (Or.inr ⟨e, this, rfl⟩)
  · exact absurd hs id

theorem shaft_row {a : CoAxial.Args} {p : Parts} (h : Fine a) (hp : CoAxial.parts a = .ok p) {num : ShaftEl → ℕ}
    {x : ShaftEl} {k : ℕ} (hx : Elm.shaft x ∈ elements a) (hk : x.s.n = some k) :
    ⟨x.s.tag, some k, some (k + 1), none, some (num x)⟩ ∈ CoAxial.rows p num := by
  have hm := ((elements_fine h hp).mem_iff (a := .shaft x)).2 hx
  have : x ∈ p.sh := by simpa [Parts.elements] using hm
  simp only [CoAxial.rows, List.mem_append, List.mem_map]
  exact Or.inl (Or.inl (Or.inl ⟨x, this, by simp [nodeOf, hk]⟩))

theorem sits_n {n : ℕ} {e : Elm} (h : SitsOn n e) : e.n = some n ∧ ¬ IsShaft e := by
  rcases e with e | e | e | e
  · exact absurd h id
  · exact ⟨congrArg some h, id⟩
  · exact ⟨congrArg some h, id⟩
  · exact absurd h id

/-- Rows that agree on the number of the shaft. -/
theorem findNum_agree {rows : List CoAxial.Row} {e : Elm} {n : ℕ} {v : Option ℕ} (hn : e.n = some n)
    (hall : ∀ r ∈ rows, r.tag ≠ e.tag → r.n_l = some n ∨ r.n_r = some n → r.shaft_number = v)
    (hex : ∃ r ∈ rows, r.tag ≠ e.tag ∧ (r.n_l = some n ∨ r.n_r = some n)) : CoAxial.findNum rows e = some v := by
  unfold CoAxial.findNum
  simp only [hn]
  cases hl : (rows.filter fun r => r.n_l = some n ∧ r.tag ≠ e.tag).map (·.shaft_number) with
  | cons w t =>
    have : w ∈ (rows.filter fun r => r.n_l = some n ∧ r.tag ≠ e.tag).map (·.shaft_number) := by rw [hl]; simp
    obtain ⟨r, hr, rfl⟩ := List.mem_map.1 this
    obtain ⟨h1, h2⟩ := List.mem_filter.1 hr
    simp only [decide_eq_true_eq] at h2
    simp only [hall r h1 h2.2 (Or.inl h2.1)]
  | nil =>
    cases hr : (rows.filter fun r => r.n_r = some n ∧ r.tag ≠ e.tag).map (·.shaft_number) with
    | cons w t =>
      have : w ∈ (rows.filter fun r => r.n_r = some n ∧ r.tag ≠ e.tag).map (·.shaft_number) := by rw [hr]; simp
      obtain ⟨r, hr', rfl⟩ := List.mem_map.1 this
      obtain ⟨h1, h2⟩ := List.mem_filter.1 hr'
      simp only [decide_eq_true_eq] at h2
      simp only [hall r h1 h2.2 (Or.inr h2.1)]
    | nil =>
      exfalso
      obtain ⟨r, h1, h2, h3⟩ := hex
      rw [List.map_eq_nil_iff, List.filter_eq_nil_iff] at hl hr
      rcases h3 with h3 | h3
      · exact hl r h1 (by simp [h2, h3])
      · exact hr r h1 (by simp [h2, h3])

/-- Rows with the node at the left that agree are enough. -/
theorem findNum_left {rows : List CoAxial.Row} {e : Elm} {n : ℕ} {v : Option ℕ} (hn : e.n = some n)
    (hall : ∀ r ∈ rows, r.n_l = some n → r.shaft_number = v)
    (hex : ∃ r ∈ rows, r.tag ≠ e.tag ∧ r.n_l = some n) : CoAxial.findNum rows e = some v := by
  unfold CoAxial.findNum
  simp only [hn]
  cases hl : (rows.filter fun r => r.n_l = some n ∧ r.tag ≠ e.tag).map (·.shaft_number) with
  | cons w t =>
    have : w ∈ (rows.filter fun r => r.n_l = some n ∧ r.tag ≠ e.tag).map (·.shaft_number) := by rw [hl]; simp
    obtain ⟨r, hr, rfl⟩ := List.mem_map.1 this
    obtain ⟨h1, h2⟩ := List.mem_filter.1 hr
    simp only [decide_eq_true_eq] at h2
    simp only [hall r h1 h2.1]
  | nil =>
    exfalso
    obtain ⟨r, h1, h2, h3⟩ := hex
    rw [List.map_eq_nil_iff, List.filter_eq_nil_iff] at hl
    exact hl r h1 (by simp [h2, h3])

end Ross.CoAxialLemmas

namespace Ross.Props

open Ross Ross.Spec Ross.Spec.CoAxial Ross.CoAxialLemmas Ross.RotorLemmas
open Ross.Rotor (Parts sortShaft sortBearings)

variable {sort : List CoAxial.Row → List CoAxial.Row} {num : ShaftEl → ℕ} {fuel : ℕ} {a : CoAxial.Args}
  {r : CoAxial.Rotor'}

/-- **C126 (partial)** a disk or bearing that is alone on a node of shaft `z` has the number `z` in the table of the
elements.  Missing: several of them on one node, see `C126_together_false`. -/
theorem C126_alone_partial (hsort : ∀ l, (sort l).Perm l) (hf : Fine a)
    (h : CoAxial.init sort num fuel a = some (.ok r)) {e : Elm} {n z : ℕ} (he : e ∈ elements a) (hn : SitsOn n e)
    (halone : ∀ e' ∈ elements a, SitsOn n e' → e' = e) (hex : ∃ x, Elm.shaft x ∈ elements a ∧ Reaches n x)
    (hz : ∀ x, Elm.shaft x ∈ elements a → Reaches n x → num x = z) : Says r.df e (some z) := by
  obtain ⟨p, nd, hp, -, -, -, -, -⟩ := init_co h
  have hl := init_df hp h
  have hm := fun x : Elm => (elements_fine hf hp).mem_iff (a := x)
  obtain ⟨hen, hns⟩ := sits_n hn
  have hep := (hm e).2 he
  set R₀ := sort (CoAxial.rows p num)
  have hR : ∀ r, r ∈ R₀ ↔ r ∈ CoAxial.rows p num := fun r => (hsort _).mem_iff
  have htagn : ∀ x, Elm.shaft x ∈ elements a → x.s.tag ≠ e.tag := by
    intro x hx ht
    have := same_of_tag hf hp ((hm _).2 hx) hep (show (Elm.shaft x).tag = e.tag from ht)
    exact hns (this ▸ trivial)
  -- what holds throughout
  let P (rows : List CoAxial.Row) (pending : List (Option String)) : Prop :=
    rows.map fixedCols = R₀.map fixedCols ∧ (∀ t ∈ pending, t ∈ CoAxial.unassigned p) ∧
      (∀ r ∈ rows, r.tag ≠ e.tag → r.n_l = some n ∨ r.n_r = some n →
        r.shaft_number = some z ∧ r.tag ∉ CoAxial.unassigned p) ∧
      (e.tag ∉ pending → ∀ r ∈ rows, r.tag = e.tag → r.shaft_number = some z)
  have hex' : ∀ rows : List CoAxial.Row, rows.map fixedCols = R₀.map fixedCols →
      ∃ r ∈ rows, r.tag ≠ e.tag ∧ (r.n_l = some n ∨ r.n_r = some n) := by
    intro rows hk
    obtain ⟨x, hx, k, hk', hk''⟩ := hex
    have h0 := (hR _).2 (shaft_row (num := num) hf hp hx hk')
    obtain ⟨r₁, h1, h2, h3, h4⟩ := of_fixed hk.symm h0
    refine ⟨r₁, h1, by rw [h2]; exact htagn x hx, ?_⟩
    rw [h3, h4]
    rcases hk'' with rfl | rfl
    · exact Or.inl rfl
    · exact Or.inr rfl
  have hstep : ∀ rows pending x z', x ∈ p.elements → x.tag ∈ pending → CoAxial.findNum rows x = some z' →
      P rows pending → P (CoAxial.setNum rows x.tag z') (pending.filter (· ≠ x.tag)) := by
    rintro rows pending x z' hx hxp hfn ⟨q1, q2, q3, q4⟩
    refine ⟨by rw [fixed_setNum, q1], fun t ht => q2 t (List.mem_filter.1 ht).1, ?_, ?_⟩
    · intro r hr htag hnode
      obtain ⟨y, hy, rfl⟩ := List.mem_map.1 hr
      by_cases hyt : y.tag = x.tag
      · rw [if_pos hyt] at htag hnode
        exact absurd (hyt ▸ q2 _ hxp) (q3 y hy htag hnode).2
      · rw [if_neg hyt] at htag hnode ⊢
        exact q3 y hy htag hnode
    · intro hep' r hr htag
      obtain ⟨y, hy, rfl⟩ := List.mem_map.1 hr
      by_cases hxe : x.tag = e.tag
      · have hxe' := same_of_tag hf hp hx hep hxe
        subst hxe'
        rw [findNum_agree hen (fun r hr h1 h2 => (q3 r hr h1 h2).1) (hex' rows q1)] at hfn
        by_cases hyt : y.tag = x.tag
        · rw [if_pos hyt]
          exact (Option.some.inj hfn).symm
        · rw [if_neg hyt] at htag
          exact absurd htag hyt
      · have hen' : e.tag ∉ pending := fun hc => hep' (List.mem_filter.2 ⟨hc, by simpa using fun h => hxe h.symm⟩)
        by_cases hyt : y.tag = x.tag
        · rw [if_pos hyt] at htag
          exact absurd (hyt ▸ htag) hxe
        · rw [if_neg hyt] at htag ⊢
          exact q4 hen' y hy htag
  have hend := loop_inv (List.ne_nil_of_mem hep) (P := P) hstep fuel p.elements R₀ (CoAxial.unassigned p)
    (fun x hx => hx) ⟨rfl, fun t ht => ht, ?_, fun hc => absurd (mem_unassigned hep hns) hc⟩ hl
  · obtain ⟨q1, -, -, q4⟩ := hend
    refine ⟨?_, fun row hrow ht => q4 (by simp) row hrow ht⟩
    obtain ⟨r₀, h0, ht, -⟩ := row_of (num := num) hf hp he hn
    obtain ⟨r₁, h1, h2, -⟩ := of_fixed q1.symm ((hR _).2 h0)
    exact ⟨r₁, h1, h2.trans ht⟩
  · intro row hrow htag hnode
    rcases mem_rows hf hp ((hR _).1 hrow) with ⟨x, k, hx, hk, rfl⟩ | ⟨e', m, he', hs', hn', ht', hl', hr', -⟩ | ⟨h1, h2, -⟩
    · refine ⟨congrArg some (hz x hx ⟨k, hk, ?_⟩), ?_⟩
      · simpa using hnode
      · intro hc
        obtain ⟨y, hy, hyt, hys⟩ := unassigned_mem hc
        have := same_of_tag hf hp hy ((hm _).2 hx) hyt
        exact hys (this ▸ trivial)
    · exfalso
      have hmn : m = n := by
        rcases hnode with h1 | h1
        · rw [hl'] at h1
          exact Option.some.inj h1
        · rw [hr'] at h1
          exact Option.some.inj h1
      subst hmn
      exact htag (ht'.trans (congrArg Elm.tag (halone e' he' hs')))
    · rw [h1, h2] at hnode
      simp at hnode

/-- **C126 (negation)** two disks or bearings together on the last node of a shaft have no shaft in the table of the
elements: each takes the number of the other, which has none. -/
theorem C126_together_false (hsort : ∀ l, (sort l).Perm l) (hf : Fine a)
    (h : CoAxial.init sort num fuel a = some (.ok r)) {e e' : Elm} {n : ℕ} (he : e ∈ elements a) (hn : SitsOn n e)
    (he' : e' ∈ elements a) (hn' : SitsOn n e') (hne : e' ≠ e)
    (hend : ∀ x, Elm.shaft x ∈ elements a → x.s.n ≠ some n) : Says r.df e none := by
  obtain ⟨p, nd, hp, -, -, -, -, -⟩ := init_co h
  have hl := init_df hp h
  have hm := fun x : Elm => (elements_fine hf hp).mem_iff (a := x)
  obtain ⟨hen, hns⟩ := sits_n hn
  have hep := (hm e).2 he
  set R₀ := sort (CoAxial.rows p num)
  have hR : ∀ r, r ∈ R₀ ↔ r ∈ CoAxial.rows p num := fun r => (hsort _).mem_iff
  have hown : ∀ row ∈ R₀, row.n_l = some n → row.shaft_number = none ∧
      ∃ y ∈ p.elements, y.tag = row.tag ∧ y.n = some n := by
    intro row hrow hnl
    rcases mem_rows hf hp ((hR _).1 hrow) with ⟨x, k, hx, hk, rfl⟩ | ⟨y, m, hy, -, hyn, hyt, hyl, -, hno⟩ | ⟨h1, -⟩
    · exact absurd (hk.trans hnl) (hend x hx)
    · refine ⟨hno, y, (hm y).2 hy, hyt.symm, ?_⟩
      rw [hyn, ← hnl, hyl]
    · rw [h1] at hnl
      cases hnl
  let P (rows : List CoAxial.Row) (_ : List (Option String)) : Prop :=
    rows.map fixedCols = R₀.map fixedCols ∧ ∀ r ∈ rows, r.n_l = some n → r.shaft_number = none
  have hstep : ∀ rows pending x z', x ∈ p.elements → x.tag ∈ pending → CoAxial.findNum rows x = some z' →
      P rows pending → P (CoAxial.setNum rows x.tag z') (pending.filter (· ≠ x.tag)) := by
    rintro rows pending x z' hx - hfn ⟨q1, q2⟩
    refine ⟨by rw [fixed_setNum, q1], ?_⟩
    intro r hr hnl
    obtain ⟨y, hy, rfl⟩ := List.mem_map.1 hr
    by_cases hyt : y.tag = x.tag
    · rw [if_pos hyt] at hnl ⊢
      have hynl : y.n_l = some n := hnl
      obtain ⟨r₀, h0, h1, h2, -⟩ := of_fixed q1 hy
      obtain ⟨-, w, hw, hwt, hwn⟩ := hown r₀ h0 (h2.trans hynl)
      have hwx := same_of_tag hf hp hw hx (hwt.trans (h1.trans hyt))
      subst hwx
      -- the other one
      obtain ⟨o, ho, hos, hoe⟩ : ∃ o ∈ elements a, SitsOn n o ∧ o ≠ w := by
        by_cases hc : e = w
        · exact ⟨e', he', hn', fun e1 => hne (e1.trans hc.symm)⟩
        · exact ⟨e, he, hn, hc⟩
      obtain ⟨ro, hro, hrt, hrl⟩ := row_of (num := num) hf hp ho hos
      obtain ⟨r₁, g1, g2, g3, -⟩ := of_fixed q1.symm ((hR _).2 hro)
      have hot : r₁.tag ≠ w.tag := by
        intro hc
        exact hoe (same_of_tag hf hp ((hm o).2 ho) hw ((hrt.symm.trans g2.symm).trans hc))
      rw [findNum_left hwn q2 ⟨r₁, g1, hot, g3.trans hrl⟩] at hfn
      exact (Option.some.inj hfn).symm
    · rw [if_neg hyt] at hnl ⊢
      exact q2 y hy hnl
  obtain ⟨q1, q2⟩ := loop_inv (List.ne_nil_of_mem hep) (P := P) hstep fuel p.elements R₀ (CoAxial.unassigned p)
    (fun x hx => hx) ⟨rfl, fun row hrow hnl => (hown row hrow hnl).1⟩ hl
  obtain ⟨r₀, h0, ht, hnl⟩ := row_of (num := num) hf hp he hn
  obtain ⟨r₁, h1, h2, h3, -⟩ := of_fixed q1.symm ((hR _).2 h0)
  refine ⟨⟨r₁, h1, h2.trans ht⟩, fun row hrow hrt => ?_⟩
  obtain ⟨r₂, g1, g2, g3, -⟩ := of_fixed q1 hrow
  refine q2 row hrow ?_
  rw [← g3]
  rcases mem_rows hf hp ((hR _).1 g1) with ⟨x, k, hx, hk, rfl⟩ | ⟨y, m, hy, -, hyn, hyt, hyl, -, -⟩ | ⟨-, -, m, hm', hmt⟩
  · exfalso
    have := same_of_tag hf hp ((hm _).2 hx) hep (show (Elm.shaft x).tag = e.tag from g2.trans hrt)
    exact hns (this ▸ trivial)
  · have := same_of_tag hf hp ((hm y).2 hy) hep (hyt.symm.trans (g2.trans hrt))
    subst this
    rw [hyl, ← hyn, hen]
  · have := same_of_tag hf hp ((hm _).2 hm') hep (hmt.symm.trans (g2.trans hrt))
    subst this
    exact absurd hn id

/-- Two shafts, of two nodes each, with bearings `c` on node 0, `d` and `e` on node 1 and `f` on node 3. -/
noncomputable def exCoShafts : CoAxial.Args :=
  ⟨[[⟨false, { exShaft with n := some 0, tag := some "a" }⟩], [⟨false, { exShaft with n := some 2, tag := some "b" }⟩]],
    [], [(BrgEl.brg false (exBrg 0 none 1 1)).setTag (some "c"), (BrgEl.brg false (exBrg 1 (some 2) 1 1)).setTag (some "d"),
      (BrgEl.brg false (exBrg 1 none 1 1)).setTag (some "e"), (BrgEl.brg false (exBrg 3 none 1 1)).setTag (some "f")], []⟩

/-- The table of this rotor says shaft 0 of `c`, shaft 1 of `f`, and nothing of `d` and `e`, which are on shaft 0. -/
theorem exCoShafts_says : ∃ r, CoAxial.init id (fun x => if x.s.n = some 0 then 0 else 1) 8 exCoShafts = some (.ok r) ∧
    Says r.df (.brg ((BrgEl.brg false (exBrg 0 none 1 1)).setTag (some "c"))) (some 0) ∧
    Says r.df (.brg ((BrgEl.brg false (exBrg 3 none 1 1)).setTag (some "f"))) (some 1) ∧
    Says r.df (.brg ((BrgEl.brg false (exBrg 1 (some 2) 1 1)).setTag (some "d"))) none ∧
    Says r.df (.brg ((BrgEl.brg false (exBrg 1 none 1 1)).setTag (some "e"))) none := by
  let s (n : ℕ) (t : String) : ShaftEl := ⟨false, { exShaft with n := some n, tag := some t }⟩
  let b (n : ℕ) (l : Option ℕ) (t : String) : BrgEl := (BrgEl.brg false (exBrg n l 1 1)).setTag (some t)
  have hsh : exCoShafts.shafts = [[s 0 "a"], [s 2 "b"]] := rfl
  have hels : elements exCoShafts = [.shaft (s 0 "a"), .shaft (s 2 "b"), .brg (b 0 none "c"), .brg (b 1 (some 2) "d"),
      .brg (b 1 none "e"), .brg (b 3 none "f")] := rfl
  have htag : ∀ n l t, (b n l t).tag = some t := fun _ _ _ => rfl
  have hbn : ∀ n l t, (b n l t).n = n := fun _ _ _ => rfl
  have hfine : Fine exCoShafts := by
    constructor
    · rw [hsh]; simp
    · rw [hsh]; simp
    · rw [hsh]; simp [s]
    · rw [hsh]; simp [s]
    · simp [exCoShafts]
    · simp [exCoShafts, BrgEl.setTag, BrgEl.tag, BrgEl.base]
    · simp [exCoShafts]
    · rw [hels]; simp [Elm.tag, s, htag]
    · rw [hsh]; simp [s]
    · simp [exCoShafts]
    · simp [exCoShafts, BrgEl.setTag]
    · simp [exCoShafts, BrgEl.setTag, BrgEl.isSeal]
    · simp [exCoShafts]
    · intro e he n hn
      left
      rw [hsh]
      refine ⟨_, List.mem_cons_of_mem _ List.mem_cons_self, _, List.mem_cons_self, 2, rfl, ?_⟩
      rw [hels] at he
      simp only [List.mem_cons, List.not_mem_nil, or_false] at he
      rcases he with rfl | rfl | rfl | rfl | rfl | rfl <;>
        simp [Elm.n, s, hbn] at hn <;> omega
  have hid : ∀ l : List CoAxial.Row, (id l).Perm l := fun l => List.Perm.refl _
  obtain ⟨r, hr⟩ := C22_coaxial_ends_partial (sort := id) (num := fun x => if x.s.n = some 0 then 0 else 1) hid hfine
    (by
      intro e he hs
      rw [hels] at he ⊢
      simp only [List.mem_cons, List.not_mem_nil, or_false] at he
      rcases he with rfl | rfl | rfl | rfl | rfl | rfl
      · exact absurd trivial hs
      · exact absurd trivial hs
      · exact ⟨0, rfl, .shaft (s 0 "a"), by simp, by simp [s, Elm.tag, htag], Or.inl rfl⟩
      · exact ⟨1, rfl, .brg (b 1 none "e"), by simp, by simp [Elm.tag, htag], Or.inl rfl⟩
      · exact ⟨1, rfl, .brg (b 1 (some 2) "d"), by simp, by simp [Elm.tag, htag], Or.inl rfl⟩
      · exact ⟨3, rfl, .shaft (s 2 "b"), by simp, by simp [s, Elm.tag, htag], Or.inr ⟨2, rfl, rfl⟩⟩)
    (fuel := 8) (by rw [hels]; decide)
  have hshaft : ∀ x, Elm.shaft x ∈ elements exCoShafts → x = s 0 "a" ∨ x = s 2 "b" := by
    intro x hx
    rw [hels] at hx
    simpa using hx
  have hsits : ∀ n e, e ∈ elements exCoShafts → SitsOn n e → e = .brg (b 0 none "c") ∧ n = 0 ∨
      e = .brg (b 1 (some 2) "d") ∧ n = 1 ∨ e = .brg (b 1 none "e") ∧ n = 1 ∨ e = .brg (b 3 none "f") ∧ n = 3 := by
    intro n e he hn
    rw [hels] at he
    simp only [List.mem_cons, List.not_mem_nil, or_false] at he
    rcases he with rfl | rfl | rfl | rfl | rfl | rfl
    · exact absurd hn id
    · exact absurd hn id
    · exact Or.inl ⟨rfl, Eq.symm hn⟩
    · exact Or.inr (Or.inl ⟨rfl, Eq.symm hn⟩)
    · exact Or.inr (Or.inr (Or.inl ⟨rfl, Eq.symm hn⟩))
    · exact Or.inr (Or.inr (Or.inr ⟨rfl, Eq.symm hn⟩))
  have hends : ∀ x, Elm.shaft x ∈ elements exCoShafts → x.s.n ≠ some 1 := by
    intro x hx
    rcases hshaft x hx with rfl | rfl <;> simp [s]
  have hde : Elm.brg (b 1 none "e") ≠ .brg (b 1 (some 2) "d") := by
    intro hc
    have := congrArg Elm.tag hc
    simp [Elm.tag, htag] at this
  refine ⟨r, hr, ?_, ?_, ?_, ?_⟩
  · refine C126_alone_partial (n := 0) hid hfine hr (by rw [hels]; simp [b]) rfl ?_ ⟨s 0 "a", by rw [hels]; simp, 0, rfl, by simp⟩ ?_
    · intro e' he' hn'
      rcases hsits 0 e' he' hn' with h | h | h | h
      · exact h.1
      all_goals (have := h.2; omega)
    · intro x hx ⟨k, hk, hk'⟩
      rcases hshaft x hx with rfl | rfl
      · rfl
      · simp only [s, Option.some.injEq] at hk
        omega
  · refine C126_alone_partial (n := 3) hid hfine hr (by rw [hels]; simp [b]) rfl ?_ ⟨s 2 "b", by rw [hels]; simp, 2, rfl, by simp⟩ ?_
    · intro e' he' hn'
      rcases hsits 3 e' he' hn' with h | h | h | h
      · have := h.2; omega
      · have := h.2; omega
      · have := h.2; omega
      · exact h.1
    · intro x hx ⟨k, hk, hk'⟩
      rcases hshaft x hx with rfl | rfl
      · simp only [s, Option.some.injEq] at hk
        omega
      · simp [s]
  · exact C126_together_false (n := 1) hid hfine hr (by rw [hels]; simp [b]) rfl (e' := .brg (b 1 none "e"))
      (by rw [hels]; simp) rfl hde hends
  · exact C126_together_false (n := 1) hid hfine hr (by rw [hels]; simp [b]) rfl (e' := .brg (b 1 (some 2) "d"))
      (by rw [hels]; simp) rfl hde.symm hends

end Ross.Props
