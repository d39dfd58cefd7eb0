import Verif.Spec.Units
import Verif.Lemmas.ListRes
import Verif.Lemmas.Bearing

/-! # Lemmas on `check_units` -/

namespace Ross.UnitsLemmas

open Ross Ross.Spec Ross.Units Ross.BearingLemmas

/-! ### The parts of a name -/

theorem splitChars_ne (l : List Char) : splitChars l ≠ [] := by
  cases l with
  | nil => simp [splitChars]
  | cons c cs =>
    unfold splitChars
    split_ifs
    · simp
    · split <;> simp

theorem splitChars_join : ∀ l : List Char, List.intercalate ['_'] (splitChars l) = l
  | [] => rfl
  | c :: cs => by
    have ih := splitChars_join cs
    have hne := splitChars_ne cs
    unfold splitChars
    split_ifs with h
    · subst h
      cases hs : splitChars cs with
      | nil => exact absurd hs hne
      | cons p ps =>
        rw [hs] at ih
        simp only [List.intercalate, List.intersperse, List.flatten_cons] at ih ⊢
        rw [ih]
        rfl
    · cases hs : splitChars cs with
      | nil => exact absurd hs hne
      | cons p ps =>
        rw [hs] at ih
        simp only
        cases ps with
        | nil =>
          simp [List.intercalate, List.intersperse] at ih ⊢
          exact ih
        | cons q qs =>
          simp only [List.intercalate, List.intersperse, List.flatten_cons, List.cons_append] at ih ⊢
          rw [ih]

theorem splitChars_free : ∀ l : List Char, ∀ p ∈ splitChars l, '_' ∉ p
  | [] => by simp [splitChars]
  | c :: cs => by
    have ih := splitChars_free cs
    unfold splitChars
    split_ifs with h
    · intro p hp
      rcases List.mem_cons.1 hp with rfl | hp
      · simp
      · exact ih p hp
    · cases hs : splitChars cs with
      | nil =>
        intro p hp
        simp only [List.mem_singleton] at hp
        subst hp
        simpa using fun e => h e.symm
      | cons q qs =>
        rw [hs] at ih
        intro p hp
        rcases List.mem_cons.1 hp with rfl | hp
        · intro hm
          rcases List.mem_cons.1 hm with e | hm
          · exact h e.symm
          · exact ih q (by simp) hm
        · exact ih p (List.mem_cons_of_mem _ hp)

theorem free_cut {a b x y : List Char} (ha : '_' ∉ a) (hb : '_' ∉ b) (h : a ++ '_' :: x = b ++ '_' :: y) :
    a = b ∧ x = y := by
  induction a generalizing b with
  | nil =>
    cases b with
    | nil => simpa using h
    | cons d b =>
      simp only [List.nil_append, List.cons_append, List.cons.injEq] at h
      exact absurd h.1 (by intro e; exact hb (by rw [e]; simp))
  | cons c a ih =>
    cases b with
    | nil =>
      simp only [List.nil_append, List.cons_append, List.cons.injEq] at h
      exact absurd h.1 (by intro e; exact ha (by rw [e]; simp))
    | cons d b =>
      simp only [List.cons_append, List.cons.injEq] at h
      obtain ⟨h1, h2⟩ := ih (fun m => ha (List.mem_cons_of_mem _ m)) (fun m => hb (List.mem_cons_of_mem _ m)) h.2
      exact ⟨by rw [h.1, h1], h2⟩

theorem parts_unique : ∀ {ps qs : List (List Char)}, ps ≠ [] → qs ≠ [] → (∀ p ∈ ps, '_' ∉ p) →
    (∀ p ∈ qs, '_' ∉ p) → List.intercalate ['_'] ps = List.intercalate ['_'] qs → ps = qs
  | [], _, h, _, _, _, _ => absurd rfl h
  | _, [], _, h, _, _, _ => absurd rfl h
  | [p], [q], _, _, _, _, h => by simpa [List.intercalate, List.intersperse] using h
  | [p], q :: q' :: qs, _, _, hp, _, h => by
    simp only [List.intercalate, List.intersperse, List.flatten_cons, List.flatten_nil,
      List.append_nil] at h
    exact absurd (show '_' ∈ p by rw [h]; simp) (hp p (by simp))
  | p :: p' :: ps, [q], _, _, _, hq, h => by
    simp only [List.intercalate, List.intersperse, List.flatten_cons, List.flatten_nil,
      List.append_nil] at h
    exact absurd (show '_' ∈ q by rw [← h]; simp) (hq q (by simp))
  | p :: p' :: ps, q :: q' :: qs, _, _, hp, hq, h => by
    have h' : p ++ '_' :: List.intercalate ['_'] (p' :: ps) = q ++ '_' :: List.intercalate ['_'] (q' :: qs) := by
      simpa [List.intercalate, List.intersperse] using h
    obtain ⟨h1, h2⟩ := free_cut (hp p (by simp)) (hq q (by simp)) h'
    rw [h1, parts_unique (by simp) (by simp) (fun x hx => hp x (List.mem_cons_of_mem _ hx))
      (fun x hx => hq x (List.mem_cons_of_mem _ hx)) h2]

theorem partsOf_iff {name : String} {ps : List String} : PartsOf name ps ↔ ps = split name := by
  constructor
  · rintro ⟨h1, h2, h3⟩
    have : ps.map String.toList = splitChars name.toList := by
      refine parts_unique (by simpa using h2) (splitChars_ne _) ?_ (splitChars_free _)
        (h1.trans (splitChars_join _).symm)
      intro p hp
      obtain ⟨q, hq, rfl⟩ := List.mem_map.1 hp
      exact h3 q hq
    unfold split
    rw [← this, List.map_map]
    simp [Function.comp_def]
  · rintro rfl
    unfold split
    refine ⟨?_, by simpa using splitChars_ne _, ?_⟩
    · rw [List.map_map]
      simp only [Function.comp_def, String.toList_ofList, List.map_id']
      exact splitChars_join _
    · intro p hp
      obtain ⟨q, hq, rfl⟩ := List.mem_map.1 hp
      rw [String.toList_ofList]
      exact splitChars_free _ q hq

theorem contains_iff {name text : String} : Contains name text ↔ text.toList <:+: name.toList := by
  constructor
  · rintro ⟨a, b, h⟩; exact ⟨a, b, h.symm⟩
  · rintro ⟨a, b, h⟩; exact ⟨a, b, h.symm⟩

theorem findSome_split {l : List String} {d : Dim} : l.findSome? unitOf = some d ↔
    ∃ pre p post, l = pre ++ p :: post ∧ unitOf p = some d ∧ ∀ q ∈ pre, unitOf q = none := by
  rw [List.findSome?_eq_some_iff]

/-- The names looked up after the name itself. -/
def others (arg : String) : List String :=
  let l := split arg
  let l := if "flow_v".toList <:+: arg.toList then "flow_v" :: l else l
  if "flow_m".toList <:+: arg.toList then "flow_m" :: l else l

theorem split_self {arg : String} (h : arg ∈ split arg) : others arg = [arg] := by
  have hf : '_' ∉ arg.toList := (partsOf_iff.2 rfl : PartsOf arg (split arg)).2.2 _ h
  have hs : split arg = [arg] := (partsOf_iff.1 ⟨by simp [List.intercalate], by simp, by simpa using hf⟩).symm
  have h1 : ¬ "flow_v".toList <:+: arg.toList := fun hi => hf (hi.subset (by decide))
  have h2 : ¬ "flow_m".toList <:+: arg.toList := fun hi => hf (hi.subset (by decide))
  unfold others
  simp only [if_neg h1, if_neg h2, hs]

theorem others_head {arg : String} (h : arg ∈ others arg) : ∃ t, others arg = arg :: t := by
  by_cases hs : arg ∈ split arg
  · exact ⟨[], split_self hs⟩
  · unfold others at h ⊢
    simp only at h ⊢
    split_ifs at h ⊢ with h1 h2 h3
    · simp only [List.mem_cons, hs, or_false] at h
      rcases h with rfl | rfl
      · exact ⟨_, rfl⟩
      · exact absurd h1 (by decide)
    · simp only [List.mem_cons, hs, or_false] at h
      subst h
      exact ⟨_, rfl⟩
    · simp only [List.mem_cons, hs, or_false] at h
      subst h
      exact ⟨_, rfl⟩
    · exact absurd h hs

theorem names_find (arg : String) :
    (names arg).findSome? unitOf = (unitOf arg <|> (others arg).findSome? unitOf) := by
  have hn : names arg = if arg ∈ others arg then others arg else arg :: others arg := rfl
  rw [hn]
  split_ifs with h
  · obtain ⟨t, ht⟩ := others_head h
    rw [ht, List.findSome?_cons]
    cases unitOf arg <;> simp
  · rw [List.findSome?_cons]
    cases unitOf arg <;> simp

theorem hasUnit_iff {name : String} {d : Dim} :
    HasUnit name d ↔ (names name).findSome? unitOf = some d := by
  rw [names_find]
  unfold HasUnit
  cases hu : unitOf name with
  | some e => simp
  | none =>
    have hm : unitOf "flow_m" = some { kg := 1, s := -1 } := by decide
    have hv : unitOf "flow_v" = some { m := 3, s := -1 } := by decide
    have e0 : ((none : Option Dim) <|> (others name).findSome? unitOf) = (others name).findSome? unitOf := rfl
    rw [e0]
    simp only [reduceCtorEq, false_or, true_and, contains_iff]
    unfold others
    by_cases h1 : "flow_m".toList <:+: name.toList
    · simp only [h1, if_true, true_and, not_true_eq_false, false_and, or_false, List.findSome?_cons, hm]
    · by_cases h2 : "flow_v".toList <:+: name.toList
      · simp only [h1, h2, if_false, if_true, true_and, not_true_eq_false, not_false_eq_true, false_and,
          or_false, false_or, List.findSome?_cons, hv]
      · simp only [h1, h2, if_false, not_false_eq_true, true_and, false_and, false_or]
        rw [findSome_split]
        constructor
        · rintro ⟨pre, p, post, h3, h4, h5⟩
          exact ⟨pre, p, post, (partsOf_iff.1 h3).symm, h4, h5⟩
        · rintro ⟨pre, p, post, h3, h4, h5⟩
          exact ⟨pre, p, post, partsOf_iff.2 h3.symm, h4, h5⟩

theorem converted_iff {name : String} : Converted name ↔ "units" ∉ split name :=
  ⟨fun h => h _ (partsOf_iff.2 rfl), fun h ps hps => by rwa [partsOf_iff.1 hps]⟩

theorem deliver_unit {name : String} {d : Dim} (hc : Converted name) (hu : HasUnit name d) {v : Val} :
    deliver name v = toUnit d v := by
  unfold deliver
  rw [if_neg (converted_iff.1 hc), hasUnit_iff.1 hu]
  cases v <;> rfl

/-! ### Calls -/

theorem kw_mapM (l : List (String × Val)) :
    (l.mapM fun p => (do
      let v ← deliver p.1 p.2
      pure (p.1, v) : Res (String × Val))) =
    (l.mapM fun p => deliver p.1 p.2).map fun vs => (l.map Prod.fst).zip vs := by
  induction l with
  | nil => rfl
  | cons p t ih =>
    rw [List.mapM_cons, List.mapM_cons, ih]
    cases deliver p.1 p.2 with
    | error e => rfl
    | ok v =>
      cases t.mapM fun p => deliver p.1 p.2 <;> rfl

theorem zip_take : ∀ (l : List String) (m : List Val), l.zip m = (l.take m.length).zip m
  | [], m => by simp
  | a :: l, [] => by simp
  | a :: l, b :: m => by simp [zip_take l m]

theorem take_zip : ∀ (l : List String) (m : List Val), l.zip m = l.zip (m.take l.length)
  | [], m => by simp
  | a :: l, [] => by simp
  | a :: l, b :: m => by simp [take_zip l m]

theorem ok_filter {α : Type} {l : List (Res α)} (h : ∀ e ∈ l, ∃ z, e = .ok z) :
    l = (l.filterMap Except.toOption).map .ok := by
  induction l with
  | nil => rfl
  | cons e t ih =>
    obtain ⟨z, rfl⟩ := h e (by simp)
    have : (Except.ok z :: t : List (Res α)).filterMap Except.toOption = z :: t.filterMap Except.toOption := rfl
    rw [this, List.map_cons, ← ih fun e he => h e (List.mem_cons_of_mem _ he)]

end Ross.UnitsLemmas
