import Verif.Spec.CoAxial
import Verif.Lemmas.Term
import Verif.Lemmas.Assembly2

/-! # The loop of the coaxial rotor -/

namespace Ross.CoAxialLemmas

open Ross Ross.Spec Ross.Spec.CoAxial Ross.BearingLemmas Ross.Rotor Ross.RotorLemmas Ross.AssemblyLemmas

/-- Some row other than that of `e` mentions its node. -/
def Hit (rows : List CoAxial.Row) (e : Elm) : Prop :=
  ∃ n, e.n = some n ∧ ∃ r ∈ rows, r.tag ≠ e.tag ∧ (r.n_l = some n ∨ r.n_r = some n ∨ r.n_link = some n)

theorem findNum_none {rows : List CoAxial.Row} {e : Elm} :
    CoAxial.findNum rows e = none ↔ ¬ Hit rows e := by
  unfold CoAxial.findNum Hit
  cases hn : e.n with
  | none => simp
  | some n =>
    simp only [Option.some.injEq]
    constructor
    · rintro h ⟨m, rfl, r, hr, ht, hx⟩
      split at h
      · cases h
      · cases h
      · rename_i h1 h2
        simp only [List.map_eq_nil_iff, List.filter_eq_nil_iff, decide_eq_true_eq, not_and] at h1 h2
        rcases hx with hx | hx | hx
        · exact h1 r hr hx ht
        · exact h2 r hr hx ht
        · simp only [List.head?_eq_none_iff, List.map_eq_nil_iff, List.filter_eq_nil_iff,
            decide_eq_true_eq, not_and] at h
          exact h r hr hx ht
    · intro h
      have e1 : rows.filter (fun r => r.n_l = some n ∧ r.tag ≠ e.tag) = [] := by
        rw [List.filter_eq_nil_iff]; intro r hr hx
        simp only [decide_eq_true_eq] at hx
        exact h ⟨n, rfl, r, hr, hx.2, Or.inl hx.1⟩
      have e2 : rows.filter (fun r => r.n_r = some n ∧ r.tag ≠ e.tag) = [] := by
        rw [List.filter_eq_nil_iff]; intro r hr hx
        simp only [decide_eq_true_eq] at hx
        exact h ⟨n, rfl, r, hr, hx.2, Or.inr (Or.inl hx.1)⟩
      have e3 : rows.filter (fun r => r.n_link = some n ∧ r.tag ≠ e.tag) = [] := by
        rw [List.filter_eq_nil_iff]; intro r hr hx
        simp only [decide_eq_true_eq] at hx
        exact h ⟨n, rfl, r, hr, hx.2, Or.inr (Or.inr hx.1)⟩
      rw [e1, e2, e3]; rfl

theorem hit_setNum {rows : List CoAxial.Row} {t : Option String} {z : Option ℕ} {e : Elm} :
    Hit (CoAxial.setNum rows t z) e ↔ Hit rows e := by
  unfold Hit CoAxial.setNum
  constructor
  · rintro ⟨n, hn, r, hr, ht, hx⟩
    obtain ⟨y, hy, rfl⟩ := List.mem_map.1 hr
    refine ⟨n, hn, y, hy, ?_⟩
    by_cases h : y.tag = t
    · rw [if_pos h] at ht hx; exact ⟨ht, hx⟩
    · rw [if_neg h] at ht hx; exact ⟨ht, hx⟩
  · rintro ⟨n, hn, y, hy, ht, hx⟩
    refine ⟨n, hn, _, List.mem_map.2 ⟨y, hy, rfl⟩, ?_⟩
    by_cases h : y.tag = t
    · rw [if_pos h]; exact ⟨ht, hx⟩
    · rw [if_neg h]; exact ⟨ht, hx⟩

/-- A pending element that no row mentions keeps the loop running forever. -/
theorem loop_forever {els : List Elm} {e : Elm} (hne : e ∈ els)
    (huniq : ∀ x ∈ els, x.tag = e.tag → x = e) : ∀ (fuel : ℕ) (todo : List Elm)
    (rows : List CoAxial.Row) (pending : List (Option String)), (∀ x ∈ todo, x ∈ els) →
    ¬ Hit rows e → e.tag ∈ pending → CoAxial.loop els fuel todo rows pending = none := by
  intro fuel
  induction fuel with
  | zero => intro todo rows pending _ _ _; rfl
  | succ f ih =>
    intro todo rows pending htodo hh hp
    cases todo with
    | nil =>
      have := ih els rows pending (fun x hx => hx) hh hp
      cases hels : els with
      | nil => rw [hels] at hne; simp at hne
      | cons c t => rw [hels] at this; simpa only [CoAxial.loop] using this
    | cons x rest =>
      simp only [CoAxial.loop]
      rw [if_neg (List.ne_nil_of_mem hp)]
      have hrest : ∀ y ∈ rest, y ∈ els := fun y hy => htodo y (List.mem_cons_of_mem _ hy)
      by_cases hx : x.tag ∈ pending
      · rw [if_pos hx]
        cases hf : CoAxial.findNum rows x with
        | none => exact ih _ _ _ hrest hh hp
        | some z =>
          simp only
          refine ih _ _ _ hrest (fun h => hh (hit_setNum.1 h)) (List.mem_filter.2 ⟨hp, ?_⟩)
          have : e.tag ≠ x.tag := by
            intro heq
            have hxe := huniq x (htodo x List.mem_cons_self) heq.symm
            rw [hxe, findNum_none.2 hh] at hf
            cases hf
          simpa using this
      · rw [if_neg hx]; exact ih _ _ _ hrest hh hp

theorem loop_done (els todo : List Elm) (rows : List CoAxial.Row) {fuel : ℕ} (hf : 2 ≤ fuel) :
    CoAxial.loop els fuel todo rows [] = some rows := by
  obtain ⟨f, rfl⟩ : ∃ f, fuel = f + 2 := ⟨fuel - 2, by omega⟩
  cases todo with
  | nil =>
    cases els with
    | nil => rfl
    | cons c t => simp [CoAxial.loop]
  | cons b t => simp [CoAxial.loop]

theorem loop_ends (els : List Elm) : ∀ (todo : List Elm)
    (rows : List CoAxial.Row) (pending : List (Option String)) (fuel : ℕ),
    (∀ t ∈ pending, ∃ x ∈ todo, x.tag = t) → (∀ x ∈ todo, x.tag ∈ pending → Hit rows x) →
    todo.length + 2 ≤ fuel → ∃ rows', CoAxial.loop els fuel todo rows pending = some rows' := by
  intro todo
  induction todo with
  | nil =>
    intro rows pending fuel hp _ hf
    have : pending = [] := by
      cases pending with
      | nil => rfl
      | cons t _ => obtain ⟨b, hb, -⟩ := hp t List.mem_cons_self; simp at hb
    subst this
    exact ⟨rows, loop_done els [] rows (by simpa using hf)⟩
  | cons x rest ih =>
    intro rows pending fuel hp hh hf
    obtain ⟨f, rfl⟩ : ∃ f, fuel = f + 1 := ⟨fuel - 1, by simp at hf; omega⟩
    have hf' : rest.length + 2 ≤ f := by simp at hf; omega
    by_cases h0 : pending = []
    · subst h0; exact ⟨rows, by simp [CoAxial.loop]⟩
    simp only [CoAxial.loop]
    rw [if_neg h0]
    by_cases hx : x.tag ∈ pending
    · rw [if_pos hx]
      cases hz : CoAxial.findNum rows x with
      | none => exact absurd (hh x List.mem_cons_self hx) (findNum_none.1 hz)
      | some z =>
        simp only
        refine ih _ _ f ?_ ?_ hf'
        · intro t ht
          obtain ⟨ht1, ht2⟩ := List.mem_filter.1 ht
          obtain ⟨c, hc, hct⟩ := hp t ht1
          rcases List.mem_cons.1 hc with rfl | hc
          · simp [hct] at ht2
          · exact ⟨c, hc, hct⟩
        · intro y hy hyp
          exact hit_setNum.2 (hh y (List.mem_cons_of_mem _ hy) (List.mem_filter.1 hyp).1)
    · rw [if_neg hx]
      refine ih _ _ f ?_ ?_ hf'
      · intro t ht
        obtain ⟨c, hc, hct⟩ := hp t ht
        rcases List.mem_cons.1 hc with rfl | hc
        · exact absurd (hct ▸ ht) hx
        · exact ⟨c, hc, hct⟩
      · intro y hy hyp
        exact hh y (List.mem_cons_of_mem _ hy) hyp

variable {a : CoAxial.Args}

theorem number_labelled : ∀ (l : List (List ShaftEl)) (n t j : ℕ), (∀ x ∈ l, x ≠ []) →
    (∀ x ∈ l, ∀ e ∈ x, e.s.n.isSome) → (∀ x ∈ l, ∀ e ∈ x, e.s.tag.isSome) →
    CoAxial.number n t j l = .ok l := by
  intro l
  induction l with
  | nil => intro n t j _ _ _; rfl
  | cons x l ih =>
    intro n t j h1 h2 h3
    have hx : CoAxial.numberOne n t x = x := by
      refine mapIdx_id _ _ fun i e he => ?_
      obtain ⟨k, hk⟩ := Option.isSome_iff_exists.1 (h2 x List.mem_cons_self e he)
      obtain ⟨s, hs⟩ := Option.isSome_iff_exists.1 (h3 x List.mem_cons_self e he)
      obtain ⟨six, s⟩ := e
      cases s
      simp_all [defTag]
    rw [CoAxial.number, hx]
    obtain ⟨e, he⟩ : ∃ e, x.getLast? = some e :=
      ⟨_, List.getLast?_eq_getLast_of_ne_nil (h1 x List.mem_cons_self)⟩
    simp only [he]
    rw [ih _ _ _ (fun y hy => h1 y (List.mem_cons_of_mem _ hy))
      (fun y hy => h2 y (List.mem_cons_of_mem _ hy)) (fun y hy => h3 y (List.mem_cons_of_mem _ hy))]
    rfl

/-- The lists of a labelled description. -/
theorem parts_fine (h : Fine a) : CoAxial.parts a = .ok ⟨a.shafts.flatten, sortShaft a.shafts.flatten,
    a.disks, sortBearings a.bearings, a.pms⟩ := by
  have e2 : tagDisks a.disks = a.disks := by
    refine mapIdx_id _ _ fun i e he => ?_
    obtain ⟨t, ht⟩ := Option.isSome_iff_exists.1 (h.disk_tag e he)
    obtain ⟨six, s⟩ := e
    cases s
    simp_all [defTag]
  have e3 : tagBearings a.bearings = a.bearings := by
    refine mapIdx_id _ _ fun i b he => ?_
    obtain ⟨t, ht⟩ := Option.isSome_iff_exists.1 (h.brg_tag b he)
    obtain ⟨s, c, rfl⟩ := h.brg_four b he
    rw [ht]
    cases c
    simp_all [defTag, BrgEl.setTag, BrgEl.tag, BrgEl.base]
  have e4 : tagPms a.pms = a.pms := by
    refine mapIdx_id _ _ fun i p he => ?_
    obtain ⟨t, ht⟩ := Option.isSome_iff_exists.1 (h.pm_tag p he)
    rw [ht]
    cases p with
    | pm p => cases p; simp_all [defTag, PmEl.setTag, PmEl.tag]
    | pm6 p => cases p; simp_all [defTag, PmEl.setTag, PmEl.tag]
  unfold CoAxial.parts
  rw [number_labelled _ _ _ _ h.shafts h.node h.shaft_tag, e2, e3, e4]
  rfl

theorem elements_fine {p : Parts} (h : Fine a) (hp : CoAxial.parts a = .ok p) :
    p.elements.Perm (elements a) := by
  rw [parts_fine h] at hp
  cases hp
  unfold Parts.elements Spec.CoAxial.elements
  refine List.Perm.append (List.Perm.append (List.Perm.append ?_ (List.Perm.refl _)) ?_)
    (List.Perm.refl _)
  · exact (List.mergeSort_perm _ _).map _
  · exact (List.mergeSort_perm _ _).map _

theorem mem_fine {p : Parts} (h : Fine a) (hp : CoAxial.parts a = .ok p) :
    (∀ e, e ∈ p.sh ↔ ∃ l ∈ a.shafts, e ∈ l) ∧ p.dk = a.disks ∧ (∀ b, b ∈ p.br ↔ b ∈ a.bearings) ∧
      p.pm = a.pms := by
  rw [parts_fine h] at hp
  cases hp
  refine ⟨fun e => ?_, rfl, fun b => ?_, rfl⟩
  · exact (List.mergeSort_perm _ _).mem_iff.trans List.mem_flatten
  · exact (List.mergeSort_perm _ _).mem_iff

theorem check_fine {p : Parts} (h : Fine a) (hp : CoAxial.parts a = .ok p) :
    checkNumberDof p.sh p.dk p.br = .ok 4 := by
  obtain ⟨h1, h2, h3, h4⟩ := mem_fine h hp
  have hs : ∀ e ∈ p.sh, nMap (.shaft e) = 8 := by
    intro e he
    obtain ⟨l, hl, hel⟩ := (h1 e).1 he
    have := h.shaft_four l hl e hel
    obtain ⟨six, s⟩ := e
    subst this; rfl
  have hd : ∀ e ∈ p.dk, nMap (.disk e) = 4 := by
    intro e he
    have := h.disk_four e (h2 ▸ he)
    obtain ⟨six, s⟩ := e
    subst this; rfl
  have hb : ∀ e ∈ p.br, nMap (.brg e) = 2 := by
    intro e he
    obtain ⟨s, c, rfl⟩ := h.brg_four e ((h3 e).1 he)
    rfl
  have hne : p.sh ≠ [] := by
    obtain ⟨l, hl⟩ := List.exists_mem_of_ne_nil _ h.ne
    obtain ⟨e, he⟩ := List.exists_mem_of_ne_nil _ (h.shafts l hl)
    exact List.ne_nil_of_mem ((h1 e).2 ⟨l, hl, he⟩)
  obtain ⟨e, t, het⟩ := List.exists_cons_of_ne_nil hne
  unfold checkNumberDof
  rw [het]
  simp only
  rw [← het, hs e (by rw [het]; simp)]
  rw [if_neg, if_neg, if_neg]
  · simp only [List.any_eq_true, decide_eq_true_eq, not_exists, not_and, not_not]
    intro b hb'; rw [hb b hb']
  · simp only [List.any_eq_true, decide_eq_true_eq, not_exists, not_and, not_not]
    intro b hb'; rw [hd b hb']
  · simp only [List.any_eq_true, decide_eq_true_eq, not_exists, not_and, not_not]
    intro b hb'; rw [hs b hb']

theorem le_maxOr0 {l : List ℕ} {x : ℕ} (h : x ∈ l) : x ≤ maxOr0 l := by
  induction l with
  | nil => simp at h
  | cons y t ih =>
    simp only [maxOr0, List.foldr_cons] at ih ⊢
    rcases List.mem_cons.1 h with rfl | h
    · exact le_max_left _ _
    · exact (ih h).trans (le_max_right _ _)

theorem maxOr0_le {l : List ℕ} {m : ℕ} (h : ∀ x ∈ l, x ≤ m) : maxOr0 l ≤ m := by
  induction l with
  | nil => exact Nat.zero_le _
  | cons y t ih =>
    simp only [maxOr0, List.foldr_cons] at ih ⊢
    exact max_le (h y List.mem_cons_self) (ih fun x hx => h x (List.mem_cons_of_mem _ hx))

theorem outside_fine {p : Parts} (h : Fine a) (hp : CoAxial.parts a = .ok p) :
    outside p.sh p.dk p.br p.pm = false := by
  obtain ⟨h1, h2, h3, h4⟩ := mem_fine h hp
  have hm := fun x : Elm => (elements_fine h hp).mem_iff (a := x)
  simp only [outside, decide_eq_false_iff_not, not_lt]
  have key : ∀ e ∈ elements a, ∀ n, e.n = some n →
      n ≤ max (maxOr0 (p.sh.map fun e => nodeOf e + 1)) (maxOr0 (p.pm.filterMap PmEl.n)) := by
    intro e he n hn
    rcases h.inside e he n hn with ⟨l, hl, x, hx, k, hk, hle⟩ | ⟨q, hq, k, hk, hle⟩
    · refine le_max_of_le_left (hle.trans (le_maxOr0 (List.mem_map.2 ⟨x, (h1 x).2 ⟨l, hl, hx⟩, ?_⟩)))
      simp [nodeOf, hk]
    · refine le_max_of_le_right (hle.trans (le_maxOr0 (List.mem_filterMap.2 ⟨q, ?_, hk⟩)))
      rw [h4]; exact hq
  refine maxOr0_le fun x hx => ?_
  simp only [List.mem_append, List.mem_map] at hx
  rcases hx with (⟨e, he, rfl⟩ | ⟨e, he, rfl⟩) | ⟨e, he, rfl⟩
  · obtain ⟨l, hl, hel⟩ := (h1 e).1 he
    obtain ⟨k, hk⟩ := Option.isSome_iff_exists.1 (h.node l hl e hel)
    refine key (.shaft e) ((hm (.shaft e)).1 ?_) _ (by simp [Elm.n, nodeOf, hk])
    simp [Parts.elements, he]
  · exact key (.disk e) ((hm (.disk e)).1 (by simp [Parts.elements, he])) _ rfl
  · exact key (.brg e) ((hm (.brg e)).1 (by simp [Parts.elements, he])) _ rfl

theorem seal_fine {p : Parts} (h : Fine a) (hp : CoAxial.parts a = .ok p) :
    p.br.all BrgEl.isSeal = false := by
  obtain ⟨h1, h2, h3, h4⟩ := mem_fine h hp
  obtain ⟨b, hb, hs⟩ := h.bearing
  rw [List.all_eq_false]
  exact ⟨b, (h3 b).2 hb, by simp [hs]⟩

theorem place_fine {p : Parts} (h : Fine a) (hp : CoAxial.parts a = .ok p) :
    ∃ l, p.elements.mapM (place 4 (lastNode p.sh)) = .ok l := by
  obtain ⟨h1, h2, h3, h4⟩ := mem_fine h hp
  refine mapM_ok_of fun e he => ?_
  have : ∃ n, e.n = some n := by
    simp only [Parts.elements, List.mem_append, List.mem_map] at he
    rcases he with ((⟨x, hx, rfl⟩ | ⟨x, hx, rfl⟩) | ⟨x, hx, rfl⟩) | ⟨x, hx, rfl⟩
    · obtain ⟨l, hl, hel⟩ := (h1 x).1 hx
      exact Option.isSome_iff_exists.1 (h.node l hl x hel)
    · exact ⟨_, rfl⟩
    · exact ⟨_, rfl⟩
    · exact Option.isSome_iff_exists.1 (h.pm_node x (h4 ▸ hx))
  obtain ⟨n, hn⟩ := this
  exact ⟨_, by unfold place; rw [hn]⟩

theorem hit_connected {p : Parts} (h : Fine a) (hp : CoAxial.parts a = .ok p)
    {sort : List CoAxial.Row → List CoAxial.Row} (hsort : ∀ l, (sort l).Perm l) (num : ShaftEl → ℕ)
    (e : Elm) : Hit (sort (CoAxial.rows p num)) e ↔ Connected (elements a) e := by
  obtain ⟨h1, h2, h3, h4⟩ := mem_fine h hp
  have hm := fun x : Elm => (elements_fine h hp).mem_iff (a := x)
  have hnode : ∀ x ∈ p.sh, ∃ k, x.s.n = some k := by
    intro x hx
    obtain ⟨l, hl, hel⟩ := (h1 x).1 hx
    exact Option.isSome_iff_exists.1 (h.node l hl x hel)
  unfold Hit Connected
  refine exists_congr fun n => and_congr_right fun _ => ?_
  constructor
  · rintro ⟨r, hr, ht, hx⟩
    have hr := (hsort _).mem_iff.1 hr
    simp only [CoAxial.rows, List.mem_append, List.mem_map] at hr
    rcases hr with ((⟨x, hxm, rfl⟩ | ⟨x, hxm, rfl⟩) | ⟨x, hxm, rfl⟩) | ⟨x, hxm, rfl⟩
    · obtain ⟨k, hk⟩ := hnode x hxm
      refine ⟨.shaft x, (hm _).1 (by simp [Parts.elements, hxm]), ht, ?_⟩
      simp only [nodeOf, hk, Option.getD_some, Option.some.injEq, reduceCtorEq, or_false] at hx
      rcases hx with rfl | rfl
      · exact Or.inl hk
      · exact Or.inr ⟨k, hk, rfl⟩
    · refine ⟨.disk x, (hm _).1 (by simp [Parts.elements, hxm]), ht, ?_⟩
      simpa [touches] using hx
    · refine ⟨.brg x, (hm _).1 (by simp [Parts.elements, hxm]), ht, ?_⟩
      simp only [Option.some.injEq] at hx
      rcases hx with hx | hx | hx
      · exact Or.inl hx
      · exact Or.inl hx
      · exact Or.inr hx
    · simp at hx
  · rintro ⟨x, hxm, ht, hx⟩
    have hxm := (hm x).2 hxm
    have key : ∀ r ∈ CoAxial.rows p num, r.tag ≠ e.tag →
        (r.n_l = some n ∨ r.n_r = some n ∨ r.n_link = some n) →
        ∃ r ∈ sort (CoAxial.rows p num), r.tag ≠ e.tag ∧
          (r.n_l = some n ∨ r.n_r = some n ∨ r.n_link = some n) :=
      fun r hr a b => ⟨r, (hsort _).mem_iff.2 hr, a, b⟩
    cases x with
    | shaft x =>
      have hxs : x ∈ p.sh := by simpa [Parts.elements] using hxm
      obtain ⟨k, hk⟩ := hnode x hxs
      refine key ⟨x.s.tag, some (nodeOf x), some (nodeOf x + 1), none, some (num x)⟩ ?_ ht ?_
      · simp only [CoAxial.rows, List.mem_append, List.mem_map]
        exact Or.inl (Or.inl (Or.inl ⟨x, hxs, rfl⟩))
      · simp only [touches, hk, Option.some.injEq] at hx
        simp only [nodeOf, hk, Option.getD_some, Option.some.injEq]
        rcases hx with hx | ⟨k', rfl, hx⟩
        · exact Or.inl hx
        · exact Or.inr (Or.inl hx)
    | disk x =>
      have hxs : x ∈ p.dk := by simpa [Parts.elements] using hxm
      refine key ⟨x.d.tag, some x.d.n, some x.d.n, none, none⟩ ?_ ht (Or.inl (congrArg some hx))
      simp only [CoAxial.rows, List.mem_append, List.mem_map]
      exact Or.inl (Or.inl (Or.inr ⟨x, hxs, rfl⟩))
    | brg x =>
      have hxs : x ∈ p.br := by simpa [Parts.elements] using hxm
      refine key ⟨x.tag, some x.n, some x.n, x.n_link, none⟩ ?_ ht ?_
      · simp only [CoAxial.rows, List.mem_append, List.mem_map]
        exact Or.inl (Or.inr ⟨x, hxs, rfl⟩)
      · rcases hx with hx | hx
        · exact Or.inl (congrArg some hx)
        · exact Or.inr (Or.inr hx)
    | pm x => exact absurd hx id

theorem mem_unassigned {p : Parts} {e : Elm} (he : e ∈ p.elements) (hs : ¬ IsShaft e) :
    e.tag ∈ CoAxial.unassigned p := by
  simp only [Parts.elements, List.mem_append, List.mem_map] at he
  simp only [CoAxial.unassigned, List.mem_append, List.mem_map]
  rcases he with ((⟨x, hx, rfl⟩ | ⟨x, hx, rfl⟩) | ⟨x, hx, rfl⟩) | ⟨x, hx, rfl⟩
  · exact absurd trivial hs
  · exact Or.inl (Or.inl ⟨x, hx, rfl⟩)
  · exact Or.inl (Or.inr ⟨x, hx, rfl⟩)
  · exact Or.inr ⟨x, hx, rfl⟩

theorem unassigned_mem {p : Parts} {t : Option String} (h : t ∈ CoAxial.unassigned p) :
    ∃ e ∈ p.elements, e.tag = t ∧ ¬ IsShaft e := by
  simp only [CoAxial.unassigned, List.mem_append, List.mem_map] at h
  rcases h with (⟨x, hx, rfl⟩ | ⟨x, hx, rfl⟩) | ⟨x, hx, rfl⟩
  · exact ⟨.disk x, by simp [Parts.elements, hx], rfl, id⟩
  · exact ⟨.brg x, by simp [Parts.elements, hx], rfl, id⟩
  · exact ⟨.pm x, by simp [Parts.elements, hx], rfl, id⟩

theorem same_of_tag {p : Parts} (h : Fine a) (hp : CoAxial.parts a = .ok p) {x e : Elm}
    (hx : x ∈ p.elements) (he : e ∈ p.elements) (ht : x.tag = e.tag) : x = e := by
  have hn : (p.elements.map Elm.tag).Nodup := ((elements_fine h hp).map _).nodup_iff.2 h.tags
  exact List.inj_on_of_nodup_map hn hx he ht

theorem init_fine (h : Fine a) {p : Parts} (hp : CoAxial.parts a = .ok p)
    (sort : List CoAxial.Row → List CoAxial.Row) (num : ShaftEl → ℕ) (fuel : ℕ) :
    (CoAxial.loop p.elements fuel p.elements (sort (CoAxial.rows p num)) (CoAxial.unassigned p) = none →
      CoAxial.init sort num fuel a = none) ∧
    ∀ df, CoAxial.loop p.elements fuel p.elements (sort (CoAxial.rows p num)) (CoAxial.unassigned p) =
      some df → ∃ r, CoAxial.init sort num fuel a = some (.ok r) := by
  obtain ⟨pl, hpl⟩ := place_fine h hp
  unfold CoAxial.init
  simp only [hp, check_fine h hp, seal_fine h hp, outside_fine h hp, hpl]
  constructor
  · intro hl; simp [hl]
  · intro df hl; simp [hl]

end Ross.CoAxialLemmas
