import Verif.Spec.StRotor
import Verif.Lemmas.ListRes
import Verif.Lemmas.Shape

/-! # Lemmas on random rotors -/

namespace Ross.StRotorLemmas

open Stochastic Spec

variable {N : ℕ} {α : Type} {draw : StElement → Res (List α)}

/-- Whether there is a random element. -/
def hasRandom (l : List (Item α)) : Bool := (randomItems l) ≠ []

theorem mem_randomItems (l : List (Item α)) (e : StElement) : e ∈ randomItems l ↔ .st e ∈ l := by
  unfold randomItems
  rw [List.mem_filterMap]
  constructor
  · rintro ⟨x, hx, h⟩
    cases x <;> simp at h
    exact h ▸ hx
  · intro h; exact ⟨_, h, rfl⟩

theorem hasRandom_iff (l : List (Item α)) : hasRandom l = true ↔ ∃ e, .st e ∈ l := by
  unfold hasRandom
  rw [decide_eq_true_iff]
  constructor
  · intro h
    obtain ⟨e, he⟩ := List.exists_mem_of_ne_nil _ h
    exact ⟨e, (mem_randomItems l e).1 he⟩
  · rintro ⟨e, he⟩
    exact List.ne_nil_of_mem ((mem_randomItems l e).2 he)

theorem gives_st {l : List (Item α)} {fs : List (Fin N → α)} (h : List.Forall₂ (Gives draw N) l fs) {e : StElement}
    (he : .st e ∈ l) : ∃ f : Fin N → α, draw e = .ok (List.ofFn f) := by
  induction h with
  | nil => cases he
  | cons h1 h2 ih =>
    rcases List.mem_cons.1 he with rfl | he
    · exact ⟨_, h1⟩
    · exact ih he

theorem sameSize_ok (l : List StElement) (h : ∀ e ∈ l, ∃ f : Fin N → α, draw e = .ok (List.ofFn f)) :
    sameSize draw N l = .ok () := by
  induction l with
  | nil => rfl
  | cons e l ih =>
    obtain ⟨f, hf⟩ := h e (by simp)
    simp only [sameSize, hf, List.length_ofFn, if_true]
    exact ih fun e he => h e (by simp [he])

theorem kindSize_ok {l : List (Item α)} {fs : List (Fin N → α)} (h : List.Forall₂ (Gives draw N) l fs) :
    kindSize draw l = .ok (if hasRandom l then some N else none) := by
  have hd : ∀ e ∈ randomItems l, ∃ f : Fin N → α, draw e = .ok (List.ofFn f) := fun e he =>
    gives_st h ((mem_randomItems l e).1 he)
  unfold kindSize hasRandom
  cases hr : randomItems l with
  | nil => rfl
  | cons e t =>
    rw [hr] at hd
    obtain ⟨f, hf⟩ := hd e (by simp)
    simp only [hf, List.length_ofFn, sameSize_ok t fun e he => hd e (by simp [he])]
    rfl

/-- The item after the random elements have been drawn. -/
def drawnOf : Item α → (Fin N → α) → Drawn α
  | .el a, _ => .one a
  | _, f => .many (List.ofFn f)

theorem expand_ok {l : List (Item α)} {fs : List (Fin N → α)} (h : List.Forall₂ (Gives draw N) l fs) :
    l.mapM (expand draw) = .ok (List.zipWith drawnOf l fs) := by
  induction h with
  | nil => rfl
  | @cons x f l fs h1 h2 ih =>
    rw [List.mapM_cons, ih]
    have : expand draw x = .ok (drawnOf x f) := by
      cases x with
      | el a => rfl
      | st e => have h1 : draw e = _ := h1; simp only [expand, h1]; rfl
      | list l => exact h1.elim
    rw [this]; rfl

theorem getArg_ok {l : List (Item α)} {fs : List (Fin N → α)} (h : List.Forall₂ (Gives draw N) l fs) (i : Fin N) :
    (List.zipWith drawnOf l fs).mapM (getArg i) = .ok (fs.map (· i)) := by
  induction h with
  | nil => rfl
  | @cons x f l fs h1 h2 ih =>
    rw [List.zipWith_cons_cons, List.mapM_cons, ih]
    have : getArg i (drawnOf x f) = .ok (f i) := by
      cases x with
      | el a => have h1 : f = _ := h1; simp [drawnOf, getArg, h1]
      | st e => simp [drawnOf, getArg]
      | list l => exact h1.elim
    rw [this]; rfl

theorem notList_ok {l : List (Item α)} {fs : List (Fin N → α)} (h : List.Forall₂ (Gives draw N) l fs)
    (hr : hasRandom l = false) (i : Fin N) :
    (List.zipWith drawnOf l fs).mapM notList = .ok (fs.map (· i)) := by
  have hn : ∀ e, Item.st e ∉ l := by
    intro e he
    have := (hasRandom_iff l).2 ⟨e, he⟩
    rw [hr] at this; cases this
  clear hr
  induction h with
  | nil => rfl
  | @cons x f l fs h1 h2 ih =>
    rw [List.zipWith_cons_cons, List.mapM_cons, ih fun e he => hn e (by simp [he])]
    have : notList (drawnOf x f) = .ok (f i) := by
      cases x with
      | el a => have h1 : f = _ := h1; simp [drawnOf, notList, h1]
      | st e => exact absurd (by simp) (hn e)
      | list l => exact h1.elim
    rw [this]; rfl

theorem items_ok {l : List (Item α)} {fs : List (Fin N → α)} (h : List.Forall₂ (Gives draw N) l fs) (i : Fin N) :
    items (hasRandom l) i (List.zipWith drawnOf l fs) = .ok (fs.map (· i)) := by
  unfold items
  cases hr : hasRandom l with
  | true => simpa using getArg_ok h i
  | false => simpa using notList_ok h hr i

theorem shaftItems_ok {draw : StElement → Res (List ShaftEl)} {l : List (Item ShaftEl)} {fs : List (Fin N → ShaftEl)}
    (h : List.Forall₂ (Gives draw N) l fs) (i : Fin N) :
    shaftItems (hasRandom l) i (List.zipWith drawnOf l fs) = .ok (fs.map fun f => .el (f i)) := by
  unfold shaftItems
  cases hr : hasRandom l with
  | true => simp [getArg_ok h i, Function.comp_def]
  | false =>
    simp only [Bool.false_eq_true, if_false]
    have hn : ∀ e, Item.st e ∉ l := by
      intro e he
      have := (hasRandom_iff l).2 ⟨e, he⟩
      rw [hr] at this; cases this
    clear hr
    induction h with
    | nil => rfl
    | @cons x f l fs h1 h2 ih =>
      have := Except.ok.inj (ih fun e he => hn e (by simp [he]))
      rw [List.zipWith_cons_cons, List.map_cons, List.map_cons, this]
      cases x with
      | el a => have h1 : f = _ := h1; simp [drawnOf, Drawn.nest, h1]
      | st e => exact absurd (by simp) (hn e)
      | list l => exact h1.elim

theorem firstList_ok {l : List (Item α)} {fs : List (Fin N → α)} (h : List.Forall₂ (Gives draw N) l fs)
    (hr : hasRandom l = true) : StRotor.firstList (List.zipWith drawnOf l fs) = N := by
  rw [hasRandom_iff] at hr
  have : ((List.zipWith drawnOf l fs).findSome? fun x => match x with
      | .many r => some r.length
      | .one _ => none) = some N := by
    induction h with
    | nil => obtain ⟨e, he⟩ := hr; cases he
    | @cons x f l fs h1 h2 ih =>
      rw [List.zipWith_cons_cons, List.findSome?_cons]
      cases x with
      | el a =>
        simp only [drawnOf]
        obtain ⟨e, he⟩ := hr
        exact ih ⟨e, by simpa using he⟩
      | st e => simp [drawnOf]
      | list l => exact h1.elim
  unfold StRotor.firstList
  erw [this]

theorem mapM_range {β : Type} (n : ℕ) (f : ℕ → Res β) (g : Fin n → β) (h : ∀ i : Fin n, f i = .ok (g i)) :
    (List.range n).mapM f = .ok ((List.finRange n).map g) := by
  rw [← List.map_coe_finRange_eq_range, List.mapM_map, mapM_ok_iff, List.map_map]
  exact List.map_congr_left fun i _ => h i

theorem bindOk {β γ : Type} {x : Res β} {f : β → Res γ} {z : γ} (h : (x >>= f) = .ok z) :
    ∃ y, x = .ok y ∧ f y = .ok z := by
  cases x with
  | error e => cases h
  | ok y => exact ⟨y, rfl, h⟩

theorem buildAll_iff (pd : Pandas) (fuel : ℕ) (l : List RotorArgs) (rs : List Rotor) :
    buildAll pd fuel l = some (.ok rs) ↔ l.map (Rotor.init pd fuel) = rs.map fun x => some (.ok x) := by
  induction l generalizing rs with
  | nil => cases rs <;> simp [buildAll]
  | cons a l ih =>
    cases rs with
    | nil =>
      simp only [buildAll, List.map_cons, List.map_nil, reduceCtorEq, iff_false]
      split
      · simp
      · simp
      · split <;> simp
    | cons r rs =>
      simp only [buildAll, List.map_cons, List.cons.injEq, ← ih]
      cases h : Rotor.init pd fuel a with
      | none => simp
      | some x =>
        cases x with
        | error e => simp
        | ok r' =>
          cases h2 : buildAll pd fuel l with
          | none => simp
          | some y => cases y <;> simp

theorem commonSize_spec {l : List ℕ} {n : ℕ} (h : commonSize l = .ok n) : n ∈ l ∧ ∀ m ∈ l, m = n := by
  unfold commonSize at h
  cases l with
  | nil => cases h
  | cons a l =>
    dsimp only at h
    split at h
    · rename_i hc
      cases h
      refine ⟨by simp, fun m hm => ?_⟩
      exact ((List.count_eq_length.1 hc) m hm).symm
    · cases h

theorem sameSize_spec {n : ℕ} {l : List StElement} (h : sameSize draw n l = .ok ()) :
    ∀ e ∈ l, ∃ r, draw e = .ok r ∧ r.length = n := by
  induction l with
  | nil => simp
  | cons a l ih =>
    unfold sameSize at h
    split at h
    · cases h
    · rename_i r hr
      split at h
      · rename_i hl
        intro e he
        rcases List.mem_cons.1 he with rfl | he
        · exact ⟨r, hr, hl⟩
        · exact ih h e he
      · cases h

theorem kindSize_spec {l : List (Item α)} {o : Option ℕ} (h : kindSize draw l = .ok o) :
    (∀ e, .st e ∈ l → ∃ n, o = some n ∧ ∃ r, draw e = .ok r ∧ r.length = n) ∧
    (∀ n, o = some n → ∃ e, .st e ∈ l) := by
  unfold kindSize at h
  simp only [← mem_randomItems]
  cases hl : randomItems l with
  | nil =>
    rw [hl] at h
    cases h
    simp
  | cons a t =>
    rw [hl] at h
    dsimp only at h
    split at h
    · cases h
    · rename_i r hr
      split at h
      · cases h
      · rename_i hs
        cases h
        refine ⟨fun e he => ⟨_, rfl, ?_⟩, fun n hn => ⟨a, by simp⟩⟩
        rcases List.mem_cons.1 he with rfl | he
        · exact ⟨r, hr, rfl⟩
        · exact sameSize_spec hs e he

theorem mapM_error {β γ : Type} (l : List β) (f : β → Res γ) (e : PyErr) (h : ∀ x, f x = .error e ∨ ∃ y, f x = .ok y)
    (he : ∃ x ∈ l, f x = .error e) : l.mapM f = .error e := by
  induction l with
  | nil => simp at he
  | cons a l ih =>
    rw [List.mapM_cons]
    rcases h a with ha | ⟨y, ha⟩
    · rw [ha]; rfl
    · have : ∃ x ∈ l, f x = .error e := by
        obtain ⟨x, hx, hxe⟩ := he
        rcases List.mem_cons.1 hx with rfl | hx
        · rw [ha] at hxe; cases hxe
        · exact ⟨x, hx, hxe⟩
      rw [ha, ih this]; rfl

end Ross.StRotorLemmas
