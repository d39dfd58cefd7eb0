import Verif.Lemmas.CoAxial
import Verif.Lemmas.ExRotor

/-! # C22: construction of coaxial rotors -/

namespace Ross.Props

open Ross Ross.Spec Ross.Spec.CoAxial Ross.CoAxialLemmas Ross.RotorLemmas
open Ross.Rotor (Parts sortShaft sortBearings)

variable {sort : List CoAxial.Row → List CoAxial.Row} {num : ShaftEl → ℕ} {a : CoAxial.Args}

/-- **C22**, `CoAxialRotor`, the part that holds: when every disk, bearing and point mass is on a node
that another element touches, construction ends, and succeeds.  Missing: the other descriptions, for
which construction never ends (`C22_coaxial_diverges`). -/
theorem C22_coaxial_ends_partial (hsort : ∀ l, (sort l).Perm l) (h : Fine a)
    (hc : ∀ e ∈ elements a, ¬ IsShaft e → Connected (elements a) e) {fuel : ℕ}
    (hf : (elements a).length + 2 ≤ fuel) :
    ∃ r, CoAxial.init sort num fuel a = some (.ok r) := by
  have hp := parts_fine h
  set p : Parts := ⟨a.shafts.flatten, sortShaft a.shafts.flatten, a.disks, sortBearings a.bearings,
    a.pms⟩
  have hm := fun x : Elm => (elements_fine h hp).mem_iff (a := x)
  have hlen : p.elements.length = (elements a).length := (elements_fine h hp).length_eq
  obtain ⟨df, hdf⟩ := loop_ends p.elements p.elements (sort (CoAxial.rows p num))
    (CoAxial.unassigned p) fuel
    (fun t ht => by obtain ⟨e, he, h1, -⟩ := unassigned_mem ht; exact ⟨e, he, h1⟩)
    (fun x hx ht => by
      obtain ⟨e, he, h1, h2⟩ := unassigned_mem ht
      have := same_of_tag h hp hx he h1.symm
      subst this
      exact (hit_connected h hp hsort num x).2 (hc x ((hm x).1 hx) h2))
    (by omega)
  exact (init_fine h hp sort num fuel).2 df hdf

/-- Two shafts, one supported, the other carried by a bearing between them: construction ends. -/
example : ∃ fuel r, CoAxial.init id (fun _ => 0)
    fuel ⟨[[⟨false, { exShaft with n := some 0, tag := some "a" }⟩],
      [⟨false, { exShaft with n := some 2, tag := some "b" }⟩]], [],
      [(BrgEl.brg false (exBrg 0 none 1 1)).setTag (some "c"),
       (BrgEl.brg false (exBrg 1 (some 2) 1 1)).setTag (some "d")], []⟩ = some (.ok r) := by
  refine ⟨6, C22_coaxial_ends_partial (fun l => List.Perm.refl _) ?_ ?_ (by decide)⟩
  · constructor
    · simp
    · simp
    · simp
    · simp
    · simp
    · simp [BrgEl.setTag, BrgEl.tag, BrgEl.base]
    · simp
    · simp [Spec.CoAxial.elements, Elm.tag, BrgEl.setTag, BrgEl.tag, BrgEl.base]
    · simp
    · simp
    · simp [BrgEl.setTag]
    · simp [BrgEl.setTag, BrgEl.isSeal]
    · simp
    · intro e he n hn
      left
      refine ⟨_, List.mem_cons_of_mem _ List.mem_cons_self, _, List.mem_cons_self, 2, rfl, ?_⟩
      simp [Spec.CoAxial.elements] at he
      rcases he with rfl | rfl | rfl | rfl <;>
        simp [Elm.n, BrgEl.setTag, BrgEl.n, BrgEl.base, exBrg] at hn <;> omega
  · intro e he hs
    simp [Spec.CoAxial.elements] at he
    rcases he with rfl | rfl | rfl | rfl
    · exact absurd trivial hs
    · exact absurd trivial hs
    · refine ⟨0, rfl, .shaft ⟨false, { exShaft with n := some 0, tag := some "a" }⟩, by simp [Spec.CoAxial.elements],
        by simp [Elm.tag, BrgEl.setTag, BrgEl.tag, BrgEl.base], Or.inl rfl⟩
    · refine ⟨1, rfl, .shaft ⟨false, { exShaft with n := some 0, tag := some "a" }⟩, by simp [Spec.CoAxial.elements],
        by simp [Elm.tag, BrgEl.setTag, BrgEl.tag, BrgEl.base], Or.inr ⟨0, rfl, rfl⟩⟩

/-- **C22**, `CoAxialRotor`: with a disk, bearing or point mass on a node that no other element
touches, construction runs forever instead of raising an error. -/
theorem C22_coaxial_diverges (hsort : ∀ l, (sort l).Perm l) (h : Fine a) {e : Elm}
    (he : e ∈ elements a) (hs : ¬ IsShaft e) (hc : ¬ Connected (elements a) e) (fuel : ℕ) :
    CoAxial.init sort num fuel a = none := by
  have hp := parts_fine h
  have hm := fun x : Elm => (elements_fine h hp).mem_iff (a := x)
  have he' := (hm e).2 he
  refine (init_fine h hp sort num fuel).1 (loop_forever he' (fun x hx ht => same_of_tag h hp hx he' ht)
    fuel _ _ _ (fun x hx => hx) (fun hh => hc ((hit_connected h hp hsort num e).1 hh))
    (mem_unassigned he' hs))

/-- **C22** is false for `CoAxialRotor`: construction does not end for every description whose
arguments pass all of its checks. -/
theorem C22_coaxial_false : ¬ ∀ (sort : List CoAxial.Row → List CoAxial.Row) (num : ShaftEl → ℕ)
    (a : CoAxial.Args), (∀ l, (sort l).Perm l) → Fine a → ∃ fuel, CoAxial.init sort num fuel a ≠ none := by
  intro hall
  let b (n : ℕ) (link : Option ℕ) (t : String) : BrgEl :=
    (BrgEl.brg false (exBrg n link 1 1)).setTag (some t)
  let s (n : ℕ) (t : String) : ShaftEl := ⟨false, { exShaft with n := some n, tag := some t }⟩
  -- a point mass on node 4 with nothing on it
  let a : CoAxial.Args := ⟨[[s 0 "a"], [s 2 "b"]], [], [b 0 none "c", b 1 (some 2) "d"],
    [.pm ⟨some 4, some 10, 10, 10, some "e", ""⟩]⟩
  have hels : elements a = [.shaft (s 0 "a"), .shaft (s 2 "b"), .brg (b 0 none "c"),
    .brg (b 1 (some 2) "d"), .pm (.pm ⟨some 4, some 10, 10, 10, some "e", ""⟩)] := rfl
  have hfine : Fine a := by
    constructor
    · simp [a]
    · simp [a]
    · simp [a, s]
    · simp [a, s]
    · simp [a]
    · simp [a, b, BrgEl.setTag, BrgEl.tag, BrgEl.base]
    · simp [a, PmEl.tag]
    · rw [hels]; simp [Elm.tag, s, b, PmEl.tag, BrgEl.setTag, BrgEl.tag, BrgEl.base]
    · simp [a, s]
    · simp [a]
    · simp [a, b, BrgEl.setTag]
    · simp [a, b, BrgEl.setTag, BrgEl.isSeal]
    · simp [a, PmEl.n]
    · intro e he n hn
      rw [hels] at he
      refine Or.inr ⟨_, List.mem_cons_self, 4, rfl, ?_⟩
      simp only [List.mem_cons, List.not_mem_nil, or_false] at he
      rcases he with rfl | rfl | rfl | rfl | rfl <;>
        simp [Elm.n, s, b, PmEl.n, BrgEl.setTag, BrgEl.n, BrgEl.base, exBrg] at hn <;> omega
  obtain ⟨fuel, hf⟩ := hall id (fun _ => 0) a (fun l => List.Perm.refl _) hfine
  refine hf (C22_coaxial_diverges (fun l => List.Perm.refl _) hfine
    (e := .pm (.pm ⟨some 4, some 10, 10, 10, some "e", ""⟩)) (by rw [hels]; simp) id ?_ fuel)
  rintro ⟨n, hn, x, hx, ht, htouch⟩
  have hn : 4 = n := by simpa [Elm.n, PmEl.n] using hn
  subst hn
  rw [hels] at hx
  simp only [List.mem_cons, List.not_mem_nil, or_false] at hx
  rcases hx with rfl | rfl | rfl | rfl | rfl
  · simp [touches, s] at htouch
  · simp [touches, s] at htouch
  · simp [touches, b, BrgEl.setTag, BrgEl.n, BrgEl.n_link, BrgEl.base, exBrg] at htouch
  · simp [touches, b, BrgEl.setTag, BrgEl.n, BrgEl.n_link, BrgEl.base, exBrg] at htouch
  · exact ht rfl

end Ross.Props
