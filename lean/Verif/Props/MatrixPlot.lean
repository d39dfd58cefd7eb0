import Verif.Lemmas.MatrixPlot
import Verif.Lemmas.Shape
import Verif.Lemmas.RunsOne
import Verif.Lemmas.ExAssembly

/-! # C123: the heat map of a global matrix -/

namespace Ross.MatrixPlotLemmas

open Ross Ross.Spec Ross.RotorLemmas Ross.Rotor Ross.AssemblyLemmas Ross.BearingLemmas Ross.MatrixPlot Matrix

variable {pd : Pandas} {fuel : ℕ} {a : RotorArgs} {r : Rotor} {w : Name} {ω : ℝ} {F : HeatMap}

theorem elem_eq (w : Name) (ω : ℝ) : elemMatrix w ω = elementMatrix w ω := by
  funext e; cases w <;> rfl

theorem rotor_eq (r : Rotor) (w : Name) (ω : ℝ) :
    assemble r.ndof (elemMatrix w ω) r.placed = rotorMatrix r w ω := by
  have hk : r.keep [] = r.placed := by simp [keep]
  cases w with
  | M =>
    have hmat : Elm.Msync ω false = Elm.M ω := by funext e; simp [Elm.Msync]
    simp only [rotorMatrix, Rotor.M, Option.getD_some, hmat]
    rfl
  | K => simp only [rotorMatrix, Rotor.K, hk]; rfl
  | C => simp only [rotorMatrix, Rotor.C, hk]; rfl
  | G => rfl

/-- All the cells. -/
noncomputable def table (r : Rotor) (w : Name) (ω : ℝ) : List (List (List (Elm × ℝ))) :=
  (List.range r.ndof).map fun i => (List.range r.ndof).map fun j =>
    contributions r (elemMatrix w ω) i j

theorem visualize_ok : visualize r w ω = .ok F ↔ ∃ A dofs, rotorMatrix r w ω = .ok A ∧
    (dofList r).mapM text = .ok dofs ∧ reshapes (table r w ω).flatten = true ∧
    F = ⟨dofs, dofs.reverse, (List.ofFn fun i => List.ofFn fun j => A i j).reverse,
      (table r w ω).reverse⟩ := by
  unfold visualize
  rw [rotor_eq]
  constructor
  · intro hF
    obtain ⟨A, h1, h2⟩ := bind_ok.1 hF
    obtain ⟨d, h3, h4⟩ := bind_ok.1 h2
    change (if reshapes (table r w ω).flatten = true then _ else _) = _ at h4
    by_cases hr : reshapes (table r w ω).flatten = true
    · rw [if_pos hr] at h4
      exact ⟨A, d, h1, h3, hr, (Except.ok.inj h4).symm⟩
    · rw [if_neg hr] at h4
      cases h4
  · rintro ⟨A, d, h1, h3, hr, rfl⟩
    refine bind_ok.2 ⟨A, h1, bind_ok.2 ⟨d, h3, ?_⟩⟩
    change (if reshapes (table r w ω).flatten = true then _ else _) = _
    rw [if_pos hr]
    rfl

/-- In an assembled matrix all indices are in range. -/
theorem in_range (h : init pd fuel a = some (.ok r)) {A : Matrix (Fin r.ndof) (Fin r.ndof) ℝ}
    (hA : rotorMatrix r w ω = .ok A) {x : Elm × Dict DofKey ℕ} (hx : x ∈ r.placed) :
    (∀ d ∈ x.2.values, d < r.ndof) ∧ ∃ E, elemMatrix w ω x.1 = .ok E ∧ E.1 = x.2.values.length := by
  rw [← rotor_eq] at hA
  obtain ⟨Es, h1, h2, h3, -⟩ := assemble_ok (fun x hx => values_nodup (init_ok h) hx) hA
  refine ⟨h2 x hx, ?_⟩
  obtain ⟨p, hp⟩ := List.mem_iff_getElem?.1 hx
  have h4 := congrArg (fun l => l[p]?) h1
  simp only [List.getElem?_map, hp, Option.map_some] at h4
  obtain ⟨E, hE, hE'⟩ := Option.map_eq_some_iff.1 h4.symm
  exact ⟨E, hE'.symm, h3 (x, E) (List.mem_iff_getElem?.2 ⟨p, List.getElem?_zip_eq_some.2 ⟨hp, hE⟩⟩)⟩

/-- A key of an element in range. -/
theorem key_dof (h : init pd fuel a = some (.ok r)) (hf : ∀ e ∈ r.elements, Fits r.number_dof e)
    {x : Elm × Dict DofKey ℕ} (hx : x ∈ r.placed) (hr : ∀ d ∈ x.2.values, d < r.ndof)
    {k : DofKey} {i : ℕ} (hk : (k, i) ∈ x.2) :
    IsDof r.number_dof (shaftEnd r) r.pms.length k ∧ slot r.number_dof (shaftEnd r) k = i := by
  have he := placed_mem (init_ok h) hx
  obtain ⟨n, hn, hg⟩ := Props.C17_index h (e := x.1) (g := x.2) hx (hf _ he)
  have hlt := hr i (List.mem_map.2 ⟨(k, i), hk, rfl⟩)
  rw [hg] at hk
  obtain ⟨k', hk', hkk⟩ := List.mem_map.1 hk
  obtain ⟨rfl, rfl⟩ := Prod.mk.inj hkk
  refine ⟨isDof_of_lt h he (hf _ he) (by rw [hn]; exact hk') hlt, rfl⟩

theorem own_dof (h : init pd fuel a = some (.ok r)) (hf : ∀ e ∈ r.elements, Fits r.number_dof e)
    {A : Matrix (Fin r.ndof) (Fin r.ndof) ℝ} (hA : rotorMatrix r w ω = .ok A)
    {e : Elm} (he : e ∈ r.elements) {n : ℕ} (hn : e.n = some n) {k : DofKey}
    (hk : k ∈ ownDofs r.number_dof e n) : IsDof r.number_dof (shaftEnd r) r.pms.length k := by
  obtain ⟨x, hx, rfl⟩ := List.mem_map.1 he
  obtain ⟨m, hm, hg⟩ := Props.C17_index h (e := x.1) (g := x.2) hx (hf _ he)
  obtain rfl : m = n := Option.some.inj (hm.symm.trans hn)
  obtain ⟨rest, hr⟩ := own_prefix r.number_dof x.1 m
  refine (key_dof h hf hx (in_range h hA hx).1 (i := slot r.number_dof (shaftEnd r) k) ?_).1
  rw [hg]
  exact List.mem_map.2 ⟨k, by rw [hr]; exact List.mem_append_left _ hk, rfl⟩

theorem slot_lt (h : init pd fuel a = some (.ok r)) {k : DofKey}
    (hk : IsDof r.number_dof (shaftEnd r) r.pms.length k) :
    slot r.number_dof (shaftEnd r) k < r.ndof := by
  obtain ⟨hnd, hs⟩ := Props.C17_ndof h
  rw [hs]
  exact (Props.C17_slot_bijective _ _ _ hnd).2.1 k hk

/-- The text at the index of a dof. -/
theorem text_at (h : init pd fuel a = some (.ok r)) (hf : ∀ e ∈ r.elements, Fits r.number_dof e)
    {A : Matrix (Fin r.ndof) (Fin r.ndof) ℝ} (hA : rotorMatrix r w ω = .ok A)
    {dofs : List (String × ℕ)} (hd : (dofList r).mapM text = .ok dofs) {k : DofKey}
    (hk : IsDof r.number_dof (shaftEnd r) r.pms.length k) :
    dofs[slot r.number_dof (shaftEnd r) k]? = some (shownAs k) := by
  have hlt := slot_lt h hk
  have hg := ShapeLemmas.mapM_get hd (slot r.number_dof (shaftEnd r) k)
  rcases dofList_get r hlt with ⟨h1, -⟩ | ⟨x, hx, k', h1, h2⟩
  · rw [h1] at hg
    simp only [Option.map_some, text] at hg
    obtain ⟨y, -, hy⟩ := Option.map_eq_some_iff.1 hg.symm
    cases hy
  · obtain ⟨h3, h4⟩ := key_dof h hf hx (in_range h hA hx).1 h1
    obtain rfl : k' = k := (Props.C17_slot_bijective _ _ _ (Props.C17_ndof h).1).1 _ _ h3 hk h4
    rw [h2] at hg
    simp only [Option.map_some, text_ok] at hg
    obtain ⟨y, hy, hy'⟩ := Option.map_eq_some_iff.1 hg.symm
    rw [hy, ← Except.ok.inj hy']

theorem table_cell {i j : ℕ} (hi : i < r.ndof) (hj : j < r.ndof) :
    cell (table r w ω).reverse i j = some (contributions r (elemMatrix w ω) i j) := by
  simp [cell, table, hi, hj]

end Ross.MatrixPlotLemmas

namespace Ross.Props

open Ross Ross.Spec Ross.RotorLemmas Ross.Rotor Ross.AssemblyLemmas Ross.MatrixPlot
  Ross.MatrixPlotLemmas Matrix

variable {pd : Pandas} {fuel : ℕ} {a : RotorArgs} {r : Rotor} {w : Name} {ω : ℝ} {F : HeatMap}

/-- **C123** when the heat map is drawn, there is the matrix of the rotor with that name at that
frequency; each dof has its place on both axes, named by its letter and node; and the cell in the row of
one dof and the column of another shows the entry of the matrix for the two. -/
theorem C123_cells (h : init pd fuel a = some (.ok r)) (hf : ∀ e ∈ r.elements, Fits r.number_dof e)
    (hF : visualize r w ω = .ok F) : ∃ A, rotorMatrix r w ω = .ok A ∧
    F.x.length = r.ndof ∧ F.y.length = r.ndof ∧
    ∀ k l, IsDof r.number_dof (shaftEnd r) r.pms.length k →
      IsDof r.number_dof (shaftEnd r) r.pms.length l →
      F.x[slot r.number_dof (shaftEnd r) l]? = some (shownAs l) ∧
      F.y.reverse[slot r.number_dof (shaftEnd r) k]? = some (shownAs k) ∧
      ∀ i j : Fin r.ndof, i.val = slot r.number_dof (shaftEnd r) k →
        j.val = slot r.number_dof (shaftEnd r) l → cell F.z i j = some (A i j) := by
  obtain ⟨A, dofs, hA, hd, -, rfl⟩ := visualize_ok.1 hF
  have hl : dofs.length = r.ndof := by
    rw [← ShapeLemmas.mapM_length hd, dofList_length]
  refine ⟨A, hA, hl, by simpa using hl, fun k l hk hl' => ⟨text_at h hf hA hd hl', ?_, ?_⟩⟩
  · simpa using text_at h hf hA hd hk
  · intro i j _ _
    simp [cell]

/-- **C123** two dofs of a rotor are never named alike. -/
theorem C123_labels {nd N m : ℕ} (hnd : nd = 4 ∨ nd = 6) {k l : String × ℕ} (hk : IsDof nd N m k)
    (hl : IsDof nd N m l) (he : shownAs k = shownAs l) : k = l := by
  have hmem : ∀ {q : String × ℕ}, IsDof nd N m q →
      q.1 ∈ ["x", "y", "z", "alpha", "beta", "theta"] := by
    intro q hq
    rcases hq with ⟨-, h⟩ | ⟨-, -, h⟩ <;> rcases hnd with rfl | rfl <;>
      simp [nodeLetters, supportLetters] at h ⊢ <;> tauto
  have h1 := hmem hk
  have h2 := hmem hl
  obtain ⟨k1, k2⟩ := k
  obtain ⟨l1, l2⟩ := l
  simp only [List.mem_cons, List.not_mem_nil, or_false] at h1 h2
  rcases h1 with rfl | rfl | rfl | rfl | rfl | rfl <;>
    rcases h2 with rfl | rfl | rfl | rfl | rfl | rfl <;> simp_all [shownAs]

/-- **C123** the data of a cell: exactly the entries other than zero that the elements have for the two
dofs among the dofs of their own node. -/
theorem C123_listed (h : init pd fuel a = some (.ok r)) (hf : ∀ e ∈ r.elements, Fits r.number_dof e)
    (hF : visualize r w ω = .ok F) {k l : DofKey}
    (hk : IsDof r.number_dof (shaftEnd r) r.pms.length k)
    (hl : IsDof r.number_dof (shaftEnd r) r.pms.length l) :
    ∃ c, cell F.customdata (slot r.number_dof (shaftEnd r) k) (slot r.number_dof (shaftEnd r) l) =
        some c ∧
      ∀ e v, (e, v) ∈ c ↔ e ∈ r.elements ∧ v ≠ 0 ∧ ∃ n E p q, e.n = some n ∧
        elementMatrix w ω e = .ok E ∧ (ownDofs r.number_dof e n)[p]? = some k ∧
        (ownDofs r.number_dof e n)[q]? = some l ∧ v = E.ent p q := by
  obtain ⟨A, dofs, hA, hd, -, rfl⟩ := visualize_ok.1 hF
  refine ⟨_, table_cell (slot_lt h hk) (slot_lt h hl), fun e v => ?_⟩
  rw [mem_contributions h hf, elem_eq]
  have hinj := (C17_slot_bijective r.number_dof (shaftEnd r) r.pms.length (C17_ndof h).1).1
  constructor
  · rintro ⟨he, hv, n, E, p, q, k', l', hn, hE, h1, h2, h3, h4, h5⟩
    obtain rfl := hinj _ _ (own_dof h hf hA he hn (List.mem_of_getElem? h1)) hk h2
    obtain rfl := hinj _ _ (own_dof h hf hA he hn (List.mem_of_getElem? h3)) hl h4
    exact ⟨he, hv, n, E, p, q, hn, hE, h1, h3, h5⟩
  · rintro ⟨he, hv, n, E, p, q, hn, hE, h1, h3, h5⟩
    exact ⟨he, hv, n, E, p, q, k, l, hn, hE, h1, rfl, h3, rfl, h5⟩

/-- **C123 (partial)** in a rotor without linked bearings the values listed for a cell add up to the
value that the cell shows. -/
theorem C123_sum_partial (h : init pd fuel a = some (.ok r))
    (hf : ∀ e ∈ r.elements, Fits r.number_dof e) (hn : ∀ b ∈ r.bearings, b.n_link = none)
    (hF : visualize r w ω = .ok F) {i j : ℕ} (hi : i < r.ndof) (hj : j < r.ndof) :
    ∃ v c, cell F.z i j = some v ∧ cell F.customdata i j = some c ∧ (c.map Prod.snd).sum = v := by
  obtain ⟨A, dofs, hA, hd, -, rfl⟩ := visualize_ok.1 hF
  refine ⟨A ⟨i, hi⟩ ⟨j, hj⟩, _, by simp [cell, hi, hj], table_cell hi hj, ?_⟩
  have hB := hA
  rw [← rotor_eq] at hB
  obtain ⟨Es, h1, h2, h3, h4⟩ := assemble_ok (fun x hx => values_nodup (init_ok h) hx) hB
  rw [← bilin_unit A, h4]
  unfold contributions
  rw [sum_flatMap]
  have hlen : r.placed.length = Es.length := by simpa using congrArg List.length h1
  have hz : r.placed = (r.placed.zip Es).map Prod.fst := (List.map_fst_zip (by omega)).symm
  conv_lhs => rw [hz, List.map_map]
  refine congrArg List.sum (List.map_congr_left fun z hz' => ?_)
  have hx : z.1 ∈ r.placed := (List.of_mem_zip (a := z.1) (b := z.2) hz').1
  have he := placed_mem (init_ok h) hx
  have hE : elemMatrix w ω z.1.1 = .ok z.2 := by
    obtain ⟨p, hp⟩ := List.mem_iff_getElem?.1 hz'
    obtain ⟨hp1, hp2⟩ := List.getElem?_zip_eq_some.1 hp
    have := congrArg (fun l => l[p]?) h1
    simpa [List.getElem?_map, hp1, hp2] using this
  refine sum_listed hE ?_ (h3 z hz') i j
  obtain ⟨n, hn', hp⟩ := pairs_eq h hx (hf _ he)
  obtain ⟨m, hm, hg⟩ := C17_index h (e := z.1.1) (g := z.1.2) hx (hf _ he)
  obtain rfl : m = n := Option.some.inj (hm.symm.trans hn')
  have ho : ownDofs r.number_dof z.1.1 m = attach r.number_dof z.1.1 m := by
    rcases (mem_elements (init_ok h) _).1 he with ⟨s, -, e⟩ | ⟨s, -, e⟩ | ⟨b, hb, e⟩ | ⟨p, -, e⟩
    · rw [e]; rfl
    · rw [e]; rfl
    · rw [e]; simp [ownDofs, attach, hn b hb]
    · rw [e]; rfl
  have hv : z.1.2.values = (attach r.number_dof z.1.1 m).map (slot r.number_dof (shaftEnd r)) := by
    rw [hg, Dict.values, List.map_map]; rfl
  rw [hp, ho, hv, List.length_map]

/-- **C123** there is no heat map of a matrix to which no element contributes, such as the damping of a
rotor without damping: the lists of contributions are all empty and have no shape of the matrix. -/
theorem C123_zero (hN : 0 < r.ndof)
    (hz : ∀ e ∈ r.elements, ∀ E, elementMatrix w ω e = .ok E → ∀ p q, E.ent p q = 0) :
    visualize r w ω ≠ .ok F := by
  intro hF
  obtain ⟨A, dofs, hA, hd, hr, rfl⟩ := visualize_ok.1 hF
  have hc : ∀ i j, contributions r (elemMatrix w ω) i j = [] := by
    intro i j
    unfold contributions
    rw [List.flatMap_eq_nil_iff]
    intro x hx
    unfold listed
    cases hm : elemMatrix w ω x.1 with
    | error e => rfl
    | ok E =>
      have := hz x.1 (List.mem_map.2 ⟨x, hx, rfl⟩) E (by rw [← elem_eq]; exact hm)
      simp [this]
  have hall : ∀ c ∈ (table r w ω).flatten, c = [] := by
    intro c hc'
    obtain ⟨row, h1, h2⟩ := List.mem_flatten.1 hc'
    obtain ⟨i, -, rfl⟩ := List.mem_map.1 h1
    obtain ⟨j, -, rfl⟩ := List.mem_map.1 h2
    exact hc i j
  have hne : (table r w ω).flatten ≠ [] := by
    intro he
    have : contributions r (elemMatrix w ω) 0 0 ∈ (table r w ω).flatten :=
      List.mem_flatten.2 ⟨_, List.mem_map.2 ⟨0, List.mem_range.2 hN, rfl⟩,
        List.mem_map.2 ⟨0, List.mem_range.2 hN, rfl⟩⟩
    rw [he] at this
    cases this
  unfold reshapes at hr
  split at hr
  · rename_i he; exact hne he
  · rename_i c t he
    have h1 := hall c (by rw [he]; exact List.mem_cons_self)
    have h2 : ∀ d ∈ t, d = [] := fun d hd => hall d (by rw [he]; exact List.mem_cons_of_mem _ hd)
    subst h1
    have h3 : (t.any fun d => decide (d.length ≠ ([] : List (Elm × ℝ)).length)) = false := by
      rw [List.any_eq_false]
      intro d hd
      rw [h2 d hd]
      simp
    rw [h3] at hr
    simp at hr

/-- **C123** the heat map is drawn when the matrix exists, every dof belongs to an element, the shaft has
two elements or more and some element has an entry other than zero among the dofs of its own node. -/
theorem C123_accepts (h : init pd fuel a = some (.ok r)) (hf : ∀ e ∈ r.elements, Fits r.number_dof e)
    {A : Matrix (Fin r.ndof) (Fin r.ndof) ℝ} (hA : rotorMatrix r w ω = .ok A)
    (hsh : ∀ k, k < shaftEnd r → ∃ e ∈ r.shaft, e.s.n = some k)
    (hpm : ∀ k, shaftEnd r < k → k ≤ shaftEnd r + r.pms.length →
      ∃ p ∈ r.pms, p.n = some k ∧ PmFull r.number_dof p)
    (h2 : 2 ≤ shaftEnd r)
    (he : ∃ e ∈ r.elements, ∃ n E p q k l, e.n = some n ∧ elementMatrix w ω e = .ok E ∧
      (ownDofs r.number_dof e n)[p]? = some k ∧ (ownDofs r.number_dof e n)[q]? = some l ∧
      E.ent p q ≠ 0) : ∃ F, visualize r w ω = .ok F := by
  obtain ⟨dofs, hd⟩ : ∃ dofs, (dofList r).mapM text = .ok dofs := by
    refine RunLemmas.mapM_total fun o ho => ?_
    obtain ⟨i, hi⟩ := List.mem_iff_getElem?.1 ho
    have hlt : i < r.ndof := by
      rw [← dofList_length]; exact (List.getElem?_eq_some_iff.1 hi).1
    rcases dofList_get r hlt with ⟨-, h3⟩ | ⟨x, -, k, -, h3⟩
    · obtain ⟨e, g, key, h4, h5⟩ := C17_cover_partial h hsh hpm hlt
      exact absurd h5 (h3 (e, g) h4 key)
    · obtain rfl : o = some k := Option.some.inj (hi.symm.trans h3)
      exact ⟨_, text_ok⟩
  refine ⟨_, visualize_ok.2 ⟨A, dofs, hA, hd, ?_, rfl⟩⟩
  obtain ⟨e, hem, n, E, p, q, k, l, hn, hE, hk, hl, hv⟩ := he
  have hmem : ∀ {i j : ℕ}, i < r.ndof → j < r.ndof →
      contributions r (elemMatrix w ω) i j ∈ (table r w ω).flatten := fun hi hj =>
    List.mem_flatten.2 ⟨_, List.mem_map.2 ⟨_, List.mem_range.2 hi, rfl⟩,
      List.mem_map.2 ⟨_, List.mem_range.2 hj, rfl⟩⟩
  -- a cell with a contribution
  have d1 := own_dof h hf hA hem hn (List.mem_of_getElem? hk)
  have d2 := own_dof h hf hA hem hn (List.mem_of_getElem? hl)
  have c1 : contributions r (elemMatrix w ω) (slot r.number_dof (shaftEnd r) k)
      (slot r.number_dof (shaftEnd r) l) ≠ [] := by
    intro hc
    have : (e, E.ent p q) ∈ contributions r (elemMatrix w ω) (slot r.number_dof (shaftEnd r) k)
        (slot r.number_dof (shaftEnd r) l) :=
      (mem_contributions h hf).2 ⟨hem, hv, n, E, p, q, k, l, hn, by rw [elem_eq]; exact hE, hk, rfl,
        hl, rfl, rfl⟩
    rw [hc] at this
    cases this
  -- a cell without
  have hx : ("x" : String) ∈ nodeLetters r.number_dof := by
    rcases (C17_ndof h).1 with h4 | h4 <;> rw [h4] <;> simp [nodeLetters]
  have e1 : IsDof r.number_dof (shaftEnd r) r.pms.length ("x", 0) := Or.inl ⟨Nat.zero_le _, hx⟩
  have e2 : IsDof r.number_dof (shaftEnd r) r.pms.length ("x", 2) := Or.inl ⟨h2, hx⟩
  have c2 : contributions r (elemMatrix w ω) (slot r.number_dof (shaftEnd r) ("x", 0))
      (slot r.number_dof (shaftEnd r) ("x", 2)) = [] := by
    rw [List.eq_nil_iff_forall_not_mem]
    rintro ⟨e', v⟩ hev
    obtain ⟨he', -, n, E, p, q, k, l, hn, -, h3, h4, h5, h6, -⟩ := (mem_contributions h hf).1 hev
    have hinj := (C17_slot_bijective r.number_dof (shaftEnd r) r.pms.length (C17_ndof h).1).1
    obtain rfl := hinj _ _ (own_dof h hf hA he' hn (List.mem_of_getElem? h3)) e1 h4
    obtain rfl := hinj _ _ (own_dof h hf hA he' hn (List.mem_of_getElem? h5)) e2 h6
    have m1 := List.mem_of_getElem? h3
    have m2 := List.mem_of_getElem? h5
    rcases e' with s | s | b | (pt | pt) <;> simp [ownDofs, attach, dofsAt] at m1 m2 <;> omega
  have h3 := hmem (slot_lt h d1) (slot_lt h d2)
  have h4 := hmem (slot_lt h e1) (slot_lt h e2)
  unfold reshapes
  split
  · rfl
  · rename_i c t heq
    rw [heq] at h3 h4
    rw [decide_eq_true_iff]
    by_cases hc : c.length = 1
    · exact Or.inl hc
    · refine Or.inr (List.any_eq_true.2 ?_)
      rw [c2] at h4
      by_cases hc0 : c = []
      · rcases List.mem_cons.1 h3 with h5 | h5
        · exact absurd (h5.trans hc0) c1
        · refine ⟨_, h5, ?_⟩
          rw [hc0]
          simpa using c1
      · rcases List.mem_cons.1 h4 with h5 | h5
        · exact absurd h5.symm hc0
        · refine ⟨[], h5, ?_⟩
          simpa using fun h => hc0 (List.length_eq_zero_iff.1 h.symm)

theorem ent_link (m : ℕ) (A : Matrix (Fin 2) (Fin 2) ℝ) :
    (linkMat (some m) A).ent 0 0 = A 0 0 ∧ (linkMat (some m) A).ent 2 2 = A 0 0 := by
  constructor
  · show LMat.ent ⟨2 + 2, _⟩ 0 0 = _
    unfold LMat.ent
    rw [dif_pos ⟨by norm_num, by norm_num⟩]
    rfl
  · show LMat.ent ⟨2 + 2, _⟩ 2 2 = _
    unfold LMat.ent
    rw [dif_pos ⟨by norm_num, by norm_num⟩]
    rfl

/-- What the example rotor has: a bearing at node 0 linked to the support at node 3. -/
theorem exRotor_map : ∃ r F, ExFacts r ∧ visualize r .K 0 = .ok F ∧ ∃ t,
    Elm.brg (.brg false { exBrg 0 (some 3) 1e6 100 with tag := t }) ∈ r.elements := by
  obtain ⟨r, f⟩ := exRotor_facts
  have hb := init_ok f.init
  have hm : Elm.brg ((BrgEl.brg false (exBrg 0 (some 3) 1e6 100)).setTag (some "Bearing 1")) ∈
      r.elements := by
    rw [mem_elements hb, hb.bearings]
    refine Or.inr (Or.inr (Or.inl ⟨_, (parts_br_perm _).mem_iff.2
      (List.mem_cons_of_mem _ List.mem_cons_self), rfl⟩))
  obtain ⟨A, hA⟩ := (C18_assembles_iff f.init f.fits 0).2.1.2 fun e he =>
    ⟨(exFacts_range f e he).1, (exFacts_range f e he).2, (exFacts_matrices f 0 e he).2.1⟩
  obtain ⟨F, hF⟩ := C123_accepts (w := .K) (ω := 0) f.init f.fits (A := A) hA
    (fun k hk => by
      rw [f.stop] at hk
      obtain ⟨e, he, hk'⟩ := (f.full.nodes k).2 hk
      obtain ⟨m, -, t, rfl⟩ := f.shaft e he
      exact ⟨_, he, congrArg some hk'⟩)
    (fun k h1 h2 => by
      rw [f.stop] at h1 h2
      rw [f.one] at h2
      obtain rfl : k = 3 := by omega
      rw [f.pms, f.nd]
      exact ⟨_, List.mem_singleton.2 rfl, rfl, rfl⟩)
    (by rw [f.stop])
    ⟨_, hm, 0, _, 0, 0, ("x", 0), ("x", 0), rfl, rfl, by rw [f.nd]; rfl, by rw [f.nd]; rfl, by
      show LMat.ent (linkMat (some 3) _) 0 0 ≠ 0
      rw [(ent_link 3 _).1]
      norm_num [Matrix.of_apply]⟩
  exact ⟨r, F, f, hF, _, hm⟩

/-- **C123 (negation)** the data of a cell do not list what a linked bearing has at its link node: here
the stiffness of a bearing between shaft and support, at the support. -/
theorem C123_linked_false : ∃ pd fuel a r F, init pd fuel a = some (.ok r) ∧
    (∀ e ∈ r.elements, Fits r.number_dof e) ∧ visualize r .K 0 = .ok F ∧
    ∃ e ∈ r.elements, ∃ n E p q k l, e.n = some n ∧ e.K 0 = .ok E ∧
      (attach r.number_dof e n)[p]? = some k ∧ (attach r.number_dof e n)[q]? = some l ∧
      E.ent p q ≠ 0 ∧ ∃ c, cell F.customdata (slot r.number_dof (shaftEnd r) k)
        (slot r.number_dof (shaftEnd r) l) = some c ∧ ∀ v, (e, v) ∉ c := by
  obtain ⟨r, F, f, hF, t, hm⟩ := exRotor_map
  refine ⟨exPandas, 10, exArgs, r, F, f.init, f.fits, hF, _, hm, 0, _, 2, 2, ("x", 3), ("x", 3), rfl, rfl,
    by rw [f.nd]; rfl, by rw [f.nd]; rfl, ?_, ?_⟩
  · show LMat.ent (linkMat (some 3) _) 2 2 ≠ 0
    rw [(ent_link 3 _).2]
    norm_num [Matrix.of_apply]
  · have hk : IsDof r.number_dof (shaftEnd r) r.pms.length ("x", 3) := by
      rw [f.nd, f.stop, f.one]
      exact Or.inr ⟨by norm_num, by norm_num, by simp [supportLetters]⟩
    obtain ⟨c, h1, h2⟩ := C123_listed f.init f.fits hF hk hk
    refine ⟨c, h1, fun v hv => ?_⟩
    obtain ⟨-, -, n, E, p, q, hn, -, hp, -⟩ := (h2 _ _).1 hv
    obtain rfl : 0 = n := Option.some.inj hn
    have := List.mem_of_getElem? hp
    rw [f.nd] at this
    simp [ownDofs, dofsAt, supportLetters] at this

/-- A rotor without damping and without links: two shaft elements, a disk and two bearings. -/
noncomputable def exArgsU : RotorArgs where
  shaft := [.list [.el ⟨false, { exShaft with n := none, alpha := 0, beta := 0 }⟩,
    .el ⟨false, { exShaft with n := none, alpha := 0, beta := 0 }⟩]]
  disks := [⟨false, ⟨1, 30, 1, 2, some "impeller", 1, ""⟩⟩]
  bearings := [.brg false (exBrg 0 none 1e6 0), .brg false (exBrg 2 none 1e6 0)]
  pms := []
  rated_w := none

theorem exArgsU_wf : WellFormed false 2 exArgsU where
  pos := by norm_num
  nodes := by
    intro k
    show k ∈ [0, 1] ↔ k < 2
    simp; omega
  len := by
    intro e he
    simp [exArgsU, shaftList, Nest.flattenAll, Nest.flatten] at he
    subst he
    norm_num [exShaft]
  shaft_six := by
    intro e he
    simp [exArgsU, shaftList, Nest.flattenAll, Nest.flatten] at he
    subst he; rfl
  disk_six := by intro e he; simp [exArgsU] at he; subst he; rfl
  brg_six := by
    intro e he; simp [exArgsU] at he
    rcases he with rfl | rfl <;> rfl
  disk_on := by intro e he; simp [exArgsU] at he; subst he; norm_num
  brg_nodes := by simp [exArgsU, BrgEl.n, BrgEl.base, exBrg]
  brg_on := by
    intro e he; simp [exArgsU] at he
    rcases he with rfl | rfl <;> left <;> norm_num [BrgEl.n, BrgEl.base, exBrg]
  brg_linked := by
    intro e he h; simp [exArgsU] at he
    rcases he with rfl | rfl <;> norm_num [BrgEl.n, BrgEl.base, exBrg] at h
  brg_order := by
    intro e he c hc h hl; simp [exArgsU] at he
    rcases he with rfl | rfl <;> norm_num [BrgEl.n, BrgEl.base, exBrg] at h
  pm_on := by intro p hp; simp [exArgsU] at hp
  tags := by decide

/-- The elements of that rotor. -/
structure FreeFacts (r : Rotor) : Prop where
  init : Rotor.init exPandas 10 exArgsU = some (.ok r)
  nd : r.number_dof = 4
  stop : shaftEnd r = 2
  pms : r.pms = []
  full : Full r.shaft 2
  shaft : ∀ e ∈ r.shaft, ∃ k < 2, ∃ t, e = ⟨false, { exShaft with n := some k, tag := t, alpha := 0, beta := 0 }⟩
  disks : r.disks = [⟨false, ⟨1, 30, 1, 2, some "impeller", 1, ""⟩⟩]
  brgs : ∀ b ∈ r.bearings, ∃ n ≤ 2, ∃ t, b = .brg false { exBrg n none 1e6 0 with tag := t }

theorem exFree_facts : ∃ r, FreeFacts r := by
  obtain ⟨r, h1, h2, -, h4⟩ := accepts exPandas_sorts exArgsU_wf (fuel := 10) (by simp [exArgsU])
  have hb := init_ok h1
  refine ⟨r, h1, h2, ?_, ?_, h4, ?_, ?_, ?_⟩
  · rw [shaftEnd_eq h1, lastShaftNode_full h4]
  · rw [hb.pms]; rfl
  · intro e he
    rw [hb.shaft] at he
    have := (parts_sh_perm exArgsU).mem_iff.1 he
    simp only [parts, numberShaft, exArgsU, Nest.flattenAll, Nest.flatten, List.append_nil,
      List.cons_append, List.nil_append, List.mapIdx_cons, List.mapIdx_nil, List.mem_cons,
      List.not_mem_nil, or_false] at this
    rcases this with rfl | rfl
    · exact ⟨0, by norm_num, _, rfl⟩
    · exact ⟨1, by norm_num, _, rfl⟩
  · rw [hb.disks]
    simp [parts, tagDisks, exArgsU, defTag]
  · intro b hbm
    rw [hb.bearings] at hbm
    have := (parts_br_perm exArgsU).mem_iff.1 hbm
    simp only [tagBearings, exArgsU, List.mapIdx_cons, List.mapIdx_nil, List.mem_cons,
      List.not_mem_nil, or_false] at this
    rcases this with rfl | rfl
    · exact ⟨0, by norm_num, _, rfl⟩
    · exact ⟨2, by norm_num, _, rfl⟩

theorem free_fits {r : Rotor} (f : FreeFacts r) : ∀ e ∈ r.elements, Fits r.number_dof e := by
  intro e he
  rcases (mem_elements (init_ok f.init) e).1 he with ⟨s, hs, h⟩ | ⟨s, hs, h⟩ | ⟨s, hs, h⟩ | ⟨p, hp, h⟩
  · rw [h]; trivial
  · rw [h]; trivial
  · rw [h]; trivial
  · rw [f.pms] at hp; cases hp

theorem free_range {r : Rotor} (f : FreeFacts r) : ∀ e ∈ r.elements, InRange r e ∧ NotSelfLinked e := by
  intro e he
  unfold InRange
  rw [f.stop, f.pms, f.nd]
  rcases (mem_elements (init_ok f.init) e).1 he with ⟨s, hs, h⟩ | ⟨s, hs, h⟩ | ⟨s, hs, h⟩ | ⟨p, hp, h⟩
  · obtain ⟨k, hk, t, rfl⟩ := f.shaft s hs
    subst h
    refine ⟨fun key hkey => ?_, trivial⟩
    simp [attach, Elm.n, nodeLetters, dofsAt] at hkey
    rcases hkey with h | h | h | h | h | h | h | h <;> subst h <;> simp <;> omega
  · rw [f.disks, List.mem_singleton] at hs
    subst h; subst hs
    refine ⟨fun key hkey => ?_, trivial⟩
    simp [attach, Elm.n, nodeLetters, dofsAt] at hkey
    rcases hkey with h | h | h | h <;> subst h <;> simp
  · obtain ⟨n, hn, t, rfl⟩ := f.brgs s hs
    subst h
    refine ⟨fun key hkey => ?_, ?_⟩
    · simp [attach, Elm.n, supportLetters, dofsAt, exBrg, BrgEl.n_link, BrgEl.n, BrgEl.base] at hkey
      rcases hkey with h | h <;> subst h <;> simp <;> omega
    · simp [NotSelfLinked, exBrg, BrgEl.n_link, BrgEl.n, BrgEl.base]
  · rw [f.pms] at hp; cases hp

theorem free_matrices {r : Rotor} (f : FreeFacts r) (ω : ℝ) : ∀ e ∈ r.elements,
    (∃ E, e.M ω = .ok E) ∧ (∃ E, e.C ω = .ok E) ∧ ∀ E, e.C ω = .ok E → ∀ p q, E.ent p q = 0 := by
  intro e he
  rcases (mem_elements (init_ok f.init) e).1 he with ⟨s, hs, h⟩ | ⟨s, hs, h⟩ | ⟨s, hs, h⟩ | ⟨p, hp, h⟩
  · obtain ⟨k, hk, t, rfl⟩ := f.shaft s hs
    subst h
    refine ⟨⟨_, rfl⟩, ⟨_, rfl⟩, ?_⟩
    intro E hE p q
    cases Except.ok.inj hE
    simp [LMat.ent, ShaftElement.C]
  · rw [f.disks, List.mem_singleton] at hs
    subst h; subst hs
    refine ⟨⟨_, rfl⟩, ⟨_, rfl⟩, ?_⟩
    intro E hE p q
    cases Except.ok.inj hE
    simp [LMat.ent, DiskElement.C]
  · obtain ⟨n, hn, t, rfl⟩ := f.brgs s hs
    subst h
    refine ⟨⟨_, rfl⟩, ⟨_, rfl⟩, ?_⟩
    intro E hE p q
    have : E = ⟨2, !![0 + (0 - 0) * ω, 0 + (0 - 0) * ω; 0 + (0 - 0) * ω, 0 + (0 - 0) * ω]⟩ :=
      (Except.ok.inj hE).symm
    subst this
    unfold LMat.ent
    split_ifs with hpq
    · obtain ⟨h1, h2⟩ := hpq
      simp only at h1 h2
      interval_cases p <;> interval_cases q <;> simp
    · rfl
  · rw [f.pms] at hp; cases hp

/-- **C123 (negation)** the damping matrix of that rotor exists, but its heat map does not. -/
theorem C123_undamped_false : ∃ pd fuel a r, init pd fuel a = some (.ok r) ∧
    (∀ e ∈ r.elements, Fits r.number_dof e) ∧ (∃ A, r.C 0 = .ok A) ∧
    ∀ F, visualize r .C 0 ≠ .ok F := by
  obtain ⟨r, f⟩ := exFree_facts
  refine ⟨exPandas, 10, exArgsU, r, f.init, free_fits f, ?_, fun F => C123_zero ?_ ?_⟩
  · exact (C18_assembles_iff f.init (free_fits f) 0).2.2.1.2 fun e he =>
      ⟨(free_range f e he).1, (free_range f e he).2, (free_matrices f 0 e he).2.1⟩
  · rw [(C17_ndof f.init).2, f.nd, f.stop, f.pms]
    decide
  · exact fun e he => (free_matrices f 0 e he).2.2

/-- The hypotheses of `C123_sum_partial` are met: the mass matrix of the rotor without links is drawn. -/
example : ∃ r F, init exPandas 10 exArgsU = some (.ok r) ∧
    (∀ e ∈ r.elements, Fits r.number_dof e) ∧ (∀ b ∈ r.bearings, b.n_link = none) ∧
    visualize r .M 0 = .ok F := by
  obtain ⟨r, f⟩ := exFree_facts
  obtain ⟨A, hA⟩ := (C18_assembles_iff f.init (free_fits f) 0).1.2 fun e he =>
    ⟨(free_range f e he).1, (free_range f e he).2, (free_matrices f 0 e he).1⟩
  obtain ⟨F, hF⟩ := C123_accepts (w := .M) (ω := 0) f.init (free_fits f) (A := A) hA
    (fun k hk => by
      rw [f.stop] at hk
      obtain ⟨e, he, hk'⟩ := (f.full.nodes k).2 hk
      obtain ⟨m, -, t, rfl⟩ := f.shaft e he
      exact ⟨_, he, congrArg some hk'⟩)
    (fun k h1 h2 => by
      rw [f.stop] at h1 h2
      rw [f.pms, List.length_nil] at h2
      omega)
    (by rw [f.stop])
    ⟨_, (mem_elements (init_ok f.init) _).2 (Or.inr (Or.inl ⟨_, by rw [f.disks]; exact List.mem_cons_self, rfl⟩)),
      1, _, 0, 0, ("x", 1), ("x", 1), rfl, rfl, by rw [f.nd]; rfl, by rw [f.nd]; rfl, by
      simp [LMat.ent, DiskElement.M]⟩
  refine ⟨r, F, f.init, free_fits f, fun b hb => ?_, hF⟩
  obtain ⟨n, -, t, rfl⟩ := f.brgs b hb
  rfl

end Ross.Props
