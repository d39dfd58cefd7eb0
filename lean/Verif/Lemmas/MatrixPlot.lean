import Verif.Spec.MatrixPlot
import Verif.Props.Assembly

/-! # Lemmas about the heat map of a global matrix -/

namespace Ross.MatrixPlotLemmas

open Ross Ross.Spec Ross.RotorLemmas Ross.Rotor Ross.AssemblyLemmas Ross.MatrixPlot Matrix

variable {pd : Pandas} {fuel : ℕ} {a : RotorArgs} {r : Rotor}

/-! ### The list of dofs -/

theorem setAll (kvs : List (DofKey × ℕ)) (l : List (Option DofKey)) :
    (kvs.foldl (fun l kv => l.set kv.2 (some kv.1)) l).length = l.length ∧
    ∀ i, i < l.length →
      ((kvs.foldl (fun l kv => l.set kv.2 (some kv.1)) l)[i]? = l[i]? ∧ ∀ k, (k, i) ∉ kvs) ∨
      ∃ k, (k, i) ∈ kvs ∧ (kvs.foldl (fun l kv => l.set kv.2 (some kv.1)) l)[i]? = some (some k) := by
  induction kvs generalizing l with
  | nil => exact ⟨rfl, fun i _ => Or.inl ⟨rfl, by simp⟩⟩
  | cons kv t ih =>
    obtain ⟨h1, h2⟩ := ih (l.set kv.2 (some kv.1))
    simp only [List.length_set] at h1 h2
    refine ⟨h1, fun i hi => ?_⟩
    rcases h2 i hi with ⟨h3, h4⟩ | ⟨k, h3, h4⟩
    · by_cases he : kv.2 = i
      · refine Or.inr ⟨kv.1, ?_, ?_⟩
        · rw [← he]; exact List.mem_cons_self
        · rw [List.foldl_cons, h3, List.getElem?_set, if_pos he, if_pos (by omega)]
      · refine Or.inl ⟨?_, fun k hk => ?_⟩
        · rw [List.foldl_cons, h3, List.getElem?_set, if_neg he]
        · rcases List.mem_cons.1 hk with hk | hk
          · exact he (by rw [← hk])
          · exact h4 k hk
    · exact Or.inr ⟨k, List.mem_cons_of_mem _ h3, h4⟩

theorem dofList_eq (r : Rotor) : dofList r =
    (r.placed.flatMap fun x => x.2).foldl (fun l kv => l.set kv.2 (some kv.1))
      (List.replicate r.ndof none) := by
  unfold dofList
  rw [List.foldl_flatMap]

theorem dofList_length (r : Rotor) : (dofList r).length = r.ndof := by
  rw [dofList_eq, (setAll _ _).1, List.length_replicate]

/-- An entry of the list is a key that some element has with that index, or no element has the index. -/
theorem dofList_get (r : Rotor) {i : ℕ} (hi : i < r.ndof) :
    ((dofList r)[i]? = some none ∧ ∀ x ∈ r.placed, ∀ k, (k, i) ∉ x.2) ∨
    ∃ x ∈ r.placed, ∃ k, (k, i) ∈ x.2 ∧ (dofList r)[i]? = some (some k) := by
  rw [dofList_eq]
  rcases (setAll (r.placed.flatMap fun x => x.2) (List.replicate r.ndof none)).2 i (by simpa using hi)
    with ⟨h1, h2⟩ | ⟨k, h1, h2⟩
  · refine Or.inl ⟨by rw [h1, List.getElem?_replicate, if_pos hi], fun x hx k hk => h2 k ?_⟩
    exact List.mem_flatMap.2 ⟨x, hx, hk⟩
  · obtain ⟨x, hx, hk⟩ := List.mem_flatMap.1 h1
    exact Or.inr ⟨x, hx, k, hk, h2⟩

theorem text_ok {k : DofKey} : text (some k) = .ok (shownAs k) := by
  obtain ⟨l, n⟩ := k
  unfold text shownAs
  by_cases h1 : l = "alpha"
  · subst h1; rfl
  · by_cases h2 : l = "beta"
    · subst h2; rfl
    · simp only [if_neg h1, if_neg h2]

/-! ### The pairs of local and global indices -/

theorem mapping_range (h : init pd fuel a = some (.ok r)) {e : Elm} (he : e ∈ r.elements) (n : ℕ) :
    e.dofMapping.values = List.range (ownDofs r.number_dof e n).length := by
  have hb := init_ok h
  have hnd := nd_cases hb
  obtain ⟨-, -, hs, hd, hbr⟩ := check_ok hb.dof
  rcases (mem_elements hb e).1 he with ⟨⟨six, s⟩, hm, rfl⟩ | ⟨⟨six, s⟩, hm, rfl⟩ | ⟨b, hm, rfl⟩ |
    ⟨p, hm, rfl⟩
  · have := hs _ hm
    simp only at this
    rcases hnd with h4 | h4 <;> rw [h4] at this ⊢ <;> simp at this <;> subst this <;> rfl
  · have := hd _ hm
    simp only at this
    rcases hnd with h4 | h4 <;> rw [h4] at this ⊢ <;> simp at this <;> subst this <;> rfl
  · have := hbr _ hm
    cases b with
    | brg sl b => simp only at this; rw [this]; rfl
    | brg6 b => simp only at this; rw [this]; rfl
  · cases p <;> rfl

theorem own_prefix (nd : ℕ) (e : Elm) (n : ℕ) : ∃ rest, attach nd e n = ownDofs nd e n ++ rest := by
  rcases e with s | s | b | p
  · exact ⟨[], by simp [ownDofs]⟩
  · exact ⟨[], by simp [ownDofs]⟩
  · cases hl : b.n_link with
    | none => exact ⟨[], by simp [ownDofs, attach, hl]⟩
    | some k =>
      by_cases hk : k = n
      · exact ⟨[], by simp [ownDofs, attach, hl, hk]⟩
      · exact ⟨dofsAt (supportLetters nd) k, by simp [ownDofs, attach, hl, hk]⟩
  · exact ⟨[], by simp [ownDofs]⟩

theorem pairs_eq (h : init pd fuel a = some (.ok r)) {x : Elm × Dict DofKey ℕ} (hx : x ∈ r.placed)
    (hf : Fits r.number_dof x.1) : ∃ n, x.1.n = some n ∧
    pairs x = (List.range (ownDofs r.number_dof x.1 n).length).zip
      ((ownDofs r.number_dof x.1 n).map (slot r.number_dof (shaftEnd r))) := by
  obtain ⟨n, hn, hg⟩ := Props.C17_index h (e := x.1) (g := x.2) hx hf
  refine ⟨n, hn, ?_⟩
  obtain ⟨rest, hr⟩ := own_prefix r.number_dof x.1 n
  unfold pairs
  rw [mapping_range h (placed_mem (init_ok h) hx) n, hg, Dict.values, List.map_map, hr, List.map_append]
  conv_lhs => rw [← List.append_nil (List.range _)]
  rw [List.zip_append (by simp), List.zip_nil_left, List.append_nil]
  rfl

theorem mem_pairs (h : init pd fuel a = some (.ok r)) {x : Elm × Dict DofKey ℕ} (hx : x ∈ r.placed)
    (hf : Fits r.number_dof x.1) {n : ℕ} (hn : x.1.n = some n) {z : ℕ × ℕ} :
    z ∈ pairs x ↔ ∃ k, (ownDofs r.number_dof x.1 n)[z.1]? = some k ∧
      z.2 = slot r.number_dof (shaftEnd r) k := by
  obtain ⟨m, hm, hp⟩ := pairs_eq h hx hf
  obtain rfl : m = n := Option.some.inj (hm.symm.trans hn)
  rw [hp, List.mem_iff_getElem?]
  constructor
  · rintro ⟨p, hp⟩
    rw [List.getElem?_zip_eq_some] at hp
    obtain ⟨h1, h2⟩ := hp
    rw [List.getElem?_map] at h2
    obtain ⟨k, hk, hk'⟩ := Option.map_eq_some_iff.1 h2
    have hlt : p < (ownDofs r.number_dof x.1 m).length := (List.getElem?_eq_some_iff.1 hk).1
    rw [List.getElem?_range hlt, Option.some.injEq] at h1
    exact ⟨k, by rw [← h1]; exact hk, hk'.symm⟩
  · rintro ⟨k, h1, h2⟩
    have hlt := (List.getElem?_eq_some_iff.1 h1).1
    refine ⟨z.1, List.getElem?_zip_eq_some.2 ⟨List.getElem?_range hlt, ?_⟩⟩
    rw [List.getElem?_map, h1, h2]
    rfl

theorem mem_listed (h : init pd fuel a = some (.ok r)) {x : Elm × Dict DofKey ℕ} (hx : x ∈ r.placed)
    (hf : Fits r.number_dof x.1) {mat : Elm → Res LMat} {i j : ℕ} {e : Elm} {v : ℝ} :
    (e, v) ∈ listed mat x i j ↔ e = x.1 ∧ v ≠ 0 ∧ ∃ n E p q k l, e.n = some n ∧ mat e = .ok E ∧
      (ownDofs r.number_dof e n)[p]? = some k ∧ slot r.number_dof (shaftEnd r) k = i ∧
      (ownDofs r.number_dof e n)[q]? = some l ∧ slot r.number_dof (shaftEnd r) l = j ∧
      v = E.ent p q := by
  unfold listed
  obtain ⟨n, hn, -⟩ := pairs_eq h hx hf
  cases hm : mat x.1 with
  | error er =>
    simp only [List.not_mem_nil, false_iff]
    rintro ⟨rfl, -, n, E, p, q, k, l, -, h2, -⟩
    rw [hm] at h2; cases h2
  | ok E =>
    simp only [List.mem_flatMap]
    constructor
    · rintro ⟨s, hs, t, ht, hmem⟩
      split_ifs at hmem with hc
      · rw [List.mem_singleton] at hmem
        obtain ⟨rfl, rfl⟩ := Prod.mk.inj hmem
        obtain ⟨k, k1, k2⟩ := (mem_pairs h hx hf hn).1 hs
        obtain ⟨l, l1, l2⟩ := (mem_pairs h hx hf hn).1 ht
        exact ⟨rfl, hc.2.2, n, E, s.1, t.1, k, l, hn, hm, k1, by rw [← k2, hc.1], l1,
          by rw [← l2, hc.2.1], rfl⟩
      · cases hmem
    · rintro ⟨rfl, hv, m, E', p, q, k, l, hm', hE', h1, h2, h3, h4, rfl⟩
      obtain rfl : m = n := Option.some.inj (hm'.symm.trans hn)
      obtain rfl : E = E' := Except.ok.inj (hm.symm.trans hE')
      refine ⟨(p, i), (mem_pairs h hx hf hn).2 ⟨k, h1, h2.symm⟩, (q, j),
        (mem_pairs h hx hf hn).2 ⟨l, h3, h4.symm⟩, ?_⟩
      rw [if_pos ⟨rfl, rfl, hv⟩]
      exact List.mem_singleton.2 rfl

theorem mem_contributions (h : init pd fuel a = some (.ok r))
    (hf : ∀ e ∈ r.elements, Fits r.number_dof e) {mat : Elm → Res LMat} {i j : ℕ} {e : Elm} {v : ℝ} :
    (e, v) ∈ contributions r mat i j ↔ e ∈ r.elements ∧ v ≠ 0 ∧ ∃ n E p q k l, e.n = some n ∧
      mat e = .ok E ∧
      (ownDofs r.number_dof e n)[p]? = some k ∧ slot r.number_dof (shaftEnd r) k = i ∧
      (ownDofs r.number_dof e n)[q]? = some l ∧ slot r.number_dof (shaftEnd r) l = j ∧
      v = E.ent p q := by
  unfold contributions
  rw [List.mem_flatMap]
  constructor
  · rintro ⟨x, hx, hm⟩
    have he := placed_mem (init_ok h) hx
    obtain ⟨rfl, h2⟩ := (mem_listed h hx (hf _ he)).1 hm
    exact ⟨he, h2⟩
  · rintro ⟨he, h2⟩
    obtain ⟨x, hx, rfl⟩ := List.mem_map.1 he
    exact ⟨x, hx, (mem_listed h hx (hf _ he)).2 ⟨rfl, h2⟩⟩

/-! ### Sums -/

theorem sum_flatMap {α : Type*} (l : List α) (f : α → List (Elm × ℝ)) :
    ((l.flatMap f).map Prod.snd).sum = (l.map fun x => ((f x).map Prod.snd).sum).sum := by
  induction l with
  | nil => rfl
  | cons x t ih => simp [ih]

/-- The vector with 1 at `i`. -/
noncomputable def unit (i : ℕ) (k : ℕ) : ℝ := if k = i then 1 else 0

theorem bilin_unit {N : ℕ} (A : Matrix (Fin N) (Fin N) ℝ) (i j : Fin N) :
    bilin A (unit i) (unit j) = A i j := by
  unfold bilin unit
  rw [Finset.sum_eq_single i, Finset.sum_eq_single j]
  · simp
  · intro b _ hb
    rw [if_neg (fun h => hb (Fin.ext h)), mul_zero]
  · simp
  · intro b _ hb
    refine Finset.sum_eq_zero fun c _ => ?_
    rw [if_neg (fun h => hb (Fin.ext h)), zero_mul, zero_mul]
  · simp

theorem zip_range_ofFn (ds : List ℕ) :
    (List.range ds.length).zip ds = List.ofFn fun p : Fin ds.length => (p.val, ds.getD p 0) := by
  refine List.ext_getElem (by simp) fun p h1 h2 => ?_
  have hp : p < ds.length := by simpa using h2
  simp [List.getD_eq_getElem?_getD, List.getElem?_eq_getElem hp]

theorem sum_listed {x : Elm × Dict DofKey ℕ} {mat : Elm → Res LMat} {E : LMat} (hE : mat x.1 = .ok E)
    (hp : pairs x = (List.range x.2.values.length).zip x.2.values) (hk : E.1 = x.2.values.length)
    (i j : ℕ) :
    ((listed mat x i j).map Prod.snd).sum = elemBilin x.2.values E.2 (unit i) (unit j) := by
  obtain ⟨k, A⟩ := E
  simp only at hk
  subst hk
  unfold listed
  rw [hE]
  simp only
  rw [hp, zip_range_ofFn, sum_flatMap]
  simp only [sum_flatMap, List.map_ofFn, List.sum_ofFn, elemBilin, Function.comp]
  refine Finset.sum_congr rfl fun p _ => Finset.sum_congr rfl fun q _ => ?_
  have he : LMat.ent ⟨x.2.values.length, A⟩ p q = A p q := by
    unfold LMat.ent
    rw [dif_pos ⟨p.isLt, q.isLt⟩]
  unfold unit
  rw [he]
  generalize x.2.values.getD p 0 = s
  generalize x.2.values.getD q 0 = t
  by_cases h1 : s = i
  · by_cases h2 : t = j
    · by_cases h3 : A p q = 0
      · simp [h3]
      · simp [h1, h2, h3]
    · simp [h2]
  · simp [h1]

end Ross.MatrixPlotLemmas
