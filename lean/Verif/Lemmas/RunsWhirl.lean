import Verif.Lemmas.RunsOne

/-! # The whirl of the modes found by the example solver -/

namespace Ross.RunLemmas

open Ross Rotor Ross.Spec

/-- The first element that passes a test. -/
theorem filter_first {α : Type} {p : α → Bool} : ∀ {l : List α} {x : α}, (l.filter p)[0]? = some x →
    ∃ k : ℕ, l[k]? = some x ∧ p x = true ∧ ∀ (j : ℕ) y, j < k → l[j]? = some y → p y = false
  | [], x, h => by cases h
  | a :: t, x, h => by
    by_cases ha : p a = true
    · rw [List.filter_cons_of_pos ha] at h
      obtain rfl := Option.some.inj h
      exact ⟨0, rfl, ha, fun j y hj => absurd hj (Nat.not_lt_zero _)⟩
    · rw [List.filter_cons_of_neg ha] at h
      obtain ⟨k, h1, h2, h3⟩ := filter_first h
      refine ⟨k + 1, h1, h2, fun j y hj hy => ?_⟩
      cases j with
      | zero =>
        obtain rfl := Option.some.inj hy
        simpa using ha
      | succ j => exact h3 j y (by omega) hy

/-- A shape with equal displacements has straight orbits and counts as forward. -/
theorem ones_forward {la : Lapack} {n N : ℕ} {pos L : List ℝ} {s : Shape}
    (h : Shape.init la (List.ofFn fun _ : Fin n => (1 : ℂ)) (List.range N) pos L 4 true = .ok s) (hp : pos.length = N) :
    ModalResults.whirl (ModalResults.kappa_mode s) = .forward := by
  obtain ⟨k, p, hk, hpp, -, hmax, he⟩ := Props.C60_normalized h
  have hp1 : p = 1 := by
    rw [List.getElem?_ofFn] at hpp
    split_ifs at hpp
    exact (Option.some.inj hpp).symm
  have hone : ∀ (i : ℕ) x, s.evec[i]? = some x → x = 1 := by
    intro i x hx
    rw [he, List.getElem?_map, List.getElem?_ofFn] at hx
    split_ifs at hx
    · rw [hp1] at hx
      simpa using hx.symm
    · cases hx
  obtain ⟨hl, ho⟩ := Props.C62_orbits h hp
  unfold ModalResults.whirl
  rw [if_pos]
  unfold ModalResults.kappa_mode
  rw [List.forall_mem_map]
  intro o hm
  obtain ⟨i, hi⟩ := List.mem_iff_getElem?.1 hm
  obtain ⟨hlt, -⟩ := List.getElem?_eq_some_iff.1 hi
  obtain ⟨ru, rv, z, h1, h2, -, h3⟩ := ho i (by omega)
  rw [hi] at h3
  obtain rfl := Option.some.inj h3
  obtain rfl := hone _ _ h1
  obtain rfl := hone _ _ h2
  have hd : Orbit.phaseDiff (Complex.arg 1) (Complex.arg 1) = 0 := by
    unfold Orbit.phaseDiff
    have := Real.pi_pos
    simp [Complex.arg_one, not_lt.2 this.le]
  have h0 : (Orbit.init la i z 1 1).kappa = 0 := by
    show (if _ ∨ _ then _ else _ : ℂ).re = 0
    rw [if_pos (Or.inl hd)]
    rfl
  rw [h0]
  norm_num

theorem eigen_onePair {la : Lapack} (hla : la = onePair) {r : Rotor} {s : ℝ} {n : ℕ} {A} (hA : r.A s = .ok A) :
    r.eigen la s n none true true false = .ok [(100 * Complex.I, fun _ => 1), (-(100 * Complex.I), fun _ => 1)] := by
  unfold eigen
  rw [hA, hla]
  show sorted _ = _
  simp only [onePair, Bool.false_eq_true, if_false, if_true]
  rw [← sorted_onePair]
  congr 1
  rw [List.filter_eq_self]
  intro p hp
  simp only [List.mem_cons, List.not_mem_nil, or_false] at hp
  rcases hp with rfl | rfl <;> norm_num

/-- The modal analysis with this solver finds forward modes. -/
theorem modes_forward {env : RunEnv} (hla : env.la = onePair) {r : Rotor} {s : ℝ} {n N : ℕ} (hA : ∃ A, r.A s = .ok A)
    (h4 : r.number_dof = 4) (hp : r.nodes_pos.length = N) {m : Modes}
    (h : r.modes env s n = .ok m) : ∀ c ∈ m.whirl, c = .forward := by
  unfold modes at h
  obtain ⟨M, h1, h⟩ := bindOk h
  obtain ⟨l, h2, h⟩ := bindOk h
  obtain rfl := Except.ok.inj h
  intro c hc
  unfold ModalResults.whirl_direction at hc
  obtain ⟨sh, hsh, rfl⟩ := List.mem_map.1 hc
  have hv : ∀ (i : ℕ) v, M.evectors[i]? = some v → v = fun _ => 1 := by
    intro i v hi
    unfold run_modal at h1
    obtain ⟨ev, h3, h1⟩ := bindOk h1
    obtain rfl := Except.ok.inj h1
    have hmem := List.mem_of_getElem? hi
    obtain ⟨q, hq, rfl⟩ := List.mem_map.1 hmem
    obtain ⟨A, hA⟩ := hA
    rw [eigen_onePair hla hA] at h3
    obtain rfl := Except.ok.inj h3
    simp only [List.mem_cons, List.not_mem_nil, or_false] at hq
    rcases hq with rfl | rfl <;> rfl
  unfold ModalResults.shapes at h2
  obtain ⟨i, hi⟩ := List.mem_iff_getElem?.1 hsh
  obtain ⟨hlt, -⟩ := List.getElem?_eq_some_iff.1 hi
  have hlen := (mapM_get h2).1
  rw [List.length_range] at hlen
  have hf := (mapM_get h2).2 i i _ (List.getElem?_range (by omega)) hi
  cases hm : M.evectors[i]? with
  | none => rw [hm] at hf; cases hf
  | some v =>
    rw [hm] at hf
    obtain rfl := hv i v hm
    rw [h4] at hf
    exact ones_forward hf rfl

end Ross.RunLemmas
