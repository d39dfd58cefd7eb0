import Verif.Lemmas.Runs
import Verif.Props.Shape
import Verif.Props.Stability

/-! # A secant method, and modal analyses of a small rotor with a given solver -/

namespace Ross.RunLemmas

open Ross Rotor Ross.Spec

/-- Steps of the secant method. -/
noncomputable def secantLoop (f : ℝ → Res ℝ) (rtol : ℝ) : ℕ → ℝ → ℝ → ℝ → ℝ → Res ℝ
  | 0, _, _, _, _ => .error .exception
  | k + 1, p0, q0, p1, q1 =>
    open Classical in
    if q1 = q0 then .error .exception
    else if |(p1 - q1 * (p1 - p0) / (q1 - q0)) - p1| ≤ 1.48e-8 + rtol * |p1| then .ok (p1 - q1 * (p1 - p0) / (q1 - q0))
    else do
      let q ← f (p1 - q1 * (p1 - p0) / (q1 - q0))
      secantLoop f rtol k p1 q1 (p1 - q1 * (p1 - p0) / (q1 - q0)) q

/-- The secant method of scipy. -/
noncomputable def secant (f : ℝ → Res ℝ) (x0 rtol : ℝ) : Res ℝ := do
  let q0 ← f x0
  let q1 ← f (x0 * (1 + 1e-4) + 1e-4)
  secantLoop f rtol 50 x0 q0 (x0 * (1 + 1e-4) + 1e-4) q1

theorem secantLoop_ok {f : ℝ → Res ℝ} {rtol x : ℝ} : ∀ {k p0 q0 p1 q1}, f p0 = .ok q0 → f p1 = .ok q1 →
    secantLoop f rtol k p0 q0 p1 q1 = .ok x → ∃ a b fa fb, f a = .ok fa ∧ f b = .ok fb ∧ fa ≠ fb ∧
      (fb - fa) * (x - b) = -fb * (b - a) ∧ |x - b| ≤ 1.48e-8 + rtol * |b| := by
  intro k
  induction k with
  | zero => intro p0 q0 p1 q1 _ _ h; cases h
  | succ k ih =>
    intro p0 q0 p1 q1 h0 h1 h
    unfold secantLoop at h
    split_ifs at h with c1 c2
    · obtain rfl := Except.ok.inj h
      refine ⟨p0, p1, q0, q1, h0, h1, fun e => c1 e.symm, ?_, c2⟩
      have : q1 - q0 ≠ 0 := sub_ne_zero.2 c1
      field_simp
      ring
    · obtain ⟨q, hq, h⟩ := bindOk h
      exact ih h1 hq h

theorem secant_ok : NewtonOk secant where
  secant := by
    intro f x0 rtol x h
    unfold secant at h
    obtain ⟨q0, h0, h⟩ := bindOk h
    obtain ⟨q1, h1, h⟩ := bindOk h
    exact secantLoop_ok h0 h1 h

/-- A solver that finds one pair of eigenvalues. -/
noncomputable def onePair : Lapack where
  eig := fun _ => []
  eigs := fun _ _ => some [(100 * Complex.I, fun _ => 1), (-(100 * Complex.I), fun _ => 1)]

theorem rint_int (k : ℤ) : rint (k : ℝ) = k := by
  unfold rint
  simp

theorem sorted_onePair (N : ℕ) : sorted ([(100 * Complex.I, fun _ => 1), (-(100 * Complex.I), fun _ => 1)] : List (Pair N)) =
    .ok [(100 * Complex.I, fun _ => 1), (-(100 * Complex.I), fun _ => 1)] := by
  have hround : (caround10 (100 * Complex.I)).im = 100 := by
    have e : (100 * Complex.I).im * 10 ^ 10 = ((1000000000000 : ℤ) : ℝ) := by norm_num
    simp only [caround10, around10]
    rw [e, rint_int]
    norm_num
  have hneg : (caround10 (-(100 * Complex.I))).im = -100 := by
    have e : (-(100 * Complex.I)).im * 10 ^ 10 = ((-1000000000000 : ℤ) : ℝ) := by norm_num
    simp only [caround10, around10]
    rw [e, rint_int]
    norm_num
  have hl : lexsort [100 * Complex.I, -(100 * Complex.I)] = [1, 0] := by
    have hp : (lexsort [100 * Complex.I, -(100 * Complex.I)]).Perm [0, 1] :=
      DynamicsLemmas.lexsort_perm [100 * Complex.I, -(100 * Complex.I)]
    rcases List.perm_pair.1 hp with h | h
    · have hs := DynamicsLemmas.lexsort_sorted [100 * Complex.I, -(100 * Complex.I)]
      rw [h] at hs
      have h1 : lexLe (100 * Complex.I) (-(100 * Complex.I)) = true := by
        have := (List.pairwise_cons.1 hs).1 1 (List.mem_cons_self ..)
        simpa only [List.getD_cons_zero, List.getD_cons_succ] using this
      have := DynamicsLemmas.lexLe_im h1
      rw [hround, hneg] at this
      norm_num at this
    · exact h
  have hi : index [100 * Complex.I, -(100 * Complex.I)] = .ok [0, 1] := by
    rw [DynamicsLemmas.index_ok (n := 1) rfl, hl]; rfl
  unfold sorted
  simp only [List.map_cons, List.map_nil]
  rw [hi]
  simp [bind, Except.bind]

/-- The modal analysis with this solver. -/
theorem modes_onePair {env : RunEnv} (hla : env.la = onePair) {r : Rotor} {s : ℝ} {n N : ℕ} (hA : ∃ A, r.A s = .ok A)
    (h4 : r.number_dof = 4) (hd : r.ndof = 4 * N) (hp : r.nodes_pos.length = N) (hL : r.shaft_elements_length.length + 1 = N) :
    ∃ m, r.modes env s n = .ok m ∧ m.wn = ([100, 100] : List ℝ).take (n / 2) ∧ m.wd = ([100, -100] : List ℝ).take (n / 2) := by
  obtain ⟨A, hA⟩ := hA
  have e1 : r.eigen env.la s n none true true false =
      .ok [(100 * Complex.I, fun _ => 1), (-(100 * Complex.I), fun _ => 1)] := by
    unfold eigen
    rw [hA, hla]
    show sorted _ = _
    simp only [onePair, Bool.false_eq_true, if_false, if_true]
    rw [← sorted_onePair]
    congr 1
    rw [List.filter_eq_self]
    intro p hp
    simp only [List.mem_cons, List.not_mem_nil, or_false] at hp
    rcases hp with rfl | rfl <;> norm_num
  have e2 : ∃ M, r.run_modal env.la s n true false = .ok M ∧ M.wn = ([100, 100] : List ℝ).take (n / 2) ∧
      M.wd = ([100, -100] : List ℝ).take (n / 2) ∧ M.evectors = [fun _ => 1, fun _ => 1] := by
    unfold run_modal
    rw [e1]
    exact ⟨_, rfl, by simp, by simp, rfl⟩
  obtain ⟨M, e2, e3, e4, e5⟩ := e2
  have hsh : ∀ m : Modal r.ndof, m.wn.length ≤ 2 → m.evectors = [fun _ => 1, fun _ => 1] →
      ∃ l, ModalResults.shapes env.la m (List.range r.nodes_pos.length) r.nodes_pos r.shaft_elements_length r.number_dof =
        .ok l := by
    intro m hm he
    unfold ModalResults.shapes
    have hs : ∃ sh, Shape.init env.la (List.ofFn fun _ : Fin r.ndof => (1 : ℂ)) (List.range r.nodes_pos.length) r.nodes_pos
        r.shaft_elements_length r.number_dof true = .ok sh := by
      rw [h4]
      refine Props.C61_accepts env.la (Or.inl rfl) (by simp [hd, hp]) rfl (by omega) true fun _ => ⟨0, 1, Or.inl rfl, ?_, one_ne_zero⟩
      rw [List.getElem?_ofFn]
      simp
      omega
    obtain ⟨sh, hs⟩ := hs
    refine ⟨List.replicate m.wn.length sh, ?_⟩
    rw [mapM_ok_iff]
    refine List.ext_getElem (by simp) fun i h1 h2 => ?_
    simp only [List.length_map, List.length_range] at h1
    have : i = 0 ∨ i = 1 := by omega
    rcases this with rfl | rfl <;> simp only [List.getElem_map, List.getElem_range, he, List.getElem?_cons_zero,
      List.getElem?_cons_succ, List.getElem_replicate] <;> exact hs
  obtain ⟨l, hl⟩ := hsh M (by rw [e3]; simp) e5
  unfold modes
  rw [e2]
  simp only [bind, Except.bind]
  rw [hl]
  exact ⟨_, rfl, e3, e4⟩

/-- A rotor with one shaft element between two bearings. -/
theorem two_small : ∃ r, Rotor.init RotorLemmas.exPandas 10 (Props.twoArgs 0 0) = some (.ok r) ∧ r.number_dof = 4 ∧ r.ndof = 4 * 2 ∧
    r.nodes_pos.length = 2 ∧ r.shaft_elements_length.length + 1 = 2 ∧ ∀ s, ∃ A, r.A s = .ok A := by
  obtain ⟨r, h1, h2, h3, -, -, -, -, -, -, h8⟩ := Props.two_facts 0 0 le_rfl le_rfl
  have hb := RotorLemmas.init_ok h1
  have hs : r.shaft = [⟨false, { Props.exShaft with n := some 0, tag := some "shaft", alpha := 0, beta := 0 }⟩] := by
    rw [hb.shaft]
    have hp := RotorLemmas.parts_sh_perm (Props.twoArgs 0 0)
    exact List.perm_singleton.1 hp
  refine ⟨r, h1, h2, ?_, ?_, ?_, fun s => ?_⟩
  · rw [hb.ndof, h2, h3]
    rfl
  · rw [hb.pos, hs]
    rfl
  · rw [hb.lens, hs]
    rfl
  · obtain ⟨A, hA⟩ := h8 s s
    exact ⟨A, by simpa [Rotor.A] using hA⟩

end Ross.RunLemmas
