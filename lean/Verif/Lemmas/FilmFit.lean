import Mathlib.LinearAlgebra.Matrix.DotProduct
import Mathlib.LinearAlgebra.Matrix.ToLinearEquiv
import Verif.Lemmas.FluidInit
import Verif.Spec.FilmFit

/-!
# Least squares, and the loop of samples
-/

namespace Ross.FluidLemmas

open Real Fluid Spec.Fluid Matrix

/-! ### Least squares -/

theorem normal_dot (X : Matrix (Fin 6) (Fin 3) ℝ) (q : Fin 3 → ℝ) :
    q ⬝ᵥ ((X.transpose * X).mulVec q) = (X.mulVec q) ⬝ᵥ (X.mulVec q) := by
  rw [← Matrix.mulVec_mulVec, Matrix.dotProduct_mulVec, Matrix.vecMul_transpose]

theorem normal_det {X : Matrix (Fin 6) (Fin 3) ℝ} (h : ∀ q, X.mulVec q = 0 → q = 0) : (X.transpose * X).det ≠ 0 := by
  intro h0
  obtain ⟨q, hq, h1⟩ := Matrix.exists_mulVec_eq_zero_iff.2 h0
  apply hq
  apply h
  have := normal_dot X q
  rw [h1, dotProduct_zero] at this
  exact dotProduct_self_eq_zero.1 this.symm

theorem fit_exact {X : Matrix (Fin 6) (Fin 3) ℝ} (h : ∀ q, X.mulVec q = 0 → q = 0) (P : Fin 3 → ℝ) :
    fit X (X.mulVec P) = .ok P := by
  have hd := normal_det h
  unfold fit
  rw [if_neg hd, Matrix.mulVec_mulVec, Matrix.mul_assoc, Matrix.nonsing_inv_mul _ (Ne.isUnit hd), Matrix.one_mulVec]

theorem fit_normal {X : Matrix (Fin 6) (Fin 3) ℝ} {F : Fin 6 → ℝ} {P : Fin 3 → ℝ} (h : fit X F = .ok P) :
    (X.transpose).mulVec (F - X.mulVec P) = 0 := by
  unfold fit at h
  split_ifs at h with hd
  cases h
  rw [Matrix.mulVec_sub, Matrix.mulVec_mulVec, Matrix.mulVec_mulVec, ← Matrix.mul_assoc,
    Matrix.mul_nonsing_inv _ (Ne.isUnit hd), Matrix.one_mul, sub_self]

theorem fit_least {X : Matrix (Fin 6) (Fin 3) ℝ} {F : Fin 6 → ℝ} {P : Fin 3 → ℝ} (h : fit X F = .ok P) (Q : Fin 3 → ℝ) :
    ∑ i, (F i - X.mulVec P i) ^ 2 ≤ ∑ i, (F i - X.mulVec Q i) ^ 2 := by
  have hn := fit_normal h
  set r := F - X.mulVec P
  have h1 : ∀ q, (X.mulVec q) ⬝ᵥ r = 0 := by
    intro q
    rw [← Matrix.vecMul_transpose, ← Matrix.dotProduct_mulVec, hn, dotProduct_zero]
  have h2 : ∀ i, F i - X.mulVec Q i = r i + X.mulVec (P - Q) i := by
    intro i
    rw [Matrix.mulVec_sub]
    simp [r]
  have h3 : ∑ i, (F i - X.mulVec Q i) ^ 2 = ∑ i, r i ^ 2 + 2 * (X.mulVec (P - Q) ⬝ᵥ r) + ∑ i, X.mulVec (P - Q) i ^ 2 := by
    simp only [h2, dotProduct, Finset.mul_sum, ← Finset.sum_add_distrib]
    exact Finset.sum_congr rfl fun i _ => by ring
  rw [h3, h1]
  have : 0 ≤ ∑ i, X.mulVec (P - Q) i ^ 2 := Finset.sum_nonneg fun i _ => sq_nonneg _
  have e : ∑ i, (F i - X.mulVec P i) ^ 2 = ∑ i, r i ^ 2 := rfl
  linarith

/-- The rows of an oscillation sampled six times determine a combination of a constant, the displacement and the velocity. -/
theorem rows_independent {A w : ℝ} (hA : A ≠ 0) (hw : w ≠ 0) {X : Matrix (Fin 6) (Fin 3) ℝ}
    (hX : ∀ i : Fin 6, X i = ![1, A * sin (2 * π * i / 5), w * A * cos (2 * π * i / 5)]) (q : Fin 3 → ℝ)
    (h : X.mulVec q = 0) : q = 0 := by
  have row : ∀ i : Fin 6, q 0 + A * sin (2 * π * i / 5) * q 1 + w * A * cos (2 * π * i / 5) * q 2 = 0 := by
    intro i
    have := congrFun h i
    simp only [Matrix.mulVec, hX, dotProduct, Fin.sum_univ_three, Pi.zero_apply] at this
    simpa using this
  have hp := pi_pos
  have r0 := row 0
  have r1 := row 1
  have r4 := row 4
  have s4 : sin (2 * π * ((4 : Fin 6) : ℕ) / 5) = -sin (2 * π / 5) := by
    rw [show 2 * π * ((4 : Fin 6) : ℕ) / 5 = -(2 * π / 5) + 2 * π by
      rw [show (((4 : Fin 6) : ℕ) : ℝ) = 4 by norm_num]; ring, sin_add_two_pi, sin_neg]
  have c4 : cos (2 * π * ((4 : Fin 6) : ℕ) / 5) = cos (2 * π / 5) := by
    rw [show 2 * π * ((4 : Fin 6) : ℕ) / 5 = -(2 * π / 5) + 2 * π by
      rw [show (((4 : Fin 6) : ℕ) : ℝ) = 4 by norm_num]; ring, cos_add_two_pi, cos_neg]
  rw [s4, c4] at r4
  have e1 : 2 * π * ((1 : Fin 6) : ℕ) / 5 = 2 * π / 5 := by norm_num
  rw [e1] at r1
  have e0 : 2 * π * ((0 : Fin 6) : ℕ) / 5 = 0 := by norm_num
  rw [e0, sin_zero, cos_zero] at r0
  have hs : 0 < sin (2 * π / 5) := sin_pos_of_pos_of_lt_pi (by positivity) (by linarith)
  have hc : cos (2 * π / 5) < 1 := by
    have := cos_lt_cos_of_nonneg_of_le_pi (x := 0) (y := 2 * π / 5) le_rfl (by linarith) (by positivity)
    rwa [cos_zero] at this
  have q1 : q 1 = 0 := by
    have : A * sin (2 * π / 5) * q 1 = 0 := by linarith
    exact (mul_eq_zero.1 this).resolve_left (mul_ne_zero hA hs.ne')
  have q2 : q 2 = 0 := by
    have : w * A * (1 - cos (2 * π / 5)) * q 2 = 0 := by
      rw [q1] at r1
      linarith
    exact (mul_eq_zero.1 this).resolve_left (mul_ne_zero (mul_ne_zero hw hA) (by linarith))
  have q0 : q 0 = 0 := by
    rw [q1, q2] at r0
    linarith
  ext i
  fin_cases i
  · exact q0
  · exact q1
  · exact q2

/-! ### The loop of samples -/

/-- A bearing without geometry and pressure. -/
def erase (F : FluidFlow) : FluidFlow :=
  { F with
    z_list := fun _ => 0
    re := fun _ _ => 0
    ri := fun _ _ => 0
    xre := fun _ _ => 0
    xri := fun _ _ => 0
    yre := fun _ _ => 0
    yri := fun _ _ => 0
    gama := fun _ _ => 0
    p_mat_numerical := fun _ _ => 0
    numerical_pressure_matrix_available := false }

theorem film_after_erase (lib : FlowLib) (F : FluidFlow) (d : Option String) :
    film_after lib F d = film_after lib (erase F) d := by
  unfold film_after FluidFlow.geometry_description
  have : (erase F).external (erase F).start = F.external F.start := rfl
  rw [this]
  cases F.external F.start with
  | error e => rfl
  | ok r =>
    show (do
      let F ← FluidFlow.calculate_pressure_matrix_numerical lib.spsolve _ d
      Except.ok (F, calculate_oil_film_force lib F (some "numerical"))) = (do
      let F ← FluidFlow.calculate_pressure_matrix_numerical lib.spsolve _ d
      Except.ok (F, calculate_oil_film_force lib F (some "numerical")))
    congr 1

theorem geometry_erase {F G : FluidFlow} (h : F.geometry_description = .ok G) : erase G = erase F := by
  unfold FluidFlow.geometry_description at h
  split at h
  · cases h
  · cases h; rfl

theorem pressure_erase {sp : FluidFlow.Solver} {F G : FluidFlow} {d : Option String}
    (h : F.calculate_pressure_matrix_numerical sp d = .ok G) : erase G = erase F := by
  rw [pressure_same h]
  rfl

theorem film_erase {lib : FlowLib} {F G : FluidFlow} {d : Option String} {f : Forces}
    (h : film_after lib F d = .ok (G, f)) : erase G = erase F := by
  unfold film_after at h
  obtain ⟨F1, h1, h⟩ := bindOk h
  obtain ⟨F2, h2, h⟩ := bindOk h
  cases h
  rw [pressure_erase h2, geometry_erase h1]

theorem film_gives {lib : FlowLib} {F G : FluidFlow} {d : String} {f : Forces}
    (h : film_after lib F (some d) = .ok (G, f)) : FilmGives lib F d f.x f.y := by
  unfold film_after at h
  obtain ⟨F1, h1, h⟩ := bindOk h
  obtain ⟨F2, h2, h⟩ := bindOk h
  cases h
  exact ⟨F1, _, h1, h2, rfl, rfl⟩

/-- The bearing with everything but what depends on its position. -/
noncomputable def base (F : FluidFlow) : FluidFlow :=
  { erase F with eccentricity := 0, eccentricity_ratio := 0, attitude_angle := 0, t := 0 }

theorem move_erase (F : FluidFlow) (dx dy : ℝ) : erase (move_rotor_center F dx dy) = move_rotor_center (erase F) dx dy := rfl

theorem move_base {F G : FluidFlow} (h : base F = base G) (t dx dy : ℝ) :
    erase (move_rotor_center { F with t := t } dx dy) = erase (move_rotor_center { G with t := t } dx dy) := by
  cases F
  cases G
  simp only [base, erase, FluidFlow.mk.injEq] at h
  simp only [move_rotor_center, erase, FluidFlow.radial_clearance, FluidFlow.mk.injEq]
  simp_all

theorem base_erase {F G : FluidFlow} (h : erase F = erase G) : base F = base G := by
  unfold base
  rw [h]

theorem base_moves (F : FluidFlow) (dx dy : ℝ) :
    base (move_rotor_center (move_rotor_center (move_rotor_center F dx 0) (-dx) 0) 0 dy) =
      base (move_rotor_center F 0 dy) := by
  simp only [base, erase, move_rotor_center, FluidFlow.mk.injEq]
  simp

theorem gives_film {lib : FlowLib} {F : FluidFlow} {d : String} {fx fy : ℝ} (h : FilmGives lib F d fx fy) :
    ∃ G f, film_after lib F (some d) = .ok (G, f) ∧ fx = f.x ∧ fy = f.y := by
  obtain ⟨G, K, h1, h2, h3, h4⟩ := h
  refine ⟨K, calculate_oil_film_force lib K (some "numerical"), ?_, h3, h4⟩
  unfold film_after
  rw [h1]
  show (FluidFlow.calculate_pressure_matrix_numerical lib.spsolve G (some d) >>= _) = _
  rw [h2]
  rfl

theorem gives_erase {lib : FlowLib} {F G : FluidFlow} (he : erase F = erase G) {d : String} {fx fy : ℝ}
    (h : FilmGives lib F d fx fy) : FilmGives lib G d fx fy := by
  obtain ⟨K, f, h1, rfl, rfl⟩ := gives_film h
  rw [film_after_erase, he, ← film_after_erase] at h1
  exact film_gives h1

/-- What a step of the loop measures. -/
def Measured (lib : FlowLib) (F : FluidFlow) (t : ℝ) (s : Sample) : Prop :=
  s.dx = F.xp * sin (F.omegap * t) ∧ s.xdot = F.omegap * F.xp * cos (F.omegap * t) ∧
  s.dy = F.yp * sin (F.omegap * t) ∧ s.ydot = F.omegap * F.yp * cos (F.omegap * t) ∧
  FilmGives lib (move_rotor_center { F with t := t } s.dx 0) "x" s.force_xx s.force_yx ∧
  FilmGives lib (move_rotor_center { F with t := t } 0 s.dy) "y" s.force_xy s.force_yy

theorem base_t (F : FluidFlow) (t : ℝ) : base { F with t := t } = base F := rfl

theorem step_ok {lib : FlowLib} {F G : FluidFlow} {t : ℝ} {s : Sample} (h : sample_step lib F t = .ok (G, s)) :
    erase G = erase (move_rotor_center { F with t := t } 0 0) ∧ Measured lib F t s := by
  unfold sample_step at h
  dsimp only at h
  obtain ⟨⟨F1, fx⟩, h1, h⟩ := bindOk h
  dsimp only at h
  obtain ⟨⟨F2, fy⟩, h2, h⟩ := bindOk h
  dsimp only at h
  obtain ⟨F3, h3, h⟩ := bindOk h
  obtain ⟨F4, h4, h⟩ := bindOk h
  cases h
  have e1 := film_erase h1
  have e2 := film_erase h2
  have e3 := geometry_erase h3
  have e4 := pressure_erase h4
  -- the data of the intermediate objects
  have x1 : F1.xp = F.xp ∧ F1.yp = F.yp ∧ F1.omegap = F.omegap ∧ F1.t = t := by
    have := congrArg FluidFlow.xp e1
    have := congrArg FluidFlow.yp e1
    have := congrArg FluidFlow.omegap e1
    have := congrArg FluidFlow.t e1
    refine ⟨?_, ?_, ?_, ?_⟩ <;> assumption
  have b1 : erase (move_rotor_center (move_rotor_center F1 (-(F.xp * sin (F.omegap * t))) 0) 0
      (F1.yp * sin (F1.omegap * F1.t))) = erase (move_rotor_center { F with t := t } 0 (F.yp * sin (F.omegap * t))) := by
    rw [x1.2.1, x1.2.2.1, x1.2.2.2, move_erase, move_erase, e1]
    simp only [erase, move_rotor_center, FluidFlow.mk.injEq, FluidFlow.radial_clearance]
    simp
  have b2 : erase G = erase (move_rotor_center { F with t := t } 0 0) := by
    rw [e4, e3, move_erase, e2, b1, x1.2.1, x1.2.2.1, x1.2.2.2]
    simp only [erase, move_rotor_center, FluidFlow.mk.injEq, FluidFlow.radial_clearance]
    simp
  have x2 : (move_rotor_center (move_rotor_center F1 (-(F.xp * sin (F.omegap * t))) 0) 0
      (F1.yp * sin (F1.omegap * F1.t))).omegap = F.omegap := x1.2.2.1
  refine ⟨b2, rfl, rfl, ?_, ?_, film_gives h1, ?_⟩
  · show F1.yp * sin (F1.omegap * F1.t) = _
    rw [x1.2.1, x1.2.2.1, x1.2.2.2]
  · show F1.omegap * F1.yp * cos (F1.omegap * F1.t) = _
    rw [x1.2.1, x1.2.2.1, x1.2.2.2]
  · have := gives_erase b1 (film_gives h2)
    show FilmGives lib (move_rotor_center { F with t := t } 0 (F1.yp * sin (F1.omegap * F1.t))) "y" _ _
    rw [x1.2.1, x1.2.2.1, x1.2.2.2]
    exact this

theorem measured_base {lib : FlowLib} {F F0 : FluidFlow} (h : base F = base F0) {t : ℝ} {s : Sample}
    (hm : Measured lib F t s) : Measured lib F0 t s := by
  have h1 := congrArg FluidFlow.xp h
  change F.xp = F0.xp at h1
  have h2 := congrArg FluidFlow.yp h
  change F.yp = F0.yp at h2
  have h3 := congrArg FluidFlow.omegap h
  change F.omegap = F0.omegap at h3
  obtain ⟨m1, m2, m3, m4, m5, m6⟩ := hm
  rw [h1, h3] at m1 m2
  rw [h2, h3] at m3 m4
  exact ⟨m1, m2, m3, m4, gives_erase (move_base h t _ _) m5, gives_erase (move_base h t _ _) m6⟩

theorem base_move_zero (F : FluidFlow) (t : ℝ) : base (move_rotor_center { F with t := t } 0 0) = base F := by
  simp only [base, erase, move_rotor_center, FluidFlow.mk.injEq]
  simp

theorem loop_ok {lib : FlowLib} {F0 : FluidFlow} (ts : List ℝ) : ∀ {F G : FluidFlow} {l : List Sample},
    sample_loop lib F ts = .ok (G, l) → base F = base F0 →
    List.Forall₂ (Measured lib F0) ts l ∧
      (∀ t, ts.getLast? = some t → erase G = erase (move_rotor_center { F0 with t := t } 0 0)) ∧ (ts = [] → G = F) := by
  induction ts with
  | nil =>
    intro F G l h _
    cases h
    exact ⟨.nil, by simp, fun _ => rfl⟩
  | cons t ts ih =>
    intro F G l h hb
    unfold sample_loop at h
    obtain ⟨⟨F1, s⟩, h1, h⟩ := bindOk h
    obtain ⟨⟨F2, l'⟩, h2, h⟩ := bindOk h
    cases h
    obtain ⟨he, hm⟩ := step_ok h1
    have hb1 : base F1 = base F0 := (base_erase he).trans ((base_move_zero F t).trans hb)
    obtain ⟨hl, hg, hn⟩ := ih h2 hb1
    refine ⟨.cons (measured_base hb hm) hl, fun t' ht' => ?_, by simp⟩
    cases ts with
    | nil =>
      simp only [List.getLast?_singleton, Option.some.injEq] at ht'
      subst ht'
      rw [hn rfl, he]
      exact move_base hb _ _ _
    | cons u us =>
      rw [List.getLast?_cons_cons] at ht'
      exact hg t' ht'

end Ross.FluidLemmas
