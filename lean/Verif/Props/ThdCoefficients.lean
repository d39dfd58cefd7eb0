import Verif.Props.ThdForces

/-! # C96 to C98: equilibrium, coefficients and construction of a thermohydrodynamic bearing -/

namespace Ross.ThdLemmas
open Real Ross.Thd Ross.Thd.THD

theorem andThen_ok {α β : Type} {x : Option (Res α)} {f : α → Option (Res β)} {b : β}
    (h : andThen x f = some (.ok b)) : ∃ a, x = some (.ok a) ∧ f a = some (.ok b) := by
  unfold andThen at h
  match x, h with
  | some (.ok a), h => exact ⟨a, rfl, h⟩
  | none, h => cases h
  | some (.error e), h => cases h

theorem andThen_of {α β : Type} {x : Option (Res α)} {f : α → Option (Res β)} {a : α} (h : x = some (.ok a)) :
    andThen x f = f a := by
  rw [h]
  rfl

end Ross.ThdLemmas

namespace Ross.Props
open Real Ross.Thd Ross.Thd.THD Ross.ThdLemmas Ross.Spec.Thd Ross.Fluid

/-- C96: what is minimized is what is left of the load, when the film pushes with the force it has at the eccentricity and
the attitude angle; it is 0 where the film carries the load, and only there. -/
theorem C96_score {B : THD} {env : Env} {fuel : ℕ} {x : ℝ × ℝ} {r : ℝ} (hc : B.radial_clearance ≠ 0)
    (h : B.score env fuel x = some (.ok r)) :
    ∃ F, B.forces_at env fuel ⟨x.1 * cos x.2, x.1 * sin x.2, 0, 0⟩ = some (.ok F) ∧
      r = residual (B.load_x_direction, B.load_y_direction) F ∧
      (r = 0 ↔ F = (-B.load_x_direction, -B.load_y_direction)) := by
  have e : B.forces_polar env fuel x = B.forces_at env fuel ⟨x.1 * cos x.2, x.1 * sin x.2, 0, 0⟩ := by
    unfold forces_polar
    dsimp only
    have e1 : x.1 * B.radial_clearance * cos x.2 / B.radial_clearance = x.1 * cos x.2 := by
      field_simp
    have e2 : x.1 * B.radial_clearance * sin x.2 / B.radial_clearance = x.1 * sin x.2 := by
      field_simp
    rw [e1, e2]
  unfold score at h
  rw [e] at h
  match hF : B.forces_at env fuel ⟨x.1 * cos x.2, x.1 * sin x.2, 0, 0⟩, h with
  | some (.ok F), h =>
    dsimp only at h
    cases h
    refine ⟨F, rfl, rfl, ?_⟩
    rw [sqrt_eq_zero (by positivity)]
    constructor
    · intro h
      have h1 : (B.load_x_direction + F.1) ^ 2 = 0 := by nlinarith [sq_nonneg (B.load_x_direction + F.1), sq_nonneg (B.load_y_direction + F.2)]
      have h2 : (B.load_y_direction + F.2) ^ 2 = 0 := by nlinarith [sq_nonneg (B.load_x_direction + F.1), sq_nonneg (B.load_y_direction + F.2)]
      rw [sq_eq_zero_iff] at h1 h2
      refine Prod.ext ?_ ?_
      · dsimp only; linarith
      · dsimp only; linarith
    · rintro rfl
      simp
  | none, h => cases h
  | some (.error e), h => cases h

/-- C96: the position at which the coefficients are calculated is not worse than the start: what is left of the load is
not more; and the load is carried exactly when nothing is left. -/
theorem C96_equilibrium {B : THD} {env : Env} {fuel : ℕ} {x0 : ℝ × ℝ} {r : (ℝ × ℝ) × (ℝ × ℝ)}
    (hm : Descends env.minimize) (hc : B.radial_clearance ≠ 0) (h : B.run env fuel x0 = some (.ok r)) :
    ∃ F0 F, B.forces_at env fuel ⟨x0.1 * cos x0.2, x0.1 * sin x0.2, 0, 0⟩ = some (.ok F0) ∧
      B.forces_at env fuel ⟨r.1.1 * cos r.1.2, r.1.1 * sin r.1.2, 0, 0⟩ = some (.ok F) ∧
      residual (B.load_x_direction, B.load_y_direction) F ≤ residual (B.load_x_direction, B.load_y_direction) F0 := by
  obtain ⟨v0, v, h0, h1, hv⟩ := hm _ _ _ h
  obtain ⟨F0, hF0, e0, -⟩ := C96_score hc h0
  obtain ⟨F, hF, e, -⟩ := C96_score hc h1
  exact ⟨F0, F, hF0, hF, by rw [← e0, ← e]; exact hv⟩

/-- C96: when the position found does not depend on the start, the coefficients by perturbation for a speed do not depend on the other
speeds in the list: they are those of the equilibrium at that speed. -/
theorem C96_rows {B : THD} {env : Env} {fuel : ℕ} {speeds : List ℝ} {guess : ℝ × ℝ} {eq : ℝ → ℝ × ℝ}
    (hmeth : B.method = "perturbation")
    (hm : ∀ w ∈ speeds, ∀ g r, { B with speed := w }.run env fuel g = some (.ok r) → r.1 = eq w)
    {l : List ((ℝ × ℝ × ℝ × ℝ) × (ℝ × ℝ × ℝ × ℝ))} (h : table env fuel B speeds guess = some (.ok l)) :
    List.Forall₂ (fun w kc => { B with speed := w }.pertubation_method env fuel (eq w) = some (.ok kc)) speeds l := by
  induction speeds generalizing guess l with
  | nil =>
    unfold table at h
    cases h
    exact .nil
  | cons w rest ih =>
    unfold table at h
    obtain ⟨eg, h1, h⟩ := andThen_ok h
    obtain ⟨kc, h2, h⟩ := andThen_ok h
    obtain ⟨t, h3, h⟩ := andThen_ok h
    cases h
    refine .cons ?_ (ih (fun w' hw' => hm w' (List.mem_cons_of_mem _ hw')) h3)
    rw [← hm w List.mem_cons_self guess eg h1]
    unfold coefficients at h2
    rw [if_neg (by rw [hmeth]; decide), if_pos hmeth] at h2
    exact h2

/-- What stands for the libraries in the examples: the minimization returns its start, the last point it looks at is
another one, and the film of a starved bearing resists like springs and dampers. -/
noncomputable def exEnv : Env where
  solve := fun _ _ _ _ => 0
  curve_fit := fun _ _ => (1, 0)
  minimize := fun f x0 => match f x0 with
    | some (.ok _) => some (.ok (x0, (x0.1 / 2, x0.2)))
    | some (.error e) => some (.error e)
    | none => none
  starvation := fun _ J => some (.ok (-3 - J.X, 4))
  lund := fun _ eq => some (.ok ((eq.1, 0, 0, 0), (0, 0, 0, 0)))

theorem exEnv_minimize {f : ℝ × ℝ → Option (Res ℝ)} {x0 : ℝ × ℝ} {v : ℝ} (h : f x0 = some (.ok v)) :
    exEnv.minimize f x0 = some (.ok (x0, (x0.1 / 2, x0.2))) := by
  unfold exEnv
  dsimp only
  rw [h]

theorem exEnv_descends : Descends exEnv.minimize := by
  intro f x0 r h
  unfold exEnv at h
  dsimp only at h
  match hf : f x0, h with
  | some (.ok v), h =>
    cases h
    exact ⟨v, v, rfl, hf, le_rfl⟩
  | some (.error e), h => cases h
  | none, h => cases h

/-- C96, refuted: the coefficients for a speed depend on the speeds before it in the list, even when the minimization is
never worse than its start: the start is not `initial_guess`, but the last point looked at for the speed before. -/
theorem C96_rows_false : ∃ (B : THD) (env : Env), Descends env.minimize ∧
    ∃ kc kc' kc'', table env 0 B [2] (1, 1) = some (.ok [kc]) ∧ table env 0 B [1, 2] (1, 1) = some (.ok [kc', kc'']) ∧
      kc ≠ kc'' := by
  refine ⟨{ exThd "circular" 1 with operating_type := "starvation", method := "lund" }, exEnv, exEnv_descends,
    ((1 / 2, 0, 0, 0), (0, 0, 0, 0)), ((1 / 2, 0, 0, 0), (0, 0, 0, 0)), ((1 / 2 / 2, 0, 0, 0), (0, 0, 0, 0)), ?_, ?_, ?_⟩
  · rfl
  · rfl
  · intro e
    have := congrArg (fun k : (ℝ × ℝ × ℝ × ℝ) × (ℝ × ℝ × ℝ × ℝ) => k.1.1) e
    norm_num at this

/-- C96, refuted: by the method of Lund the coefficients are not those of the equilibrium found, but of the point at which
the minimization looked last, where more of the load may be left. -/
theorem C96_lund_false : ∃ (B : THD) (env : Env) (x0 : ℝ × ℝ) (r : (ℝ × ℝ) × (ℝ × ℝ)) (F F' : ℝ × ℝ),
    B.method = "lund" ∧ Descends env.minimize ∧ B.run env 0 x0 = some (.ok r) ∧
    B.coefficients env 0 r = env.lund B r.2 ∧ env.lund B r.2 ≠ env.lund B r.1 ∧
    B.forces_polar env 0 r.1 = some (.ok F) ∧ B.forces_polar env 0 r.2 = some (.ok F') ∧
    residual (B.load_x_direction, B.load_y_direction) F < residual (B.load_x_direction, B.load_y_direction) F' := by
  let env : Env := { exEnv with
    minimize := fun f x0 => match f x0 with
      | some (.ok _) => some (.ok (x0, (1, x0.2)))
      | some (.error e) => some (.error e)
      | none => none
    starvation := fun _ J => some (.ok (-3 + J.X, 4)) }
  refine ⟨{ exThd "circular" 1 with operating_type := "starvation", method := "lund", load_x_direction := 3, load_y_direction := -4 },
    env, (0, 0), ((0, 0), (1, 0)), (-3, 4), (-2, 4), rfl, ?_, rfl, rfl, ?_, ?_, ?_, ?_⟩
  · intro f x0 r h
    dsimp only [env] at h
    match hf : f x0, h with
    | some (.ok v), h =>
      cases h
      exact ⟨v, v, rfl, hf, le_rfl⟩
    | some (.error e), h => cases h
    | none, h => cases h
  · intro e
    have := congrArg (fun k : ℝ × ℝ × ℝ × ℝ => k.1) (congrArg Prod.fst (Except.ok.inj (Option.some.inj e)))
    norm_num at this
  · unfold forces_polar forces_at
    rw [if_neg (by decide), if_pos rfl]
    simp [env, exThd]
  · unfold forces_polar forces_at
    rw [if_neg (by decide), if_pos rfl]
    simp [env, exThd]
    norm_num
  · unfold Spec.Thd.residual
    norm_num

/-- The factor on the coefficients: twice the number of Sommerfeld times the load. -/
noncomputable def scaling (B : THD) (fx fy : ℝ) : ℝ :=
  if B.sommerfeld_type = 1 then 2 * B.reference_viscosity * B.journal_radius ^ 3 * B.axial_length * B.speed /
    (π * B.radial_clearance ^ 2)
  else √(B.load_x_direction ^ 2 + B.load_y_direction ^ 2) / √(fx ^ 2 + fy ^ 2) *
    (2 * B.journal_radius / B.axial_length) ^ 2

theorem sommerfeld_scaling {B : THD} {fx fy S : ℝ} (hW : 0 < B.load_x_direction ^ 2 + B.load_y_direction ^ 2)
    (h : B.sommerfeld fx fy = .ok S) :
    (B.sommerfeld_type = 1 ∨ B.sommerfeld_type = 2) ∧
    2 * S * √(B.load_x_direction ^ 2 + B.load_y_direction ^ 2) = scaling B fx fy := by
  have hs : √(B.load_x_direction ^ 2 + B.load_y_direction ^ 2) ≠ 0 := (sqrt_pos.2 hW).ne'
  unfold sommerfeld at h
  unfold scaling
  split_ifs at h with h1 h2
  · cases h
    refine ⟨.inl h1, ?_⟩
    rw [if_pos h1]
    by_cases hc : B.radial_clearance = 0
    · rw [hc]; simp
    · field_simp
  · cases h
    refine ⟨.inr h2, ?_⟩
    rw [if_neg h1]
    by_cases hf : √(fx ^ 2 + fy ^ 2) = 0
    · rw [hf]; simp
    · by_cases hL : B.axial_length = 0
      · rw [hL]; simp
      · by_cases hR : B.journal_radius = 0
        · rw [hR]; simp
        · field_simp

/-- C97: the coefficients by perturbation are, up to a factor, what the film resists to small displacements and velocities
from the equilibrium, with the other coordinates kept: the force along the first axis, the displacement along the
second. -/
theorem C97_reported {B : THD} {env : Env} {fuel : ℕ} {eq : ℝ × ℝ} {K C : ℝ × ℝ × ℝ × ℝ}
    (hc : B.radial_clearance ≠ 0) (hw : B.speed ≠ 0) (hW : 0 < B.load_x_direction ^ 2 + B.load_y_direction ^ 2)
    (h : B.pertubation_method env fuel eq = some (.ok (K, C))) :
    let c := B.radial_clearance
    let x := eq.1 * c * cos eq.2
    let y := eq.1 * c * sin eq.2
    let dx := |0.001 * c * cos eq.2|
    let dy := |0.001 * c * sin eq.2|
    let vx := 0.000001 * |B.speed * B.journal_radius * sin eq.2|
    let vy := 0.000001 * |B.speed * B.journal_radius * cos eq.2|
    let F := fun x y vx vy => B.forces_at env fuel ⟨x / c, y / c, vx / (c * B.speed), vy / (c * B.speed)⟩
    ∃ A1 A2 A3 A4 A5 A6 A7 A8,
      F (x + dx) y 0 0 = some (.ok A1) ∧ F (x - dx) y 0 0 = some (.ok A2) ∧
      F x (y + dy) 0 0 = some (.ok A3) ∧ F x (y - dy) 0 0 = some (.ok A4) ∧
      F x y vx 0 = some (.ok A5) ∧ F x y (-vx) 0 = some (.ok A6) ∧
      F x y 0 vy = some (.ok A7) ∧ F x y 0 (-vy) = some (.ok A8) ∧
      K = (scaling B A1.1 A2.2 * resistance A1.1 A2.1 dx, scaling B A3.1 A4.2 * resistance A3.1 A4.1 dy,
        scaling B A1.2 A2.2 * resistance A1.2 A2.2 dx, scaling B A3.2 A4.2 * resistance A3.2 A4.2 dy) ∧
      C = (scaling B A5.1 A6.2 * resistance A5.1 A6.1 vx, scaling B A7.1 A8.2 * resistance A7.1 A8.1 vy,
        scaling B A5.1 A6.2 * resistance A5.2 A6.2 vx, scaling B A7.1 A8.2 * resistance A7.2 A8.2 vy) := by
  dsimp only
  unfold pertubation_method at h
  dsimp only at h
  obtain ⟨A1, h1, h⟩ := andThen_ok h
  obtain ⟨A2, h2, h⟩ := andThen_ok h
  obtain ⟨A3, h3, h⟩ := andThen_ok h
  obtain ⟨A4, h4, h⟩ := andThen_ok h
  obtain ⟨A5, h5, h⟩ := andThen_ok h
  obtain ⟨A6, h6, h⟩ := andThen_ok h
  obtain ⟨A7, h7, h⟩ := andThen_ok h
  obtain ⟨A8, h8, h⟩ := andThen_ok h
  refine ⟨A1, A2, A3, A4, A5, A6, A7, A8, h1, h2, h3, h4, h5, h6, h7, h8, ?_⟩
  have h := Option.some.inj h
  unfold perturbed at h
  obtain ⟨S1, g1, h⟩ := bindOk h
  obtain ⟨S2, g2, h⟩ := bindOk h
  obtain ⟨S3, g3, h⟩ := bindOk h
  obtain ⟨S4, g4, h⟩ := bindOk h
  obtain ⟨S5, g5, h⟩ := bindOk h
  obtain ⟨S6, g6, h⟩ := bindOk h
  obtain ⟨S7, g7, h⟩ := bindOk h
  obtain ⟨S8, g8, h⟩ := bindOk h
  rw [← (sommerfeld_scaling hW g1).2, ← (sommerfeld_scaling hW g2).2, ← (sommerfeld_scaling hW g3).2,
    ← (sommerfeld_scaling hW g4).2, ← (sommerfeld_scaling hW g5).2, ← (sommerfeld_scaling hW g6).2]
  have e57 : S5 = S7 := Except.ok.inj (g5.symm.trans g7)
  have e68 : S6 = S8 := Except.ok.inj (g6.symm.trans g8)
  cases h
  have key : ∀ W S a b e : ℝ, W / B.radial_clearance * (-S * ((a - b) / (e / B.radial_clearance))) =
      2 * S * W * resistance a b e := by
    intro W S a b e
    unfold resistance
    by_cases he : e = 0
    · rw [he]; simp
    · field_simp
  have key2 : ∀ W S a b e : ℝ, W / (B.radial_clearance * B.speed) *
      (-S * ((a - b) / (e / B.radial_clearance / B.speed))) = 2 * S * W * resistance a b e := by
    intro W S a b e
    unfold resistance
    by_cases he : e = 0
    · rw [he]; simp
    · field_simp
  rw [key, key, key, key, key2, key2, key2, key2, ← e57, ← e68]
  exact ⟨rfl, rfl⟩

/-- C97: the steps are not 0 exactly when the attitude angle is not a multiple of a right angle.  Otherwise there is a
division 0 / 0. -/
theorem C97_steps {B : THD} (hc : B.radial_clearance ≠ 0) (hw : B.speed ≠ 0) (hR : B.journal_radius ≠ 0) (eq : ℝ × ℝ) :
    (B.epix eq ≠ 0 ∧ B.epiy eq ≠ 0 ∧ B.epixpt eq ≠ 0 ∧ B.epiypt eq ≠ 0) ↔ ∀ k : ℤ, eq.2 ≠ k * (π / 2) := by
  have hcos : (cos eq.2 ≠ 0 ∧ sin eq.2 ≠ 0) ↔ ∀ k : ℤ, eq.2 ≠ k * (π / 2) := by
    rw [Ne, Ne, cos_eq_zero_iff, sin_eq_zero_iff]
    constructor
    · rintro ⟨h1, h2⟩ k hk
      rcases Int.even_or_odd' k with ⟨m, rfl | rfl⟩
      · refine h2 ⟨m, ?_⟩
        rw [hk]
        push_cast
        ring
      · refine h1 ⟨m, ?_⟩
        rw [hk]
        push_cast
        ring
    · intro h
      refine ⟨fun ⟨m, hm⟩ => h (2 * m + 1) ?_, fun ⟨m, hm⟩ => h (2 * m) ?_⟩
      · rw [hm]
        push_cast
        ring
      · rw [← hm]
        push_cast
        ring
  rw [← hcos]
  unfold epix epiy epixpt epiypt
  have h3 : (0.001 : ℝ) ≠ 0 := by norm_num
  have h6 : (0.000001 : ℝ) ≠ 0 := by norm_num
  simp only [Ne, abs_eq_zero, mul_eq_zero, hc, hw, hR, h3, h6, false_or]
  tauto

/-- C97, partial: when the forces of the film are those of springs and dampers, the coefficients are those of the springs
and dampers, each multiplied by a factor. -/
theorem C97_linear_partial {B : THD} {env : Env} {fuel : ℕ} {eq : ℝ × ℝ} {K C : ℝ × ℝ × ℝ × ℝ}
    (hc : B.radial_clearance ≠ 0) (hw : B.speed ≠ 0) (hR : B.journal_radius ≠ 0)
    (hW : 0 < B.load_x_direction ^ 2 + B.load_y_direction ^ 2) (hatt : ∀ k : ℤ, eq.2 ≠ k * (π / 2))
    {kxx kxy kyx kyy cxx cxy cyx cyy fx fy : ℝ}
    (hF : ∀ x y vx vy, B.forces env fuel x y vx vy = some (.ok
      (fx - kxx * x - kxy * y - cxx * vx - cxy * vy, fy - kyx * x - kyy * y - cyx * vx - cyy * vy)))
    (h : B.pertubation_method env fuel eq = some (.ok (K, C))) :
    ∃ f1 f2 f3 f4 f5 f6 : ℝ × ℝ,
      K = (scaling B f1.1 f1.2 * kxx, scaling B f2.1 f2.2 * kxy, scaling B f3.1 f3.2 * kyx, scaling B f4.1 f4.2 * kyy) ∧
      C = (scaling B f5.1 f5.2 * cxx, scaling B f6.1 f6.2 * cxy, scaling B f5.1 f5.2 * cyx, scaling B f6.1 f6.2 * cyy) := by
  obtain ⟨n1, n2, n3, n4⟩ := (C97_steps hc hw hR eq).2 hatt
  unfold epix at n1
  unfold epiy at n2
  unfold epixpt at n3
  unfold epiypt at n4
  have hr : ∀ a b k e : ℝ, e ≠ 0 → a - b = -(2 * k * e) → resistance a b e = k := by
    intro a b k e he hab
    unfold resistance
    rw [hab]
    field_simp
  obtain ⟨A1, A2, A3, A4, A5, A6, A7, A8, h1, h2, h3, h4, h5, h6, h7, h8, hK, hC⟩ := C97_reported hc hw hW h
  change B.forces env fuel _ _ _ _ = _ at h1 h2 h3 h4 h5 h6 h7 h8
  rw [hF] at h1 h2 h3 h4 h5 h6 h7 h8
  refine ⟨(A1.1, A2.2), (A3.1, A4.2), (A1.2, A2.2), (A3.2, A4.2), (A5.1, A6.2), (A7.1, A8.2), ?_, ?_⟩
  · rw [hK, hr A1.1 A2.1 kxx _ n1, hr A3.1 A4.1 kxy _ n2, hr A1.2 A2.2 kyx _ n1, hr A3.2 A4.2 kyy _ n2]
    · cases h3; cases h4; ring
    · cases h1; cases h2; ring
    · cases h3; cases h4; ring
    · cases h1; cases h2; ring
  · rw [hC, hr A5.1 A6.1 cxx _ n3, hr A7.1 A8.1 cxy _ n4, hr A5.2 A6.2 cyx _ n3, hr A7.2 A8.2 cyy _ n4]
    · cases h7; cases h8; ring
    · cases h5; cases h6; ring
    · cases h7; cases h8; ring
    · cases h5; cases h6; ring

/-- C97, refuted: in a bearing with the length of the radius of the journal, whose film resists like a spring of stiffness
1 and carries the load exactly in the centre, a stiffness of more than 3 is reported. -/
theorem C97_scale_false : ∃ (B : THD) (env : Env) (K C : ℝ × ℝ × ℝ × ℝ),
    (∀ x y vx vy, B.forces env 0 x y vx vy = some (.ok (-B.load_x_direction - 1 * x, -B.load_y_direction))) ∧
    B.pertubation_method env 0 (0, π / 4) = some (.ok (K, C)) ∧ 3 < K.1 := by
  have hpi := pi_pos
  obtain ⟨B, hop, hlx, hly, hcl, hsp, hso, hL, hR⟩ : ∃ B : THD, B.operating_type = "starvation" ∧ B.load_x_direction = 3 ∧
      B.load_y_direction = -4 ∧ B.radial_clearance = 1 ∧ B.speed = 1 ∧ B.sommerfeld_type = 2 ∧ B.axial_length = 1 ∧
      B.journal_radius = 1 :=
    ⟨{ exThd "circular" 1 with operating_type := "starvation" }, rfl, rfl, rfl, rfl, rfl, rfl, rfl, rfl⟩
  have hF : ∀ x y vx vy, B.forces exEnv 0 x y vx vy = some (.ok (-B.load_x_direction - 1 * x, -B.load_y_direction)) := by
    intro x y vx vy
    unfold forces forces_at
    rw [if_neg (by rw [hop]; decide), if_pos hop, hlx, hly, hcl, div_one, neg_neg, one_mul x]
    rfl
  have hcos : cos (π / 4) = √2 / 2 := cos_pi_div_four
  have hs2 : √2 ^ 2 = 2 := sq_sqrt (by norm_num)
  have hs0 : 0 < √2 := sqrt_pos.2 (by norm_num)
  have hs3 : √2 < 2 := by nlinarith
  have hex : ∃ KC, B.pertubation_method exEnv 0 (0, π / 4) = some (.ok KC) := by
    unfold pertubation_method
    dsimp only
    simp only [hF, andThen]
    have hS : ∀ a b, ∃ S, B.sommerfeld a b = .ok S := by
      intro a b
      unfold sommerfeld
      rw [if_neg (by rw [hso]; decide), if_pos hso]
      exact ⟨_, rfl⟩
    choose S hS using hS
    unfold perturbed
    simp only [hS]
    exact ⟨_, rfl⟩
  obtain ⟨⟨K, C⟩, hKC⟩ := hex
  refine ⟨B, exEnv, K, C, hF, hKC, ?_⟩
  have hW : B.load_x_direction ^ 2 + B.load_y_direction ^ 2 = 25 := by
    rw [hlx, hly]
    norm_num
  obtain ⟨A1, A2, A3, A4, A5, A6, A7, A8, h1, h2, -, -, -, -, -, -, hK, -⟩ :=
    C97_reported (by rw [hcl]; norm_num) (by rw [hsp]; norm_num) (by rw [hW]; norm_num) hKC
  change B.forces exEnv 0 _ _ _ _ = _ at h1 h2
  rw [hF] at h1 h2
  have hd : |0.001 * B.radial_clearance * cos (π / 4)| = 0.001 * (√2 / 2) := by
    rw [hcos, hcl, mul_one, abs_of_nonneg (by positivity)]
  dsimp only at h1 h2 hK
  rw [hd] at h1 h2 hK
  have a1 : A1.1 = -3 - 0.001 * (√2 / 2) := by
    cases h1
    rw [hlx]
    ring
  have a2 : A2.1 = -3 + 0.001 * (√2 / 2) := by
    cases h2
    rw [hlx]
    ring
  have a3 : A2.2 = 4 := by
    cases h2
    rw [hly, neg_neg]
  rw [hK]
  dsimp only
  have hr : resistance A1.1 A2.1 (0.001 * (√2 / 2)) = 1 := by
    unfold resistance
    rw [a1, a2]
    field_simp
    ring
  rw [hr, mul_one, a1, a3]
  unfold scaling
  rw [if_neg (by rw [hso]; decide), hW]
  have h5 : √(25 : ℝ) = 5 := by
    rw [show (25 : ℝ) = 5 ^ 2 by norm_num, sqrt_sq (by norm_num)]
  have hlt : √((-3 - 0.001 * (√2 / 2)) ^ 2 + 4 ^ 2) < 6 := by
    rw [sqrt_lt' (by norm_num)]
    nlinarith
  have hpos : 0 < √((-3 - 0.001 * (√2 / 2)) ^ 2 + 4 ^ 2) := sqrt_pos.2 (by positivity)
  rw [h5, hR, hL]
  have : 5 / 6 < 5 / √((-3 - 0.001 * (√2 / 2)) ^ 2 + 4 ^ 2) := div_lt_div_of_pos_left (by norm_num) hpos hlt
  linarith

/-- C98: what the constructor refuses: no cells, an oil flow that is not given, an unknown lubricant, a speed that is a
number. -/
theorem C98_refused (env : Env) (sp : Scipy) (fuel : ℕ) (A : ThdArgs) :
    (A.elements_circumferential = 0 ∨ A.elements_axial = 0 →
      init env sp fuel A = some (.error .zeroDivisionError)) ∧
    (A.elements_circumferential ≠ 0 → A.elements_axial ≠ 0 → A.oil_flow = none →
      init env sp fuel A = some (.error .typeError)) ∧
    (A.elements_circumferential ≠ 0 → A.elements_axial ≠ 0 → A.oil_flow ≠ none →
      A.lubricant ∉ ["ISOVG32", "ISOVG46", "TEST", "ISOVG68"] → init env sp fuel A = some (.error .keyError)) ∧
    (A.elements_circumferential ≠ 0 → A.elements_axial ≠ 0 → A.oil_flow ≠ none →
      A.lubricant ∈ ["ISOVG32", "ISOVG46", "TEST", "ISOVG68"] → ∀ w, A.speed = .scalar w →
      init env sp fuel A = some (.error .indexError)) := by
  have hlook : (∃ L, lubricant_dict.lookup A.lubricant = some L) ↔
      A.lubricant ∈ ["ISOVG32", "ISOVG46", "TEST", "ISOVG68"] := by
    unfold lubricant_dict
    generalize A.lubricant = s
    by_cases h1 : s = "ISOVG32"
    · subst h1; simp [List.lookup]
    by_cases h2 : s = "ISOVG46"
    · subst h2; simp [List.lookup]
    by_cases h3 : s = "TEST"
    · subst h3; simp [List.lookup]
    by_cases h4 : s = "ISOVG68"
    · subst h4; simp [List.lookup]
    simp [List.lookup, h1, h2, h3, h4, beq_eq_false_iff_ne.2 h1, beq_eq_false_iff_ne.2 h2, beq_eq_false_iff_ne.2 h3,
      beq_eq_false_iff_ne.2 h4]
  refine ⟨fun h => ?_, fun h1 h2 h => ?_, fun h1 h2 h3 h => ?_, fun h1 h2 h3 h w hw => ?_⟩
  · unfold init attributes
    rw [if_pos h]
    rfl
  · unfold init attributes
    rw [if_neg (by tauto), h]
    rfl
  · unfold init attributes
    rw [if_neg (by tauto)]
    obtain ⟨q, hq⟩ := Option.ne_none_iff_exists'.1 h3
    rw [hq]
    have : lubricant_dict.lookup A.lubricant = none := by
      by_contra hne
      exact h (hlook.1 (Option.ne_none_iff_exists'.1 hne))
    rw [this]
    rfl
  · unfold init attributes
    rw [if_neg (by tauto)]
    obtain ⟨q, hq⟩ := Option.ne_none_iff_exists'.1 h3
    obtain ⟨L, hL⟩ := hlook.2 h
    rw [hq, hL, hw]
    rfl

/-- A coefficient that does not depend on the frequency. -/
def constant (x : ℝ) : Coeff := ⟨[x], some fun w => x + (x - x) * w⟩

theorem table_length {env : Env} {fuel : ℕ} {B : THD} {speeds : List ℝ} {guess : ℝ × ℝ}
    {l : List ((ℝ × ℝ × ℝ × ℝ) × (ℝ × ℝ × ℝ × ℝ))} (h : table env fuel B speeds guess = some (.ok l)) :
    l.length = speeds.length := by
  induction speeds generalizing guess l with
  | nil => unfold table at h; cases h; rfl
  | cons w rest ih =>
    unfold table at h
    obtain ⟨eg, h1, h⟩ := andThen_ok h
    obtain ⟨kc, h2, h⟩ := andThen_ok h
    obtain ⟨t, h3, h⟩ := andThen_ok h
    cases h
    rw [List.length_cons, List.length_cons, ih h3]

/-- C98, refuted: a bearing is made for exactly one speed only, although `speed` is documented as an array. -/
theorem C98_speeds_false {env : Env} {sp : Scipy} {fuel : ℕ} {A : ThdArgs} {b : BearingElement}
    (h : init env sp fuel A = some (.ok b)) : ∃ w, A.speed = .list [w] := by
  unfold init at h
  obtain ⟨B, hB, h⟩ := andThen_ok h
  match hs : A.speed, h with
  | .scalar w, h => cases h
  | .list speed, h =>
    obtain ⟨l, hl, h⟩ := andThen_ok h
    have hlen := table_length hl
    have h := Option.some.inj h
    unfold BearingElement.init at h
    obtain ⟨k, hk, -⟩ := bindOk h
    unfold Coeff.process super_args Coeff.interpolate at hk
    dsimp only at hk
    by_cases h1 : 1 < (l.map fun kc => kc.1.1).length
    · rw [if_pos h1] at hk
      cases hk
    · rw [if_neg h1] at hk
      rw [List.length_map, hlen] at h1
      match speed, h1, hlen with
      | [w], _, _ => exact ⟨w, rfl⟩
      | [], _, hlen =>
        have hl0 : l = [] := List.length_eq_zero_iff.1 hlen
        subst hl0
        cases hk
      | _ :: _ :: _, h1, _ => exact absurd (by simp) h1

/-- C98, refuted: the coefficients do not reach the bearing in their places.  With one speed the bearing is made with `kxx`
and `cxx` as calculated, but its `kyy` is the calculated `kxy`, its `kxy` is `kyx`, its `kyx` is `cyy`, its `cyy` is `cxy`,
its `cxy` is `cyx`, its `cyx` is the speed, its added masses `mxx` and `myy` are `kyy`, and it has no frequency. -/
theorem C98_places_false {env : Env} {sp : Scipy} {fuel : ℕ} {A : ThdArgs} {w : ℝ} (hw : A.speed = .list [w])
    {B : THD} (hB : attributes env A = .ok B) {eg : (ℝ × ℝ) × (ℝ × ℝ)}
    (hrun : { B with speed := w }.run env fuel A.initial_guess = some (.ok eg))
    {kxx kxy kyx kyy cxx cxy cyx cyy : ℝ}
    (hkc : { B with speed := w }.coefficients env fuel eg =
      some (.ok ((kxx, kxy, kyx, kyy), (cxx, cxy, cyx, cyy)))) :
    ∃ b : BearingElement, init env sp fuel A = some (.ok b) ∧ b.n = A.node ∧ b.frequency = none ∧
      b.kxx = constant kxx ∧ b.cxx = constant cxx ∧
      b.kyy = constant kxy ∧ b.kxy = constant kyx ∧ b.kyx = constant cyy ∧ b.cyy = constant cxy ∧
      b.cxy = constant cyx ∧ b.cyx = constant w ∧ b.mxx = constant kyy ∧ b.myy = constant kyy := by
  refine ⟨⟨A.node, none, none, constant kxx, constant kxy, constant kyx, constant cyy, constant cxx, constant cxy,
    constant cyx, constant w, constant kyy, constant kyy, constant 0, constant 0, none, 1, "#355d7a"⟩, ?_, rfl, rfl, rfl,
    rfl, rfl, rfl, rfl, rfl, rfl, rfl, rfl, rfl⟩
  unfold init
  rw [andThen_of (congrArg some hB), hw]
  dsimp only
  unfold table
  rw [andThen_of hrun, andThen_of hkc]
  rfl

/-- Arguments of a starved bearing. -/
noncomputable def exThdArgs : ThdArgs where
  axial_length := 1
  journal_radius := 1
  radial_clearance := 1
  elements_circumferential := 2
  elements_axial := 2
  n_pad := 1
  pad_arc_length := 90
  preload := 0
  geometry := "circular"
  reference_temperature := 50
  speed := .list [1]
  load_x_direction := 3
  load_y_direction := -4
  groove_factor := .list [1]
  lubricant := "TEST"
  node := 0
  method := "lund"
  operating_type := "starvation"
  oil_flow := some 1

/-- For these a bearing is made. -/
example (sp : Scipy) : ∃ b, init exEnv sp 0 exThdArgs = some (.ok b) := by
  have hB : ∃ B, attributes exEnv exThdArgs = .ok B ∧ B.operating_type = "starvation" ∧ B.method = "lund" := by
    unfold attributes
    rw [if_neg (by decide)]
    have : lubricant_dict.lookup exThdArgs.lubricant =
        some ⟨0.04, 40 + 273.15, 0.01, 100 + 273.15, 863.61302696, 1951.88616, 0.15⟩ := by
      unfold lubricant_dict
      simp [List.lookup, exThdArgs]
    rw [this]
    exact ⟨_, rfl, rfl, rfl⟩
  obtain ⟨B, hB, h1, h2⟩ := hB
  obtain ⟨b, hb, -⟩ := C98_places_false (env := exEnv) (sp := sp) (fuel := 0) (A := exThdArgs) (w := 1) rfl hB
    (eg := ((0.1, -0.1), (0.1 / 2, -0.1))) (by
      have hsc : ∃ v, THD.score { B with speed := 1 } exEnv 0 (0.1, -0.1) = some (.ok v) := by
        unfold score forces_polar forces_at
        dsimp only
        rw [if_neg (by rw [h1]; decide), if_pos h1]
        exact ⟨_, rfl⟩
      obtain ⟨v, hv⟩ := hsc
      unfold run
      exact exEnv_minimize hv) (kxx := 0.1 / 2) (kxy := 0) (kyx := 0) (kyy := 0) (cxx := 0) (cxy := 0) (cyx := 0) (cyy := 0) (by
      unfold coefficients
      rw [if_pos h2]
      rfl)
  exact ⟨b, hb⟩

end Ross.Props
