import Mathlib.Analysis.Calculus.Deriv.Add
import Mathlib.Analysis.Calculus.Deriv.Mul
import Verif.Props.ThdFilm

/-!
# The pressure in the film of a flooded thermohydrodynamic bearing (C92)
-/

namespace Ross.ThdLemmas

open Real Thd Thd.THD Stencil Spec.Fluid Spec.Thd

/-- The thickness at the face before column `j` of pad `n_p`. -/
noncomputable def face (B : THD) (J : Journal) (n_p j : ℕ) : ℝ := B.film J n_p (B.thetaI n_p + j * B.dtheta)

theorem face_before (B : THD) (J : Journal) (n_p j : ℕ) :
    B.film J n_p (B.jj n_p j - 0.5 * B.dtheta) = face B J n_p j := by
  unfold face jj
  congr 1
  ring

theorem face_after (B : THD) (J : Journal) (n_p j : ℕ) :
    B.film J n_p (B.jj n_p j + 0.5 * B.dtheta) = face B J n_p (j + 1) := by
  unfold face jj
  congr 1
  push_cast
  ring

theorem dY_pos {B : THD} (h : 2 ≤ B.elements_circumferential) : 0 < B.dY := by
  have : (0 : ℝ) < B.elements_circumferential := by exact_mod_cast (by omega : 0 < B.elements_circumferential)
  unfold dY
  positivity

theorem dZ_pos {B : THD} (h : 2 ≤ B.elements_axial) : 0 < B.dZ := by
  have : (0 : ℝ) < B.elements_axial := by exact_mod_cast (by omega : 0 < B.elements_axial)
  unfold dZ
  positivity

/-- The balance of mass of the specification, for a pad of the bearing. -/
def Balances (B : THD) (J : Journal) (n_p : ℕ) (mu P : ℕ → ℕ → ℝ) : Prop :=
  MassBalance B.elements_axial B.elements_circumferential B.dY B.dZ B.betha_s ((B.journal_radius / B.axial_length) ^ 2)
    (fun j => B.film J n_p (B.jj n_p j)) (face B J n_p) (fun j => hpt J (B.jj n_p j)) mu P

theorem excess_eq {B : THD} {J : Journal} {n_p : ℕ} {mu P : ℕ → ℕ → ℝ} (h2a : 2 ≤ B.elements_axial)
    (h2c : 2 ≤ B.elements_circumferential) (i j : ℕ) :
    excess B.elements_axial B.elements_circumferential B.dY B.dZ B.betha_s ((B.journal_radius / B.axial_length) ^ 2)
      (fun j => B.film J n_p (B.jj n_p j)) (face B J n_p) (fun j => hpt J (B.jj n_p j)) mu P i j =
    op B.elements_axial B.elements_circumferential (B.CW J n_p mu) (B.CE J n_p mu) (B.CN J n_p mu)
      (B.CS J n_p mu) 2 2 2 P i j + B.source J n_p j := by
  have hY := (dY_pos h2c).ne'
  have hZ := (dZ_pos h2a).ne'
  unfold excess
  have hE : meanAfter B.elements_circumferential (mu i) j = B.MU_e mu i j := by
    unfold meanAfter mean MU_e
    by_cases h : j = B.elements_circumferential - 1
    · simp [h]
    · simp only [h, decide_false, if_false, Bool.false_eq_true]; ring
  have hW : meanBefore (mu i) j = MU_w mu i j := by
    unfold meanBefore mean MU_w
    by_cases h : j = 0
    · simp [h]
    · simp only [h, decide_false, if_false, Bool.false_eq_true]; ring
  have hN : meanAfter B.elements_axial (fun i => mu i j) i = B.MU_n mu i j := by
    unfold meanAfter mean MU_n
    by_cases h : i = B.elements_axial - 1
    · simp [h]
    · simp only [h, decide_false, if_false, Bool.false_eq_true]; ring
  have hS : meanBefore (fun i => mu i j) i = MU_s mu i j := by
    unfold meanBefore mean MU_s
    by_cases h : i = 0
    · simp [h]
    · simp only [h, decide_false, if_false, Bool.false_eq_true]; ring
  rw [hE, hW, hN, hS]
  have sE : B.dZ * (slopeAfter B.elements_circumferential B.dY (P i) j *
      (face B J n_p (j + 1) ^ 3 / (12 * B.MU_e mu i j * B.betha_s ^ 2))) = -(B.CE J n_p mu i j *
      (if j = B.elements_circumferential - 1 then 2 * P i j else P i j - P i (j + 1))) := by
    unfold slopeAfter Spec.Thd.slope CE
    rw [face_after]
    split_ifs <;> field_simp <;> ring
  have sW : B.dZ * (slopeBefore B.dY (P i) j *
      (face B J n_p j ^ 3 / (12 * MU_w mu i j * B.betha_s ^ 2))) = B.CW J n_p mu i j *
      (if j = 0 then 2 * P i j else P i j - P i (j - 1)) := by
    unfold slopeBefore Spec.Thd.slope CW
    rw [face_before]
    split_ifs
    · field_simp
      ring
    · field_simp
  have sN : B.dY * (slopeAfter B.elements_axial B.dZ (fun i => P i j) i *
      ((B.journal_radius / B.axial_length) ^ 2 * B.film J n_p (B.jj n_p j) ^ 3 / (12 * B.MU_n mu i j))) =
      -(B.CN J n_p mu i j * (if i = B.elements_axial - 1 then 2 * P i j else P i j - P (i + 1) j)) := by
    unfold slopeAfter Spec.Thd.slope CN
    split_ifs <;> field_simp <;> ring
  have sS : B.dY * (slopeBefore B.dZ (fun i => P i j) i *
      ((B.journal_radius / B.axial_length) ^ 2 * B.film J n_p (B.jj n_p j) ^ 3 / (12 * MU_s mu i j))) =
      B.CS J n_p mu i j * (if i = 0 then 2 * P i j else P i j - P (i - 1) j) := by
    unfold slopeBefore Spec.Thd.slope CS
    split_ifs
    · field_simp
      ring
    · field_simp
  have hsrc : B.source J n_p j = B.dZ * (face B J n_p (j + 1) / (2 * B.betha_s) - face B J n_p j / (2 * B.betha_s)) +
      hpt J (B.jj n_p j) * (B.dY * B.dZ) := by
    unfold source hpt
    rw [face_after, face_before]
    ring
  rw [hsrc]
  unfold op Spec.Thd.around Spec.Thd.along
  linear_combination sW - sE + sS - sN

theorem balanced_iff {B : THD} {J : Journal} {n_p : ℕ} {mu P : ℕ → ℕ → ℝ} (h2a : 2 ≤ B.elements_axial)
    (h2c : 2 ≤ B.elements_circumferential) :
    Balances B J n_p mu P ↔
      ∀ i < B.elements_axial, ∀ j < B.elements_circumferential,
        op B.elements_axial B.elements_circumferential (B.CW J n_p mu) (B.CE J n_p mu) (B.CN J n_p mu)
          (B.CS J n_p mu) 2 2 2 P i j = -B.source J n_p j := by
  refine forall_congr' fun i => forall_congr' fun hi => forall_congr' fun j => forall_congr' fun hj => ?_
  rw [excess_eq h2a h2c, add_eq_zero_iff_eq_neg]

/-- The film of pad `n_p` is open in the middle of the cells and at their faces, and its viscosity is positive. -/
structure Open (B : THD) (J : Journal) (n_p : ℕ) (mu : ℕ → ℕ → ℝ) : Prop where
  middle : ∀ j < B.elements_circumferential, 0 < B.film J n_p (B.jj n_p j)
  faces : ∀ j ≤ B.elements_circumferential, 0 < face B J n_p j
  viscosity : ∀ i < B.elements_axial, ∀ j < B.elements_circumferential, 0 < mu i j
  arc : B.betha_s_dg ≠ 0
  radius : B.journal_radius ≠ 0
  length : B.axial_length ≠ 0

theorem betha_ne {B : THD} (h : B.betha_s_dg ≠ 0) : B.betha_s ≠ 0 := by
  unfold betha_s
  have := Real.pi_pos.ne'
  positivity

theorem Open.signs {B : THD} {J : Journal} {n_p : ℕ} {mu : ℕ → ℕ → ℝ} (h : Open B J n_p mu)
    (h2a : 2 ≤ B.elements_axial) (h2c : 2 ≤ B.elements_circumferential) {i j : ℕ} (hi : i < B.elements_axial)
    (hj : j < B.elements_circumferential) :
    0 < B.CW J n_p mu i j ∧ 0 < B.CE J n_p mu i j ∧ 0 < B.CN J n_p mu i j ∧ 0 < B.CS J n_p mu i j := by
  have hY := dY_pos h2c
  have hZ := dZ_pos h2a
  have hb := betha_ne h.arc
  have hb2 : 0 < B.betha_s ^ 2 := by positivity
  have hr : 0 < B.journal_radius ^ 2 := by have := h.radius; positivity
  have hl : 0 < B.axial_length ^ 2 := by have := h.length; positivity
  have f1 := h.faces (j + 1) (by omega)
  have f0 := h.faces j (by omega)
  have fm := h.middle j hj
  have mE : 0 < B.MU_e mu i j := by
    unfold MU_e
    split_ifs with h0
    · exact h.viscosity i hi j hj
    · have := h.viscosity i hi j hj
      have := h.viscosity i hi (j + 1) (by omega)
      positivity
  have mW : 0 < MU_w mu i j := by
    unfold MU_w
    split_ifs with h0
    · exact h.viscosity i hi j hj
    · have := h.viscosity i hi j hj
      have := h.viscosity i hi (j - 1) (by omega)
      positivity
  have mN : 0 < B.MU_n mu i j := by
    unfold MU_n
    split_ifs with h0
    · exact h.viscosity i hi j hj
    · have := h.viscosity i hi j hj
      have := h.viscosity (i + 1) (by omega) j hj
      positivity
  have mS : 0 < MU_s mu i j := by
    unfold MU_s
    split_ifs with h0
    · exact h.viscosity i hi j hj
    · have := h.viscosity i hi j hj
      have := h.viscosity (i - 1) (by omega) j hj
      positivity
  refine ⟨?_, ?_, ?_, ?_⟩
  · unfold CW; rw [face_before]; positivity
  · unfold CE; rw [face_after]; positivity
  · unfold CN; positivity
  · unfold CS; positivity

/-- There is exactly one pressure with a given source. -/
theorem pressure_exists {B : THD} {J : Journal} {n_p : ℕ} {mu : ℕ → ℕ → ℝ} (h : Open B J n_p mu)
    (h2a : 2 ≤ B.elements_axial) (h2c : 2 ≤ B.elements_circumferential) :
    ∃ x, Solves (B.elements_axial * B.elements_circumferential) (B.Mat_coef J n_p mu) (B.b_P J n_p) x ∧
      ∀ y, Solves (B.elements_axial * B.elements_circumferential) (B.Mat_coef J n_p mu) (B.b_P J n_p) y →
        ∀ k < B.elements_axial * B.elements_circumferential, y k = x k := by
  refine solves_exists ?_ _
  intro x hx r hr
  have := (solves_P B h2a h2c (fun _ _ => 0) x).1 hx
  have h0 := op_inj (t := fun i j => x (i * B.elements_circumferential + j)) (u := fun _ _ => 0)
    (fun i hi j hj => (h.signs h2a h2c hi hj).1) (fun i hi j hj => (h.signs h2a h2c hi hj).2.1.le)
    (fun i hi j hj => (h.signs h2a h2c hi hj).2.2.1.le) (fun i hi j hj => (h.signs h2a h2c hi hj).2.2.2.le)
    zero_le_two zero_le_two zero_le_two (fun i hi j hj => by rw [this i hi j hj, op_zero, neg_zero])
  have hc : 0 < B.elements_circumferential := by omega
  have hi : r / B.elements_circumferential < B.elements_axial := (Nat.div_lt_iff_lt_mul hc).2 hr
  have hj : r % B.elements_circumferential < B.elements_circumferential := Nat.mod_lt _ hc
  have e : r / B.elements_circumferential * B.elements_circumferential + r % B.elements_circumferential = r := by
    rw [mul_comm]; exact Nat.div_add_mod _ _
  have := h0 _ hi _ hj
  simp only [e] at this
  exact this

theorem flooded_ok {B : THD} {solve} {J : Journal} {n_p : ℕ} {mu P : ℕ → ℕ → ℝ}
    (h : B.flooded solve J n_p mu = .ok P) :
    B.film_check n_p = .ok () ∧ 2 ≤ B.elements_circumferential ∧ 2 ≤ B.elements_axial ∧
      P = fun i j => max (solve (B.elements_axial * B.elements_circumferential) (B.Mat_coef J n_p mu) (B.b_P J n_p)
        (i * B.elements_circumferential + j)) 0 := by
  unfold flooded at h
  cases hc : B.film_check n_p with
  | error e => rw [hc] at h; cases h
  | ok u =>
    rw [hc] at h
    change (if _ then _ else _) = _ at h
    split_ifs at h with h2
    cases h
    refine ⟨rfl, by omega, by omega, ?_⟩
    funext i j
    split_ifs with h3
    · exact (max_eq_right h3.le).symm
    · exact (max_eq_left (not_lt.1 h3)).symm

theorem solved_balance {B : THD} {solve} (hsp : SolverOk solve) {J : Journal} {n_p : ℕ} {mu : ℕ → ℕ → ℝ}
    (ho : Open B J n_p mu) (h2a : 2 ≤ B.elements_axial) (h2c : 2 ≤ B.elements_circumferential) :
    Balances B J n_p mu (fun i j => solve (B.elements_axial * B.elements_circumferential) (B.Mat_coef J n_p mu)
      (B.b_P J n_p) (i * B.elements_circumferential + j)) := by
  obtain ⟨x, hx, hux⟩ := pressure_exists ho h2a h2c
  have := hsp _ _ _ x hx hux
  have := (solves_P B h2a h2c (fun _ j => B.source J n_p j) _).1 this
  exact (balanced_iff h2a h2c).2 this

theorem balanced_unique {B : THD} {J : Journal} {n_p : ℕ} {mu : ℕ → ℕ → ℝ} (ho : Open B J n_p mu)
    (h2a : 2 ≤ B.elements_axial) (h2c : 2 ≤ B.elements_circumferential) {P Q : ℕ → ℕ → ℝ}
    (hP : Balances B J n_p mu P) (hQ : Balances B J n_p mu Q) :
    ∀ i < B.elements_axial, ∀ j < B.elements_circumferential, P i j = Q i j := by
  have p := (balanced_iff h2a h2c).1 hP
  have q := (balanced_iff h2a h2c).1 hQ
  exact op_inj (fun i hi j hj => (ho.signs h2a h2c hi hj).1) (fun i hi j hj => (ho.signs h2a h2c hi hj).2.1.le)
    (fun i hi j hj => (ho.signs h2a h2c hi hj).2.2.1.le) (fun i hi j hj => (ho.signs h2a h2c hi hj).2.2.2.le)
    zero_le_two zero_le_two zero_le_two (fun i hi j hj => by rw [p i hi j hj, q i hi j hj])

theorem flooded_eq {B : THD} {solve} {J : Journal} {n_p : ℕ} {mu : ℕ → ℕ → ℝ} (h : B.film_check n_p = .ok ())
    (h2c : 2 ≤ B.elements_circumferential) (h2a : 2 ≤ B.elements_axial) :
    ∃ P, B.flooded solve J n_p mu = .ok P := by
  unfold flooded
  rw [h]
  refine ⟨_, if_neg ?_⟩
  omega

theorem exists_solver : ∃ solve, SolverOk solve := by
  classical
  refine ⟨fun N M f => if h : ∃ x, Solves N M f x then h.choose else 0, fun N M f x hx _ => ?_⟩
  have : ∃ x, Solves N M f x := ⟨x, hx⟩
  dsimp only
  rw [dif_pos this]
  exact this.choose_spec

end Ross.ThdLemmas

namespace Ross.Props

open Real Thd Thd.THD Stencil Spec.Fluid Spec.Thd ThdLemmas

theorem padBalance_eq (B : THD) (J : Journal) (n_p : ℕ) (mu P : ℕ → ℕ → ℝ) :
    PadBalance B.elements_axial B.elements_circumferential (B.thetaI n_p) (B.betha_s_dg * π / 180)
      ((B.journal_radius / B.axial_length) ^ 2) (B.film J n_p) (fun t => -(J.Xpt * cos t + J.Ypt * sin t)) mu P ↔
    Balances B J n_p mu P := by
  have e : ∀ j : ℕ, B.thetaI n_p + ((j : ℝ) + 1 / 2) * (B.betha_s_dg * π / 180 / B.elements_circumferential) =
      B.jj n_p j := by
    intro j
    unfold jj dtheta betha_s
    ring
  have e1 : ∀ j : ℕ, B.film J n_p (B.thetaI n_p + (j : ℝ) * (B.betha_s_dg * π / 180 / B.elements_circumferential)) =
      face B J n_p j := by
    intro j
    unfold face dtheta betha_s
    rw [sub_zero]
  have e2 : ∀ t, -(J.Xpt * cos t + J.Ypt * sin t) = hpt J t := by
    intro t
    unfold hpt
    ring
  unfold PadBalance Balances
  simp only [e, e1, e2]
  rfl

/-- C92: `-(Xpt cos t + Ypt sin t)` is the rate at which the film becomes thicker. -/
theorem C92_rate (B : THD) (J : Journal) (n_p : ℕ) (t : ℝ) :
    HasDerivAt (fun s => B.film { J with X := J.X + s * J.Xpt, Y := J.Y + s * J.Ypt } n_p t)
      (-(J.Xpt * cos t + J.Ypt * sin t)) 0 := by
  have e : (fun s => B.film { J with X := J.X + s * J.Xpt, Y := J.Y + s * J.Ypt } n_p t) =
      fun s => B.film J n_p t + s * (-(J.Xpt * cos t + J.Ypt * sin t)) := by
    funext s
    unfold film
    dsimp only
    split_ifs <;> ring
  rw [e]
  have h1 : HasDerivAt (fun s : ℝ => s * (-(J.Xpt * cos t + J.Ypt * sin t)))
      (1 * (-(J.Xpt * cos t + J.Ypt * sin t))) 0 := (hasDerivAt_id (0 : ℝ)).mul_const _
  rw [one_mul] at h1
  exact HasDerivAt.const_add _ h1

theorem open_of {B : THD} {J : Journal} {n_p : ℕ} {mu : ℕ → ℕ → ℝ} (hfilm : ∀ t, 0 < B.film J n_p t)
    (hmu : ∀ i < B.elements_axial, ∀ j < B.elements_circumferential, 0 < mu i j) (harc : B.betha_s_dg ≠ 0)
    (hR : B.journal_radius ≠ 0) (hL : B.axial_length ≠ 0) : Open B J n_p mu :=
  ⟨fun _ _ => hfilm _, fun _ _ => hfilm _, hmu, harc, hR, hL⟩

/-- C92: the pressure of a pad is the one pressure for which in every cell mass is conserved, with 0 in place of what is
negative. -/
theorem C92_balance {B : THD} {solve : Fluid.FluidFlow.Solver} (hsolve : SolverOk solve) {J : Journal} {n_p : ℕ}
    {mu P : ℕ → ℕ → ℝ} (h : B.flooded solve J n_p mu = .ok P) (hfilm : ∀ t, 0 < B.film J n_p t)
    (hmu : ∀ i < B.elements_axial, ∀ j < B.elements_circumferential, 0 < mu i j) (harc : B.betha_s_dg ≠ 0)
    (hR : B.journal_radius ≠ 0) (hL : B.axial_length ≠ 0) :
    ∃ Q : ℕ → ℕ → ℝ,
      PadBalance B.elements_axial B.elements_circumferential (B.thetaI n_p) (B.betha_s_dg * π / 180)
        ((B.journal_radius / B.axial_length) ^ 2) (B.film J n_p) (fun t => -(J.Xpt * cos t + J.Ypt * sin t)) mu Q ∧
      (∀ Q' : ℕ → ℕ → ℝ,
        PadBalance B.elements_axial B.elements_circumferential (B.thetaI n_p) (B.betha_s_dg * π / 180)
          ((B.journal_radius / B.axial_length) ^ 2) (B.film J n_p) (fun t => -(J.Xpt * cos t + J.Ypt * sin t)) mu Q' →
        ∀ i < B.elements_axial, ∀ j < B.elements_circumferential, Q' i j = Q i j) ∧
      ∀ i < B.elements_axial, ∀ j < B.elements_circumferential, P i j = max (Q i j) 0 := by
  obtain ⟨-, h2c, h2a, rfl⟩ := flooded_ok h
  have ho := open_of hfilm hmu harc hR hL
  have hb := solved_balance hsolve ho h2a h2c
  refine ⟨_, (padBalance_eq ..).2 hb, ?_, fun i _ j _ => rfl⟩
  intro Q' hQ'
  exact balanced_unique ho h2a h2c ((padBalance_eq ..).1 hQ') hb

/-- C92: no pressure is negative. -/
theorem C92_nonneg {B : THD} {solve : Fluid.FluidFlow.Solver} {J : Journal} {n_p : ℕ} {mu P : ℕ → ℕ → ℝ}
    (h : B.flooded solve J n_p mu = .ok P) (i j : ℕ) : 0 ≤ P i j := by
  obtain ⟨-, -, -, rfl⟩ := flooded_ok h
  exact le_max_right _ _

/-- C92: the faster a journal moves towards a pad, the higher is the pressure everywhere. -/
theorem C92_squeeze {B : THD} {solve : Fluid.FluidFlow.Solver} (hsolve : SolverOk solve) {J J' : Journal} {n_p : ℕ}
    {mu P P' : ℕ → ℕ → ℝ} (h : B.flooded solve J n_p mu = .ok P) (h' : B.flooded solve J' n_p mu = .ok P')
    (hX : J'.X = J.X) (hY : J'.Y = J.Y) (hfilm : ∀ t, 0 < B.film J n_p t)
    (hmu : ∀ i < B.elements_axial, ∀ j < B.elements_circumferential, 0 < mu i j) (harc : B.betha_s_dg ≠ 0)
    (hR : B.journal_radius ≠ 0) (hL : B.axial_length ≠ 0)
    (hmove : ∀ t, B.thetaI n_p ≤ t → t ≤ B.thetaI n_p + B.betha_s_dg * π / 180 →
      J.Xpt * cos t + J.Ypt * sin t ≤ J'.Xpt * cos t + J'.Ypt * sin t) (harc' : 0 ≤ B.betha_s_dg) :
    ∀ i < B.elements_axial, ∀ j < B.elements_circumferential, P i j ≤ P' i j := by
  obtain ⟨-, h2c, h2a, rfl⟩ := flooded_ok h
  obtain ⟨-, -, -, rfl⟩ := flooded_ok h'
  have efilm : ∀ t, B.film J' n_p t = B.film J n_p t := by
    intro t; unfold film; rw [hX, hY]
  have ho := open_of hfilm hmu harc hR hL
  have ho' : Open B J' n_p mu := open_of (fun t => by rw [efilm]; exact hfilm t) hmu harc hR hL
  have p := (balanced_iff h2a h2c).1 (solved_balance hsolve ho h2a h2c)
  have p' := (balanced_iff h2a h2c).1 (solved_balance hsolve ho' h2a h2c)
  have eW : B.CW J' n_p mu = B.CW J n_p mu := by funext i j; unfold CW; rw [efilm]
  have eE : B.CE J' n_p mu = B.CE J n_p mu := by funext i j; unfold CE; rw [efilm]
  have eN : B.CN J' n_p mu = B.CN J n_p mu := by funext i j; unfold CN; rw [efilm]
  have eS : B.CS J' n_p mu = B.CS J n_p mu := by funext i j; unfold CS; rw [efilm]
  rw [eW, eE, eN, eS] at p'
  have hm := op_mono (t := fun i j => solve (B.elements_axial * B.elements_circumferential) (B.Mat_coef J n_p mu)
      (B.b_P J n_p) (i * B.elements_circumferential + j))
    (u := fun i j => solve (B.elements_axial * B.elements_circumferential) (B.Mat_coef J' n_p mu)
      (B.b_P J' n_p) (i * B.elements_circumferential + j)) (fun i hi j hj => (ho.signs h2a h2c hi hj).1) (fun i hi j hj => (ho.signs h2a h2c hi hj).2.1.le)
    (fun i hi j hj => (ho.signs h2a h2c hi hj).2.2.1.le) (fun i hi j hj => (ho.signs h2a h2c hi hj).2.2.2.le)
    zero_le_two zero_le_two zero_le_two (fun i hi j hj => by
      rw [p i hi j hj, p' i hi j hj]
      refine neg_le_neg ?_
      unfold source
      rw [efilm, efilm]
      have hd : 0 < B.dY * B.dZ := mul_pos (dY_pos h2c) (dZ_pos h2a)
      have hc : (0 : ℝ) < B.elements_circumferential := by
        exact_mod_cast (by omega : 0 < B.elements_circumferential)
      have hd0 : 0 ≤ B.dtheta := by
        unfold dtheta betha_s
        have := Real.pi_pos
        rw [sub_zero]
        positivity
      have hjn : (j : ℝ) + 1 ≤ B.elements_circumferential := by exact_mod_cast hj
      have hbs : B.betha_s_dg * π / 180 = B.elements_circumferential * B.dtheta := by
        unfold dtheta betha_s
        field_simp
        ring
      have hmv := hmove (B.jj n_p j) (by unfold jj; have : 0 ≤ (j : ℝ) * B.dtheta := by positivity
                                         linarith) (by rw [hbs]; unfold jj; nlinarith)
      nlinarith)
  exact fun i hi j hj => max_le_max (hm i hi j hj) le_rfl

/-- C92: where the film of a pad becomes thinner in the direction of the rotation, and with time, no pressure is cut off:
mass is conserved. -/
theorem C92_converging {B : THD} {solve : Fluid.FluidFlow.Solver} (hsolve : SolverOk solve) {J : Journal} {n_p : ℕ}
    {mu P : ℕ → ℕ → ℝ} (h : B.flooded solve J n_p mu = .ok P) (hfilm : ∀ t, 0 < B.film J n_p t)
    (hmu : ∀ i < B.elements_axial, ∀ j < B.elements_circumferential, 0 < mu i j) (harc : 0 < B.betha_s_dg)
    (hR : B.journal_radius ≠ 0) (hL : B.axial_length ≠ 0)
    (hthin : ∀ t u, t ≤ u → B.thetaI n_p ≤ t → u ≤ B.thetaI n_p + B.betha_s_dg * π / 180 →
      B.film J n_p u ≤ B.film J n_p t)
    (hmove : ∀ t, B.thetaI n_p ≤ t → t ≤ B.thetaI n_p + B.betha_s_dg * π / 180 →
      0 ≤ J.Xpt * cos t + J.Ypt * sin t) :
    PadBalance B.elements_axial B.elements_circumferential (B.thetaI n_p) (B.betha_s_dg * π / 180)
      ((B.journal_radius / B.axial_length) ^ 2) (B.film J n_p) (fun t => -(J.Xpt * cos t + J.Ypt * sin t)) mu P := by
  obtain ⟨-, h2c, h2a, rfl⟩ := flooded_ok h
  have ho := open_of hfilm hmu harc.ne' hR hL
  have hb := solved_balance hsolve ho h2a h2c
  have p := (balanced_iff h2a h2c).1 hb
  have hp := op_nonneg (fun i hi j hj => (ho.signs h2a h2c hi hj).1)
    (fun i hi j hj => (ho.signs h2a h2c hi hj).2.1.le)
    (fun i hi j hj => (ho.signs h2a h2c hi hj).2.2.1.le) (fun i hi j hj => (ho.signs h2a h2c hi hj).2.2.2.le)
    zero_le_two zero_le_two zero_le_two (fun i hi j hj => by
      rw [p i hi j hj]
      have hd : 0 < B.dY * B.dZ := mul_pos (dY_pos h2c) (dZ_pos h2a)
      have hc : (0 : ℝ) < B.elements_circumferential := by
        exact_mod_cast (by omega : 0 < B.elements_circumferential)
      have hbp : 0 < B.betha_s := by unfold betha_s; have := Real.pi_pos; positivity
      have hd0 : 0 ≤ B.dtheta := by
        unfold dtheta
        rw [sub_zero]
        positivity
      have hjn : (j : ℝ) + 1 ≤ B.elements_circumferential := by exact_mod_cast hj
      have hj0 : 0 ≤ (j : ℝ) * B.dtheta := by positivity
      have hbs : B.betha_s_dg * π / 180 = B.elements_circumferential * B.dtheta := by
        unfold dtheta betha_s
        field_simp
        ring
      have hmv := hmove (B.jj n_p j) (by unfold jj; linarith) (by rw [hbs]; unfold jj; nlinarith)
      have hth := hthin (B.jj n_p j - 0.5 * B.dtheta) (B.jj n_p j + 0.5 * B.dtheta) (by linarith)
        (by unfold jj; linarith) (by rw [hbs]; unfold jj; nlinarith)
      unfold source
      have h1 : 0 < B.dZ / (2 * B.betha_s) := div_pos (dZ_pos h2a) (by linarith)
      nlinarith [mul_nonneg h1.le (sub_nonneg.2 hth), mul_nonneg hmv hd.le])
  refine (padBalance_eq ..).2 ((balanced_iff h2a h2c).2 fun i hi j hj => ?_)
  rw [← p i hi j hj]
  exact op_congr (fun i hi j hj => max_eq_left (hp i hi j hj)) hi hj

/-- C92: with a viscosity that is the same at both ends, so is the pressure. -/
theorem C92_symmetric {B : THD} {solve : Fluid.FluidFlow.Solver} (hsolve : SolverOk solve) {J : Journal} {n_p : ℕ}
    {mu P : ℕ → ℕ → ℝ} (h : B.flooded solve J n_p mu = .ok P) (hfilm : ∀ t, 0 < B.film J n_p t)
    (hmu : ∀ i < B.elements_axial, ∀ j < B.elements_circumferential, 0 < mu i j) (harc : B.betha_s_dg ≠ 0)
    (hR : B.journal_radius ≠ 0) (hL : B.axial_length ≠ 0)
    (hsym : ∀ i < B.elements_axial, ∀ j < B.elements_circumferential, mu (B.elements_axial - 1 - i) j = mu i j) :
    ∀ i < B.elements_axial, ∀ j < B.elements_circumferential, P (B.elements_axial - 1 - i) j = P i j := by
  obtain ⟨-, h2c, h2a, rfl⟩ := flooded_ok h
  have ho := open_of hfilm hmu harc hR hL
  have hb := solved_balance hsolve ho h2a h2c
  have p := (balanced_iff h2a h2c).1 hb
  have := balanced_unique (P := fun i j => solve (B.elements_axial * B.elements_circumferential) (B.Mat_coef J n_p mu)
      (B.b_P J n_p) ((B.elements_axial - 1 - i) * B.elements_circumferential + j)) ho h2a h2c ?_ hb
  · intro i hi j hj
    show max _ _ = max _ _
    rw [this i hi j hj]
  · refine (balanced_iff h2a h2c).2 fun i hi j hj => ?_
    rw [← p (B.elements_axial - 1 - i) (by omega) j hj]
    have eW : B.CW J n_p mu (B.elements_axial - 1 - i) j = B.CW J n_p mu i j := by
      unfold CW MU_w
      split_ifs with h0
      · rw [hsym i hi j hj]
      · rw [hsym i hi j hj, hsym i hi (j - 1) (by omega)]
    have eE : B.CE J n_p mu (B.elements_axial - 1 - i) j = B.CE J n_p mu i j := by
      unfold CE MU_e
      split_ifs with h0
      · rw [hsym i hi j hj]
      · rw [hsym i hi j hj, hsym i hi (j + 1) (by omega)]
    have eN : B.CN J n_p mu (B.elements_axial - 1 - i) j = B.CS J n_p mu i j := by
      unfold CN CS MU_n MU_s
      by_cases h0 : i = 0
      · rw [if_pos (by omega), if_pos h0, hsym i hi j hj]
      · rw [if_neg (by omega), if_neg h0, hsym i hi j hj, ← hsym (i - 1) (by omega) j hj,
          show B.elements_axial - 1 - i + 1 = B.elements_axial - 1 - (i - 1) by omega]
    have eS : B.CS J n_p mu (B.elements_axial - 1 - i) j = B.CN J n_p mu i j := by
      unfold CN CS MU_n MU_s
      by_cases h0 : i = B.elements_axial - 1
      · rw [if_pos (by omega), if_pos h0, hsym i hi j hj]
      · rw [if_neg (by omega), if_neg h0, hsym i hi j hj, ← hsym (i + 1) (by omega) j hj,
          show B.elements_axial - 1 - i - 1 = B.elements_axial - 1 - (i + 1) by omega]
    unfold op
    dsimp only
    rw [eW, eE, eN, eS]
    by_cases h0 : i = 0
    · have h1 : i ≠ B.elements_axial - 1 := by omega
      have h2 : B.elements_axial - 1 - i = B.elements_axial - 1 := by omega
      have h3 : B.elements_axial - 1 - i ≠ 0 := by omega
      have h4 : B.elements_axial - 1 - (i + 1) = B.elements_axial - 1 - i - 1 := by omega
      rw [if_neg h1, if_pos h0, if_pos h2, if_neg h3, h4]
      ring
    · by_cases h1 : i = B.elements_axial - 1
      · have h2 : B.elements_axial - 1 - i ≠ B.elements_axial - 1 := by omega
        have h3 : B.elements_axial - 1 - i = 0 := by omega
        have h4 : B.elements_axial - 1 - (i - 1) = B.elements_axial - 1 - i + 1 := by omega
        rw [if_pos h1, if_neg h0, if_neg h2, if_pos h3, h4]
        ring
      · have h2 : B.elements_axial - 1 - i ≠ B.elements_axial - 1 := by omega
        have h3 : B.elements_axial - 1 - i ≠ 0 := by omega
        have h4 : B.elements_axial - 1 - (i + 1) = B.elements_axial - 1 - i - 1 := by omega
        have h5 : B.elements_axial - 1 - (i - 1) = B.elements_axial - 1 - i + 1 := by omega
        rw [if_neg h1, if_neg h0, if_neg h2, if_neg h3, h4, h5]
        ring

/-- C92: a journal in the centre of a circular bore that does not move across causes no pressure. -/
theorem C92_rest {B : THD} {solve : Fluid.FluidFlow.Solver} (hsolve : SolverOk solve) {n_p : ℕ}
    {mu P : ℕ → ℕ → ℝ} (h : B.flooded solve ⟨0, 0, 0, 0⟩ n_p mu = .ok P) (hg : B.geometry = "circular")
    (hmu : ∀ i < B.elements_axial, ∀ j < B.elements_circumferential, 0 < mu i j) (harc : B.betha_s_dg ≠ 0)
    (hR : B.journal_radius ≠ 0) (hL : B.axial_length ≠ 0) :
    ∀ i < B.elements_axial, ∀ j < B.elements_circumferential, P i j = 0 := by
  obtain ⟨-, h2c, h2a, rfl⟩ := flooded_ok h
  have hf : ∀ t, B.film ⟨0, 0, 0, 0⟩ n_p t = 1 := by
    intro t; unfold film; rw [if_pos hg]; ring
  have ho : Open B ⟨0, 0, 0, 0⟩ n_p mu := open_of (fun t => by rw [hf]; norm_num) hmu harc hR hL
  have hb := solved_balance hsolve ho h2a h2c
  have := balanced_unique (Q := fun _ _ => 0) ho h2a h2c hb ((balanced_iff h2a h2c).2 fun i hi j hj => by
    rw [op_zero]
    unfold source
    rw [hf, hf]
    ring)
  intro i hi j hj
  show max _ _ = _
  rw [this i hi j hj, max_self]

/-- C92: a pad needs two cells in each direction. -/
theorem C92_cells {B : THD} {solve : Fluid.FluidFlow.Solver} {J : Journal} {n_p : ℕ} {mu : ℕ → ℕ → ℝ}
    (hg : B.film_check n_p = .ok ()) :
    B.flooded solve J n_p mu = .error .indexError ↔ B.elements_circumferential < 2 ∨ B.elements_axial < 2 := by
  unfold flooded
  rw [hg]
  change (if _ then _ else _) = _ ↔ _
  split_ifs with h
  · exact ⟨fun _ => h, fun _ => rfl⟩
  · exact ⟨fun h => (by cases h), fun h' => absurd h' h⟩

/-- There is such a solver, and with it a pad that has a pressure. -/
example : ∃ solve, SolverOk solve ∧ ∃ P, (exThd "circular" 1).flooded solve ⟨1 / 2, 0, 0, 0⟩ 0 (fun _ _ => 1) = .ok P ∧
    ∀ t, 0 < (exThd "circular" 1).film ⟨1 / 2, 0, 0, 0⟩ 0 t := by
  obtain ⟨solve, hs⟩ := exists_solver
  refine ⟨solve, hs, ?_⟩
  have hf : ∀ t, 0 < (exThd "circular" 1).film ⟨1 / 2, 0, 0, 0⟩ 0 t := by
    intro t
    have := C90_thickness (B := exThd "circular" 1) (J := ⟨1 / 2, 0, 0, 0⟩) (e := 1 / 2) 0
      (by show (0 : ℝ) ≤ 1 / 2; norm_num) (by show (1 / 2 : ℝ) < 1; norm_num) (by norm_num) (by norm_num) t
    linarith
  obtain ⟨P, hP⟩ := flooded_eq (B := exThd "circular" 1) (solve := solve) (J := ⟨1 / 2, 0, 0, 0⟩) (n_p := 0)
    (mu := fun _ _ => 1) rfl (le_refl 2) (le_refl 2)
  exact ⟨P, hP, hf⟩

end Ross.Props
