import Mathlib.Analysis.Calculus.Deriv.Pow
import Mathlib.Analysis.Calculus.Deriv.Inv
import Mathlib.Analysis.Real.Pi.Bounds
import Verif.Model.RollingBearing
import Verif.Spec.RollingBearing
import Verif.Props.Bearing

/-! # C39: ball, roller and magnetic bearings -/

namespace Ross.Props

open Real Matrix Spec BearingLemmas Polynomial

variable {sp : Scipy} {b : BearingElement}

/-- A bearing built from numbers has constant matrices. -/
theorem init_scalar (n : ℕ) (kxx kyy cxx cyy : ℝ) (tag : Option String) (n_link : Option ℕ)
    (sf : ℝ) (color : String) :
    ∃ b, BearingElement.init sp
      { n := n, kxx := .scalar kxx, cxx := .scalar cxx, kyy := some (.scalar kyy)
        kxy := .scalar 0, kyx := .scalar 0, cyy := some (.scalar cyy), cxy := .scalar 0
        cyx := .scalar 0, frequency := none, tag := tag, n_link := n_link, scale_factor := sf
        color := color } = .ok b ∧
      b.n = n ∧ b.n_link = n_link ∧ b.tag = tag ∧ b.scale_factor = sf ∧
      b.kxx = ⟨[kxx], some fun _ => kxx⟩ ∧ b.kyy = ⟨[kyy], some fun _ => kyy⟩ ∧
      b.kxy = ⟨[0], some fun _ => 0⟩ ∧ b.kyx = ⟨[0], some fun _ => 0⟩ ∧
      b.cxx = ⟨[cxx], some fun _ => cxx⟩ ∧ b.cyy = ⟨[cyy], some fun _ => cyy⟩ ∧
      b.cxy = ⟨[0], some fun _ => 0⟩ ∧ b.cyx = ⟨[0], some fun _ => 0⟩ := by
  refine ⟨⟨n, n_link, none, ⟨[kxx], some fun _ => kxx⟩, ⟨[kyy], some fun _ => kyy⟩,
    ⟨[0], some fun _ => 0⟩, ⟨[0], some fun _ => 0⟩, ⟨[cxx], some fun _ => cxx⟩,
    ⟨[cyy], some fun _ => cyy⟩, ⟨[0], some fun _ => 0⟩, ⟨[0], some fun _ => 0⟩,
    ⟨[0], some fun _ => 0⟩, ⟨[0], some fun _ => 0⟩, ⟨[0], some fun _ => 0⟩,
    ⟨[0], some fun _ => 0⟩, tag, sf, color⟩, ?_, rfl, rfl, rfl, rfl, rfl, rfl, rfl, rfl, rfl,
    rfl, rfl, rfl⟩
  simp only [BearingElement.init, Coeff.process, interpolate_singleton, Option.getD_some]
  rfl

/-- The parabola of the contract. -/
theorem ratioOf_spec (hc : ScipyContract sp) (r8 r12 r16 : ℝ) :
    ∃ p, Parabola p r8 r12 r16 ∧ ∀ count, Rolling.ratioOf sp r8 r12 r16 count = .ok (p.eval count)
    := by
  obtain ⟨p, h1, h2, h3⟩ := hc.interp_poly 2 [8, 12, 16] [r8, r12, r16] (Or.inr rfl) rfl rfl
    (by norm_num)
  simp only [List.map_cons, List.map_nil, List.cons.injEq, and_true] at h3
  obtain ⟨e1, e2, e3⟩ := h3
  refine ⟨p, ⟨h1, e1.symm, e2.symm, e3.symm⟩, fun count => ?_⟩
  unfold Rolling.ratioOf
  split_ifs with a1 a2 a3
  · rw [a1, e1]
  · rw [a2, e2]
  · rw [a3, e3]
  · rw [h2]

/-- The values of the parabola. -/
theorem parabola_eval {p : Polynomial ℝ} {r8 r12 r16 : ℝ} (h : Parabola p r8 r12 r16) (x : ℝ) :
    p.eval x = r8 + (r12 - r8) / 4 * (x - 8) +
      (r16 - 2 * r12 + r8) / 32 * (x - 8) * (x - 12) := by
  have hp : ∀ x, p.eval x = p.coeff 0 + p.coeff 1 * x + p.coeff 2 * x ^ 2 := by
    intro x
    rw [Polynomial.eval_eq_sum_range' (n := 3) (by have := h.degree; omega)]
    simp [Finset.sum_range_succ]
  have a1 := h.at8; have a2 := h.at12; have a3 := h.at16
  rw [hp] at a1 a2 a3
  rw [hp, ← a1, ← a2, ← a3]
  ring

/-- What a rolling bearing is expected to be: `k` is its stiffness in the direction of the load and
`p` the parabola of the ratios. -/
structure IsRolling (a : RollingArgs) (p : Polynomial ℝ) (k : ℝ) (b : BearingElement) : Prop where
  node : b.n = a.n ∧ b.n_link = a.n_link ∧ b.tag = a.tag ∧ b.scale_factor = a.scale_factor
  stiffness : ∀ ω, ∃ r, b.K ω = .ok r ∧ IsSupport a.n_link !![p.eval a.count * k, 0; 0, k] r
  damping : ∀ cx cy : Option ℝ, a.cxx = cx.map .scalar → a.cyy = cy.map .scalar → ∀ ω,
    ∃ r, b.C ω = .ok r ∧ IsSupport a.n_link
      !![cx.getD (0.0000125 * (p.eval a.count * k)), 0; 0, cy.getD (0.0000125 * k)] r

/-- No list is given for the damping. -/
def Numbers (a : RollingArgs) : Prop :=
  (∃ cx : Option ℝ, a.cxx = cx.map .scalar) ∧ ∃ cy : Option ℝ, a.cyy = cy.map .scalar

theorem build_spec (hc : ScipyContract sp) {a : RollingArgs} (ha : Numbers a) (r8 r12 r16 k : ℝ) :
    ∃ p b, Parabola p r8 r12 r16 ∧ Rolling.build sp a r8 r12 r16 k = .ok b ∧
      IsRolling a p k b := by
  obtain ⟨p, hp, hr⟩ := ratioOf_spec hc r8 r12 r16
  obtain ⟨⟨cx, hcx⟩, cy, hcy⟩ := ha
  obtain ⟨b, hb, h1, h2, h3, h4, k1, k2, k3, k4, c1, c2, c3, c4⟩ := init_scalar (sp := sp) a.n
    (p.eval a.count * k) k (cx.getD (1.25e-5 * (p.eval a.count * k))) (cy.getD (1.25e-5 * k))
    a.tag a.n_link a.scale_factor "#355d7a"
  refine ⟨p, { b with color := "#77ACA2" }, hp, ?_, ⟨h1, h2, h3, h4⟩, ?_, ?_⟩
  · unfold Rolling.build
    rw [hr, bind_ok]
    refine ⟨_, rfl, ?_⟩
    rw [bind_ok]
    refine ⟨b, ?_, rfl⟩
    rw [← hb, hcx, hcy]
    cases cx <;> cases cy <;> rfl
  · intro ω
    refine ⟨_, ?_, linkMat_isSupport _ _⟩
    simp [BearingElement.K, Coeff.eval, k1, k2, k3, k4, h2, bind, Except.bind, pure, Except.pure]
  · intro cx' cy' hx hy ω
    have ex : cx' = cx := by
      rw [hcx] at hx
      cases cx <;> cases cx' <;> simp_all
    have ey : cy' = cy := by
      rw [hcy] at hy
      cases cy <;> cases cy' <;> simp_all
    subst ex ey
    refine ⟨_, ?_, linkMat_isSupport _ _⟩
    simp only [BearingElement.C, Coeff.eval, c1, c2, c3, c4, h2, bind, Except.bind, pure,
      Except.pure]

/-- **C39** a ball bearing has the documented stiffness `13·10⁶ Z^(2/3) d^(1/3) fs^(1/3)
cos^(5/3) α` in the direction of the load, the ratio 0.46, 0.64, 0.73 of it across for 8, 12, 16
balls and a parabola between, no cross coupling, at every frequency; damping that is not given is
`1.25·10⁻⁵` of the stiffness. -/
theorem C39_ball (hc : ScipyContract sp) {a : RollingArgs} (ha : Numbers a) :
    ∃ p b, Parabola p 0.46 0.64 0.73 ∧ Rolling.ball sp a = .ok b ∧
      IsRolling a p (13000000 * a.count ^ (2 / 3 : ℝ) * a.size ^ (1 / 3 : ℝ) *
        a.fs ^ (1 / 3 : ℝ) * cos a.alpha ^ (5 / 3 : ℝ)) b := by
  have h := build_spec hc ha 0.46 0.64 0.73 (13.0e6 * a.count ^ (2 / 3 : ℝ) *
    a.size ^ (1 / 3 : ℝ) * a.fs ^ (1 / 3 : ℝ) * cos a.alpha ^ (5 / 3 : ℝ))
  rw [show (13000000 : ℝ) = 13.0e6 by norm_num]
  exact h

/-- **C39** a roller bearing has the documented stiffness `10⁹ Z^0.9 l^0.8 fs^0.1 cos^1.9 α`, with
the ratios 0.49, 0.66, 0.74. -/
theorem C39_roller (hc : ScipyContract sp) {a : RollingArgs} (ha : Numbers a) :
    ∃ p b, Parabola p 0.49 0.66 0.74 ∧ Rolling.roller sp a = .ok b ∧
      IsRolling a p (1000000000 * a.count ^ (9 / 10 : ℝ) * a.size ^ (8 / 10 : ℝ) *
        a.fs ^ (1 / 10 : ℝ) * cos a.alpha ^ (19 / 10 : ℝ)) b := by
  have h := build_spec hc ha 0.49 0.66 0.74 (1.0e9 * a.count ^ (0.9 : ℝ) *
    a.size ^ (0.8 : ℝ) * a.fs ^ (0.1 : ℝ) * cos a.alpha ^ (1.9 : ℝ))
  rw [show (1000000000 : ℝ) = 1.0e9 by norm_num, show (9 / 10 : ℝ) = 0.9 by norm_num,
    show (8 / 10 : ℝ) = 0.8 by norm_num, show (1 / 10 : ℝ) = 0.1 by norm_num,
    show (19 / 10 : ℝ) = 1.9 by norm_num]
  exact h

/-- Positive dimensions and load, at least one rolling element, a contact angle below a right
angle. -/
structure Rolls (a : RollingArgs) (m : ℕ) : Prop where
  numbers : Numbers a
  count : a.count = m
  one : 1 ≤ m
  size : 0 < a.size
  load : 0 < a.fs
  angle : 0 < cos a.alpha

/-- **C39** (partial: 2 to 34 balls) the stiffness of a ball bearing is positive in both directions
and smaller across the load than along it. -/
theorem C39_ball_positive_partial (hc : ScipyContract sp) {a : RollingArgs} {m : ℕ}
    (ha : Rolls a m) (h2 : 2 ≤ m) (h34 : m ≤ 34) :
    ∃ b kxx kyy, Rolling.ball sp a = .ok b ∧ 0 < kxx ∧ kxx < kyy ∧
      ∀ ω, ∃ r, b.K ω = .ok r ∧ IsSupport a.n_link !![kxx, 0; 0, kyy] r := by
  obtain ⟨p, b, hp, hb, hr⟩ := C39_ball hc ha.numbers
  have hk : 0 < 13000000 * a.count ^ (2 / 3 : ℝ) * a.size ^ (1 / 3 : ℝ) *
      a.fs ^ (1 / 3 : ℝ) * cos a.alpha ^ (5 / 3 : ℝ) := by
    have h0 : 0 < a.count := by rw [ha.count]; exact_mod_cast ha.one
    have h1 := ha.size; have h2 := ha.load; have h3 := ha.angle
    positivity
  refine ⟨b, _, _, hb, mul_pos ?_ hk, ?_, hr.stiffness⟩
  · rw [parabola_eval hp, ha.count]
    have h2' : (2 : ℝ) ≤ m := by exact_mod_cast h2
    have h3' : (m : ℝ) ≤ 34 := by exact_mod_cast h34
    nlinarith
  · refine mul_lt_of_lt_one_left hk ?_
    rw [parabola_eval hp]
    nlinarith [sq_nonneg (a.count - 18)]

/-- **C39 is false for one ball and for 35 balls or more**: the parabola is extrapolated below zero
and the stiffness across the load is negative. -/
theorem C39_ball_positive_false (hc : ScipyContract sp) {a : RollingArgs} {m : ℕ}
    (ha : Rolls a m) (hm : m = 1 ∨ 35 ≤ m) :
    ∃ b kxx kyy, Rolling.ball sp a = .ok b ∧ kxx < 0 ∧ 0 < kyy ∧
      ∀ ω, ∃ r, b.K ω = .ok r ∧ IsSupport a.n_link !![kxx, 0; 0, kyy] r := by
  obtain ⟨p, b, hp, hb, hr⟩ := C39_ball hc ha.numbers
  have hk : 0 < 13000000 * a.count ^ (2 / 3 : ℝ) * a.size ^ (1 / 3 : ℝ) *
      a.fs ^ (1 / 3 : ℝ) * cos a.alpha ^ (5 / 3 : ℝ) := by
    have h0 : 0 < a.count := by rw [ha.count]; exact_mod_cast ha.one
    have h1 := ha.size; have h2 := ha.load; have h3 := ha.angle
    positivity
  refine ⟨b, _, _, hb, mul_neg_of_neg_of_pos ?_ hk, hk, hr.stiffness⟩
  rw [parabola_eval hp, ha.count]
  rcases hm with rfl | hm
  · norm_num
  · have h2' : (35 : ℝ) ≤ m := by exact_mod_cast hm
    nlinarith

/-- **C39** (partial: 2 to 33 rollers) the stiffness of a roller bearing is positive in both
directions and smaller across the load than along it. -/
theorem C39_roller_positive_partial (hc : ScipyContract sp) {a : RollingArgs} {m : ℕ}
    (ha : Rolls a m) (h2 : 2 ≤ m) (h33 : m ≤ 33) :
    ∃ b kxx kyy, Rolling.roller sp a = .ok b ∧ 0 < kxx ∧ kxx < kyy ∧
      ∀ ω, ∃ r, b.K ω = .ok r ∧ IsSupport a.n_link !![kxx, 0; 0, kyy] r := by
  obtain ⟨p, b, hp, hb, hr⟩ := C39_roller hc ha.numbers
  have hk : 0 < 1000000000 * a.count ^ (9 / 10 : ℝ) * a.size ^ (8 / 10 : ℝ) *
        a.fs ^ (1 / 10 : ℝ) * cos a.alpha ^ (19 / 10 : ℝ) := by
    have h0 : 0 < a.count := by rw [ha.count]; exact_mod_cast ha.one
    have h1 := ha.size; have h2 := ha.load; have h3 := ha.angle
    positivity
  refine ⟨b, _, _, hb, mul_pos ?_ hk, ?_, hr.stiffness⟩
  · rw [parabola_eval hp, ha.count]
    have h2' : (2 : ℝ) ≤ m := by exact_mod_cast h2
    have h3' : (m : ℝ) ≤ 33 := by exact_mod_cast h33
    nlinarith
  · refine mul_lt_of_lt_one_left hk ?_
    rw [parabola_eval hp]
    nlinarith [sq_nonneg (a.count - 18)]

/-- **C39 is false for one roller and for 34 rollers or more**. -/
theorem C39_roller_positive_false (hc : ScipyContract sp) {a : RollingArgs} {m : ℕ}
    (ha : Rolls a m) (hm : m = 1 ∨ 34 ≤ m) :
    ∃ b kxx kyy, Rolling.roller sp a = .ok b ∧ kxx < 0 ∧ 0 < kyy ∧
      ∀ ω, ∃ r, b.K ω = .ok r ∧ IsSupport a.n_link !![kxx, 0; 0, kyy] r := by
  obtain ⟨p, b, hp, hb, hr⟩ := C39_roller hc ha.numbers
  have hk : 0 < 1000000000 * a.count ^ (9 / 10 : ℝ) * a.size ^ (8 / 10 : ℝ) *
        a.fs ^ (1 / 10 : ℝ) * cos a.alpha ^ (19 / 10 : ℝ) := by
    have h0 : 0 < a.count := by rw [ha.count]; exact_mod_cast ha.one
    have h1 := ha.size; have h2 := ha.load; have h3 := ha.angle
    positivity
  refine ⟨b, _, _, hb, mul_neg_of_neg_of_pos ?_ hk, hk, hr.stiffness⟩
  rw [parabola_eval hp, ha.count]
  rcases hm with rfl | hm
  · norm_num
  · have h2' : (34 : ℝ) ≤ m := by exact_mod_cast hm
    nlinarith

/-! ### Magnetic bearings -/

/-- The magnets that act along axis `i` (0 for x, 1 for y). -/
def magnets (a : MagneticArgs) (i : ℕ) : Magnets :=
  let e := Magnetic.entry i
  ⟨e a.g0, e a.i0, e a.ag, e a.nw, e a.alpha, e a.kp_pid, e a.kd_pid, e a.k_amp, e a.k_sense⟩

/-- A number, or a list with one number for each axis. -/
def OneOrTwo : Param → Prop
  | .num _ => True
  | .list l => l.length = 2

/-- All nine arguments are numbers or lists of two. -/
def AllOneOrTwo (a : MagneticArgs) : Prop :=
  ∀ p ∈ [a.g0, a.i0, a.ag, a.nw, a.alpha, a.kp_pid, a.kd_pid, a.k_amp, a.k_sense], OneOrTwo p

/-- The gap is open and the loop is closed: no gain of the loop vanishes. -/
structure Working (m : Magnets) : Prop where
  gap : m.g0 ≠ 0
  bias : m.i0 ≠ 0
  area : m.A ≠ 0
  windings : m.N ≠ 0
  angle : cos m.α ≠ 0
  amp : m.ka ≠ 0
  sense : m.ks ≠ 0

theorem ki_ne {m : Magnets} (h : Working m) : Magnetic.ki m.g0 m.i0 m.A m.N m.α ≠ 0 := by
  obtain ⟨h1, h2, h3, h4, h5, -, -⟩ := h
  unfold Magnetic.ki
  have := pi_pos.ne'
  positivity

/-- Stiffness of the controlled pair. -/
theorem force_deriv_x {m : Magnets} (hg : m.g0 ≠ 0) :
    HasDerivAt (fun x => m.force x 0)
      (-(Magnetic.ki m.g0 m.i0 m.A m.N m.α * m.ka * m.ks * m.kp +
        Magnetic.ks m.g0 m.i0 m.A m.N m.α)) 0 := by
  have hid := hasDerivAt_id (0 : ℝ)
  have hcur : HasDerivAt (fun x : ℝ => m.current x 0) (-(m.ka * m.ks * m.kp)) 0 := by
    have h := (((hid.const_mul m.kp).add_const (m.kd * 0)).const_mul (m.ka * m.ks)).neg
    refine h.congr_deriv ?_
    ring
  have n1 := (hcur.const_add m.i0).pow 2
  have n2 := (hcur.const_sub m.i0).pow 2
  have d1 := (hid.const_sub m.g0).pow 2
  have d2 := (hid.const_add m.g0).pow 2
  have h := ((n1.div d1 (by simpa using hg)).sub (n2.div d2 (by simpa using hg))).const_mul
    (Magnets.μ0 * m.N ^ 2 * m.A * cos m.α / 4)
  refine h.congr_deriv ?_
  simp only [Magnets.current, Pi.pow_apply, id, Magnetic.ki, Magnetic.ks, Magnets.μ0]
  simp only [mul_zero, add_zero, neg_zero, sub_zero]
  field_simp
  norm_num
  ring

theorem force_deriv_v {m : Magnets} (hg : m.g0 ≠ 0) :
    HasDerivAt (fun v => m.force 0 v)
      (-(Magnetic.ki m.g0 m.i0 m.A m.N m.α * m.ka * m.kd * m.ks)) 0 := by
  have hid := hasDerivAt_id (0 : ℝ)
  have hcur : HasDerivAt (fun v : ℝ => m.current 0 v) (-(m.ka * m.ks * m.kd)) 0 := by
    have h := (((hid.const_mul m.kd).const_add (m.kp * 0)).const_mul (m.ka * m.ks)).neg
    refine h.congr_deriv ?_
    ring
  have n1 := ((hcur.const_add m.i0).pow 2).div_const ((m.g0 - 0) ^ 2)
  have n2 := ((hcur.const_sub m.i0).pow 2).div_const ((m.g0 + 0) ^ 2)
  have h := (n1.sub n2).const_mul (Magnets.μ0 * m.N ^ 2 * m.A * cos m.α / 4)
  refine h.congr_deriv ?_
  simp only [Magnets.current, Magnetic.ki, Magnets.μ0]
  simp only [mul_zero, add_zero, neg_zero, sub_zero]
  field_simp
  norm_num
  ring

theorem shape_two {ps : List Param} (h : ∀ p ∈ ps, OneOrTwo p) :
    (Magnetic.shape ps = .ok none ∧ ∀ p ∈ ps, Magnetic.entry 1 p = Magnetic.entry 0 p) ∨
      Magnetic.shape ps = .ok (some 2) := by
  induction ps with
  | nil => exact Or.inl ⟨rfl, by simp⟩
  | cons p ps ih =>
    have ih' := ih fun q hq => h q (by simp [hq])
    cases p with
    | num x =>
      rcases ih' with ⟨h1, h2⟩ | h1
      · exact Or.inl ⟨h1, by simpa [Magnetic.entry] using h2⟩
      · exact Or.inr h1
    | list l =>
      right
      have hl : l.length = 2 := h (.list l) (by simp)
      rcases ih' with ⟨h1, -⟩ | h1 <;>
        simp [Magnetic.shape, h1, hl, bind, Except.bind]

theorem pick_two {ps : List Param} (h : ∀ p ∈ ps, OneOrTwo p) {f : ℕ → ℝ}
    (hf : (∀ p ∈ ps, Magnetic.entry 1 p = Magnetic.entry 0 p) → f 1 = f 0) :
    ∃ s, Magnetic.shape ps = .ok s ∧ Magnetic.pick s f = .ok (f 0, f 1) := by
  rcases shape_two h with ⟨h1, h2⟩ | h1
  · exact ⟨_, h1, by simp [Magnetic.pick, hf h2]⟩
  · exact ⟨_, h1, by simp [Magnetic.pick]⟩

/-- **C39** a magnetic bearing whose arguments are numbers or pairs has no cross coupling, and along
each axis its stiffness and damping are minus the derivatives of the force of the controlled
magnets at the centre; the stiffness is `ki k_amp k_sense kp + ks`, where `ki` is the derivative of
the uncontrolled force by the current and `-ks` that by the displacement. -/
theorem C39_magnetic {a : MagneticArgs} (ha : AllOneOrTwo a) (hx : Working (magnets a 0))
    (hy : Working (magnets a 1)) :
    ∃ b, ∃ k c : Fin 2 → ℝ, Magnetic.init a sp = .ok b ∧
      (∀ ω, ∃ r, b.K ω = .ok r ∧ IsSupport a.n_link !![k 0, 0; 0, k 1] r) ∧
      (∀ ω, ∃ r, b.C ω = .ok r ∧ IsSupport a.n_link !![c 0, 0; 0, c 1] r) ∧
      ∀ i : Fin 2, HasDerivAt (fun x => (magnets a i).force x 0) (-k i) 0 ∧
        HasDerivAt (fun v => (magnets a i).force 0 v) (-c i) 0 ∧
        ∀ ki ks, HasDerivAt (fun j => (magnets a i).pull j 0) ki 0 →
          HasDerivAt (fun x => (magnets a i).pull 0 x) (-ks) 0 →
          k i = ki * (magnets a i).ka * (magnets a i).ks * (magnets a i).kp + ks ∧
          c i = ki * (magnets a i).ka * (magnets a i).ks * (magnets a i).kd := by
  simp only [AllOneOrTwo, List.mem_cons, List.not_mem_nil, or_false, forall_eq_or_imp,
    forall_eq] at ha
  obtain ⟨a1, a2, a3, a4, a5, a6, a7, a8, a9⟩ := ha
  obtain ⟨sk, hsk, hpk⟩ := pick_two (ps := [a.g0, a.i0, a.ag, a.nw, a.alpha, a.kp_pid, a.k_amp,
    a.k_sense]) (by simp [*]) (f := Magnetic.kAt a) (fun h => by
      simp only [List.mem_cons, List.not_mem_nil, or_false, forall_eq_or_imp, forall_eq] at h
      obtain ⟨h1, h2, h3, h4, h5, h6, h7, h8⟩ := h
      simp only [Magnetic.kAt, h1, h2, h3, h4, h5, h6, h7, h8])
  obtain ⟨sc, hsc, hpc⟩ := pick_two (ps := [a.g0, a.i0, a.ag, a.nw, a.alpha, a.kd_pid, a.k_amp,
    a.k_sense]) (by simp [*]) (f := Magnetic.cAt a) (fun h => by
      simp only [List.mem_cons, List.not_mem_nil, or_false, forall_eq_or_imp, forall_eq] at h
      obtain ⟨h1, h2, h3, h4, h5, h6, h7, h8⟩ := h
      simp only [Magnetic.cAt, h1, h2, h3, h4, h5, h6, h7, h8])
  obtain ⟨b, hb, h1, h2, h3, h4, k1, k2, k3, k4, c1, c2, c3, c4⟩ := init_scalar (sp := sp) a.n
    (Magnetic.kAt a 0) (Magnetic.kAt a 1) (Magnetic.cAt a 0) (Magnetic.cAt a 1)
    a.tag a.n_link a.scale_factor "#355d7a"
  have hk : ∀ i : Fin 2, Magnetic.kAt a i = Magnetic.ki (magnets a i).g0 (magnets a i).i0
      (magnets a i).A (magnets a i).N (magnets a i).α * (magnets a i).ka * (magnets a i).ks *
      (magnets a i).kp + Magnetic.ks (magnets a i).g0 (magnets a i).i0
      (magnets a i).A (magnets a i).N (magnets a i).α := by
    intro i
    have hw : Working (magnets a i) := by fin_cases i; exacts [hx, hy]
    have n1 := ki_ne hw
    have n2 := hw.amp
    have n3 := hw.sense
    have e : Magnetic.kAt a i = Magnetic.ki (magnets a i).g0 (magnets a i).i0
      (magnets a i).A (magnets a i).N (magnets a i).α * (magnets a i).ka * (magnets a i).ks *
      ((magnets a i).kp + Magnetic.ks (magnets a i).g0 (magnets a i).i0
      (magnets a i).A (magnets a i).N (magnets a i).α / (Magnetic.ki (magnets a i).g0
      (magnets a i).i0 (magnets a i).A (magnets a i).N (magnets a i).α * (magnets a i).ka *
      (magnets a i).ks)) := rfl
    rw [e]
    field_simp
  refine ⟨b, fun i => Magnetic.kAt a i, fun i => Magnetic.cAt a i, ?_, ?_, ?_, ?_⟩
  · unfold Magnetic.init
    rw [hsk, hsc]
    simp only [bind, Except.bind, hpk, hpc]
    exact hb
  · intro ω
    refine ⟨_, ?_, linkMat_isSupport _ _⟩
    simp [BearingElement.K, Coeff.eval, k1, k2, k3, k4, h2, bind, Except.bind, pure, Except.pure]
  · intro ω
    refine ⟨_, ?_, linkMat_isSupport _ _⟩
    simp [BearingElement.C, Coeff.eval, c1, c2, c3, c4, h2, bind, Except.bind, pure, Except.pure]
  · intro i
    have hw : Working (magnets a i) := by fin_cases i; exacts [hx, hy]
    have hg := hw.gap
    refine ⟨by dsimp only; rw [hk i]; exact force_deriv_x hg, force_deriv_v hg, ?_⟩
    intro ki ks hki hks
    have u1 : HasDerivAt (fun j => (magnets a i).pull j 0) (Magnetic.ki (magnets a i).g0
        (magnets a i).i0 (magnets a i).A (magnets a i).N (magnets a i).α) 0 := by
      have h := force_deriv_v (m := { magnets a i with ka := -1, ks := 1, kd := 1 }) hg
      refine (h.congr_deriv (by ring)).congr_of_eventuallyEq
        (Filter.Eventually.of_forall fun t => ?_)
      simp [Magnets.force, Magnets.pull, Magnets.current]
    have u2 : HasDerivAt (fun x => (magnets a i).pull 0 x) (-(Magnetic.ks (magnets a i).g0
        (magnets a i).i0 (magnets a i).A (magnets a i).N (magnets a i).α)) 0 := by
      have h := force_deriv_x (m := { magnets a i with ka := 0 }) hg
      refine (h.congr_deriv (by ring)).congr_of_eventuallyEq
        (Filter.Eventually.of_forall fun t => ?_)
      simp [Magnets.force, Magnets.pull, Magnets.current]
    have v1 := hki.unique u1
    have v2 := neg_injective (hks.unique u2)
    subst v1 v2
    refine ⟨hk i, ?_⟩
    change Magnetic.ki (magnets a i).g0 (magnets a i).i0 (magnets a i).A (magnets a i).N
      (magnets a i).α * (magnets a i).ka * (magnets a i).kd * (magnets a i).ks = _
    ring

/-- **C39** with positive parameters the controlled magnets push the rotor back exactly when the
loop gain `k_amp k_sense kp` exceeds `i0 / g0`. -/
theorem C39_magnetic_stable {m : Magnets} (h0 : 0 < m.g0) (h1 : 0 < m.i0) (h2 : 0 < m.A)
    (h3 : 0 < m.N) (h4 : 0 < cos m.α) (k : ℝ) (hk : HasDerivAt (fun x => m.force x 0) (-k) 0) :
    0 < k ↔ m.i0 / m.g0 < m.ka * m.ks * m.kp := by
  have := neg_injective (hk.unique (force_deriv_x h0.ne'))
  rw [this]
  have e : Magnetic.ki m.g0 m.i0 m.A m.N m.α * m.ka * m.ks * m.kp +
      Magnetic.ks m.g0 m.i0 m.A m.N m.α = Magnetic.ki m.g0 m.i0 m.A m.N m.α *
      (m.ka * m.ks * m.kp - m.i0 / m.g0) := by
    unfold Magnetic.ki Magnetic.ks
    field_simp
    ring
  have hp : 0 < Magnetic.ki m.g0 m.i0 m.A m.N m.α := by
    unfold Magnetic.ki
    have := pi_pos
    positivity
  rw [e, mul_pos_iff_of_pos_left hp, sub_pos]

/-- **C39 is false for longer lists**: the constructor should refuse lists of more than two items,
but a third item is accepted and ignored. -/
theorem C39_magnetic_list_false (a : MagneticArgs) (g i A N α ka ks kd x y z : ℝ)
    (h1 : a.g0 = .num g) (h2 : a.i0 = .num i) (h3 : a.ag = .num A) (h4 : a.nw = .num N)
    (h5 : a.alpha = .num α) (h6 : a.k_amp = .num ka) (h7 : a.k_sense = .num ks)
    (h8 : a.kd_pid = .num kd) :
    (∃ b, Magnetic.init { a with kp_pid := .list [x, y, z] } sp = .ok b) ∧
      Magnetic.init { a with kp_pid := .list [x, y, z] } sp =
        Magnetic.init { a with kp_pid := .list [x, y] } sp := by
  have e : Magnetic.init { a with kp_pid := .list [x, y, z] } sp =
      Magnetic.init { a with kp_pid := .list [x, y] } sp := by
    simp [Magnetic.init, h1, h2, h3, h4, h5, h6, h7, h8, Magnetic.shape, bind, Except.bind,
      Magnetic.pick, Magnetic.kAt, Magnetic.cAt, Magnetic.entry]
  refine ⟨?_, e⟩
  simp only [Magnetic.init, h1, h2, h3, h4, h5, h6, h7, h8, Magnetic.shape, bind, Except.bind,
      Magnetic.pick]
  simp only [List.length_cons, List.length_nil]
  norm_num
  obtain ⟨b, hb, -⟩ := init_scalar (sp := sp) a.n
    (Magnetic.kAt { a with kp_pid := .list [x, y, z] } 0)
    (Magnetic.kAt { a with kp_pid := .list [x, y, z] } 1)
    (Magnetic.cAt { a with kp_pid := .list [x, y, z] } 0)
    (Magnetic.cAt { a with kp_pid := .list [x, y, z] } 0)
    a.tag a.n_link a.scale_factor "#355d7a"
  refine ⟨b, ?_⟩
  rw [← hb]
  congr 1
  simp [h2, h3, h4, h5, h6, h7, h8, h1]

/-! ### The hypotheses can be met -/

/-- The ball bearing of the documentation. -/
noncomputable def exBall : RollingArgs where
  n := 0
  count := 8
  size := 0.03
  fs := 500
  alpha := 0

theorem exBall_rolls : Rolls exBall 8 where
  numbers := ⟨⟨none, rfl⟩, none, rfl⟩
  count := by norm_num [exBall]
  one := by norm_num
  size := by norm_num [exBall]
  load := by norm_num [exBall]
  angle := by simp [exBall]

example : ∃ b, Rolling.ball exScipy exBall = .ok b :=
  let ⟨b, _, _, h, _⟩ := C39_ball_positive_partial exScipy_contract exBall_rolls (by norm_num)
    (by norm_num)
  ⟨b, h⟩

/-- Forty balls: a bearing that meets the hypotheses of the negative result. -/
example : Rolls { exBall with count := 40 } 40 where
  numbers := ⟨⟨none, rfl⟩, none, rfl⟩
  count := by norm_num
  one := by norm_num
  size := by norm_num [exBall]
  load := by norm_num [exBall]
  angle := by simp [exBall]

/-- A magnetic bearing with different gains along the two axes. -/
noncomputable def exMagnetic : MagneticArgs where
  n := 0
  g0 := .num 0.001
  i0 := .num 1
  ag := .num 0.0001
  nw := .num 200
  alpha := .num 0
  kp_pid := .list [2000, 3000]
  kd_pid := .num 1
  k_amp := .num 1
  k_sense := .num 1

example : AllOneOrTwo exMagnetic ∧ Working (magnets exMagnetic 0) ∧
    Working (magnets exMagnetic 1) := by
  refine ⟨by simp [AllOneOrTwo, exMagnetic, OneOrTwo], ?_, ?_⟩ <;>
    constructor <;> norm_num [magnets, exMagnetic, Magnetic.entry]

end Ross.Props
