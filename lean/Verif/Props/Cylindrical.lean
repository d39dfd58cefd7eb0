import Verif.Lemmas.Cylindrical
import Verif.Props.Bearing

/-! # C38: the cylindrical hydrodynamic bearing -/

namespace Ross.Props

open Real Matrix Spec ShortBearing CylLemmas BearingLemmas

/-- The load, the dimensions and the viscosity are positive. -/
structure Loaded (a : CylindricalArgs) : Prop where
  weight : 0 < a.weight
  length : 0 < a.bearing_length
  diameter : 0 < a.journal_diameter
  clearance : 0 < a.radial_clearance
  viscosity : 0 < a.oil_viscosity

/-- The journal bearing that the arguments describe. -/
def oil (a : CylindricalArgs) : ShortBearing :=
  ⟨a.journal_diameter, a.bearing_length, a.radial_clearance, a.oil_viscosity⟩

variable {sp : Scipy} {pr : PolyRoots} {a : CylindricalArgs} {b : CylindricalBearing}

theorem oil_K (ha : Loaded a) {ω : ℝ} (hω : 0 < ω) : 0 < (oil a).scale * ω / (oil a).c := by
  obtain ⟨h1, h2, h3, h4, h5⟩ := ha
  simp only [oil, scale]
  positivity

theorem oil_som (ha : Loaded a) (ω : ℝ) :
    (oil a).c * ((oil a).scale * ω / (oil a).c) / (4 * a.weight) = som a ω := by
  obtain ⟨h1, h2, h3, h4, h5⟩ := ha
  simp only [oil, scale, som]
  field_simp
  ring

theorem som_ne (ha : Loaded a) {ω : ℝ} (hω : ω ≠ 0) : som a ω ≠ 0 := by
  obtain ⟨h1, h2, h3, h4, h5⟩ := ha
  unfold som
  positivity

theorem ecc_mem (ha : Loaded a) {ω : ℝ} (hω : ω ≠ 0) : 0 < ecc a ω ∧ ecc a ω < 1 := by
  obtain ⟨h1, h2, -⟩ := qOf_spec (som_ne ha hω)
  exact ⟨sqrt_pos.2 h1, by rw [ecc, sqrt_lt' one_pos]; simpa using h2⟩

theorem ecc_balance (ha : Loaded a) {ω : ℝ} (hω : 0 < ω) :
    a.weight = (oil a).c * ecc a ω * ((oil a).scale * ω / (oil a).c) * hyp (ecc a ω) /
      (4 * √(1 - ecc a ω ^ 2) ^ 4) := by
  obtain ⟨h1, h2⟩ := ecc_mem ha hω.ne'
  rw [balance_iff (c := (oil a).c) ha.clearance (oil_K ha hω) ha.weight h1 h2, oil_som ha]
  obtain ⟨q1, q2, q3⟩ := qOf_spec (som_ne ha hω.ne')
  rw [ecc, sq_sqrt q1.le]
  exact q3

/-- The rest position, in terms of the eccentricity that the code finds. -/
theorem rests_ecc (ha : Loaded a) {ω : ℝ} (hω : 0 < ω) (x y : ℝ) :
    (oil a).Rests ω a.weight x y ↔
      x = (oil a).c * ecc a ω * π * √(1 - ecc a ω ^ 2) / hyp (ecc a ω) ∧
        y = -4 * (oil a).c * ecc a ω ^ 2 / hyp (ecc a ω) := by
  obtain ⟨e1, e2⟩ := ecc_mem ha hω.ne'
  rw [rests_iff (oil a) ha.clearance (oil_K ha hω) ha.weight]
  constructor
  · rintro ⟨e, h1, h2, h3, h4, h5⟩
    have : e = ecc a ω := by
      have k1 := (balance_iff ha.clearance (oil_K ha hω) ha.weight h1 h2).1 h3
      have k2 := (balance_iff ha.clearance (oil_K ha hω) ha.weight e1 e2).1 (ecc_balance ha hω)
      have := quart_unique ⟨by positivity, by nlinarith⟩ ⟨by positivity, by nlinarith⟩ k1 k2
      exact (pow_left_inj₀ h1.le e1.le two_ne_zero).1 this
    subst this
    exact ⟨h4, h5⟩
  · rintro ⟨h4, h5⟩
    exact ⟨_, e1, e2, ecc_balance ha hω, h4, h5⟩

theorem offset_ecc (ha : Loaded a) {ω x y : ℝ} (hω : 0 < ω) (h : (oil a).Rests ω a.weight x y) :
    offset x y = (oil a).c * ecc a ω := by
  obtain ⟨e1, e2⟩ := ecc_mem ha hω.ne'
  obtain ⟨rfl, rfl⟩ := (rests_ecc ha hω x y).1 h
  have he2 : ecc a ω ^ 2 < 1 := by nlinarith
  have hs2 : √(1 - ecc a ω ^ 2) ^ 2 = 1 - ecc a ω ^ 2 := sq_sqrt (by linarith)
  have hh2 := hyp_sq he2
  have hh0 := hyp_pos he2
  have hc : 0 < (oil a).c := ha.clearance
  unfold offset
  conv_rhs => rw [← sqrt_sq (mul_pos hc e1).le]
  congr 1
  field_simp
  rw [hh2, hs2]; ring

/-- **C38** under every load and at every positive speed the journal has exactly one rest position
inside the clearance. -/
theorem C38_equilibrium (ha : Loaded a) {ω : ℝ} (hω : 0 < ω) :
    ∃! p : ℝ × ℝ, (oil a).Rests ω a.weight p.1 p.2 := by
  refine ⟨(_, _), (rests_ecc ha hω _ _).2 ⟨rfl, rfl⟩, fun p hp => ?_⟩
  obtain ⟨h1, h2⟩ := (rests_ecc ha hω _ _).1 hp
  exact Prod.ext h1 h2

/-- **C38** the polynomial that the code solves is the balance of the film force and the weight:
an eccentricity between 0 and 1 is that of a rest position exactly when its square is a root. -/
theorem C38_polynomial (ha : Loaded a) {ω : ℝ} (hω : 0 < ω) {e s : ℝ} (h0 : 0 < e) (h1 : e < 1)
    (hs : s = a.journal_diameter * ω * a.oil_viscosity * a.bearing_length ^ 3 /
      (8 * a.radial_clearance ^ 2 * a.weight)) :
    (∃ x y, (oil a).Rests ω a.weight x y ∧ offset x y / a.radial_clearance = e) ↔
      (ofCoefs (CylindricalBearing.polyCoefs s)).eval ((e ^ 2 : ℝ) : ℂ) = 0 := by
  have hc : 0 < a.radial_clearance := ha.clearance
  have hs' : s = som a ω := hs
  obtain ⟨e1, e2⟩ := ecc_mem ha hω.ne'
  have hq : quart s (ecc a ω ^ 2) = 0 := by
    obtain ⟨q1, q2, q3⟩ := qOf_spec (som_ne ha hω.ne')
    rw [ecc, sq_sqrt q1.le, hs']
    exact q3
  rw [ofCoefs_eval, Complex.ofReal_eq_zero]
  constructor
  · rintro ⟨x, y, h, rfl⟩
    rw [offset_ecc ha hω h]
    have : (oil a).c * ecc a ω / a.radial_clearance = ecc a ω := by
      simp only [oil]; field_simp
    rw [this]; exact hq
  · intro h
    have := quart_unique ⟨by positivity, by nlinarith⟩ ⟨by positivity, by nlinarith⟩ h hq
    have he : e = ecc a ω := (pow_left_inj₀ h0.le e1.le two_ne_zero).1 this
    refine ⟨_, _, (rests_ecc ha hω _ _).2 ⟨rfl, rfl⟩, ?_⟩
    rw [offset_ecc ha hω ((rests_ecc ha hω _ _).2 ⟨rfl, rfl⟩), he]
    simp only [oil]; field_simp

theorem init_pos (hpr : FindsRoots pr) (ha : Loaded a) (h0 : ∀ ω ∈ a.speed, ω ≠ 0)
    (h : CylindricalBearing.init sp pr a = .ok b) :
    ∃ base, BearingElement.init sp (baseArgs a) = .ok base ∧
      b = ⟨base, a.speed, a.speed.map (som a),
        a.speed.map fun ω => som a ω / π * (a.journal_diameter / a.bearing_length) ^ 2,
        a.speed.map fun ω => qOf (som a ω), a.speed.map (ecc a),
        a.speed.map fun ω => CylindricalBearing.attitude (ecc a ω)⟩ := by
  rw [init_eq hpr h0 fun ω hω => som_ne ha (h0 ω hω), bind_ok] at h
  obtain ⟨base, h1, h2⟩ := h
  exact ⟨base, h1, (Except.ok.inj h2).symm⟩

/-- **C38** a bearing with at least one speed, all of them distinct and positive, is constructed. -/
theorem C38_accept (hc : ScipyContract sp) (hpr : FindsRoots pr) (ha : Loaded a)
    (hne : a.speed ≠ []) (hpos : ∀ ω ∈ a.speed, 0 < ω) (hd : a.speed.Nodup) :
    ∃ b, CylindricalBearing.init sp pr a = .ok b := by
  have h0 : ∀ ω ∈ a.speed, ω ≠ 0 := fun ω hω => (hpos ω hω).ne'
  rw [init_eq hpr h0 fun ω hω => som_ne ha (h0 ω hω)]
  obtain ⟨base, hb⟩ := init_accepts (sp := sp) (a := baseArgs a) hc hd (by
    simp [Coefs12.toList, defaults, baseArgs, Consistent, hne])
  exact ⟨_, by rw [hb]; rfl⟩

/-- **C38** every positive speed gets its own eccentricity: the distance, in clearances, at which
the film carries the weight at that speed. -/
theorem C38_eccentricity (hpr : FindsRoots pr) (ha : Loaded a) (hpos : ∀ ω ∈ a.speed, 0 < ω)
    (h : CylindricalBearing.init sp pr a = .ok b) :
    b.eccentricity.length = a.speed.length ∧ b.speed = a.speed ∧
      ∀ (i : ℕ) (ω x y : ℝ), a.speed[i]? = some ω → (oil a).Rests ω a.weight x y →
        b.eccentricity[i]? = some (offset x y / a.radial_clearance) := by
  obtain ⟨base, -, rfl⟩ := init_pos hpr ha (fun ω hω => (hpos ω hω).ne') h
  refine ⟨by simp, rfl, fun i ω x y hi hr => ?_⟩
  have hω := hpos ω (List.mem_of_getElem? hi)
  have hc : 0 < a.radial_clearance := ha.clearance
  simp only [List.getElem?_map, hi, Option.map_some, offset_ecc ha hω hr]
  congr 1
  simp only [oil]; field_simp

/-- **C38** `modified_sommerfeld` is Ocvirk's number `D ω η L³ / (8 c² W)` and `sommerfeld` is
Sommerfeld's number `η N D L / W · (R / c)²` with `N` in revolutions per second. -/
theorem C38_sommerfeld (hpr : FindsRoots pr) (ha : Loaded a) (hpos : ∀ ω ∈ a.speed, 0 < ω)
    (h : CylindricalBearing.init sp pr a = .ok b) (i : ℕ) (ω : ℝ) (hi : a.speed[i]? = some ω) :
    b.modified_sommerfeld[i]? = some (a.journal_diameter * ω * a.oil_viscosity *
      a.bearing_length ^ 3 / (8 * a.radial_clearance ^ 2 * a.weight)) ∧
    b.sommerfeld[i]? = some (a.oil_viscosity * (ω / (2 * π)) * a.journal_diameter *
      a.bearing_length / a.weight * (a.journal_diameter / 2 / a.radial_clearance) ^ 2) := by
  obtain ⟨base, -, rfl⟩ := init_pos hpr ha (fun ω hω => (hpos ω hω).ne') h
  obtain ⟨h1, h2, h3, h4, h5⟩ := ha
  have := pi_pos
  simp only [List.getElem?_map, hi, Option.map_some, som, Option.some.injEq]
  refine ⟨trivial, ?_⟩
  field_simp
  norm_num

/-- **C38** the eight stored coefficients of every positive speed are the stiffness and damping of
the oil film: minus the partial derivatives of its force, at the rest position, with respect to
displacement and velocity. -/
theorem C38_coefficients (hpr : FindsRoots pr) (ha : Loaded a) (hpos : ∀ ω ∈ a.speed, 0 < ω)
    (h : CylindricalBearing.init sp pr a = .ok b) (i : ℕ) (ω x y : ℝ)
    (hi : a.speed[i]? = some ω) (hr : (oil a).Rests ω a.weight x y) :
    ∃ kxx kxy kyx kyy cxx cxy cyx cyy,
      b.base.kxx.values[i]? = some kxx ∧ b.base.kxy.values[i]? = some kxy ∧
      b.base.kyx.values[i]? = some kyx ∧ b.base.kyy.values[i]? = some kyy ∧
      b.base.cxx.values[i]? = some cxx ∧ b.base.cxy.values[i]? = some cxy ∧
      b.base.cyx.values[i]? = some cyx ∧ b.base.cyy.values[i]? = some cyy ∧
      Linearised ((oil a).film ω) x y kxx kxy kyx kyy cxx cxy cyx cyy := by
  obtain ⟨base, hb, rfl⟩ := init_pos hpr ha (fun ω hω => (hpos ω hω).ne') h
  have hω := hpos ω (List.mem_of_getElem? hi)
  obtain ⟨e1, e2⟩ := ecc_mem ha hω.ne'
  obtain ⟨rfl, rfl⟩ := (rests_ecc ha hω x y).1 hr
  obtain ⟨-, -, -, -, -, -, hp⟩ := init_ok hb
  simp only [List.mem_cons, List.not_mem_nil, or_false, forall_eq_or_imp, forall_eq, defaults,
    baseArgs, Option.getD_some, Coeff.process] at hp
  obtain ⟨⟨p1, -⟩, ⟨p2, -⟩, ⟨p3, -⟩, ⟨p4, -⟩, ⟨p5, -⟩, ⟨p6, -⟩, ⟨p7, -⟩, ⟨p8, -⟩, -⟩ := hp
  refine ⟨_, _, _, _, _, _, _, _, ?_, ?_, ?_, ?_, ?_, ?_, ?_, ?_,
    linearised (oil a) ha.clearance hω (oil_K ha hω) e1 e2 (ecc_balance ha hω)⟩
  · simp [interpolate_values p1, hi, oil]
  · simp [interpolate_values p3, hi, oil]
  · simp [interpolate_values p4, hi, oil]
  · simp [interpolate_values p2, hi, oil]
  · simp [interpolate_values p5, hi, oil]
  · simp [interpolate_values p7, hi, oil]
  · simp [interpolate_values p8, hi, oil]
  · simp [interpolate_values p6, hi, oil]

/-- **C38** (up to three speeds, where scipy passes through the table) at every given speed the
matrices `K` and `C` are those of the oil film. -/
theorem C38_matrix (hc : ScipyContract sp) (hpr : FindsRoots pr) (ha : Loaded a)
    (hpos : ∀ ω ∈ a.speed, 0 < ω) (hd : a.speed.Nodup) (h3 : a.speed.length ≤ 3)
    (h : CylindricalBearing.init sp pr a = .ok b) (ω x y : ℝ) (hω : ω ∈ a.speed)
    (hr : (oil a).Rests ω a.weight x y) :
    ∃ k c : Matrix (Fin 2) (Fin 2) ℝ, ∃ rk rc, b.base.K ω = .ok rk ∧ b.base.C ω = .ok rc ∧
      IsSupport a.n_link k rk ∧ IsSupport a.n_link c rc ∧
      Linearised ((oil a).film ω) x y (k 0 0) (k 0 1) (k 1 0) (k 1 1)
        (c 0 0) (c 0 1) (c 1 0) (c 1 1) := by
  obtain ⟨base, hb, rfl⟩ := init_pos hpr ha (fun ω hω => (hpos ω hω).ne') h
  have hω' := hpos ω hω
  obtain ⟨e1, e2⟩ := ecc_mem ha hω'.ne'
  obtain ⟨rfl, rfl⟩ := (rests_ecc ha hω' x y).1 hr
  obtain ⟨kxx, kxy, kyx, kyy, d1, d2, d3, d4, hK⟩ :=
    C14_stiffness (a := baseArgs a) hc hd (Or.inl h3) hb
  obtain ⟨cxx, cxy, cyx, cyy, d5, d6, d7, d8, hC⟩ :=
    C14_damping (a := baseArgs a) hc hd (Or.inl h3) hb
  obtain ⟨rk, hk1, hk2⟩ := hK ω
  obtain ⟨rc, hc1, hc2⟩ := hC ω
  refine ⟨_, _, rk, rc, hk1, hc1, hk2, hc2, ?_⟩
  have key : ∀ (f g : ℝ → ℝ), Denotes sp (some a.speed) (.list (a.speed.map f)) g → g ω = f ω := by
    intro f g hg
    generalize hl : a.speed.map f = l at hg
    have hll : l.length = a.speed.length := by rw [← hl]; simp
    match l, hg with
    | [x], hg =>
      obtain ⟨w, hw⟩ := List.length_eq_one_iff.1 (hll.symm.trans rfl)
      rw [hw] at hω hl
      simp only [List.mem_singleton] at hω
      simp only [List.map_cons, List.map_nil, List.cons.injEq, and_true] at hl
      simp only [Denotes] at hg
      rw [hg, hω, hl]
    | [], _ =>
      rw [List.length_nil] at hll
      rw [List.length_eq_zero_iff.1 hll.symm] at hω
      simp at hω
    | u :: v :: t, hg =>
      simp only [Denotes] at hg
      obtain ⟨fr, hfr, -, hg⟩ := hg
      rw [Option.some.injEq] at hfr
      subst hfr
      rw [if_pos (by omega)] at hg
      obtain ⟨p, -, rfl, hp⟩ := hg
      rw [hp] at hl
      exact ((List.map_inj_left.1 hl) ω hω).symm
  simp only [Matrix.of_apply, Matrix.cons_val', Matrix.cons_val_zero, Matrix.cons_val_one,
    Matrix.cons_val_fin_one]
  rw [key _ _ d1, key _ _ d2, key _ _ d3, key _ _ d4, key _ _ d5, key _ _ d6, key _ _ d7,
    key _ _ d8]
  exact linearised (oil a) ha.clearance hω' (oil_K ha hω') e1 e2 (ecc_balance ha hω')

theorem pi_sq_gt : 9 < π ^ 2 := by have := pi_gt_three; nlinarith

/-- **C38** the film damps every motion: the damping matrix of a positive speed is symmetric and
positive definite. -/
theorem C38_damping (hpr : FindsRoots pr) (ha : Loaded a) (hpos : ∀ ω ∈ a.speed, 0 < ω)
    (h : CylindricalBearing.init sp pr a = .ok b) (i : ℕ) (ω : ℝ) (hi : a.speed[i]? = some ω) :
    ∃ cxx cxy cyy, b.base.cxx.values[i]? = some cxx ∧ b.base.cxy.values[i]? = some cxy ∧
      b.base.cyx.values[i]? = some cxy ∧ b.base.cyy.values[i]? = some cyy ∧
      ∀ u v, (u, v) ≠ ((0, 0) : ℝ × ℝ) → 0 < u * (cxx * u + cxy * v) + v * (cxy * u + cyy * v) := by
  obtain ⟨base, hb, rfl⟩ := init_pos hpr ha (fun ω hω => (hpos ω hω).ne') h
  have hω := hpos ω (List.mem_of_getElem? hi)
  obtain ⟨e1, e2⟩ := ecc_mem ha hω.ne'
  obtain ⟨-, -, -, -, -, -, hp⟩ := init_ok hb
  simp only [List.mem_cons, List.not_mem_nil, or_false, forall_eq_or_imp, forall_eq, defaults,
    baseArgs, Option.getD_some, Coeff.process] at hp
  obtain ⟨-, -, -, -, ⟨p5, -⟩, ⟨p6, -⟩, ⟨p7, -⟩, ⟨p8, -⟩, -⟩ := hp
  refine ⟨_, _, _, by simp [interpolate_values p5, hi]; rfl,
    by simp [interpolate_values p7, hi]; rfl, by simp [interpolate_values p8, hi],
    by simp [interpolate_values p6, hi]; rfl, ?_⟩
  intro u v huv
  have hc := ha.clearance
  have hW := ha.weight
  have hpi := pi_pos
  have hpi2 := pi_sq_gt
  have hpi3 := pi_sq_lt
  simp only [CylindricalBearing.buu, CylindricalBearing.buv, CylindricalBearing.bvv]
  generalize ecc a ω = e at *
  have he2 : e ^ 2 < 1 := by nlinarith
  have hs0 : 0 < √(1 - e ^ 2) := sqrt_pos.2 (by linarith)
  have hs2 : √(1 - e ^ 2) ^ 2 = 1 - e ^ 2 := sq_sqrt (by linarith)
  have hh0 := hyp_pos he2
  rw [h0_eq he2]
  have hP : 0 < π ^ 2 * (1 + 2 * e ^ 2) - 16 * e ^ 2 := by nlinarith [sq_nonneg e]
  generalize hyp e = d at *
  generalize √(1 - e ^ 2) = s at *
  rw [← hs2]
  have e2' : e ^ 2 = 1 - s ^ 2 := by linarith
  set P := π ^ 2 * (1 + 2 * e ^ 2) - 16 * e ^ 2 with hPdef
  have key : u * (a.weight / (a.radial_clearance * ω) * (1 / d ^ 3 * 2 * π * s * P / e) * u +
        a.weight / (a.radial_clearance * ω) * (-(1 / d ^ 3) * 8 * P) * v) +
      v * (a.weight / (a.radial_clearance * ω) * (-(1 / d ^ 3) * 8 * P) * u +
        a.weight / (a.radial_clearance * ω) * (1 / d ^ 3 * 2 * π *
          (π ^ 2 * (s ^ 2) ^ 2 + 48 * e ^ 2) / (e * s)) * v) =
      a.weight / (a.radial_clearance * ω) * (2 / (d ^ 3 * e * s * π)) *
        (P * (π * s * u - 4 * e * v) ^ 2 + (π ^ 2 * s ^ 2 + 16 * e ^ 2) ^ 2 * v ^ 2) := by
    rw [hPdef]
    field_simp
    grind
  rw [key]
  have hpre : 0 < a.weight / (a.radial_clearance * ω) * (2 / (d ^ 3 * e * s * π)) := by positivity
  refine mul_pos hpre ?_
  by_cases hv : v = 0
  · subst hv
    have hu : u ≠ 0 := by rintro rfl; exact huv rfl
    have : 0 < (π * s * u) ^ 2 := by positivity
    simp only [mul_zero, sub_zero, ne_eq, OfNat.ofNat_ne_zero, not_false_eq_true, zero_pow,
      add_zero]
    positivity
  · have h1 : 0 < (π ^ 2 * s ^ 2 + 16 * e ^ 2) ^ 2 * v ^ 2 := by positivity
    have h2 : 0 ≤ P * (π * s * u - 4 * e * v) ^ 2 := by positivity
    linarith

/-- **C38** at rest the journal is below the centre, displaced in the sense of the rotation, and
the angle of the line of centres from the load is `arctan (π √(1 - e²) / (4 e))`. -/
theorem C38_attitude (ha : Loaded a) {ω x y e : ℝ} (hω : 0 < ω)
    (hr : (oil a).Rests ω a.weight x y) (he : e = offset x y / a.radial_clearance) :
    0 < x ∧ y < 0 ∧ x / -y = π * √(1 - e ^ 2) / (4 * e) := by
  obtain ⟨e1, e2⟩ := ecc_mem ha hω.ne'
  have hc : 0 < a.radial_clearance := ha.clearance
  have hee : e = ecc a ω := by
    rw [he, offset_ecc ha hω hr]; simp only [oil]; field_simp
  obtain ⟨rfl, rfl⟩ := (rests_ecc ha hω x y).1 hr
  rw [← hee] at e1 e2 ⊢
  have he2 : e ^ 2 < 1 := by nlinarith
  have hs0 : 0 < √(1 - e ^ 2) := sqrt_pos.2 (by linarith)
  have hh0 := hyp_pos he2
  have hpi := pi_pos
  have hoc : (oil a).c = a.radial_clearance := rfl
  rw [hoc]
  refine ⟨by positivity, ?_, by field_simp⟩
  have : 0 < 4 * a.radial_clearance * e ^ 2 / hyp e := by positivity
  have h2 : -4 * a.radial_clearance * e ^ 2 / hyp e = -(4 * a.radial_clearance * e ^ 2 / hyp e) := by
    ring
  rw [h2]; linarith

/-- **C38 is false for the attitude angle**: the reported angle is too small at every positive speed
(the code multiplies by the eccentricity instead of dividing). -/
theorem C38_attitude_false (hpr : FindsRoots pr) (ha : Loaded a) (hpos : ∀ ω ∈ a.speed, 0 < ω)
    (h : CylindricalBearing.init sp pr a = .ok b) (i : ℕ) (ω x y : ℝ)
    (hi : a.speed[i]? = some ω) (hr : (oil a).Rests ω a.weight x y) :
    ∃ θ, b.attitude_angle[i]? = some θ ∧ θ < arctan (x / -y) := by
  have hω := hpos ω (List.mem_of_getElem? hi)
  obtain ⟨-, -, h3⟩ := C38_attitude ha hω hr rfl
  have hee : offset x y / a.radial_clearance = ecc a ω := by
    have hc : 0 < a.radial_clearance := ha.clearance
    rw [offset_ecc ha hω hr]; simp only [oil]; field_simp
  obtain ⟨base, hb, rfl⟩ := init_pos hpr ha (fun ω hω => (hpos ω hω).ne') h
  obtain ⟨e1, e2⟩ := ecc_mem ha hω.ne'
  refine ⟨_, by simp [hi]; rfl, ?_⟩
  rw [h3, hee]
  unfold CylindricalBearing.attitude
  apply arctan_strictMono
  generalize ecc a ω = e at *
  have he2 : e ^ 2 < 1 := by nlinarith
  have hs0 : 0 < √(1 - e ^ 2) := sqrt_pos.2 (by linarith)
  have hpi := pi_pos
  rw [lt_div_iff₀ (by positivity)]
  have : 0 < π * √(1 - e ^ 2) := by positivity
  nlinarith

theorem keep_len (hpr : FindsRoots pr) (s : ℝ) :
    (CylindricalBearing.keep (pr (CylindricalBearing.polyCoefs s))).length ≤ 1 := by
  by_cases hs : s = 0
  · subst hs; rw [keep_zero hpr]; simp
  · obtain ⟨h1, h2, h3⟩ := qOf_spec hs
    rw [keep_eq hpr h1 h2 h3]; simp

theorem rootList_len (hpr : FindsRoots pr) (Ss : List ℝ) :
    (CylindricalBearing.rootList pr Ss).length ≤ Ss.length ∧
      (0 ∈ Ss → (CylindricalBearing.rootList pr Ss).length < Ss.length) := by
  unfold CylindricalBearing.rootList
  induction Ss with
  | nil => simp
  | cons s t ih =>
    have hk := keep_len hpr s
    simp only [List.map_cons, List.flatten_cons, List.length_append, List.length_cons,
      List.mem_cons]
    refine ⟨by omega, ?_⟩
    rintro (h | h)
    · subst h
      rw [keep_zero hpr]
      simp only [List.length_nil]
      omega
    · have := ih.2 h
      omega

/-- **C38 is false for speed zero**: the comment of the code says that a speed of zero is replaced
to avoid errors, but only the frequency is replaced, the equation is still solved for zero and has
no root in the open interval; whatever the other arguments, the constructor fails. -/
theorem C38_zero_false (hpr : FindsRoots pr) (h0 : 0 ∈ a.speed) :
    ¬ ∃ b, CylindricalBearing.init sp pr a = .ok b := by
  rintro ⟨b, h⟩
  unfold CylindricalBearing.init at h
  rw [bind_ok] at h
  obtain ⟨base, hb, -⟩ := h
  obtain ⟨-, -, -, -, -, -, hp⟩ := init_ok hb
  obtain ⟨p1, p2⟩ := hp _ (List.mem_cons_self ..)
  simp only [defaults, CylindricalBearing.stiff, Coeff.process] at p1
  simp only [reqLen] at p2
  rw [interpolate_values p1] at p2
  have hlen := (rootList_len hpr (CylindricalBearing.modifiedSommerfeld a)).2 (by
    unfold CylindricalBearing.modifiedSommerfeld
    exact List.mem_map.2 ⟨0, h0, by simp⟩)
  simp only [List.length_map, List.length_zip, CylindricalBearing.speeds] at p2
  simp only [CylindricalBearing.modifiedSommerfeld, List.length_map] at hlen p2
  omega

/-- **C38** (remark) reversing the rotation changes the sign of the damping but not of the
stiffness: the direct damping reported for a negative speed is negative. -/
theorem C38_reverse (hpr : FindsRoots pr) (ha : Loaded a) (h0 : ∀ ω ∈ a.speed, ω ≠ 0)
    (h : CylindricalBearing.init sp pr a = .ok b) (i : ℕ) (ω : ℝ) (hi : a.speed[i]? = some ω)
    (hω : ω < 0) : ∃ k d, b.base.kxx.values[i]? = some k ∧ b.base.cxx.values[i]? = some d ∧
      0 < k ∧ d < 0 := by
  obtain ⟨base, hb, rfl⟩ := init_pos hpr ha h0 h
  obtain ⟨e1, e2⟩ := ecc_mem ha hω.ne
  obtain ⟨-, -, -, -, -, -, hp⟩ := init_ok hb
  simp only [List.mem_cons, List.not_mem_nil, or_false, forall_eq_or_imp, forall_eq, defaults,
    baseArgs, Option.getD_some, Coeff.process] at hp
  obtain ⟨⟨p1, -⟩, -, -, -, ⟨p5, -⟩, -⟩ := hp
  refine ⟨_, _, by simp [interpolate_values p1, hi]; rfl,
    by simp [interpolate_values p5, hi]; rfl, ?_, ?_⟩
  all_goals
    have hc := ha.clearance
    have hW := ha.weight
    have hpi := pi_pos
    have hpi2 := pi_sq_gt
    generalize ecc a ω = e at *
    have he2 : e ^ 2 < 1 := by nlinarith
    have hs0 : 0 < √(1 - e ^ 2) := sqrt_pos.2 (by linarith)
    have hh0 := hyp_pos he2
  · simp only [CylindricalBearing.auu, h0_eq he2]
    have : 0 < 2 - e ^ 2 := by linarith
    positivity
  · simp only [CylindricalBearing.buu, h0_eq he2]
    have hP : 0 < π ^ 2 * (1 + 2 * e ^ 2) - 16 * e ^ 2 := by nlinarith [sq_nonneg e]
    apply mul_neg_of_neg_of_pos
    · exact div_neg_of_pos_of_neg hW (mul_neg_of_pos_of_neg hc hω)
    · positivity

/-! ### The hypotheses can be met -/

/-- A root finder. -/
noncomputable def exRoots : PolyRoots := fun l => (ofCoefs l).roots.toList

theorem exRoots_finds : FindsRoots exRoots := fun l _ => by simp [exRoots]

/-- The bearing of the documentation. -/
noncomputable def exJournal : CylindricalArgs where
  n := 0
  speed := [50 * π, 1500]
  weight := 525
  bearing_length := 0.03
  journal_diameter := 0.1
  radial_clearance := 0.0001
  oil_viscosity := 0.1

theorem exJournal_loaded : Loaded exJournal := by
  constructor <;> norm_num [exJournal]

theorem exJournal_pos : ∀ ω ∈ exJournal.speed, 0 < ω := by
  have := pi_pos
  simp [exJournal, this]

theorem exJournal_nodup : exJournal.speed.Nodup := by
  have := pi_lt_four
  simp [exJournal]
  intro h
  linarith

/-- The hypotheses of the theorems of C38 are met by the bearing of the documentation. -/
example : ∃ b, CylindricalBearing.init exScipy exRoots exJournal = .ok b ∧
    ∃ x y, (oil exJournal).Rests (50 * π) exJournal.weight x y ∧ exJournal.speed[0]? = some (50 * π) := by
  obtain ⟨b, hb⟩ := C38_accept exScipy_contract exRoots_finds exJournal_loaded (by simp [exJournal])
    exJournal_pos exJournal_nodup
  obtain ⟨p, hp, -⟩ := C38_equilibrium exJournal_loaded (ω := 50 * π) (exJournal_pos _ (by simp [exJournal]))
  exact ⟨b, hb, p.1, p.2, hp, rfl⟩

/-- A bearing with a negative speed is constructed, too. -/
example : ∃ b, CylindricalBearing.init exScipy exRoots { exJournal with speed := [-150] } = .ok b := by
  have hl : Loaded { exJournal with speed := [-150] } := by constructor <;> norm_num [exJournal]
  rw [init_eq exRoots_finds (by simp) fun ω hω => som_ne hl (by
    simp at hω; rw [hω]; norm_num)]
  obtain ⟨base, hb⟩ := init_accepts (sp := exScipy)
    (a := baseArgs { exJournal with speed := [-150] }) exScipy_contract (by simp [baseArgs, Distinct]) (by
    simp [Coefs12.toList, defaults, baseArgs, Consistent])
  exact ⟨_, by rw [hb]; rfl⟩

end Ross.Props
