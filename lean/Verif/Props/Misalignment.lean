import Verif.Model.Misalignment
import Verif.Spec.Misalignment
import Verif.Spec.Rubbing
import Verif.Props.Fault
import Verif.Props.Rubbing

/-! # C42: the misalignment forces -/

namespace Ross.Props

open Ross Ross.Spec Ross.Fault Ross.BearingLemmas Ross.Rotor Ross.RotorLemmas Ross.AssemblyLemmas

theorem couple_iff {N : ℕ} {n : ℕ} {fx fy t1 t2 : ℝ} {F : Fin N → ℝ} :
    couple n fx fy t1 t2 = .ok F ↔ CouplingForce F n fx fy t1 t2 := by
  unfold couple CouplingForce
  dsimp only
  constructor
  · intro h
    split_ifs at h with hN
    cases h
    refine ⟨by omega, fun i => ⟨?_, ?_, ?_, ?_, ?_, ?_, ?_⟩⟩
    all_goals intro hi
    all_goals beta_reduce
    all_goals first
      | (split_ifs <;> first | rfl | omega)
      | (simp only [List.mem_cons, List.not_mem_nil, or_false, forall_eq_or_imp, forall_eq] at hi
         split_ifs <;> first | rfl | omega)
  · rintro ⟨hN, h⟩
    rw [if_neg (by omega)]
    congr 1
    funext i
    obtain ⟨h1, h2, h3, h4, h5, h6, h7⟩ := h i
    symm
    split_ifs with a1 a2 a3 a4 a5 a6
    · exact h1 (by omega)
    · exact h2 (by omega)
    · exact h3 (by omega)
    · exact h4 (by omega)
    · exact h5 (by omega)
    · exact h6 (by omega)
    · apply h7
      simp only [List.mem_cons, List.not_mem_nil, or_false, forall_eq_or_imp, forall_eq]
      omega

theorem couple_unique {N n : ℕ} {fx fy t1 t2 gx gy s1 s2 : ℝ} {F : Fin N → ℝ}
    (h : CouplingForce F n fx fy t1 t2) (h' : CouplingForce F n gx gy s1 s2) :
    fx = gx ∧ fy = gy ∧ t1 = s1 ∧ t2 = s2 := by
  obtain ⟨hN, h⟩ := h
  obtain ⟨-, h'⟩ := h'
  refine ⟨?_, ?_, ?_, ?_⟩
  · exact ((h ⟨6 * n, by omega⟩).1 rfl).symm.trans ((h' ⟨6 * n, by omega⟩).1 rfl)
  · exact ((h ⟨6 * n + 1, by omega⟩).2.1 rfl).symm.trans ((h' ⟨6 * n + 1, by omega⟩).2.1 rfl)
  · exact ((h ⟨6 * n + 5, by omega⟩).2.2.1 rfl).symm.trans ((h' ⟨6 * n + 5, by omega⟩).2.2.1 rfl)
  · exact ((h ⟨6 * (n + 1) + 5, by omega⟩).2.2.2.2.2.1 rfl).symm.trans
      ((h' ⟨6 * (n + 1) + 5, by omega⟩).2.2.2.2.2.1 rfl)

section Flex

variable {N : ℕ} (m : MisalignmentFlex) (R θ : ℝ)

open MisalignmentFlex

theorem combined_ok {F : Fin N → ℝ} (h : m.combined R θ = .ok F) :
    ∃ P Q, m.parallel R θ = .ok P ∧ m.angular R θ = .ok Q ∧ F = P + Q := by
  unfold combined at h
  obtain ⟨P, h1, h⟩ := bind_ok.1 h
  obtain ⟨Q, h2, h⟩ := bind_ok.1 h
  cases h
  exact ⟨P, Q, h1, h2, rfl⟩

theorem parallel_ok {F : Fin N → ℝ} (h : m.parallel R θ = .ok F) : m.eCOUPx ≠ 0 ∧
    CouplingForce F m.n1 (m.kd * m.mi_x R θ) (m.kd * m.mi_y R θ) m.TD m.TL := by
  unfold MisalignmentFlex.parallel at h
  split_ifs at h with h0
  exact ⟨h0, couple_iff.1 h⟩

theorem couple_add {n : ℕ} {fx fy t1 t2 gx gy s1 s2 : ℝ} {F G : Fin N → ℝ}
    (h : CouplingForce F n fx fy t1 t2) (h' : CouplingForce G n gx gy s1 s2) :
    CouplingForce (F + G) n (fx + gx) (fy + gy) (t1 + s1) (t2 + s2) := by
  obtain ⟨hN, h⟩ := h
  obtain ⟨-, h'⟩ := h'
  refine ⟨hN, fun i => ?_⟩
  obtain ⟨a1, a2, a3, a4, a5, a6, a7⟩ := h i
  obtain ⟨b1, b2, b3, b4, b5, b6, b7⟩ := h' i
  simp only [Pi.add_apply]
  refine ⟨fun e => ?_, fun e => ?_, fun e => ?_, fun e => ?_, fun e => ?_, fun e => ?_, fun e => ?_⟩
  · rw [a1 e, b1 e]
  · rw [a2 e, b2 e]
  · rw [a3 e, b3 e]
  · rw [a4 e, b4 e]; ring
  · rw [a5 e, b5 e]; ring
  · rw [a6 e, b6 e]
  · rw [a7 e, b7 e]; ring

/-- **C42** the forces of the flexible coupling act on its two nodes, the transverse ones equal and
opposite, for every type of misalignment. -/
theorem C42_nodes (k : Kind) {F : Fin N → ℝ} (h : m.force k R θ = .ok F) :
    ∃ fx fy t1 t2, CouplingForce F m.n1 fx fy t1 t2 := by
  cases k with
  | parallel => exact ⟨_, _, _, _, (parallel_ok m R θ h).2⟩
  | angular => exact ⟨_, _, _, _, couple_iff.1 h⟩
  | combined =>
    obtain ⟨P, Q, h1, h2, rfl⟩ := combined_ok m R θ h
    exact ⟨_, _, _, _, couple_add (parallel_ok m R θ h1).2 (couple_iff.1 h2)⟩

/-- **C42** (partial) the combined type applies the sum of the transverse forces of the two others.
Missing: the torques once, which is false (`C42_torque_false`); the two single types apply them once. -/
theorem C42_combined_partial {F : Fin N → ℝ} (h : m.force .combined R θ = .ok F) :
    ∃ P Q : Fin N → ℝ, m.force .parallel R θ = .ok P ∧ m.force .angular R θ = .ok Q ∧
    ∃ px py qx qy, CouplingForce P m.n1 px py m.TD m.TL ∧ CouplingForce Q m.n1 qx qy m.TD m.TL ∧
      CouplingForce F m.n1 (px + qx) (py + qy) (2 * m.TD) (2 * m.TL) := by
  obtain ⟨P, Q, h1, h2, rfl⟩ := combined_ok m R θ h
  refine ⟨P, Q, h1, h2, _, _, _, _, (parallel_ok m R θ h1).2, couple_iff.1 h2, ?_⟩
  rw [two_mul, two_mul]
  exact couple_add (parallel_ok m R θ h1).2 (couple_iff.1 h2)

/-- **C42** fails: the combined type never applies a torque that is not zero once. -/
theorem C42_torque_false {F : Fin N → ℝ} (h : m.force .combined R θ = .ok F) (hT : m.TD ≠ 0 ∨ m.TL ≠ 0) :
    ¬ ∃ fx fy, CouplingForce F m.n1 fx fy m.TD m.TL := by
  rintro ⟨fx, fy, h'⟩
  obtain ⟨P, Q, -, -, px, py, qx, qy, -, -, h3⟩ := C42_combined_partial m R θ h
  obtain ⟨-, -, e1, e2⟩ := couple_unique h' h3
  rcases hT with hT | hT
  · exact hT (by linarith)
  · exact hT (by linarith)

/-- **C42** which couplings are accepted. -/
theorem C42_accepts (k : Kind) : (∃ F : Fin N → ℝ, m.force k R θ = .ok F) ↔
    6 * (m.n1 + 1) + 5 < N ∧ (k ≠ .angular → m.eCOUPx ≠ 0) := by
  have hc : ∀ fx fy, (∃ F : Fin N → ℝ, couple m.n1 fx fy m.TD m.TL = .ok F) ↔ 6 * (m.n1 + 1) + 5 < N := by
    intro fx fy
    constructor
    · rintro ⟨F, hF⟩; exact (couple_iff.1 hF).1
    · intro h; unfold couple; dsimp only; rw [if_neg (by omega)]; exact ⟨_, rfl⟩
  cases k with
  | parallel =>
    by_cases h0 : m.eCOUPx = 0
    · simp [MisalignmentFlex.force, MisalignmentFlex.parallel, h0]
    · simp [MisalignmentFlex.force, MisalignmentFlex.parallel, h0, hc]
  | angular =>
    simp [MisalignmentFlex.force, MisalignmentFlex.angular, hc]
  | combined =>
    constructor
    · rintro ⟨F, hF⟩
      obtain ⟨P, Q, h1, h2, rfl⟩ := combined_ok m R θ hF
      exact ⟨(couple_iff.1 h2).1, fun _ => (parallel_ok m R θ h1).1⟩
    · rintro ⟨h1, h2⟩
      have h0 := h2 (by simp)
      obtain ⟨P, hP⟩ := (hc (m.kd * m.mi_x R θ) (m.kd * m.mi_y R θ)).2 h1
      obtain ⟨Q, hQ⟩ := (hc (m.Fax R θ) (m.Fay R θ)).2 h1
      refine ⟨P + Q, bind_ok.2 ⟨P, ?_, bind_ok.2 ⟨Q, hQ, rfl⟩⟩⟩
      unfold MisalignmentFlex.parallel
      rw [if_neg h0, hP]

/-- **C42** an angle of zero gives no transverse force. -/
theorem C42_angular_zero (h0 : m.misalignment_angle = 0) {F : Fin N → ℝ} (h : m.force .angular R θ = .ok F) :
    CouplingForce F m.n1 0 0 m.TD m.TL := by
  have := couple_iff.1 (h : m.angular R θ = .ok F)
  simpa [Fax, Fay, h0] using this

/-- The force of one pin of the coupling at the angular position `θ`, in angular misalignment: along the
pin, inwards, of the size of `κ |sin θ|`. -/
noncomputable def pinForce (κ θ : ℝ) : ℝ × ℝ := (-(κ * |Real.sin θ| * Real.cos θ), -(κ * |Real.sin θ| * Real.sin θ))

/-- **C42** the law of the angular misalignment: three equal pins a third of a turn apart. -/
theorem C42_angular {F : Fin N → ℝ} (h : m.force .angular R θ = .ok F) :
    ∃ κ f, κ = |m.ks * R * Real.sqrt (2 - 2 * Real.cos m.misalignment_angle) * Real.sin m.misalignment_angle| ∧
      f = pinForce κ θ + pinForce κ (θ + 2 * Real.pi / 3) + pinForce κ (θ + 4 * Real.pi / 3) ∧
      CouplingForce F m.n1 f.1 f.2 m.TD m.TL := by
  refine ⟨_, _, rfl, rfl, ?_⟩
  have := couple_iff.1 (h : m.angular R θ = .ok F)
  have key : ∀ s : ℝ, |m.Cte R * s * Real.sin m.misalignment_angle| =
      |m.ks * R * Real.sqrt (2 - 2 * Real.cos m.misalignment_angle) * Real.sin m.misalignment_angle| * |s| := by
    intro s; rw [← abs_mul, Cte]; congr 1; ring
  have e1 : m.Fax R θ = (pinForce |m.ks * R * Real.sqrt (2 - 2 * Real.cos m.misalignment_angle) * Real.sin m.misalignment_angle| θ + pinForce |m.ks * R * Real.sqrt (2 - 2 * Real.cos m.misalignment_angle) * Real.sin m.misalignment_angle| (θ + 2 * Real.pi / 3) + pinForce |m.ks * R * Real.sqrt (2 - 2 * Real.cos m.misalignment_angle) * Real.sin m.misalignment_angle| (θ + 4 * Real.pi / 3)).1 := by
    unfold Fax pinForce
    simp only [key, Prod.fst_add]
    rw [show θ + Real.pi + 2 * Real.pi / 3 = θ + 2 * Real.pi / 3 + Real.pi by ring,
      show θ + Real.pi + 4 * Real.pi / 3 = θ + 4 * Real.pi / 3 + Real.pi by ring]
    simp only [Real.cos_add_pi]
    ring
  have e2 : m.Fay R θ = (pinForce |m.ks * R * Real.sqrt (2 - 2 * Real.cos m.misalignment_angle) * Real.sin m.misalignment_angle| θ + pinForce |m.ks * R * Real.sqrt (2 - 2 * Real.cos m.misalignment_angle) * Real.sin m.misalignment_angle| (θ + 2 * Real.pi / 3) + pinForce |m.ks * R * Real.sqrt (2 - 2 * Real.cos m.misalignment_angle) * Real.sin m.misalignment_angle| (θ + 4 * Real.pi / 3)).2 := by
    unfold Fay pinForce
    simp only [key, Prod.snd_add]
    rw [show θ + Real.pi + 2 * Real.pi / 3 = θ + 2 * Real.pi / 3 + Real.pi by ring,
      show θ + Real.pi + 4 * Real.pi / 3 = θ + 4 * Real.pi / 3 + Real.pi by ring]
    simp only [Real.sin_add_pi]
    ring
  rw [e1, e2] at this
  exact this

theorem pinForce_period (κ θ : ℝ) : pinForce κ (θ + 2 * Real.pi) = pinForce κ θ := by
  unfold pinForce; rw [Real.sin_add_two_pi, Real.cos_add_two_pi]

/-- **C42** turning the coupling by one pin does not change the force of the angular misalignment. -/
theorem C42_angular_pitch :
    (m.force .angular R (θ + 2 * Real.pi / 3) : Res (Fin N → ℝ)) = m.force .angular R θ := by
  by_cases hN : 6 * (m.n1 + 1) + 5 < N
  · obtain ⟨F, hF⟩ := (C42_accepts (N := N) m R θ .angular).2 ⟨hN, by simp⟩
    obtain ⟨G, hG⟩ := (C42_accepts (N := N) m R (θ + 2 * Real.pi / 3) .angular).2 ⟨hN, by simp⟩
    obtain ⟨κ, f, h1, h2, h3⟩ := C42_angular m R θ hF
    obtain ⟨κ', g, h1', h2', h3'⟩ := C42_angular m R _ hG
    have hfg : f = g := by
      rw [h2, h2', ← h1.trans h1'.symm, show θ + 2 * Real.pi / 3 + 2 * Real.pi / 3 = θ + 4 * Real.pi / 3 by ring,
        show θ + 2 * Real.pi / 3 + 4 * Real.pi / 3 = θ + 2 * Real.pi by ring, pinForce_period]
      abel
    rw [hfg] at h3
    rw [hF, hG]
    exact (couple_iff.2 h3').symm.trans (couple_iff.2 h3)
  · unfold MisalignmentFlex.force MisalignmentFlex.angular couple
    dsimp only
    rw [if_pos (by omega), if_pos (by omega)]

/-- The extension of a spring of length `R` along the direction `θ` whose end is moved by the offset. -/
noncomputable def ext (θ : ℝ) : ℝ :=
  Real.sqrt (R ^ 2 + m.eCOUPx ^ 2 + m.eCOUPy ^ 2 + 2 * R * m.offset * Real.sin (m.fib + θ)) - R

theorem pins (θ : ℝ) : m.pin1 R θ = ext m R θ ∧ m.pin2 R θ = ext m R (θ + 2 * Real.pi / 3) ∧
    m.pin3 R θ = -ext m R (θ + 4 * Real.pi / 3) := by
  refine ⟨rfl, ?_, ?_⟩
  · unfold pin2 ext
    rw [← Real.sin_add_pi_div_two]
    congr 5; ring
  · unfold pin3 ext
    rw [show m.fib + (θ + 4 * Real.pi / 3) = (Real.pi / 3 + m.fib + θ) + Real.pi by ring, Real.sin_add_pi,
      neg_sub]
    congr 2; ring

/-- **C42** the law of the parallel misalignment: the extensions of three pins a third of a turn apart,
the third with the opposite sign. -/
theorem C42_parallel {F : Fin N → ℝ} (h : m.force .parallel R θ = .ok F) :
    CouplingForce F m.n1
      (m.kd * (ext m R θ * Real.sin θ + ext m R (θ + 2 * Real.pi / 3) * Real.sin (θ + 2 * Real.pi / 3) -
        ext m R (θ + 4 * Real.pi / 3) * Real.sin (θ + 4 * Real.pi / 3)))
      (m.kd * (ext m R θ * Real.cos θ + ext m R (θ + 2 * Real.pi / 3) * Real.cos (θ + 2 * Real.pi / 3) -
        ext m R (θ + 4 * Real.pi / 3) * Real.cos (θ + 4 * Real.pi / 3))) m.TD m.TL := by
  have := (parallel_ok m R θ h).2
  obtain ⟨p1, p2, p3⟩ := pins m R θ
  convert this using 2
  · unfold mi_x
    rw [p1, p2, p3, add_comm θ (2 * Real.pi / 3), add_comm θ (4 * Real.pi / 3)]; ring
  · unfold mi_y
    rw [p1, p2, p3, add_comm θ (2 * Real.pi / 3), add_comm θ (4 * Real.pi / 3)]; ring

theorem ext_period (θ : ℝ) : ext m R (θ + 2 * Real.pi) = ext m R θ := by
  unfold ext; rw [← add_assoc, Real.sin_add_two_pi]

/-- **C42** fails for the parallel type: turning the coupling by one of its three equal pins changes the
force, because of the sign of the third pin. -/
theorem C42_pitch_false (hx : m.eCOUPx ≠ 0) (hk : m.kd ≠ 0) (hR : 0 < R) (hN : 6 * (m.n1 + 1) + 5 < N) :
    ∃ θ, (m.force .parallel R (θ + 2 * Real.pi / 3) : Res (Fin N → ℝ)) ≠ m.force .parallel R θ := by
  refine ⟨Real.pi / 2 - m.fib, fun he => ?_⟩
  set θ := Real.pi / 2 - m.fib with hθ
  obtain ⟨F, hF⟩ := (C42_accepts (N := N) m R θ .parallel).2 ⟨hN, fun _ => hx⟩
  have h1 := C42_parallel m R θ hF
  have h2 := C42_parallel m R _ (he.trans hF)
  obtain ⟨e1, e2, -, -⟩ := couple_unique h1 h2
  rw [show θ + 2 * Real.pi / 3 + 2 * Real.pi / 3 = θ + 4 * Real.pi / 3 by ring,
    show θ + 2 * Real.pi / 3 + 4 * Real.pi / 3 = θ + 2 * Real.pi by ring, ext_period,
    Real.sin_add_two_pi] at e1
  rw [show θ + 2 * Real.pi / 3 + 2 * Real.pi / 3 = θ + 4 * Real.pi / 3 by ring,
    show θ + 2 * Real.pi / 3 + 4 * Real.pi / 3 = θ + 2 * Real.pi by ring, ext_period,
    Real.cos_add_two_pi] at e2
  have e1 := mul_left_cancel₀ hk e1
  have e2 := mul_left_cancel₀ hk e2
  have hoff : 0 < m.offset := by
    unfold offset
    apply Real.sqrt_pos.2
    have := sq_pos_of_ne_zero hx
    positivity
  have hg : ext m R θ = m.offset := by
    unfold ext
    rw [show m.fib + θ = Real.pi / 2 by rw [hθ]; ring, Real.sin_pi_div_two]
    have : m.offset ^ 2 = m.eCOUPx ^ 2 + m.eCOUPy ^ 2 := Real.sq_sqrt (by positivity)
    rw [show R ^ 2 + m.eCOUPx ^ 2 + m.eCOUPy ^ 2 + 2 * R * m.offset * 1 = (R + m.offset) ^ 2 by
      linear_combination -this, Real.sqrt_sq (by positivity)]
    ring
  have k1 : ext m R θ * Real.sin θ = ext m R (θ + 4 * Real.pi / 3) * Real.sin (θ + 4 * Real.pi / 3) := by
    linarith
  have k2 : ext m R θ * Real.cos θ = ext m R (θ + 4 * Real.pi / 3) * Real.cos (θ + 4 * Real.pi / 3) := by
    linarith
  have k3 : ext m R θ * Real.sin (4 * Real.pi / 3) = 0 := by
    have : Real.sin (4 * Real.pi / 3) = Real.sin (θ + 4 * Real.pi / 3) * Real.cos θ -
        Real.cos (θ + 4 * Real.pi / 3) * Real.sin θ := by
      rw [← Real.sin_sub]; congr 1; ring
    rw [this]
    linear_combination Real.sin (θ + 4 * Real.pi / 3) * k2 - Real.cos (θ + 4 * Real.pi / 3) * k1
  have k4 : Real.sin (4 * Real.pi / 3) < 0 := by
    rw [show 4 * Real.pi / 3 = Real.pi / 3 + Real.pi by ring, Real.sin_add_pi]
    have := Real.sin_pos_of_pos_of_lt_pi (x := Real.pi / 3) (by positivity) (by linarith [Real.pi_pos])
    linarith
  rw [hg] at k3
  rcases mul_eq_zero.1 k3 with h | h
  · exact hoff.ne' h
  · exact k4.ne h

/-- **C42** a parallel misalignment and the opposite one are not told apart. -/
theorem C42_opposite : ({ m with eCOUPx := -m.eCOUPx, eCOUPy := -m.eCOUPy }.parallel R θ : Res (Fin N → ℝ)) =
    m.parallel R θ := by
  have h1 : ({ m with eCOUPx := -m.eCOUPx, eCOUPy := -m.eCOUPy } : MisalignmentFlex).fib = m.fib := by
    unfold fib; rw [neg_div_neg_eq]
  have h2 : ({ m with eCOUPx := -m.eCOUPx, eCOUPy := -m.eCOUPy } : MisalignmentFlex).offset = m.offset := by
    unfold offset; simp
  unfold MisalignmentFlex.parallel mi_x mi_y pin1 pin2 pin3
  rw [h1, h2]
  simp

/-- **C42** the types that `run_misalignment` knows. -/
theorem C42_kind : (∃ k, m.kind = .ok k) ↔
    m.mis_type ∈ [none, some "parallel", some "angular", some "combined"] := by
  unfold kind
  split <;> simp_all

/-- **C42** the type is the named one; without a name it is the parallel misalignment. -/
theorem C42_named (k : Kind) : m.kind = .ok k ↔
    match k with
    | .parallel => m.mis_type = none ∨ m.mis_type = some "parallel"
    | .angular => m.mis_type = some "angular"
    | .combined => m.mis_type = some "combined" := by
  unfold kind
  cases k <;> split <;> simp_all

/-- **C42** the radius is half the outer diameter of the shaft element at its left end, at the first node of the
coupling. -/
theorem C42_radius {r : Rotor} {R : ℝ} : m.radius r = .ok R ↔
    ∃ e, r.elements[m.n1]? = some (.shaft e) ∧ 2 * R = e.s.odl := by
  unfold MisalignmentFlex.radius
  constructor
  · intro h
    split at h
    · cases h
    · next e he =>
      cases Except.ok.inj h
      exact ⟨e, he, by ring⟩
    · cases h
  · rintro ⟨e, he, h⟩
    rw [he]
    simp only [Except.ok.injEq]
    linarith

/-- **C42** in a run: at the step `i` the coupling acts with the force of the angular position
`speed * t_i`. -/
theorem C42_run {ei : Eigh} {r : Rotor} {res : Result r.ndof} (h : m.run ei r = .ok res)
    (hT : m.args.tI ≠ m.args.tF) :
    ∃ k R, m.kind = .ok k ∧ m.radius r = .ok R ∧ r.disks.length = m.args.unbalance_magnitude.length ∧
      ∃ F : ℕ → Fin r.ndof → ℝ,
        (∀ i < m.args.samples, m.force k R (m.args.speed * m.args.time i) = .ok (F i)) ∧
        Fault.run ei r m.args .rk45 (.ok ((), fun _ _ i => (pure (F i) : StateM Unit (Fin r.ndof → ℝ)))) =
          .ok (res, ()) := by
  unfold MisalignmentFlex.run at h
  obtain ⟨k, h1, h⟩ := bind_ok.1 h
  obtain ⟨_, h2, h⟩ := bind_ok.1 h
  obtain ⟨_, h3, h⟩ := bind_ok.1 h
  obtain ⟨R, h4, h⟩ := bind_ok.1 h
  obtain ⟨⟨res', u⟩, h5, h⟩ := bind_ok.1 h
  cases h
  obtain ⟨md, Funb, s0, force, -, -, -, h6, -⟩ := run_ok' h5
  obtain ⟨fs, h7, h8⟩ := bind_ok.1 h6
  refine ⟨k, R, h1, h4, ?_, fun i => fs.getD i 0, fun i hi => ?_, ?_⟩
  · unfold checkDisks at h3
    split_ifs at h3 with c
    push Not at c
    exact c
  · obtain ⟨l1, l2⟩ := ConvLemmas.mapM_get h7
    simp at l1
    have := l2 i (by simpa using hi) (by omega)
    rw [List.getElem_range, (C53_speed m.args hT _).2.2] at this
    rw [this]
    simp [List.getElem?_eq_getElem (show i < fs.length by omega)]
  · rw [h6] at h5
    cases h8
    exact h5

end Flex

section Rigid

variable {N : ℕ} (m : MisalignmentRigid) (c : MisalignmentRigid.Coupling)

open MisalignmentRigid

/-- **C42** the rigid coupling: transverse forces of a spring of stiffness `kCOUP` between two points at the
distance `eCOUP` of the axis, one fixed in direction and one turning; opposite forces and torques on the two
nodes, the torque being that of the driving and loading shafts and of the displacements of the nodes. -/
theorem C42_rigid (hN : 6 * (m.n1 + 1) + 5 < N) (y : Fin N → ℝ) (φ : ℝ) :
    ∃ t, CouplingForce (m.parallel c y φ) m.n1 (-(c.kCOUP * (m.eCOUP * Real.cos φ - m.eCOUP)))
      (-(c.kCOUP * (m.eCOUP * Real.sin φ))) t (-t) ∧
      t = m.TD - m.TL - c.kCOUP * m.eCOUP *
        (c.Kcoup_auxI * planeDot (quarter (Real.cos φ, Real.sin φ)) (y ⟨6 * m.n1, by omega⟩, y ⟨6 * m.n1 + 1, by omega⟩) +
         c.Kcoup_auxF * planeDot (quarter (Real.cos φ, Real.sin φ))
          (y ⟨6 * (m.n1 + 1), by omega⟩, y ⟨6 * (m.n1 + 1) + 1, by omega⟩)) := by
  have hb : m.beta1 c y φ + (m.TD - m.TL) = m.TD - m.TL - c.kCOUP * m.eCOUP *
        (c.Kcoup_auxI * planeDot (quarter (Real.cos φ, Real.sin φ)) (y ⟨6 * m.n1, by omega⟩, y ⟨6 * m.n1 + 1, by omega⟩) +
         c.Kcoup_auxF * planeDot (quarter (Real.cos φ, Real.sin φ))
          (y ⟨6 * (m.n1 + 1), by omega⟩, y ⟨6 * (m.n1 + 1) + 1, by omega⟩)) := by
    unfold beta1
    have e1 : comp y (6 * m.n1) = y ⟨6 * m.n1, by omega⟩ := by unfold comp; rw [dif_pos (by omega)]
    have e2 : comp y (6 * m.n1 + 1) = y ⟨6 * m.n1 + 1, by omega⟩ := by unfold comp; rw [dif_pos (by omega)]
    have e3 : comp y (6 * m.n1 + 6) = y ⟨6 * (m.n1 + 1), by omega⟩ := by
      unfold comp; rw [dif_pos (by omega)]; rfl
    have e4 : comp y (6 * m.n1 + 7) = y ⟨6 * (m.n1 + 1) + 1, by omega⟩ := by
      unfold comp; rw [dif_pos (by omega)]; rfl
    rw [e1, e2, e3, e4]
    simp only [planeDot, quarter, zero_add]
    ring
  refine ⟨_, couple_iff.1 ?_, hb⟩
  unfold couple
  dsimp only
  rw [if_neg (by omega)]
  congr 1
  funext i
  unfold MisalignmentRigid.parallel
  rw [zero_add]
  split_ifs <;> first | omega | ring

/-- **C42** without an offset the rigid coupling only transmits the torque, and the angular position is
that of the driving shaft. -/
theorem C42_rigid_zero (h0 : m.eCOUP = 0) (hN : 6 * (m.n1 + 1) + 5 < N) (y : Fin N → ℝ) (φ : ℝ) :
    CouplingForce (m.parallel c y φ) m.n1 0 0 (m.TD - m.TL) (-(m.TD - m.TL)) := by
  obtain ⟨t, h1, h2⟩ := C42_rigid m c hN y φ
  have : t = m.TD - m.TL := by rw [h2]; simp [h0]
  rw [← this]
  simpa [h0] using h1

/-- **C42** the constants of the rigid coupling: shares of the two torsional stiffnesses, and the two
transverse ones in series. -/
theorem C42_rigid_coupling {K : Matrix (Fin N) (Fin N) ℝ} (h : m.coupling K = .ok c) (i1 i2 j1 j2 : Fin N)
    (hi1 : i1.val = 6 * m.n1) (hi2 : i2.val = 6 * (m.n1 + 1)) (hj1 : j1.val = 6 * m.n1 + 5)
    (hj2 : j2.val = 6 * (m.n1 + 1) + 5) (hK : K i1 i1 ≠ 0 ∧ K i2 i2 ≠ 0 ∧ K i1 i1 + K i2 i2 ≠ 0 ∧ K j1 j1 + K j2 j2 ≠ 0) :
    1 / c.kCOUP = 1 / K i1 i1 + 1 / K i2 i2 ∧ c.Kcoup_auxI + c.Kcoup_auxF = 1 ∧
    c.Kcoup_auxI * K j2 j2 = c.Kcoup_auxF * K j1 j1 ∧ c.kcoup_auxt * (K j1 j1 + K j2 j2) = 1 := by
  unfold MisalignmentRigid.coupling at h
  split_ifs at h with hN
  cases h
  have a1 : (⟨6 * m.n1, by omega⟩ : Fin N) = i1 := Fin.ext hi1.symm
  have a2 : (⟨6 * (m.n1 + 1), by omega⟩ : Fin N) = i2 := Fin.ext hi2.symm
  have a3 : (⟨5 + 6 * m.n1, by omega⟩ : Fin N) = j1 := Fin.ext (by rw [hj1]; simp; omega)
  have a4 : (⟨5 + 6 * (m.n1 + 1), by omega⟩ : Fin N) = j2 := Fin.ext (by rw [hj2]; simp; omega)
  simp only [a1, a2, a3, a4]
  obtain ⟨h1, h2, h3, h4⟩ := hK
  refine ⟨?_, ?_, ?_, ?_⟩
  · field_simp
    ring
  · rw [← add_div, div_self h4]
  · field_simp
  · field_simp

/-- **C42** one evaluation of the force: the angular position of the coupling is updated first; it is the
mean of the two shafts, which turn alike, and a correction by the relative displacement of the nodes. -/
theorem C42_rigid_step (y : Fin N → ℝ) (i : ℕ) (old : ℝ) (hT : m.args.tI ≠ m.args.tF)
    (hc : c.Kcoup_auxI + c.Kcoup_auxF = 1) (i1 i2 j1 j2 : Fin N) (hi1 : i1.val = 6 * m.n1)
    (hi2 : i2.val = 6 * (m.n1 + 1)) (hj1 : j1.val = 6 * m.n1 + 1) (hj2 : j2.val = 6 * (m.n1 + 1) + 1) :
    ∃ φ, φ = m.args.speed * m.args.time i + c.kCOUP * c.kcoup_auxt * m.eCOUP *
        planeDot (quarter (Real.cos old, Real.sin old)) (y i1 - y i2, y j1 - y j2) ∧
      (m.step c y i old) = (m.parallel c y φ, φ) := by
  refine ⟨_, ?_, rfl⟩
  unfold angANG
  have e1 : comp y (0 + 6 * m.n1) = y i1 := by
    unfold comp; rw [dif_pos (by omega)]; congr 1; exact Fin.ext (by rw [hi1]; simp)
  have e2 : comp y (0 + 6 * (m.n1 + 1)) = y i2 := by
    unfold comp; rw [dif_pos (by omega)]; congr 1; exact Fin.ext (by rw [hi2]; simp)
  have e3 : comp y (1 + 6 * m.n1) = y j1 := by
    unfold comp; rw [dif_pos (by omega)]; congr 1; exact Fin.ext (by rw [hj1]; simp; omega)
  have e4 : comp y (1 + 6 * (m.n1 + 1)) = y j2 := by
    unfold comp; rw [dif_pos (by omega)]; congr 1; exact Fin.ext (by rw [hj2]; simp; omega)
  rw [e1, e2, e3, e4, (C53_speed m.args hT _).2.2, ← add_mul, hc]
  simp only [planeDot, quarter]
  ring

/-- **C42** the run of a rigid coupling starts at an angle of one degree backwards. -/
theorem C42_rigid_run {ei : Eigh} {r : Rotor} {res : Result r.ndof} (h : m.run ei r = .ok res) :
    ∃ K c last, r.K m.args.speed = .ok K ∧ m.coupling K = .ok c ∧
      r.disks.length = m.args.unbalance_magnitude.length ∧
      Fault.run ei r m.args .rk45 (.ok (-(Real.pi / 180), fun y _ i => m.step c y i)) = .ok (res, last) := by
  unfold MisalignmentRigid.run at h
  obtain ⟨_, h2, h⟩ := bind_ok.1 h
  obtain ⟨_, h3, h⟩ := bind_ok.1 h
  obtain ⟨⟨res', u⟩, h5, h⟩ := bind_ok.1 h
  cases h
  obtain ⟨md, Funb, s0, force, -, -, -, h6, -⟩ := run_ok' h5
  obtain ⟨K, h7, h8⟩ := bind_ok.1 h6
  obtain ⟨c, h9, h8⟩ := bind_ok.1 h8
  refine ⟨K, c, u, h7, h9, ?_, ?_⟩
  · unfold checkDisks at h3
    split_ifs at h3 with c
    push Not at c
    exact c
  · rw [h6] at h5
    cases h8
    rw [neg_div] at h5
    exact h5

end Rigid

/-- A flexible coupling of the two nodes of the example. -/
noncomputable def exFlex : MisalignmentFlex := ⟨exFault, 4e4, 3.8e4, 2e-4, 0, 0.1, 5, 5, 0, some "combined"⟩

/-- A rigid coupling of the two nodes of the example. -/
noncomputable def exRigid : MisalignmentRigid := ⟨exFault, 2e-4, 5, 3, 0⟩

/-- The couplings run on the example rotor. -/
example : ∃ ei r res, EighLower ei ∧ init exPandas 10 sixArgs = some (.ok r) ∧ exFlex.run ei r = .ok res ∧
    ∃ res', exRigid.run ei r = .ok res' := by
  obtain ⟨ei, hE⟩ := eighLower_exists
  obtain ⟨r, h, hf, hp, h6, hnd, hend, hdk, hsh, he⟩ := six_facts
  have hdt : 0 < exFault.dt := by norm_num [exFault]
  have hT : exFault.tI ≤ exFault.tF := by norm_num [exFault]
  obtain ⟨R, hR⟩ : ∃ R, exFlex.radius r = .ok R := by
    unfold MisalignmentFlex.radius
    rw [elements_eq' (init_ok h), hsh]
    exact ⟨_, rfl⟩
  obtain ⟨fs, hfs⟩ : ∃ fs, ((List.range exFault.samples).mapM fun i =>
      exFlex.force (N := r.ndof) .combined R (exFault.angular_position (exFault.time i))) = .ok fs :=
    mapM_ok_of fun i _ => (C42_accepts exFlex R _ .combined).2 ⟨by simp [exFlex, hnd], fun _ => by norm_num [exFlex]⟩
  obtain ⟨res, hres⟩ := C55_runs (m := .rk45) (a := exFault) h hf (hp _) h6 (he _) hnd.ge
    (by rw [hdk]; simp) hE hdt hT ((), fun _ _ i => (pure (fs.getD i 0) : StateM Unit (Fin r.ndof → ℝ)))
  obtain ⟨-, i2, -, -⟩ := C18_assembles_iff h hf exFault.speed
  obtain ⟨K, hK⟩ := i2.2 fun e hm => ⟨(he exFault.speed e hm).1, (he exFault.speed e hm).2.1, (he exFault.speed e hm).2.2.2.1⟩
  obtain ⟨c, hc⟩ : ∃ c, exRigid.coupling K = .ok c := by
    unfold MisalignmentRigid.coupling
    rw [dif_pos (by simp [exRigid, hnd])]
    exact ⟨_, rfl⟩
  obtain ⟨res', hres'⟩ := C55_runs (m := .rk45) (a := exFault) h hf (hp _) h6 (he _) hnd.ge
    (by rw [hdk]; simp) hE hdt hT (-Real.pi / 180, fun y _ i => exRigid.step (N := r.ndof) c y i)
  refine ⟨ei, r, res.1, hE, h, ?_, res'.1, ?_⟩
  · refine bind_ok.2 ⟨.combined, rfl, bind_ok.2 ⟨(), by simp [Args.check, exFlex, exFault],
      bind_ok.2 ⟨(), by simp [checkDisks, hdk, exFlex, exFault], bind_ok.2 ⟨R, hR, bind_ok.2 ⟨res, ?_, rfl⟩⟩⟩⟩⟩
    have : (do
      let forces ← (List.range exFlex.args.samples).mapM fun i =>
        exFlex.force (N := r.ndof) .combined R (exFlex.args.angular_position (exFlex.args.time i))
      pure ((), fun (_ _ : Fin r.ndof → ℝ) i => (pure (forces.getD i 0) : StateM Unit (Fin r.ndof → ℝ))) : Res _) =
        .ok ((), fun _ _ i => pure (fs.getD i 0)) := bind_ok.2 ⟨fs, hfs, rfl⟩
    rw [this]
    exact hres
  · refine bind_ok.2 ⟨(), by simp [Args.check, exRigid, exFault],
      bind_ok.2 ⟨(), by simp [checkDisks, hdk, exRigid, exFault], bind_ok.2 ⟨res', ?_, rfl⟩⟩⟩
    have : (do
      let K ← r.K exRigid.args.speed
      let c ← exRigid.coupling K
      pure (-Real.pi / 180, fun (y : Fin r.ndof → ℝ) (_ : Fin r.ndof → ℝ) i => exRigid.step c y i) : Res _) =
        .ok (-Real.pi / 180, fun y _ i => exRigid.step c y i) := bind_ok.2 ⟨K, hK, bind_ok.2 ⟨c, hc, rfl⟩⟩
    rw [this]
    exact hres'

end Ross.Props
