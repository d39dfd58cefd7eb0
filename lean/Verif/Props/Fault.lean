import Mathlib.Analysis.SpecialFunctions.Trigonometric.Angle
import Verif.Model.Dynamics
import Verif.Lemmas.Fault
import Verif.Lemmas.Convergence
import Verif.Spec.Fault
import Verif.Props.Integrator
import Verif.Props.PseudoModal
import Verif.Props.Synchronous

/-! # C43, C53, C55: the common part of the faults -/

namespace Ross.Props

open Ross Ross.Spec Ross.Fault Ross.FaultLemmas Ross.Integrator Ross.BearingLemmas Ross.Rotor
  Ross.AssemblyLemmas Ross.RotorLemmas Matrix

/-! ### C53: the rotating speed and the unbalance -/

/-- **C53** the rotor turns at the given constant speed. -/
theorem C53_speed (a : Args) (h : a.tI ≠ a.tF) (T : ℝ) :
    a.Omega T = a.speed ∧ a.AccelV T = 0 ∧ a.angular_position T = a.speed * T := by
  simp [Args.Omega, Args.AccelV, Args.angular_position, sA_eq h, sB_eq]

theorem unb_eq (a : Args) (h : a.tI ≠ a.tF) (m φ T : ℝ) :
    a.unbx m φ T = -(m * a.speed ^ 2 * Real.cos (a.speed * T + φ)) ∧
    a.unby m φ T = m * a.speed ^ 2 * Real.sin (a.speed * T + φ) := by
  obtain ⟨h1, h2, h3⟩ := C53_speed a h T
  unfold Args.unbx Args.unby Args.tetaUNB
  rw [h1, h2, h3, Real.sin_add_pi_div_two, Real.cos_add_pi_div_two]
  constructor <;> ring

/-- **C53** the unbalance force: at every disk a force of size `m ω²`, at the angle `π - φ - ω t` in the
plane of the disk, and nothing elsewhere; forces on one node add up.  Partial: the force turns against the
rotor, that it turns with it is false (`C53_mirror`, `C53_direction_false`). -/
theorem C53_force_partial {N : ℕ} (a : Args) (h : a.tI ≠ a.tF) {disks : List DiskEl} {T : ℝ} {F : Fin N → ℝ}
    (hF : FFunb a disks T = .ok F) (i : Fin N) :
    F i = ((disks.zip (a.unbalance_magnitude.zip a.unbalance_phase)).map fun x =>
      if i.val = 6 * x.1.d.n then (atAngle (x.2.1 * a.speed ^ 2) (Real.pi - x.2.2 - a.speed * T)).1
      else if i.val = 6 * x.1.d.n + 1 then (atAngle (x.2.1 * a.speed ^ 2) (Real.pi - x.2.2 - a.speed * T)).2
      else 0).sum := by
  have := (foldl_addAt a T _ _ F hF).2 i
  rw [this]
  simp only [Pi.zero_apply, zero_add]
  congr 2
  funext x
  obtain ⟨e1, e2⟩ := unb_eq a h x.2.1 x.2.2 T
  have hc : Real.cos (Real.pi - x.2.2 - a.speed * T) = -Real.cos (a.speed * T + x.2.2) := by
    rw [show Real.pi - x.2.2 - a.speed * T = Real.pi - (a.speed * T + x.2.2) by ring, Real.cos_pi_sub]
  have hs : Real.sin (Real.pi - x.2.2 - a.speed * T) = Real.sin (a.speed * T + x.2.2) := by
    rw [show Real.pi - x.2.2 - a.speed * T = Real.pi - (a.speed * T + x.2.2) by ring, Real.sin_pi_sub]
  simp only [atAngle, hc, hs, e1, e2, mul_neg]

/-- **C53** the unbalance is refused exactly when a disk is not on a node with two translations. -/
theorem C53_accepts (N : ℕ) (a : Args) (disks : List DiskEl) (T : ℝ)
    (hl : a.unbalance_magnitude.length = a.unbalance_phase.length)
    (hd : disks.length = a.unbalance_magnitude.length) :
    (∃ F : Fin N → ℝ, FFunb a disks T = .ok F) ↔ ∀ d ∈ disks, 6 * d.d.n + 1 < N := by
  have hz : (disks.zip (a.unbalance_magnitude.zip a.unbalance_phase)).map Prod.fst = disks := by
    rw [List.map_fst_zip]; simp [List.length_zip]; omega
  constructor
  · rintro ⟨F, hF⟩ d hd
    have := (foldl_addAt a T _ _ F hF).1
    rw [← hz] at hd
    obtain ⟨x, hx, rfl⟩ := List.mem_map.1 hd
    exact this x hx
  · intro h
    refine foldl_addAt_ok a T _ 0 fun x hx => h _ ?_
    rw [← hz]
    exact List.mem_map_of_mem hx

/-- The force of an unbalance in `run_unbalance_response`, at the time `T`: the real part of the phasor
turned with the rotor. -/
noncomputable def phasorAt {N : ℕ} (F : Fin N → ℂ) (w T : ℝ) (i : Fin N) : ℝ :=
  (F i * Complex.exp (Complex.I * (w * T : ℝ))).re

theorem phasor_xy (m p w T : ℝ) :
    ((w : ℂ) ^ 2 * (m * Complex.exp (Complex.I * p)) * Complex.exp (Complex.I * (w * T : ℝ))).re =
      m * w ^ 2 * Real.cos (p + w * T) ∧
    ((w : ℂ) ^ 2 * (-Complex.I * m * Complex.exp (Complex.I * p)) *
      Complex.exp (Complex.I * (w * T : ℝ))).re = m * w ^ 2 * Real.sin (p + w * T) := by
  have e : Complex.exp (Complex.I * p) * Complex.exp (Complex.I * (w * T : ℝ)) =
      (Real.cos (p + w * T) : ℂ) + (Real.sin (p + w * T) : ℂ) * Complex.I := by
    rw [← Complex.exp_add, ← mul_add, mul_comm, ← Complex.ofReal_add, Complex.exp_mul_I,
      ← Complex.ofReal_cos, ← Complex.ofReal_sin]
  constructor
  · rw [show (w : ℂ) ^ 2 * (m * Complex.exp (Complex.I * p)) * Complex.exp (Complex.I * (w * T : ℝ)) =
      ((m * w ^ 2 : ℝ) : ℂ) * (Complex.exp (Complex.I * p) * Complex.exp (Complex.I * (w * T : ℝ))) by
        push_cast; ring, e, Complex.re_ofReal_mul]
    simp [← Complex.ofReal_cos, ← Complex.ofReal_sin, -Complex.ofReal_cos, -Complex.ofReal_sin,
      ← Complex.ofReal_add, ← Complex.ofReal_mul, -Complex.ofReal_add, -Complex.ofReal_mul]
  · rw [show (w : ℂ) ^ 2 * (-Complex.I * m * Complex.exp (Complex.I * p)) *
      Complex.exp (Complex.I * (w * T : ℝ)) = ((m * w ^ 2 : ℝ) : ℂ) *
        (-Complex.I * (Complex.exp (Complex.I * p) * Complex.exp (Complex.I * (w * T : ℝ)))) by
        push_cast; ring, e, Complex.re_ofReal_mul]
    simp [← Complex.ofReal_cos, ← Complex.ofReal_sin, -Complex.ofReal_cos, -Complex.ofReal_sin,
      ← Complex.ofReal_add, ← Complex.ofReal_mul, -Complex.ofReal_add, -Complex.ofReal_mul]

/-- **C53** fails: the unbalance of a fault and the unbalance of `run_unbalance_response` for the same
magnitude, phase and speed rotate in opposite directions: one force is the mirror image of the other in the
`y` axis at every time. -/
theorem C53_mirror (r : Rotor) (h6 : r.number_dof = 6) (a : Args) (h : a.tI ≠ a.tF) {d : DiskEl} {m p : ℝ}
    (hm : a.unbalance_magnitude = [m]) (hp : a.unbalance_phase = [p])
    {U : List (Fin r.ndof → ℂ)} (hU : r.unbalance_force d.d.n m p [a.speed] = .ok U) :
    ∃ f, U = [f] ∧ ∀ T, ∃ F : Fin r.ndof → ℝ, FFunb a [d] T = .ok F ∧
      ∀ i, F i = if i.val = 6 * d.d.n then -phasorAt f a.speed T i else phasorAt f a.speed T i := by
  unfold Rotor.unbalance_force at hU
  dsimp only at hU
  rw [h6] at hU
  simp only [List.mapM_cons, List.mapM_nil] at hU
  obtain ⟨f, h1, hU⟩ := bind_ok.1 hU
  obtain ⟨l, h2, hU⟩ := bind_ok.1 hU
  cases h2
  cases hU
  split_ifs at h1 with hN
  cases h1
  refine ⟨_, rfl, fun T => ?_⟩
  obtain ⟨F, hF⟩ := (C53_accepts r.ndof a [d] T (by simp [hm, hp]) (by simp [hm])).2 (by
    intro d' hd'; simp at hd'; subst hd'; omega)
  refine ⟨F, hF, fun i => ?_⟩
  have := (foldl_addAt a T _ _ F hF).2 i
  obtain ⟨e1, e2⟩ := unb_eq a h m p T
  obtain ⟨x1, x2⟩ := phasor_xy m p a.speed T
  rw [this]
  simp only [hm, hp, List.zip_cons_cons, List.zip_nil_right, List.map_cons, List.map_nil, List.sum_cons,
    List.sum_nil, Pi.zero_apply, zero_add, add_zero, e1, e2]
  unfold phasorAt
  beta_reduce
  by_cases c1 : i.val = 6 * d.d.n
  · rw [if_pos c1, if_pos c1, if_pos ⟨c1.ge, by omega⟩, c1, Nat.sub_self, if_pos rfl, x1]
    rw [add_comm p]
  · rw [if_neg c1, if_neg c1]
    by_cases c2 : i.val = 6 * d.d.n + 1
    · rw [if_pos c2, if_pos ⟨by omega, by omega⟩, c2, Nat.add_sub_cancel_left, if_neg one_ne_zero,
        if_pos rfl, x2, add_comm p]
    · rw [if_neg c2]
      split_ifs <;> first | omega | simp

/-- **C53** fails for every rotating unbalance: no shift of the phase makes the unbalance force of a fault
turn like the rotor. -/
theorem C53_direction_false (a : Args) (h : a.tI ≠ a.tF) {m : ℝ} (hm : m ≠ 0) (hw : a.speed ≠ 0) (p δ : ℝ) :
    ¬ ∀ T, (a.unbx m p T, a.unby m p T) = atAngle (m * a.speed ^ 2) (a.speed * T + δ) := by
  intro hc
  have hA : m * a.speed ^ 2 ≠ 0 := mul_ne_zero hm (pow_ne_zero 2 hw)
  have key : ∀ t : ℝ, -Real.cos (t + p) = Real.cos (t + δ) ∧ Real.sin (t + p) = Real.sin (t + δ) := by
    intro t
    have := hc (t / a.speed)
    obtain ⟨e1, e2⟩ := unb_eq a h m p (t / a.speed)
    rw [e1, e2, mul_div_cancel₀ t hw] at this
    simp only [atAngle, Prod.mk.injEq] at this
    exact ⟨mul_left_cancel₀ hA (by linarith [this.1]), mul_left_cancel₀ hA this.2⟩
  have h1 := (key (-p)).1
  have h2 := (key (-p)).2
  have h3 := (key (Real.pi / 2 - p)).2
  rw [show -p + p = 0 by ring, Real.cos_zero] at h1
  rw [show Real.pi / 2 - p + p = Real.pi / 2 by ring, Real.sin_pi_div_two,
    show Real.pi / 2 - p + δ = (-p + δ) + Real.pi / 2 by ring, Real.sin_add_pi_div_two] at h3
  linarith

/-! ### C43: the time vector -/

/-- **C43** the number of samples of the time vector. -/
theorem C43_samples (a : Args) (hdt : 0 < a.dt) (hT : a.tI ≤ a.tF) :
    a.t_eval.length = ⌈(a.tF - a.tI) / a.dt⌉₊ + 1 ∧
    ∀ k (hk : k < a.t_eval.length), a.t_eval[k] = a.tI + k * a.dt := by
  have hq : 0 ≤ (a.tF - a.tI) / a.dt := div_nonneg (by linarith) hdt.le
  constructor
  · unfold Args.t_eval Args.samples
    rw [List.length_map, List.length_range,
      show (a.tF + a.dt - a.tI) / a.dt = (a.tF - a.tI) / a.dt + 1 by field_simp; ring, Int.ceil_add_one]
    have : 0 ≤ ⌈(a.tF - a.tI) / a.dt⌉ := Int.ceil_nonneg hq
    rw [← Int.natCast_ceil_eq_ceil hq]
    omega
  · intro k hk
    simp [Args.t_eval, Args.time]

variable {ei : Eigh} {r : Rotor} {a : Args} {m : Method} {S : Type}

theorem run_ok' {prep : Res (S × ((Fin r.ndof → ℝ) → (Fin r.ndof → ℝ) → ℕ → StateM S (Fin r.ndof → ℝ)))}
    {res : Result r.ndof × S} (h : Fault.run ei r a m prep = .ok res) :
    ∃ md Funb s0 force, modal ei r a.speed = .ok md ∧ a.dt ≠ 0 ∧
      ((List.range a.samples).mapM fun i => FFunb (N := r.ndof) a r.disks (a.time i)) = .ok Funb ∧
      prep = .ok (s0, force) ∧ ∃ x, m.run a (eqMotion a md (fun i => Funb.getD i 0) force) = .ok x ∧
      res = (⟨a.t_eval, (x s0).1.map fun Y => md.ModMat *ᵥ positions Y⟩, (x s0).2) := by
  unfold Fault.run at h
  obtain ⟨md, h1, h⟩ := bind_ok.1 h
  split_ifs at h with h2
  obtain ⟨Funb, h3, h⟩ := bind_ok.1 h
  obtain ⟨⟨s0, force⟩, h4, h⟩ := bind_ok.1 h
  obtain ⟨x, h5, h⟩ := bind_ok.1 h
  cases h
  exact ⟨md, Funb, s0, force, h1, h2, h3, h4, x, h5, rfl⟩

/-- **C43** after a run the response has one column for each whole step and one for the initial state; the
time vector may have one sample more. -/
theorem C43_columns {prep : Res (S × ((Fin r.ndof → ℝ) → (Fin r.ndof → ℝ) → ℕ → StateM S (Fin r.ndof → ℝ)))}
    {res : Result r.ndof × S} (h : Fault.run ei r a m prep = .ok res) (hdt : 0 < a.dt) (hT : a.tI ≤ a.tF) :
    res.1.time_vector = a.t_eval ∧ res.1.response.length = ⌊(a.tF - a.tI) / a.dt⌋₊ + 1 := by
  obtain ⟨md, Funb, s0, force, -, -, -, -, x, h5, rfl⟩ := run_ok' h
  refine ⟨rfl, ?_⟩
  rw [method_run] at h5
  obtain ⟨-, -, Q, q1, -, -, q4, -⟩ := run_states h5 s0
  have hq : 0 ≤ (a.tF - a.tI) / a.dt := div_nonneg (by linarith) hdt.le
  simp only [List.length_map, q4]
  rw [q1]
  unfold pyInt
  rw [if_pos hq]
  rfl

/-- **C43** (partial) the time vector and the response have the same length exactly when the interval is a
whole number of steps; otherwise the time vector has one sample more. Missing: the equality for the other
intervals, where it is false. -/
theorem C43_partial {prep : Res (S × ((Fin r.ndof → ℝ) → (Fin r.ndof → ℝ) → ℕ → StateM S (Fin r.ndof → ℝ)))}
    {res : Result r.ndof × S} (h : Fault.run ei r a m prep = .ok res) (hdt : 0 < a.dt) (hT : a.tI ≤ a.tF) :
    (res.1.time_vector.length = res.1.response.length ↔ ∃ n : ℕ, a.tF = a.tI + n * a.dt) ∧
    (res.1.time_vector.length = res.1.response.length ∨
      res.1.time_vector.length = res.1.response.length + 1) := by
  obtain ⟨c1, c2⟩ := C43_columns h hdt hT
  rw [c1, c2, (C43_samples a hdt hT).1]
  have hq : 0 ≤ (a.tF - a.tI) / a.dt := div_nonneg (by linarith) hdt.le
  have hiff : (∃ n : ℕ, a.tF = a.tI + n * a.dt) ↔ ∃ n : ℕ, (n : ℝ) = (a.tF - a.tI) / a.dt := by
    refine exists_congr fun n => ?_
    rw [eq_div_iff hdt.ne']
    constructor <;> intro h <;> linarith
  rw [hiff]
  generalize (a.tF - a.tI) / a.dt = q at hq
  refine ⟨⟨fun e => ⟨⌊q⌋₊, ?_⟩, ?_⟩, ?_⟩
  · have h1 := Nat.floor_le hq
    have h2 := Nat.le_ceil q
    have : ⌈q⌉₊ = ⌊q⌋₊ := by omega
    rw [this] at h2
    linarith
  · rintro ⟨n, rfl⟩
    simp
  · have h1 : ⌈q⌉₊ ≤ ⌊q⌋₊ + 1 := Nat.ceil_le_floor_add_one q
    have h2 : ⌊q⌋₊ ≤ ⌈q⌉₊ := Nat.floor_le_ceil q
    omega

/-! ### C55: the equations of motion -/

theorem modal_ok {md : Fault.Modal r.ndof} {s : ℝ} (h : modal ei r s = .ok md) :
    ∃ K C G M Ks w V, r.K s = .ok K ∧ r.C s = .ok C ∧ r.G = .ok G ∧ r.M (some s) = .ok M ∧
      r.Ksdt = .ok Ks ∧ ei.eigh K M = some (w, V) ∧ ∃ hn : 12 ≤ r.ndof,
      (∀ i j, md.ModMat i j = V i ⟨j.val, by omega⟩) ∧
      md.M = md.ModMatᵀ * M * md.ModMat ∧ md.C = md.ModMatᵀ * C * md.ModMat ∧
      md.G = md.ModMatᵀ * G * md.ModMat ∧ md.K = md.ModMatᵀ * K * md.ModMat ∧
      md.Ksdt = md.ModMatᵀ * Ks * md.ModMat := by
  unfold modal at h
  obtain ⟨K, hK, h⟩ := bind_ok.1 h
  obtain ⟨C, hC, h⟩ := bind_ok.1 h
  obtain ⟨G, hG, h⟩ := bind_ok.1 h
  obtain ⟨M, hM, h⟩ := bind_ok.1 h
  obtain ⟨Ks, hKs, h⟩ := bind_ok.1 h
  cases he : ei.eigh K M with
  | none => rw [he] at h; simp at h
  | some p =>
    obtain ⟨w, V⟩ := p
    rw [he] at h
    dsimp only at h
    split_ifs at h with hn
    cases h
    exact ⟨K, C, G, M, Ks, w, V, hK, hC, hG, hM, hKs, he, hn, fun i j => rfl, rfl, rfl, rfl, rfl, rfl⟩

/-- **C55** the modes on which the equations are projected: the first twelve eigenvectors of the symmetric
stiffness matrix that `eigh` reads, orthonormal with respect to the mass matrix. -/
theorem C55_modes (hE : EighLower ei) {s : ℝ} {md : Fault.Modal r.ndof} (h : modal ei r s = .ok md)
    {K M : Matrix (Fin r.ndof) (Fin r.ndof) ℝ} (hK : r.K s = .ok K) (hM : r.M (some s) = .ok M)
    (hMs : Mᵀ = M) (hMp : ∀ v ≠ 0, 0 < v ⬝ᵥ (M *ᵥ v)) :
    md.ModMatᵀ * M * md.ModMat = 1 ∧ md.M = 1 ∧ ∃ w : Fin 12 → ℝ, Monotone w ∧
      ∀ j, lowerSymm K *ᵥ (fun i => md.ModMat i j) = w j • (M *ᵥ fun i => md.ModMat i j) := by
  obtain ⟨K', C, G, M', Ks, w, V, hK', hC, hG, hM', hKs, he, hn, hΦ, e1, -⟩ := modal_ok h
  rw [hK] at hK'; cases hK'
  rw [hM] at hM'; cases hM'
  obtain ⟨w', V', e2, e3, e4, e5⟩ := hE K M hMs hMp
  rw [he] at e2; cases e2
  have h1 : md.ModMatᵀ * M * md.ModMat = 1 := by
    ext p q
    have := congrFun (congrFun e3 ⟨p, by omega⟩) ⟨q, by omega⟩
    simp only [Matrix.mul_apply, Matrix.transpose_apply, hΦ] at this ⊢
    rw [this]
    simp [Matrix.one_apply, Fin.ext_iff]
  refine ⟨h1, e1.trans h1, fun j => w ⟨j, by omega⟩, fun i j hij => e5 (by simpa using hij), fun j => ?_⟩
  funext i
  have := congrFun (congrFun e4 i) ⟨j, by omega⟩
  rw [Matrix.mul_diagonal] at this
  simp only [Matrix.mul_apply] at this
  simp only [mulVec, dotProduct, hΦ, Pi.smul_apply, smul_eq_mul]
  rw [this, mul_comm]

theorem proj_mulVec {N : ℕ} (Φ : Matrix (Fin N) (Fin 12) ℝ) (B : Matrix (Fin N) (Fin N) ℝ) (w q : Fin 12 → ℝ) :
    w ⬝ᵥ ((Φᵀ * B * Φ) *ᵥ q) = (Φ *ᵥ w) ⬝ᵥ (B *ᵥ (Φ *ᵥ q)) := by
  rw [← mulVec_mulVec, ← mulVec_mulVec, dotProduct_mulVec w Φᵀ, vecMul_transpose]

/-- **C55** what the integrator integrates: the derivative of the positions is the velocity, and the
acceleration satisfies the equations of motion of the whole rotor
`M x'' + (C + ω G) x' + K x = unbalance + force of the fault`, projected on the modes. -/
theorem C55_equation (hE : EighLower ei) (hT : a.tI ≠ a.tF) {md : Fault.Modal r.ndof}
    (h : modal ei r a.speed = .ok md) {K C G M : Matrix (Fin r.ndof) (Fin r.ndof) ℝ}
    (hK : r.K a.speed = .ok K) (hC : r.C a.speed = .ok C) (hG : r.G = .ok G)
    (hM : r.M (some a.speed) = .ok M) (hMs : Mᵀ = M) (hMp : ∀ v ≠ 0, 0 < v ⬝ᵥ (M *ᵥ v))
    (Funb : ℕ → Fin r.ndof → ℝ)
    (force : (Fin r.ndof → ℝ) → (Fin r.ndof → ℝ) → ℕ → StateM S (Fin r.ndof → ℝ))
    (T : ℝ) (Y : Vec) (i : ℕ) (s : S) :
    let Φ := md.ModMat
    let f := force (Φ *ᵥ positions Y) (Φ *ᵥ velocity Y) i s
    let Y' := eqMotion a md Funb force T Y i s
    positions Y'.1 = velocity Y ∧ Y'.2 = f.2 ∧
      Galerkin Φ M (C + a.speed • G) K (Funb i + f.1) (positions Y) (velocity Y) (velocity Y'.1) := by
  intro Φ f Y'
  obtain ⟨o1, o2, -⟩ := C55_modes hE h hK hM hMs hMp
  obtain ⟨K', C', G', M', Ks, w, V, hK', hC', hG', hM', hKs, he, hn, hΦ, e1, e2, e3, e4, e5⟩ := modal_ok h
  rw [hK] at hK'; cases hK'
  rw [hC] at hC'; cases hC'
  rw [hG] at hG'; cases hG'
  obtain ⟨s1, s2, -⟩ := C53_speed a hT (a.time i)
  have hY : Y' = (joinState (velocity Y) ((Φᵀ *ᵥ f.1 + Φᵀ *ᵥ Funb i
      - (md.C + a.Omega (a.time i) • md.G) *ᵥ velocity Y
      - (md.K + a.AccelV (a.time i) • md.Ksdt) *ᵥ positions Y) ᵥ* md.M⁻¹), f.2) := rfl
  refine ⟨by rw [hY, positions_join], by rw [hY], ?_⟩
  intro w
  rw [hY, velocity_join, o2, inv_one, vecMul_one, s1, s2, zero_smul, add_zero]
  rw [dotProduct_sub, dotProduct_add, dotProduct_add, ← proj_mulVec, o1, one_mulVec, ← proj_mulVec,
    ← proj_mulVec]
  have t1 : ∀ x : Fin r.ndof → ℝ, w ⬝ᵥ (Φᵀ *ᵥ x) = (Φ *ᵥ w) ⬝ᵥ x := fun x => by
    rw [dotProduct_mulVec w Φᵀ, vecMul_transpose]
  have t2 : Φᵀ * (C + a.speed • G) * Φ = md.C + a.speed • md.G := by
    rw [e2, e3, Matrix.mul_add, Matrix.add_mul, Matrix.mul_smul, Matrix.smul_mul]
  rw [t2, ← e4, dotProduct_sub, dotProduct_sub, dotProduct_add, t1, t1, dotProduct_add]
  ring

/-- **C55** the result of a run: a sequence of modal states that starts at rest and is continued by steps
of the integrator; the response is the motion of the modes. -/
theorem C55_run {prep : Res (S × ((Fin r.ndof → ℝ) → (Fin r.ndof → ℝ) → ℕ → StateM S (Fin r.ndof → ℝ)))}
    {res : Result r.ndof × S} (h : Fault.run ei r a m prep = .ok res) :
    ∃ md s0 force, modal ei r a.speed = .ok md ∧ prep = .ok (s0, force) ∧
    ∃ Funb : ℕ → Fin r.ndof → ℝ, (∀ k < a.samples, FFunb a r.disks (a.time k) = .ok (Funb k)) ∧
    ∃ Q : List (Vec × S), Q[0]? = some (0, s0) ∧
      res.1.response = Q.map (fun Y => md.ModMat *ᵥ positions Y.1) ∧
      ∀ k (hk : k + 1 < Q.length), Q[k + 1] = (match m with
        | .rk4 => rk4Step a.dt (eqMotion a md Funb force) (a.time k) Q[k].1 (k + 1) Q[k].2
        | .rk45 => rk45Step a.dt (eqMotion a md Funb force) (a.time k) Q[k].1 (k + 1) Q[k].2) := by
  obtain ⟨md, Funb, s0, force, h1, h2, h3, h4, x, h5, rfl⟩ := run_ok' h
  rw [method_run] at h5
  obtain ⟨-, -, Q, q1, q2, q3, q4, -⟩ := run_states h5 s0
  refine ⟨md, s0, force, h1, h4, fun i => Funb.getD i 0, ?_, Q, q2, ?_, fun k hk => ?_⟩
  · intro k hk
    obtain ⟨l1, l2⟩ := ConvLemmas.mapM_get h3
    have := l2 k (by simpa using hk) (by simp at l1; omega)
    rw [List.getElem_range] at this
    rw [this]
    simp at l1
    simp [List.getElem?_eq_getElem (show k < Funb.length by omega)]
  · simp only [q4, List.map_map]
    rfl
  · rw [q3 k hk]
    cases m <;> rfl

/-- **C55** runs: the equations of motion of a passive 6-dof rotor can be integrated over every interval,
for every fault that can be prepared. -/
theorem C55_runs {pd : Pandas} {fuel : ℕ} {ra : RotorArgs} (h : init pd fuel ra = some (.ok r))
    (hf : ∀ e ∈ r.elements, Fits r.number_dof e) (hp : Passive r a.speed) (h6 : r.number_dof = 6)
    (he : ∀ e ∈ r.elements, InRange r e ∧ NotSelfLinked e ∧ (∃ E, e.M a.speed = .ok E) ∧
      (∃ E, e.K a.speed = .ok E) ∧ (∃ E, e.C a.speed = .ok E) ∧ ∃ E, e.G = .ok E)
    (hn : 12 ≤ r.ndof) (hd : ∀ d ∈ r.disks, d.d.n ≤ shaftEnd r) (hE : EighLower ei)
    (hdt : 0 < a.dt) (hT : a.tI ≤ a.tF)
    (p : S × ((Fin r.ndof → ℝ) → (Fin r.ndof → ℝ) → ℕ → StateM S (Fin r.ndof → ℝ))) :
    ∃ res, Fault.run ei r a m (.ok p) = .ok res := by
  have hb := init_ok h
  obtain ⟨i1, i2, i3, i4⟩ := C18_assembles_iff h hf a.speed
  obtain ⟨M, hM⟩ := i1.2 fun e hm => ⟨(he e hm).1, (he e hm).2.1, (he e hm).2.2.1⟩
  obtain ⟨K, hK⟩ := i2.2 fun e hm => ⟨(he e hm).1, (he e hm).2.1, (he e hm).2.2.2.1⟩
  obtain ⟨C, hC⟩ := i3.2 fun e hm => ⟨(he e hm).1, (he e hm).2.1, (he e hm).2.2.2.2.1⟩
  obtain ⟨G, hG⟩ := i4.2 fun e hm => ⟨(he e hm).1, (he e hm).2.1, (he e hm).2.2.2.2.2⟩
  have hsz : ∀ e E, kdtOf e = .ok E → E.1 = elemSize e := by
    intro e E hx
    rcases e with ⟨_ | _, s⟩ | ⟨_ | _, d⟩ | b | q <;> simp [kdtOf] at hx <;> subst hx <;> rfl
  obtain ⟨Ks, hKs⟩ : ∃ B, r.Ksdt = .ok B := by
    unfold Rotor.Ksdt
    rw [if_pos h6]
    refine (succeeds_iff h hf (mat := kdtOf)
      (fun e => match e with | .shaft _ => true | .disk _ => true | _ => false) hsz).2 fun e hm hq => ?_
    refine ⟨(he e hm).1, (he e hm).2.1, ?_⟩
    rcases (mem_elements hb e).1 hm with ⟨s, hs, rfl⟩ | ⟨s, hs, rfl⟩ | ⟨s, hs, rfl⟩ | ⟨q, hs, rfl⟩
    · have : s.six = true := by rw [(check_ok hb.dof).2.2.1 s hs, h6]; rfl
      obtain ⟨six, s⟩ := s
      simp only at this; subst this
      exact ⟨_, rfl⟩
    · have : s.six = true := by rw [(check_ok hb.dof).2.2.2.1 s hs, h6]; rfl
      obtain ⟨six, s⟩ := s
      simp only at this; subst this
      exact ⟨_, rfl⟩
    · simp at hq
    · simp at hq
  obtain ⟨f1, -, -⟩ := C47_forms h hf hp
  obtain ⟨w, V, hw, -⟩ := hE K M (f1 M hM).1 (f1 M hM).2
  obtain ⟨md, hmd⟩ : ∃ md, modal ei r a.speed = .ok md := by
    unfold modal
    simp only [hK, hC, hG, hM, hKs, hw, bind, Except.bind, dif_pos hn]
    exact ⟨_, rfl⟩
  have hlen : ∀ z ∈ r.disks.zip (a.unbalance_magnitude.zip a.unbalance_phase), 6 * z.1.d.n + 1 < r.ndof := by
    intro z hz
    have h1 := hd _ (List.of_mem_zip hz).1
    have := ndof_eq hb
    rw [← shaftEnd_last h, h6] at this
    unfold size at this
    omega
  obtain ⟨Funb, hF⟩ : ∃ F, ((List.range a.samples).mapM fun i => FFunb (N := r.ndof) a r.disks (a.time i)) =
      .ok F := mapM_ok_of fun i _ => foldl_addAt_ok a _ _ 0 hlen
  have hq : 0 ≤ (a.tF - a.tI) / a.dt := div_nonneg (by linarith) hdt.le
  obtain ⟨x, hx⟩ : ∃ x, m.run a (eqMotion a md (fun i => Funb.getD i 0) p.2) = .ok x := by
    rw [method_run]
    unfold Integrator.run
    dsimp only
    have hp0 : 0 ≤ pyInt ((a.tF - a.tI) / a.dt) := by
      unfold pyInt; rw [if_pos hq]; exact Int.floor_nonneg.2 hq
    rw [if_neg hdt.ne', if_neg (by omega), if_neg (by omega)]
    exact ⟨_, rfl⟩
  unfold Fault.run
  simp only [hmd, hF, hx, bind, Except.bind, if_neg hdt.ne']
  exact ⟨_, rfl⟩

/-- The assumption on the eigenvalue solver can be met. -/
theorem eighLower_exists : ∃ ei, EighLower ei := by
  obtain ⟨ei, hei⟩ := eigh_exists
  refine ⟨⟨fun {N} A B => ei.eigh (lowerSymm A) B⟩, fun {N} A B h1 h2 => ?_⟩
  refine hei (lowerSymm A) B ?_ h1 h2
  ext i j
  simp only [transpose_apply, lowerSymm, of_apply]
  rcases lt_trichotomy i j with hij | rfl | hij
  · rw [if_pos hij.le, if_neg (not_le.2 hij)]
  · rfl
  · rw [if_neg (not_le.2 hij), if_pos hij.le]

/-- The rotor of the examples: one 6-dof shaft element with a disk. -/
theorem six_facts : ∃ r, init exPandas 10 sixArgs = some (.ok r) ∧
    (∀ e ∈ r.elements, Fits r.number_dof e) ∧ (∀ ω, Passive r ω) ∧ r.number_dof = 6 ∧ r.ndof = 12 ∧
    shaftEnd r = 1 ∧ r.disks = [⟨true, ⟨0, 30, 1, 2, some "disk", 1, ""⟩⟩] ∧
    r.shaft = [⟨true, { exShaft with n := some 0, tag := some "shaft", gyroscopic := false }⟩] ∧
    ∀ ω, ∀ e ∈ r.elements, InRange r e ∧ NotSelfLinked e ∧ (∃ E, e.M ω = .ok E) ∧
      (∃ E, e.K ω = .ok E) ∧ (∃ E, e.C ω = .ok E) ∧ ∃ E, e.G = .ok E := by
  obtain ⟨r, h, h6, -, hfull⟩ := accepts exPandas_sorts sixArgs_wf (fuel := 10) (by simp [sixArgs])
  simp only [if_true] at h6
  have hb := init_ok h
  have hend : shaftEnd r = 1 := by rw [shaftEnd_eq h, lastShaftNode_full hfull]
  have hpm : r.pms = [] := by rw [hb.pms]; rfl
  have hbr : r.bearings = [] := by
    rw [hb.bearings]
    have := parts_br_perm sixArgs
    simpa [tagBearings, sixArgs] using this
  have hdk : r.disks = [⟨true, ⟨0, 30, 1, 2, some "disk", 1, ""⟩⟩] := by rw [hb.disks]; rfl
  have hsh : r.shaft = [⟨true, { exShaft with n := some 0, tag := some "shaft", gyroscopic := false }⟩] := by
    rw [hb.shaft]
    have := parts_sh_perm sixArgs
    simpa [parts, numberShaft, sixArgs, Nest.flattenAll, Nest.flatten, defTag,
      List.perm_singleton] using this
  have hnd : r.ndof = 12 := by
    rw [ndof_eq hb, ← shaftEnd_last h, h6, hend, hpm]; rfl
  have hel : r.elements =
      [.shaft ⟨true, { exShaft with n := some 0, tag := some "shaft", gyroscopic := false }⟩,
        .disk ⟨true, ⟨0, 30, 1, 2, some "disk", 1, ""⟩⟩] := by
    rw [elements_eq' hb, hsh, hdk, hbr, hpm]; rfl
  refine ⟨r, h, by rw [hel]; simp [Fits], fun ω => ⟨?_, ?_, ?_, ?_, ?_, ?_⟩, h6, hnd, hend, hdk, hsh, ?_⟩
  · rw [hsh]
    simp only [List.mem_singleton, forall_eq]
    exact ⟨ShaftLemmas.facts_built (ShaftLemmas.physical_facts exShaft_physical (Or.inr rfl)),
      exShaft_physical, by norm_num [exShaft], rfl, by norm_num [exShaft], by norm_num [exShaft]⟩
  · intro k hk
    rw [hend] at hk
    rw [hsh]
    exact ⟨_, List.mem_singleton.2 rfl, by simp; omega⟩
  · rw [hdk]; norm_num
  · rw [hbr]; simp
  · rw [hpm]; simp
  · intro k k1 k2; rw [hpm] at k2; simp at k2; omega
  · intro ω e he
    rw [hel] at he
    unfold InRange
    rw [hend, hpm, h6]
    simp at he
    rcases he with rfl | rfl
    · refine ⟨fun key hkey => ?_, trivial, ⟨_, rfl⟩, ⟨_, rfl⟩, ⟨_, rfl⟩, ⟨_, rfl⟩⟩
      simp [attach, Elm.n, nodeLetters, dofsAt] at hkey
      rcases hkey with h | h | h | h | h | h | h | h | h | h | h | h <;> subst h <;> simp
    · refine ⟨fun key hkey => ?_, trivial, ⟨_, rfl⟩, ⟨_, rfl⟩, ⟨_, rfl⟩, ⟨_, rfl⟩⟩
      simp [attach, Elm.n, nodeLetters, dofsAt] at hkey
      rcases hkey with h | h | h | h | h | h <;> subst h <;> simp

/-- The arguments of the examples: three and a half steps. -/
noncomputable def exFault : Args := ⟨0.1, 0, 0.35, 100, [5e-4], [0]⟩

/-- The hypotheses of C43, C53 and C55 are met by a run of the example rotor, and there the time vector is
longer than the response. -/
theorem C43_false : ∃ ei r res, init exPandas 10 sixArgs = some (.ok r) ∧ EighLower ei ∧
    checkDisks r exFault = .ok () ∧
    Fault.run (S := Unit) ei r exFault .rk4 (.ok ((), fun _ _ _ => pure 0)) = .ok res ∧
    res.1.time_vector.length = 5 ∧ res.1.response.length = 4 := by
  obtain ⟨ei, hE⟩ := eighLower_exists
  obtain ⟨r, h, hf, hp, h6, hnd, hend, hdk, hsh, he⟩ := six_facts
  obtain ⟨res, hres⟩ := C55_runs (m := .rk4) (a := exFault) h hf (hp _) h6 (he _) hnd.ge
    (by rw [hdk]; simp) hE (by norm_num [exFault]) (by norm_num [exFault])
    ((), fun _ _ _ => (pure 0 : StateM Unit (Fin r.ndof → ℝ)))
  have hdt : 0 < exFault.dt := by norm_num [exFault]
  have hT : exFault.tI ≤ exFault.tF := by norm_num [exFault]
  have hfl : ⌊(exFault.tF - exFault.tI) / exFault.dt⌋₊ = 3 := by
    rw [Nat.floor_eq_iff (by norm_num [exFault])]; norm_num [exFault]
  have hcl : ⌈(exFault.tF - exFault.tI) / exFault.dt⌉₊ = 4 := by
    rw [Nat.ceil_eq_iff (by norm_num)]; norm_num [exFault]
  obtain ⟨c1, c2⟩ := C43_columns hres hdt hT
  refine ⟨ei, r, res, h, hE, ?_, hres, ?_, ?_⟩
  · simp [checkDisks, hdk, exFault]
  · rw [c1, (C43_samples _ hdt hT).1, hcl]
  · rw [c2, hfl]

end Ross.Props
