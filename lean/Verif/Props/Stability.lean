import Verif.Props.State
import Verif.Props.ShaftKernel

/-! # C47: rotors made of passive elements are stable -/

namespace Ross.Props

open Ross Ross.Spec Ross.StateLemmas Ross.BearingLemmas Ross.Rotor Ross.AssemblyLemmas Ross.RotorLemmas Matrix

variable {pd : Pandas} {fuel : ℕ} {a : RotorArgs} {r : Rotor} {Ω ω : ℝ}
  {A : Matrix (Fin r.ndof ⊕ Fin r.ndof) (Fin r.ndof ⊕ Fin r.ndof) ℝ}

/-- **C47** signs: the mass matrix of a passive rotor is symmetric positive definite, its stiffness
matrix symmetric and non-negative, and its damping matrix never generates energy. -/
theorem C47_forms (h : init pd fuel a = some (.ok r))
    (hf : ∀ e ∈ r.elements, Fits r.number_dof e) (hp : Passive r ω) :
    (∀ B, r.M (some ω) = .ok B → Bᵀ = B ∧ ∀ v ≠ 0, 0 < v ⬝ᵥ (B *ᵥ v)) ∧
    (∀ B, r.K ω = .ok B → Bᵀ = B ∧ ∀ v, 0 ≤ v ⬝ᵥ (B *ᵥ v)) ∧
    (∀ B, r.C ω = .ok B → ∀ v, 0 ≤ v ⬝ᵥ (B *ᵥ v)) := passive_forms h hp hf

theorem det_of_pos {N : ℕ} {B : Matrix (Fin N) (Fin N) ℝ} (hB : ∀ v ≠ 0, 0 < v ⬝ᵥ (B *ᵥ v)) :
    B.det ≠ 0 := by
  intro h0
  obtain ⟨v, hv, hBv⟩ := Matrix.exists_mulVec_eq_zero_iff.2 h0
  have := hB v hv
  rw [hBv] at this
  simp at this

/-- **C47** the mass matrix is symmetric positive definite whatever the stiffness and damping of the bearings, and whatever
the load on the shaft. -/
theorem C47_mass (h : init pd fuel a = some (.ok r)) (hf : ∀ e ∈ r.elements, Fits r.number_dof e) (hp : Inertial r ω) :
    ∀ B, r.M (some ω) = .ok B → Bᵀ = B ∧ ∀ v ≠ 0, 0 < v ⬝ᵥ (B *ᵥ v) := inert_forms h hp hf

/-- **C47** the state matrix of a rotor whose elements have inertia exists whenever they act on existing nodes and
their coefficients can be evaluated. -/
theorem C47_state (h : init pd fuel a = some (.ok r))
    (hf : ∀ e ∈ r.elements, Fits r.number_dof e) (hp : Inertial r ω)
    (he : ∀ e ∈ r.elements, InRange r e ∧ NotSelfLinked e ∧ (∃ E, e.M ω = .ok E) ∧
      (∃ E, e.K ω = .ok E) ∧ (∃ E, e.C ω = .ok E) ∧ ∃ E, e.G = .ok E) :
    ∃ A, r.A Ω (some ω) = .ok A := by
  obtain ⟨i1, i2, i3, i4⟩ := C18_assembles_iff h hf ω
  obtain ⟨M, hM⟩ := i1.2 fun e hm => ⟨(he e hm).1, (he e hm).2.1, (he e hm).2.2.1⟩
  obtain ⟨K, hK⟩ := i2.2 fun e hm => ⟨(he e hm).1, (he e hm).2.1, (he e hm).2.2.2.1⟩
  obtain ⟨C, hC⟩ := i3.2 fun e hm => ⟨(he e hm).1, (he e hm).2.1, (he e hm).2.2.2.2.1⟩
  obtain ⟨G, hG⟩ := i4.2 fun e hm => ⟨(he e hm).1, (he e hm).2.1, (he e hm).2.2.2.2.2⟩
  exact C23_exists_iff.2 ⟨M, K, C, G, hM, hK, hC, hG, det_of_pos (C47_mass h hf hp M hM).2⟩

/-- The Hermitian form of a real matrix on a complex vector. -/
noncomputable def herm {N : ℕ} (B : Matrix (Fin N) (Fin N) ℝ) (v : Fin N → ℂ) : ℂ :=
  star v ⬝ᵥ (cplx B *ᵥ v)

theorem herm_re {N : ℕ} (B : Matrix (Fin N) (Fin N) ℝ) (v : Fin N → ℂ) :
    (herm B v).re = (fun i => (v i).re) ⬝ᵥ (B *ᵥ fun i => (v i).re) +
      (fun i => (v i).im) ⬝ᵥ (B *ᵥ fun i => (v i).im) := by
  simp only [herm, cplx, dotProduct, mulVec, Complex.re_sum, Finset.mul_sum, Pi.star_apply,
    ← Finset.sum_add_distrib, Matrix.map_apply]
  refine Finset.sum_congr rfl fun i _ => Finset.sum_congr rfl fun j _ => ?_
  simp [Complex.mul_re]

theorem herm_im {N : ℕ} (B : Matrix (Fin N) (Fin N) ℝ) (v : Fin N → ℂ) :
    (herm B v).im = (fun i => (v i).re) ⬝ᵥ (B *ᵥ fun i => (v i).im) -
      (fun i => (v i).im) ⬝ᵥ (B *ᵥ fun i => (v i).re) := by
  simp only [herm, cplx, dotProduct, mulVec, Complex.im_sum, Finset.mul_sum, Pi.star_apply,
    ← Finset.sum_sub_distrib, Matrix.map_apply]
  refine Finset.sum_congr rfl fun i _ => Finset.sum_congr rfl fun j _ => ?_
  simp [Complex.mul_im]
  ring

theorem herm_symm {N : ℕ} {B : Matrix (Fin N) (Fin N) ℝ} (hB : Bᵀ = B) (v : Fin N → ℂ) :
    (herm B v).im = 0 := by
  rw [herm_im, form_symm hB]; ring

theorem herm_skew {N : ℕ} {B : Matrix (Fin N) (Fin N) ℝ} (hB : Bᵀ = -B) (v : Fin N → ℂ) :
    (herm B v).re = 0 := by
  have : ∀ u : Fin N → ℝ, u ⬝ᵥ (B *ᵥ u) = 0 := by
    intro u
    have : u ⬝ᵥ (B *ᵥ u) = -(u ⬝ᵥ (B *ᵥ u)) := by
      conv_lhs => rw [dotProduct_mulVec, ← mulVec_transpose, hB, dotProduct_comm, neg_mulVec,
        dotProduct_neg]
    linarith
  rw [herm_re, this, this, add_zero]

theorem herm_pos {N : ℕ} {B : Matrix (Fin N) (Fin N) ℝ} (hB : ∀ v ≠ 0, 0 < v ⬝ᵥ (B *ᵥ v))
    {v : Fin N → ℂ} (hv : v ≠ 0) : 0 < (herm B v).re := by
  have hnn : ∀ u, 0 ≤ u ⬝ᵥ (B *ᵥ u) := fun u => by
    by_cases hu : u = 0
    · simp [hu]
    · exact (hB u hu).le
  rw [herm_re]
  by_cases h1 : (fun i => (v i).re) = 0
  · have h2 : (fun i => (v i).im) ≠ 0 := fun h2 => hv (by
      ext i
      exact Complex.ext (congrFun h1 i) (congrFun h2 i))
    exact add_pos_of_nonneg_of_pos (hnn _) (hB _ h2)
  · exact add_pos_of_pos_of_nonneg (hB _ h1) (hnn _)

theorem herm_nonneg {N : ℕ} {B : Matrix (Fin N) (Fin N) ℝ} (hB : ∀ v, 0 ≤ v ⬝ᵥ (B *ᵥ v))
    (v : Fin N → ℂ) : 0 ≤ (herm B v).re := by
  rw [herm_re]; exact add_nonneg (hB _) (hB _)

/-- The energy balance of a mode. -/
theorem balance {N : ℕ} {M C G K : Matrix (Fin N) (Fin N) ℝ} (hM : Mᵀ = M) (hK : Kᵀ = K)
    (hG : Gᵀ = -G) {s : ℂ} {v : Fin N → ℂ} (h : dynStiff M (C + Ω • G) K s *ᵥ v = 0) :
    s.re * (Complex.normSq s * (herm M v).re + (herm K v).re) =
      -(Complex.normSq s * (herm C v).re) := by
  have e : s ^ 2 * herm M v + s * (herm C v + Ω * herm G v) + herm K v = 0 := by
    have := congrArg (star v ⬝ᵥ ·) h
    have hD : cplx (C + Ω • G) = cplx C + (Ω : ℂ) • cplx G := by
      ext i j; simp [cplx]
    simp only [dynStiff, hD, add_mulVec, smul_mulVec, dotProduct_add, dotProduct_smul, smul_eq_mul,
      dotProduct_zero] at this
    unfold herm
    rw [← this]
  have hm := herm_symm hM v
  have hk := herm_symm hK v
  have hg := herm_skew hG v
  have hre := congrArg Complex.re e
  have him := congrArg Complex.im e
  simp [Complex.mul_re, Complex.mul_im, pow_two, hm, hk, hg] at hre him
  rw [Complex.normSq_apply]
  linear_combination s.re * hre + s.im * him

/-- **C47** stability: at every speed, every eigenvalue of the state matrix of a passive rotor has
non-positive real part. -/
theorem C47_stable (h : init pd fuel a = some (.ok r))
    (hf : ∀ e ∈ r.elements, Fits r.number_dof e) (hp : Passive r ω)
    (hA : r.A Ω (some ω) = .ok A) {s : ℂ} {x : Fin r.ndof ⊕ Fin r.ndof → ℂ} (hx : IsEigen A s x) :
    s.re ≤ 0 := by
  obtain ⟨M, K, C, G, hM, hK, hC, hG, -⟩ := A_ok.1 hA
  obtain ⟨f1, f2, f3⟩ := C47_forms h hf hp
  obtain ⟨v, -, hv, hm⟩ := (C23_eigen hA hM hK hC hG s x).1 hx
  have hb := balance (f1 M hM).1 (f2 K hK).1 (C18_gyro_skew h hG) hm
  have h1 := herm_pos (f1 M hM).2 hv
  have h2 := herm_nonneg (f2 K hK).2 v
  have h3 := herm_nonneg (f3 C hC) v
  by_cases hs : s = 0
  · simp [hs]
  · have h4 : 0 < Complex.normSq s := Complex.normSq_pos.2 hs
    by_contra hc
    push Not at hc
    have := mul_pos hc (add_pos_of_pos_of_nonneg (mul_pos h4 h1) h2)
    have := mul_nonneg h4.le h3
    linarith

/-- **C47** undamped: when the damping matrix does no work, all eigenvalues are imaginary, at every
speed. -/
theorem C47_undamped (h : init pd fuel a = some (.ok r))
    (hf : ∀ e ∈ r.elements, Fits r.number_dof e) (hp : Passive r ω)
    (hA : r.A Ω (some ω) = .ok A) (hu : ∀ C, r.C ω = .ok C → ∀ v, v ⬝ᵥ (C *ᵥ v) = 0)
    {s : ℂ} {x : Fin r.ndof ⊕ Fin r.ndof → ℂ} (hx : IsEigen A s x) : s.re = 0 := by
  obtain ⟨M, K, C, G, hM, hK, hC, hG, -⟩ := A_ok.1 hA
  obtain ⟨f1, f2, f3⟩ := C47_forms h hf hp
  obtain ⟨v, -, hv, hm⟩ := (C23_eigen hA hM hK hC hG s x).1 hx
  have hb := balance (f1 M hM).1 (f2 K hK).1 (C18_gyro_skew h hG) hm
  have h1 := herm_pos (f1 M hM).2 hv
  have h2 := herm_nonneg (f2 K hK).2 v
  have h3 : (herm C v).re = 0 := by rw [herm_re, hu C hC, hu C hC, add_zero]
  by_cases hs : s = 0
  · simp [hs]
  · have h4 : 0 < Complex.normSq s := Complex.normSq_pos.2 hs
    rw [h3, mul_zero, neg_zero] at hb
    exact (mul_eq_zero.1 hb).resolve_right (add_pos_of_pos_of_nonneg (mul_pos h4 h1) h2).ne'

/-- **C47** damped: when the damping matrix dissipates in every motion and the stiffness matrix
resists every displacement, all motions decay, at every speed. -/
theorem C47_damped (h : init pd fuel a = some (.ok r))
    (hf : ∀ e ∈ r.elements, Fits r.number_dof e) (hp : Passive r ω)
    (hA : r.A Ω (some ω) = .ok A) (hc : ∀ C, r.C ω = .ok C → ∀ v ≠ 0, 0 < v ⬝ᵥ (C *ᵥ v))
    (hk : ∀ K, r.K ω = .ok K → ∀ v ≠ 0, 0 < v ⬝ᵥ (K *ᵥ v))
    {s : ℂ} {x : Fin r.ndof ⊕ Fin r.ndof → ℂ} (hx : IsEigen A s x) : s.re < 0 := by
  obtain ⟨M, K, C, G, hM, hK, hC, hG, -⟩ := A_ok.1 hA
  obtain ⟨f1, f2, f3⟩ := C47_forms h hf hp
  obtain ⟨v, -, hv, hm⟩ := (C23_eigen hA hM hK hC hG s x).1 hx
  have hb := balance (f1 M hM).1 (f2 K hK).1 (C18_gyro_skew h hG) hm
  have h1 := herm_pos (f1 M hM).2 hv
  have h2 := herm_pos (hk K hK) hv
  have h3 := herm_pos (hc C hC) hv
  have hs : s ≠ 0 := by
    rintro rfl
    have h0 : herm K v = 0 := by
      have := congrArg (star v ⬝ᵥ ·) hm
      simpa [dynStiff, herm] using this
    rw [h0] at h2
    simp at h2
  have h4 : 0 < Complex.normSq s := Complex.normSq_pos.2 hs
  by_contra hn
  push Not at hn
  have := mul_nonneg hn (add_pos (mul_pos h4 h1) h2).le
  have := mul_pos h4 h3
  linarith

theorem form2_zero {xx xy yx yy : ℝ} (h : PosForm xx xy yx yy) {x y : ℝ}
    (h0 : xx * x ^ 2 + (xy + yx) * x * y + yy * y ^ 2 ≤ 0) : x = 0 ∧ y = 0 := by
  obtain ⟨h1, h2, h3⟩ := h
  have e : 4 * xx * (xx * x ^ 2 + (xy + yx) * x * y + yy * y ^ 2) =
      (2 * xx * x + (xy + yx) * y) ^ 2 + (4 * xx * yy - (xy + yx) ^ 2) * y ^ 2 := by ring
  have h4 : 4 * xx * (xx * x ^ 2 + (xy + yx) * x * y + yy * y ^ 2) ≤ 0 :=
    mul_nonpos_of_nonneg_of_nonpos (by positivity) h0
  have hy : y = 0 := by
    by_contra hy
    have := mul_pos (sub_pos.2 h3) (sq_pos_of_ne_zero hy)
    nlinarith [sq_nonneg (2 * xx * x + (xy + yx) * y)]
  subst hy
  refine ⟨?_, rfl⟩
  by_contra hx
  have := mul_pos h1 (sq_pos_of_ne_zero hx)
  nlinarith

/-- The motion of node `k` in direction `d` that the vector `x` describes. -/
def at' (r : Rotor) (x : ℕ → ℝ) (d : String) (k : ℕ) : ℝ := x (slot r.number_dof (shaftEnd r) (d, k))

theorem sum_le_zero {l : List ℝ} (h : ∀ x ∈ l, 0 ≤ x) (h0 : l.sum ≤ 0) {x : ℝ} (hx : x ∈ l) : x ≤ 0 :=
  (List.single_le_sum h x hx).trans h0

theorem rigid_step (h : init pd fuel a = some (.ok r)) (hf : ∀ e ∈ r.elements, Fits r.number_dof e)
    (hp : Passive r ω) (h4 : r.number_dof = 4) {K : Matrix (Fin r.ndof) (Fin r.ndof) ℝ}
    (hK : r.K ω = .ok K) {x : ℕ → ℝ} (h0 : bilin K x x ≤ 0) {e : Elm} (he : e ∈ r.elements) {E : LMat}
    (hE : e.K ω = .ok E) : loc (globalOf r.number_dof (shaftEnd r) e) E.1 x ⬝ᵥ
      (E.2 *ᵥ loc (globalOf r.number_dof (shaftEnd r) e) E.1 x) ≤ 0 := by
  rw [(C18_stiffness h hf hK).2] at h0
  rw [← workOf_ok (mat := Elm.K ω) hE]
  refine sum_le_zero ?_ h0 (List.mem_map.2 ⟨e, ?_, rfl⟩)
  · intro y hy
    obtain ⟨e, he, rfl⟩ := List.mem_map.1 hy
    exact work_nonneg (fun E hE => (passive_K h hp (List.mem_of_mem_filter he) hE).2) _ _ _
  · simp [he]

/-- Without strain energy all shaft nodes move as one rigid body. -/
theorem rigid_shaft (h : init pd fuel a = some (.ok r)) (hf : ∀ e ∈ r.elements, Fits r.number_dof e)
    (hp : Passive r ω) (h4 : r.number_dof = 4) {K : Matrix (Fin r.ndof) (Fin r.ndof) ℝ}
    (hK : r.K ω = .ok K) {x : ℕ → ℝ} (h0 : bilin K x x ≤ 0) :
    ∃ z : ℕ → ℝ, (∀ i j, i < j → j ≤ shaftEnd r → z i < z j) ∧ ∀ k ≤ shaftEnd r,
      at' r x "x" k = at' r x "x" 0 + z k * at' r x "beta" 0 ∧
      at' r x "y" k = at' r x "y" 0 - z k * at' r x "alpha" 0 ∧
      at' r x "beta" k = at' r x "beta" 0 ∧ at' r x "alpha" k = at' r x "alpha" 0 := by
  have step : ∀ k < shaftEnd r, ∃ L, 0 < L ∧
      at' r x "beta" (k + 1) = at' r x "beta" k ∧ at' r x "x" (k + 1) = at' r x "x" k + L * at' r x "beta" k ∧
      at' r x "alpha" (k + 1) = at' r x "alpha" k ∧ at' r x "y" (k + 1) = at' r x "y" k - L * at' r x "alpha" k := by
    intro k hk
    obtain ⟨e, he, hn⟩ := hp.nodes k hk
    obtain ⟨h1, h2, h3, h5, -⟩ := hp.shaft e he
    have hm : Elm.shaft e ∈ r.elements := (mem_elements (init_ok h) _).2 (Or.inl ⟨e, he, rfl⟩)
    have h6 := shaft_six h hm
    rw [h4] at h6
    obtain ⟨six, s⟩ := e
    cases six
    · have := rigid_step h hf hp h4 hK h0 hm (E := ⟨8, s.K⟩) rfl
      have := C07_energy_free s h1 h2 h3 h5 _ this
      have hn' : (Elm.shaft ⟨false, s⟩).n.getD 0 = k := by simp only at hn; simp [Elm.n, hn]
      simp [loc, globalOf, hn', h4, attach, dofsAt, nodeLetters] at this
      refine ⟨s.L, h2.L_pos, ?_⟩
      unfold at'
      rw [h4]
      exact this
    · simp at h6
  choose! L hL using step
  have mono : ∀ i j, i < j → j ≤ shaftEnd r →
      ∑ k ∈ Finset.range i, L k < ∑ k ∈ Finset.range j, L k := by
    intro i j hij hj
    induction j, hij using Nat.le_induction with
    | base =>
      rw [Finset.sum_range_succ]
      have := (hL i (by omega)).1
      linarith
    | succ n hn ih =>
      rw [Finset.sum_range_succ]
      have := (hL n (by omega)).1
      have := ih (by omega)
      linarith
  refine ⟨fun k => ∑ i ∈ Finset.range k, L i, mono, fun k hk => ?_⟩
  induction k with
  | zero => simp
  | succ n ih =>
    obtain ⟨i1, i2, i3, i4⟩ := ih (by omega)
    obtain ⟨-, h1, h2, h3, h5⟩ := hL n (by omega)
    simp only [Finset.sum_range_succ]
    refine ⟨?_, ?_, by rw [h1, i3], by rw [h3, i4]⟩
    · rw [h2, i1, i3]; ring
    · rw [h5, i2, i4]; ring

theorem held {b : BrgEl} (h : init pd fuel a = some (.ok r))
    (hf : ∀ e ∈ r.elements, Fits r.number_dof e)
    (hp : Passive r ω) (h4 : r.number_dof = 4) {K : Matrix (Fin r.ndof) (Fin r.ndof) ℝ}
    (hK : r.K ω = .ok K) {x : ℕ → ℝ} (h0 : bilin K x x ≤ 0) (hb : b ∈ r.bearings)
    (hh : Holds r ω b) : at' r x "x" b.n = 0 ∧ at' r x "y" b.n = 0 := by
  obtain ⟨hl, -, xx, xy, yx, yy, e1, e2, e3, e4, hpos⟩ := hh
  have hm : Elm.brg b ∈ r.elements :=
    (mem_elements (init_ok h) _).2 (Or.inr (Or.inr (Or.inl ⟨b, hb, rfl⟩)))
  have h6 := brg_six h hm
  obtain ⟨E, hE⟩ := (C18_stiffness h hf hK).1 _ hm (by simp)
  have hw := rigid_step h hf hp h4 hK h0 hm hE
  rw [h4] at h6
  cases b with
  | brg sl b =>
    obtain ⟨xx', yy', xy', yx', e1', e2', e3', e4', hS⟩ := brgK_support hE
    simp only [BrgEl.base] at e1 e2 e3 e4
    rw [e1] at e1'; rw [e4] at e2'; rw [e2] at e3'; rw [e3] at e4'
    cases e1'; cases e2'; cases e3'; cases e4'
    simp only [BrgEl.n_link, BrgEl.base] at hl
    rw [hl] at hS
    have hS' : E = ⟨2, !![xx, xy; yx, yy]⟩ := hS
    subst hS'
    simp only [globalOf, Elm.n, Option.getD_some, attach, BrgEl.n_link, BrgEl.base, hl] at hw
    refine form2_zero hpos (le_trans (le_of_eq ?_) hw)
    simp [loc, dotProduct, mulVec, Fin.sum_univ_two, h4, supportLetters, dofsAt, at', BrgEl.n, BrgEl.base]
    ring
  | brg6 b => simp at h6

/-- **C47** the stiffness matrix resists every displacement of a 4-dof rotor that stands, without
elastic supports, on bearings to ground at two different shaft nodes. -/
theorem C47_stiffness_pos (h : init pd fuel a = some (.ok r))
    (hf : ∀ e ∈ r.elements, Fits r.number_dof e) (hp : Passive r ω)
    (h4 : r.number_dof = 4) (hpm : r.pms = []) {b c : BrgEl} (hb : b ∈ r.bearings)
    (hc : c ∈ r.bearings) (hbc : b.n < c.n) (hB : Holds r ω b) (hC : Holds r ω c)
    {K : Matrix (Fin r.ndof) (Fin r.ndof) ℝ} (hK : r.K ω = .ok K) (v : Fin r.ndof → ℝ) (hv : v ≠ 0) :
    0 < v ⬝ᵥ (K *ᵥ v) := by
  rw [← bilin_extend]
  by_contra h0
  push Not at h0
  obtain ⟨z, hz, hr⟩ := rigid_shaft h hf hp h4 hK h0
  obtain ⟨bx, by'⟩ := held h hf hp h4 hK h0 hb hB
  obtain ⟨cx, cy⟩ := held h hf hp h4 hK h0 hc hC
  obtain ⟨b1, b2, -⟩ := hr b.n hB.2.1
  obtain ⟨c1, c2, -⟩ := hr c.n hC.2.1
  have hlt := hz _ _ hbc hC.2.1
  have hβ : at' r (extend v) "beta" 0 = 0 := by
    have : (z c.n - z b.n) * at' r (extend v) "beta" 0 = 0 := by
      rw [bx] at b1; rw [cx] at c1; linear_combination b1 - c1
    exact (mul_eq_zero.1 this).resolve_left (by linarith)
  have hα : at' r (extend v) "alpha" 0 = 0 := by
    have : (z c.n - z b.n) * at' r (extend v) "alpha" 0 = 0 := by
      rw [by'] at b2; rw [cy] at c2; linear_combination c2 - b2
    exact (mul_eq_zero.1 this).resolve_left (by linarith)
  have hx : at' r (extend v) "x" 0 = 0 := by rw [bx, hβ] at b1; linarith
  have hy : at' r (extend v) "y" 0 = 0 := by rw [by', hα] at b2; linarith
  apply hv
  ext i
  have hi : (i : ℕ) < size r.number_dof (shaftEnd r) r.pms.length := by
    rw [shaftEnd_last h, ← ndof_eq (init_ok h)]; exact i.2
  obtain ⟨key, hkey, hs⟩ := slot_surj (nd_cases (init_ok h)) hi
  have e : v i = at' r (extend v) key.1 key.2 := by
    unfold at'; rw [Prod.mk.eta, hs]; simp [extend]
  rw [e]
  rcases hkey with ⟨hle, hl⟩ | ⟨h1, h2, -⟩
  · obtain ⟨k1, k2, k3, k4⟩ := hr key.2 hle
    rw [h4] at hl
    simp [nodeLetters] at hl
    rcases hl with hl | hl | hl | hl <;> rw [hl]
    · rw [k1, hx, hβ]; simp
    · rw [k2, hy, hα]; simp
    · rw [k4, hα]; simp
    · rw [k3, hβ]; simp
  · rw [hpm] at h2; simp at h2; omega

/-- **C47** the damping matrix dissipates in every motion of a 4-dof rotor without elastic supports
whose shaft has mass-proportional damping. -/
theorem C47_damping_pos (h : init pd fuel a = some (.ok r))
    (hf : ∀ e ∈ r.elements, Fits r.number_dof e) (hp : Passive r ω)
    (hpm : r.pms = []) (hα : ∀ e ∈ r.shaft, 0 < e.s.alpha)
    {C : Matrix (Fin r.ndof) (Fin r.ndof) ℝ} (hC : r.C ω = .ok C) (v : Fin r.ndof → ℝ) (hv : v ≠ 0) :
    0 < v ⬝ᵥ (C *ᵥ v) := by
  have hb := init_ok h
  rw [← bilin_extend, (C18_damping h hf hC).2]
  obtain ⟨i, hi⟩ := Function.ne_iff.1 hv
  have hlt : (i : ℕ) < size r.number_dof (shaftEnd r) r.pms.length := by
    rw [shaftEnd_last h, ← ndof_eq hb]; exact i.2
  obtain ⟨key, hkey, hs⟩ := slot_surj (nd_cases hb) hlt
  obtain ⟨e, he, ⟨E, hE, hlen, hpos⟩, hmem, hk1, hk2⟩ := covered h (Passive.inertial hp) key hkey
  refine lt_of_lt_of_le ?_ (List.single_le_sum ?_ _
    (List.mem_map_of_mem (f := fun e => workOf r.number_dof (shaftEnd r) (Elm.C ω) e (extend v) (extend v))
      (List.mem_filter.2 ⟨he, by simp⟩)))
  · obtain ⟨e', he', rfl⟩ | ⟨_, _, rfl⟩ | ⟨_, _, rfl⟩ | ⟨p, hpp, rfl⟩ := (mem_elements hb e).1 he
    · obtain ⟨h1, h2, h3, h5, h6, h7⟩ := hp.shaft e' he'
      have hα' := hα e' he'
      obtain ⟨six, s⟩ := e'
      have hne : ∀ k, k = (attach r.number_dof (.shaft ⟨six, s⟩)
          ((Elm.shaft ⟨six, s⟩).n.getD 0)).length →
          loc (globalOf r.number_dof (shaftEnd r) (.shaft ⟨six, s⟩)) k (extend v) ≠ 0 := by
        intro k hk h0
        refine hi ?_
        obtain ⟨p, hp', hk'⟩ := List.mem_iff_getElem.1 hmem
        have := congrFun h0 ⟨p, by rw [hk]; exact hp'⟩
        simp only [loc, globalOf, Pi.zero_apply] at this
        rw [List.getD_eq_getElem?_getD, List.getElem?_eq_getElem (by simpa using hp'),
          Option.getD_some, List.getElem_map, hk', hs] at this
        simpa [extend] using this
      cases six
      · rw [workOf_ok (mat := Elm.C ω) (E := ⟨8, s.C⟩) rfl]
        cases hE
        have hu := hne 8 hlen
        generalize loc (globalOf r.number_dof (shaftEnd r) (.shaft ⟨false, s⟩)) 8 (extend v) = u at hu ⊢
        simp only [ShaftElement.C, add_mulVec, smul_mulVec, dotProduct_add, dotProduct_smul, smul_eq_mul]
        exact add_pos_of_pos_of_nonneg (mul_pos hα' (C05_mass_posDef s h1 h2 u hu))
          (mul_nonneg h7 (C07_stiffness_nonneg s h1 h2 h3 h5 u))
      · rw [workOf_ok (mat := Elm.C ω) (E := ⟨12, s.C₆⟩) rfl]
        cases hE
        have hu := hne 12 hlen
        generalize loc (globalOf r.number_dof (shaftEnd r) (.shaft ⟨true, s⟩)) 12 (extend v) = u at hu ⊢
        simp only [ShaftElement.C₆, add_mulVec, smul_mulVec, dotProduct_add, dotProduct_smul,
          smul_eq_mul]
        exact add_pos_of_pos_of_nonneg (mul_pos hα' ((C11_mass_posDef s h1 h2).2 u hu))
          (mul_nonneg h7 (K6_nonneg s h1 h2 h3 h5 u))
    · exact absurd rfl (hk1 _)
    · exact absurd rfl (hk2 _)
    · rw [hpm] at hpp; cases hpp
  · intro y hy
    obtain ⟨e, he, rfl⟩ := List.mem_map.1 hy
    exact work_nonneg (fun E hE => passive_C h hp (List.mem_of_mem_filter he) hE) _ _ _

theorem exBrg_passive {sl : Bool} {n : ℕ} {link : Option ℕ} {k c : ℝ} {t : Option String}
    (hk : 0 ≤ k) (hc : 0 ≤ c) : PassiveBrg ω (.brg sl { exBrg n link k c with tag := t }) := by
  refine ⟨?_, ?_, ?_, trivial⟩ <;>
  · intro xx xy yx yy h1 h2 h3 h4
    simp [BrgEl.base, exBrg, constCoeff, Coeff.eval] at h1 h2 h3 h4
    subst h1; subst h2; subst h3; subst h4
    simp only [NonnegForm]
    refine' ⟨_, _⟩ <;> first | trivial | positivity | skip
    all_goals try exact ⟨by positivity, by positivity, by ring_nf; positivity⟩
    all_goals try exact ⟨by positivity, by ring_nf; positivity⟩

/-- The example rotor is passive at every frequency. -/
theorem exFacts_passive (f : ExFacts r) (ω : ℝ) : Passive r ω where
  shaft := by
    intro e he
    have h1 := exFacts_shaft f e he
    obtain ⟨k, hk, t, rfl⟩ := f.shaft e he
    exact ⟨h1.2, h1.1, by norm_num [exShaft], rfl, by norm_num [exShaft], by norm_num [exShaft]⟩
  nodes := by
    intro k hk
    rw [f.stop] at hk
    obtain ⟨e, he, rfl⟩ := (f.full.nodes k).2 hk
    refine ⟨e, he, ?_⟩
    obtain ⟨k, hk, t, rfl⟩ := f.shaft e he
    rfl
  disk := by
    intro e he
    rw [f.disks, List.mem_singleton] at he
    subst he
    norm_num
  brg := by
    intro b hb
    obtain ⟨t, h⟩ := f.brgs b hb
    rcases h with rfl | rfl | rfl <;> exact exBrg_passive (by norm_num) (by norm_num)
  pm := by
    intro p hp
    rw [f.pms, List.mem_singleton] at hp
    subst hp
    exact ⟨f.nd, by norm_num, by norm_num⟩
  support := by
    intro k h1 h2
    rw [f.stop] at h1 h2
    rw [f.one] at h2
    have : k = 3 := by omega
    subst this
    exact ⟨_, by rw [f.pms]; exact List.mem_singleton.2 rfl, rfl⟩

/-- The hypotheses of `C23_*`, `C47_forms`, `C47_state` and `C47_stable` are met by the example rotor
at every speed. -/
example : ∃ r : Rotor, init exPandas 10 exArgs = some (.ok r) ∧
    (∀ e ∈ r.elements, Fits r.number_dof e) ∧ (∀ ω, Passive r ω) ∧
    (∀ ω, ∀ e ∈ r.elements, InRange r e ∧ NotSelfLinked e ∧ (∃ E, e.M ω = .ok E) ∧
      (∃ E, e.K ω = .ok E) ∧ (∃ E, e.C ω = .ok E) ∧ ∃ E, e.G = .ok E) ∧
    ∀ Ω ω, ∃ A, r.A Ω (some ω) = .ok A := by
  obtain ⟨r, f⟩ := exRotor_facts
  have he : ∀ ω, ∀ e ∈ r.elements, InRange r e ∧ NotSelfLinked e ∧ (∃ E, e.M ω = .ok E) ∧
      (∃ E, e.K ω = .ok E) ∧ (∃ E, e.C ω = .ok E) ∧ ∃ E, e.G = .ok E := fun ω e hm =>
    ⟨(exFacts_range f e hm).1, (exFacts_range f e hm).2, exFacts_matrices f ω e hm⟩
  exact ⟨r, f.init, f.fits, exFacts_passive f, he, fun Ω ω =>
    C47_state f.init f.fits (Passive.inertial (exFacts_passive f ω)) (he ω)⟩

/-- **C47** asymptotic stability: a 4-dof rotor without elastic supports, with mass-proportional shaft
damping and bearings to ground at two different shaft nodes, is asymptotically stable at every speed. -/
theorem C47_asymptotic (h : init pd fuel a = some (.ok r))
    (hf : ∀ e ∈ r.elements, Fits r.number_dof e) (hp : Passive r ω)
    (h4 : r.number_dof = 4) (hpm : r.pms = []) (hα : ∀ e ∈ r.shaft, 0 < e.s.alpha)
    {b c : BrgEl} (hb : b ∈ r.bearings) (hc : c ∈ r.bearings) (hbc : b.n < c.n)
    (hB : Holds r ω b) (hC : Holds r ω c) (hA : r.A Ω (some ω) = .ok A)
    {s : ℂ} {x : Fin r.ndof ⊕ Fin r.ndof → ℂ} (hx : IsEigen A s x) : s.re < 0 :=
  C47_damped h hf hp hA (fun _ h' => C47_damping_pos h hf hp hpm hα h')
    (fun _ h' => C47_stiffness_pos h hf hp h4 hpm hb hc hbc hB hC h') hx

/-- One shaft element with proportional damping `α` on two bearings with damping `c`. -/
noncomputable def twoArgs (α c : ℝ) : RotorArgs where
  shaft := [.el ⟨false, { exShaft with n := some 0, tag := some "shaft", alpha := α, beta := α }⟩]
  bearings := [.brg false { exBrg 0 none 1e6 c with tag := some "left" },
    .brg false { exBrg 1 none 1e6 c with tag := some "right" }]

theorem twoArgs_wf (α c : ℝ) : WellFormed false 1 (twoArgs α c) where
  pos := by norm_num
  nodes := by
    intro k
    show k ∈ [0] ↔ k < 1
    simp
  len := by
    intro e he
    simp [twoArgs, shaftList, Nest.flattenAll, Nest.flatten] at he
    subst he
    norm_num [exShaft]
  shaft_six := by
    intro e he
    simp [twoArgs, shaftList, Nest.flattenAll, Nest.flatten] at he
    subst he; rfl
  disk_six := by simp [twoArgs]
  brg_six := by
    intro e he; simp [twoArgs] at he
    rcases he with rfl | rfl <;> rfl
  disk_on := by simp [twoArgs]
  brg_nodes := by simp [twoArgs, BrgEl.n, BrgEl.base, exBrg]
  brg_on := by
    intro e he; simp [twoArgs] at he
    rcases he with rfl | rfl <;> left <;> simp [BrgEl.n, BrgEl.base, exBrg]
  brg_linked := by
    intro e he h; simp [twoArgs] at he
    rcases he with rfl | rfl <;> simp [BrgEl.n, BrgEl.base, exBrg] at h
  brg_order := by
    intro e he c hc h hl; simp [twoArgs] at he hc
    rcases he with rfl | rfl <;> rcases hc with rfl | rfl <;>
      simp [BrgEl.n, BrgEl.n_link, BrgEl.base, exBrg] at h hl ⊢
  pm_on := by simp [twoArgs]
  tags := by
    show (["shaft", "left", "right"] : List String).Nodup
    decide

theorem two_facts (α c : ℝ) (hα : 0 ≤ α) (hc : 0 ≤ c) :
    ∃ r, init exPandas 10 (twoArgs α c) = some (.ok r) ∧
      r.number_dof = 4 ∧ r.pms = [] ∧ (∀ e ∈ r.elements, Fits r.number_dof e) ∧
      (∀ ω, Passive r ω) ∧ (∀ e ∈ r.shaft, e.s.alpha = α ∧ e.s.beta = α ∧ e.six = false) ∧
      r.disks = [] ∧
      (∃ b ∈ r.bearings, ∃ d ∈ r.bearings, b.n < d.n ∧ ∀ ω, Holds r ω b ∧ Holds r ω d) ∧
      (∀ b ∈ r.bearings, ∃ n, ∃ t, b = .brg false { exBrg n none 1e6 c with tag := t }) ∧
      ∀ Ω ω, ∃ A, r.A Ω (some ω) = .ok A := by
  obtain ⟨r, h1, h2, -, h4⟩ := accepts exPandas_sorts (twoArgs_wf α c) (fuel := 10) (by simp [twoArgs])
  have hb := init_ok h1
  have hend : shaftEnd r = 1 := by rw [shaftEnd_eq h1, lastShaftNode_full h4]
  have hpm : r.pms = [] := by rw [hb.pms]; rfl
  have hdk : r.disks = [] := by rw [hb.disks]; rfl
  have hsh : ∀ e ∈ r.shaft, ∃ t, e = ⟨false, { exShaft with n := some 0, tag := t, alpha := α, beta := α }⟩ := by
    intro e he
    rw [hb.shaft] at he
    have := (parts_sh_perm (twoArgs α c)).mem_iff.1 he
    simp only [parts, numberShaft, twoArgs, Nest.flattenAll, Nest.flatten, List.append_nil,
      List.mapIdx_cons, List.mapIdx_nil, List.mem_cons,
      List.not_mem_nil, or_false] at this
    exact ⟨_, this⟩
  have hbr : ∀ b, b ∈ r.bearings ↔ b = .brg false { exBrg 0 none 1e6 c with tag := some "left" } ∨
      b = .brg false { exBrg 1 none 1e6 c with tag := some "right" } := by
    intro b
    rw [hb.bearings, (parts_br_perm (twoArgs α c)).mem_iff]
    simp [tagBearings, twoArgs, defTag, exBrg, BrgEl.setTag, BrgEl.tag, BrgEl.base]
  have hfits : ∀ e ∈ r.elements, Fits r.number_dof e := by
    intro e he
    rcases (mem_elements hb e).1 he with ⟨s, hs, h⟩ | ⟨s, hs, h⟩ | ⟨s, hs, h⟩ | ⟨p, hp, h⟩
    · rw [h]; trivial
    · rw [h]; trivial
    · rw [h]; trivial
    · rw [hpm] at hp; cases hp
  have hpass : ∀ ω, Passive r ω := by
    intro ω
    refine ⟨fun e he => ?_, fun k hk => ?_, ?_, fun b hb' => ?_, ?_, fun k k1 k2 => ?_⟩
    · obtain ⟨t, rfl⟩ := hsh e he
      exact ⟨ShaftLemmas.facts_built (ShaftLemmas.physical_facts exShaft_physical (Or.inr rfl)), exShaft_physical,
        by norm_num [exShaft], rfl, hα, hα⟩
    · rw [hend] at hk
      obtain ⟨e, he, -⟩ := (h4.nodes 0).2 (by norm_num)
      refine ⟨e, he, ?_⟩
      obtain ⟨t, rfl⟩ := hsh e he
      simp; omega
    · rw [hdk]; simp
    · rcases (hbr b).1 hb' with rfl | rfl <;> exact exBrg_passive (by norm_num) hc
    · rw [hpm]; simp
    · rw [hpm] at k2; simp at k2; omega
  refine ⟨r, h1, h2, hpm, hfits, hpass, fun e he => ?_, hdk, ⟨_, (hbr _).2 (Or.inl rfl), _,
    (hbr _).2 (Or.inr rfl), by simp [BrgEl.n, BrgEl.base, exBrg], fun ω => ⟨?_, ?_⟩⟩,
    fun b hb' => ?_, fun Ω ω => ?_⟩
  · obtain ⟨t, rfl⟩ := hsh e he
    exact ⟨rfl, rfl, rfl⟩
  · refine ⟨rfl, by simp [BrgEl.n, BrgEl.base, exBrg], 1e6, 0, 0, 1e6, ?_, ?_, ?_, ?_, ?_⟩
    all_goals norm_num [BrgEl.base, exBrg, constCoeff, Coeff.eval, PosForm]
  · refine ⟨rfl, by rw [hend]; simp [BrgEl.n, BrgEl.base, exBrg], 1e6, 0, 0, 1e6, ?_, ?_, ?_, ?_, ?_⟩
    all_goals norm_num [BrgEl.base, exBrg, constCoeff, Coeff.eval, PosForm]
  · rcases (hbr b).1 hb' with rfl | rfl <;> exact ⟨_, _, rfl⟩
  · refine C47_state h1 hfits (Passive.inertial (hpass ω)) fun e he => ?_
    unfold InRange
    rw [hend, hpm, h2]
    rcases (mem_elements hb e).1 he with ⟨s, hs, h⟩ | ⟨s, hs, h⟩ | ⟨s, hs, h⟩ | ⟨p, hp, h⟩
    · obtain ⟨t, rfl⟩ := hsh s hs
      subst h
      refine ⟨fun key hkey => ?_, trivial, ⟨_, rfl⟩, ⟨_, rfl⟩, ⟨_, rfl⟩, ⟨_, rfl⟩⟩
      simp [attach, Elm.n, nodeLetters, dofsAt] at hkey
      rcases hkey with h | h | h | h | h | h | h | h <;> subst h <;> simp
    · rw [hdk] at hs; cases hs
    · subst h
      rcases (hbr s).1 hs with rfl | rfl
      all_goals
        refine ⟨fun key hkey => ?_, ?_, ⟨_, rfl⟩, ⟨_, rfl⟩, ⟨_, rfl⟩, ⟨_, rfl⟩⟩
        · simp [attach, Elm.n, supportLetters, dofsAt, exBrg, BrgEl.n_link, BrgEl.n, BrgEl.base] at hkey
          rcases hkey with h | h <;> subst h <;> simp
        · simp [NotSelfLinked, exBrg, BrgEl.n_link, BrgEl.n, BrgEl.base]
    · rw [hpm] at hp; cases hp

/-- `C47_stiffness_pos`, `C47_damping_pos`, `C47_damped` and `C47_asymptotic` apply to it. -/
example : ∃ r, init exPandas 10 (twoArgs 1 10) = some (.ok r) ∧
    (∀ e ∈ r.elements, Fits r.number_dof e) ∧ (∀ ω, Passive r ω) ∧ r.number_dof = 4 ∧ r.pms = [] ∧
    (∀ e ∈ r.shaft, 0 < e.s.alpha) ∧
    (∃ b ∈ r.bearings, ∃ d ∈ r.bearings, b.n < d.n ∧ ∀ ω, Holds r ω b ∧ Holds r ω d) ∧
    ∀ Ω ω, ∃ A, r.A Ω (some ω) = .ok A := by
  obtain ⟨r, h1, h2, h3, h4, h5, h6, -, h7, -, h8⟩ := two_facts 1 10 (by norm_num) (by norm_num)
  exact ⟨r, h1, h4, h5, h2, h3, fun e he => by rw [(h6 e he).1]; norm_num, h7, h8⟩

/-- The same rotor without damping. -/
theorem two_undamped : ∃ r, init exPandas 10 (twoArgs 0 0) = some (.ok r) ∧
    (∀ e ∈ r.elements, Fits r.number_dof e) ∧ (∀ ω, Passive r ω) ∧ 0 < r.ndof ∧
    (∀ ω K, r.K ω = .ok K → ∀ v ≠ 0, 0 < v ⬝ᵥ (K *ᵥ v)) ∧
    (∀ ω C, r.C ω = .ok C → ∀ v, v ⬝ᵥ (C *ᵥ v) = 0) ∧ ∀ Ω ω, ∃ A, r.A Ω (some ω) = .ok A := by
  obtain ⟨r, h1, h2, h3, h4, h5, h6, hdk, ⟨b, hb, d, hd, hbd, h7⟩, h9, h8⟩ := two_facts 0 0 le_rfl le_rfl
  refine ⟨r, h1, h4, h5, ?_, fun ω K hK => C47_stiffness_pos h1 h4 (h5 ω) h2 h3 hb hd hbd (h7 ω).1 (h7 ω).2 hK,
    fun ω C hC v => ?_, h8⟩
  · rw [ndof_eq (init_ok h1), h2, size]; omega
  rw [← bilin_extend, (C18_damping h1 h4 hC).2]
  refine List.sum_eq_zero fun y hy => ?_
  obtain ⟨e, he, rfl⟩ := List.mem_map.1 hy
  rcases (mem_elements (init_ok h1) e).1 (List.mem_of_mem_filter he) with
    ⟨s, hs, rfl⟩ | ⟨s, hs, rfl⟩ | ⟨s, hs, rfl⟩ | ⟨p, hp, rfl⟩
  · obtain ⟨e1, e2, e3⟩ := h6 s hs
    obtain ⟨six, s⟩ := s
    simp only at e1 e2 e3
    subst e3
    rw [workOf_ok (mat := Elm.C ω) (E := ⟨8, s.C⟩) rfl]
    simp [ShaftElement.C, e1, e2]
  · rw [hdk] at hs; cases hs
  · obtain ⟨n, t, rfl⟩ := h9 s hs
    obtain ⟨E, hE⟩ := (C18_damping h1 h4 hC).1 _ (List.mem_of_mem_filter he) (by simp)
    rw [workOf_ok (mat := Elm.C ω) hE]
    obtain ⟨xx, yy, xy, yx, e1, e2, e3, e4, hS⟩ := brgC_support hE
    simp [exBrg, constCoeff, Coeff.eval] at e1 e2 e3 e4
    subst e1; subst e2; subst e3; subst e4
    have hS' : E = ⟨2, !![0, 0; 0, 0]⟩ := hS
    subst hS'
    have h0 : (!![0, 0; 0, 0] : Matrix (Fin 2) (Fin 2) ℝ) = 0 := by
      ext i j; fin_cases i <;> fin_cases j <;> rfl
    simp only [h0, zero_mulVec, dotProduct_zero]
  · rw [h3] at hp; cases hp

/-- `C47_undamped` applies to it. -/
example : ∃ r, init exPandas 10 (twoArgs 0 0) = some (.ok r) ∧
    (∀ e ∈ r.elements, Fits r.number_dof e) ∧ (∀ ω, Passive r ω) ∧
    (∀ ω C, r.C ω = .ok C → ∀ v, v ⬝ᵥ (C *ᵥ v) = 0) ∧ ∀ Ω ω, ∃ A, r.A Ω (some ω) = .ok A := by
  obtain ⟨r, h1, h2, h3, -, -, h4, h5⟩ := two_undamped
  exact ⟨r, h1, h2, h3, h4, h5⟩

end Ross.Props
