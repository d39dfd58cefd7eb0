import Mathlib.LinearAlgebra.Matrix.PosDef
import Verif.Lemmas.Newmark

/-! # C27: Newmark integration -/

namespace Ross.Props

open Ross Ross.Newmark Ross.Spec Ross.NewmarkLemmas Ross.BearingLemmas Matrix

variable {n : ℕ}

/-- **C27** for every system (matrices and forces may change from step to step and depend on the
state), every time array and every option: the returned displacements belong to a motion that starts
from rest, satisfies the Newmark relations on every step, and whose equation of motion is satisfied at
every step up to the tolerance; a step either is accepted with zero acceleration or satisfies the
equation exactly. -/
theorem C27_motion {func : ℕ → ℝ → State n → Res (Sys n)} {t : List ℝ} {o : Options}
    {yout : List (Fin n → ℝ)} (h : newmark func t o = .ok yout) :
    ∃ (q : List (State n)) (hl : q.length = t.length), yout = q.map State.y ∧
      q[0]? = some ⟨0, 0, 0⟩ ∧
      ∀ k (hk : k + 1 < t.length), ∃ s,
        func (k + 1) (t[k + 1] - t[k]) q[k] = .ok s ∧
        NewmarkStep o.gamma o.beta (t[k + 1] - t[k]) q[k] q[k + 1] ∧
        Real.sqrt (∑ i, unbalanced s q[k + 1] i ^ 2) < o.tol ∧
        ((∀ i, q[k + 1].y2dot i = 0) ∨ ∀ i, unbalanced s q[k + 1] i = 0) := by
  cases t with
  | nil => simp [newmark] at h
  | cons t0 ts =>
    unfold newmark at h
    obtain ⟨l, hr, h⟩ := bind_ok.1 h
    simp only [pure, Except.pure, Bool.false_eq_true, if_false, Except.ok.injEq] at h
    obtain ⟨h1, h2⟩ := run_ok _ _ _ _ hr
    refine ⟨⟨0, 0, 0⟩ :: l, by simp [h1], by simp [← h], rfl, ?_⟩
    intro k hk
    obtain ⟨s, h3, h4, h5, h6⟩ := h2 k (by simpa using hk) (by rw [h1]; simpa using hk)
    refine ⟨s, ?_, ?_, ?_, ?_⟩
    · have h3' : func (k + 1) (ts[k]'(by simpa using hk) - (t0 :: ts)[k]) _ = .ok s :=
        Nat.add_comm 1 k ▸ h3
      exact h3'
    · exact h4
    · exact h5
    · exact h6.imp (fun h i => congrFun h i) fun h i => congrFun h i

/-- **C27** without options: the step of average acceleration, and forces balanced to one millionth. -/
theorem C27_defaults {func : ℕ → ℝ → State n → Res (Sys n)} {t : List ℝ} {yout : List (Fin n → ℝ)}
    (h : newmark func t {} = .ok yout) :
    ∃ (q : List (State n)) (hl : q.length = t.length), yout = q.map State.y ∧
      ∀ k (hk : k + 1 < t.length), ∃ s,
        func (k + 1) (t[k + 1] - t[k]) q[k] = .ok s ∧
        NewmarkStep (1 / 2) (1 / 4) (t[k + 1] - t[k]) q[k] q[k + 1] ∧
        Real.sqrt (∑ i, unbalanced s q[k + 1] i ^ 2) < 1 / 1000000 := by
  obtain ⟨q, hl, h1, -, h2⟩ := C27_motion h
  refine ⟨q, hl, h1, fun k hk => ?_⟩
  obtain ⟨s, h3, h4, h5, -⟩ := h2 k hk
  have e1 : ({} : Options).gamma = 1 / 2 := by norm_num
  have e2 : ({} : Options).beta = 1 / 4 := by norm_num
  have e3 : ({} : Options).tol = 1 / 1000000 := by norm_num
  rw [e1, e2] at h4
  rw [e3] at h5
  exact ⟨s, h3, h4, h5⟩

/-- **C27** one correction is enough: with a positive tolerance, a non-decreasing time array and
solvable effective matrices the integration finishes for every force history. -/
theorem C27_converges {func : ℕ → ℝ → State n → Res (Sys n)} {t : List ℝ} {o : Options}
    (ht : 0 < o.tol) (hne : t ≠ []) (hs : t.Pairwise (· ≤ ·))
    (hf : ∀ step dt q, step < t.length → ∃ s, func step dt q = .ok s)
    (hd : ∀ step dt q s, 0 ≤ dt → func step dt q = .ok s → (effective o.gamma o.beta dt s).det ≠ 0) :
    ∃ yout, newmark func t o = .ok yout := by
  cases t with
  | nil => exact absurd rfl hne
  | cons t0 ts =>
    obtain ⟨l, hl⟩ := run_exists ht hf hd ts 1 t0 ⟨0, 0, 0⟩ hs (by simp; omega)
    exact ⟨_, bind_ok.2 ⟨l, hl, rfl⟩⟩

/-- **C27** the effective matrix of a step forward in time is solvable for a positive definite mass
matrix and positive semidefinite damping and stiffness (symmetric parts). -/
theorem C27_solvable {γ β dt : ℝ} (hγ : 0 ≤ γ) (hβ : 0 ≤ β) (hdt : 0 ≤ dt) {s : Sys n}
    (hM : ∀ x : Fin n → ℝ, x ≠ 0 → 0 < ∑ i, ∑ j, x i * s.M i j * x j)
    (hC : ∀ x : Fin n → ℝ, 0 ≤ ∑ i, ∑ j, x i * s.C i j * x j)
    (hK : ∀ x : Fin n → ℝ, 0 ≤ ∑ i, ∑ j, x i * s.K i j * x j) :
    (effective γ β dt s).det ≠ 0 := by
  intro h0
  obtain ⟨x, hx, h1⟩ := Matrix.exists_mulVec_eq_zero_iff.2 h0
  have h2 : ∑ i, x i * (effective γ β dt s *ᵥ x) i = 0 := by simp [h1]
  have h3 : ∑ i, x i * (effective γ β dt s *ᵥ x) i = (∑ i, ∑ j, x i * s.M i j * x j) +
      γ * dt * (∑ i, ∑ j, x i * s.C i j * x j) + β * dt ^ 2 * (∑ i, ∑ j, x i * s.K i j * x j) := by
    simp only [mulVec, dotProduct, effective, Finset.mul_sum, ← Finset.sum_add_distrib]
    exact Finset.sum_congr rfl fun i _ => Finset.sum_congr rfl fun j _ => by ring
  have := hM x hx
  have h4 := mul_nonneg (mul_nonneg hγ hdt) (hC x)
  have h5 := mul_nonneg (mul_nonneg hβ (sq_nonneg dt)) (hK x)
  linarith

/-- **C27** without a positive tolerance the integrator always gives up with a `Warning`. -/
theorem C27_tolerance {func : ℕ → ℝ → State n → Res (Sys n)} {t0 t1 : ℝ} {ts : List ℝ} {o : Options}
    (ht : o.tol ≤ 0) (hf : ∀ step dt q, ∃ s, func step dt q = .ok s)
    (hd : ∀ step dt q s, func step dt q = .ok s → (effective o.gamma o.beta dt s).det ≠ 0) :
    newmark func (t0 :: t1 :: ts) o = .error .warning := by
  obtain ⟨s, hs⟩ := hf 1 (t1 - t0) ⟨0, 0, 0⟩
  simp only [newmark, run, advance, hs]
  simp only [bind, Except.bind]
  rw [iterate_warning _ _ ht (hd _ _ _ _ hs)]

/-- The force that a state balances: `M a + C v + K y`. -/
def balancedForce (M C K : Matrix (Fin n) (Fin n) ℝ) (q : State n) (i : Fin n) : ℝ :=
  ∑ j, M i j * q.y2dot j + ∑ j, C i j * q.ydot j + ∑ j, K i j * q.y j

theorem quad_diff {A : Matrix (Fin n) (Fin n) ℝ} (hA : ∀ i j, A i j = A j i) (u v : Fin n → ℝ) :
    (∑ i, ∑ j, v i * A i j * v j) - (∑ i, ∑ j, u i * A i j * u j) =
      ∑ i, ∑ j, (v i - u i) * A i j * (v j + u j) := by
  have h : ∑ i, ∑ j, v i * A i j * u j = ∑ i, ∑ j, u i * A i j * v j := by
    rw [Finset.sum_comm]
    exact Finset.sum_congr rfl fun i _ => Finset.sum_congr rfl fun j _ => by rw [hA]; ring
  have h2 : ∑ i, ∑ j, (v i - u i) * A i j * (v j + u j) =
      (∑ i, ∑ j, v i * A i j * v j) + (∑ i, ∑ j, v i * A i j * u j) -
      (∑ i, ∑ j, u i * A i j * v j) - (∑ i, ∑ j, u i * A i j * u j) := by
    simp only [← Finset.sum_add_distrib, ← Finset.sum_sub_distrib]
    exact Finset.sum_congr rfl fun i _ => Finset.sum_congr rfl fun j _ => by ring
  rw [h2, h]; ring

/-- **C27** energy balance of the average-acceleration step (default options): the change of kinetic
plus strain energy is the work of the mean balanced force minus the dissipation. -/
theorem C27_energy {M C K : Matrix (Fin n) (Fin n) ℝ} (hM : ∀ i j, M i j = M j i)
    (hK : ∀ i j, K i j = K j i) {dt : ℝ} {q q' : State n} (h : NewmarkStep (1 / 2) (1 / 4) dt q q') :
    energy M K q' - energy M K q =
      (∑ i, (q'.y i - q.y i) * ((balancedForce M C K q i + balancedForce M C K q' i) / 2)) -
      dt / 4 * (∑ i, ∑ j, (q.ydot i + q'.ydot i) * C i j * (q.ydot j + q'.ydot j)) := by
  have hv : ∀ i, q'.ydot i - q.ydot i = dt / 2 * (q.y2dot i + q'.y2dot i) := fun i => by
    rw [h.velocity i]; ring
  have hy : ∀ i, q'.y i - q.y i = dt / 2 * (q.ydot i + q'.ydot i) := fun i => by
    rw [h.displacement i, h.velocity i]; ring
  have e1 := quad_diff hM q.ydot q'.ydot
  have e2 := quad_diff hK q.y q'.y
  have e3 : energy M K q' - energy M K q = 1 / 2 * (∑ i, ∑ j, (q'.ydot i - q.ydot i) * M i j *
      (q'.ydot j + q.ydot j)) + 1 / 2 * (∑ i, ∑ j, (q'.y i - q.y i) * K i j * (q'.y j + q.y j)) := by
    rw [← e1, ← e2]; unfold energy; ring
  have e4 : ∑ i, ∑ j, (q'.ydot i - q.ydot i) * M i j * (q'.ydot j + q.ydot j) =
      ∑ i, ∑ j, (q'.ydot i + q.ydot i) * M i j * (q'.ydot j - q.ydot j) := by
    rw [Finset.sum_comm]
    exact Finset.sum_congr rfl fun i _ => Finset.sum_congr rfl fun j _ => by rw [hM]; ring
  rw [e3, e4]
  simp only [balancedForce, hv, hy, Finset.mul_sum, ← Finset.sum_add_distrib, ← Finset.sum_sub_distrib,
    Finset.sum_div, add_div]
  exact Finset.sum_congr rfl fun i _ => Finset.sum_congr rfl fun j _ => by ring

/-- **C27** unconditional stability: for a linear system integrated with the default options, on a
step forward in time between two unforced instants, with non-negative damping, the energy does not grow
by more than the tolerance allows, and does not grow at all when the equation of motion is satisfied
exactly at both instants. -/
theorem C27_decay {M C K : Matrix (Fin n) (Fin n) ℝ} (hM : ∀ i j, M i j = M j i)
    (hK : ∀ i j, K i j = K j i) (hC : ∀ x : Fin n → ℝ, 0 ≤ ∑ i, ∑ j, x i * C i j * x j)
    {F : ℕ → Fin n → ℝ} {t : List ℝ} {tol : ℝ} {yout : List (Fin n → ℝ)}
    {func : ℕ → ℝ → State n → Res (Sys n)}
    (hfunc : ∀ step dt q s, func step dt q = .ok s → s = ⟨M, C, K, F step⟩)
    (h : newmark func t { tol := tol } = .ok yout) :
    ∃ (q : List (State n)) (hl : q.length = t.length), yout = q.map State.y ∧
      ∀ k (hk : k + 1 < t.length), t[k] ≤ t[k + 1] → F (k + 1) = 0 → (k = 0 ∨ F k = 0) →
        energy M K q[k + 1] ≤ energy M K q[k] +
          tol * Real.sqrt (∑ i, (q[k + 1].y i - q[k].y i) ^ 2) ∧
        ((k = 0 ∨ q[k].y2dot ≠ 0) → q[k + 1].y2dot ≠ 0 →
          energy M K q[k + 1] ≤ energy M K q[k]) := by
  obtain ⟨q, hl, h1, h2, h3⟩ := C27_motion h
  refine ⟨q, hl, h1, ?_⟩
  intro k hk hdt hF1 hF0
  obtain ⟨s, hs, hstep, htol, hex⟩ := h3 k hk
  replace hs := (hfunc _ _ _ _ hs).symm
  have hstep' : NewmarkStep (1 / 2) (1 / 4) (t[k + 1] - t[k]) q[k] q[k + 1] := by
    have : (({ tol := tol } : Options).gamma) = 1 / 2 ∧ (({ tol := tol } : Options).beta) = 1 / 4 := by
      constructor <;> norm_num
    rw [this.1, this.2] at hstep; exact hstep
  have hE := C27_energy (C := C) hM hK hstep'
  have hdis : 0 ≤ (t[k + 1] - t[k]) / 4 *
      (∑ i, ∑ j, (q[k].ydot i + q[k + 1].ydot i) * C i j * (q[k].ydot j + q[k + 1].ydot j)) :=
    mul_nonneg (by linarith) (hC fun i => q[k].ydot i + q[k + 1].ydot i)
  have hb : ∀ (m : ℕ) (p : State n), F m = 0 → ∀ i, unbalanced ⟨M, C, K, F m⟩ p i =
      -balancedForce M C K p i := by
    intro m p hm i
    simp [unbalanced, balancedForce, hm]
  -- the force balanced at the start of the step
  have hstart : Real.sqrt (∑ i, balancedForce M C K q[k] i ^ 2) ≤ tol ∧
      ((k = 0 ∨ q[k].y2dot ≠ 0) → ∀ i, balancedForce M C K q[k] i = 0) := by
    have htp : 0 ≤ tol := le_trans (Real.sqrt_nonneg _) htol.le
    by_cases h0 : k = 0
    · subst h0
      have hq : q[0] = ⟨0, 0, 0⟩ := by
        have := h2
        rw [List.getElem?_eq_getElem (by omega)] at this
        exact Option.some_injective _ this
      have hz : ∀ i, balancedForce M C K q[0] i = 0 := fun i => by simp [hq, balancedForce]
      exact ⟨by simp [hz, htp], fun _ => hz⟩
    · obtain ⟨j, rfl⟩ := Nat.exists_eq_succ_of_ne_zero h0
      obtain ⟨s', hs', -, htol', hex'⟩ := h3 j (by omega)
      replace hs' := (hfunc _ _ _ _ hs').symm
      have hFj : F (j + 1) = 0 := hF0.resolve_left h0
      subst hs'
      simp only [hb _ _ hFj, neg_sq] at htol'
      refine ⟨htol'.le, fun hne i => ?_⟩
      have hne' : q[j + 1].y2dot ≠ 0 := hne.resolve_left h0
      have := (hex'.resolve_left fun h => hne' (funext h)) i
      rw [hb _ _ hFj] at this
      simpa using this
  have hend : Real.sqrt (∑ i, balancedForce M C K q[k + 1] i ^ 2) ≤ tol ∧
      (q[k + 1].y2dot ≠ 0 → ∀ i, balancedForce M C K q[k + 1] i = 0) := by
    subst hs
    simp only [hb _ _ hF1, neg_sq] at htol
    refine ⟨htol.le, fun hne i => ?_⟩
    have := (hex.resolve_left fun h => hne (funext h)) i
    rw [hb _ _ hF1] at this
    simpa using this
  constructor
  · have d0 := dot_le (fun i => q[k + 1].y i - q[k].y i) (balancedForce M C K q[k])
    have d1 := dot_le (fun i => q[k + 1].y i - q[k].y i) (balancedForce M C K q[k + 1])
    have e0 := mul_le_mul_of_nonneg_left hstart.1
      (Real.sqrt_nonneg (∑ i, (q[k + 1].y i - q[k].y i) ^ 2))
    have e1 := mul_le_mul_of_nonneg_left hend.1
      (Real.sqrt_nonneg (∑ i, (q[k + 1].y i - q[k].y i) ^ 2))
    have hsum : ∑ i, (q[k + 1].y i - q[k].y i) *
        ((balancedForce M C K q[k] i + balancedForce M C K q[k + 1] i) / 2) =
        (∑ i, (q[k + 1].y i - q[k].y i) * balancedForce M C K q[k] i) / 2 +
        (∑ i, (q[k + 1].y i - q[k].y i) * balancedForce M C K q[k + 1] i) / 2 := by
      rw [Finset.sum_div, Finset.sum_div, ← Finset.sum_add_distrib]
      exact Finset.sum_congr rfl fun i _ => by ring
    simp only [norm2] at d0 d1
    have f0 := (le_abs_self _).trans (d0.trans e0)
    have f1 := (le_abs_self _).trans (d1.trans e1)
    linarith
  · intro ha hb'
    have z0 := hstart.2 ha
    have z1 := hend.2 hb'
    simp only [z0, z1] at hE
    simp only [add_zero, zero_div, mul_zero, Finset.sum_const_zero] at hE
    linarith

/-- **C27** with an integer time array (for instance `np.arange(0, 10)`) the displacements are cut to
whole numbers, because the result array takes the type of the time array. -/
theorem C27_integer_time {func : ℕ → ℝ → State n → Res (Sys n)} {t : List ℝ} {o : Options} :
    newmark func t o true = (newmark func t o).map fun l => l.map fun y i => truncate (y i) := by
  cases t with
  | nil => rfl
  | cons t0 ts =>
    simp only [newmark]
    cases run func o 1 t0 ⟨0, 0, 0⟩ ts with
    | error e => rfl
    | ok l => rfl

/-- A mass `m` on a damper and a spring under a constant force. -/
def oscillator (m c k f : ℝ) : ℕ → ℝ → State 1 → Res (Sys 1) := fun _ _ _ =>
  .ok ⟨fun _ _ => m, fun _ _ => c, fun _ _ => k, fun _ => f⟩

/-- The hypotheses of the theorems above are met by an oscillator, which is integrated to the end for
every non-decreasing time array; its first displacement is not zero, but an integer time array returns
zero. -/
theorem C27_integer_false : ∃ yout, newmark (oscillator 1 0 1 1) [0, 1] = .ok [0, yout] ∧
    yout 0 = 1 / 5 ∧ newmark (oscillator 1 0 1 1) [0, 1] {} true = .ok [0, 0] := by
  have hd : ∀ (step : ℕ) (dt : ℝ) (q : State 1) (s : Sys 1), 0 ≤ dt →
      oscillator 1 0 1 1 step dt q = .ok s → (effective (0.5 : ℝ) 0.25 dt s).det ≠ 0 := by
    intro step dt q s hdt hs
    simp only [oscillator, Except.ok.injEq] at hs
    subst hs
    refine C27_solvable (by norm_num) (by norm_num) hdt (fun x hx => ?_) (fun x => by simp)
      fun x => ?_
    · have : x 0 ≠ 0 := fun h => hx (by funext i; rw [Subsingleton.elim i 0, h]; rfl)
      simp only [Finset.univ_unique, Fin.default_eq_zero, Fin.isValue, Finset.sum_singleton]
      nlinarith [mul_self_pos.2 this]
    · simp only [Finset.univ_unique, Fin.default_eq_zero, Fin.isValue, Finset.sum_singleton]
      nlinarith [mul_self_nonneg (x 0)]
  obtain ⟨yout, hy⟩ := C27_converges (o := {}) (t := [0, 1]) (by norm_num) (by simp) (by simp)
    (func := oscillator 1 0 1 1) (fun _ _ _ _ => ⟨_, rfl⟩) hd
  obtain ⟨q, hl, h1, h2, h3⟩ := C27_motion hy
  obtain ⟨s, hs, hstep, htol, hex⟩ := h3 0 (by simp)
  have hl' : q.length = 2 := by simpa using hl
  obtain ⟨q0, q1, rfl⟩ : ∃ q0 q1, q = [q0, q1] := by
    match q, hl' with
    | [a, b], _ => exact ⟨a, b, rfl⟩
  simp only [List.getElem?_cons_zero, Option.some.injEq] at h2
  subst h2
  simp only [oscillator, Except.ok.injEq] at hs
  subst hs
  simp only [unbalanced, Fin.sum_univ_one, Fin.isValue, List.getElem_cons_succ, List.getElem_cons_zero,
    sub_zero, zero_add] at htol hex hstep
  have v := hstep.velocity 0
  have d := hstep.displacement 0
  norm_num at v d
  have key : q1.y 0 = 1 / 5 := by
    rcases hex with h | h
    · have h0 := h 0
      rw [h0] at d
      simp only [h0, d] at htol
      norm_num at htol
    · have := h 0
      norm_num at this
      rw [d] at this ⊢
      linarith
  have hyo : yout = [0, q1.y] := by rw [h1]; rfl
  refine ⟨q1.y, by rw [hy, hyo], key, ?_⟩
  rw [C27_integer_time, hy, hyo]
  have t1 : truncate (1 / 5 : ℝ) = 0 := by
    have : ⌊(1 / 5 : ℝ)⌋ = 0 := by rw [Int.floor_eq_iff]; norm_num
    unfold truncate
    rw [if_pos (by norm_num), this]; simp
  have t0 : truncate (0 : ℝ) = 0 := by simp [truncate]
  have e1 : (fun i => truncate (q1.y i)) = (0 : Fin 1 → ℝ) := by
    funext i
    rw [Subsingleton.elim i 0, key, t1]; rfl
  have e0 : (fun i => truncate ((0 : Fin 1 → ℝ) i)) = (0 : Fin 1 → ℝ) := by
    funext i; simpa using t0
  simp only [Except.map, List.map_cons, List.map_nil, e1, e0]

/-- A damped mass struck at the first step and then left alone is integrated, and meets the hypotheses
of `C27_decay` at the later steps. -/
example : ∃ yout : List (Fin 1 → ℝ), newmark (fun step _ _ => .ok
    ⟨!![1], !![1], !![1], if step = 1 then fun _ => 1 else 0⟩) [0, 1, 2, 3] = .ok yout := by
  refine C27_converges (by norm_num) (by simp) (by norm_num) (fun _ _ _ _ => ⟨_, rfl⟩) ?_
  intro step dt q s hdt hs
  simp only [Except.ok.injEq] at hs
  subst hs
  refine C27_solvable (by norm_num) (by norm_num) hdt (fun x hx => ?_) (fun x => ?_) fun x => ?_
  · have : x 0 ≠ 0 := fun h => hx (funext fun i => by rw [Subsingleton.elim i 0, h]; rfl)
    simpa using mul_self_pos.2 this
  · simpa using mul_self_nonneg (x 0)
  · simpa using mul_self_nonneg (x 0)

/-- With the tolerance zero the same system is given up. -/
example : newmark (fun _ _ _ => .ok (⟨!![1], 0, 0, 0⟩ : Sys 1)) [0, 1] { tol := 0 } = .error .warning := by
  refine C27_tolerance le_rfl (fun _ _ _ => ⟨_, rfl⟩) ?_
  intro step dt q s hs
  simp only [Except.ok.injEq] at hs
  subst hs
  simp [effective]

end Ross.Props
