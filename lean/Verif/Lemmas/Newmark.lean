import Mathlib.Tactic.Ring
import Mathlib.Tactic.Linarith
import Mathlib.Tactic.FieldSimp
import Mathlib.Algebra.Order.BigOperators.Ring.Finset
import Mathlib.Analysis.InnerProductSpace.PiL2
import Verif.Spec.Newmark
import Verif.Lemmas.Bearing

/-! # Lemmas on the Newmark integrator -/

namespace Ross.NewmarkLemmas

open Ross Ross.Newmark Ross.Spec Ross.BearingLemmas Matrix

variable {n : ℕ} {o : Options} {dt : ℝ} {s : Sys n} {q q' : State n}

theorem residual_eq (s : Sys n) (q : State n) : resid s q = unbalanced s q := by
  funext i
  simp only [resid, unbalanced, Pi.sub_apply, Pi.add_apply, mulVec, dotProduct]
  ring

theorem norm2_zero : norm2 (0 : Fin n → ℝ) = 0 := by simp [norm2]

theorem effective_eq (γ β dt : ℝ) (s : Sys n) :
    s.M + (γ * dt) • s.C + (β * dt ^ 2) • s.K = effective γ β dt s := by
  ext i j
  simp [effective]

theorem predict_step : NewmarkStep o.gamma o.beta dt q (predict o dt q) := by
  constructor
  · intro i; simp [predict]; ring
  · intro i; simp [predict]; ring

/-- A correction keeps the Newmark relations. -/
theorem correct_step {p : State n} (hp : NewmarkStep o.gamma o.beta dt q p)
    (h : correct o dt s p = .ok q') :
    NewmarkStep o.gamma o.beta dt q q' ∧ unbalanced s q' = 0 := by
  unfold correct solveVec at h
  rw [effective_eq] at h
  by_cases hd : (effective o.gamma o.beta dt s).det = 0
  · simp [hd, bind, Except.bind] at h
  · simp only [if_neg hd, bind, Except.bind, pure, Except.pure, Except.ok.injEq] at h
    subst h
    set d := (effective o.gamma o.beta dt s)⁻¹ *ᵥ resid s p with hdd
    have hE : effective o.gamma o.beta dt s *ᵥ d = resid s p := by
      rw [hdd, mulVec_mulVec, Matrix.mul_nonsing_inv _ (isUnit_iff_ne_zero.2 hd), one_mulVec]
    refine ⟨⟨fun i => ?_, fun i => ?_⟩, ?_⟩
    · have := hp.velocity i
      simp only [Pi.add_apply, Pi.smul_apply, smul_eq_mul, this]; ring
    · have := hp.displacement i
      simp only [Pi.add_apply, Pi.smul_apply, smul_eq_mul, this]; ring
    · rw [← residual_eq]
      have h2 : resid s p = resid s ⟨p.y + (o.beta * dt ^ 2) • d, p.ydot + (o.gamma * dt) • d,
          p.y2dot + d⟩ + effective o.gamma o.beta dt s *ᵥ d := by
        rw [← effective_eq]
        simp only [resid, mulVec_add, mulVec_smul, add_mulVec, smul_mulVec]
        funext i
        simp only [Pi.add_apply, Pi.sub_apply, Pi.smul_apply, smul_eq_mul]
        ring
      rw [hE] at h2
      simpa using h2.symm

theorem iterate_ok (left : ℕ) {p : State n} (hp : NewmarkStep o.gamma o.beta dt q p)
    (h0 : p.y2dot = 0 ∨ unbalanced s p = 0) (h : iterate o dt s left p = .ok q') :
    NewmarkStep o.gamma o.beta dt q q' ∧ norm2 (unbalanced s q') < o.tol ∧
      (q'.y2dot = 0 ∨ unbalanced s q' = 0) := by
  induction left generalizing p with
  | zero =>
    unfold iterate at h
    by_cases hn : o.tol ≤ norm2 (resid s p)
    · simp [hn] at h
    · rw [if_neg hn] at h
      cases h
      rw [residual_eq] at hn
      exact ⟨hp, not_le.1 hn, h0⟩
  | succ k ih =>
    unfold iterate at h
    by_cases hn : o.tol ≤ norm2 (resid s p)
    · rw [if_pos hn] at h
      cases hc : correct o dt s p with
      | error e => rw [hc] at h; simp [bind, Except.bind] at h
      | ok p' =>
        rw [hc] at h
        have := correct_step hp hc
        exact ih this.1 (.inr this.2) h
    · rw [if_neg hn] at h
      cases h
      rw [residual_eq] at hn
      exact ⟨hp, not_le.1 hn, h0⟩

theorem correct_exists (p : State n) (hd : (effective o.gamma o.beta dt s).det ≠ 0) :
    ∃ p', correct o dt s p = .ok p' := by
  unfold correct solveVec
  rw [effective_eq, if_neg hd]
  exact ⟨_, rfl⟩

theorem correct_residual {p p' : State n} (h : correct o dt s p = .ok p') : resid s p' = 0 := by
  have hp : NewmarkStep o.gamma o.beta dt
      (⟨fun i => p.y i - dt * (p.ydot i - dt * o.gamma * p.y2dot i) - dt ^ 2 * (o.beta * p.y2dot i),
        fun i => p.ydot i - dt * o.gamma * p.y2dot i, 0⟩ : State n) p :=
    ⟨fun i => by simp; ring, fun i => by simp; ring⟩
  rw [residual_eq]; exact (correct_step hp h).2

theorem iterate_exists (left : ℕ) (p : State n) (ht : 0 < o.tol)
    (hd : (effective o.gamma o.beta dt s).det ≠ 0) : ∃ p', iterate o dt s (left + 1) p = .ok p' := by
  obtain ⟨p', hp'⟩ := correct_exists p hd
  unfold iterate
  split_ifs with hn
  · rw [hp']
    refine ⟨p', ?_⟩
    have h0 := correct_residual hp'
    have : ¬ o.tol ≤ norm2 (resid s p') := by rw [h0, norm2_zero]; exact not_le.2 ht
    cases left with
    | zero => simp [bind, Except.bind, iterate, this]
    | succ k => simp [bind, Except.bind, iterate, this]
  · exact ⟨p, rfl⟩

theorem iterate_warning (left : ℕ) (p : State n) (ht : o.tol ≤ 0)
    (hd : (effective o.gamma o.beta dt s).det ≠ 0) : iterate o dt s left p = .error .warning := by
  induction left generalizing p with
  | zero =>
    unfold iterate
    rw [if_pos (show o.tol ≤ norm2 (resid s p) from ht.trans (Real.sqrt_nonneg _))]
  | succ k ih =>
    unfold iterate
    rw [if_pos (show o.tol ≤ norm2 (resid s p) from ht.trans (Real.sqrt_nonneg _))]
    obtain ⟨p', hp'⟩ := correct_exists p hd
    rw [hp']
    exact ih p'

/-- The states of a run. -/
theorem run_ok {func : ℕ → ℝ → State n → Res (Sys n)} :
    ∀ (ts : List ℝ) (step : ℕ) (t0 : ℝ) (q0 : State n) {l : List (State n)},
    run func o step t0 q0 ts = .ok l → l.length = ts.length ∧
    ∀ k (hk : k < ts.length) (hk' : k < l.length), ∃ s,
      func (step + k) (ts[k] - (t0 :: ts)[k]'(by simp; omega)) ((q0 :: l)[k]'(by simp; omega)) = .ok s ∧
      NewmarkStep o.gamma o.beta (ts[k] - (t0 :: ts)[k]'(by simp; omega))
        ((q0 :: l)[k]'(by simp; omega)) l[k] ∧
      norm2 (unbalanced s l[k]) < o.tol ∧ (l[k].y2dot = 0 ∨ unbalanced s l[k] = 0) := by
  intro ts
  induction ts with
  | nil =>
    intro step t0 q0 l h
    simp only [run, Except.ok.injEq] at h
    subst h
    exact ⟨rfl, fun k hk => by simp at hk⟩
  | cons t ts ih =>
    intro step t0 q0 l h
    unfold run at h
    obtain ⟨q1, ha, h⟩ := bind_ok.1 h
    obtain ⟨rest, hr, h⟩ := bind_ok.1 h
    simp only [pure, Except.pure, Except.ok.injEq] at h
    subst h
    obtain ⟨h1, h2⟩ := ih _ _ _ hr
    refine ⟨by simp [h1], ?_⟩
    intro k hk hk'
    cases k with
    | zero =>
      obtain ⟨s, hf, ha⟩ := bind_ok.1 ha
      have := iterate_ok _ predict_step (.inl rfl) ha
      exact ⟨s, by simpa using hf, by simpa using this.1, by simpa using this.2.1,
        by simpa using this.2.2⟩
    | succ k =>
      obtain ⟨s, h3, h4⟩ := h2 k (by simpa using hk) (by simpa using hk')
      refine ⟨s, ?_, ?_⟩
      · simpa [Nat.add_assoc, Nat.add_comm 1 k] using h3
      · simpa using h4

theorem run_exists {func : ℕ → ℝ → State n → Res (Sys n)} (ht : 0 < o.tol) {m : ℕ}
    (hf : ∀ step dt q, step < m → ∃ s, func step dt q = .ok s)
    (hd : ∀ step dt q s, 0 ≤ dt → func step dt q = .ok s → (effective o.gamma o.beta dt s).det ≠ 0) :
    ∀ (ts : List ℝ) (step : ℕ) (t0 : ℝ) (q0 : State n), (t0 :: ts).Pairwise (· ≤ ·) →
    step + ts.length ≤ m → ∃ l, run func o step t0 q0 ts = .ok l := by
  intro ts
  induction ts with
  | nil => intro step t0 q0 _ _; exact ⟨[], rfl⟩
  | cons t ts ih =>
    intro step t0 q0 hp hm
    simp only [List.length_cons] at hm
    obtain ⟨s, hs⟩ := hf step (t - t0) q0 (by omega)
    have h0 : 0 ≤ t - t0 := sub_nonneg.2 (List.rel_of_pairwise_cons hp (by simp))
    obtain ⟨q1, hq1⟩ := iterate_exists (o := o) 99999 (predict o (t - t0) q0) ht (hd _ _ _ _ h0 hs)
    obtain ⟨l, hl⟩ := ih (step + 1) t q1 (List.Pairwise.of_cons hp) (by omega)
    refine ⟨q1 :: l, ?_⟩
    unfold run advance
    exact bind_ok.2 ⟨q1, bind_ok.2 ⟨s, hs, hq1⟩, bind_ok.2 ⟨l, hl, rfl⟩⟩

theorem dot_le (u v : Fin n → ℝ) : |∑ i, u i * v i| ≤ norm2 u * norm2 v := by
  unfold norm2
  rw [← Real.sqrt_mul (Finset.sum_nonneg fun i _ => sq_nonneg _)]
  exact Real.abs_le_sqrt (Finset.sum_mul_sq_le_sq_mul_sq _ _ _)

end Ross.NewmarkLemmas
