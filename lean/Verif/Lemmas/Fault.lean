import Mathlib.Tactic.Linarith
import Mathlib.Tactic.FieldSimp
import Mathlib.Tactic.Ring
import Mathlib.Algebra.Order.Floor.Ring
import Verif.Model.Fault
import Verif.Lemmas.Bearing

/-! # Lemmas on the common part of the faults -/

namespace Ross.FaultLemmas

open Ross Ross.Fault Ross.Integrator Ross.BearingLemmas

theorem loop_states {S : Type} (step : ℝ → Vec → ℕ → StateM S Vec) (h : ℝ) (left i : ℕ) (x0 : ℝ) (y : Vec)
    (s : S) : ∃ Q : List (Vec × S), Q.length = left + 1 ∧ Q[0]? = some (y, s) ∧
      (∀ k (hk : k + 1 < Q.length), Q[k + 1] = step (x0 + k * h) Q[k].1 (i + k) Q[k].2) ∧
      (y :: (loop step h left i x0 y s).1) = Q.map Prod.fst ∧
      (Q.getLast?).map Prod.snd = some (loop step h left i x0 y s).2 := by
  induction left generalizing i x0 y s with
  | zero => exact ⟨[(y, s)], rfl, rfl, by simp, rfl, rfl⟩
  | succ n ih =>
    obtain ⟨Q, h1, h2, h3, h4, h5⟩ := ih (i + 1) (x0 + h) (step x0 y i s).1 (step x0 y i s).2
    have hs : loop step h (n + 1) i x0 y s =
      ((step x0 y i s).1 :: (loop step h n (i + 1) (x0 + h) (step x0 y i s).1 (step x0 y i s).2).1,
        (loop step h n (i + 1) (x0 + h) (step x0 y i s).1 (step x0 y i s).2).2) := rfl
    refine ⟨(y, s) :: Q, by simp [h1], rfl, ?_, ?_, ?_⟩
    · intro k hk
      cases k with
      | zero =>
        simp only [List.getElem_cons_succ, List.getElem_cons_zero, Nat.cast_zero, zero_mul, add_zero]
        rw [List.getElem?_eq_getElem (by omega)] at h2
        simpa using h2
      | succ k =>
        simp only [List.getElem_cons_succ]
        rw [h3 k (by simpa using hk)]
        rw [show x0 + h + (k : ℝ) * h = x0 + ((k + 1 : ℕ) : ℝ) * h by push_cast; ring,
          show i + 1 + k = i + (k + 1) by omega]
    · rw [hs]; simp [h4]
    · rw [hs]
      rw [← h5]
      have : Q ≠ [] := by intro e; simp [e] at h1
      rw [List.getLast?_cons_of_ne_nil this]

theorem run_states {S : Type} {step : ℝ → Vec → ℕ → StateM S Vec} {x0 : ℝ} {y0 : Vec} {x h : ℝ}
    {m : StateM S (List Vec)} (hr : Integrator.run step x0 y0 x h = .ok m) (s : S) :
    h ≠ 0 ∧ 0 ≤ pyInt ((x - x0) / h) ∧
    ∃ Q : List (Vec × S), Q.length = (pyInt ((x - x0) / h)).toNat + 1 ∧ Q[0]? = some (y0, s) ∧
      (∀ k (hk : k + 1 < Q.length), Q[k + 1] = step (x0 + k * h) Q[k].1 (k + 1) Q[k].2) ∧
      (m s).1 = Q.map Prod.fst ∧ (Q.getLast?).map Prod.snd = some (m s).2 := by
  unfold Integrator.run at hr
  dsimp only at hr
  split_ifs at hr with h0 h1 h2
  cases hr
  refine ⟨h0, by omega, ?_⟩
  obtain ⟨Q, q1, q2, q3, q4, q5⟩ := loop_states step h (pyInt ((x - x0) / h)).toNat 1 x0 y0 s
  refine ⟨Q, q1, q2, fun k hk => ?_, q4, q5⟩
  rw [q3 k hk, Nat.add_comm 1 k]

/-- The step of a method. -/
noncomputable def stepOf {S : Type} : Method → ℝ → Func S → ℝ → Vec → ℕ → StateM S Vec
  | .rk4 => rk4Step
  | .rk45 => rk45Step

theorem method_run {S : Type} (m : Method) (a : Args) (func : Func S) :
    m.run a func = Integrator.run (stepOf m a.dt func) a.tI 0 a.tF a.dt := by
  cases m <;> rfl

theorem positions_join (x v : Fin 12 → ℝ) : positions (joinState x v) = x := by
  funext k; simp [positions, joinState]

theorem velocity_join (x v : Fin 12 → ℝ) : velocity (joinState x v) = v := by
  funext k; simp [velocity, joinState]

theorem exp_ne {a : Args} (h : a.tI ≠ a.tF) :
    Real.exp (-Args.lambdat * a.tF) - Real.exp (-Args.lambdat * a.tI) ≠ 0 := by
  intro e
  have := Real.exp_injective (sub_eq_zero.1 e)
  have hl : -Args.lambdat ≠ 0 := by norm_num [Args.lambdat]
  exact h (mul_left_cancel₀ hl this).symm

theorem sA_eq {a : Args} (h : a.tI ≠ a.tF) : a.sA = a.speed := by
  unfold Args.sA
  rw [← mul_sub, mul_div_assoc, div_self (exp_ne h), mul_one]

theorem sB_eq {a : Args} : a.sB = 0 := by simp [Args.sB]

theorem foldl_addAt {N : ℕ} (a : Args) (T : ℝ) (l : List (DiskEl × ℝ × ℝ)) (F0 F : Fin N → ℝ)
    (h : l.foldlM (fun F x =>
      let k := x.1.d.n * 6
      if N ≤ k + 1 then Except.error PyErr.indexError
      else Except.ok (addAt (addAt F k (a.unbx x.2.1 x.2.2 T)) (k + 1) (a.unby x.2.1 x.2.2 T))) F0 = Except.ok F) :
    (∀ x ∈ l, 6 * x.1.d.n + 1 < N) ∧ ∀ i : Fin N, F i = F0 i + (l.map fun x =>
      if i.val = 6 * x.1.d.n then a.unbx x.2.1 x.2.2 T
      else if i.val = 6 * x.1.d.n + 1 then a.unby x.2.1 x.2.2 T else 0).sum := by
  induction l generalizing F0 with
  | nil => simp at h; cases h; simp
  | cons x l ih =>
    rw [List.foldlM_cons] at h
    obtain ⟨F1, h1, h2⟩ := bind_ok.1 h
    dsimp only at h1
    split_ifs at h1 with hN
    cases h1
    obtain ⟨i1, i2⟩ := ih _ h2
    refine ⟨fun z hz => ?_, fun i => ?_⟩
    · rcases List.mem_cons.1 hz with rfl | hz
      · omega
      · exact i1 z hz
    · rw [i2 i]
      simp only [List.map_cons, List.sum_cons, addAt]
      rw [mul_comm 6 x.1.d.n]
      by_cases e1 : i.val = x.1.d.n * 6
      · have e2 : i.val ≠ x.1.d.n * 6 + 1 := by omega
        simp only [if_pos e1, if_neg e2]; ring
      · by_cases e2 : i.val = x.1.d.n * 6 + 1
        · simp only [if_neg e1, if_pos e2]; ring
        · simp only [if_neg e1, if_neg e2]; ring

theorem foldl_addAt_ok {N : ℕ} (a : Args) (T : ℝ) (l : List (DiskEl × ℝ × ℝ)) (F0 : Fin N → ℝ)
    (hl : ∀ x ∈ l, 6 * x.1.d.n + 1 < N) : ∃ F, l.foldlM (fun F x =>
      let k := x.1.d.n * 6
      if N ≤ k + 1 then Except.error PyErr.indexError
      else Except.ok (addAt (addAt F k (a.unbx x.2.1 x.2.2 T)) (k + 1) (a.unby x.2.1 x.2.2 T))) F0 = Except.ok F := by
  induction l generalizing F0 with
  | nil => exact ⟨F0, rfl⟩
  | cons x l ih =>
    have hx := hl x (by simp)
    obtain ⟨F, hF⟩ := ih (addAt (addAt F0 (x.1.d.n * 6) (a.unbx x.2.1 x.2.2 T)) (x.1.d.n * 6 + 1)
      (a.unby x.2.1 x.2.2 T)) fun z hz => hl z (by simp [hz])
    refine ⟨F, ?_⟩
    rw [List.foldlM_cons]
    refine bind_ok.2 ⟨_, ?_, hF⟩
    dsimp only
    rw [if_neg (by omega)]

end Ross.FaultLemmas
