import Verif.Lemmas.ThdStarved
import Verif.Props.ThdLund
import Mathlib.Analysis.Real.Pi.Bounds

/-!
# Starved bearings (C100, C101)
-/

namespace Ross.ThdLemmas

open Real Thd Thd.THD Stencil Spec.Fluid Spec.Thd

variable {B : THD} {J : Journal} {n_p : ℕ} {mu : ℕ → ℕ → ℝ} {inj g : ℝ}

theorem taken_eq (j : ℕ) : taken B.elements_axial B.elements_circumferential (B.thetaI n_p) (B.betha_s_dg * π / 180)
    (B.film J n_p) (fun t => -(J.Xpt * cos t + J.Ypt * sin t)) j = -B.KP J n_p j := by
  have eY : (1 : ℝ) / B.elements_circumferential = B.dY := rfl
  have eZ : (1 : ℝ) / B.elements_axial = B.dZ := rfl
  have eb : B.betha_s_dg * π / 180 = B.betha_s := rfl
  have e0 : B.thetaI n_p + ((j : ℝ) + 1 / 2) * (B.betha_s / B.elements_circumferential) = B.jj n_p j := by
    unfold jj dtheta; ring
  have e1 : B.thetaI n_p + ((j : ℝ) + 1) * (B.betha_s / B.elements_circumferential) = B.jj n_p j + 0.5 * B.dtheta := by
    unfold jj dtheta; ring
  unfold taken
  rw [eY, eZ, eb, e0, e1]
  unfold KP hpt
  ring

theorem given_eq (j : ℕ) : given B.elements_axial B.elements_circumferential (B.thetaI n_p) (B.betha_s_dg * π / 180)
    (B.film J n_p) j = B.KW J n_p j := by
  have eZ : (1 : ℝ) / B.elements_axial = B.dZ := rfl
  have eb : B.betha_s_dg * π / 180 = B.betha_s := rfl
  have e2 : B.thetaI n_p + (j : ℝ) * (B.betha_s / B.elements_circumferential) = B.jj n_p j - 0.5 * B.dtheta := by
    unfold jj dtheta; ring
  unfold given
  rw [eZ, eb, e2]
  unfold KW
  ring

theorem source_eq (j : ℕ) : B.source J n_p j = -B.KP J n_p j - B.KW J n_p j := by
  unfold source KP KW hpt
  ring

theorem west_index (t : ℕ → ℝ) {i j : ℕ} (hj : j < B.elements_circumferential) :
    west B g t (i * B.elements_circumferential + j) =
      fillBefore g (fun j => t (i * B.elements_circumferential + j)) j := by
  unfold west fillBefore
  rw [index_mod hj]
  split_ifs with h
  · rfl
  · rw [Nat.add_sub_assoc (by omega)]

theorem full_source (hg : g = 1) {k : ℕ} : fullSource B inj g J n_p mu k = B.source J n_p (k % B.elements_circumferential) -
    (if k % B.elements_circumferential = 0 then
      2 * B.CW J n_p mu (k / B.elements_circumferential) (k % B.elements_circumferential) * inj else 0) := by
  unfold fullSource west
  rw [source_eq, hg]
  split_ifs <;> ring

theorem starved_beyond (s : (ℕ → ℝ) × (ℕ → ℝ)) {k : ℕ} (hk : B.elements_axial * B.elements_circumferential ≤ k) :
    (B.starved_sweep inj g J n_p mu s).1 k = s.1 k := (starvedPart_late s hk).1

theorem sweep_full_fun (ho : Open B J n_p mu) (h2a : 2 ≤ B.elements_axial) (h2c : 2 ≤ B.elements_circumferential)
    (hf : ∀ k < B.elements_axial * B.elements_circumferential, fullSource B inj g J n_p mu k < 0)
    {s : (ℕ → ℝ) × (ℕ → ℝ)} (hs : Wet B s.1) :
    (fun k => ((B.starved_sweep inj g J n_p mu s).1 k : ℂ)) =
      GaussSeidel.sweep (B.elements_axial * B.elements_circumferential)
        (B.Mat_coef J n_p mu) (fun k => (fullSource B inj g J n_p mu k : ℂ)) (fun _ => True) (fun k => (s.1 k : ℂ)) := by
  funext k
  rcases lt_or_ge k (B.elements_axial * B.elements_circumferential) with hk | hk
  · exact (sweep_full ho h2a h2c hf hs k hk).2.2
  · rw [starved_beyond s hk, GaussSeidel.sweep_beyond _ hk]

theorem cells_norm_le {x : ℕ → ℝ} {d : ℝ} (hd : 0 < d)
    (hx : ∀ k < B.elements_axial * B.elements_circumferential,
      |x k| ≤ d / (2 * (√(B.elements_axial * B.elements_circumferential : ℕ) + 1))) : B.cells_norm x ≤ d / 2 := by
  unfold cells_norm
  set N := B.elements_axial * B.elements_circumferential with hN
  have hq : 0 < d / (2 * (√(N : ℝ) + 1)) := by positivity
  refine (Real.sqrt_le_sqrt (y := (N : ℝ) * (d / (2 * (√(N : ℝ) + 1))) ^ 2) ?_).trans ?_
  · calc _ ≤ ∑ k ∈ Finset.range N, (d / (2 * (√(N : ℝ) + 1))) ^ 2 := Finset.sum_le_sum fun k hk => by
            rw [← sq_abs]
            exact pow_le_pow_left₀ (abs_nonneg _) (hx k (Finset.mem_range.1 hk)) 2
      _ = _ := by rw [Finset.sum_const, Finset.card_range, nsmul_eq_mul]
  · rw [Real.sqrt_mul (Nat.cast_nonneg _), Real.sqrt_sq hq.le]
    have h0 : 0 < √(N : ℝ) + 1 := by positivity
    have : √(N : ℝ) * (d / (2 * (√(N : ℝ) + 1))) = d / 2 * (√(N : ℝ) / (√(N : ℝ) + 1)) := by field_simp
    rw [this]
    refine mul_le_of_le_one_right (by linarith) ?_
    rw [div_le_one h0]
    linarith

theorem cells_norm_zero {x : ℕ → ℝ} (hx : ∀ k < B.elements_axial * B.elements_circumferential, x k = 0) :
    B.cells_norm x = 0 := by
  unfold cells_norm
  rw [Finset.sum_eq_zero, Real.sqrt_zero]
  intro k hk
  rw [hx k (Finset.mem_range.1 hk)]
  norm_num

/-- With oil enough the sweeps end. -/
theorem full_ends {tol : ℝ} (htol : 0 < tol) (hinj : B.injection_pressure = some inj) (hfc : B.film_check n_p = .ok ())
    (ho : Open B J n_p mu) (h2a : 2 ≤ B.elements_axial) (h2c : 2 ≤ B.elements_circumferential)
    (hf : ∀ k < B.elements_axial * B.elements_circumferential, fullSource B inj g J n_p mu k < 0) :
    ∃ n, ∀ fuel ≥ n, ∃ P Θ, B.starved_pad tol fuel J n_p g mu = some (.ok (P, Θ)) := by
  set N := B.elements_axial * B.elements_circumferential with hN
  set s0 : Starving := ⟨fun _ => 1, fun _ => 0, 1⟩ with hs0
  set st : ℕ → Starving := fun n => (B.starved_step inj g J n_p mu)^[n] s0 with hst
  have hsucc : ∀ n, st (n + 1) = B.starved_step inj g J n_p mu (st n) := fun n => Function.iterate_succ_apply' _ n s0
  set X := GaussSeidel.iter N (B.Mat_coef J n_p mu) (fun k => (fullSource B inj g J n_p mu k : ℂ)) (fun _ => True)
    (fun _ => 1) with hX
  have hwet : ∀ n, Wet B (st n).p ∧ (fun k => ((st n).p k : ℂ)) = X n := by
    intro n
    induction n with
    | zero => exact ⟨fun k _ => one_pos, by funext k; exact Complex.ofReal_one⟩
    | succ n ih =>
      rw [hsucc]
      refine ⟨fun k hk => (sweep_full ho h2a h2c hf ih.1 k hk).1, ?_⟩
      have := sweep_full_fun ho h2a h2c hf (s := ((st n).p, (st n).theta_vol)) ih.1
      refine this.trans ?_
      show GaussSeidel.sweep _ _ _ _ (fun k => ((st n).p k : ℂ)) = _
      rw [ih.2]
      rfl
  have hone : ∀ n, ∀ k < N, (st (n + 1)).theta_vol k = 1 := by
    intro n k hk
    rw [hsucc]
    exact (sweep_full ho h2a h2c hf (s := ((st n).p, (st n).theta_vol)) (hwet n).1 k hk).2.1
  obtain ⟨v, θ, hD⟩ := dominant ho h2a h2c
  obtain ⟨n0, hn0⟩ := GaussSeidel.iter_ends (b := fun k => (fullSource B inj g J n_p mu k : ℂ)) (S := fun _ => True) hD
    (fun _ => 1) (ε := tol / (2 * (√(N : ℝ) + 1))) (by positivity)
  have hend : ¬tol ≤ (st (n0 + 2)).erro := by
    rw [not_le, hsucc (n0 + 1)]
    have e : (B.starved_step inj g J n_p mu (st (n0 + 1))).erro =
        B.cells_norm (fun k => (st (n0 + 2)).p k - (st (n0 + 1)).p k) +
          B.cells_norm (fun k => (st (n0 + 2)).theta_vol k - (st (n0 + 1)).theta_vol k) := by
      rw [hsucc (n0 + 1)]
      rfl
    rw [e, cells_norm_zero (x := fun k => (st (n0 + 2)).theta_vol k - (st (n0 + 1)).theta_vol k)
      (fun k hk => by rw [hone (n0 + 1) k hk, hone n0 k hk, sub_self])]
    have := cells_norm_le (B := B) (x := fun k => (st (n0 + 2)).p k - (st (n0 + 1)).p k) htol (fun k hk => by
      have h1 := hn0 (n0 + 1) (by omega) k hk
      have e1 := congrFun (hwet (n0 + 2)).2 k
      have e2 := congrFun (hwet (n0 + 1)).2 k
      rw [← hX, ← e1, ← e2, ← Complex.ofReal_sub, Complex.norm_real] at h1
      exact h1)
    linarith
  refine ⟨n0 + 3, fun fuel hfuel => ?_⟩
  obtain ⟨n, -, hn⟩ := iterate_ends (test := fun s : Starving => tol ≤ s.erro) (step := B.starved_step inj g J n_p mu)
    (n0 + 2) hend fuel (by omega)
  unfold starved_pad
  rw [hfc]
  dsimp only
  rw [if_neg (by omega), hinj]
  dsimp only
  rw [hn]
  exact ⟨_, _, rfl⟩

/-- A centred journal that moves such that the film at the two cells of a row becomes thicker by `u` and `v`. -/
noncomputable def exStray (u v : ℝ) : Journal := ⟨0, 0, (u + v) / (2 * cos (π / 8)), (v - u) / (2 * sin (π / 8))⟩

theorem exStray_film (inj : Option ℝ) (u v t : ℝ) : (exLund inj).film (exStray u v) 0 t = 1 := by
  unfold THD.film
  rw [if_pos (show (exLund inj).geometry = "circular" from rfl)]
  unfold exStray
  ring

theorem exStray_hpt (inj : Option ℝ) (u v : ℝ) : hpt (exStray u v) ((exLund inj).jj 0 0) = u ∧
    hpt (exStray u v) ((exLund inj).jj 0 1) = v := by
  obtain ⟨B, hB, h1, h2, h3, h4, h5, h6, h7, -⟩ := exLund_fields inj
  rw [hB]
  have hp := Real.pi_pos
  have hb : B.betha_s = π / 2 := by unfold betha_s; rw [h4]; ring
  have hd : B.dtheta = π / 4 := by unfold dtheta; rw [hb, h2]; push_cast; ring
  have hI : B.thetaI 0 = 3 * π / 4 := by unfold thetaI; rw [h3, h4]; push_cast; ring
  have e0 : B.jj 0 0 = π - π / 8 := by unfold jj; rw [hI, hd]; push_cast; ring
  have e1 : B.jj 0 1 = π / 8 + π := by unfold jj; rw [hI, hd]; push_cast; ring
  have hc : cos (π / 8) ≠ 0 := (cos_pos_of_mem_Ioo ⟨by linarith, by linarith⟩).ne'
  have hs : sin (π / 8) ≠ 0 := (sin_pos_of_pos_of_lt_pi (by linarith) (by linarith)).ne'
  unfold hpt exStray
  dsimp only
  rw [e0, e1, cos_pi_sub, sin_pi_sub, cos_add_pi, sin_add_pi]
  constructor <;> (field_simp; ring)

theorem exStray_K (inj : Option ℝ) (u v : ℝ) : (exLund inj).KP (exStray u v) 0 0 = -(1 / (2 * π)) - u / 4 ∧
    (exLund inj).KP (exStray u v) 0 1 = -(1 / (2 * π)) - v / 4 ∧ ∀ j, (exLund inj).KW (exStray u v) 0 j = 1 / (2 * π) := by
  have hh := exStray_hpt inj u v
  have hf := exStray_film inj u v
  obtain ⟨B, hB, h1, h2, h3, h4, h5, h6, h7, -⟩ := exLund_fields inj
  rw [hB] at hh hf ⊢
  have hp := Real.pi_pos
  have hb : B.betha_s = π / 2 := by unfold betha_s; rw [h4]; ring
  have hZ : B.dZ = 1 / 2 := by unfold dZ; rw [h1]; push_cast; rfl
  have hY : B.dY = 1 / 2 := by unfold dY; rw [h2]; push_cast; rfl
  have e : (1 : ℝ) / 2 / (2 * (π / 2)) = 1 / (2 * π) := by field_simp
  refine ⟨?_, ?_, fun j => ?_⟩
  · unfold KP; rw [hf, hh.1, hb, hZ, hY, e]; ring
  · unfold KP; rw [hf, hh.2, hb, hZ, hY, e]; ring
  · unfold KW; rw [hf, hb, hZ, e]; ring

theorem exStray_C (inj : Option ℝ) (u v : ℝ) (i j : ℕ) :
    (exLund inj).CE (exStray u v) 0 (fun _ _ => 1) i j = 1 / (3 * π ^ 2) ∧
    (exLund inj).CW (exStray u v) 0 (fun _ _ => 1) i j = 1 / (3 * π ^ 2) ∧
    (exLund inj).CN (exStray u v) 0 (fun _ _ => 1) i j = 1 / 12 ∧
    (exLund inj).CS (exStray u v) 0 (fun _ _ => 1) i j = 1 / 12 := by
  have hf := exStray_film inj u v
  obtain ⟨B, hB, h1, h2, h3, h4, h5, h6, h7, -⟩ := exLund_fields inj
  rw [hB] at hf ⊢
  have hp := Real.pi_pos
  have hb : B.betha_s = π / 2 := by unfold betha_s; rw [h4]; ring
  have hZ : B.dZ = 1 / 2 := by unfold dZ; rw [h1]; push_cast; rfl
  have hY : B.dY = 1 / 2 := by unfold dY; rw [h2]; push_cast; rfl
  have m1 : B.MU_e (fun _ _ => 1) i j = 1 := by unfold MU_e; split_ifs <;> norm_num
  have m2 : MU_w (fun _ _ => 1) i j = 1 := by unfold MU_w; split_ifs <;> norm_num
  have m3 : B.MU_n (fun _ _ => 1) i j = 1 := by unfold MU_n; split_ifs <;> norm_num
  have m4 : MU_s (fun _ _ => 1) i j = 1 := by unfold MU_s; split_ifs <;> norm_num
  refine ⟨?_, ?_, ?_, ?_⟩
  · unfold CE; rw [hf, hb, hZ, hY, m1]; field_simp; norm_num
  · unfold CW; rw [hf, hb, hZ, hY, m2]; field_simp; norm_num
  · unfold CN; rw [hf, hZ, hY, h5, h6, m3]; norm_num
  · unfold CS; rw [hf, hZ, hY, h5, h6, m4]; norm_num

/-- The four rows of the matrix. -/
theorem exStray_rows (inj : Option ℝ) (u v : ℝ) (x : ℕ → ℝ) :
    (∀ k < 4, (exLund inj).Mat_coef (exStray u v) 0 (fun _ _ => 1) k k = -(3 * (1 / (3 * π ^ 2) + 1 / 12))) ∧
    ∑ c ∈ (Finset.range 4).erase 0, (exLund inj).Mat_coef (exStray u v) 0 (fun _ _ => 1) 0 c * x c =
      1 / (3 * π ^ 2) * x 1 + 1 / 12 * x 2 ∧
    ∑ c ∈ (Finset.range 4).erase 1, (exLund inj).Mat_coef (exStray u v) 0 (fun _ _ => 1) 1 c * x c =
      1 / (3 * π ^ 2) * x 0 + 1 / 12 * x 3 ∧
    ∑ c ∈ (Finset.range 4).erase 2, (exLund inj).Mat_coef (exStray u v) 0 (fun _ _ => 1) 2 c * x c =
      1 / (3 * π ^ 2) * x 3 + 1 / 12 * x 0 ∧
    ∑ c ∈ (Finset.range 4).erase 3, (exLund inj).Mat_coef (exStray u v) 0 (fun _ _ => 1) 3 c * x c =
      1 / (3 * π ^ 2) * x 2 + 1 / 12 * x 1 := by
  have hC := exStray_C inj u v
  obtain ⟨B, hB, h1, h2, h3, h4, h5, h6, h7, -⟩ := exLund_fields inj
  rw [hB] at hC ⊢
  have s0 : (Finset.range 4).erase 0 = {1, 2, 3} := by decide
  have s1 : (Finset.range 4).erase 1 = {0, 2, 3} := by decide
  have s2 : (Finset.range 4).erase 2 = {0, 1, 3} := by decide
  have s3 : (Finset.range 4).erase 3 = {0, 1, 2} := by decide
  refine ⟨fun k hk => ?_, ?_, ?_, ?_, ?_⟩
  · unfold Mat_coef row_P
    simp only [h1, h2, hC]
    interval_cases k <;> norm_num <;> ring
  · rw [s0]
    unfold Mat_coef row_P
    simp only [h1, h2, hC]
    norm_num [Finset.sum_insert, Finset.sum_singleton]
  · rw [s1]
    unfold Mat_coef row_P
    simp only [h1, h2, hC]
    norm_num [Finset.sum_insert, Finset.sum_singleton]
  · rw [s2]
    unfold Mat_coef row_P
    simp only [h1, h2, hC]
    norm_num [Finset.sum_insert, Finset.sum_singleton]
    try ring
  · rw [s3]
    unfold Mat_coef row_P
    simp only [h1, h2, hC]
    norm_num [Finset.sum_insert, Finset.sum_singleton]
    try ring

/-- What a sweep makes of the four cells, where they have pressure and where not; `a`, `C` and `n` are the constants of the
equations. -/
theorem exStray_wet (inj u v : ℝ) (s : (ℕ → ℝ) × (ℕ → ℝ)) {S : (ℕ → ℝ) × (ℕ → ℝ)}
    (hS : (exLund (some inj)).starved_sweep inj 0.8 (exStray u v) 0 (fun _ _ => 1) s = S) (hw : ∀ k < 4, 0 < s.1 k) :
    let a := 1 / (2 * π); let C := 1 / (3 * π ^ 2); let n := (1 : ℝ) / 12
    3 * (C + n) * S.1 0 = C * s.1 1 + n * s.1 2 - (0.2 * a + u / 4 - 2 * C * inj) ∧ 3 * (C + n) * S.1 1 = C * S.1 0 + n * s.1 3 - v / 4 ∧
      3 * (C + n) * S.1 2 = C * s.1 3 + n * S.1 0 - (0.2 * a + u / 4 - 2 * C * inj) ∧
      3 * (C + n) * S.1 3 = C * S.1 2 + n * S.1 1 - v / 4 := by
  intro a C n
  have hp := Real.pi_pos
  have hD : 0 < 3 * (C + n) := by positivity
  have hW := fun k hk h => sweep_wet (B := exLund (some inj)) (inj := inj) (g := 0.8) (J := exStray u v) (n_p := 0)
    (mu := fun _ _ => 1) s (k := k) hk h
  have hR := exStray_rows (some inj) u v
  have hK := exStray_K (some inj) u v
  have hCW := fun i j => (exStray_C (some inj) u v i j).2.1
  rw [hS] at hW
  obtain ⟨B, hB, h1, h2, -⟩ := exLund_fields (some inj)
  rw [hB] at hW hR hK hCW
  have hN : B.elements_axial * B.elements_circumferential = 4 := by rw [h1, h2]
  rw [hN, h2] at hW
  have k0 := hW 0 (by norm_num) (hw 0 (by norm_num))
  have k1 := hW 1 (by norm_num) (hw 1 (by norm_num))
  have k2 := hW 2 (by norm_num) (hw 2 (by norm_num))
  have k3 := hW 3 (by norm_num) (hw 3 (by norm_num))
  unfold west at k0 k1 k2 k3
  rw [h2] at k0 k1 k2 k3
  rw [(hR (fun c => if c < 0 then S.1 c else s.1 c)).2.1, (hR s.1).1 0 (by norm_num)] at k0
  rw [(hR (fun c => if c < 1 then S.1 c else s.1 c)).2.2.1, (hR s.1).1 1 (by norm_num)] at k1
  rw [(hR (fun c => if c < 2 then S.1 c else s.1 c)).2.2.2.1, (hR s.1).1 2 (by norm_num)] at k2
  rw [(hR (fun c => if c < 3 then S.1 c else s.1 c)).2.2.2.2, (hR s.1).1 3 (by norm_num)] at k3
  obtain ⟨t0, k0⟩ := k0
  obtain ⟨t1, k1⟩ := k1
  obtain ⟨t2, k2⟩ := k2
  obtain ⟨t3, k3⟩ := k3
  rw [if_neg (by norm_num)] at k1 k3
  rw [if_neg (by norm_num)] at k1 k3
  rw [if_pos (by norm_num)] at k0 k2
  rw [if_pos (by norm_num)] at k0 k2
  simp only [Nat.reduceMod, Nat.reduceSub, hK, hCW, t0, t2] at k0 k1 k2 k3
  norm_num only [if_true, if_false] at k0 k1 k2 k3
  have hne : -(3 * (1 / (3 * π ^ 2) + 1 / 12)) ≠ 0 := by
    rw [neg_ne_zero]
    exact hD.ne'
  rw [eq_div_iff hne] at k0 k1 k2 k3
  refine ⟨?_, ?_, ?_, ?_⟩
  · linear_combination -k0
  · linear_combination -k1
  · linear_combination -k2
  · linear_combination -k3

theorem exStray_dry (inj u v : ℝ) (s : (ℕ → ℝ) × (ℕ → ℝ)) {S : (ℕ → ℝ) × (ℕ → ℝ)}
    (hS : (exLund (some inj)).starved_sweep inj 0.8 (exStray u v) 0 (fun _ _ => 1) s = S) (hw : ∀ k < 4, s.1 k = 0) :
    let a := 1 / (2 * π)
    S.2 0 = 0.8 * a / (a + u / 4) ∧ S.2 1 = a * (0.8 * a / (a + u / 4)) / (a + v / 4) ∧ S.2 2 = S.2 0 ∧ S.2 3 = S.2 1 := by
  intro a
  have hW := fun k hk h => sweep_dry (B := exLund (some inj)) (inj := inj) (g := 0.8) (J := exStray u v) (n_p := 0)
    (mu := fun _ _ => 1) s (k := k) hk h
  have hK := exStray_K (some inj) u v
  rw [hS] at hW
  obtain ⟨B, hB, h1, h2, -⟩ := exLund_fields (some inj)
  rw [hB] at hW hK
  have hN : B.elements_axial * B.elements_circumferential = 4 := by rw [h1, h2]
  rw [hN, h2] at hW
  have hz : ∀ k < 4, S.1 k = 0 := fun k hk => (hW k hk (by rw [hw k hk]; exact lt_irrefl _)).1
  have hsum : ∀ k, ∑ c ∈ (Finset.range 4).erase k, B.Mat_coef (exStray u v) 0 (fun _ _ => 1) k c *
      (if c < k then S.1 c else s.1 c) = 0 := by
    intro k
    refine Finset.sum_eq_zero fun c hc => ?_
    have hc4 := Finset.mem_range.1 (Finset.mem_of_mem_erase hc)
    rw [hz c hc4, hw c hc4, ite_self, mul_zero]
  have k0 := (hW 0 (by norm_num) (by rw [hw 0 (by norm_num)]; exact lt_irrefl _)).2
  have k1 := (hW 1 (by norm_num) (by rw [hw 1 (by norm_num)]; exact lt_irrefl _)).2
  have k2 := (hW 2 (by norm_num) (by rw [hw 2 (by norm_num)]; exact lt_irrefl _)).2
  have k3 := (hW 3 (by norm_num) (by rw [hw 3 (by norm_num)]; exact lt_irrefl _)).2
  unfold west at k0 k1 k2 k3
  rw [h2, hsum] at k0 k1 k2 k3
  rw [if_neg (by norm_num)] at k1 k3
  rw [if_pos (by norm_num)] at k0 k2
  simp only [Nat.reduceMod, Nat.reduceSub, hK] at k0 k1 k2 k3
  have e : ∀ x y : ℝ, (-0 - 1 / (2 * π) * x) / (-(1 / (2 * π)) - y / 4) = a * x / (a + y / 4) := by
    intro x y
    rw [show -0 - 1 / (2 * π) * x = -(a * x) by ring, show -(1 / (2 * π)) - y / 4 = -(a + y / 4) by ring, neg_div_neg_eq]
  rw [e] at k0 k1 k2 k3
  rw [mul_comm] at k0 k2
  refine ⟨k0, ?_, k2.trans k0.symm, ?_⟩
  · rw [k1, k0]
  · rw [k3, k1, k2, k0]

/-- Oil can be made: with this journal a cell ends twice full. -/
theorem exStray_result {inj : ℝ} (hinj : 0 ≤ inj) : ∃ u v fuel P Θ,
    (exLund (some inj)).starved_pad 0.01 fuel (exStray u v) 0 0.8 (fun _ _ => 1) = some (.ok (P, Θ)) ∧ Θ 0 1 = 2 ∧
      (∀ i < 2, ∀ j < 2, P i j = 0) ∧ Θ 0 0 = 0.8 * (1 / (2 * π)) / (1 / (2 * π) + u / 4) ∧ 0 < u := by
  have hp := Real.pi_pos
  obtain ⟨a, ha⟩ : ∃ a, a = 1 / (2 * π) := ⟨_, rfl⟩
  obtain ⟨C, hC⟩ : ∃ C, C = 1 / (3 * π ^ 2) := ⟨_, rfl⟩
  obtain ⟨n, hn⟩ : ∃ n : ℝ, n = 1 / 12 := ⟨_, rfl⟩
  have ha0 : 0 < a := by rw [ha]; positivity
  have hC0 : 0 < C := by rw [hC]; positivity
  have hn0 : 0 < n := by rw [hn]; norm_num
  have hCn : C < n := by
    rw [hC, hn]
    refine one_div_lt_one_div_of_lt (by norm_num) ?_
    nlinarith [Real.pi_gt_three]
  obtain ⟨N, hN⟩ : ∃ N, N = (n + a) / C := ⟨_, rfl⟩
  have hNC : C * N = n + a := by rw [hN]; field_simp
  have hN1 : 1 < N := by
    rw [hN, one_lt_div hC0]
    linarith
  obtain ⟨b0, hb0⟩ : ∃ b0, b0 = C + n + 3 * (C + n) * N := ⟨_, rfl⟩
  have hb00 : 0 < b0 := by rw [hb0]; positivity
  obtain ⟨θ, hθ⟩ : ∃ θ, θ = 0.8 * a / (b0 + 2 * C * inj + 0.8 * a) := ⟨_, rfl⟩
  have hθ0 : 0 < θ := by rw [hθ]; positivity
  set u := 4 * (b0 + 2 * C * inj - 0.2 * a) with hu
  set v := 4 * (-a + a * θ / 2) with hv
  have eu : a + u / 4 = b0 + 2 * C * inj + 0.8 * a := by rw [hu]; ring
  have ev : a + v / 4 = a * θ / 2 := by rw [hv]; ring
  set J := exStray u v with hJ
  -- the stages
  have hD0 : 0 < 3 * (C + n) := by positivity
  have hneg : ∀ s : (ℕ → ℝ) × (ℕ → ℝ), (∀ k < 4, s.1 k = 1) →
      ((exLund (some inj)).starved_sweep inj 0.8 J 0 (fun _ _ => 1) s).1 0 = -N ∧
      ∀ k < 4, ((exLund (some inj)).starved_sweep inj 0.8 J 0 (fun _ _ => 1) s).1 k < 0 := by
    intro s hs
    obtain ⟨e0, e1, e2, e3⟩ := exStray_wet inj u v s rfl (fun k hk => by rw [hs k hk]; exact one_pos)
    rw [← ha, ← hC, ← hn] at e0
    rw [← hC, ← hn] at e1 e3
    rw [← ha, ← hC, ← hn] at e2
    rw [← hJ] at e0 e1 e2 e3
    rw [hs 1 (by norm_num), hs 2 (by norm_num)] at e0
    rw [hs 3 (by norm_num)] at e1 e2
    set S := (exLund (some inj)).starved_sweep inj 0.8 J 0 (fun _ _ => 1) s
    have eb : 0.2 * a + u / 4 - 2 * C * inj = b0 := by rw [hu]; ring
    have evv : v / 4 = -a + a * θ / 2 := by rw [hv]; ring
    rw [eb] at e0 e2
    rw [evv] at e1 e3
    have q0 : S.1 0 = -N := by
      have : 3 * (C + n) * S.1 0 = 3 * (C + n) * (-N) := by rw [e0, hb0]; ring
      exact mul_left_cancel₀ hD0.ne' this
    have hneg : ∀ x, 3 * (C + n) * x < 0 → x < 0 := fun x hx => by
      by_contra h
      exact absurd hx (not_lt.2 (mul_nonneg hD0.le (not_lt.1 h)))
    have haθ : 0 < a * θ := mul_pos ha0 hθ0
    have q1 : S.1 1 < 0 := hneg _ (by rw [e1, q0]; linarith)
    have q2' : 3 * (C + n) * S.1 2 < 3 * (C + n) * (-N) := by
      rw [e2, q0, hb0]
      have := mul_pos hn0 (show 0 < N by linarith)
      linarith
    have q2'' : S.1 2 < -N := lt_of_mul_lt_mul_left q2' hD0.le
    have q2 : S.1 2 < 0 := by linarith
    have q3 : S.1 3 < 0 := hneg _ (by
      rw [e3]
      have h1 := mul_lt_mul_of_pos_left q2'' hC0
      have h2 := mul_neg_of_pos_of_neg hn0 q1
      linarith)
    refine ⟨q0, fun k hk => ?_⟩
    interval_cases k
    · rw [q0]; linarith
    · exact q1
    · exact q2
    · exact q3
  have hzero : ∀ s : (ℕ → ℝ) × (ℕ → ℝ), (∀ k < 4, s.1 k ≤ 0) →
      ∀ k < 4, ((exLund (some inj)).starved_sweep inj 0.8 J 0 (fun _ _ => 1) s).1 k = 0 := fun s hs k hk =>
    (sweep_dry (B := exLund (some inj)) s (k := k) hk (not_lt.2 (hs k hk))).1
  have hdry : ∀ s : (ℕ → ℝ) × (ℕ → ℝ), (∀ k < 4, s.1 k = 0) →
      ∀ k < 4, ((exLund (some inj)).starved_sweep inj 0.8 J 0 (fun _ _ => 1) s).2 k = if k % 2 = 0 then θ else 2 := by
    intro s hs
    obtain ⟨e0, e1, e2, e3⟩ := exStray_dry inj u v s rfl hs
    rw [← ha] at e0 e1
    rw [← hJ] at e0 e1 e2 e3
    rw [eu, ← hθ] at e0 e1
    rw [ev] at e1
    have e1' : a * θ / (a * θ / 2) = 2 := by
      have := (mul_pos ha0 hθ0).ne'
      field_simp
    rw [e1'] at e1
    intro k hk
    interval_cases k
    · exact e0
    · exact e1
    · exact e2.trans e0
    · exact e3.trans e1
  set st := fun m => ((exLund (some inj)).starved_step inj 0.8 J 0 (fun _ _ => 1))^[m] ⟨fun _ => 1, fun _ => 0, 1⟩ with hst
  have hsucc : ∀ m, st (m + 1) = (exLund (some inj)).starved_step inj 0.8 J 0 (fun _ _ => 1) (st m) :=
    fun m => Function.iterate_succ_apply' _ m _
  have p1 : ∀ k < 4, (st 1).p k < 0 := (hneg ((st 0).p, (st 0).theta_vol) (fun k _ => rfl)).2
  have p2 : ∀ k < 4, (st 2).p k = 0 := by
    rw [hsucc 1]
    exact hzero ((st 1).p, (st 1).theta_vol) (fun k hk => (p1 k hk).le)
  have p3 : ∀ k < 4, (st 3).p k = 0 := by
    rw [hsucc 2]
    exact hzero ((st 2).p, (st 2).theta_vol) (fun k hk => (p2 k hk).le)
  have p4 : ∀ k < 4, (st 4).p k = 0 := by
    rw [hsucc 3]
    exact hzero ((st 3).p, (st 3).theta_vol) (fun k hk => (p3 k hk).le)
  have t3 : ∀ k < 4, (st 3).theta_vol k = if k % 2 = 0 then θ else 2 := by
    rw [hsucc 2]
    exact hdry ((st 2).p, (st 2).theta_vol) p2
  have t4 : ∀ k < 4, (st 4).theta_vol k = if k % 2 = 0 then θ else 2 := by
    rw [hsucc 3]
    exact hdry ((st 3).p, (st 3).theta_vol) p3
  have hend : ¬(0.01 : ℝ) ≤ (st 4).erro := by
    have e : (st 4).erro = (exLund (some inj)).cells_norm (fun k => (st 4).p k - (st 3).p k) +
        (exLund (some inj)).cells_norm (fun k => (st 4).theta_vol k - (st 3).theta_vol k) := by
      rw [hsucc 3]
      rfl
    rw [e, cells_norm_zero (fun k hk => by rw [p4 k hk, p3 k hk, sub_self]),
      cells_norm_zero (fun k hk => by rw [t4 k hk, t3 k hk, sub_self])]
    norm_num
  obtain ⟨m, -, hm⟩ := iterate_ends (test := fun s : Starving => (0.01 : ℝ) ≤ s.erro)
    (step := (exLund (some inj)).starved_step inj 0.8 J 0 (fun _ _ => 1)) 4 hend 5 (by norm_num)
  have hpad : ∃ P Θ, (exLund (some inj)).starved_pad 0.01 5 J 0 0.8 (fun _ _ => 1) = some (.ok (P, Θ)) := by
    unfold starved_pad
    rw [show (exLund (some inj)).film_check 0 = .ok () from rfl]
    dsimp only
    rw [if_neg (show ¬((exLund (some inj)).elements_circumferential < 2 ∨ (exLund (some inj)).elements_axial < 2) from
      not_or.2 ⟨lt_irrefl 2, lt_irrefl 2⟩), show (exLund (some inj)).injection_pressure = some inj from rfl]
    dsimp only
    rw [hm]
    exact ⟨_, _, rfl⟩
  obtain ⟨P, Θ, hres⟩ := hpad
  refine ⟨u, v, 5, P, Θ, hres, ?_⟩
  obtain ⟨s, hI, hP, hΘ, hd⟩ := starved_last (B := exLund (some inj)) (inj := inj)
    (fun s => (∀ k < 4, s.p k = 1) ∨ (s.p 0 = -N ∧ ∀ k < 4, s.p k < 0) ∨ ∀ k < 4, s.p k = 0)
    (fun s hI => by
      rcases hI with hI | hI | hI
      · exact Or.inr (Or.inl (hneg (s.p, s.theta_vol) hI))
      · exact Or.inr (Or.inr (hzero (s.p, s.theta_vol) fun k hk => (hI.2 k hk).le))
      · exact Or.inr (Or.inr (hzero (s.p, s.theta_vol) fun k hk => (hI k hk).le)))
    (Or.inl fun k _ => rfl) (by norm_num) rfl hres
  have h0 := hd 0 (show 0 < 2 * 2 by norm_num)
  rcases hI with hI | hI | hI
  · rw [(hneg (s.p, s.theta_vol) hI).1, hI 0 (by norm_num), abs_of_neg (by linarith)] at h0
    norm_num at h0
    linarith
  · rw [hzero (s.p, s.theta_vol) (fun k hk => (hI.2 k hk).le) 0 (by norm_num), hI.1, sub_neg_eq_add, zero_add,
      abs_of_pos (by linarith)] at h0
    norm_num at h0
    linarith
  · refine ⟨?_, fun i hi j hj => ?_, ?_, ?_⟩
    · rw [hΘ 0 1]
      exact hdry (s.p, s.theta_vol) hI 1 (by norm_num)
    · rw [hP i j, show (exLund (some inj)).elements_circumferential = 2 from rfl,
        hzero (s.p, s.theta_vol) (fun k hk => (hI k hk).le) _ (show i * 2 + j < 4 by omega), max_self]
    · rw [hΘ 0 0, ← ha, eu, ← hθ]
      exact hdry (s.p, s.theta_vol) hI 0 (by norm_num)
    · have : a < b0 := by
        have h1 : n + a < 3 * (C + n) * N := by
          have : C * N < 3 * (C + n) * N := by
            have := mul_pos (show 0 < 2 * C + 3 * n by linarith) (show 0 < N by linarith)
            linarith
          linarith
        linarith
      have := mul_nonneg hC0.le hinj
      rw [hu]
      linarith

/-! ### The pads and the mixing -/

/-- What two states have in common on a pad. -/
def SameStarved (q : ℕ) (s s' : StarvedFields) : Prop :=
  pad s'.P q = pad s.P q ∧ pad s'.Theta_vol q = pad s.Theta_vol q ∧ pad s'.T q = pad s.T q ∧
    pad s'.T_new q = pad s.T_new q ∧ pad s'.mu_turb q = pad s.mu_turb q ∧ pad s'.mu_new q = pad s.mu_new q ∧
    pad s'.U q = pad s.U q ∧ (∀ j, s'.H j q = s.H j q) ∧ s'.T_end q = s.T_end q

theorem SameStarved.trans {q : ℕ} {s s1 s2 : StarvedFields} (h : SameStarved q s s1) (h' : SameStarved q s1 s2) :
    SameStarved q s s2 :=
  ⟨h'.1.trans h.1, h'.2.1.trans h.2.1, h'.2.2.1.trans h.2.2.1, h'.2.2.2.1.trans h.2.2.2.1,
    h'.2.2.2.2.1.trans h.2.2.2.2.1, h'.2.2.2.2.2.1.trans h.2.2.2.2.2.1, h'.2.2.2.2.2.2.1.trans h.2.2.2.2.2.2.1,
    fun j => (h'.2.2.2.2.2.2.2.1 j).trans (h.2.2.2.2.2.2.2.1 j), h'.2.2.2.2.2.2.2.2.trans h.2.2.2.2.2.2.2.2⟩

theorem SameStarved.refl (q : ℕ) (s : StarvedFields) : SameStarved q s s :=
  ⟨rfl, rfl, rfl, rfl, rfl, rfl, rfl, fun _ => rfl, rfl⟩

theorem starved_pass_ok {solve} {fuel : ℕ} {M G : ℕ → ℝ} {s s' : StarvedFields}
    (h : B.starved_pass solve J fuel M G n_p s = some (.ok s')) :
    ∃ P Θ, B.starved_pad 0.01 fuel J n_p (G n_p) (pad s.mu_new n_p) = some (.ok (P, Θ)) ∧
      let mt : ℕ → ℕ → ℝ := fun ki kj => B.starved_mi_t (Θ ki kj) (B.HP J n_p kj) (B.dPdy P ki kj) (B.dPdz P ki kj)
        (pad s.mu_new n_p ki kj) (pad s.mu_turb n_p ki kj)
      let t := solve (B.elements_axial * B.elements_circumferential) (B.Mat_coef_T J n_p P mt) (B.b_T J n_p P mt (M n_p))
      s'.P = setPad s.P n_p P ∧ s'.Theta_vol = setPad s.Theta_vol n_p Θ ∧
      s'.T = setPad s.T n_p (pad s.T_new n_p) ∧
      s'.T_new = setPad s.T_new n_p (fun i j => t (i * B.elements_circumferential + j)) ∧
      s'.mu_turb = setPad s.mu_turb n_p mt ∧
      s'.mu_new = setPad s.mu_new n_p (fun i j =>
        (B.a * (t (i * B.elements_circumferential + j) * B.reference_temperature) ^ B.b) / B.reference_viscosity) ∧
      s'.T_end = Function.update s.T_end n_p ((∑ i ∈ Finset.range B.elements_axial,
        t (i * B.elements_circumferential + (B.elements_circumferential - 1)) * B.reference_temperature) /
          B.elements_axial) ∧
      s'.U = setPad s.U n_p (fun ki kj => B.U_cell (B.HP J n_p kj) (B.dPdy P ki kj) (mt ki kj)) ∧
      s'.H = fun kj p => if p = n_p then B.HP J n_p kj else s.H kj p := by
  unfold starved_pass at h
  dsimp only at h
  split at h
  · cases h
  · cases h
  · rename_i r hr
    cases h
    exact ⟨r.1, r.2, hr, rfl, rfl, rfl, rfl, rfl, rfl, rfl, rfl, rfl⟩

theorem starved_pass_same {solve} {fuel q : ℕ} {M G : ℕ → ℝ} {s s' : StarvedFields}
    (h : B.starved_pass solve J fuel M G n_p s = some (.ok s')) (hq : q ≠ n_p) : SameStarved q s s' := by
  obtain ⟨P, Θ, -, h1, h2, h3, h4, h5, h6, h7, h8, h9⟩ := starved_pass_ok h
  unfold SameStarved
  rw [h1, h2, h3, h4, h5, h6, h7, h8, h9]
  exact ⟨pad_setPad_ne _ hq _, pad_setPad_ne _ hq _, pad_setPad_ne _ hq _, pad_setPad_ne _ hq _, pad_setPad_ne _ hq _,
    pad_setPad_ne _ hq _, pad_setPad_ne _ hq _, fun j => if_neg hq, Function.update_of_ne hq _ _⟩

/-- The pass with which the loop of pad `p` ends, and which left the arrays of that pad as they are in `s`. -/
def StarvedDone (B : THD) (solve : Fluid.FluidFlow.Solver) (J : Journal) (fuel : ℕ) (M G : ℕ → ℝ) (p : ℕ)
    (s : StarvedFields) : Prop :=
  ∃ s0 s1, B.starved_pass solve J fuel M G p s0 = some (.ok s1) ∧ ¬B.starved_cond p s1 ∧ SameStarved p s1 s

theorem starved_pads_done {solve} {fuel : ℕ} {M G : ℕ → ℝ} {l : List ℕ} (hnd : l.Nodup) {s s' : StarvedFields}
    (hc : ∀ p ∈ l, ∀ t, SameStarved p s t → B.starved_cond p t)
    (h : B.starved_pads solve J fuel M G l s = some (.ok s')) :
    (∀ p ∈ l, StarvedDone B solve J fuel M G p s') ∧ ∀ q, q ∉ l → SameStarved q s s' := by
  induction l generalizing s with
  | nil =>
    simp only [starved_pads, Option.some.injEq, Except.ok.injEq] at h
    subst h
    exact ⟨fun p hp => absurd hp List.not_mem_nil, fun q _ => SameStarved.refl _ _⟩
  | cons p rest ih =>
    unfold starved_pads at h
    split at h
    · cases h
    · cases h
    · rename_i s1 hs1
      obtain ⟨hp, hnd'⟩ := List.nodup_cons.1 hnd
      obtain ⟨s0, -, hb0, -, ht1⟩ := while_last (fun _ => True) (fun _ _ _ _ _ => trivial) trivial
        (hc p List.mem_cons_self s (SameStarved.refl _ _)) hs1
      have hsame : ∀ q, q ≠ p → SameStarved q s s1 := fun q hq =>
        (while_inv (fun t => SameStarved q s t) (fun t t1 hIt _ hb => hIt.trans (starved_pass_same hb hq))
          (SameStarved.refl _ _) hs1).1
      obtain ⟨hd, hs⟩ := ih hnd' (fun q hq t ht => hc q (List.mem_cons_of_mem _ hq) t
        ((hsame q (fun e => hp (e ▸ hq))).trans ht)) h
      refine ⟨fun q hq => ?_, fun q hq => ?_⟩
      · rcases List.mem_cons.1 hq with rfl | hq
        · exact ⟨s0, s1, hb0, ht1, hs q hp⟩
        · exact hd q hq
      · rw [List.mem_cons, not_or] at hq
        exact (hsame q hq.1).trans (hs q hq.2)

theorem norm_const (x : ℝ) (hx : 0 ≤ x) :
    B.norm (fun _ _ => x) = √(B.elements_axial * B.elements_circumferential) * x := by
  unfold THD.norm
  simp only [Finset.sum_const, Finset.card_range, nsmul_eq_mul]
  rw [← mul_assoc, Real.sqrt_mul (by positivity), Real.sqrt_sq hx]

theorem cells_pos (hna : 0 < B.elements_axial) (hnc : 0 < B.elements_circumferential) :
    0 < √((B.elements_axial : ℝ) * B.elements_circumferential) := by
  have : (0 : ℝ) < B.elements_axial := by exact_mod_cast hna
  have : (0 : ℝ) < B.elements_circumferential := by exact_mod_cast hnc
  positivity

/-- At the start of a pass over the pads the loop of every pad is entered. -/
theorem starved_fresh_cond (hna : 0 < B.elements_axial) (hnc : 0 < B.elements_circumferential) (E : ℕ → ℝ) (p : ℕ)
    (t : StarvedFields) (ht : SameStarved p (starved_fresh E) t) : B.starved_cond p t := by
  have e1 : pad t.T p = fun _ _ => 1 := ht.2.2.1
  have e2 : pad t.T_new p = fun _ _ => 1.2 := ht.2.2.2.1
  unfold starved_cond
  have e3 : (fun i j => t.T_new i j p - t.T i j p) = fun _ _ => (0.2 : ℝ) := by
    funext i j
    have a1 := congrFun (congrFun e1 i) j
    have a2 := congrFun (congrFun e2 i) j
    change t.T i j p = 1 at a1
    change t.T_new i j p = 1.2 at a2
    rw [a1, a2]
    norm_num
  rw [e3, e1, norm_const _ (by norm_num), norm_const _ (by norm_num), mul_one, mul_comm,
    mul_div_cancel_right₀ _ (cells_pos hna hnc).ne']
  norm_num

/-- `before` goes round the pads. -/
theorem sum_before (f : ℕ → ℝ) : ∑ p ∈ Finset.range B.n_pad, f (B.before p) = ∑ p ∈ Finset.range B.n_pad, f p := by
  unfold before
  cases hn : B.n_pad with
  | zero => simp
  | succ m =>
    rw [Finset.sum_range_succ', Finset.sum_range_succ]
    simp

end Ross.ThdLemmas

namespace Ross.Props

open Real Thd Thd.THD Stencil Spec.Fluid Spec.Thd ThdLemmas

/-- C100: no cell has a negative pressure, and those with pressure are full. -/
theorem C100_full {B : THD} {tol : ℝ} {fuel : ℕ} {J : Journal} {n_p : ℕ} {g : ℝ} {mu P Θ : ℕ → ℕ → ℝ} (htol : tol ≤ 1)
    (h : B.starved_pad tol fuel J n_p g mu = some (.ok (P, Θ))) {i j : ℕ} (hi : i < B.elements_axial)
    (hj : j < B.elements_circumferential) : 0 ≤ P i j ∧ (0 < P i j → Θ i j = 1) := by
  obtain ⟨-, -, -, inj, hinj, -⟩ := starved_pad_ok h
  obtain ⟨s, -, hP, hΘ, -⟩ := starved_last (fun _ => True) (fun _ _ => trivial) trivial htol hinj h
  rw [hP, hΘ]
  refine ⟨le_max_right _ _, fun hp => ?_⟩
  have hk := index_lt hi hj
  by_cases hw : 0 < s.p (i * B.elements_circumferential + j)
  · exact (sweep_wet (s.p, s.theta_vol) hk hw).1
  · rw [(sweep_dry (s.p, s.theta_vol) hk hw).1, max_self] at hp
    exact absurd hp (lt_irrefl _)

/-- C100: in every cell mass is conserved, up to the tolerance: what flows out of it, with the oil that it gains, is at most
four times the tolerance times what its faces let through.  At the entry of a pad this takes pressure in the cell, or oil
that is fed without pressure. -/
theorem C100_balance {B : THD} {tol inj : ℝ} {fuel : ℕ} {J : Journal} {n_p : ℕ} {g : ℝ} {mu P Θ : ℕ → ℕ → ℝ}
    (htol : tol ≤ 1) (hinj : B.injection_pressure = some inj)
    (h : B.starved_pad tol fuel J n_p g mu = some (.ok (P, Θ))) (hfilm : ∀ t, 0 < B.film J n_p t)
    (hmu : ∀ i < B.elements_axial, ∀ j < B.elements_circumferential, 0 < mu i j) (harc : B.betha_s_dg ≠ 0)
    (hR : B.journal_radius ≠ 0) (hL : B.axial_length ≠ 0) {i j : ℕ} (hi : i < B.elements_axial)
    (hj : j < B.elements_circumferential)
    (htake : taken B.elements_axial B.elements_circumferential (B.thetaI n_p) (B.betha_s_dg * π / 180) (B.film J n_p)
      (fun t => -(J.Xpt * cos t + J.Ypt * sin t)) j ≠ 0) (hentry : 0 < j ∨ 0 < P i j ∨ inj = 0) :
    |starvedExcess B.elements_axial B.elements_circumferential (B.thetaI n_p) (B.betha_s_dg * π / 180)
        ((B.journal_radius / B.axial_length) ^ 2) g inj (B.film J n_p) (fun t => -(J.Xpt * cos t + J.Ypt * sin t))
        mu P Θ i j| ≤
      4 * conductance B.elements_axial B.elements_circumferential (B.thetaI n_p) (B.betha_s_dg * π / 180)
        ((B.journal_radius / B.axial_length) ^ 2) (B.film J n_p) mu i j * tol := by
  obtain ⟨-, h2c, h2a, -⟩ := starved_pad_ok h
  have ho := open_of hfilm hmu harc hR hL
  obtain ⟨s, -, hP, hΘ, hd⟩ := starved_last (fun _ => True) (fun _ _ => trivial) trivial htol hinj h
  have hk := index_lt hi hj
  set k := i * B.elements_circumferential + j with hkd
  set q := B.starved_sweep inj g J n_p mu (s.p, s.theta_vol) with hq
  have hdry : ∀ c < B.elements_axial * B.elements_circumferential, q.1 c ≠ 0 → 0 < s.p c := by
    intro c hc hne
    by_contra hw
    exact hne (sweep_dry (s.p, s.theta_vol) hc hw).1
  rw [taken_eq, neg_ne_zero] at htake
  have hres := starved_residual (inj := inj) (g := g) (s.p, s.theta_vol) hk (entry_signs ho h2a h2c hk).1.ne
    (by rw [hkd, index_mod hj]; exact htake)
  rw [← hq] at hres
  dsimp only at hres
  have hcl := clipped_residual ho h2a h2c hi hj (p := s.p) (q := q.1) (d := tol) (fun c hc => (hd c hc).le)
    (fun c hc hneg => hdry c hc hneg.ne)
  have hmat := mat_sum (J := J) (n_p := n_p) (mu := mu) h2a h2c (fun c => max (q.1 c) 0) hi hj
  rw [← hkd] at hcl hmat
  have hPf : (fun i j => max (q.1 (i * B.elements_circumferential + j)) 0) = P := funext fun i => funext fun j => (hP i j).symm
  rw [hPf] at hmat
  rw [starvedExcess_eq h2a h2c, conductance_eq]
  refine le_trans (le_of_eq ?_) hcl
  rw [← abs_neg]
  congr 1
  have hw : west B g q.2 k = fillBefore g (Θ i) j := by
    rw [hkd, west_index q.2 hj]
    congr 1
    exact funext fun j => (hΘ i j).symm
  have hj' : k % B.elements_circumferential = j := index_mod hj
  have hi' : k / B.elements_circumferential = i := index_div hj
  rw [hw, hj', hi', ← hΘ i j] at hres
  have hcut : (if j = 0 ∧ 0 < s.p k then 2 * B.CW J n_p mu i j * inj else 0) =
      if j = 0 then 2 * B.CW J n_p mu i j * inj else 0 := by
    rcases hentry with h1 | h1 | h1
    · rw [if_neg (by omega), if_neg (by omega)]
    · have : 0 < s.p k := hdry k hk (by
        intro h0
        rw [hP, ← hkd, h0, max_self] at h1
        exact lt_irrefl _ h1)
      simp [this]
    · rw [h1]
      simp
  rw [hcut] at hres
  have hsub : ∑ c ∈ Finset.range (B.elements_axial * B.elements_circumferential), B.Mat_coef J n_p mu k c *
        (max (q.1 c) 0 - q.1 c) =
      ∑ c ∈ Finset.range (B.elements_axial * B.elements_circumferential), B.Mat_coef J n_p mu k c * max (q.1 c) 0 -
      ∑ c ∈ Finset.range (B.elements_axial * B.elements_circumferential), B.Mat_coef J n_p mu k c * q.1 c := by
    rw [← Finset.sum_sub_distrib]
    exact Finset.sum_congr rfl fun c _ => mul_sub _ _ _
  rw [hsub, hmat]
  linear_combination hres

/-- C100: where the groove is full and the oil is fed without pressure or with it, and every full cell is given more than is
taken from it, the sweeps end, and the pad is full and under pressure. -/
theorem C100_fed {B : THD} {tol inj : ℝ} {J : Journal} {n_p : ℕ} {mu : ℕ → ℕ → ℝ} (htol : 0 < tol) (htol' : tol ≤ 1)
    (hfc : B.film_check n_p = .ok ()) (h2a : 2 ≤ B.elements_axial) (h2c : 2 ≤ B.elements_circumferential)
    (hinj : B.injection_pressure = some inj) (hinj0 : 0 ≤ inj) (hfilm : ∀ t, 0 < B.film J n_p t)
    (hmu : ∀ i < B.elements_axial, ∀ j < B.elements_circumferential, 0 < mu i j) (harc : B.betha_s_dg ≠ 0)
    (hR : B.journal_radius ≠ 0) (hL : B.axial_length ≠ 0)
    (hmore : ∀ j < B.elements_circumferential, taken B.elements_axial B.elements_circumferential (B.thetaI n_p)
        (B.betha_s_dg * π / 180) (B.film J n_p) (fun t => -(J.Xpt * cos t + J.Ypt * sin t)) j <
      given B.elements_axial B.elements_circumferential (B.thetaI n_p) (B.betha_s_dg * π / 180) (B.film J n_p) j) :
    (∃ n, ∀ fuel ≥ n, ∃ P Θ, B.starved_pad tol fuel J n_p 1 mu = some (.ok (P, Θ))) ∧
      ∀ fuel P Θ, B.starved_pad tol fuel J n_p 1 mu = some (.ok (P, Θ)) →
        ∀ i < B.elements_axial, ∀ j < B.elements_circumferential, 0 < P i j ∧ Θ i j = 1 := by
  have ho := open_of hfilm hmu harc hR hL
  have hc : 0 < B.elements_circumferential := by omega
  have hf : ∀ k < B.elements_axial * B.elements_circumferential, fullSource B inj 1 J n_p mu k < 0 := by
    intro k hk
    have hm := hmore _ (Nat.mod_lt k hc)
    rw [taken_eq, given_eq] at hm
    have hw := (ho.signs h2a h2c ((Nat.div_lt_iff_lt_mul hc).2 hk) (Nat.mod_lt k hc)).1
    rw [full_source rfl, source_eq]
    have : 0 ≤ (if k % B.elements_circumferential = 0 then
        2 * B.CW J n_p mu (k / B.elements_circumferential) (k % B.elements_circumferential) * inj else 0) := by
      split_ifs
      · exact mul_nonneg (by linarith) hinj0
      · exact le_rfl
    linarith
  refine ⟨full_ends htol hinj hfc ho h2a h2c hf, fun fuel P Θ h i hi j hj => ?_⟩
  obtain ⟨s, hI, hP, hΘ, -⟩ := starved_last (fun s => Wet B s.p)
    (fun s hI k hk => (sweep_full ho h2a h2c hf (s := (s.p, s.theta_vol)) hI k hk).1) (fun k _ => one_pos) htol' hinj h
  have hs := sweep_full ho h2a h2c hf (s := (s.p, s.theta_vol)) hI _ (index_lt hi hj)
  rw [hP, hΘ]
  exact ⟨lt_max_of_lt_left hs.1, hs.2.1⟩

/-- C100: and where the oil is fed without pressure, the pressure is that of a flooded pad, up to a multiple of the
tolerance. -/
theorem C100_flooded {B : THD} {solve : Fluid.FluidFlow.Solver} (hsolve : SolverOk solve) {J : Journal} {n_p : ℕ}
    {mu F : ℕ → ℕ → ℝ} (hF : B.flooded solve J n_p mu = .ok F)
    (hinj : B.injection_pressure = some 0) (hfilm : ∀ t, 0 < B.film J n_p t)
    (hmu : ∀ i < B.elements_axial, ∀ j < B.elements_circumferential, 0 < mu i j) (harc : B.betha_s_dg ≠ 0)
    (hR : B.journal_radius ≠ 0) (hL : B.axial_length ≠ 0)
    (hmore : ∀ j < B.elements_circumferential, taken B.elements_axial B.elements_circumferential (B.thetaI n_p)
        (B.betha_s_dg * π / 180) (B.film J n_p) (fun t => -(J.Xpt * cos t + J.Ypt * sin t)) j <
      given B.elements_axial B.elements_circumferential (B.thetaI n_p) (B.betha_s_dg * π / 180) (B.film J n_p) j) :
    ∃ K, ∀ tol ≤ 1, ∀ fuel P Θ, B.starved_pad tol fuel J n_p 1 mu = some (.ok (P, Θ)) →
        ∀ i < B.elements_axial, ∀ j < B.elements_circumferential, |P i j - F i j| ≤ K * tol := by
  have ho := open_of hfilm hmu harc hR hL
  have hsrc : ∀ j < B.elements_circumferential, B.source J n_p j < 0 := by
    intro j hj
    have hm := hmore j hj
    rw [taken_eq, given_eq] at hm
    rw [source_eq]
    linarith
  have hpos := flooded_pos hsolve ho hF hsrc
  obtain ⟨-, h2c, h2a, rfl⟩ := flooded_ok hF
  have hc : 0 < B.elements_circumferential := by omega
  set N := B.elements_axial * B.elements_circumferential with hN
  have hfs : ∀ k, fullSource B 0 1 J n_p mu k = B.b_P J n_p k := by
    intro k
    rw [full_source rfl, b_P]
    simp
  have hf : ∀ k < N, fullSource B 0 1 J n_p mu k < 0 := by
    intro k hk
    rw [hfs]
    exact hsrc _ (Nat.mod_lt k hc)
  obtain ⟨x, hx, hux⟩ := pressure_exists ho h2a h2c
  have hsol := hsolve _ _ _ x hx hux
  set y := solve N (B.Mat_coef J n_p mu) (B.b_P J n_p) with hy
  obtain ⟨u, θ, hD⟩ := dominant ho h2a h2c
  let V := ∑ c ∈ Finset.range N, u c
  let m := ∑ c ∈ Finset.range N, (u c)⁻¹
  have hu : ∀ c < N, u c ≤ V := fun c hc =>
    Finset.single_le_sum (f := u) (fun c hc => (hD.pos c (Finset.mem_range.1 hc)).le) (Finset.mem_range.2 hc)
  have hm : ∀ c < N, (u c)⁻¹ ≤ m := fun c hc =>
    Finset.single_le_sum (f := fun c => (u c)⁻¹) (fun c hc => inv_nonneg.2 (hD.pos c (Finset.mem_range.1 hc)).le)
      (Finset.mem_range.2 hc)
  have hm0 : 0 ≤ m := Finset.sum_nonneg fun c hc => inv_nonneg.2 (hD.pos c (Finset.mem_range.1 hc)).le
  have h1 : 0 < 1 - θ := by linarith [hD.lt_one]
  refine ⟨θ / (1 - θ) * m * V, fun tol htol fuel P Θ h i hi j hj => ?_⟩
  have hk := index_lt hi hj
  obtain ⟨s, hI, hP, -, hd⟩ := starved_last (fun s => Wet B s.p)
    (fun s hI k hk => (sweep_full ho h2a h2c hf (s := (s.p, s.theta_vol)) hI k hk).1) (fun k _ => one_pos) htol hinj h
  have hfun := sweep_full_fun ho h2a h2c hf (s := (s.p, s.theta_vol)) hI
  dsimp only at hfun
  have hw := (sweep_full ho h2a h2c hf (s := (s.p, s.theta_vol)) hI _ hk).1
  set q := B.starved_sweep 0 1 J n_p mu (s.p, s.theta_vol) with hq
  have htol0 : 0 ≤ tol := (abs_nonneg _).trans (hd _ hk).le
  have hdist := GaussSeidel.distance hD (S := fun _ => True) (b := fun k => (fullSource B 0 1 J n_p mu k : ℂ))
    (x := fun k => (s.p k : ℂ)) (y := fun k => (y k : ℂ)) (d := tol * m) (fun k hk _ => by
      rw [hfs, ← hsol k hk]
      push_cast
      rfl) (fun k _ hn => absurd trivial hn) (fun c hc => by
      rw [← hfun, ← Complex.ofReal_sub, Complex.norm_real]
      refine (hd c hc).le.trans ?_
      have hp := hD.pos c hc
      calc tol = tol * (u c)⁻¹ * u c := by field_simp
        _ ≤ tol * m * u c := mul_le_mul_of_nonneg_right (mul_le_mul_of_nonneg_left (hm c hc) htol0) hp.le) _ hk
  rw [← hfun, ← Complex.ofReal_sub, Complex.norm_real] at hdist
  have hyp : 0 ≤ y (i * B.elements_circumferential + j) := by
    have := hpos i hi j hj
    dsimp only at this
    by_contra hn
    rw [max_eq_right (not_le.1 hn).le] at this
    exact lt_irrefl _ this
  rw [hP, max_eq_left hw.le]
  dsimp only
  rw [max_eq_left hyp]
  refine hdist.trans ?_
  calc _ ≤ θ / (1 - θ) * (tol * m) * V :=
        mul_le_mul_of_nonneg_left (hu _ hk) (mul_nonneg (div_nonneg hD.nonneg h1.le) (mul_nonneg htol0 hm0))
    _ = _ := by ring

/-- C100 says nothing of this: a cell can end with more oil in it than it holds. -/
theorem C100_fill_false : ¬∀ (B : THD) (fuel : ℕ) (J : Journal) (n_p : ℕ) (g : ℝ) (mu P Θ : ℕ → ℕ → ℝ),
    0 ≤ g → g ≤ 1 → (∀ t, 0 < B.film J n_p t) → (∀ i j, 0 < mu i j) →
    B.starved_pad 0.01 fuel J n_p g mu = some (.ok (P, Θ)) →
    ∀ i < B.elements_axial, ∀ j < B.elements_circumferential, Θ i j ≤ 1 := by
  intro h
  obtain ⟨u, v, fuel, P, Θ, hres, h2, -⟩ := exStray_result le_rfl
  have := h _ fuel _ 0 0.8 _ P Θ (by norm_num) (by norm_num)
    (fun t => by rw [exStray_film]; exact one_pos) (fun _ _ => one_pos) hres 0 (show 0 < 2 by norm_num) 1
    (show 1 < 2 by norm_num)
  rw [h2] at this
  norm_num at this

/-- C100: at the entry of a pad this need not hold for cells without pressure: oil that is fed with pressure is not
counted. -/
theorem C100_entry_false : ¬∀ (B : THD) (inj : ℝ) (fuel : ℕ) (J : Journal) (n_p : ℕ) (g : ℝ) (mu P Θ : ℕ → ℕ → ℝ),
    B.injection_pressure = some inj → 0 ≤ g → g ≤ 1 → (∀ t, 0 < B.film J n_p t) → (∀ i j, 0 < mu i j) →
    B.starved_pad 0.01 fuel J n_p g mu = some (.ok (P, Θ)) →
    ∀ i < B.elements_axial, ∀ j < B.elements_circumferential,
    taken B.elements_axial B.elements_circumferential (B.thetaI n_p) (B.betha_s_dg * π / 180) (B.film J n_p)
      (fun t => -(J.Xpt * cos t + J.Ypt * sin t)) j ≠ 0 →
    |starvedExcess B.elements_axial B.elements_circumferential (B.thetaI n_p) (B.betha_s_dg * π / 180)
        ((B.journal_radius / B.axial_length) ^ 2) g inj (B.film J n_p) (fun t => -(J.Xpt * cos t + J.Ypt * sin t))
        mu P Θ i j| ≤
      4 * conductance B.elements_axial B.elements_circumferential (B.thetaI n_p) (B.betha_s_dg * π / 180)
        ((B.journal_radius / B.axial_length) ^ 2) (B.film J n_p) mu i j * 0.01 := by
  intro h
  obtain ⟨u, v, fuel, P, Θ, hres, -, hP, hΘ, hu⟩ := exStray_result zero_le_one
  have hp := Real.pi_pos
  have := h _ 1 fuel _ 0 0.8 _ P Θ rfl (by norm_num) (by norm_num)
    (fun t => by rw [exStray_film]; exact one_pos) (fun _ _ => one_pos) hres 0 (show 0 < 2 by norm_num) 0
    (show 0 < 2 by norm_num) (by
      rw [taken_eq, (exStray_K (some 1) u v).1, neg_ne_zero]
      have : 0 < 1 / (2 * π) + u / 4 := by positivity
      linarith)
  rw [starvedExcess_eq (B := exLund (some 1)) (le_refl 2) (le_refl 2), conductance_eq, (exStray_K (some 1) u v).1,
    (exStray_K (some 1) u v).2.2, if_pos rfl, (exStray_C (some 1) u v 0 0).1, (exStray_C (some 1) u v 0 0).2.1,
    (exStray_C (some 1) u v 0 0).2.2.1, (exStray_C (some 1) u v 0 0).2.2.2, hΘ] at this
  have hop : op (exLund (some 1)).elements_axial (exLund (some 1)).elements_circumferential
      ((exLund (some 1)).CW (exStray u v) 0 (fun _ _ => 1)) ((exLund (some 1)).CE (exStray u v) 0 (fun _ _ => 1))
      ((exLund (some 1)).CN (exStray u v) 0 (fun _ _ => 1)) ((exLund (some 1)).CS (exStray u v) 0 (fun _ _ => 1))
      2 2 2 P 0 0 = 0 := by
    exact (op_congr (u := fun _ _ => 0) hP (show 0 < 2 by norm_num) (show 0 < 2 by norm_num)).trans (op_zero _ _)
  rw [hop] at this
  have hf : fillBefore 0.8 (Θ 0) 0 = 0.8 := rfl
  rw [hf] at this
  have e : (-(1 / (2 * π)) - u / 4) * (0.8 * (1 / (2 * π)) / (1 / (2 * π) + u / 4)) = -(0.8 * (1 / (2 * π))) := by
    have : 1 / (2 * π) + u / 4 ≠ 0 := by positivity
    field_simp
    ring
  rw [e, show (0 : ℝ) - -(0.8 * (1 / (2 * π))) - 1 / (2 * π) * 0.8 - 2 * (1 / (3 * π ^ 2)) * 1 = -(2 * (1 / (3 * π ^ 2))) by
    ring, abs_neg, abs_of_pos (by positivity)] at this
  have hpi : (1 : ℝ) / 48 < 1 / (3 * π ^ 2) := by
    refine one_div_lt_one_div_of_lt (by positivity) ?_
    nlinarith [Real.pi_lt_four, Real.pi_gt_three]
  linarith

/-- C101: the fed oil is divided among the pads. -/
theorem C101_shares {B : THD} {Qe Qs : ℕ → ℝ}
    (h : ∑ p ∈ Finset.range B.n_pad, Qe p + ∑ p ∈ Finset.range B.n_pad, Qs p ≠ 0) :
    ∑ p ∈ Finset.range B.n_pad, B.geometry_factor Qe Qs p = 1 ∧
      ∑ p ∈ Finset.range B.n_pad, B.geometry_factor Qe Qs p * B.oil_flow = B.oil_flow := by
  have h1 : ∑ p ∈ Finset.range B.n_pad, B.geometry_factor Qe Qs p = 1 := by
    unfold geometry_factor
    rw [← Finset.sum_div, Finset.sum_add_distrib, sum_before, div_self h]
  exact ⟨h1, by rw [← Finset.sum_mul, h1, one_mul]⟩

/-- C101: the oil in a groove is a mixture of what leaves the pad before and of what is fed: its heat is theirs. -/
theorem C101_heat {B : THD} {Qe Qs T_end : ℕ → ℝ} {p : ℕ}
    (h : B.geometry_factor Qe Qs p * B.oil_flow + Qs (B.before p) ≠ 0) :
    (B.geometry_factor Qe Qs p * B.oil_flow + Qs (B.before p)) * B.starved_T_mist Qe Qs T_end p =
      B.geometry_factor Qe Qs p * B.oil_flow * B.reference_temperature + Qs (B.before p) * T_end (B.before p) := by
  unfold starved_T_mist
  rw [mul_div_cancel₀ _ h]
  ring

/-- C101: so it is between the temperatures of both. -/
theorem C101_between {B : THD} {Qe Qs T_end : ℕ → ℝ} {p : ℕ} (hf : 0 ≤ B.geometry_factor Qe Qs p * B.oil_flow)
    (hs : 0 ≤ Qs (B.before p)) (h : 0 < B.geometry_factor Qe Qs p * B.oil_flow + Qs (B.before p)) :
    min B.reference_temperature (T_end (B.before p)) ≤ B.starved_T_mist Qe Qs T_end p ∧
      B.starved_T_mist Qe Qs T_end p ≤ max B.reference_temperature (T_end (B.before p)) := by
  have e := C101_heat (T_end := T_end) h.ne'
  constructor
  · refine le_of_mul_le_mul_left ?_ h
    rw [e, add_mul]
    exact add_le_add (mul_le_mul_of_nonneg_left (min_le_left _ _) hf) (mul_le_mul_of_nonneg_left (min_le_right _ _) hs)
  · refine le_of_mul_le_mul_left ?_ h
    rw [e, add_mul]
    exact add_le_add (mul_le_mul_of_nonneg_left (le_max_left _ _) hf) (mul_le_mul_of_nonneg_left (le_max_right _ _) hs)

/-- C101: a groove is filled by four fifths of what comes to it, over what the pad takes; never to more than the whole. -/
theorem C101_groove {B : THD} (Qe Qs : ℕ → ℝ) (p : ℕ) :
    B.starved_groove Qe Qs p =
      min 1 (4 / 5 * (B.geometry_factor Qe Qs p * B.oil_flow + Qs (B.before p)) / Qe p) := by
  unfold starved_groove
  dsimp only
  rw [show (0.8 : ℝ) = 4 / 5 by norm_num]
  split_ifs with h
  · exact (min_eq_left h.le).symm
  · exact (min_eq_right (not_lt.1 h)).symm

/-- C101 (partial): the oil that passes a section of a pad is the sum, over the volumes across the bearing, of their part
of the width, the thickness of the film, the part that is filled with oil, and the velocity.

Missing: sections that are not filled alike all over the width, see `C101_flow_false`. -/
theorem C101_flow_partial {B : THD} (s : StarvedFields) (j p : ℕ) (hN : B.elements_axial ≠ 0)
    (hf : ∀ i < B.elements_axial, s.Theta_vol i j p = s.Theta_vol 0 j p) :
    B.Q_dim s j p = ∑ i ∈ Finset.range B.elements_axial, B.axial_length / B.elements_axial *
      (B.radial_clearance * s.H j p) * s.Theta_vol i j p * (B.speed * B.journal_radius * s.U i j p) := by
  have hN' : (B.elements_axial : ℝ) ≠ 0 := Nat.cast_ne_zero.2 hN
  unfold THD.Q_dim
  rw [← mul_div_assoc, Finset.mul_sum, Finset.sum_div]
  refine Finset.sum_congr rfl fun i hi => ?_
  rw [hf i (Finset.mem_range.1 hi)]
  field_simp

/-- C101 fails for sections that are not filled alike: only the filling at one edge counts.  If there is no oil in the first
volume, none is taken to pass, whatever the others hold. -/
theorem C101_flow_false {B : THD} (s : StarvedFields) (j p : ℕ) (h : s.Theta_vol 0 j p = 0) : B.Q_dim s j p = 0 := by
  unfold THD.Q_dim
  rw [h]
  simp

/-- C101: what `_forces` leaves behind for a starved bearing.  The pressure and the filling of every pad are those that the
sweeps give for a groove that is not more than full; its temperature is that of the solver, and differs from the one before
it by less than a hundredth; the temperature of the oil that enters the first pad is by less than half a degree more than
the one before it; and the grooves are filled as the flows of the film say. -/
theorem C101_film {B : THD} {solve : Fluid.FluidFlow.Solver} {fuel : ℕ} {J : Journal} {s : StarvedFields} {groove : ℕ → ℝ}
    (hna : 0 < B.elements_axial) (hnc : 0 < B.elements_circumferential)
    (h : B.film_starved solve fuel J = some (.ok (s, groove))) :
    (∀ p, groove p = B.starved_groove (B.Q_dim s 0) (B.Q_dim s (B.elements_circumferential - 1)) p) ∧
    ∃ M G : ℕ → ℝ, (∀ p, G p ≤ 1) ∧
      B.starved_T_mist (B.Q_dim s 0) (B.Q_dim s (B.elements_circumferential - 1)) s.T_end 0 < M 0 + 1 / 2 ∧
      ∀ p < B.n_pad, (∃ mu mt : ℕ → ℕ → ℝ,
          B.starved_pad 0.01 fuel J p (G p) mu = some (.ok (pad s.P p, pad s.Theta_vol p)) ∧
          ∀ i j, s.mu_turb i j p = mu i j * (1 + delta_turb (s.Theta_vol i j p * B.Reyn (B.film J p (B.jj p j)) (mu i j)) *
            B.emv (B.film J p (B.jj p j)) (B.dPdy (pad s.P p) i j) (B.dPdz (pad s.P p) i j) (mt i j))) ∧
        B.norm (fun i j => s.T_new i j p - s.T i j p) / B.norm (pad s.T p) < 1 / 100 ∧
        ∀ i j, s.T_new i j p = solve (B.elements_axial * B.elements_circumferential)
          (B.Mat_coef_T J p (pad s.P p) (pad s.mu_turb p)) (B.b_T J p (pad s.P p) (pad s.mu_turb p) (M p))
          (i * B.elements_circumferential + j) ∧
        s.mu_new i j p = (B.a * (s.T_new i j p * B.reference_temperature) ^ B.b) / B.reference_viscosity ∧
        s.U i j p = 1 / 2 - B.film J p (B.jj p j) ^ 2 / (12 * s.mu_turb i j p * (B.betha_s_dg * π / 180)) *
          B.dPdy (pad s.P p) i j ∧
        s.H j p = B.film J p (B.jj p j) ∧
        s.T_end p = (∑ i ∈ Finset.range B.elements_axial, s.T_new i (B.elements_circumferential - 1) p *
          B.reference_temperature) / B.elements_axial := by
  unfold film_starved at h
  split at h
  · cases h
  · rename_i ct hct
    split at h
    · cases h
    · cases h
    · rename_i m hm
      have hmix : ∀ m0 m1, B.starved_mixing solve J fuel m0 = some (.ok m1) →
          ∃ s, m1.film = some s ∧ B.starved_pads solve J fuel m0.T_mist m0.groove (List.range B.n_pad)
            (starved_fresh m0.T_end) = some (.ok s) ∧ m1.T_conv = m0.T_mist 0 ∧
            m1.T_mist = B.starved_T_mist (B.Q_dim s 0) (B.Q_dim s (B.elements_circumferential - 1)) s.T_end ∧
            m1.groove = B.starved_groove (B.Q_dim s 0) (B.Q_dim s (B.elements_circumferential - 1)) := by
        intro m0 m1 hm1
        unfold starved_mixing at hm1
        split at hm1
        · cases hm1
        · cases hm1
        · rename_i s hs
          cases hm1
          exact ⟨s, rfl, hs, rfl, rfl, rfl⟩
      by_cases ht : (0.5 : ℝ) ≤ B.reference_temperature - 0.8 * B.reference_temperature
      · obtain ⟨m0, hI0, hb, -, hlast⟩ := while_last (fun m : StarvedMixing => ∀ p, m.groove p ≤ 1)
          (fun m0 m1 _ _ hb p => by
            obtain ⟨s, -, -, -, -, hg⟩ := hmix m0 m1 hb
            rw [hg, C101_groove]
            exact min_le_left _ _) (fun p => by norm_num) ht hm
        obtain ⟨s', hs', hpads, hconv, hmist, hg⟩ := hmix m0 m hb
        rw [hs'] at h
        dsimp only at h
        split_ifs at h
        · cases h
        cases h
        obtain ⟨hd, -⟩ := starved_pads_done List.nodup_range
          (fun p _ t ht => starved_fresh_cond hna hnc _ p t ht) hpads
        refine ⟨fun p => by rw [hg], m0.T_mist, m0.groove, hI0, ?_, fun p hp => ?_⟩
        · rw [hconv, hmist, not_le] at hlast
          linarith
        · obtain ⟨s0, s1, hpass, hcond, q1, q2, q3, q4, q5, q6, q7, q8, q9⟩ :=
            hd p (List.mem_range.2 hp)
          obtain ⟨P, Θ, hP, e1, e2, e3, e4, e5, e6, e7, e8, e9⟩ := starved_pass_ok hpass
          have f1 : pad s1.P p = P := by rw [e1, pad_setPad]
          have f2 : pad s1.Theta_vol p = Θ := by rw [e2, pad_setPad]
          have f4 := q4.trans (by rw [e4, pad_setPad])
          have f5 := q5.trans (by rw [e5, pad_setPad])
          have f6 := q6.trans (by rw [e6, pad_setPad])
          have f7 := q7.trans (by rw [e8, pad_setPad])
          have g4 := fun i j => congrFun (congrFun f4 i) j
          have g5 := fun i j => congrFun (congrFun f5 i) j
          have g6 := fun i j => congrFun (congrFun f6 i) j
          have g7 := fun i j => congrFun (congrFun f7 i) j
          simp only [THD.pad] at g4 g5 g6 g7
          refine ⟨⟨pad s0.mu_new p, pad s0.mu_turb p, ?_, fun i j => ?_⟩, ?_, fun i j => ⟨?_, ?_, ?_, ?_, ?_⟩⟩
          · rw [q1, q2, f1, f2]
            exact hP
          · have gΘ : s.Theta_vol i j p = Θ i j := congrFun (congrFun (q2.trans f2) i) j
            rw [g5, gΘ, q1, f1]
            unfold starved_mi_t HP Reyn
            dsimp only [THD.pad]
            congr 4
            ring
          · unfold starved_cond at hcond
            have e7' : (fun i j => s.T_new i j p - s.T i j p) = fun i j => s1.T_new i j p - s1.T i j p := by
              funext i j
              have a1 := congrFun (congrFun q3 i) j
              have a2 := congrFun (congrFun q4 i) j
              change s.T i j p = s1.T i j p at a1
              change s.T_new i j p = s1.T_new i j p at a2
              rw [a1, a2]
            rw [e7', q3]
            refine lt_of_not_ge fun hge => hcond ?_
            norm_num at hge ⊢
            exact hge
          · have := congrFun (congrFun f4 i) j
            rw [q1, f1, f5]
            exact this
          · rw [g6, g4]
          · rw [g7, g5, q1, f1]
            unfold U_cell HP betha_s
            ring
          · rw [q8 j, e9]
            exact if_pos rfl
          · rw [q9, e7, Function.update_self]
            simp only [THD.pad, g4]
      · cases fuel with
        | zero => cases hm
        | succ f =>
          unfold whileLoop at hm
          rw [if_neg (show ¬(0.5 : ℝ) ≤ B.reference_temperature - 0.8 * B.reference_temperature from ht)] at hm
          cases hm
          cases h

/-- C101: the force on the journal is that of this pressure. -/
theorem C101_force {B : THD} {solve : Fluid.FluidFlow.Solver} {fuel : ℕ} {J : Journal} {f : ℝ × ℝ}
    (h : B.forces_starved solve fuel J = some (.ok f)) :
    ∃ s groove, B.film_starved solve fuel J = some (.ok (s, groove)) ∧ f = B.resultant s.P := by
  unfold forces_starved at h
  split at h
  · cases h
  · cases h
  · rename_i s hs
    cases h
    exact ⟨s.1, s.2, hs, rfl⟩

/-- C101: with the pressure of injection that a bearing has when none is given, no starved bearing can be calculated. -/
theorem C101_default_false {B : THD} {solve : Fluid.FluidFlow.Solver} {J : Journal} (hinj : B.injection_pressure = none)
    {ct : List ℕ} (hct : B.pad_ct = .ok ct) (hfc : B.film_check 0 = .ok ()) (h2a : 2 ≤ B.elements_axial)
    (h2c : 2 ≤ B.elements_circumferential) (hT : 5 / 2 ≤ B.reference_temperature) (fuel : ℕ) :
    B.forces_starved solve (fuel + 1) J = some (.error .typeError) := by
  have hn : 0 < B.n_pad := by
    by_contra h0
    unfold pad_ct at hct
    rw [if_pos (by omega)] at hct
    cases hct
  have hpad : ∀ g mu, B.starved_pad 0.01 (fuel + 1) J 0 g mu = some (.error .typeError) := by
    intro g mu
    unfold starved_pad
    rw [hfc]
    dsimp only
    rw [if_neg (by omega), hinj]
  have hpads : ∀ M G E, B.starved_pads solve J (fuel + 1) M G (List.range B.n_pad) (starved_fresh E) =
      some (.error .typeError) := by
    intro M G E
    obtain ⟨m, hm⟩ : ∃ m, B.n_pad = m + 1 := ⟨B.n_pad - 1, by omega⟩
    rw [hm, List.range_succ_eq_map]
    unfold starved_pads whileLoop
    rw [if_pos (starved_fresh_cond (by omega) (by omega) E 0 _ (SameStarved.refl _ _))]
    unfold starved_pass
    dsimp only
    rw [hpad]
  unfold forces_starved film_starved
  rw [hct]
  dsimp only
  unfold whileLoop
  rw [if_pos (show (0.5 : ℝ) ≤ B.reference_temperature - 0.8 * B.reference_temperature by linarith)]
  unfold starved_mixing
  dsimp only
  rw [hpads]

/-- The hypotheses on `C100_balance`, `C100_fed` and `C100_flooded` hold for a bearing, and its sweeps end. -/
example : ∃ solve, SolverOk solve ∧ (∃ F, (exLund (some 0)).flooded solve exDown 0 (fun _ _ => 1) = .ok F) ∧
    (∃ fuel P Θ, (exLund (some 0)).starved_pad 0.01 fuel exDown 0 1 (fun _ _ => 1) = some (.ok (P, Θ))) ∧
    (∀ t, 0 < (exLund (some 0)).film exDown 0 t) ∧
    ∀ j < 2, taken 2 2 ((exLund (some 0)).thetaI 0) (90 * π / 180) ((exLund (some 0)).film exDown 0)
        (fun t => -(exDown.Xpt * cos t + exDown.Ypt * sin t)) j <
      given 2 2 ((exLund (some 0)).thetaI 0) (90 * π / 180) ((exLund (some 0)).film exDown 0) j := by
  obtain ⟨solve, hs, P, hP, -⟩ := exLund_pressure (some 0)
  have hmore : ∀ j < 2, taken 2 2 ((exLund (some 0)).thetaI 0) (90 * π / 180) ((exLund (some 0)).film exDown 0)
        (fun t => -(exDown.Xpt * cos t + exDown.Ypt * sin t)) j <
      given 2 2 ((exLund (some 0)).thetaI 0) (90 * π / 180) ((exLund (some 0)).film exDown 0) j := by
    intro j hj
    have := exLund_source (some 0) j hj
    rw [source_eq] at this
    have e1 := taken_eq (B := exLund (some 0)) (J := exDown) (n_p := 0) j
    have e2 := given_eq (B := exLund (some 0)) (J := exDown) (n_p := 0) j
    change taken 2 2 _ (90 * π / 180) _ _ j = _ at e1
    change given 2 2 _ (90 * π / 180) _ j = _ at e2
    rw [e1, e2]
    linarith
  obtain ⟨n, hn⟩ := (C100_fed (B := exLund (some 0)) (tol := 0.01) (mu := fun _ _ => 1) (by norm_num) (by norm_num) rfl
    (le_refl 2) (le_refl 2) rfl le_rfl (exLund_open (some 0)) (fun _ _ _ _ => one_pos)
    (by show (90 : ℝ) ≠ 0; norm_num) (by show (1 : ℝ) ≠ 0; norm_num) (by show (1 : ℝ) ≠ 0; norm_num) hmore).1
  exact ⟨solve, hs, ⟨P, hP⟩, ⟨n, hn n le_rfl⟩, exLund_open (some 0), hmore⟩

theorem exLund_starved {mu : ℕ → ℕ → ℝ} (hmu : ∀ i j, 0 < mu i j) : ∃ n, ∀ fuel ≥ n, ∃ P Θ,
    (exLund (some 0)).starved_pad 0.01 fuel exDown 0 0.8 mu = some (.ok (P, Θ)) := by
  have ho : Open (exLund (some 0)) exDown 0 mu := open_of (exLund_open (some 0)) (fun i _ j _ => hmu i j)
    (by show (90 : ℝ) ≠ 0; norm_num) (by show (1 : ℝ) ≠ 0; norm_num) (by show (1 : ℝ) ≠ 0; norm_num)
  refine full_ends (inj := 0) (by norm_num) rfl rfl ho (le_refl 2) (le_refl 2) fun k hk => ?_
  have hp := Real.pi_pos
  have hsrc := exLund_source (some 0) (k % 2) (Nat.mod_lt k (by norm_num))
  rw [source_eq] at hsrc
  unfold fullSource west
  have hf := exLund_film (some 0)
  obtain ⟨B, hB, h1, h2, h3, h4, -⟩ := exLund_fields (some 0)
  rw [hB] at hsrc hf ⊢
  rw [h2]
  split_ifs with h0
  · rw [h0] at hsrc ⊢
    have hb : B.betha_s = π / 2 := by unfold betha_s; rw [h4]; ring
    have hd : B.dtheta = π / 4 := by unfold dtheta; rw [hb, h2]; push_cast; ring
    have hZ : B.dZ = 1 / 2 := by unfold dZ; rw [h1]; push_cast; rfl
    have hI : B.thetaI 0 = 3 * π / 4 := by unfold thetaI; rw [h3, h4]; push_cast; ring
    have e1 : B.jj 0 0 + 0.5 * B.dtheta = π := by unfold jj; rw [hI, hd]; push_cast; ring
    have e2 : B.jj 0 0 - 0.5 * B.dtheta = π - π / 4 := by unfold jj; rw [hI, hd]; push_cast; ring
    have eh : ∀ t, hpt exDown t = 0 := fun t => by unfold hpt exDown; ring
    unfold KP KW
    rw [hf, hf, e1, e2, hb, hZ, eh, sin_pi, sin_pi_sub, sin_pi_div_four]
    have hs2 : (1.4 : ℝ) < √2 := Real.lt_sqrt_of_sq_lt (by norm_num)
    have ha : 0 < (1 : ℝ) / 2 / (2 * (π / 2)) := by positivity
    have : (1 : ℝ) - (1 + 1 / 2 * (√2 / 2)) * 0.8 < 0 := by linarith
    have := mul_neg_of_pos_of_neg ha this
    linarith
  · linarith

/-- And there is a bearing for which `_forces` ends: with a solver that makes all temperatures those of reference. -/
example : ∃ fuel s groove, (exLund (some 0)).film_starved (fun _ _ _ _ => 1) fuel exDown = some (.ok (s, groove)) := by
  set B := exLund (some 0) with hB
  set mu2 : ℕ → ℕ → ℝ := fun _ _ => (B.a * (1 * B.reference_temperature) ^ B.b) / B.reference_viscosity with hmu2
  have hmu2p : ∀ i j, 0 < mu2 i j := by
    intro i j
    have e1 : B.a = 1 := rfl
    have e2 : B.b = 0 := rfl
    simp only [hmu2, reference_viscosity, e1, e2, Real.rpow_zero]
    norm_num
  obtain ⟨n1, h1⟩ := exLund_starved (mu := fun _ _ => 1.1) (fun _ _ => by norm_num)
  obtain ⟨n2, h2⟩ := exLund_starved hmu2p
  rw [← hB] at h1 h2
  set F := max n1 n2 + 3 with hF
  obtain ⟨P1, Θ1, hp1⟩ := h1 F (by omega)
  obtain ⟨P2, Θ2, hp2⟩ := h2 F (by omega)
  set M : ℕ → ℝ := fun _ => B.reference_temperature with hM
  set G : ℕ → ℝ := fun _ => 0.8 with hG
  set s0 := starved_fresh (fun _ => 1) with hs0
  have hpass : ∀ s r, B.starved_pad 0.01 F exDown 0 0.8 (pad s.mu_new 0) = some (.ok r) →
      ∃ s', B.starved_pass (fun _ _ _ _ => 1) exDown F M G 0 s = some (.ok s') := by
    intro s r hr
    unfold starved_pass
    dsimp only
    rw [show G 0 = 0.8 from rfl, hr]
    exact ⟨_, rfl⟩
  obtain ⟨s1, hs1⟩ := hpass s0 _ hp1
  obtain ⟨-, -, -, -, -, a3, a4, -, a6, a7, -⟩ := starved_pass_ok hs1
  have b3 : pad s1.T 0 = fun _ _ => 1.2 := by rw [a3, pad_setPad]; rfl
  have b4 : pad s1.T_new 0 = fun _ _ => 1 := by rw [a4, pad_setPad]
  have b6 : pad s1.mu_new 0 = mu2 := by rw [a6, pad_setPad]
  obtain ⟨s2, hs2⟩ := hpass s1 _ (by rw [b6]; exact hp2)
  obtain ⟨-, -, -, -, -, c3, c4, -, -, c7, -⟩ := starved_pass_ok hs2
  have d3 : pad s2.T 0 = fun _ _ => 1 := by rw [c3, pad_setPad, b4]
  have d4 : pad s2.T_new 0 = fun _ _ => 1 := by rw [c4, pad_setPad]
  have hnorm : ∀ x : ℝ, B.norm (fun _ _ => x) = 2 * |x| := by
    intro x
    unfold THD.norm
    show √(∑ i ∈ Finset.range 2, ∑ j ∈ Finset.range 2, x ^ 2) = _
    simp only [Finset.sum_const, Finset.card_range, nsmul_eq_mul]
    push_cast
    rw [show (2 : ℝ) * (2 * x ^ 2) = (2 * x) ^ 2 by ring, Real.sqrt_sq_eq_abs, abs_mul]
    norm_num
  have hdiff : ∀ (s : StarvedFields) (x y : ℝ), pad s.T 0 = (fun _ _ => x) → pad s.T_new 0 = (fun _ _ => y) →
      (B.starved_cond 0 s ↔ 0.01 ≤ 2 * |y - x| / (2 * |x|)) := by
    intro s x y hx hy
    unfold starved_cond
    have : (fun i j => s.T_new i j 0 - s.T i j 0) = fun _ _ => y - x := by
      funext i j
      have e1 := congrFun (congrFun hx i) j
      have e2 := congrFun (congrFun hy i) j
      change s.T i j 0 = x at e1
      change s.T_new i j 0 = y at e2
      rw [e1, e2]
    rw [this, hx, hnorm, hnorm]
  have hc0 : B.starved_cond 0 s0 := (hdiff s0 1 1.2 rfl rfl).2 (by norm_num [abs_of_pos])
  have hc1 : B.starved_cond 0 s1 := (hdiff s1 1.2 1 b3 b4).2 (by
    rw [abs_of_neg (by norm_num : (1 : ℝ) - 1.2 < 0), abs_of_pos (by norm_num : (0 : ℝ) < 1.2)]
    norm_num)
  have hc2 : ¬B.starved_cond 0 s2 := fun h => by
    have := (hdiff s2 1 1 d3 d4).1 h
    norm_num at this
  have hpads : B.starved_pads (fun _ _ _ _ => 1) exDown F M G (List.range B.n_pad) s0 = some (.ok s2) := by
    rw [show List.range B.n_pad = [0] from rfl]
    unfold starved_pads
    have : whileLoop (B.starved_cond 0) (B.starved_pass (fun _ _ _ _ => 1) exDown F M G 0) F s0 = some (.ok s2) := by
      rw [hF]
      unfold whileLoop
      rw [if_pos hc0, ← hF, hs1]
      dsimp only
      unfold whileLoop
      rw [if_pos hc1, hs2]
      dsimp only
      unfold whileLoop
      rw [if_neg hc2]
    rw [this]
    rfl
  have hend : s2.T_end 0 = 50 := by
    rw [c7, Function.update_self]
    have e1 : B.reference_temperature = 50 := rfl
    have e2 : B.elements_axial = 2 := rfl
    rw [e1, e2]
    norm_num
  set Qe := B.Q_dim s2 0 with hQe
  set Qs := B.Q_dim s2 (B.elements_circumferential - 1) with hQs
  have hmist : B.starved_T_mist Qe Qs s2.T_end 0 ≤ 50 := by
    unfold starved_T_mist
    have e1 : B.reference_temperature = 50 := rfl
    have e2 : B.before 0 = 0 := rfl
    rw [e1, e2, hend]
    set x := B.geometry_factor Qe Qs 0 * B.oil_flow with hx
    rw [show Qs 0 * 50 + 50 * B.geometry_factor Qe Qs 0 * B.oil_flow = 50 * (x + Qs 0) by rw [hx]; ring]
    by_cases h0 : x + Qs 0 = 0
    · rw [h0]
      norm_num
    · rw [mul_div_assoc, div_self h0, mul_one]
  refine ⟨F, s2, B.starved_groove Qe Qs, ?_⟩
  unfold film_starved
  have hn : B.n_pad = 1 := rfl
  have hct : B.pad_ct = .ok [0] := by
    unfold pad_ct
    rw [hn]
    simp
  rw [hct]
  dsimp only
  have hloop : whileLoop (fun m : StarvedMixing => 0.5 ≤ m.T_mist 0 - m.T_conv)
      (B.starved_mixing (fun _ _ _ _ => 1) exDown F) F
      ⟨0.8 * B.reference_temperature, fun _ => 1, M, G, none⟩ =
      some (.ok ⟨M 0, s2.T_end, B.starved_T_mist Qe Qs s2.T_end, B.starved_groove Qe Qs, some s2⟩) := by
    rw [hF]
    unfold whileLoop
    have hT : B.reference_temperature = 50 := rfl
    rw [if_pos (show (0.5 : ℝ) ≤ B.reference_temperature - 0.8 * B.reference_temperature by rw [hT]; norm_num), ← hF]
    have : B.starved_mixing (fun _ _ _ _ => 1) exDown F ⟨0.8 * B.reference_temperature, fun _ => 1, M, G, none⟩ =
        some (.ok ⟨M 0, s2.T_end, B.starved_T_mist Qe Qs s2.T_end, B.starved_groove Qe Qs, some s2⟩) := by
      unfold starved_mixing
      dsimp only
      rw [hpads]
    rw [this]
    dsimp only
    unfold whileLoop
    rw [if_neg (show ¬(0.5 : ℝ) ≤ B.starved_T_mist Qe Qs s2.T_end 0 - B.reference_temperature by rw [hT]; linarith)]
  rw [hloop]
  rfl

/-- A section that is filled to three quarters, and one where only the first volume is empty: no oil is
counted. -/
example (pr : StarvedFields) : (∀ i < (exThd "circular" 2).elements_axial,
      ({ pr with Theta_vol := fun _ _ _ => 3 / 4 } : StarvedFields).Theta_vol i 0 0 =
        ({ pr with Theta_vol := fun _ _ _ => 3 / 4 } : StarvedFields).Theta_vol 0 0 0) ∧
    (exThd "circular" 2).Q_dim { pr with Theta_vol := fun i _ _ => if i = 0 then 0 else 1 } 0 0 = 0 :=
  ⟨fun _ _ => rfl, C101_flow_false _ _ _ rfl⟩

/-- The oil is divided between two pads. -/
example : ∃ B : THD, B.n_pad = 2 ∧ ∑ p ∈ Finset.range B.n_pad, (fun _ => (1 : ℝ)) p +
    ∑ p ∈ Finset.range B.n_pad, (fun _ => (1 : ℝ)) p ≠ 0 :=
  ⟨exThd "circular" 2, rfl, by show ∑ p ∈ Finset.range 2, (1 : ℝ) + ∑ p ∈ Finset.range 2, (1 : ℝ) ≠ 0; norm_num⟩

/-- A starved bearing that has no pressure of injection. -/
example (solve : Fluid.FluidFlow.Solver) : (exLund none).forces_starved solve 1 exDown = some (.error .typeError) :=
  C101_default_false rfl rfl rfl (le_refl 2) (le_refl 2) (by show (5 : ℝ) / 2 ≤ 50; norm_num) 0

end Ross.Props
