import Verif.Lemmas.Stencil
import Verif.Model.Thd
import Verif.Spec.Thd

/-! # The systems of equations of thermohydrodynamic bearings -/

namespace Ross.ThdLemmas

open Real Thd Thd.THD Stencil Spec.Fluid

variable (B : THD)

/-- A place in a row of cells is at the start, at the end or between them. -/
theorem place {n i : ℕ} (h2 : 2 ≤ n) (hi : i < n) :
    ((i = 0) = True ∧ (0 < i) = False ∧ (i < n - 1) = True ∧ (i = n - 1) = False) ∨
    ((i = 0) = False ∧ (0 < i) = True ∧ (i < n - 1) = False ∧ (i = n - 1) = True) ∨
    ((i = 0) = False ∧ (0 < i) = True ∧ (i < n - 1) = True ∧ (i = n - 1) = False) := by
  simp only [eq_iff_iff, iff_true, iff_false]
  omega

/-- A column is one of five, or none of them. -/
theorem column {nc r c : ℕ} (h2 : 2 ≤ nc) :
    ((c = r) = True ∧ (c = r + 1) = False ∧ (c + 1 = r) = False ∧ (c = r + nc) = False ∧ (c + nc = r) = False) ∨
    ((c = r) = False ∧ (c = r + 1) = True ∧ (c + 1 = r) = False ∧ (c = r + nc) = False ∧ (c + nc = r) = False) ∨
    ((c = r) = False ∧ (c = r + 1) = False ∧ (c + 1 = r) = True ∧ (c = r + nc) = False ∧ (c + nc = r) = False) ∨
    ((c = r) = False ∧ (c = r + 1) = False ∧ (c + 1 = r) = False ∧ (c = r + nc) = True ∧ (c + nc = r) = False) ∨
    ((c = r) = False ∧ (c = r + 1) = False ∧ (c + 1 = r) = False ∧ (c = r + nc) = False ∧ (c + nc = r) = True) ∨
    ((c = r) = False ∧ (c = r + 1) = False ∧ (c + 1 = r) = False ∧ (c = r + nc) = False ∧ (c + nc = r) = False) := by
  simp only [eq_iff_iff, iff_true, iff_false]
  omega

/-- The entries of a row for the pressure. -/
theorem row_P_entries {na nc : ℕ} (hna : B.elements_axial = na) (hnc : B.elements_circumferential = nc) (h2a : 2 ≤ na)
    (h2c : 2 ≤ nc) (CP CE CW CN CS : ℝ) {i j : ℕ} (hi : i < na) (hj : j < nc) (r c : ℕ) :
    B.row_P CP CE CW CN CS i j r c =
      (if c = r then CP - (if i = 0 then CS else 0) - (if j = 0 then CW else 0) -
        (if j = nc - 1 then CE else 0) - (if i = na - 1 then CN else 0) else 0) +
      (if c = r + 1 then (if j = nc - 1 then 0 else CE) else 0) +
      (if c + 1 = r then (if j = 0 then 0 else CW) else 0) +
      (if c = r + nc then (if i = na - 1 then 0 else CN) else 0) +
      (if c + nc = r then (if i = 0 then 0 else CS) else 0) := by
  unfold row_P
  rw [hna, hnc]
  obtain ⟨A0, A1, A2, A3⟩ | ⟨A0, A1, A2, A3⟩ | ⟨A0, A1, A2, A3⟩ := place h2a hi <;>
  obtain ⟨B0, B1, B2, B3⟩ | ⟨B0, B1, B2, B3⟩ | ⟨B0, B1, B2, B3⟩ := place h2c hj <;>
  obtain ⟨c0, c1, c2, c3, c4⟩ | ⟨c0, c1, c2, c3, c4⟩ | ⟨c0, c1, c2, c3, c4⟩ | ⟨c0, c1, c2, c3, c4⟩ |
    ⟨c0, c1, c2, c3, c4⟩ | ⟨c0, c1, c2, c3, c4⟩ := column (r := r) (c := c) h2c <;>
  simp only [A0, A1, A2, A3, B0, B1, B2, B3, c0, c1, c2, c3, c4, and_true, and_false, if_true,
    if_false, add_zero, zero_add, sub_zero] <;>
  ring

/-- The entries of a row for the temperature. -/
theorem row_T_entries {na nc : ℕ} (hna : B.elements_axial = na) (hnc : B.elements_circumferential = nc) (h2a : 2 ≤ na)
    (h2c : 2 ≤ nc) (AP AE AW AN AS : ℝ) {i j : ℕ} (hi : i < na) (hj : j < nc) (r c : ℕ) :
    B.row_T AP AE AW AN AS i j r c =
      (if c = r then AP + (if i = 0 then AS else 0) - (if j = 0 then AW else 0) +
        (if j = nc - 1 then AE else 0) + (if i = na - 1 then AN else 0) else 0) +
      (if c = r + 1 then (if j = nc - 1 then 0 else AE) else 0) +
      (if c + 1 = r then (if j = 0 then 0 else AW) else 0) +
      (if c = r + nc then (if i = na - 1 then 0 else AN) else 0) +
      (if c + nc = r then (if i = 0 then 0 else AS) else 0) := by
  unfold row_T
  rw [hna, hnc]
  obtain ⟨A0, A1, A2, A3⟩ | ⟨A0, A1, A2, A3⟩ | ⟨A0, A1, A2, A3⟩ := place h2a hi <;>
  obtain ⟨B0, B1, B2, B3⟩ | ⟨B0, B1, B2, B3⟩ | ⟨B0, B1, B2, B3⟩ := place h2c hj <;>
  obtain ⟨c0, c1, c2, c3, c4⟩ | ⟨c0, c1, c2, c3, c4⟩ | ⟨c0, c1, c2, c3, c4⟩ | ⟨c0, c1, c2, c3, c4⟩ |
    ⟨c0, c1, c2, c3, c4⟩ | ⟨c0, c1, c2, c3, c4⟩ := column (r := r) (c := c) h2c <;>
  simp only [A0, A1, A2, A3, B0, B1, B2, B3, c0, c1, c2, c3, c4, and_true, and_false, if_true,
    if_false, add_zero, zero_add, sub_zero] <;>
  ring

theorem index_lt {na nc i j : ℕ} (hi : i < na) (hj : j < nc) : i * nc + j < na * nc := by
  calc i * nc + j < i * nc + nc := by omega
    _ = (i + 1) * nc := by ring
    _ ≤ na * nc := Nat.mul_le_mul_right _ hi

theorem index_div {nc i j : ℕ} (hj : j < nc) : (i * nc + j) / nc = i := by
  rw [Nat.add_comm, Nat.add_mul_div_right _ _ (by omega), Nat.div_eq_of_lt hj, zero_add]

theorem index_mod {nc i j : ℕ} (hj : j < nc) : (i * nc + j) % nc = j := by
  rw [Nat.add_comm, Nat.add_mul_mod_self_right, Nat.mod_eq_of_lt hj]

/-- What a row for the pressure stands for. -/
theorem row_P_sum {na nc : ℕ} (hna : B.elements_axial = na) (hnc : B.elements_circumferential = nc) (h2a : 2 ≤ na)
    (h2c : 2 ≤ nc) (e w n s : ℕ → ℕ → ℝ) (x : ℕ → ℝ) {i j : ℕ} (hi : i < na) (hj : j < nc) :
    ∑ c ∈ Finset.range (na * nc),
        B.row_P (-(e i j + w i j + n i j + s i j)) (e i j) (w i j) (n i j) (s i j) i j (i * nc + j) c * x c =
      -op na nc w e n s 2 2 2 (fun i j => x (i * nc + j)) i j := by
  rw [row_sum x (row_P_entries B hna hnc h2a h2c _ (e i j) (w i j) (n i j) (s i j) hi hj (i * nc + j))
    (index_lt hi hj)
    (fun h => by
      have : j ≠ nc - 1 := fun h' => h (if_pos h')
      have := index_lt (nc := nc) (j := j + 1) hi (by omega)
      omega)
    (fun h => by
      have : j ≠ 0 := fun h' => h (if_pos h')
      omega)
    (fun h => by
      have : i ≠ na - 1 := fun h' => h (if_pos h')
      have := index_lt (na := na) (i := i + 1) (by omega) hj
      calc i * nc + j + nc = (i + 1) * nc + j := by ring
        _ < _ := this)
    (fun h => by
      have h0 : i ≠ 0 := fun h' => h (if_pos h')
      calc nc = 1 * nc := by ring
        _ ≤ i * nc := Nat.mul_le_mul_right _ (by omega)
        _ ≤ _ := by omega)]
  have e1 : i * nc + j + nc = (i + 1) * nc + j := by ring
  have e2 : i ≠ 0 → i * nc + j - nc = (i - 1) * nc + j := by
    intro h
    obtain ⟨k, rfl⟩ := Nat.exists_eq_succ_of_ne_zero h
    have : (k + 1) * nc = k * nc + nc := by ring
    simp only [Nat.succ_eq_add_one, Nat.add_sub_cancel]
    omega
  have e3 : j ≠ 0 → i * nc + j - 1 = i * nc + (j - 1) := by omega
  unfold op
  simp only [e1, ← add_assoc]
  obtain ⟨A0, -, -, A3⟩ | ⟨A0, -, -, A3⟩ | ⟨A0, -, -, A3⟩ := place h2a hi <;>
  obtain ⟨B0, -, -, B3⟩ | ⟨B0, -, -, B3⟩ | ⟨B0, -, -, B3⟩ := place h2c hj <;>
  · have e2' := e2
    have e3' := e3
    simp only [A0, B0, ne_eq, not_true_eq_false, not_false_eq_true, false_implies, true_implies] at e2' e3'
    simp only [A0, A3, B0, B3, if_true, if_false, e2', e3']
    ring

/-- What a row for the temperature stands for. -/
theorem row_T_sum {na nc : ℕ} (hna : B.elements_axial = na) (hnc : B.elements_circumferential = nc) (h2a : 2 ≤ na)
    (h2c : 2 ≤ nc) (e w n s : ℕ → ℕ → ℝ) (x : ℕ → ℝ) {i j : ℕ} (hi : i < na) (hj : j < nc) :
    ∑ c ∈ Finset.range (na * nc),
        B.row_T (-(e i j + w i j + n i j + s i j)) (e i j) (w i j) (n i j) (s i j) i j (i * nc + j) c * x c =
      op na nc (fun i j => -w i j) (fun i j => -e i j) (fun i j => -n i j) (fun i j => -s i j) 0 0 0
        (fun i j => x (i * nc + j)) i j := by
  rw [row_sum x (row_T_entries B hna hnc h2a h2c _ (e i j) (w i j) (n i j) (s i j) hi hj (i * nc + j))
    (index_lt hi hj)
    (fun h => by
      have : j ≠ nc - 1 := fun h' => h (if_pos h')
      have := index_lt (nc := nc) (j := j + 1) hi (by omega)
      omega)
    (fun h => by
      have : j ≠ 0 := fun h' => h (if_pos h')
      omega)
    (fun h => by
      have : i ≠ na - 1 := fun h' => h (if_pos h')
      have := index_lt (na := na) (i := i + 1) (by omega) hj
      calc i * nc + j + nc = (i + 1) * nc + j := by ring
        _ < _ := this)
    (fun h => by
      have h0 : i ≠ 0 := fun h' => h (if_pos h')
      calc nc = 1 * nc := by ring
        _ ≤ i * nc := Nat.mul_le_mul_right _ (by omega)
        _ ≤ _ := by omega)]
  have e1 : i * nc + j + nc = (i + 1) * nc + j := by ring
  have e2 : i ≠ 0 → i * nc + j - nc = (i - 1) * nc + j := by
    intro h
    obtain ⟨k, rfl⟩ := Nat.exists_eq_succ_of_ne_zero h
    have : (k + 1) * nc = k * nc + nc := by ring
    simp only [Nat.succ_eq_add_one, Nat.add_sub_cancel]
    omega
  have e3 : j ≠ 0 → i * nc + j - 1 = i * nc + (j - 1) := by omega
  unfold op
  simp only [e1, ← add_assoc]
  obtain ⟨A0, -, -, A3⟩ | ⟨A0, -, -, A3⟩ | ⟨A0, -, -, A3⟩ := place h2a hi <;>
  obtain ⟨B0, -, -, B3⟩ | ⟨B0, -, -, B3⟩ | ⟨B0, -, -, B3⟩ := place h2c hj <;>
  · have e2' := e2
    have e3' := e3
    simp only [A0, B0, ne_eq, not_true_eq_false, not_false_eq_true, false_implies, true_implies] at e2' e3'
    simp only [A0, A3, B0, B3, if_true, if_false, e2', e3']
    ring

/-- The equations of the pressure, cell by cell. -/
theorem solves_P {J : Journal} {n_p : ℕ} {mu : ℕ → ℕ → ℝ} (h2a : 2 ≤ B.elements_axial)
    (h2c : 2 ≤ B.elements_circumferential) (f : ℕ → ℕ → ℝ) (x : ℕ → ℝ) :
    Solves (B.elements_axial * B.elements_circumferential) (B.Mat_coef J n_p mu)
        (fun r => f (r / B.elements_circumferential) (r % B.elements_circumferential)) x ↔
      ∀ i < B.elements_axial, ∀ j < B.elements_circumferential,
        op B.elements_axial B.elements_circumferential (B.CW J n_p mu) (B.CE J n_p mu) (B.CN J n_p mu)
          (B.CS J n_p mu) 2 2 2 (fun i j => x (i * B.elements_circumferential + j)) i j = -f i j := by
  have hrow : ∀ i < B.elements_axial, ∀ j < B.elements_circumferential,
      ∑ c ∈ Finset.range (B.elements_axial * B.elements_circumferential),
        B.Mat_coef J n_p mu (i * B.elements_circumferential + j) c * x c =
      -op B.elements_axial B.elements_circumferential (B.CW J n_p mu) (B.CE J n_p mu) (B.CN J n_p mu)
          (B.CS J n_p mu) 2 2 2 (fun i j => x (i * B.elements_circumferential + j)) i j := by
    intro i hi j hj
    rw [← row_P_sum B rfl rfl h2a h2c (B.CE J n_p mu) (B.CW J n_p mu) (B.CN J n_p mu) (B.CS J n_p mu) x hi hj]
    refine Finset.sum_congr rfl fun c _ => ?_
    unfold Mat_coef
    rw [index_div hj, index_mod hj]
  constructor
  · intro h i hi j hj
    have := h _ (index_lt hi hj)
    rw [hrow i hi j hj] at this
    dsimp only at this
    rw [index_div hj, index_mod hj] at this
    linarith
  · intro h r hr
    have hc : 0 < B.elements_circumferential := by omega
    have hi : r / B.elements_circumferential < B.elements_axial := (Nat.div_lt_iff_lt_mul hc).2 hr
    have hj : r % B.elements_circumferential < B.elements_circumferential := Nat.mod_lt _ hc
    have e : r / B.elements_circumferential * B.elements_circumferential + r % B.elements_circumferential = r := by
      rw [mul_comm]; exact Nat.div_add_mod _ _
    have := hrow _ hi _ hj
    rw [e] at this
    rw [this, h _ hi _ hj, neg_neg]

/-- The equations of the temperature, cell by cell. -/
theorem solves_T {J : Journal} {n_p : ℕ} {P mt : ℕ → ℕ → ℝ} (h2a : 2 ≤ B.elements_axial)
    (h2c : 2 ≤ B.elements_circumferential) (f : ℕ → ℕ → ℝ) (x : ℕ → ℝ) :
    Solves (B.elements_axial * B.elements_circumferential) (B.Mat_coef_T J n_p P mt)
        (fun r => f (r / B.elements_circumferential) (r % B.elements_circumferential)) x ↔
      ∀ i < B.elements_axial, ∀ j < B.elements_circumferential,
        op B.elements_axial B.elements_circumferential
          (fun i j => -B.AW (B.HP J n_p j) (B.dPdy P i j) (mt i j)) (fun _ j => -B.AE (B.HP J n_p j))
          (fun i j => -B.AN (B.HP J n_p j) (B.dPdz P i j) (mt i j))
          (fun i j => -B.AS (B.HP J n_p j) (B.dPdz P i j) (mt i j)) 0 0 0
          (fun i j => x (i * B.elements_circumferential + j)) i j = f i j := by
  have hrow : ∀ i < B.elements_axial, ∀ j < B.elements_circumferential,
      ∑ c ∈ Finset.range (B.elements_axial * B.elements_circumferential),
        B.Mat_coef_T J n_p P mt (i * B.elements_circumferential + j) c * x c =
      op B.elements_axial B.elements_circumferential
          (fun i j => -B.AW (B.HP J n_p j) (B.dPdy P i j) (mt i j)) (fun _ j => -B.AE (B.HP J n_p j))
          (fun i j => -B.AN (B.HP J n_p j) (B.dPdz P i j) (mt i j))
          (fun i j => -B.AS (B.HP J n_p j) (B.dPdz P i j) (mt i j)) 0 0 0
          (fun i j => x (i * B.elements_circumferential + j)) i j := by
    intro i hi j hj
    rw [← row_T_sum B rfl rfl h2a h2c (fun _ j => B.AE (B.HP J n_p j))
      (fun i j => B.AW (B.HP J n_p j) (B.dPdy P i j) (mt i j))
      (fun i j => B.AN (B.HP J n_p j) (B.dPdz P i j) (mt i j))
      (fun i j => B.AS (B.HP J n_p j) (B.dPdz P i j) (mt i j)) x hi hj]
    refine Finset.sum_congr rfl fun c _ => ?_
    unfold Mat_coef_T
    rw [index_div hj, index_mod hj]
  constructor
  · intro h i hi j hj
    have := h _ (index_lt hi hj)
    rw [hrow i hi j hj] at this
    dsimp only at this
    rw [index_div hj, index_mod hj] at this
    exact this
  · intro h r hr
    have hc : 0 < B.elements_circumferential := by omega
    have hi : r / B.elements_circumferential < B.elements_axial := (Nat.div_lt_iff_lt_mul hc).2 hr
    have hj : r % B.elements_circumferential < B.elements_circumferential := Nat.mod_lt _ hc
    have e : r / B.elements_circumferential * B.elements_circumferential + r % B.elements_circumferential = r := by
      rw [mul_comm]; exact Nat.div_add_mod _ _
    have := hrow _ hi _ hj
    rw [e] at this
    rw [this, h _ hi _ hj]

end Ross.ThdLemmas
