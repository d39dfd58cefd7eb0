import Verif.Lemmas.ThdLund
import Verif.Model.ThdStarved
import Verif.Spec.Starved

/-! # Sweeps over the cells of a starved bearing -/

namespace Ross.ThdLemmas

open Real Thd Thd.THD Stencil Spec.Fluid Spec.Thd

variable {B : THD} {J : Journal} {n_p : ℕ} {mu : ℕ → ℕ → ℝ}

theorem starvedExcess_eq (h2a : 2 ≤ B.elements_axial) (h2c : 2 ≤ B.elements_circumferential) (g inj : ℝ)
    (P Θ : ℕ → ℕ → ℝ) (i j : ℕ) :
    starvedExcess B.elements_axial B.elements_circumferential (B.thetaI n_p) (B.betha_s_dg * π / 180)
      ((B.journal_radius / B.axial_length) ^ 2) g inj (B.film J n_p) (fun t => -(J.Xpt * cos t + J.Ypt * sin t)) mu P Θ i j =
    op B.elements_axial B.elements_circumferential (B.CW J n_p mu) (B.CE J n_p mu) (B.CN J n_p mu)
      (B.CS J n_p mu) 2 2 2 P i j - B.KP J n_p j * Θ i j - B.KW J n_p j * fillBefore g (Θ i) j -
      (if j = 0 then 2 * B.CW J n_p mu i j * inj else 0) := by
  have key := padExcess_eq (J := J) (n_p := n_p) (mu := mu) h2a h2c P i j
  have hY := (dY_pos h2c).ne'
  have hZ := (dZ_pos h2a).ne'
  have eY : (1 : ℝ) / B.elements_circumferential = B.dY := rfl
  have eZ : (1 : ℝ) / B.elements_axial = B.dZ := rfl
  have eb : B.betha_s_dg * π / 180 = B.betha_s := rfl
  have e0 : B.thetaI n_p + ((j : ℝ) + 1 / 2) * (B.betha_s / B.elements_circumferential) = B.jj n_p j := by
    unfold jj dtheta; ring
  have e1 : B.thetaI n_p + ((j : ℝ) + 1) * (B.betha_s / B.elements_circumferential) = B.jj n_p j + 0.5 * B.dtheta := by
    unfold jj dtheta; ring
  have e2 : B.thetaI n_p + (j : ℝ) * (B.betha_s / B.elements_circumferential) = B.jj n_p j - 0.5 * B.dtheta := by
    unfold jj dtheta; ring
  have hW : meanBefore (mu i) j = MU_w mu i j := by
    unfold meanBefore mean MU_w
    by_cases h : j = 0
    · simp [h]
    · simp only [h, decide_false, if_false, Bool.false_eq_true]; ring
  have hin : (slopeEntry inj B.dY (P i) j - slopeBefore B.dY (P i) j) *
      (B.film J n_p (B.jj n_p j - 0.5 * B.dtheta) ^ 3 / (12 * MU_w mu i j * B.betha_s ^ 2)) * B.dZ =
      -(if j = 0 then 2 * B.CW J n_p mu i j * inj else 0) := by
    unfold slopeEntry slopeBefore Spec.Thd.slope CW
    split_ifs
    · field_simp
      ring
    · ring
  unfold padExcess excess at key
  unfold starvedExcess
  push_cast at key
  rw [eY, eZ, eb, e0, e1, e2, hW] at key ⊢
  unfold aroundFilled
  unfold Spec.Thd.around source at key
  unfold KP KW hpt
  linear_combination key + hin

theorem conductance_eq (i j : ℕ) :
    conductance B.elements_axial B.elements_circumferential (B.thetaI n_p) (B.betha_s_dg * π / 180)
      ((B.journal_radius / B.axial_length) ^ 2) (B.film J n_p) mu i j =
    B.CE J n_p mu i j + B.CW J n_p mu i j + B.CN J n_p mu i j + B.CS J n_p mu i j := by
  have eY : (1 : ℝ) / B.elements_circumferential = B.dY := rfl
  have eZ : (1 : ℝ) / B.elements_axial = B.dZ := rfl
  have eb : B.betha_s_dg * π / 180 = B.betha_s := rfl
  have e0 : B.thetaI n_p + ((j : ℝ) + 1 / 2) * (B.betha_s / B.elements_circumferential) = B.jj n_p j := by
    unfold jj dtheta; ring
  have e1 : B.thetaI n_p + ((j : ℝ) + 1) * (B.betha_s / B.elements_circumferential) = B.jj n_p j + 0.5 * B.dtheta := by
    unfold jj dtheta; ring
  have e2 : B.thetaI n_p + (j : ℝ) * (B.betha_s / B.elements_circumferential) = B.jj n_p j - 0.5 * B.dtheta := by
    unfold jj dtheta; ring
  have hE : meanAfter B.elements_circumferential (mu i) j = B.MU_e mu i j := by
    unfold meanAfter mean MU_e
    by_cases h : j = B.elements_circumferential - 1
    · simp [h]
    · simp only [h, decide_false, if_false, Bool.false_eq_true]; ring
  have hW : meanBefore (mu i) j = MU_w mu i j := by
    unfold meanBefore mean MU_w
    by_cases h : j = 0
    · simp [h]
    · simp only [h, decide_false, if_false, Bool.false_eq_true]; ring
  have hN : meanAfter B.elements_axial (fun i => mu i j) i = B.MU_n mu i j := by
    unfold meanAfter mean MU_n
    by_cases h : i = B.elements_axial - 1
    · simp [h]
    · simp only [h, decide_false, if_false, Bool.false_eq_true]; ring
  have hS : meanBefore (fun i => mu i j) i = MU_s mu i j := by
    unfold meanBefore mean MU_s
    by_cases h : i = 0
    · simp [h]
    · simp only [h, decide_false, if_false, Bool.false_eq_true]; ring
  unfold conductance
  rw [eY, eZ, eb, e0, e1, e2, hE, hW, hN, hS]
  unfold CE CW CN CS
  ring

/-- The arrays before cell `m`. -/
noncomputable def starvedPart (B : THD) (inj g : ℝ) (J : Journal) (n_p : ℕ) (mu : ℕ → ℕ → ℝ) (s : (ℕ → ℝ) × (ℕ → ℝ))
    (m : ℕ) : (ℕ → ℝ) × (ℕ → ℝ) := (List.range m).foldl (B.starved_cell inj g J n_p mu) s

variable {inj g : ℝ}

theorem starvedPart_succ (s : (ℕ → ℝ) × (ℕ → ℝ)) (m : ℕ) : starvedPart B inj g J n_p mu s (m + 1) =
    B.starved_cell inj g J n_p mu (starvedPart B inj g J n_p mu s m) m := by
  unfold starvedPart
  rw [List.range_succ, List.foldl_append]
  rfl

theorem starved_other (s : (ℕ → ℝ) × (ℕ → ℝ)) {k c : ℕ} (h : c ≠ k) :
    (B.starved_cell inj g J n_p mu s k).1 c = s.1 c ∧ (B.starved_cell inj g J n_p mu s k).2 c = s.2 c := by
  unfold starved_cell
  split_ifs
  · exact ⟨Function.update_of_ne h _ _, Function.update_of_ne h _ _⟩
  · exact ⟨Function.update_of_ne h _ _, Function.update_of_ne h _ _⟩

theorem starvedPart_late (s : (ℕ → ℝ) × (ℕ → ℝ)) {m c : ℕ} (h : m ≤ c) :
    (starvedPart B inj g J n_p mu s m).1 c = s.1 c ∧ (starvedPart B inj g J n_p mu s m).2 c = s.2 c := by
  induction m with
  | zero => exact ⟨rfl, rfl⟩
  | succ m ih =>
    have := starved_other (B := B) (inj := inj) (g := g) (J := J) (n_p := n_p) (mu := mu)
      (starvedPart B inj g J n_p mu s m) (show c ≠ m by omega)
    have := ih (by omega)
    rw [starvedPart_succ]
    constructor <;> simp_all

theorem starvedPart_early (s : (ℕ → ℝ) × (ℕ → ℝ)) {m c : ℕ} (h : c < m) :
    (starvedPart B inj g J n_p mu s m).1 c = (starvedPart B inj g J n_p mu s (c + 1)).1 c ∧
      (starvedPart B inj g J n_p mu s m).2 c = (starvedPart B inj g J n_p mu s (c + 1)).2 c := by
  induction m with
  | zero => omega
  | succ m ih =>
    by_cases hc : c = m
    · rw [hc]; exact ⟨rfl, rfl⟩
    · have h1 := starved_other (B := B) (inj := inj) (g := g) (J := J) (n_p := n_p) (mu := mu)
        (starvedPart B inj g J n_p mu s m) hc
      have h2 := ih (by omega)
      rw [starvedPart_succ]
      exact ⟨h1.1.trans h2.1, h1.2.trans h2.2⟩

/-- What stands in the arrays when cell `k` is reached. -/
theorem starvedPart_at (s : (ℕ → ℝ) × (ℕ → ℝ)) {k : ℕ} (hk : k < B.elements_axial * B.elements_circumferential) (c : ℕ) :
    (starvedPart B inj g J n_p mu s k).1 c = (if c < k then (B.starved_sweep inj g J n_p mu s).1 c else s.1 c) ∧
      (starvedPart B inj g J n_p mu s k).2 c = (if c < k then (B.starved_sweep inj g J n_p mu s).2 c else s.2 c) := by
  have e : B.starved_sweep inj g J n_p mu s =
      starvedPart B inj g J n_p mu s (B.elements_axial * B.elements_circumferential) := rfl
  by_cases h : c < k
  · rw [if_pos h, if_pos h, e]
    have h1 := starvedPart_early (B := B) (inj := inj) (g := g) (J := J) (n_p := n_p) (mu := mu) s h
    have h2 := starvedPart_early (B := B) (inj := inj) (g := g) (J := J) (n_p := n_p) (mu := mu) s
      (show c < B.elements_axial * B.elements_circumferential by omega)
    exact ⟨h1.1.trans h2.1.symm, h1.2.trans h2.2.symm⟩
  · rw [if_neg h, if_neg h]
    exact starvedPart_late s (by omega)

/-- The filling of what is dragged into cell `k`. -/
noncomputable def west (B : THD) (g : ℝ) (t : ℕ → ℝ) (k : ℕ) : ℝ :=
  if k % B.elements_circumferential = 0 then g else t (k - 1)

/-- What a sweep makes of a cell with pressure. -/
theorem sweep_wet (s : (ℕ → ℝ) × (ℕ → ℝ)) {k : ℕ} (hk : k < B.elements_axial * B.elements_circumferential)
    (h : 0 < s.1 k) :
    (B.starved_sweep inj g J n_p mu s).2 k = 1 ∧ (B.starved_sweep inj g J n_p mu s).1 k =
      (-B.KP J n_p (k % B.elements_circumferential) -
        B.KW J n_p (k % B.elements_circumferential) * west B g (B.starved_sweep inj g J n_p mu s).2 k -
        (if k % B.elements_circumferential = 0 then
          2 * B.CW J n_p mu (k / B.elements_circumferential) (k % B.elements_circumferential) * inj else 0) -
        ∑ c ∈ (Finset.range (B.elements_axial * B.elements_circumferential)).erase k, B.Mat_coef J n_p mu k c *
          (if c < k then (B.starved_sweep inj g J n_p mu s).1 c else s.1 c)) / B.Mat_coef J n_p mu k k := by
  set S := B.starved_sweep inj g J n_p mu s with hS
  have hat := starvedPart_at (B := B) (inj := inj) (g := g) (J := J) (n_p := n_p) (mu := mu) s hk
  have he := starvedPart_early (B := B) (inj := inj) (g := g) (J := J) (n_p := n_p) (mu := mu) s hk
  have e : S = starvedPart B inj g J n_p mu s (B.elements_axial * B.elements_circumferential) := rfl
  rw [← hS] at hat
  rw [← e] at he
  set q := starvedPart B inj g J n_p mu s k with hq
  have h0 : 0 < q.1 k := by rw [(hat k).1, if_neg (lt_irrefl k)]; exact h
  have hcell : B.starved_cell inj g J n_p mu q k = (Function.update q.1 k ((B.starved_B inj g J n_p mu
      (Function.update q.2 k 1) k - ∑ c ∈ (Finset.range (B.elements_axial * B.elements_circumferential)).erase k,
        B.Mat_coef J n_p mu k c * q.1 c) / B.Mat_coef J n_p mu k k), Function.update q.2 k 1) := by
    unfold starved_cell
    rw [if_pos h0]
  rw [starvedPart_succ, ← hq, hcell] at he
  refine ⟨he.2.trans (Function.update_self _ _ _), he.1.trans ((Function.update_self _ _ _).trans ?_)⟩
  have hsum : ∑ c ∈ (Finset.range (B.elements_axial * B.elements_circumferential)).erase k,
        B.Mat_coef J n_p mu k c * q.1 c =
      ∑ c ∈ (Finset.range (B.elements_axial * B.elements_circumferential)).erase k, B.Mat_coef J n_p mu k c *
          (if c < k then S.1 c else s.1 c) :=
    Finset.sum_congr rfl fun c _ => by rw [(hat c).1]
  rw [hsum]
  congr 2
  unfold starved_B west
  dsimp only
  split_ifs with hj
  · rw [Function.update_self]
    ring
  · have hk0 : k ≠ 0 := by rintro rfl; exact hj (Nat.zero_mod _)
    rw [Function.update_self, Function.update_of_ne (show k - 1 ≠ k by omega), (hat (k - 1)).2,
      if_pos (show k - 1 < k by omega)]
    ring

/-- What a sweep makes of a cell without pressure. -/
theorem sweep_dry (s : (ℕ → ℝ) × (ℕ → ℝ)) {k : ℕ} (hk : k < B.elements_axial * B.elements_circumferential)
    (h : ¬0 < s.1 k) :
    (B.starved_sweep inj g J n_p mu s).1 k = 0 ∧ (B.starved_sweep inj g J n_p mu s).2 k =
      (-∑ c ∈ (Finset.range (B.elements_axial * B.elements_circumferential)).erase k, B.Mat_coef J n_p mu k c *
          (if c < k then (B.starved_sweep inj g J n_p mu s).1 c else s.1 c) -
        B.KW J n_p (k % B.elements_circumferential) * west B g (B.starved_sweep inj g J n_p mu s).2 k) /
        B.KP J n_p (k % B.elements_circumferential) := by
  set S := B.starved_sweep inj g J n_p mu s with hS
  have hat := starvedPart_at (B := B) (inj := inj) (g := g) (J := J) (n_p := n_p) (mu := mu) s hk
  have he := starvedPart_early (B := B) (inj := inj) (g := g) (J := J) (n_p := n_p) (mu := mu) s hk
  have e : S = starvedPart B inj g J n_p mu s (B.elements_axial * B.elements_circumferential) := rfl
  rw [← hS] at hat
  rw [← e] at he
  set q := starvedPart B inj g J n_p mu s k with hq
  have h0 : ¬0 < q.1 k := by rw [(hat k).1, if_neg (lt_irrefl k)]; exact h
  have hcell : B.starved_cell inj g J n_p mu q k = (Function.update q.1 k 0,
      Function.update q.2 k (B.starved_theta g J n_p mu (Function.update q.1 k 0) q.2 k)) := by
    unfold starved_cell
    rw [if_neg h0]
  rw [starvedPart_succ, ← hq, hcell] at he
  refine ⟨he.1.trans (Function.update_self _ _ _), he.2.trans ((Function.update_self _ _ _).trans ?_)⟩
  have hsum : ∑ c ∈ Finset.range (B.elements_axial * B.elements_circumferential),
        B.Mat_coef J n_p mu k c * Function.update q.1 k 0 c =
      ∑ c ∈ (Finset.range (B.elements_axial * B.elements_circumferential)).erase k, B.Mat_coef J n_p mu k c *
          (if c < k then S.1 c else s.1 c) := by
    rw [← Finset.add_sum_erase _ _ (Finset.mem_range.2 hk), Function.update_self, mul_zero, zero_add]
    exact Finset.sum_congr rfl fun c hc => by
      rw [Function.update_of_ne (Finset.ne_of_mem_erase hc), (hat c).1]
  unfold starved_theta west
  dsimp only
  rw [hsum]
  split_ifs with hj
  · ring
  · have hk0 : k ≠ 0 := by rintro rfl; exact hj (Nat.zero_mod _)
    rw [(hat (k - 1)).2, if_pos (show k - 1 < k by omega)]

/-- What is left of equation `k` after a sweep. -/
theorem starved_residual (s : (ℕ → ℝ) × (ℕ → ℝ)) {k : ℕ} (hk : k < B.elements_axial * B.elements_circumferential)
    (hM : B.Mat_coef J n_p mu k k ≠ 0) (hKP : B.KP J n_p (k % B.elements_circumferential) ≠ 0) :
    ∑ c ∈ Finset.range (B.elements_axial * B.elements_circumferential), B.Mat_coef J n_p mu k c *
        (B.starved_sweep inj g J n_p mu s).1 c +
      B.KP J n_p (k % B.elements_circumferential) * (B.starved_sweep inj g J n_p mu s).2 k +
      B.KW J n_p (k % B.elements_circumferential) * west B g (B.starved_sweep inj g J n_p mu s).2 k +
      (if k % B.elements_circumferential = 0 ∧ 0 < s.1 k then
        2 * B.CW J n_p mu (k / B.elements_circumferential) (k % B.elements_circumferential) * inj else 0) =
    ∑ c ∈ (Finset.range (B.elements_axial * B.elements_circumferential)).filter (k < ·), B.Mat_coef J n_p mu k c *
      ((B.starved_sweep inj g J n_p mu s).1 c - s.1 c) := by
  set S := B.starved_sweep inj g J n_p mu s with hS
  have hfil : ∑ c ∈ (Finset.range (B.elements_axial * B.elements_circumferential)).filter (k < ·),
        B.Mat_coef J n_p mu k c * (S.1 c - s.1 c) =
      ∑ c ∈ (Finset.range (B.elements_axial * B.elements_circumferential)).erase k, B.Mat_coef J n_p mu k c * S.1 c -
      ∑ c ∈ (Finset.range (B.elements_axial * B.elements_circumferential)).erase k, B.Mat_coef J n_p mu k c *
          (if c < k then S.1 c else s.1 c) := by
    rw [← Finset.sum_sub_distrib, Finset.sum_filter, ← Finset.add_sum_erase _ _ (Finset.mem_range.2 hk),
      if_neg (lt_irrefl k), zero_add]
    refine Finset.sum_congr rfl fun c hc => ?_
    have hne := Finset.ne_of_mem_erase hc
    by_cases h1 : c < k
    · rw [if_pos h1, if_neg (by omega), sub_self]
    · rw [if_neg h1, if_pos (by omega), mul_sub]
  rw [hfil, ← Finset.add_sum_erase _ _ (Finset.mem_range.2 hk)]
  by_cases h : 0 < s.1 k
  · obtain ⟨h1, h2⟩ := sweep_wet (B := B) (inj := inj) (g := g) (J := J) (n_p := n_p) (mu := mu) s hk h
    rw [← hS] at h1 h2
    rw [eq_div_iff hM] at h2
    rw [h1]
    have : (if k % B.elements_circumferential = 0 ∧ 0 < s.1 k then
          2 * B.CW J n_p mu (k / B.elements_circumferential) (k % B.elements_circumferential) * inj else 0) =
        if k % B.elements_circumferential = 0 then
          2 * B.CW J n_p mu (k / B.elements_circumferential) (k % B.elements_circumferential) * inj else 0 := by
      simp [h]
    rw [this]
    linear_combination h2
  · obtain ⟨h1, h2⟩ := sweep_dry (B := B) (inj := inj) (g := g) (J := J) (n_p := n_p) (mu := mu) s hk h
    rw [← hS] at h1 h2
    rw [eq_div_iff hKP] at h2
    rw [h1, if_neg (by tauto)]
    linear_combination h2

theorem cells_entry (x : ℕ → ℝ) {k : ℕ} (hk : k < B.elements_axial * B.elements_circumferential) :
    |x k| ≤ B.cells_norm x := by
  unfold cells_norm
  refine Real.le_sqrt_of_sq_le ?_
  rw [sq_abs]
  exact Finset.single_le_sum (f := fun k => x k ^ 2) (fun c _ => sq_nonneg _) (Finset.mem_range.2 hk)

theorem cells_nonneg (x : ℕ → ℝ) : 0 ≤ B.cells_norm x := Real.sqrt_nonneg _

theorem starved_pad_ok {tol : ℝ} {fuel : ℕ} {r : (ℕ → ℕ → ℝ) × (ℕ → ℕ → ℝ)}
    (h : B.starved_pad tol fuel J n_p g mu = some (.ok r)) :
    B.film_check n_p = .ok () ∧ 2 ≤ B.elements_circumferential ∧ 2 ≤ B.elements_axial ∧
      ∃ inj, B.injection_pressure = some inj ∧ ∃ s, whileLoop (fun s : Starving => tol ≤ s.erro)
        (fun s => some (.ok (B.starved_step inj g J n_p mu s))) fuel ⟨fun _ => 1, fun _ => 0, 1⟩ = some (.ok s) ∧
      r = (fun i j => if s.p (i * B.elements_circumferential + j) < 0 then 0
          else s.p (i * B.elements_circumferential + j), fun i j => s.theta_vol (i * B.elements_circumferential + j)) := by
  unfold starved_pad at h
  split at h
  · cases h
  · rename_i hf
    split_ifs at h with hc
    · cases h
    rw [not_or, not_lt, not_lt] at hc
    refine ⟨hf, hc.1, hc.2, ?_⟩
    split at h
    · cases h
    · rename_i inj hinj
      split at h
      · cases h
      · cases h
      · rename_i s hs
        cases h
        exact ⟨inj, hinj, s, hs, rfl⟩

/-- What is known when the sweeps for a pad have ended. -/
theorem starved_last {tol inj : ℝ} {fuel : ℕ} {P Θ : ℕ → ℕ → ℝ} (I : Starving → Prop)
    (hstep : ∀ s, I s → I (B.starved_step inj g J n_p mu s)) (h0 : I ⟨fun _ => 1, fun _ => 0, 1⟩) (htol : tol ≤ 1)
    (hinj : B.injection_pressure = some inj) (h : B.starved_pad tol fuel J n_p g mu = some (.ok (P, Θ))) :
    ∃ s, I s ∧ (∀ i j, P i j = max ((B.starved_sweep inj g J n_p mu (s.p, s.theta_vol)).1
          (i * B.elements_circumferential + j)) 0) ∧
      (∀ i j, Θ i j = (B.starved_sweep inj g J n_p mu (s.p, s.theta_vol)).2 (i * B.elements_circumferential + j)) ∧
      (∀ k < B.elements_axial * B.elements_circumferential,
        |(B.starved_sweep inj g J n_p mu (s.p, s.theta_vol)).1 k - s.p k| < tol) := by
  obtain ⟨-, -, -, inj', hinj', s', hs', hr⟩ := starved_pad_ok h
  rw [hinj] at hinj'
  cases hinj'
  cases hr
  obtain ⟨s, hI, hb, -, ht⟩ := while_last I (fun s s1 hI _ hb => by cases hb; exact hstep s hI) h0
    (show tol ≤ 1 from htol) hs'
  cases hb
  refine ⟨s, hI, fun i j => ?_, fun i j => rfl, fun k hk => ?_⟩
  · unfold starved_step
    dsimp only
    split_ifs with hn
    · exact (max_eq_right hn.le).symm
    · exact (max_eq_left (not_lt.1 hn)).symm
  · have ht' := not_le.1 ht
    unfold starved_step at ht'
    have h1 := cells_entry (B := B) (fun k => (B.starved_sweep inj g J n_p mu (s.p, s.theta_vol)).1 k - s.p k) hk
    have h2 := cells_nonneg (B := B)
      (fun k => (B.starved_sweep inj g J n_p mu (s.p, s.theta_vol)).2 k - s.theta_vol k)
    linarith

theorem iterate_ends {σ : Type} {test : σ → Prop} {step : σ → σ} (m : ℕ) : ∀ {s0 : σ}, ¬test (step^[m] s0) →
    ∀ fuel ≥ m + 1, ∃ n ≤ m, whileLoop test (fun s => some (.ok (step s))) fuel s0 = some (.ok (step^[n] s0)) := by
  induction m with
  | zero =>
    intro s0 h fuel hf
    obtain ⟨f, rfl⟩ : ∃ f, fuel = f + 1 := ⟨fuel - 1, by omega⟩
    unfold whileLoop
    rw [if_neg (show ¬test s0 from h)]
    exact ⟨0, le_rfl, rfl⟩
  | succ m ih =>
    intro s0 h fuel hf
    obtain ⟨f, rfl⟩ : ∃ f, fuel = f + 1 := ⟨fuel - 1, by omega⟩
    unfold whileLoop
    split_ifs
    · obtain ⟨n, hn, e⟩ := ih (s0 := step s0) h f (by omega)
      exact ⟨n + 1, by omega, e⟩
    · exact ⟨0, by omega, rfl⟩

/-- The bound on what is left of an equation, with 0 for negative pressures. -/
theorem clipped_residual (ho : Open B J n_p mu) (h2a : 2 ≤ B.elements_axial) (h2c : 2 ≤ B.elements_circumferential)
    {i j : ℕ} (hi : i < B.elements_axial) (hj : j < B.elements_circumferential) {p q : ℕ → ℝ} {d : ℝ}
    (hd : ∀ c < B.elements_axial * B.elements_circumferential, |q c - p c| ≤ d)
    (hq : ∀ c < B.elements_axial * B.elements_circumferential, q c < 0 → 0 < p c) :
    |∑ c ∈ (Finset.range (B.elements_axial * B.elements_circumferential)).filter
          (i * B.elements_circumferential + j < ·),
        B.Mat_coef J n_p mu (i * B.elements_circumferential + j) c * (q c - p c) +
      ∑ c ∈ Finset.range (B.elements_axial * B.elements_circumferential),
        B.Mat_coef J n_p mu (i * B.elements_circumferential + j) c * (max (q c) 0 - q c)| ≤
      4 * (B.CE J n_p mu i j + B.CW J n_p mu i j + B.CN J n_p mu i j + B.CS J n_p mu i j) * d := by
  set N := B.elements_axial * B.elements_circumferential with hN
  set k := i * B.elements_circumferential + j with hkd
  have hk : k < N := index_lt hi hj
  obtain ⟨w, e, n, s⟩ := ho.signs h2a h2c hi hj
  have hd0 : 0 ≤ d := (abs_nonneg _).trans (hd k hk)
  obtain ⟨s1, s2⟩ := entry_signs ho h2a h2c hk
  have hm : ∀ c < N, |max (q c) 0 - q c| ≤ d := by
    intro c hc
    rcases le_or_gt 0 (q c) with h | h
    · rw [max_eq_left h, sub_self, abs_zero]; exact hd0
    · have h1 := (abs_le.1 (hd c hc)).1
      have h2 := hq c hc h
      rw [max_eq_right h.le, zero_sub, abs_of_pos (by linarith)]
      linarith
  have hone := mat_sum (J := J) (n_p := n_p) (mu := mu) h2a h2c (fun _ => 1) hi hj
  have pk : ∀ (p : Prop) [Decidable p] (x : ℝ), 0 < x → 0 ≤ (if p then x else 0) ∧ (if p then x else 0) ≤ x := by
    intro p _ x hx
    split_ifs
    · exact ⟨hx.le, le_rfl⟩
    · exact ⟨le_rfl, hx.le⟩
  set E := (if i = 0 then B.CS J n_p mu i j else 0) + (if j = 0 then B.CW J n_p mu i j else 0) +
    (if j = B.elements_circumferential - 1 then B.CE J n_p mu i j else 0) +
    (if i = B.elements_axial - 1 then B.CN J n_p mu i j else 0) with hE
  set S := B.CE J n_p mu i j + B.CW J n_p mu i j + B.CN J n_p mu i j + B.CS J n_p mu i j with hS
  have hE0 : 0 ≤ E ∧ E ≤ S := by
    have a1 := pk (i = 0) _ s
    have a2 := pk (j = 0) _ w
    have a3 := pk (j = B.elements_circumferential - 1) _ e
    have a4 := pk (i = B.elements_axial - 1) _ n
    constructor <;> rw [hE] <;> linarith [a1.1, a1.2, a2.1, a2.2, a3.1, a3.2, a4.1, a4.2]
  have hdiag : B.Mat_coef J n_p mu k k = -(S + E) := by
    unfold Mat_coef
    dsimp only
    rw [hkd, index_div hj, index_mod hj, row_P_entries B rfl rfl h2a h2c _ _ _ _ _ hi hj, ← hkd,
      if_pos (show k = k from rfl), if_neg (show ¬k = k + 1 by omega), if_neg (show ¬k + 1 = k by omega),
      if_neg (show ¬k = k + B.elements_circumferential by omega), if_neg (show ¬k + B.elements_circumferential = k by omega),
      hE, hS]
    ring
  have hop : op B.elements_axial B.elements_circumferential (B.CW J n_p mu) (B.CE J n_p mu) (B.CN J n_p mu)
      (B.CS J n_p mu) 2 2 2 (fun _ _ => 1) i j = 2 * E := by
    unfold op
    have pk : ∀ (p : Prop) [Decidable p] (x : ℝ), x * (if p then 2 * 1 else 1 - 1) = 2 * if p then x else 0 := by
      intro p _ x
      split_ifs <;> ring
    rw [pk, pk, pk, pk, hE]
    ring
  have hrest : ∑ c ∈ (Finset.range N).erase k, B.Mat_coef J n_p mu k c ≤ S := by
    rw [← Finset.add_sum_erase _ _ (Finset.mem_range.2 hk), ← hkd, hop, hdiag] at hone
    simp only [mul_one] at hone
    linarith [hE0.1]
  have hsub : (Finset.range N).filter (k < ·) ⊆ (Finset.range N).erase k := by
    intro c hc
    rw [Finset.mem_filter] at hc
    exact Finset.mem_erase.2 ⟨by omega, hc.1⟩
  have b1 : |∑ c ∈ (Finset.range N).filter (k < ·), B.Mat_coef J n_p mu k c * (q c - p c)| ≤ S * d := by
    calc _ ≤ ∑ c ∈ (Finset.range N).filter (k < ·), B.Mat_coef J n_p mu k c * d := by
          refine (Finset.abs_sum_le_sum_abs _ _).trans (Finset.sum_le_sum fun c hc => ?_)
          rw [Finset.mem_filter, Finset.mem_range] at hc
          have h0 := s2 c (by omega)
          rw [abs_mul, abs_of_nonneg h0]
          exact mul_le_mul_of_nonneg_left (hd c hc.1) h0
      _ ≤ ∑ c ∈ (Finset.range N).erase k, B.Mat_coef J n_p mu k c * d :=
          Finset.sum_le_sum_of_subset_of_nonneg hsub fun c hc _ => mul_nonneg (s2 c (Finset.ne_of_mem_erase hc)) hd0
      _ ≤ S * d := by
          rw [← Finset.sum_mul]
          exact mul_le_mul_of_nonneg_right hrest hd0
  have b2 : |∑ c ∈ Finset.range N, B.Mat_coef J n_p mu k c * (max (q c) 0 - q c)| ≤ 3 * S * d := by
    rw [← Finset.add_sum_erase _ _ (Finset.mem_range.2 hk)]
    have c1 : |B.Mat_coef J n_p mu k k * (max (q k) 0 - q k)| ≤ 2 * S * d := by
      rw [abs_mul, abs_of_neg s1, hdiag, neg_neg]
      exact mul_le_mul (by linarith [hE0.2]) (hm k hk) (abs_nonneg _) (by linarith [hE0.1, hE0.2])
    have c2 : |∑ c ∈ (Finset.range N).erase k, B.Mat_coef J n_p mu k c * (max (q c) 0 - q c)| ≤ S * d := by
      calc _ ≤ ∑ c ∈ (Finset.range N).erase k, B.Mat_coef J n_p mu k c * d := by
            refine (Finset.abs_sum_le_sum_abs _ _).trans (Finset.sum_le_sum fun c hc => ?_)
            have h0 := s2 c (Finset.ne_of_mem_erase hc)
            rw [abs_mul, abs_of_nonneg h0]
            exact mul_le_mul_of_nonneg_left (hm c (Finset.mem_range.1 (Finset.mem_of_mem_erase hc))) h0
        _ ≤ S * d := by
            rw [← Finset.sum_mul]
            exact mul_le_mul_of_nonneg_right hrest hd0
    refine (abs_add_le _ _).trans ?_
    linarith
  refine (abs_add_le _ _).trans ?_
  linarith

/-- What the equations ask for when all cells are full. -/
noncomputable def fullSource (B : THD) (inj g : ℝ) (J : Journal) (n_p : ℕ) (mu : ℕ → ℕ → ℝ) (k : ℕ) : ℝ :=
  -B.KP J n_p (k % B.elements_circumferential) - B.KW J n_p (k % B.elements_circumferential) * west B g (fun _ => 1) k -
    (if k % B.elements_circumferential = 0 then
      2 * B.CW J n_p mu (k / B.elements_circumferential) (k % B.elements_circumferential) * inj else 0)

/-- Under pressure everywhere. -/
def Wet (B : THD) (p : ℕ → ℝ) : Prop := ∀ k < B.elements_axial * B.elements_circumferential, 0 < p k

/-- With oil enough, all cells stay full and under pressure, and a sweep is one of the method of Gauss and Seidel. -/
theorem sweep_full (ho : Open B J n_p mu) (h2a : 2 ≤ B.elements_axial) (h2c : 2 ≤ B.elements_circumferential)
    (hf : ∀ k < B.elements_axial * B.elements_circumferential, fullSource B inj g J n_p mu k < 0)
    {s : (ℕ → ℝ) × (ℕ → ℝ)} (hs : Wet B s.1) : ∀ k < B.elements_axial * B.elements_circumferential,
      0 < (B.starved_sweep inj g J n_p mu s).1 k ∧ (B.starved_sweep inj g J n_p mu s).2 k = 1 ∧
      ((B.starved_sweep inj g J n_p mu s).1 k : ℂ) = GaussSeidel.sweep (B.elements_axial * B.elements_circumferential)
        (B.Mat_coef J n_p mu) (fun k => (fullSource B inj g J n_p mu k : ℂ)) (fun _ => True) (fun k => (s.1 k : ℂ)) k := by
  intro k
  induction k using Nat.strong_induction_on with
  | _ k ih =>
    intro hk
    obtain ⟨h1, h2⟩ := sweep_wet (B := B) (inj := inj) (g := g) (J := J) (n_p := n_p) (mu := mu) s hk (hs k hk)
    obtain ⟨s1, s2⟩ := entry_signs ho h2a h2c hk
    have hwest : west B g (B.starved_sweep inj g J n_p mu s).2 k = west B g (fun _ => 1) k := by
      unfold west
      split_ifs with hj
      · rfl
      · have hk0 : k ≠ 0 := by rintro rfl; exact hj (Nat.zero_mod _)
        exact (ih (k - 1) (by omega) (by omega)).2.1
    rw [hwest] at h2
    have hfs : -B.KP J n_p (k % B.elements_circumferential) -
        B.KW J n_p (k % B.elements_circumferential) * west B g (fun _ => 1) k -
        (if k % B.elements_circumferential = 0 then
          2 * B.CW J n_p mu (k / B.elements_circumferential) (k % B.elements_circumferential) * inj else 0) =
        fullSource B inj g J n_p mu k := rfl
    rw [hfs] at h2
    refine ⟨?_, h1, ?_⟩
    · rw [h2]
      refine div_pos_of_neg_of_neg ?_ s1
      have : 0 ≤ ∑ c ∈ (Finset.range (B.elements_axial * B.elements_circumferential)).erase k,
          B.Mat_coef J n_p mu k c * (if c < k then (B.starved_sweep inj g J n_p mu s).1 c else s.1 c) := by
        refine Finset.sum_nonneg fun c hc => mul_nonneg (s2 c (Finset.ne_of_mem_erase hc)) ?_
        have hcN := Finset.mem_range.1 (Finset.mem_of_mem_erase hc)
        split_ifs with hck
        · exact (ih c hck hcN).1.le
        · exact (hs c hcN).le
      linarith [hf k hk]
    · rw [GaussSeidel.sweep_active _ hk trivial, h2]
      unfold GaussSeidel.entry
      push_cast
      congr 2
      refine Finset.sum_congr rfl fun c hc => ?_
      have hcN := Finset.mem_range.1 (Finset.mem_of_mem_erase hc)
      congr 1
      split_ifs with hck
      · exact (ih c hck hcN).2.2
      · rfl

end Ross.ThdLemmas
