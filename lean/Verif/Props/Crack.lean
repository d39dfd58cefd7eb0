import Verif.Lemmas.Crack
import Verif.Model.CrackTable
import Verif.Spec.Crack
import Verif.Props.Fault
import Verif.Props.Shaft6
import Verif.Props.ShaftMatrices

/-! # C54: cracked shafts -/

namespace Ross.Props

open Ross Ross.Spec Ross.Fault Ross.BearingLemmas Ross.Rotor Ross.RotorLemmas Ross.CrackLemmas
  Ross.AssemblyLemmas Ross.Shaft6Lemmas Ross.ShaftLemmas Matrix Crack

variable (c : Crack)

/-- **C54** the arguments that are accepted. -/
theorem C54_kind : (∃ b, c.kind = .ok b) ↔
    c.depth_ratio ≤ 0.5 ∧ c.crack_type ∈ [none, some "Mayes", some "Gasch"] := by
  unfold kind
  split_ifs with h
  · simp only [h, true_and]
    split <;> simp_all
  · simp [h]

/-- **C54** the coefficients come from the first row of the table that is deep enough. -/
theorem C54_table (s : ShaftElement) (col : List (ℝ × ℝ)) (x : ℝ) :
    c.get_coefs s col = .ok x ↔ ∃ t, TableValue col (2 * c.depth_ratio) t ∧
      x = t * (1 - s.material.Poisson ^ 2) / (s.material.E * (s.odl / 2) ^ 3) := by
  unfold get_coefs TableValue
  rw [mul_comm]
  cases h : col.find? fun x => decide (2 * c.depth_ratio ≤ x.2) with
  | none =>
    simp only [reduceCtorEq, false_iff]
    rintro ⟨t, ⟨l1, row, l2, rfl, -, h2, -⟩, -⟩
    rw [List.find?_eq_none] at h
    have := h row (by simp)
    simp at this
    linarith
  | some row =>
    rw [List.find?_eq_some_iff_append] at h
    obtain ⟨h1, l1, l2, rfl, h2⟩ := h
    simp only [decide_eq_true_eq, Bool.not_eq_eq_eq_not, Bool.not_true, decide_eq_false_iff_not, not_le] at h1 h2
    simp only [Except.ok.injEq]
    constructor
    · rintro rfl
      exact ⟨row.1, ⟨l1, row, l2, rfl, h2, h1, rfl⟩, rfl⟩
    · rintro ⟨t, ⟨m1, row', m2, e, h3, h4, rfl⟩, rfl⟩
      have : row = row' := by
        have f1 : (l1 ++ row :: l2).find? (fun x => decide (2 * c.depth_ratio ≤ x.2)) = some row :=
          List.find?_eq_some_iff_append.2 ⟨by simpa using h1, l1, l2, rfl, by simpa using h2⟩
        have f2 : (l1 ++ row :: l2).find? (fun x => decide (2 * c.depth_ratio ≤ x.2)) = some row' :=
          List.find?_eq_some_iff_append.2 ⟨by simpa using h4, m1, m2, e, by simpa using h3⟩
        exact Option.some.inj (f1.symm.trans f2)
      rw [this]

/-- **C54** the stiffnesses exist for every admitted depth if the table goes down to the whole radius. -/
theorem C54_lookup (tab : CrackTable) (s : ShaftElement) (hd : c.depth_ratio ≤ 0.5)
    (h : ∀ col ∈ [tab.c44, tab.c55, tab.c45], ∃ row ∈ col, 1 ≤ row.2) : ∃ k, c.stiff tab s = .ok k := by
  have key : ∀ col ∈ [tab.c44, tab.c55, tab.c45], ∃ x, c.get_coefs s col = .ok x := by
    intro col hc
    obtain ⟨row, hr, h1⟩ := h col hc
    unfold get_coefs
    cases hf : col.find? fun x => decide (c.depth_ratio * 2 ≤ x.2) with
    | none =>
      rw [List.find?_eq_none] at hf
      have := hf row hr
      simp at this
      norm_num at hd
      linarith
    | some row => exact ⟨_, rfl⟩
  obtain ⟨x, hx⟩ := key tab.c44 (by simp)
  obtain ⟨y, hy⟩ := key tab.c55 (by simp)
  obtain ⟨z, hz⟩ := key tab.c45 (by simp)
  unfold stiff Crack.Cc
  simp only [hx, hy, hz, bind, Except.bind]
  split_ifs <;> exact ⟨_, rfl⟩

/-! ### The compliance of a physical element -/

section Physical

variable {s : ShaftElement} (hp : s.beam.Physical)

include hp

theorem tempI_pos : 0 < tempI s := by
  have h1 : s.idl < s.odl := hp.idl_lt
  have h2 : s.idr < s.odr := hp.idr_lt
  have h3 : 0 ≤ s.idl := hp.idl_nonneg
  have h4 : 0 ≤ s.idr := hp.idr_nonneg
  have a1 : (s.idl / 2) ^ 4 < (s.odl / 2) ^ 4 := by gcongr
  have a2 : (s.idr / 2) ^ 4 < (s.odr / 2) ^ 4 := by gcongr
  unfold tempI
  have := Real.pi_pos
  apply mul_pos (by positivity)
  linarith

theorem tempS_pos : 0 < tempS s := by
  have h1 : s.idl < s.odl := hp.idl_lt
  have h2 : s.idr < s.odr := hp.idr_lt
  have h3 : 0 ≤ s.idl := hp.idl_nonneg
  have h4 : 0 ≤ s.idr := hp.idr_nonneg
  have a1 : (s.idl / 2) ^ 2 < (s.odl / 2) ^ 2 := by gcongr
  have a2 : (s.idr / 2) ^ 2 < (s.odr / 2) ^ 2 := by gcongr
  unfold tempS
  apply mul_pos Real.pi_pos
  linarith

theorem shear_pos : 0 < Crack.shear s := by
  have h1 := tempI_pos hp
  have h2 := tempS_pos hp
  have h3 : 0 < s.material.E := hp.E_pos
  have h4 : 0 < s.material.G_s := hp.G_pos
  have h5 : 0 < s.L := hp.L_pos
  have h6 : -(1 / 2) < s.material.Poisson := hp.nu_gt
  have h7 : 0 < Crack.kappa s := by
    unfold Crack.kappa
    apply div_pos
    · have : 0 < 1 + s.material.Poisson := by linarith
      positivity
    · nlinarith [sq_nonneg (s.material.Poisson + 1 / 2)]
  unfold Crack.shear
  positivity

/-- The compliances. -/
theorem co_eq : ∃ a b d, Co s = CrackLemmas.compl a b d 0 0 0 ∧ 0 < a ∧ 0 < b ∧ 0 < d ∧
    a = s.L ^ 3 * (1 + Crack.shear s / 4) / (3 * (s.material.E * tempI s)) ∧
    b = s.L ^ 2 / (2 * (s.material.E * tempI s)) ∧ d = s.L / (s.material.E * tempI s) ∧
    a * d - b ^ 2 = s.L ^ 4 * (1 + Crack.shear s) / (12 * (s.material.E * tempI s) ^ 2) ∧ 0 < a * d - b ^ 2 := by
  have h1 := tempI_pos hp
  have h2 := shear_pos hp
  have h3 : 0 < s.material.E := hp.E_pos
  have h5 : 0 < s.L := hp.L_pos
  refine ⟨_, _, _, ?_, ?_, ?_, ?_, rfl, rfl, rfl, ?_, ?_⟩
  · unfold Co CrackLemmas.compl; simp
  · positivity
  · positivity
  · positivity
  · field_simp; ring
  · rw [show s.L ^ 3 * (1 + Crack.shear s / 4) / (3 * (s.material.E * tempI s)) * (s.L / (s.material.E * tempI s)) -
      (s.L ^ 2 / (2 * (s.material.E * tempI s))) ^ 2 =
      s.L ^ 4 * (1 + Crack.shear s) / (12 * (s.material.E * tempI s) ^ 2) by field_simp; ring]
    positivity

/-- The stiffnesses of the element without a crack. -/
theorem kele_eq : ∃ k, k = s.material.E * tempI s / (s.L ^ 3 * (1 + Crack.shear s)) ∧ 0 < k ∧
    (Co s)⁻¹ = !![12 * k, 0, 0, 6 * s.L * k; 0, 12 * k, -(6 * s.L * k), 0;
      0, -(6 * s.L * k), (4 + Crack.shear s) * s.L ^ 2 * k, 0; 6 * s.L * k, 0, 0, (4 + Crack.shear s) * s.L ^ 2 * k] := by
  obtain ⟨a, b, d, h1, h2, h3, h4, ha, hb, hd, h5, h6⟩ := co_eq hp
  have h7 := tempI_pos hp
  have h8 := shear_pos hp
  have h9 : 0 < s.material.E := hp.E_pos
  have h10 : 0 < s.L := hp.L_pos
  refine ⟨_, rfl, by positivity, ?_⟩
  rw [h1, whole_inv h6.ne', h5, ha, hb, hd]
  ext i j
  fin_cases i <;> fin_cases j <;> simp <;> field_simp <;> ring

/-- **C54** the stiffnesses across the crack, from the local compliances of the table: `ko` is that of the
whole element, clamped at one end and guided at the other, `k1` that with the other end free to turn, `f` the
rotation of that end by a unit couple while its displacement is held.  The open crack is softer than the
whole element exactly if `c45² ≤ (f + c55) c44`, in the other plane if `c45² ≤ (f + c44) c55`. -/
theorem C54_stiffness {tab : CrackTable} {k : Stiff} (h : c.stiff tab s = .ok k) (hc : c.depth_ratio ≠ 0) :
    ∃ c44 c55 c45 EI φ f k1 Δ, c.get_coefs s tab.c44 = .ok c44 ∧ c.get_coefs s tab.c55 = .ok c55 ∧
      c.get_coefs s tab.c45 = .ok c45 ∧ EI = s.material.E * tempI s ∧ φ = Crack.shear s ∧
      f = s.L * (1 + φ) / ((4 + φ) * EI) ∧ k1 = 12 * EI / (s.L ^ 3 * (4 + φ)) ∧
      Δ = (f + c55) * (f + c44) - c45 ^ 2 ∧
      k.ko = 12 * EI / (s.L ^ 3 * (1 + φ)) ∧ 0 < f ∧ 0 < k1 ∧ k1 < k.ko ∧
      (Δ ≠ 0 → k.kcx = k1 + (k.ko - k1) * (f * (f + c55)) / Δ ∧ k.kcz = k1 + (k.ko - k1) * (f * (f + c44)) / Δ) ∧
      (0 < Δ → (k.kcx ≤ k.ko ↔ c45 ^ 2 ≤ (f + c55) * c44) ∧ (k.kcz ≤ k.ko ↔ c45 ^ 2 ≤ (f + c44) * c55)) := by
  obtain ⟨a, b, d, h1, h2, h3, h4, ha, hb, hd, h5, h6⟩ := co_eq hp
  have hI := tempI_pos hp
  have hA := shear_pos hp
  have hE : 0 < s.material.E := hp.E_pos
  have hL : 0 < s.L := hp.L_pos
  unfold stiff Crack.Cc at h
  obtain ⟨C, hC, h⟩ := bind_ok.1 h
  obtain ⟨x, hx, hC⟩ := bind_ok.1 hC
  obtain ⟨y, hy, hC⟩ := bind_ok.1 hC
  obtain ⟨z, hz, hC⟩ := bind_ok.1 hC
  rw [if_neg hc] at hC
  cases hC
  cases h
  have hcc : Co s + !![0, 0, 0, 0; 0, 0, 0, 0; 0, 0, y, z; 0, 0, z, x] = CrackLemmas.compl a b d y x z := by
    rw [h1]; unfold CrackLemmas.compl
    ext i j
    fin_cases i <;> fin_cases j <;> simp
  rw [hcc]
  obtain ⟨kk, hk1, hk2, hk3⟩ := kele_eq hp
  have hko : (Co s)⁻¹ 0 0 = 12 * (s.material.E * tempI s) / (s.L ^ 3 * (1 + Crack.shear s)) := by
    rw [hk3, hk1]; simp; ring
  have hf : s.L * (1 + Crack.shear s) / ((4 + Crack.shear s) * (s.material.E * tempI s)) = (a * d - b ^ 2) / a := by
    rw [h5, ha]; field_simp; norm_num
  have hk : 12 * (s.material.E * tempI s) / (s.L ^ 3 * (4 + Crack.shear s)) = 1 / a := by
    rw [ha]; field_simp; norm_num
  have hfp : 0 < (a * d - b ^ 2) / a := div_pos h6 h2
  have hd' : (Co s)⁻¹ 0 0 = d / (a * d - b ^ 2) := by
    rw [h1, whole_inv h6.ne']; simp; ring
  have hdiff : d / (a * d - b ^ 2) - 1 / a = b ^ 2 / (a * (a * d - b ^ 2)) := by
    have := h6.ne'
    rw [div_sub_div _ _ this h2.ne', div_eq_div_iff (by positivity) (by positivity)]; ring
  have hdp : 0 < b ^ 2 / (a * (a * d - b ^ 2)) := by positivity
  have main : ((a * d - b ^ 2) / a + y) * ((a * d - b ^ 2) / a + x) - z ^ 2 ≠ 0 →
      (CrackLemmas.compl a b d y x z)⁻¹ 0 0 = 1 / a + (d / (a * d - b ^ 2) - 1 / a) *
        ((a * d - b ^ 2) / a * ((a * d - b ^ 2) / a + y)) /
        (((a * d - b ^ 2) / a + y) * ((a * d - b ^ 2) / a + x) - z ^ 2) ∧
      (CrackLemmas.compl a b d y x z)⁻¹ 1 1 = 1 / a + (d / (a * d - b ^ 2) - 1 / a) *
        ((a * d - b ^ 2) / a * ((a * d - b ^ 2) / a + x)) /
        (((a * d - b ^ 2) / a + y) * ((a * d - b ^ 2) / a + x) - z ^ 2) := by
    intro hΔ
    have e : (a * (d + y) - b ^ 2) * (a * (d + x) - b ^ 2) - a ^ 2 * z ^ 2 =
        a ^ 2 * (((a * d - b ^ 2) / a + y) * ((a * d - b ^ 2) / a + x) - z ^ 2) := by field_simp; ring
    obtain ⟨i1, i2⟩ := compl_inv (a := a) (b := b) (d := d) (p := y) (q := x) (r := z) h2.ne'
      (by rw [e]; exact mul_ne_zero (pow_ne_zero 2 h2.ne') hΔ)
    rw [i1, i2, e, hdiff]
    generalize ((a * d - b ^ 2) / a + y) * ((a * d - b ^ 2) / a + x) - z ^ 2 = Δ at hΔ
    constructor <;> field_simp <;> ring
  refine ⟨x, y, z, _, _, _, _, _, hx, hy, hz, rfl, rfl, rfl, rfl, rfl, hko, ?_, ?_, ?_, ?_, ?_⟩
  · rw [hf]; exact hfp
  · rw [hk]; positivity
  · dsimp only
    rw [hk, hd']
    linarith
  · dsimp only
    rw [hf, hk, hd']
    exact main
  · dsimp only
    rw [hf, hd']
    intro hΔ
    obtain ⟨m1, m2⟩ := main hΔ.ne'
    rw [m1, m2, hdiff]
    have e1 : d / (a * d - b ^ 2) = 1 / a + b ^ 2 / (a * (a * d - b ^ 2)) := by linarith
    rw [e1]
    generalize (a * d - b ^ 2) / a = f at *
    generalize b ^ 2 / (a * (a * d - b ^ 2)) = g at *
    constructor
    · rw [add_le_add_iff_left, div_le_iff₀ hΔ, mul_le_mul_iff_right₀ hdp]
      constructor <;> intro h <;> nlinarith
    · rw [add_le_add_iff_left, div_le_iff₀ hΔ, mul_le_mul_iff_right₀ hdp]
      constructor <;> intro h <;> nlinarith

/-- **C54** an open crack is softer than the whole element, and its stiffnesses are positive, if the matrix
of local compliances is positive semidefinite. -/
theorem C54_softer_partial {tab : CrackTable} {k : Stiff} (h : c.stiff tab s = .ok k) (hc : c.depth_ratio ≠ 0)
    {c44 c55 c45 : ℝ} (h44 : c.get_coefs s tab.c44 = .ok c44) (h55 : c.get_coefs s tab.c55 = .ok c55)
    (h45 : c.get_coefs s tab.c45 = .ok c45) (p44 : 0 ≤ c44) (p55 : 0 ≤ c55) (hd : c45 ^ 2 ≤ c44 * c55) :
    (0 < k.kcx ∧ k.kcx ≤ k.ko) ∧ 0 < k.kcz ∧ k.kcz ≤ k.ko := by
  obtain ⟨x, y, z, EI, φ, f, k1, Δ, hx, hy, hz, -, -, -, -, hΔ, -, hf, hk1, hk2, h1, h2⟩ :=
    C54_stiffness c hp h hc
  rw [h44] at hx; rw [h55] at hy; rw [h45] at hz
  cases hx; cases hy; cases hz
  have hpos : 0 < Δ := by
    rw [hΔ]
    nlinarith [mul_pos hf hf, mul_nonneg hf.le p44, mul_nonneg hf.le p55]
  obtain ⟨e1, e2⟩ := h1 hpos.ne'
  obtain ⟨i1, i2⟩ := h2 hpos
  refine ⟨⟨?_, i1.2 (by nlinarith [mul_nonneg hf.le p44])⟩, ?_, i2.2 (by nlinarith [mul_nonneg hf.le p55])⟩
  · rw [e1]
    have : 0 ≤ (k.ko - k1) * (f * (f + c55)) / Δ :=
      div_nonneg (mul_nonneg (by linarith) (mul_nonneg hf.le (by linarith))) hpos.le
    linarith
  · rw [e2]
    have : 0 ≤ (k.ko - k1) * (f * (f + c44)) / Δ :=
      div_nonneg (mul_nonneg (by linarith) (mul_nonneg hf.le (by linarith))) hpos.le
    linarith

/-- **C54** without a crack the three stiffnesses are those of the whole element. -/
theorem C54_whole {tab : CrackTable} {k : Stiff} (h : c.stiff tab s = .ok k) (hc : c.depth_ratio = 0) :
    k.ko = 12 * (s.material.E * tempI s) / (s.L ^ 3 * (1 + Crack.shear s)) ∧ k.kcx = k.ko ∧ k.kcz = k.ko := by
  obtain ⟨kk, hk1, hk2, hk3⟩ := kele_eq hp
  unfold stiff Crack.Cc at h
  obtain ⟨C, hC, h⟩ := bind_ok.1 h
  obtain ⟨x, hx, hC⟩ := bind_ok.1 hC
  obtain ⟨y, hy, hC⟩ := bind_ok.1 hC
  obtain ⟨z, hz, hC⟩ := bind_ok.1 hC
  rw [if_pos hc] at hC
  cases hC
  cases h
  rw [hk3, hk1]
  refine ⟨?_, rfl, ?_⟩ <;> simp
  ring

theorem stiff_kele {tab : CrackTable} {k : Stiff} (h : c.stiff tab s = .ok k) : k.Kele = (Co s)⁻¹ ∧ k.ko = (Co s)⁻¹ 0 0 := by
  unfold stiff at h
  obtain ⟨C, hC, h⟩ := bind_ok.1 h
  cases h
  exact ⟨rfl, rfl⟩

end Physical

/-! ### Breathing -/

/-- The stiffnesses that the crack model gives at an angular position, from those along and across the
crack. -/
theorem breathe_eq (b : Breathing) (k : Stiff) (ap : ℝ) : ∃ w : ℝ,
    (w = match b with | .mayes => Real.cos ap | .gasch => 4 / Real.pi * cosine_sum ap) ∧
    ∃ e n, e = (k.ko + k.kcx) / 2 + (k.ko - k.kcx) / 2 * w ∧ n = (k.ko + k.kcz) / 2 + (k.ko - k.kcz) / 2 * w ∧
    breathe b k ap 0 0 = Real.cos ap ^ 2 * e + Real.sin ap ^ 2 * n ∧
    breathe b k ap 1 1 = Real.sin ap ^ 2 * e + Real.cos ap ^ 2 * n := by
  refine ⟨_, rfl, _, _, rfl, rfl, ?_⟩
  cases b with
  | mayes =>
    simp only [breathe, mayes, T_matrix, Matrix.mul_apply, Fin.sum_univ_two, Matrix.transpose_apply]
    simp
    constructor <;> ring
  | gasch =>
    simp only [breathe, gasch, T_matrix, Matrix.mul_apply, Fin.sum_univ_two, Matrix.transpose_apply]
    simp
    constructor <;> ring

theorem cosine_sum_pi (ap : ℝ) : cosine_sum (ap + Real.pi) = -cosine_sum ap := by
  unfold cosine_sum
  rw [← Finset.sum_neg_distrib]
  refine Finset.sum_congr rfl fun i _ => ?_
  rw [show (2 * (i : ℝ) + 1) * (ap + Real.pi) = (2 * i + 1) * ap + Real.pi + i * (2 * Real.pi) by ring,
    Real.cos_add_nat_mul_two_pi, Real.cos_add_pi]
  ring

/-- **C54** half a turn opens as much as it closes, in both models: the mean of the stiffnesses at opposite
angular positions is the mean of the closed and of the open crack. -/
theorem C54_opposite (b : Breathing) (k : Stiff) (ap : ℝ) :
    breathe b k ap 0 0 + breathe b k (ap + Real.pi) 0 0 =
      Real.cos ap ^ 2 * (k.ko + k.kcx) + Real.sin ap ^ 2 * (k.ko + k.kcz) ∧
    breathe b k ap 1 1 + breathe b k (ap + Real.pi) 1 1 =
      Real.sin ap ^ 2 * (k.ko + k.kcx) + Real.cos ap ^ 2 * (k.ko + k.kcz) := by
  obtain ⟨w, hw, e, n, rfl, rfl, h1, h2⟩ := breathe_eq b k ap
  obtain ⟨w', hw', e', n', rfl, rfl, h1', h2'⟩ := breathe_eq b k (ap + Real.pi)
  have : w' = -w := by
    rw [hw, hw']
    cases b
    · exact Real.cos_add_pi ap
    · simp only [cosine_sum_pi]; ring
  rw [h1, h2, h1', h2', this, Real.cos_add_pi, Real.sin_add_pi]
  constructor <;> ring

/-- **C54** Mayes: the crack is closed at the angle zero and open after half a turn. -/
theorem C54_mayes (k : Stiff) :
    breathe .mayes k 0 = !![k.ko, 0; 0, k.ko] ∧ breathe .mayes k Real.pi = !![k.kcx, 0; 0, k.kcz] := by
  constructor
  · ext i j
    fin_cases i <;> fin_cases j <;> simp [breathe, mayes, T_matrix, Matrix.mul_apply, Fin.sum_univ_two] <;> ring
  · ext i j
    fin_cases i <;> fin_cases j <;> simp [breathe, mayes, T_matrix, Matrix.mul_apply, Fin.sum_univ_two] <;> ring

/-- **C54** Mayes: at every angle the stiffnesses are between those of the open and of the closed crack. -/
theorem C54_mayes_between (k : Stiff) (ap lo hi : ℝ) (h : ∀ x ∈ [k.ko, k.kcx, k.kcz], lo ≤ x ∧ x ≤ hi) :
    (lo ≤ breathe .mayes k ap 0 0 ∧ breathe .mayes k ap 0 0 ≤ hi) ∧
    lo ≤ breathe .mayes k ap 1 1 ∧ breathe .mayes k ap 1 1 ≤ hi := by
  obtain ⟨w, hw, e, n, he, hn, h1, h2⟩ := breathe_eq .mayes k ap
  dsimp only at hw
  subst hw
  obtain ⟨o1, o2⟩ := h k.ko (by simp)
  obtain ⟨x1, x2⟩ := h k.kcx (by simp)
  obtain ⟨z1, z2⟩ := h k.kcz (by simp)
  have c1 := Real.neg_one_le_cos ap
  have c2 := Real.cos_le_one ap
  have hs := Real.sin_sq_add_cos_sq ap
  have be : lo ≤ e ∧ e ≤ hi := by
    rw [he]; constructor <;> nlinarith
  have bn : lo ≤ n ∧ n ≤ hi := by
    rw [hn]; constructor <;> nlinarith
  have q1 := sq_nonneg (Real.sin ap)
  have q2 := sq_nonneg (Real.cos ap)
  rw [h1, h2]
  have b1 := sub_nonneg.2 be.1
  have b2 := sub_nonneg.2 be.2
  have b3 := sub_nonneg.2 bn.1
  have b4 := sub_nonneg.2 bn.2
  refine ⟨⟨?_, ?_⟩, ?_, ?_⟩
  · linear_combination mul_nonneg q2 b1 + mul_nonneg q1 b3 - lo * hs
  · linear_combination mul_nonneg q2 b2 + mul_nonneg q1 b4 + hi * hs
  · linear_combination mul_nonneg q1 b1 + mul_nonneg q2 b3 - lo * hs
  · linear_combination mul_nonneg q1 b2 + mul_nonneg q2 b4 + hi * hs

/-- **C54** Gasch: the truncated series closes the crack at the angle zero, and opens it after half a turn,
up to one hundredth of the difference; at a quarter turn it is half open. -/
theorem C54_gasch (k : Stiff) :
    |breathe .gasch k 0 0 0 - k.ko| ≤ 0.01 * |k.ko - k.kcx| ∧ |breathe .gasch k 0 1 1 - k.ko| ≤ 0.01 * |k.ko - k.kcz| ∧
    |breathe .gasch k Real.pi 0 0 - k.kcx| ≤ 0.01 * |k.ko - k.kcx| ∧
    |breathe .gasch k Real.pi 1 1 - k.kcz| ≤ 0.01 * |k.ko - k.kcz| ∧
    breathe .gasch k (Real.pi / 2) 0 0 = (k.ko + k.kcz) / 2 ∧ breathe .gasch k (Real.pi / 2) 1 1 = (k.ko + k.kcx) / 2 := by
  have h0 : |4 / Real.pi * cosine_sum 0 - 1| ≤ 0.02 := by
    have h1 := Real.pi_gt_d4
    have h2 := Real.pi_lt_d4
    have hS : 0.7714 < cosine_sum 0 ∧ cosine_sum 0 < 0.7716 := by
      unfold cosine_sum
      simp only [mul_zero, Real.cos_zero, Finset.sum_range_succ, Finset.sum_range_zero]
      norm_num
    have hp := Real.pi_pos
    rw [abs_le]
    constructor
    · rw [le_sub_iff_add_le, div_mul_eq_mul_div, le_div_iff₀ hp]; linarith
    · rw [sub_le_iff_le_add, div_mul_eq_mul_div, div_le_iff₀ hp]; linarith
  have hp1 : cosine_sum Real.pi = -cosine_sum 0 := by
    have := cosine_sum_pi 0; rwa [zero_add] at this
  have hq : cosine_sum (Real.pi / 2) = 0 := by
    have h1 := cosine_sum_pi (-(Real.pi / 2))
    rw [show -(Real.pi / 2) + Real.pi = Real.pi / 2 by ring] at h1
    have h2 : cosine_sum (-(Real.pi / 2)) = cosine_sum (Real.pi / 2) := by
      unfold cosine_sum
      refine Finset.sum_congr rfl fun i _ => ?_
      rw [mul_neg, Real.cos_neg]
    linarith
  have key : ∀ x : ℝ, |(x / 2) * (4 / Real.pi * cosine_sum 0 - 1)| ≤ 0.01 * |x| := by
    intro x
    rw [abs_mul, abs_div, abs_two]
    have := mul_le_mul_of_nonneg_left h0 (abs_nonneg x)
    linarith
  obtain ⟨w, hw, e, n, he, hn, h1, h2⟩ := breathe_eq .gasch k 0
  obtain ⟨w', hw', e', n', he', hn', h1', h2'⟩ := breathe_eq .gasch k Real.pi
  obtain ⟨w'', hw'', e'', n'', he'', hn'', h1'', h2''⟩ := breathe_eq .gasch k (Real.pi / 2)
  dsimp only at hw hw' hw''
  rw [hp1] at hw'
  rw [hq] at hw''
  simp only [Real.cos_zero, Real.sin_zero, Real.cos_pi, Real.sin_pi, Real.cos_pi_div_two, Real.sin_pi_div_two] at h1 h2 h1' h2' h1'' h2''
  rw [h1, h2, h1', h2', h1'', h2'', he, hn, he', hn', he'', hn'', hw, hw', hw'']
  refine ⟨?_, ?_, ?_, ?_, by ring, by ring⟩
  · convert key (k.ko - k.kcx) using 2; ring
  · convert key (k.ko - k.kcz) using 2; ring
  · rw [← abs_neg]; convert key (k.ko - k.kcx) using 2; ring
  · rw [← abs_neg]; convert key (k.ko - k.kcz) using 2; ring

/-! ### The force -/

/-- The forces that the cracked element exerts on its ends: `Qx`, `Mx` and `Qy`, `My` are the force and
couple across the crack in the two planes. -/
theorem cracked_mulVec (b : Breathing) (s : ShaftElement) (k : Stiff) (ap : ℝ) (v : Fin 12 → ℝ) :
    ∃ p q p' q' Qx Mx Qy My,
      p = v 6 - v 0 + s.L * v 4 ∧ q = v 10 - v 4 ∧ p' = v 7 - v 1 - s.L * v 3 ∧ q' = v 9 - v 3 ∧
      Qx = breathe b k ap 0 0 * p + k.Kele 0 3 * q ∧ Mx = k.Kele 3 0 * p + k.Kele 3 3 * q ∧
      Qy = breathe b k ap 1 1 * p' + k.Kele 1 2 * q' ∧ My = k.Kele 2 1 * p' + k.Kele 2 2 * q' ∧
      cracked b s k ap *ᵥ v =
        ![-Qx, -Qy, 0, -(s.L * Qy) - My, s.L * Qx - Mx, 0, Qx, Qy, 0, My, Mx, 0] := by
  refine ⟨_, _, _, _, _, _, _, _, rfl, rfl, rfl, rfl, rfl, rfl, rfl, rfl, ?_⟩
  have hX : Koxy s.L k (breathe b k ap) = Matrix.of fun i j => ![-1, s.L, 1, 0] i * (breathe b k ap 0 0 * ![-1, s.L, 1, 0] j + k.Kele 0 3 * ![0, -1, 0, 1] j) + ![0, -1, 0, 1] i * (k.Kele 3 0 * ![-1, s.L, 1, 0] j + k.Kele 3 3 * ![0, -1, 0, 1] j) := by
    ext i j
    fin_cases i <;> fin_cases j <;> simp only [Koxy, Matrix.mul_apply, Fin.sum_univ_two, Matrix.transpose_apply] <;> simp <;> ring
  have hY : Koyz s.L k (breathe b k ap) = Matrix.of fun i j => ![-1, -s.L, 1, 0] i * (breathe b k ap 1 1 * ![-1, -s.L, 1, 0] j + k.Kele 1 2 * ![0, -1, 0, 1] j) + ![0, -1, 0, 1] i * (k.Kele 2 1 * ![-1, -s.L, 1, 0] j + k.Kele 2 2 * ![0, -1, 0, 1] j) := by
    ext i j
    fin_cases i <;> fin_cases j <;> simp only [Koyz, Matrix.mul_apply, Fin.sum_univ_two, Matrix.transpose_apply] <;> simp <;> ring
  unfold cracked
  rw [hX, hY]
  funext i
  fin_cases i <;> simp [KK_crack, mulVec, dotProduct, Fin.sum_univ_succ] <;> ring

variable {N : ℕ} (b : Breathing) (s : ShaftElement) (k : Stiff) (y : Fin N → ℝ) (ap : ℝ)

/-- **C54** the force of the crack acts on the two nodes of the element only: it is the difference between
what the element without a crack and the cracked element exert. -/
theorem C54_node (v : Fin 12 → ℝ) (hN : 6 * c.n_crack + 11 < N)
    (hv : ∀ j : Fin 12, y ⟨6 * c.n_crack + j, by omega⟩ = v j) :
    (∀ j : Fin 12, c.force b s k y ap ⟨6 * c.n_crack + j, by omega⟩ = (s.K₆ *ᵥ v) j - (cracked b s k ap *ᵥ v) j) ∧
    ∀ i : Fin N, i.val < 6 * c.n_crack ∨ 6 * c.n_crack + 12 ≤ i.val → c.force b s k y ap i = 0 := by
  have hl : (fun j : Fin 12 => Fault.comp y (c.n_crack * 6 + j)) = v := by
    funext j
    have h : c.n_crack * 6 + j.val < N := by omega
    unfold Fault.comp
    rw [dif_pos h, ← hv]
    congr 1
    exact Fin.ext (by simp; ring)
  unfold Crack.force
  rw [hl]
  dsimp only
  constructor
  · intro j
    have h : c.n_crack * 6 ≤ 6 * c.n_crack + j.val ∧ 6 * c.n_crack + j.val < c.n_crack * 6 + 12 := by omega
    rw [dif_pos h, Matrix.sub_mulVec, Pi.sub_apply]
    have : (⟨6 * c.n_crack + j.val - c.n_crack * 6, by omega⟩ : Fin 12) = j := Fin.ext (by simp; omega)
    rw [this]
  · intro i hi
    rw [dif_neg (by omega)]

theorem sum_split (g : Fin 12 → ℝ) : ∑ j, g j = ∑ i, g (bend i) + ∑ j, g (axtor j) := by
  simp [Fin.sum_univ_succ, bend, axtor]
  ring

theorem K6_bend (v : Fin 12 → ℝ) (i : Fin 8) : (s.K₆ *ᵥ v) (bend i) = (s.K *ᵥ (v ∘ bend)) i := by
  rw [← C10_stiffness]
  have h : ∀ j, s.K₆ (bend i) (axtor j) = 0 := fun j => (C11_uncoupled s i j).2.2.1
  simp only [mulVec, dotProduct, sum_split, h, zero_mul, Finset.sum_const_zero, add_zero, Matrix.submatrix_apply,
    Function.comp]

theorem K6_axtor (v : Fin 12 → ℝ) (i : Fin 4) :
    (s.K₆ *ᵥ v) (axtor i) = (s.K₆.submatrix axtor axtor *ᵥ (v ∘ axtor)) i := by
  have h : ∀ j, s.K₆ (axtor i) (bend j) = 0 := fun j => (C11_uncoupled s j i).2.2.2.1
  simp only [mulVec, dotProduct, sum_split, h, zero_mul, Finset.sum_const_zero, zero_add, Matrix.submatrix_apply,
    Function.comp]

/-- **C54** the forces on the two nodes are opposite, in all three directions. -/
theorem C54_balance (hN : 6 * c.n_crack + 11 < N) (j : Fin 12) (hj : j.val < 3) :
    c.force b s k y ap ⟨6 * c.n_crack + j, by omega⟩ + c.force b s k y ap ⟨6 * (c.n_crack + 1) + j, by omega⟩ = 0 := by
  obtain ⟨h1, -⟩ := C54_node c b s k y ap (fun j => y ⟨6 * c.n_crack + j, by omega⟩) hN fun _ => rfl
  set v : Fin 12 → ℝ := fun j => y ⟨6 * c.n_crack + j, by omega⟩
  have e : ∀ (j' : Fin 12), j'.val = j.val + 6 → (⟨6 * (c.n_crack + 1) + j, by omega⟩ : Fin N) = ⟨6 * c.n_crack + j', by omega⟩ :=
    fun j' h => Fin.ext (by simp; omega)
  obtain ⟨p, q, p', q', Qx, Mx, Qy, My, -, -, -, -, -, -, -, -, hc⟩ := cracked_mulVec b s k ap v
  rw [e ⟨j + 6, by omega⟩ rfl, h1, h1, hc]
  have hr : ∀ w : Fin 8 → ℝ, (s.K *ᵥ w) 0 + (s.K *ᵥ w) 4 = 0 ∧ (s.K *ᵥ w) 1 + (s.K *ᵥ w) 5 = 0 := by
    intro w
    have h : ∀ j, s.K 0 j + s.K 4 j = 0 ∧ s.K 1 j + s.K 5 j = 0 := by
      intro j
      unfold ShaftElement.K
      fin_cases j <;>
        simp [ShaftElement.K1, ShaftElement.K2, ShaftElement.Kaxial, ShaftElement.Ktorque] <;> ring_nf <;> simp
    simp only [mulVec, dotProduct, ← Finset.sum_add_distrib, ← add_mul, (h _).1, (h _).2, zero_mul,
      Finset.sum_const_zero, and_self]
  obtain ⟨r0, r1⟩ := hr (v ∘ bend)
  have hax := (axtor_blocks s).2
  have c0 := K6_bend s v 0; have c1 := K6_bend s v 1; have c4 := K6_bend s v 4; have c5 := K6_bend s v 5
  have a0 := K6_axtor s v 0; have a2 := K6_axtor s v 2
  rw [hax] at a0 a2
  have hj' : j = 0 ∨ j = 1 ∨ j = 2 := by
    rcases j with ⟨j, hj2⟩
    simp only [Fin.ext_iff] at *
    change j = 0 ∨ j = 1 ∨ j = 2
    change j < 3 at hj
    omega
  rcases hj' with rfl | rfl | rfl
  · change (s.K₆ *ᵥ v) 0 - -Qx + ((s.K₆ *ᵥ v) 6 - Qx) = 0
    change (s.K₆ *ᵥ v) 0 = _ at c0
    change (s.K₆ *ᵥ v) 6 = _ at c4
    rw [c0, c4]; linarith
  · change (s.K₆ *ᵥ v) 1 - -Qy + ((s.K₆ *ᵥ v) 7 - Qy) = 0
    change (s.K₆ *ᵥ v) 1 = _ at c1
    change (s.K₆ *ᵥ v) 7 = _ at c5
    rw [c1, c5]; linarith
  · change (s.K₆ *ᵥ v) 2 - 0 + ((s.K₆ *ᵥ v) 8 - 0) = 0
    change (s.K₆ *ᵥ v) 2 = _ at a0
    change (s.K₆ *ᵥ v) 8 = _ at a2
    rw [a0, a2]
    simp [mulVec, dotProduct, Fin.sum_univ_four]
    ring

/-- **C54** fails: the force of the crack is not in equilibrium. The moments about the left node are out of
balance by twice the moment of the force across the crack, in both planes. -/
theorem C54_moment_false (hs : s.Built) (hp : s.beam.Physical) (ha : s.axial_force = 0) (ht : s.torque = 0)
    (hN : 6 * c.n_crack + 11 < N) : ∃ F : Fin 12 → ℝ,
    (∀ j : Fin 12, F j = c.force b s k y ap ⟨6 * c.n_crack + j, by omega⟩) ∧
    ∃ (v : Fin 12 → ℝ) (p q p' q' : ℝ), (∀ j : Fin 12, v j = y ⟨6 * c.n_crack + j, by omega⟩) ∧
    p = v 6 - v 0 + s.L * v 4 ∧ q = v 10 - v 4 ∧ p' = v 7 - v 1 - s.L * v 3 ∧ q' = v 9 - v 3 ∧
    s.L * F 6 + F 4 + F 10 = -2 * s.L * (breathe b k ap 0 0 * p + k.Kele 0 3 * q) ∧
    -(s.L * F 7) + F 3 + F 9 = 2 * s.L * (breathe b k ap 1 1 * p' + k.Kele 1 2 * q') := by
  obtain ⟨h1, -⟩ := C54_node c b s k y ap (fun j => y ⟨6 * c.n_crack + j, by omega⟩) hN fun _ => rfl
  refine ⟨_, fun _ => rfl, fun j => y ⟨6 * c.n_crack + j, by omega⟩, ?_⟩
  set v : Fin 12 → ℝ := fun j => y ⟨6 * c.n_crack + j, by omega⟩
  obtain ⟨p, q, p', q', Qx, Mx, Qy, My, hp1, hq1, hp2, hq2, e1, e2, e3, e4, hc⟩ := cracked_mulVec b s k ap v
  refine ⟨p, q, p', q', fun _ => rfl, hp1, hq1, hp2, hq2, ?_⟩
  have hφ := (one_add_phi_pos (built_facts hs) hp).ne'
  have hsym := (C07_stiffness_symm_iff s hs).2 ht
  have hrig : ∀ α β, ![0, 0, α, β, s.L * β, -(s.L * α), α, β] ⬝ᵥ (s.K *ᵥ (v ∘ bend)) = 0 := by
    intro α β
    rw [dotProduct_mulVec, ← mulVec_transpose, hsym, C08_rigid_rotation s hs hφ, ha, ht]
    simp
  have r1 := hrig 1 0
  have r2 := hrig 0 1
  simp only [dotProduct, Fin.sum_univ_eight] at r1 r2
  have k3 : (s.K₆ *ᵥ v) 3 = _ := K6_bend s v 2
  have k4 : (s.K₆ *ᵥ v) 4 = _ := K6_bend s v 3
  have k6 : (s.K₆ *ᵥ v) 6 = _ := K6_bend s v 4
  have k7 : (s.K₆ *ᵥ v) 7 = _ := K6_bend s v 5
  have k9 : (s.K₆ *ᵥ v) 9 = _ := K6_bend s v 6
  have k10 : (s.K₆ *ᵥ v) 10 = _ := K6_bend s v 7
  simp at r1 r2
  rw [h1, h1, h1, h1, h1, h1, hc, ← e1, ← e3, k3, k4, k6, k7, k9, k10]
  constructor
  · change s.L * (_ - Qx) + (_ - (s.L * Qx - Mx)) + (_ - Mx) = _
    linarith
  · change -(s.L * (_ - Qy)) + (_ - (-(s.L * Qy) - My)) + (_ - My) = _
    linarith

/-- **C54** fails: a crack of depth zero exerts a force. It resists a rotation of the shaft as a rigid body,
which deforms nothing, with twice the shear force of the rotation. -/
theorem C54_rigid_false (hs : s.Built) (hp : s.beam.Physical) (ha : s.axial_force = 0) (ht : s.torque = 0)
    (hN : 6 * c.n_crack + 11 < N) {tab : CrackTable} (hk : c.stiff tab s = .ok k) (hc : c.depth_ratio = 0)
    (α β : ℝ) (hy : ∀ j : Fin 12, y ⟨6 * c.n_crack + j, by omega⟩ =
      ![0, 0, 0, α, β, 0, s.L * β, -(s.L * α), 0, α, β, 0] j) :
    s.K₆ *ᵥ ![0, 0, 0, α, β, 0, s.L * β, -(s.L * α), 0, α, β, 0] = 0 ∧ 0 < k.ko ∧
    c.force b s k y ap ⟨6 * (c.n_crack + 1), by omega⟩ = -(2 * s.L * k.ko * β) ∧
    c.force b s k y ap ⟨6 * (c.n_crack + 1) + 1, by omega⟩ = 2 * s.L * k.ko * α := by
  obtain ⟨w1, w2, w3⟩ := C54_whole c hp hk hc
  obtain ⟨h1, -⟩ := C54_node c b s k y ap _ hN hy
  have hφ := (one_add_phi_pos (built_facts hs) hp).ne'
  have hb : ![0, 0, 0, α, β, 0, s.L * β, -(s.L * α), 0, α, β, 0] ∘ bend =
      ![0, 0, α, β, s.L * β, -(s.L * α), α, β] := by
    funext i; fin_cases i <;> rfl
  have hat : ![0, 0, 0, α, β, 0, s.L * β, -(s.L * α), 0, α, β, 0] ∘ axtor = 0 := by
    funext i; fin_cases i <;> rfl
  have hz : s.K₆ *ᵥ ![0, 0, 0, α, β, 0, s.L * β, -(s.L * α), 0, α, β, 0] = 0 := by
    have z1 : ∀ i, (s.K₆ *ᵥ ![0, 0, 0, α, β, 0, s.L * β, -(s.L * α), 0, α, β, 0]) (bend i) = 0 := by
      intro i
      rw [K6_bend, hb, C08_rigid_rotation s hs hφ, ha, ht]
      simp
    have z2 : ∀ i, (s.K₆ *ᵥ ![0, 0, 0, α, β, 0, s.L * β, -(s.L * α), 0, α, β, 0]) (axtor i) = 0 := by
      intro i
      rw [K6_axtor, hat, mulVec_zero]; rfl
    funext i
    have hcase : (∃ a, i = bend a) ∨ ∃ b, i = axtor b := by
      fin_cases i
      · exact Or.inl ⟨0, rfl⟩
      · exact Or.inl ⟨1, rfl⟩
      · exact Or.inr ⟨0, rfl⟩
      · exact Or.inl ⟨2, rfl⟩
      · exact Or.inl ⟨3, rfl⟩
      · exact Or.inr ⟨1, rfl⟩
      · exact Or.inl ⟨4, rfl⟩
      · exact Or.inl ⟨5, rfl⟩
      · exact Or.inr ⟨2, rfl⟩
      · exact Or.inl ⟨6, rfl⟩
      · exact Or.inl ⟨7, rfl⟩
      · exact Or.inr ⟨3, rfl⟩
    rcases hcase with ⟨a, rfl⟩ | ⟨a, rfl⟩
    · exact z1 a
    · exact z2 a
  have hI := tempI_pos hp
  have hA := shear_pos hp
  have hE : 0 < s.material.E := hp.E_pos
  have hL : 0 < s.L := hp.L_pos
  obtain ⟨p, q, p', q', Qx, Mx, Qy, My, hp1, hq1, hp2, hq2, e1, e2, e3, e4, hcr⟩ := cracked_mulVec b s k ap
    ![0, 0, 0, α, β, 0, s.L * β, -(s.L * α), 0, α, β, 0]
  obtain ⟨w, -, e, n, he, hn, b1, b2⟩ := breathe_eq b k ap
  have he' : e = k.ko := by rw [he, w2]; ring
  have hn' : n = k.ko := by rw [hn, w3]; ring
  have hsc := Real.sin_sq_add_cos_sq ap
  have b1' : breathe b k ap 0 0 = k.ko := by rw [b1, he', hn']; linear_combination k.ko * hsc
  have b2' : breathe b k ap 1 1 = k.ko := by rw [b2, he', hn']; linear_combination k.ko * hsc
  refine ⟨hz, by rw [w1]; positivity, ?_, ?_⟩
  · have := h1 6
    rw [hz, hcr] at this
    have e6 : (⟨6 * (c.n_crack + 1), by omega⟩ : Fin N) = ⟨6 * c.n_crack + (6 : Fin 12), by simp; omega⟩ := Fin.ext (by simp; ring)
    rw [e6, this]
    change 0 - Qx = _
    rw [e1, b1', hp1, hq1]
    simp
    ring
  · have := h1 7
    rw [hz, hcr] at this
    have e6 : (⟨6 * (c.n_crack + 1) + 1, by omega⟩ : Fin N) = ⟨6 * c.n_crack + (7 : Fin 12), by simp; omega⟩ := Fin.ext (by simp; ring)
    rw [e6, this]
    change 0 - Qy = _
    rw [e3, b2', hp2, hq2]
    simp
    ring

/-- **C54** fails: whatever the depth, the force of the crack is the axial force and the torque of the element,
so that the cracked element keeps no axial and no torsional stiffness. -/
theorem C54_axial_false (hN : 6 * c.n_crack + 11 < N) :
    c.force b s k y ap ⟨6 * c.n_crack + 8, by omega⟩ = s.material.E * s.Ae₆ / s.L *
      (y ⟨6 * c.n_crack + 8, by omega⟩ - y ⟨6 * c.n_crack + 2, by omega⟩) ∧
    c.force b s k y ap ⟨6 * c.n_crack + 11, by omega⟩ = s.material.G_s * s.Je₆ / s.L *
      (y ⟨6 * c.n_crack + 11, by omega⟩ - y ⟨6 * c.n_crack + 5, by omega⟩) := by
  obtain ⟨h1, -⟩ := C54_node c b s k y ap (fun j => y ⟨6 * c.n_crack + j, by omega⟩) hN fun _ => rfl
  set v : Fin 12 → ℝ := fun j => y ⟨6 * c.n_crack + j, by omega⟩ with hv
  obtain ⟨p, q, p', q', Qx, Mx, Qy, My, hp1, hq1, hp2, hq2, e1, e2, e3, e4, hc⟩ := cracked_mulVec b s k ap v
  have hax := (axtor_blocks s).2
  have k2 : (s.K₆ *ᵥ v) 8 = _ := K6_axtor s v 2
  have k3 : (s.K₆ *ᵥ v) 11 = _ := K6_axtor s v 3
  rw [hax] at k2 k3
  constructor
  · have := h1 8
    rw [hc, k2] at this
    refine this.trans ?_
    simp [mulVec, dotProduct, Fin.sum_univ_four, axtor, hv]
    ring
  · have := h1 11
    rw [hc, k3] at this
    refine this.trans ?_
    simp [mulVec, dotProduct, Fin.sum_univ_four, axtor, hv]
    ring

/-! ### The shipped table -/

theorem papadopoulos_deep (col : List (ℝ × ℝ)) (h : col ∈ [papadopoulos.c44, papadopoulos.c55, papadopoulos.c45]) :
    ∃ row ∈ col, 1 ≤ row.2 := by
  have key : ∀ l : List (ℚ × ℚ), (∃ r ∈ l, 1 ≤ r.2) → ∃ row ∈ l.map fun x => ((x.1 : ℝ), (x.2 : ℝ)), 1 ≤ row.2 := by
    rintro l ⟨r, hr, h1⟩
    exact ⟨_, List.mem_map_of_mem hr, show (1 : ℝ) ≤ (r.2 : ℝ) by exact_mod_cast h1⟩
  simp only [List.mem_cons, List.not_mem_nil, or_false] at h
  rcases h with rfl | rfl | rfl
  · exact key _ (by decide +kernel)
  · exact key _ (by decide +kernel)
  · exact key _ (by decide +kernel)

/-- The rows of the table: `c44`, `c55`, `c45` and the depth. -/
def tableRows : List (ℚ × ℚ × ℚ × ℚ) :=
  (papadopoulos_c44.zip (papadopoulos_c55.zip papadopoulos_c45)).map fun x => (x.1.1, x.2.1.1, x.2.2.1, x.1.2)

theorem tableRows_cols : papadopoulos_c44 = tableRows.map (fun r => (r.1, r.2.2.2)) ∧
    papadopoulos_c55 = tableRows.map (fun r => (r.2.1, r.2.2.2)) ∧
    papadopoulos_c45 = tableRows.map (fun r => (r.2.2.1, r.2.2.2)) := by decide +kernel

/-- Every matrix of local compliances of the table is indefinite, but not by much. -/
theorem tableRows_facts : ∀ r ∈ tableRows, 0 < r.1 ∧ 0 < r.2.1 ∧ r.1 * r.2.1 < r.2.2.1 ^ 2 ∧
    r.2.2.1 ^ 2 ≤ (0.851 + r.2.1) * r.1 ∧ r.2.2.1 ^ 2 ≤ (0.851 + r.1) * r.2.1 := by decide +kernel

theorem tableRows_sorted : tableRows.Pairwise fun r t =>
    r.1 ≤ t.1 ∧ r.2.1 ≤ t.2.1 ∧ r.2.2.1 ≤ t.2.2.1 := by decide +kernel

open Classical in
/-- The row that the three look-ups find. -/
noncomputable def tableRow (ratio : ℝ) : Option (ℚ × ℚ × ℚ × ℚ) :=
  tableRows.find? fun r => decide (ratio * 2 ≤ (r.2.2.2 : ℝ))

theorem get_row (s : ShaftElement) :
    let scale := (1 - s.material.Poisson ^ 2) / (s.material.E * (s.odl / 2) ^ 3)
    match tableRow c.depth_ratio with
    | none => c.get_coefs s papadopoulos.c44 = .error .indexError ∧
        c.get_coefs s papadopoulos.c55 = .error .indexError ∧ c.get_coefs s papadopoulos.c45 = .error .indexError
    | some r => c.get_coefs s papadopoulos.c44 = .ok (r.1 * scale) ∧
        c.get_coefs s papadopoulos.c55 = .ok (r.2.1 * scale) ∧ c.get_coefs s papadopoulos.c45 = .ok (r.2.2.1 * scale) := by
  obtain ⟨h1, h2, h3⟩ := tableRows_cols
  have key : ∀ (f : ℚ × ℚ × ℚ × ℚ → ℚ), c.get_coefs s
      ((tableRows.map fun r => (f r, r.2.2.2)).map fun x => ((x.1 : ℝ), (x.2 : ℝ))) =
      match tableRow c.depth_ratio with
      | none => .error .indexError
      | some r => .ok (f r * ((1 - s.material.Poisson ^ 2) / (s.material.E * (s.odl / 2) ^ 3))) := by
    intro f
    unfold get_coefs tableRow
    rw [List.find?_map, List.find?_map]
    simp only [Function.comp_def]
    cases tableRows.find? _ <;> simp [mul_div_assoc]
  have a1 := key (fun r => r.1)
  have a2 := key (fun r => r.2.1)
  have a3 := key (fun r => r.2.2.1)
  rw [← h1] at a1
  rw [← h2] at a2
  rw [← h3] at a3
  cases h : tableRow c.depth_ratio <;> rw [h] at a1 a2 a3 <;> exact ⟨a1, a2, a3⟩

/-- **C54** with the shipped table the stiffnesses exist for every admitted depth. -/
theorem C54_shipped (s : ShaftElement) (hd : c.depth_ratio ≤ 0.5) : ∃ k, c.stiff papadopoulos s = .ok k :=
  C54_lookup c papadopoulos s hd papadopoulos_deep

theorem find_mono {α : Type} {p q : α → Bool} {R : α → α → Prop} (hpq : ∀ x, q x = true → p x = true) :
    ∀ (l : List α), l.Pairwise R → ∀ {x y}, l.find? p = some x → l.find? q = some y → x = y ∨ R x y
  | [], _, _, _, h, _ => by simp at h
  | a :: l, hR, x, y, h1, h2 => by
    rw [List.pairwise_cons] at hR
    rw [List.find?_cons] at h1 h2
    cases hq : q a with
    | true =>
      rw [hpq a hq] at h1
      rw [hq] at h2
      cases h1; cases h2; exact Or.inl rfl
    | false =>
      rw [hq] at h2
      cases hpa : p a with
      | true =>
        rw [hpa] at h1
        cases h1
        exact Or.inr (hR.1 _ (List.mem_of_find?_eq_some h2))
      | false =>
        rw [hpa] at h1
        exact find_mono hpq l hR.2 h1 h2

/-- **C54** with the shipped table a deeper crack has larger local compliances. -/
theorem C54_deeper (s : ShaftElement) (c' : Crack) (h : c.depth_ratio ≤ c'.depth_ratio)
    (hν : s.material.Poisson ^ 2 ≤ 1) (hE : 0 < s.material.E) (ho : 0 < s.odl) (col : List (ℝ × ℝ))
    (hcol : col ∈ [papadopoulos.c44, papadopoulos.c55, papadopoulos.c45]) {x x' : ℝ}
    (hx : c.get_coefs s col = .ok x) (hx' : c'.get_coefs s col = .ok x') : x ≤ x' := by
  have g1 := get_row c s
  have g2 := get_row c' s
  dsimp only at g1 g2
  have hsc : 0 ≤ (1 - s.material.Poisson ^ 2) / (s.material.E * (s.odl / 2) ^ 3) :=
    div_nonneg (by linarith) (by positivity)
  have bad : ∀ {c : Crack}, c.get_coefs s papadopoulos.c44 = .error .indexError ∧
        c.get_coefs s papadopoulos.c55 = .error .indexError ∧ c.get_coefs s papadopoulos.c45 = .error .indexError →
        ∀ {x : ℝ}, c.get_coefs s col = .ok x → False := by
    rintro c ⟨e1, e2, e3⟩ x hx
    simp only [List.mem_cons, List.not_mem_nil, or_false] at hcol
    rcases hcol with rfl | rfl | rfl
    · rw [e1] at hx; cases hx
    · rw [e2] at hx; cases hx
    · rw [e3] at hx; cases hx
  cases t1 : tableRow c.depth_ratio with
  | none => rw [t1] at g1; exact (bad g1 hx).elim
  | some r =>
    cases t2 : tableRow c'.depth_ratio with
    | none => rw [t2] at g2; exact (bad g2 hx').elim
    | some r' =>
      rw [t1] at g1
      rw [t2] at g2
      obtain ⟨a1, a2, a3⟩ := g1
      obtain ⟨b1, b2, b3⟩ := g2
      unfold tableRow at t1 t2
      have hle : r.1 ≤ r'.1 ∧ r.2.1 ≤ r'.2.1 ∧ r.2.2.1 ≤ r'.2.2.1 := by
        rcases find_mono (fun x hx => by simp only [decide_eq_true_eq] at hx ⊢; linarith) _ tableRows_sorted t1 t2 with e | e
        · rw [e]; simp
        · exact e
      obtain ⟨l1, l2, l3⟩ := hle
      simp only [List.mem_cons, List.not_mem_nil, or_false] at hcol
      rcases hcol with rfl | rfl | rfl
      · rw [a1] at hx; rw [b1] at hx'; cases hx; cases hx'
        exact mul_le_mul_of_nonneg_right (by exact_mod_cast l1) hsc
      · rw [a2] at hx; rw [b2] at hx'; cases hx; cases hx'
        exact mul_le_mul_of_nonneg_right (by exact_mod_cast l2) hsc
      · rw [a3] at hx; rw [b3] at hx'; cases hx; cases hx'
        exact mul_le_mul_of_nonneg_right (by exact_mod_cast l3) hsc

/-- **C54** with the shipped table an open crack of any depth is softer than the whole element, provided that
the element is not short: `0.851` local compliances are not more than the compliance `f` of the element.
Missing: the short elements, where it is false (`C54_stiffer_false`). -/
theorem C54_shipped_partial {s : ShaftElement} (hp : s.beam.Physical) (hν : s.material.Poisson < 1) {k : Stiff}
    (h : c.stiff papadopoulos s = .ok k) (hc : c.depth_ratio ≠ 0)
    (hf : 0.851 * (1 - s.material.Poisson ^ 2) / (s.material.E * (s.odl / 2) ^ 3) ≤
      s.L * (1 + Crack.shear s) / ((4 + Crack.shear s) * (s.material.E * tempI s))) :
    (0 < k.kcx ∧ k.kcx ≤ k.ko) ∧ 0 < k.kcz ∧ k.kcz ≤ k.ko := by
  obtain ⟨x, y, z, EI, φ, f, k1, Δ, hx, hy, hz, hEI, hφ, hff, -, hΔ, -, hf0, hk1, hk2, h1, h2⟩ :=
    C54_stiffness c hp h hc
  rw [← hEI, ← hφ, ← hff] at hf
  have g1 := get_row c s
  dsimp only at g1
  have hν' : -(1 / 2) < s.material.Poisson := hp.nu_gt
  have hE : 0 < s.material.E := hp.E_pos
  have ho : 0 < s.odl := lt_of_le_of_lt hp.idl_nonneg hp.idl_lt
  have hsc : 0 < (1 - s.material.Poisson ^ 2) / (s.material.E * (s.odl / 2) ^ 3) :=
    div_pos (by nlinarith) (by positivity)
  rw [mul_div_assoc] at hf
  set γ := (1 - s.material.Poisson ^ 2) / (s.material.E * (s.odl / 2) ^ 3)
  cases t1 : tableRow c.depth_ratio with
  | none => rw [t1, hx] at g1; cases g1.1
  | some r =>
    rw [t1, hx, hy, hz] at g1
    obtain ⟨a1, a2, a3⟩ := g1
    injection a1 with a1
    injection a2 with a2
    injection a3 with a3
    obtain ⟨p1, p2, -, p4, p5⟩ := tableRows_facts r (List.mem_of_find?_eq_some t1)
    have q1 : (0 : ℝ) < r.1 := by exact_mod_cast p1
    have q2 : (0 : ℝ) < r.2.1 := by exact_mod_cast p2
    have q4 : (r.2.2.1 : ℝ) ^ 2 ≤ (0.851 + r.2.1) * r.1 := by
      have : ((r.2.2.1 ^ 2 : ℚ) : ℝ) ≤ (((0.851 + r.2.1) * r.1 : ℚ) : ℝ) := by exact_mod_cast p4
      push_cast at this; norm_num at this ⊢; exact this
    have q5 : (r.2.2.1 : ℝ) ^ 2 ≤ (0.851 + r.1) * r.2.1 := by
      have : ((r.2.2.1 ^ 2 : ℚ) : ℝ) ≤ (((0.851 + r.1) * r.2.1 : ℚ) : ℝ) := by exact_mod_cast p5
      push_cast at this; norm_num at this ⊢; exact this
    have hx0 : 0 < x := by rw [a1]; positivity
    have hy0 : 0 < y := by rw [a2]; positivity
    have z1 : z ^ 2 ≤ (f + y) * x := by
      rw [a1, a2, a3, mul_pow]
      calc (r.2.2.1 : ℝ) ^ 2 * γ ^ 2 ≤ (0.851 + r.2.1) * r.1 * γ ^ 2 := by gcongr
        _ = (0.851 * γ + r.2.1 * γ) * (r.1 * γ) := by ring
        _ ≤ _ := by gcongr
    have z2 : z ^ 2 ≤ (f + x) * y := by
      rw [a1, a2, a3, mul_pow]
      calc (r.2.2.1 : ℝ) ^ 2 * γ ^ 2 ≤ (0.851 + r.1) * r.2.1 * γ ^ 2 := by gcongr
        _ = (0.851 * γ + r.1 * γ) * (r.2.1 * γ) := by ring
        _ ≤ _ := by gcongr
    have hpos : 0 < Δ := by
      rw [hΔ]; nlinarith [mul_pos hf0 hf0, mul_pos hf0 hy0, mul_pos hf0 hx0]
    obtain ⟨e1, e2⟩ := h1 hpos.ne'
    obtain ⟨i1, i2⟩ := h2 hpos
    refine ⟨⟨?_, i1.2 z1⟩, ?_, i2.2 z2⟩
    · rw [e1]
      have : 0 ≤ (k.ko - k1) * (f * (f + y)) / Δ :=
        div_nonneg (mul_nonneg (by linarith) (mul_nonneg hf0.le (by linarith))) hpos.le
      linarith
    · rw [e2]
      have : 0 ≤ (k.ko - k1) * (f * (f + x)) / Δ :=
        div_nonneg (mul_nonneg (by linarith) (mul_nonneg hf0.le (by linarith))) hpos.le
      linarith

/-- **C54** for solid cylindrical elements that are at least 1.35 diameters long, an open crack of any depth is
softer than the whole element. -/
theorem C54_long {s : ShaftElement} (hp : s.beam.Physical) (hν : s.material.Poisson < 1) {k : Stiff}
    (h : c.stiff papadopoulos s = .ok k) (hc : c.depth_ratio ≠ 0) (ho : s.odr = s.odl) (hl : s.idl = 0)
    (hr : s.idr = 0) (hL : 1.35 * s.odl ≤ s.L) : (0 < k.kcx ∧ k.kcx ≤ k.ko) ∧ 0 < k.kcz ∧ k.kcz ≤ k.ko := by
  refine C54_shipped_partial c hp hν h hc ?_
  have hE : 0 < s.material.E := hp.E_pos
  have hA := shear_pos hp
  have hod : 0 < s.odl := lt_of_le_of_lt hp.idl_nonneg hp.idl_lt
  have hI : tempI s = Real.pi / 4 * (s.odl / 2) ^ 4 := by
    unfold tempI; rw [ho, hl, hr]; ring
  have hπ := Real.pi_pos
  have hπ2 := Real.pi_lt_d4
  rw [hI]
  set A := Crack.shear s
  set E := s.material.E
  set R := s.odl / 2 with hR
  have hR0 : 0 < R := by positivity
  have hLR : 2.7 * R ≤ s.L := by rw [hR]; linarith
  have hν2 : 1 - s.material.Poisson ^ 2 ≤ 1 := by nlinarith [sq_nonneg s.material.Poisson]
  calc 0.851 * (1 - s.material.Poisson ^ 2) / (E * R ^ 3) ≤ 0.851 * 1 / (E * R ^ 3) := by gcongr
    _ ≤ s.L / (E * (Real.pi * R ^ 4)) := by
      rw [div_le_div_iff₀ (by positivity) (by positivity)]
      have h1 : 0.851 * Real.pi * R ≤ s.L := by nlinarith
      have := mul_le_mul_of_nonneg_left h1 (show 0 ≤ E * R ^ 3 by positivity)
      nlinarith
    _ ≤ s.L * (1 + A) / ((4 + A) * (E * (Real.pi / 4 * R ^ 4))) := by
      have hL0 : 0 < s.L := hp.L_pos
      rw [div_le_div_iff₀ (by positivity) (by positivity)]
      have : 0 ≤ s.L * E * Real.pi * R ^ 4 * A := by positivity
      nlinarith

/-- A short element: a fifth of the diameter long. -/
noncomputable def exShort : ShaftElement :=
  { exShaft with L := 2 / 100, odl := 1 / 10, idl := 0, odr := 1 / 10, idr := 0 }

/-- The deepest crack. -/
noncomputable def exCrack : Crack := ⟨exFault, 0.5, 0, some "Mayes"⟩

/-- **C54** fails: with the shipped table a crack of half the diameter stiffens a short element. -/
theorem C54_stiffer_false : exShort.beam.Physical ∧ ∃ k, exCrack.stiff papadopoulos exShort = .ok k ∧ k.ko < k.kcx := by
  have hp : exShort.beam.Physical := by
    constructor <;> norm_num [exShort, exShaft, exMaterial, ShaftElement.beam]
  refine ⟨hp, ?_⟩
  have hd : exCrack.depth_ratio = 0.5 := rfl
  obtain ⟨k, h⟩ := C54_shipped exCrack exShort (by rw [hd])
  refine ⟨k, h, ?_⟩
  obtain ⟨x, y, z, EI, φ, f, k1, Δ, hx, hy, hz, hEI, hφ, hff, -, hΔ, -, hf0, hk1, hk2, -, h2⟩ :=
    C54_stiffness exCrack hp h (by rw [hd]; norm_num)
  have hπ := Real.pi_pos
  have hπ1 := Real.pi_gt_d4
  have hπ2 := Real.pi_lt_d4
  have eφ : φ = 3613375 / 68614 := by
    rw [hφ]
    unfold Crack.shear Crack.kappa tempI tempS
    simp only [exShort, exShaft, exMaterial]
    norm_num
    field_simp
    norm_num
  have hγ : (1 - exShort.material.Poisson ^ 2) / (exShort.material.E * (exShort.odl / 2) ^ 3) = 0.91 / (211e9 * (1 / 20) ^ 3) := by
    simp only [exShort, exShaft, exMaterial]
    norm_num
  have g1 := get_row exCrack exShort
  dsimp only at g1
  rw [hγ] at g1
  cases t1 : tableRow exCrack.depth_ratio with
  | none => rw [t1, hx] at g1; cases g1.1
  | some r =>
    rw [t1, hx, hy, hz] at g1
    obtain ⟨a1, a2, a3⟩ := g1
    injection a1 with a1
    injection a2 with a2
    injection a3 with a3
    have last : ∀ r ∈ tableRows, 1 ≤ r.2.2.2 → r.1 = 2.63318 ∧ r.2.1 = 7.79039 ∧ r.2.2.1 = 4.75993 := by
      decide +kernel
    have hr1 : (1 : ℚ) ≤ r.2.2.2 := by
      have := List.find?_some t1
      rw [hd] at this
      simp only [decide_eq_true_eq] at this
      norm_num at this
      exact_mod_cast this
    obtain ⟨l1, l2, l3⟩ := last r (List.mem_of_find?_eq_some t1) hr1
    rw [l1] at a1
    rw [l2] at a2
    rw [l3] at a3
    set γ : ℝ := 0.91 / (211e9 * (1 / 20) ^ 3) with hγ'
    have hγ0 : 0 < γ := by norm_num [hγ']
    have hI : tempI exShort = Real.pi / 4 * (1 / 20) ^ 4 := by
      unfold tempI; simp only [exShort, exShaft]; norm_num
    have hf : f = γ * (589118240 / 353792621 / Real.pi) := by
      rw [hff, hEI, hI, eφ, hγ']
      simp only [exShort, exShaft, exMaterial]
      norm_num
      field_simp
      norm_num
    have u1 : 0.5 < 589118240 / 353792621 / Real.pi := by rw [lt_div_iff₀ hπ]; norm_num; linarith
    have u2 : 589118240 / 353792621 / Real.pi < 0.6 := by rw [div_lt_iff₀ hπ]; norm_num; linarith
    set u := 589118240 / 353792621 / Real.pi
    push_cast at a1 a2 a3
    have hg2 : 0 < γ ^ 2 := by positivity
    have hpos : 0 < Δ := by
      rw [hΔ, hf, a1, a2, a3]
      norm_num
      have : 0 < γ ^ 2 * ((u + 779039 / 100000) * (u + 131659 / 50000) - (475993 / 100000) ^ 2) :=
        mul_pos hg2 (by nlinarith)
      nlinarith
    have := (h2 hpos).1
    rw [← not_le, this, not_le, hf, a1, a2, a3]
    norm_num
    have : 0 < γ ^ 2 * ((475993 / 100000) ^ 2 - (u + 779039 / 100000) * (131659 / 50000)) :=
      mul_pos hg2 (by nlinarith)
    nlinarith

/-- **C54** in a run: the cracked element is the one with the given number, and at the step `i` the force is
that of the angular position `speed * t_i`. -/
theorem C54_run {tab : CrackTable} {ei : Eigh} {r : Rotor} {res : Result r.ndof} (h : c.run tab ei r = .ok res)
    (hT : c.args.tI ≠ c.args.tF) :
    ∃ b s k, c.kind = .ok b ∧ r.elements[c.n_crack]? = some (.shaft ⟨true, s⟩) ∧ c.stiff tab s = .ok k ∧
      r.disks.length = c.args.unbalance_magnitude.length ∧ 6 * c.n_crack + 11 < r.ndof ∧
      Fault.run ei r c.args .rk45 (.ok ((), fun y _ i =>
        (pure (c.force b s k y (c.args.speed * c.args.time i)) : StateM Unit (Fin r.ndof → ℝ)))) = .ok (res, ()) := by
  unfold Crack.run at h
  obtain ⟨b, h1, h⟩ := bind_ok.1 h
  obtain ⟨_, h2, h⟩ := bind_ok.1 h
  obtain ⟨_, h3, h⟩ := bind_ok.1 h
  obtain ⟨s, h4, h⟩ := bind_ok.1 h
  obtain ⟨k, h5, h⟩ := bind_ok.1 h
  obtain ⟨⟨res', u⟩, h6, h⟩ := bind_ok.1 h
  cases h
  obtain ⟨md, Funb, s0, force, -, -, -, h7, -⟩ := run_ok' h6
  have hn : ¬ r.ndof < c.n_crack * 6 + 12 := by
    intro hn; rw [if_pos hn] at h7; cases h7
  rw [if_neg hn] at h6
  refine ⟨b, s, k, h1, ?_, h5, ?_, by omega, ?_⟩
  · unfold Crack.element at h4
    cases he : r.elements[c.n_crack]? with
    | none => rw [he] at h4; cases h4
    | some e =>
      rw [he] at h4
      cases e with
      | shaft e =>
        obtain ⟨six, s'⟩ := e
        cases six with
        | true => cases h4; rfl
        | false => cases h4
      | _ => cases h4
  · unfold checkDisks at h3
    split_ifs at h3 with c
    push Not at c
    exact c
  · simp only [(C53_speed c.args hT _).2.2] at h6
    exact h6

/-- The hypotheses are met: the deepest crack in the element of the example rotor can be run; its element
carries an axial force, without it the other theorems apply. -/
example : ∃ ei r res, EighLower ei ∧ init exPandas 10 sixArgs = some (.ok r) ∧
    exCrack.run papadopoulos ei r = .ok res := by
  obtain ⟨ei, hE⟩ := eighLower_exists
  obtain ⟨r, h, hf, hp, h6, hnd, hend, hdk, hsh, he⟩ := six_facts
  have hdt : 0 < exFault.dt := by norm_num [exFault]
  have hT : exFault.tI ≤ exFault.tF := by norm_num [exFault]
  obtain ⟨s, hs⟩ : ∃ s, exCrack.element r = .ok s := by
    unfold Crack.element
    rw [elements_eq' (init_ok h), hsh]
    exact ⟨_, rfl⟩
  obtain ⟨k, hk⟩ := C54_shipped exCrack s (by simp [exCrack])
  obtain ⟨res, hres⟩ := C55_runs (m := .rk45) (a := exFault) h hf (hp _) h6 (he _) hnd.ge
    (by rw [hdk]; simp) hE hdt hT ((), fun y _ i =>
      (pure (exCrack.force .mayes s k y (exFault.angular_position (exFault.time i))) : StateM Unit (Fin r.ndof → ℝ)))
  refine ⟨ei, r, res.1, hE, h, ?_⟩
  refine bind_ok.2 ⟨.mayes, by simp [kind, exCrack], bind_ok.2 ⟨(), by simp [Args.check, exCrack, exFault],
      bind_ok.2 ⟨(), by simp [checkDisks, hdk, exCrack, exFault], bind_ok.2 ⟨s, hs, bind_ok.2 ⟨k, hk,
        bind_ok.2 ⟨res, ?_, rfl⟩⟩⟩⟩⟩⟩
  rw [if_neg (by rw [hnd]; simp [exCrack])]
  exact hres

/-- An element without axial force and torque, a crack of depth zero and a rotation as a rigid body. -/
example : ∃ s : ShaftElement, s.Built ∧ s.beam.Physical ∧ s.axial_force = 0 ∧ s.torque = 0 ∧
    (∃ k, { exCrack with depth_ratio := 0 }.stiff papadopoulos s = .ok k) ∧
    ∃ y : Fin 12 → ℝ, ∀ j : Fin 12, y ⟨6 * exCrack.n_crack + j, by simp [exCrack]⟩ =
      ![0, 0, 0, 1, 2, 0, s.L * 2, -(s.L * 1), 0, 1, 2, 0] j := by
  have hp : ({ exShaft with axial_force := 0 } : ShaftElement).beam.Physical := by
    constructor <;> norm_num [exShaft, exMaterial, ShaftElement.beam]
  refine ⟨{ exShaft with axial_force := 0 }, facts_built (physical_facts hp (Or.inr rfl)), hp, rfl, rfl,
    C54_shipped _ _ (by norm_num), ![0, 0, 0, 1, 2, 0, exShaft.L * 2, -(exShaft.L * 1), 0, 1, 2, 0], fun j => ?_⟩
  congr 1
  exact Fin.ext (by simp [exCrack])

/-- A long solid element meets the hypotheses of `C54_long` and so of `C54_shipped_partial`. -/
example : ∃ s : ShaftElement, s.beam.Physical ∧ s.material.Poisson < 1 ∧
    (∃ k, exCrack.stiff papadopoulos s = .ok k) ∧ exCrack.depth_ratio ≠ 0 ∧ s.odr = s.odl ∧ s.idl = 0 ∧ s.idr = 0 ∧
    1.35 * s.odl ≤ s.L := by
  refine ⟨{ exShort with L := 1 / 5 }, ?_, ?_, C54_shipped _ _ (by simp [exCrack]), by norm_num [exCrack], rfl, rfl, rfl, ?_⟩
  · constructor <;> norm_num [exShort, exShaft, exMaterial, ShaftElement.beam]
  · norm_num [exShort, exShaft, exMaterial]
  · norm_num [exShort]

/-- A table with positive definite compliances, as `C54_softer_partial` asks (the shipped one has none). -/
example : ∃ k c44 c55 c45, exCrack.stiff ⟨[(1, 1)], [(2, 1)], [(1, 1)]⟩ exShort = .ok k ∧
    exCrack.get_coefs exShort [(1, 1)] = .ok c44 ∧ exCrack.get_coefs exShort [(2, 1)] = .ok c55 ∧
    exCrack.get_coefs exShort [(1, 1)] = .ok c45 ∧ 0 ≤ c44 ∧ 0 ≤ c55 ∧ c45 ^ 2 ≤ c44 * c55 := by
  obtain ⟨k, hk⟩ := C54_lookup exCrack ⟨[(1, 1)], [(2, 1)], [(1, 1)]⟩ exShort (by simp [exCrack]) (by simp)
  refine ⟨k, _, _, _, hk, (C54_table exCrack exShort _ _).2 ⟨1, ⟨[], (1, 1), [], rfl, by simp, by norm_num [exCrack], rfl⟩, rfl⟩,
    (C54_table exCrack exShort _ _).2 ⟨2, ⟨[], (2, 1), [], rfl, by simp, by norm_num [exCrack], rfl⟩, rfl⟩,
    (C54_table exCrack exShort _ _).2 ⟨1, ⟨[], (1, 1), [], rfl, by simp, by norm_num [exCrack], rfl⟩, rfl⟩, ?_, ?_, ?_⟩ <;>
    norm_num [exShort, exShaft, exMaterial]

end Ross.Props
