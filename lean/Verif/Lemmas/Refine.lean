import Verif.Lemmas.ShaftQuad
import Verif.Spec.Convergence
import Mathlib.MeasureTheory.Integral.IntervalIntegral.Basic

/-! # Finer meshes contain coarser ones -/

namespace Ross.RefineLemmas

open Ross Ross.Spec Ross.ShaftLemmas Real intervalIntegral

variable {b b' : Beam} {φ φ' : ℝ}

/-- Values of the plane shape function `a` at the ends of `[z, z + l]`. -/
noncomputable def ends (b : Beam) (φ z l : ℝ) (a : Fin 4) : Fin 4 → ℝ :=
  ![b.N φ a z, b.Θ φ a z, b.N φ a (z + l), b.Θ φ a (z + l)]

theorem N_restrict (hL : b.L ≠ 0) (hl : b'.L ≠ 0) (h : φ' * b'.L ^ 2 = φ * b.L ^ 2) (h1 : 1 + φ ≠ 0)
    (h2 : 1 + φ' ≠ 0) (a : Fin 4) (z t : ℝ) :
    b.N φ a (z + t) = ∑ c, ends b φ z b'.L a c * b'.N φ' c t := by
  have e : φ' = φ * b.L ^ 2 / b'.L ^ 2 := by field_simp; linarith
  have h3 : b'.L ^ 2 + φ * b.L ^ 2 ≠ 0 := by
    intro h'; apply h2; rw [e]; field_simp; rw [h', mul_zero]
  have h4 : b'.L ^ 2 + b.L ^ 2 * φ ≠ 0 := by rwa [mul_comm (b.L ^ 2)]
  have h5 : b.L ^ 2 * φ + b'.L ^ 2 ≠ 0 := by rwa [add_comm]
  have h6 : φ * b.L ^ 2 + b'.L ^ 2 ≠ 0 := by rwa [add_comm]
  subst e
  rw [Fin.sum_univ_four]
  fin_cases a <;> simp [ends, Beam.N, Beam.Θ] <;> field_simp <;> ring

theorem Θ_restrict (hL : b.L ≠ 0) (hl : b'.L ≠ 0) (h : φ' * b'.L ^ 2 = φ * b.L ^ 2) (h1 : 1 + φ ≠ 0)
    (h2 : 1 + φ' ≠ 0) (a : Fin 4) (z t : ℝ) :
    b.Θ φ a (z + t) = ∑ c, ends b φ z b'.L a c * b'.Θ φ' c t := by
  have e : φ' = φ * b.L ^ 2 / b'.L ^ 2 := by field_simp; linarith
  have h3 : b'.L ^ 2 + φ * b.L ^ 2 ≠ 0 := by
    intro h'; apply h2; rw [e]; field_simp; rw [h', mul_zero]
  have h4 : b'.L ^ 2 + b.L ^ 2 * φ ≠ 0 := by rwa [mul_comm (b.L ^ 2)]
  have h5 : b.L ^ 2 * φ + b'.L ^ 2 ≠ 0 := by rwa [add_comm]
  have h6 : φ * b.L ^ 2 + b'.L ^ 2 ≠ 0 := by rwa [add_comm]
  subst e
  rw [Fin.sum_univ_four]
  fin_cases a <;> simp [ends, Beam.N, Beam.Θ] <;> field_simp <;> ring

theorem differentiable_N (b : Beam) (φ : ℝ) (a : Fin 4) : Differentiable ℝ (b.N φ a) := by
  rw [BeamLemmas.N_fun]; exact fun x => (Poly.hasDerivAt_mul_pe_div _ _ _ _).differentiableAt

theorem differentiable_Θ (b : Beam) (φ : ℝ) (a : Fin 4) : Differentiable ℝ (b.Θ φ a) := by
  rw [BeamLemmas.Θ_fun]; exact fun x => (Poly.hasDerivAt_mul_pe_div _ _ _ _).differentiableAt

theorem deriv_restrict {f : ℝ → ℝ} {g : Fin 4 → ℝ → ℝ} {w : Fin 4 → ℝ} {z : ℝ}
    (hg : ∀ c, Differentiable ℝ (g c)) (h : ∀ t, f (z + t) = ∑ c, w c * g c t) (t : ℝ) :
    deriv f (z + t) = ∑ c, w c * deriv (g c) t := by
  rw [← deriv_comp_const_add, show (fun t => f (z + t)) = fun t => ∑ c, w c * g c t from funext h]
  rw [deriv_fun_sum fun c _ => (hg c t).const_mul _]
  exact Finset.sum_congr rfl fun c _ => deriv_const_mul _ (hg c t)

/-- Signs and planes: the unknowns of the part produced by the unknowns of the whole. -/
theorem field_restrict {f g : Fin 4 → ℝ → ℝ} {w : Fin 4 → Fin 4 → ℝ} {z t : ℝ}
    (h : ∀ a, f a (z + t) = ∑ c, w a c * g c t) (p : Fin 2) (i : Fin 8) :
    Beam.field f p i (z + t) = ∑ c, (if BeamLemmas.plane c = BeamLemmas.plane i then
      BeamLemmas.sgn c * BeamLemmas.sgn i * w (BeamLemmas.idx i) (BeamLemmas.idx c) else 0) *
        Beam.field g p c t := by
  simp only [BeamLemmas.field_eq, h, Fin.sum_univ_four, Fin.sum_univ_eight]
  fin_cases p <;> fin_cases i <;>
    simp [BeamLemmas.plane, BeamLemmas.idx, BeamLemmas.sgn] <;> ring

set_option maxHeartbeats 1600000 in
theorem nodal_eq (b : Beam) (φ z l : ℝ) (c i : Fin 8) :
    b.nodal φ z l c i = if BeamLemmas.plane c = BeamLemmas.plane i then
      BeamLemmas.sgn c * BeamLemmas.sgn i * ends b φ z l (BeamLemmas.idx i) (BeamLemmas.idx c) else 0 := by
  fin_cases c <;> fin_cases i <;>
    simp [Beam.nodal, Beam.field, BeamLemmas.plane, BeamLemmas.idx, BeamLemmas.sgn, ends]

theorem bilin_integral {n : ℕ} (l g : ℝ) (f h : Fin n → ℝ → ℝ) (hf : ∀ i, Continuous (f i))
    (hh : ∀ i, Continuous (h i)) (u v : Fin n → ℝ) :
    ∑ i, ∑ j, u i * v j * ∫ z in (0)..l, g * (f i z * h j z)
      = ∫ z in (0)..l, g * ((∑ i, u i * f i z) * ∑ j, v j * h j z) := by
  have e : ∀ z, g * ((∑ i, u i * f i z) * ∑ j, v j * h j z)
      = ∑ i, ∑ j, u i * v j * (g * (f i z * h j z)) := by
    intro z
    rw [Finset.sum_mul_sum, Finset.mul_sum]
    refine Finset.sum_congr rfl fun i _ => ?_
    rw [Finset.mul_sum]
    refine Finset.sum_congr rfl fun j _ => ?_
    ring
  simp only [e]
  rw [integral_finsetSum]
  · refine Finset.sum_congr rfl fun i _ => ?_
    rw [integral_finsetSum]
    · refine Finset.sum_congr rfl fun j _ => ?_
      rw [integral_const_mul (u i * v j) fun z => g * (f i z * h j z)]
    · intro j _
      exact (continuous_const.mul (continuous_const.mul ((hf i).mul (hh j)))).intervalIntegrable _ _
  · intro i _
    exact (continuous_finsetSum _ fun j _ =>
      continuous_const.mul (continuous_const.mul ((hf i).mul (hh j)))).intervalIntegrable _ _

theorem integral_parts {F : ℝ → ℝ} (hF : Continuous F) (l : ℝ) (k : ℕ) :
    ∑ m ∈ Finset.range k, (∫ t in (0)..l, F (m * l + t)) = ∫ z in (0)..(k * l), F z := by
  have := sum_integral_adjacent_intervals (μ := MeasureTheory.volume) (f := F)
    (a := fun m : ℕ => (m : ℝ) * l) (n := k) fun m _ => hF.intervalIntegrable _ _
  simp only [Nat.cast_zero, zero_mul] at this
  rw [← this]
  refine Finset.sum_congr rfl fun m _ => ?_
  rw [integral_comp_add_left (fun z => F z)]
  congr 1
  · ring
  · push_cast; ring

/-- `∫ g f_i h_j` over the beam. -/
noncomputable def gal (L g : ℝ) (f h : Fin 4 → ℝ → ℝ) (p q : Fin 2) : Matrix (Fin 8) (Fin 8) ℝ :=
  Matrix.of fun i j => ∫ z in (0)..L, g * (Beam.field f p i z * Beam.field h q j z)

theorem gal_nested {f h f' h' : Fin 4 → ℝ → ℝ} {l g : ℝ} {k : ℕ} {p q : Fin 2}
    (cf : ∀ a, Continuous (f a)) (ch : ∀ a, Continuous (h a))
    (cf' : ∀ a, Continuous (f' a)) (ch' : ∀ a, Continuous (h' a))
    (rf : ∀ z a t, f a (z + t) = ∑ c, ends b φ z l a c * f' c t)
    (rh : ∀ z a t, h a (z + t) = ∑ c, ends b φ z l a c * h' c t) :
    ∑ m ∈ Finset.range k, (b.nodal φ (m * l) l).transpose * gal l g f' h' p q * b.nodal φ (m * l) l
      = gal (k * l) g f h p q := by
  ext i j
  rw [Matrix.sum_apply]
  show _ = ∫ z in (0)..(k * l), g * (Beam.field f p i z * Beam.field h q j z)
  rw [← integral_parts (F := fun z => g * (Beam.field f p i z * Beam.field h q j z))
    (continuous_const.mul ((continuous_field f cf p i).mul (continuous_field h ch q j)))]
  refine Finset.sum_congr rfl fun m _ => ?_
  have e : ∀ t, g * (Beam.field f p i (m * l + t) * Beam.field h q j (m * l + t))
      = g * ((∑ c, b.nodal φ (m * l) l c i * Beam.field f' p c t) *
          ∑ d, b.nodal φ (m * l) l d j * Beam.field h' q d t) := by
    intro t
    simp only [nodal_eq]
    rw [← field_restrict fun a => rf (m * l) a t, ← field_restrict fun a => rh (m * l) a t]
  simp only [e]
  rw [← bilin_integral l g _ _ (continuous_field f' cf' p) (continuous_field h' ch' q)]
  simp only [Matrix.mul_apply, Matrix.transpose_apply, Finset.sum_mul]
  rw [Finset.sum_comm]
  refine Finset.sum_congr rfl fun c _ => Finset.sum_congr rfl fun d _ => ?_
  show b.nodal φ (m * l) l c i * (∫ z in (0)..l, _) * _ = _
  ring

/-- `f f + h h` over the two planes. -/
theorem gal_same (L g : ℝ) (f : Fin 4 → ℝ → ℝ) (cf : ∀ a, Continuous (f a)) :
    (Matrix.of fun i j => ∫ z in (0)..L, g * (Beam.field f 0 i z * Beam.field f 0 j z
      + Beam.field f 1 i z * Beam.field f 1 j z)) = gal L g f f 0 0 + gal L g f f 1 1 := by
  have c := continuous_field f cf
  ext i j
  simp only [gal, Matrix.of_apply, Matrix.add_apply]
  rw [← integral_add]
  · congr 1; funext z; ring
  · exact (continuous_const.mul ((c 0 i).mul (c 0 j))).intervalIntegrable _ _
  · exact (continuous_const.mul ((c 1 i).mul (c 1 j))).intervalIntegrable _ _

theorem gal_cross (L g : ℝ) (f : Fin 4 → ℝ → ℝ) (cf : ∀ a, Continuous (f a)) :
    (Matrix.of fun i j => ∫ z in (0)..L, g * (Beam.field f 0 i z * Beam.field f 1 j z
      - Beam.field f 1 i z * Beam.field f 0 j z)) = gal L g f f 0 1 - gal L g f f 1 0 := by
  have c := continuous_field f cf
  ext i j
  simp only [gal, Matrix.of_apply, Matrix.sub_apply]
  rw [← integral_sub]
  · congr 1; funext z; ring
  · exact (continuous_const.mul ((c 0 i).mul (c 1 j))).intervalIntegrable _ _
  · exact (continuous_const.mul ((c 1 i).mul (c 0 j))).intervalIntegrable _ _

/-- What the unknowns of the parts give, summed over the parts. -/
noncomputable def pull (b : Beam) (φ l : ℝ) (k : ℕ) (X : Matrix (Fin 8) (Fin 8) ℝ) :
    Matrix (Fin 8) (Fin 8) ℝ :=
  ∑ m ∈ Finset.range k, (b.nodal φ (m * l) l).transpose * X * b.nodal φ (m * l) l

theorem pull_add (b : Beam) (φ l : ℝ) (k : ℕ) (X Y : Matrix (Fin 8) (Fin 8) ℝ) :
    pull b φ l k (X + Y) = pull b φ l k X + pull b φ l k Y := by
  simp only [pull, Matrix.mul_add, Matrix.add_mul, Finset.sum_add_distrib]

theorem pull_sub (b : Beam) (φ l : ℝ) (k : ℕ) (X Y : Matrix (Fin 8) (Fin 8) ℝ) :
    pull b φ l k (X - Y) = pull b φ l k X - pull b φ l k Y := by
  simp only [pull, Matrix.mul_sub, Matrix.sub_mul, Finset.sum_sub_distrib]

theorem pull_zero (b : Beam) (φ l : ℝ) (k : ℕ) : pull b φ l k 0 = 0 := by
  simp [pull]

theorem same_nested {f f' : Fin 4 → ℝ → ℝ} {l g : ℝ} {k : ℕ}
    (cf : ∀ a, Continuous (f a)) (cf' : ∀ a, Continuous (f' a))
    (rf : ∀ z a t, f a (z + t) = ∑ c, ends b φ z l a c * f' c t) :
    pull b φ l k (Matrix.of fun i j => ∫ z in (0)..l, g * (Beam.field f' 0 i z * Beam.field f' 0 j z
      + Beam.field f' 1 i z * Beam.field f' 1 j z))
    = Matrix.of fun i j => ∫ z in (0)..(k * l), g * (Beam.field f 0 i z * Beam.field f 0 j z
      + Beam.field f 1 i z * Beam.field f 1 j z) := by
  rw [gal_same _ _ _ cf, gal_same _ _ _ cf', pull_add]
  exact congrArg₂ _ (gal_nested cf cf cf' cf' rf rf) (gal_nested cf cf cf' cf' rf rf)

theorem cross_nested {f f' : Fin 4 → ℝ → ℝ} {l g : ℝ} {k : ℕ}
    (cf : ∀ a, Continuous (f a)) (cf' : ∀ a, Continuous (f' a))
    (rf : ∀ z a t, f a (z + t) = ∑ c, ends b φ z l a c * f' c t) :
    pull b φ l k (Matrix.of fun i j => ∫ z in (0)..l, g * (Beam.field f' 0 i z * Beam.field f' 1 j z
      - Beam.field f' 1 i z * Beam.field f' 0 j z))
    = Matrix.of fun i j => ∫ z in (0)..(k * l), g * (Beam.field f 0 i z * Beam.field f 1 j z
      - Beam.field f 1 i z * Beam.field f 0 j z) := by
  rw [gal_cross _ _ _ cf, gal_cross _ _ _ cf', pull_sub]
  exact congrArg₂ _ (gal_nested cf cf cf' cf' rf rf) (gal_nested cf cf cf' cf' rf rf)

theorem const_section {b : Beam} (ho : b.odr = b.odl) (hi : b.idr = b.idl) (z : ℝ) :
    b.area z = π * (b.odl ^ 2 - b.idl ^ 2) / 4 ∧ b.inertia z = π * (b.odl ^ 4 - b.idl ^ 4) / 64 := by
  simp [Beam.area, Beam.inertia, Beam.od, Beam.id, ho, hi]

theorem part_phi {k : ℕ} {s y : ShaftElement} (hk : k ≠ 0) (hp : Part k s y) (fs : Facts s)
    (fy : Facts y) (ho : s.odr = s.odl) (hi : s.idr = s.idl)
    (ms : s.shear_method_calc = "cowper") (my : y.shear_method_calc = "cowper") :
    y.kappa = s.kappa ∧ y.phi * y.L ^ 2 = s.phi * s.L ^ 2 := by
  have hkap : y.kappa = s.kappa := by
    rw [kappa_eq, kappa_eq]
    simp [specKappa, ms, my, Beam.ratio, ShaftElement.beam, hp.idl, hp.odl, hp.idr, hp.odr, hp.material]
  refine ⟨hkap, ?_⟩
  rw [phi_eq fs, phi_eq fy, specPhi, specPhi, ← kappa_eq, ← kappa_eq, hp.shear, hkap]
  split_ifs
  · have c1 := const_section (b := s.beam) ho hi
    have c2 := const_section (b := y.beam) (by simpa [ShaftElement.beam, hp.odl, hp.odr] using ho)
      (by simpa [ShaftElement.beam, hp.idl, hp.idr] using hi)
    have e1 := fs.L
    have e2 := fy.L
    simp only [Beam.shearRatio, (c1 _).1, (c1 _).2, (c2 _).1, (c2 _).2]
    simp only [ShaftElement.beam, hp.odl, hp.idl, hp.material]
    generalize 12 * s.material.E * (π * (s.odl ^ 4 - s.idl ^ 4) / 64) = u
    generalize s.kappa * s.material.G_s * (π * (s.odl ^ 2 - s.idl ^ 2) / 4) = v
    rw [div_mul_eq_mul_div, div_mul_eq_mul_div, mul_div_mul_right _ _ (pow_ne_zero 2 e1),
      mul_div_mul_right _ _ (pow_ne_zero 2 e2)]
  · simp

end Ross.RefineLemmas
