import Mathlib.LinearAlgebra.Matrix.PosDef
import Verif.Spec.Passive
import Verif.Lemmas.ElemWork
import Verif.Lemmas.ExAssembly
import Verif.Props.Assembly
import Verif.Props.Shaft6

/-! # Signs of the matrices of passive rotors -/

namespace Ross.AssemblyLemmas

open Ross Ross.Spec Ross.BearingLemmas Ross.Rotor Ross.RotorLemmas Ross.ShaftLemmas Ross.Props
  Ross.Shaft6Lemmas Matrix

variable {pd : Pandas} {a : RotorArgs} {r : Rotor} {fuel : ℕ} {ω : ℝ}

/-- The quadratic form of an element matrix is nowhere negative. -/
def Pos (E : LMat) : Prop := ∀ u : Fin E.1 → ℝ, 0 ≤ u ⬝ᵥ (E.2 *ᵥ u)

theorem form2 {xx xy yx yy : ℝ} (h : NonnegForm xx xy yx yy) (u : Fin 2 → ℝ) :
    0 ≤ u ⬝ᵥ (!![xx, xy; yx, yy] *ᵥ u) := by
  obtain ⟨h1, h2, h3⟩ := h
  have e : u ⬝ᵥ (!![xx, xy; yx, yy] *ᵥ u) = xx * u 0 ^ 2 + (xy + yx) * u 0 * u 1 + yy * u 1 ^ 2 := by
    simp [dotProduct, mulVec, Fin.sum_univ_two]; ring
  rw [e]
  by_cases h0 : xx = 0
  · have : (xy + yx) ^ 2 ≤ 0 := by rw [h0] at h3; linarith
    have : xy + yx = 0 := by nlinarith [sq_nonneg (xy + yx)]
    rw [this, h0]
    nlinarith [mul_nonneg h2 (sq_nonneg (u 1))]
  · have hpos : 0 < xx := lt_of_le_of_ne h1 (Ne.symm h0)
    have : 0 ≤ 4 * xx * (xx * u 0 ^ 2 + (xy + yx) * u 0 * u 1 + yy * u 1 ^ 2) := by
      nlinarith [sq_nonneg (2 * xx * u 0 + (xy + yx) * u 1),
        mul_nonneg (sub_nonneg.2 h3) (sq_nonneg (u 1))]
    by_contra hneg
    push Not at hneg
    have := mul_neg_of_pos_of_neg (by positivity : 0 < 4 * xx) hneg
    linarith

theorem form3 {xx xy yx yy zz : ℝ} (h : NonnegForm xx xy yx yy) (hz : 0 ≤ zz) (u : Fin 3 → ℝ) :
    0 ≤ u ⬝ᵥ (!![xx, xy, 0; yx, yy, 0; 0, 0, zz] *ᵥ u) := by
  have e : u ⬝ᵥ (!![xx, xy, 0; yx, yy, 0; 0, 0, zz] *ᵥ u) =
      ![u 0, u 1] ⬝ᵥ (!![xx, xy; yx, yy] *ᵥ ![u 0, u 1]) + zz * u 2 ^ 2 := by
    simp [dotProduct, mulVec, Fin.sum_univ_two, Fin.sum_univ_three]; ring
  rw [e]
  exact add_nonneg (form2 h _) (mul_nonneg hz (sq_nonneg _))

theorem support_pos {l : Option ℕ} {k : ℕ} {A : Matrix (Fin k) (Fin k) ℝ} {E : LMat}
    (hS : IsSupport l A E) (hA : ∀ u, 0 ≤ u ⬝ᵥ (A *ᵥ u)) : Pos E := by
  cases l with
  | none =>
    have hS' : E = ⟨k, A⟩ := hS
    subst hS'
    exact hA
  | some m =>
    obtain ⟨B, rfl, hB⟩ := support_some hS
    intro u
    have hu : u = Fin.append (fun i => u (Fin.castAdd k i)) (fun i => u (Fin.natAdd k i)) :=
      (Fin.append_castAdd_natAdd (f := u)).symm
    rw [hu, hB]
    exact hA _

theorem symm_of_form {k : ℕ} {B : Matrix (Fin k) (Fin k) ℝ}
    (h : ∀ u v, u ⬝ᵥ (B *ᵥ v) = v ⬝ᵥ (B *ᵥ u)) : Bᵀ = B := by
  ext i j
  have := h (Pi.single j 1) (Pi.single i 1)
  simpa using this

theorem form_symm {k : ℕ} {B : Matrix (Fin k) (Fin k) ℝ} (h : Bᵀ = B) (u v : Fin k → ℝ) :
    u ⬝ᵥ (B *ᵥ v) = v ⬝ᵥ (B *ᵥ u) := by
  rw [dotProduct_mulVec, ← mulVec_transpose, h, dotProduct_comm]

theorem support_symm {l : Option ℕ} {k : ℕ} {A : Matrix (Fin k) (Fin k) ℝ} {E : LMat}
    (hS : IsSupport l A E) (hA : Aᵀ = A) : E.2ᵀ = E.2 := by
  cases l with
  | none =>
    have hS' : E = ⟨k, A⟩ := hS
    subst hS'
    exact hA
  | some m =>
    obtain ⟨B, rfl, hB⟩ := support_some hS
    refine symm_of_form fun u v => ?_
    have hu : u = Fin.append (fun i => u (Fin.castAdd k i)) (fun i => u (Fin.natAdd k i)) :=
      (Fin.append_castAdd_natAdd (f := u)).symm
    have hv : v = Fin.append (fun i => v (Fin.castAdd k i)) (fun i => v (Fin.natAdd k i)) :=
      (Fin.append_castAdd_natAdd (f := v)).symm
    rw [hu, hv, hB, hB]
    exact form_symm hA _ _

theorem brgK_support {b : BearingElement} {ω : ℝ} {E : LMat} (h : b.K ω = .ok E) :
    ∃ xx yy xy yx, b.kxx.eval ω = .ok xx ∧ b.kyy.eval ω = .ok yy ∧ b.kxy.eval ω = .ok xy ∧
      b.kyx.eval ω = .ok yx ∧ IsSupport b.n_link !![xx, xy; yx, yy] E := by
  unfold BearingElement.K at h
  obtain ⟨mxx, h1, h⟩ := bind_ok.1 h
  obtain ⟨myy, h2, h⟩ := bind_ok.1 h
  obtain ⟨mxy, h3, h⟩ := bind_ok.1 h
  obtain ⟨myx, h4, h⟩ := bind_ok.1 h
  have := Except.ok.inj h
  subst this
  exact ⟨_, _, _, _, h1, h2, h3, h4, linkMat_isSupport _ _⟩

theorem brgC_support {b : BearingElement} {ω : ℝ} {E : LMat} (h : b.C ω = .ok E) :
    ∃ xx yy xy yx, b.cxx.eval ω = .ok xx ∧ b.cyy.eval ω = .ok yy ∧ b.cxy.eval ω = .ok xy ∧
      b.cyx.eval ω = .ok yx ∧ IsSupport b.n_link !![xx, xy; yx, yy] E := by
  unfold BearingElement.C at h
  obtain ⟨mxx, h1, h⟩ := bind_ok.1 h
  obtain ⟨myy, h2, h⟩ := bind_ok.1 h
  obtain ⟨mxy, h3, h⟩ := bind_ok.1 h
  obtain ⟨myx, h4, h⟩ := bind_ok.1 h
  have := Except.ok.inj h
  subst this
  exact ⟨_, _, _, _, h1, h2, h3, h4, linkMat_isSupport _ _⟩

theorem brg6K_support {b : BearingElement6DoF} {ω : ℝ} {E : LMat} (h : b.K ω = .ok E) :
    ∃ xx yy xy yx zz, b.base.kxx.eval ω = .ok xx ∧ b.base.kyy.eval ω = .ok yy ∧
      b.base.kxy.eval ω = .ok xy ∧ b.base.kyx.eval ω = .ok yx ∧ b.kzz.eval ω = .ok zz ∧
      IsSupport b.base.n_link !![xx, xy, 0; yx, yy, 0; 0, 0, zz] E := by
  unfold BearingElement6DoF.K at h
  obtain ⟨mxx, h1, h⟩ := bind_ok.1 h
  obtain ⟨myy, h2, h⟩ := bind_ok.1 h
  obtain ⟨mxy, h3, h⟩ := bind_ok.1 h
  obtain ⟨myx, h4, h⟩ := bind_ok.1 h
  obtain ⟨mzz, h5, h⟩ := bind_ok.1 h
  have := Except.ok.inj h
  subst this
  exact ⟨_, _, _, _, _, h1, h2, h3, h4, h5, linkMat_isSupport _ _⟩

theorem brg6C_support {b : BearingElement6DoF} {ω : ℝ} {E : LMat} (h : b.C ω = .ok E) :
    ∃ xx yy xy yx zz, b.base.cxx.eval ω = .ok xx ∧ b.base.cyy.eval ω = .ok yy ∧
      b.base.cxy.eval ω = .ok xy ∧ b.base.cyx.eval ω = .ok yx ∧ b.czz.eval ω = .ok zz ∧
      IsSupport b.base.n_link !![xx, xy, 0; yx, yy, 0; 0, 0, zz] E := by
  unfold BearingElement6DoF.C at h
  obtain ⟨mxx, h1, h⟩ := bind_ok.1 h
  obtain ⟨myy, h2, h⟩ := bind_ok.1 h
  obtain ⟨mxy, h3, h⟩ := bind_ok.1 h
  obtain ⟨myx, h4, h⟩ := bind_ok.1 h
  obtain ⟨mzz, h5, h⟩ := bind_ok.1 h
  have := Except.ok.inj h
  subst this
  exact ⟨_, _, _, _, _, h1, h2, h3, h4, h5, linkMat_isSupport _ _⟩

/-- Bending and axial-torsional parts of a quadratic form. -/
theorem quad_split (X : Matrix (Fin 12) (Fin 12) ℝ)
    (h : ∀ (i : Fin 8) (j : Fin 4), X (bend i) (axtor j) = 0 ∧ X (axtor j) (bend i) = 0) (u : Fin 12 → ℝ) :
    u ⬝ᵥ (X *ᵥ u) = (u ∘ bend) ⬝ᵥ (X.submatrix bend bend *ᵥ (u ∘ bend))
      + (u ∘ axtor) ⬝ᵥ (X.submatrix axtor axtor *ᵥ (u ∘ axtor)) := by
  have hs1 : ∀ g : Fin 12 → ℝ, ∑ i, g i = (∑ a, g (bend a)) + ∑ b, g (axtor b) := by
    intro g
    simp [Fin.sum_univ_succ, bend, axtor]
    ring
  simp only [dotProduct, mulVec, hs1, Function.comp, Matrix.submatrix_apply]
  congr 1
  · refine Finset.sum_congr rfl fun a _ => ?_
    congr 1
    rw [add_eq_left]
    exact Finset.sum_eq_zero fun b _ => by rw [(h a b).1, zero_mul]
  · refine Finset.sum_congr rfl fun b _ => ?_
    congr 1
    rw [add_eq_right]
    exact Finset.sum_eq_zero fun a _ => by rw [(h a b).2, zero_mul]

theorem Ae_pos {s : ShaftElement} (hp : s.beam.Physical) : 0 < s.Ae₆ := by
  have h1 := area_pos _ hp 0 le_rfl hp.L_pos.le
  have h2 := area_pos _ hp s.beam.L hp.L_pos.le le_rfl
  have hl : s.beam.L ≠ 0 := hp.L_pos.ne'
  have e1 : s.beam.area 0 = s.A_l := by
    simp [Beam.area, Beam.od, Beam.id, ShaftElement.beam, ShaftElement.A_l]
  have e2 : s.beam.area s.beam.L = s.A_r := by
    simp only [Beam.area, Beam.od, Beam.id, div_self hl]
    simp [ShaftElement.beam, ShaftElement.A_r]
  unfold ShaftElement.Ae₆
  rw [← e1, ← e2]; positivity

theorem Je_pos {s : ShaftElement} (hp : s.beam.Physical) : 0 < s.Je₆ := by
  have h1 := inertia_pos _ hp 0 le_rfl hp.L_pos.le
  have h2 := inertia_pos _ hp s.beam.L hp.L_pos.le le_rfl
  have hl : s.beam.L ≠ 0 := hp.L_pos.ne'
  have e1 : s.beam.inertia 0 = s.Ie_l := by
    simp [Beam.inertia, Beam.od, Beam.id, ShaftElement.beam, ShaftElement.Ie_l]
  have e2 : s.beam.inertia s.beam.L = s.Ie_r := by
    simp only [Beam.inertia, Beam.od, Beam.id, div_self hl]
    simp [ShaftElement.beam, ShaftElement.Ie_r]
  unfold ShaftElement.Je₆
  rw [← e1, ← e2]; positivity

theorem K6_nonneg (s : ShaftElement) (hs : s.Built) (hp : s.beam.Physical)
    (hF : 0 ≤ s.axial_force) (hT : s.torque = 0) (u : Fin 12 → ℝ) : 0 ≤ u ⬝ᵥ (s.K₆ *ᵥ u) := by
  rw [quad_split s.K₆ (fun i j => ⟨(C11_uncoupled s i j).2.2.1, (C11_uncoupled s i j).2.2.2.1⟩),
    C10_stiffness, (axtor_blocks s).2]
  refine add_nonneg (C07_stiffness_nonneg s hs hp hF hT _) ?_
  generalize u ∘ axtor = v
  have e : v ⬝ᵥ ((s.L⁻¹ •
      !![s.material.E * s.Ae₆, 0, -(s.material.E * s.Ae₆), 0;
         0, s.material.G_s * s.Je₆, 0, -(s.material.G_s * s.Je₆);
         -(s.material.E * s.Ae₆), 0, s.material.E * s.Ae₆, 0;
         0, -(s.material.G_s * s.Je₆), 0, s.material.G_s * s.Je₆]) *ᵥ v) =
      s.L⁻¹ * (s.material.E * s.Ae₆ * (v 0 - v 2) ^ 2 + s.material.G_s * s.Je₆ * (v 1 - v 3) ^ 2) := by
    simp [mulVec, dotProduct, Fin.sum_univ_succ]
    ring
  rw [e]
  have h1 : 0 < s.L := hp.L_pos
  have h2 : 0 < s.material.E := hp.E_pos
  have h3 : 0 < s.material.G_s := hp.G_pos
  have h4 := Ae_pos hp
  have h5 := Je_pos hp
  positivity

theorem K6_symm (s : ShaftElement) (hT : s.torque = 0) : s.K₆ᵀ = s.K₆ := by
  have h1 : s.K1₆ᵀ = s.K1₆ := by ext i j; fin_cases i <;> fin_cases j <;> rfl
  have h2 : s.K2₆ᵀ = s.K2₆ := by ext i j; fin_cases i <;> fin_cases j <;> rfl
  have h3 : s.Kaf₆ᵀ = s.Kaf₆ := by ext i j; fin_cases i <;> fin_cases j <;> rfl
  have h4 : s.Kam₆ᵀ = s.Kam₆ := by ext i j; fin_cases i <;> fin_cases j <;> rfl
  have h5 : s.Kts₆ᵀ = s.Kts₆ := by ext i j; fin_cases i <;> fin_cases j <;> rfl
  unfold ShaftElement.K₆
  simp [Matrix.transpose_add, Matrix.transpose_smul, h1, h2, h3, h4, h5, hT]

section

variable (h : init pd fuel a = some (.ok r)) (hp : Passive r ω)
include h hp

theorem passive_K {e : Elm} (he : e ∈ r.elements) {E : LMat} (hE : e.K ω = .ok E) :
    E.2ᵀ = E.2 ∧ Pos E := by
  rcases (mem_elements (init_ok h) e).1 he with ⟨⟨six, s⟩, hm, rfl⟩ | ⟨⟨six, s⟩, hm, rfl⟩ | ⟨b, hm, rfl⟩ |
    ⟨p, hm, rfl⟩
  · obtain ⟨h1, h2, h3, h4, -⟩ := hp.shaft _ hm
    cases six <;> cases hE
    · exact ⟨(C07_stiffness_symm_iff s h1).2 h4, C07_stiffness_nonneg s h1 h2 h3 h4⟩
    · exact ⟨K6_symm s h4, K6_nonneg s h1 h2 h3 h4⟩
  · cases six <;> cases hE
    · have : s.K = 0 := (C03_gyro s).2.2.2.1
      refine ⟨?_, fun u => ?_⟩ <;> simp only <;> rw [this] <;> simp
    · have : s.K₆ = 0 := (C03_six s).2.2.2.2.2.1
      refine ⟨?_, fun u => ?_⟩ <;> simp only <;> rw [this] <;> simp
  · have hpb := hp.brg b hm
    cases b with
    | brg sl b =>
      obtain ⟨xx, yy, xy, yx, e1, e2, e3, e4, hS⟩ := brgK_support hE
      obtain ⟨h1, h2⟩ := hpb.stiff _ _ _ _ e1 e3 e4 e2
      subst h1
      exact ⟨support_symm hS (by ext i j; fin_cases i <;> fin_cases j <;> rfl),
        support_pos hS (form2 h2)⟩
    | brg6 b =>
      obtain ⟨xx, yy, xy, yx, zz, e1, e2, e3, e4, e5, hS⟩ := brg6K_support hE
      obtain ⟨h1, h2⟩ := hpb.stiff _ _ _ _ e1 e3 e4 e2
      subst h1
      exact ⟨support_symm hS (by ext i j; fin_cases i <;> fin_cases j <;> rfl),
        support_pos hS (form3 h2 (hpb.axial zz (Or.inl e5)))⟩
  · cases p <;> cases hE
    · rename_i p
      have : p.K = 0 := (C16_matrices p).2.2.2.1
      refine ⟨?_, fun u => ?_⟩ <;> simp only <;> rw [this] <;> simp
    · rename_i p
      have : p.K = 0 := (C16_matrices6 p).2.2.2.1
      refine ⟨?_, fun u => ?_⟩ <;> simp only <;> rw [this] <;> simp

theorem passive_C {e : Elm} (he : e ∈ r.elements) {E : LMat} (hE : e.C ω = .ok E) : Pos E := by
  rcases (mem_elements (init_ok h) e).1 he with ⟨⟨six, s⟩, hm, rfl⟩ | ⟨⟨six, s⟩, hm, rfl⟩ | ⟨b, hm, rfl⟩ |
    ⟨p, hm, rfl⟩
  · obtain ⟨h1, h2, h3, h4, h5, h6⟩ := hp.shaft _ hm
    cases six <;> cases hE
    · exact C12_damping_dissipates s h1 h2 h3 h4 h5 h6
    · intro u
      simp only [ShaftElement.C₆, add_mulVec, smul_mulVec, dotProduct_add, dotProduct_smul,
        smul_eq_mul]
      refine add_nonneg (mul_nonneg h5 ?_) (mul_nonneg h6 (K6_nonneg s h1 h2 h3 h4 u))
      by_cases hu : u = 0
      · simp [hu]
      · exact ((C11_mass_posDef s h1 h2).2 u hu).le
  · cases six <;> cases hE
    · have : s.C = 0 := (C03_gyro s).2.2.2.2
      intro u; simp only; rw [this]; simp
    · have : s.C₆ = 0 := (C03_six s).2.2.2.2.2.2
      intro u; simp only; rw [this]; simp
  · have hpb := hp.brg b hm
    cases b with
    | brg sl b =>
      obtain ⟨xx, yy, xy, yx, e1, e2, e3, e4, hS⟩ := brgC_support hE
      exact support_pos hS (form2 (hpb.damp _ _ _ _ e1 e3 e4 e2))
    | brg6 b =>
      obtain ⟨xx, yy, xy, yx, zz, e1, e2, e3, e4, e5, hS⟩ := brg6C_support hE
      exact support_pos hS (form3 (hpb.damp _ _ _ _ e1 e3 e4 e2)
        (hpb.axial zz (Or.inr (Or.inl e5))))
  · cases p <;> cases hE
    · rename_i p
      have : p.C = 0 := (C16_matrices p).2.2.1
      intro u; simp only; rw [this]; simp
    · rename_i p
      have : p.C = 0 := (C16_matrices6 p).2.2.1
      intro u; simp only; rw [this]; simp

omit h hp in
theorem work_nonneg {mat : Elm → Res LMat} {e : Elm} (hE : ∀ E, mat e = .ok E → Pos E) (nd N : ℕ)
    (x : ℕ → ℝ) : 0 ≤ workOf nd N mat e x x := by
  cases hm : mat e with
  | error e => simp [workOf, hm]
  | ok E => rw [workOf_ok hm]; exact hE E hm _

theorem bilin_K_nonneg (hf : ∀ e ∈ r.elements, Fits r.number_dof e)
    {B : Matrix (Fin r.ndof) (Fin r.ndof) ℝ} (hB : r.K ω = .ok B) (x : ℕ → ℝ) : 0 ≤ bilin B x x := by
  rw [(C18_stiffness h hf hB).2]
  refine List.sum_nonneg fun y hy => ?_
  obtain ⟨e, he, rfl⟩ := List.mem_map.1 hy
  exact work_nonneg (fun E hE => (passive_K h hp (List.mem_of_mem_filter he) hE).2) _ _ _

theorem bilin_C_nonneg (hf : ∀ e ∈ r.elements, Fits r.number_dof e)
    {B : Matrix (Fin r.ndof) (Fin r.ndof) ℝ} (hB : r.C ω = .ok B) (x : ℕ → ℝ) : 0 ≤ bilin B x x := by
  rw [(C18_damping h hf hB).2]
  refine List.sum_nonneg fun y hy => ?_
  obtain ⟨e, he, rfl⟩ := List.mem_map.1 hy
  exact work_nonneg (fun E hE => passive_C h hp (List.mem_of_mem_filter he) hE) _ _ _

end

/-- A passive rotor has the inertia of bodies. -/
theorem Passive.inertial (hp : Passive r ω) : Inertial r ω where
  shaft := fun e he => ⟨(hp.shaft e he).1, (hp.shaft e he).2.1⟩
  nodes := hp.nodes
  disk := hp.disk
  brg := fun b hb => ⟨(hp.brg b hb).mass, by
    have := (hp.brg b hb).axial
    cases b with
    | brg sl b => trivial
    | brg6 b => exact fun z hz => this z (Or.inr (Or.inr hz))⟩
  pm := hp.pm
  support := hp.support

section

variable (h : init pd fuel a = some (.ok r)) (hp : Inertial r ω)
include h hp

theorem inert_M {e : Elm} (he : e ∈ r.elements) {E : LMat} (hE : e.M ω = .ok E) :
    E.2ᵀ = E.2 ∧ Pos E := by
  rcases (mem_elements (init_ok h) e).1 he with ⟨⟨six, s⟩, hm, rfl⟩ | ⟨⟨six, s⟩, hm, rfl⟩ | ⟨b, hm, rfl⟩ |
    ⟨p, hm, rfl⟩
  · obtain ⟨h1, h2⟩ := hp.shaft _ hm
    cases six <;> cases hE
    · refine ⟨C05_mass_symm s, fun u => ?_⟩
      by_cases hu : u = 0
      · simp [hu]
      · exact (C05_mass_posDef s h1 h2 u hu).le
    · refine ⟨(C11_mass_posDef s h1 h2).1, fun u => ?_⟩
      by_cases hu : u = 0
      · simp [hu]
      · exact ((C11_mass_posDef s h1 h2).2 u hu).le
  · obtain ⟨h1, h2, h3⟩ := hp.disk _ hm
    cases six <;> cases hE
    · refine ⟨(C03_mass s).2.1, fun u => ?_⟩
      rw [(C03_mass s).1 u]; simp only at h1 h2; positivity
    · refine ⟨(C03_six s).2.1, fun u => ?_⟩
      rw [(C03_six s).1 u]; simp only at h1 h2 h3; positivity
  · have hpb := hp.brg b hm
    cases b with
    | brg sl b =>
      obtain ⟨xx, yy, xy, yx, e1, e2, e3, e4, hS⟩ := brgM_support hE
      obtain ⟨h1, h2⟩ := hpb.mass _ _ _ _ e1 e3 e4 e2
      subst h1
      exact ⟨support_symm hS (by ext i j; fin_cases i <;> fin_cases j <;> rfl),
        support_pos hS (form2 h2)⟩
    | brg6 b =>
      obtain ⟨xx, yy, xy, yx, zz, e1, e2, e3, e4, e5, hS⟩ := brg6M_support hE
      obtain ⟨h1, h2⟩ := hpb.mass _ _ _ _ e1 e3 e4 e2
      subst h1
      exact ⟨support_symm hS (by ext i j; fin_cases i <;> fin_cases j <;> rfl),
        support_pos hS (form3 h2 (hpb.axial zz e5))⟩
  · have hpp := hp.pm p hm
    cases p <;> cases hE
    · rename_i p
      obtain ⟨-, h1, h2⟩ := hpp
      rw [show p.M = diagonal ![p.mx, p.my] from (C16_matrices p).2.1]
      refine ⟨by simp, fun u => ?_⟩
      simp [dotProduct, mulVec_diagonal, Fin.sum_univ_two]
      nlinarith [mul_nonneg h1.le (sq_nonneg (u 0)), mul_nonneg h2.le (sq_nonneg (u 1))]
    · rename_i p
      obtain ⟨-, h1, h2, h3⟩ := hpp
      rw [show p.M = diagonal ![p.mx, p.my, p.mz] from (C16_matrices6 p).2.1]
      refine ⟨by simp, fun u => ?_⟩
      simp [dotProduct, mulVec_diagonal, Fin.sum_univ_three]
      nlinarith [mul_nonneg h1.le (sq_nonneg (u 0)), mul_nonneg h2.le (sq_nonneg (u 1)),
        mul_nonneg h3.le (sq_nonneg (u 2))]

theorem bilin_M_nonneg (hf : ∀ e ∈ r.elements, Fits r.number_dof e)
    {B : Matrix (Fin r.ndof) (Fin r.ndof) ℝ} (hB : r.M (some ω) = .ok B) (x : ℕ → ℝ) :
    0 ≤ bilin B x x := by
  rw [(C18_mass h hf hB).2]
  refine List.sum_nonneg fun y hy => ?_
  obtain ⟨e, he, rfl⟩ := List.mem_map.1 hy
  exact work_nonneg (fun E hE => (inert_M h hp he hE).2) _ _ _

/-- Every dof of the rotor is driven by a shaft element or a point mass with positive mass. -/
theorem covered (key : String × ℕ) (hk : IsDof r.number_dof (shaftEnd r) r.pms.length key) :
    ∃ e ∈ r.elements, (∃ E, e.M ω = .ok E ∧ E.1 = (attach r.number_dof e (e.n.getD 0)).length ∧
      ∀ u : Fin E.1 → ℝ, u ≠ 0 → 0 < u ⬝ᵥ (E.2 *ᵥ u)) ∧
      key ∈ attach r.number_dof e (e.n.getD 0) ∧ (∀ d, e ≠ .disk d) ∧ ∀ b, e ≠ .brg b := by
  have hb := init_ok h
  have shaftCase : ∀ e ∈ r.shaft, ∃ E, (Elm.shaft e).M ω = .ok E ∧
      E.1 = (attach r.number_dof (.shaft e) ((Elm.shaft e).n.getD 0)).length ∧
      ∀ u : Fin E.1 → ℝ, u ≠ 0 → 0 < u ⬝ᵥ (E.2 *ᵥ u) := by
    intro e he
    obtain ⟨h1, h2⟩ := hp.shaft _ he
    have h6 := shaft_six h ((mem_elements hb _).2 (Or.inl ⟨e, he, rfl⟩))
    rcases nd_cases hb with h4 | h4 <;> rw [h4] at h6 ⊢ <;> obtain ⟨six, s⟩ := e <;> cases six <;>
      simp at h6
    · exact ⟨_, rfl, by simp [attach, nodeLetters, dofsAt], C05_mass_posDef s h1 h2⟩
    · exact ⟨_, rfl, by simp [attach, nodeLetters, dofsAt], (C11_mass_posDef s h1 h2).2⟩
  rcases hk with ⟨hle, hl⟩ | ⟨h1, h2, hl⟩
  · obtain ⟨k, hk, hkey⟩ : ∃ k < shaftEnd r, key.2 = k ∨ key.2 = k + 1 := by
      rcases Nat.lt_or_ge key.2 (shaftEnd r) with hlt | hge
      · exact ⟨_, hlt, Or.inl rfl⟩
      · obtain ⟨e, he⟩ := List.exists_mem_of_ne_nil _ (shaft_ne hb)
        have : 0 < shaftEnd r := by
          rw [shaftEnd_last h]
          have := node_le_last hb he
          unfold lastShaftNode nodeOf at *
          omega
        exact ⟨shaftEnd r - 1, by omega, Or.inr (by omega)⟩
    obtain ⟨e, he, hn⟩ := hp.nodes k hk
    refine ⟨.shaft e, (mem_elements hb _).2 (Or.inl ⟨e, he, rfl⟩), shaftCase e he, ?_, by simp, by simp⟩
    have hn' : (Elm.shaft e).n.getD 0 = k := by simp [Elm.n, hn]
    rw [hn']
    simp only [attach, List.mem_append, mem_dofsAt]
    exact hkey.imp (fun h => ⟨hl, h⟩) (fun h => ⟨hl, h⟩)
  · obtain ⟨p, hpm, hn⟩ := hp.support key.2 h1 h2
    refine ⟨.pm p, (mem_elements hb _).2 (Or.inr (Or.inr (Or.inr ⟨p, hpm, rfl⟩))), ?_⟩
    have hn' : (Elm.pm p).n.getD 0 = key.2 := by simp [Elm.n, hn]
    rw [hn']
    have hpp := hp.pm p hpm
    cases p with
    | pm p =>
      obtain ⟨hnd, h3, h4⟩ := hpp
      refine ⟨⟨⟨2, p.M⟩, rfl, by simp [attach, dofsAt], fun u hu => ?_⟩, ?_, by simp, by simp⟩
      · simp only at u
        rw [show p.M = diagonal ![p.mx, p.my] from (C16_matrices p).2.1]
        have hne : u 0 ≠ 0 ∨ u 1 ≠ 0 := by
          by_contra hc
          push Not at hc
          exact hu (by ext i; fin_cases i <;> simp [hc.1, hc.2])
        simp [dotProduct, mulVec_diagonal, Fin.sum_univ_two]
        rcases hne with hne | hne
        · nlinarith [mul_pos h3 (sq_pos_of_ne_zero hne), mul_nonneg h4.le (sq_nonneg (u 1))]
        · nlinarith [mul_pos h4 (sq_pos_of_ne_zero hne), mul_nonneg h3.le (sq_nonneg (u 0))]
      · rw [hnd] at hl
        simpa [attach, mem_dofsAt, supportLetters] using hl
    | pm6 p =>
      obtain ⟨hnd, h3, h4, h5⟩ := hpp
      refine ⟨⟨⟨3, p.M⟩, rfl, by simp [attach, dofsAt], fun u hu => ?_⟩, ?_, by simp, by simp⟩
      · simp only at u
        rw [show p.M = diagonal ![p.mx, p.my, p.mz] from (C16_matrices6 p).2.1]
        have hne : u 0 ≠ 0 ∨ u 1 ≠ 0 ∨ u 2 ≠ 0 := by
          by_contra hc
          push Not at hc
          exact hu (by ext i; fin_cases i <;> simp [hc.1, hc.2.1, hc.2.2])
        simp [dotProduct, mulVec_diagonal, Fin.sum_univ_three]
        have a0 := mul_nonneg h3.le (sq_nonneg (u 0))
        have a1 := mul_nonneg h4.le (sq_nonneg (u 1))
        have a2 := mul_nonneg h5.le (sq_nonneg (u 2))
        rcases hne with hne | hne | hne
        · nlinarith [mul_pos h3 (sq_pos_of_ne_zero hne)]
        · nlinarith [mul_pos h4 (sq_pos_of_ne_zero hne)]
        · nlinarith [mul_pos h5 (sq_pos_of_ne_zero hne)]
      · rw [hnd] at hl
        simpa [attach, mem_dofsAt, supportLetters] using hl

theorem bilin_M_pos (hf : ∀ e ∈ r.elements, Fits r.number_dof e)
    {B : Matrix (Fin r.ndof) (Fin r.ndof) ℝ} (hB : r.M (some ω) = .ok B) (x : ℕ → ℝ)
    (hx : ∃ i < r.ndof, x i ≠ 0) : 0 < bilin B x x := by
  have hb := init_ok h
  obtain ⟨i, hi, hxi⟩ := hx
  rw [ndof_eq hb, ← shaftEnd_last h] at hi
  obtain ⟨key, hkey, rfl⟩ := slot_surj (nd_cases hb) hi
  obtain ⟨e, he, ⟨E, hE, hlen, hpos⟩, hmem, -⟩ := covered h hp key hkey
  rw [(C18_mass h hf hB).2]
  refine lt_of_lt_of_le ?_ (List.single_le_sum ?_ _ (List.mem_map_of_mem he))
  · simp only [Option.getD_some]
    rw [workOf_ok (mat := Elm.M _) hE]
    refine hpos _ fun h0 => hxi ?_
    obtain ⟨p, hp', hk⟩ := List.mem_iff_getElem.1 hmem
    have := congrFun h0 ⟨p, by rw [hlen]; exact hp'⟩
    simp only [loc, globalOf, Pi.zero_apply] at this
    rw [List.getD_eq_getElem?_getD, List.getElem?_eq_getElem (by simpa using hp'),
      Option.getD_some, List.getElem_map, hk] at this
    exact this
  · intro y hy
    obtain ⟨e, he, rfl⟩ := List.mem_map.1 hy
    exact work_nonneg (fun E hE => (inert_M h hp he hE).2) _ _ _

end

/-- A vector on the dofs of the rotor as a function of all indices. -/
def extend {N : ℕ} (v : Fin N → ℝ) (i : ℕ) : ℝ := if h : i < N then v ⟨i, h⟩ else 0

theorem bilin_extend {N : ℕ} (B : Matrix (Fin N) (Fin N) ℝ) (v w : Fin N → ℝ) :
    bilin B (extend v) (extend w) = v ⬝ᵥ (B *ᵥ w) := by
  simp only [bilin, extend, dotProduct, mulVec, Fin.is_lt, dif_pos, Finset.mul_sum, Fin.eta]
  exact Finset.sum_congr rfl fun i _ => Finset.sum_congr rfl fun j _ => by ring

theorem inert_forms (h : init pd fuel a = some (.ok r)) (hp : Inertial r ω)
    (hf : ∀ e ∈ r.elements, Fits r.number_dof e) :
    ∀ B, r.M (some ω) = .ok B → Bᵀ = B ∧ ∀ v ≠ 0, 0 < v ⬝ᵥ (B *ᵥ v) := by
  refine fun B hB => ⟨(C18_symm h ω).1 B hB fun e he E hE => (inert_M h hp he hE).1, fun v hv => ?_⟩
  rw [← bilin_extend]
  refine bilin_M_pos h hp hf hB _ ?_
  obtain ⟨i, hi⟩ := Function.ne_iff.1 hv
  exact ⟨i, i.2, by simpa [extend] using hi⟩

theorem passive_forms (h : init pd fuel a = some (.ok r)) (hp : Passive r ω)
    (hf : ∀ e ∈ r.elements, Fits r.number_dof e) :
    (∀ B, r.M (some ω) = .ok B → Bᵀ = B ∧ ∀ v ≠ 0, 0 < v ⬝ᵥ (B *ᵥ v)) ∧
    (∀ B, r.K ω = .ok B → Bᵀ = B ∧ ∀ v, 0 ≤ v ⬝ᵥ (B *ᵥ v)) ∧
    (∀ B, r.C ω = .ok B → ∀ v, 0 ≤ v ⬝ᵥ (B *ᵥ v)) := by
  refine ⟨fun B hB => ⟨?_, fun v hv => ?_⟩, fun B hB => ⟨?_, fun v => ?_⟩, fun B hB v => ?_⟩
  · exact (inert_forms h (Passive.inertial hp) hf B hB).1
  · exact (inert_forms h (Passive.inertial hp) hf B hB).2 v hv
  · exact (C18_symm h ω).2.1 B hB fun e he E hE => (passive_K h hp he hE).1
  · rw [← bilin_extend]; exact bilin_K_nonneg h hp hf hB _
  · rw [← bilin_extend]; exact bilin_C_nonneg h hp hf hB _

end Ross.AssemblyLemmas
