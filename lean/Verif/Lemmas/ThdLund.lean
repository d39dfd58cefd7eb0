import Verif.Lemmas.GaussSeidel
import Verif.Lemmas.LinearDeriv
import Verif.Model.ThdLund
import Verif.Props.ThdForces

/-! # The pressure in the film of a journal that whirls -/

namespace Ross.ThdLemmas

open Real Thd Thd.THD Stencil Spec.Fluid Spec.Thd Filter Topology

theorem lund_CE_eq (B : THD) (J : Journal) (n_p : ℕ) (mu : ℕ → ℕ → ℝ) : B.lund_CE J n_p mu = B.CE J n_p mu := by
  funext i j
  unfold lund_CE CE
  ring

theorem lund_CW_eq (B : THD) (J : Journal) (n_p : ℕ) (mu : ℕ → ℕ → ℝ) : B.lund_CW J n_p mu = B.CW J n_p mu := by
  funext i j
  unfold lund_CW CW
  ring

theorem lund_CN_eq (B : THD) (J : Journal) (n_p : ℕ) (mu : ℕ → ℕ → ℝ) : B.lund_CN J n_p mu = B.CN J n_p mu := by
  funext i j
  unfold lund_CN CN
  ring

theorem lund_CS_eq (B : THD) (J : Journal) (n_p : ℕ) (mu : ℕ → ℕ → ℝ) : B.lund_CS J n_p mu = B.CS J n_p mu := by
  funext i j
  unfold lund_CS CS
  ring

theorem lund_row_eq (B : THD) (J : Journal) (n_p : ℕ) (mu : ℕ → ℕ → ℝ) :
    B.lund_row J n_p mu = B.Mat_coef J n_p mu := by
  funext k c
  unfold lund_row Mat_coef
  rw [lund_CE_eq, lund_CW_eq, lund_CN_eq, lund_CS_eq]

/-- Where there is pressure. -/
def Loaded (B : THD) (F : LundFilm) (k : ℕ) : Prop :=
  0 < F.P (k / B.elements_circumferential) (k % B.elements_circumferential)

theorem lund_sweep_eq (B : THD) (inj : ℝ) (D : ℝ → ℝ) (n_p : ℕ) (F : LundFilm) (x : ℕ → ℂ) :
    B.lund_sweep inj D n_p F x = GaussSeidel.sweep (B.elements_axial * B.elements_circumferential)
      (B.Mat_coef F.J n_p F.mu) (B.lund_B inj D n_p F) (Loaded B F) x := by
  unfold lund_sweep GaussSeidel.sweep GaussSeidel.part
  congr 1
  funext x k
  unfold lund_cell GaussSeidel.cell
  by_cases h : Loaded B F k
  · rw [if_pos h, if_pos (show 0 < F.P _ _ from h)]
    unfold lund_entry GaussSeidel.entry
    rw [lund_row_eq]
  · rw [if_neg h, if_neg (show ¬0 < F.P _ _ from h)]

theorem index_eq (nc k : ℕ) : k / nc * nc + k % nc = k := by
  rw [mul_comm]; exact Nat.div_add_mod _ _

/-- The entries of the matrix off the diagonal are not negative, and those on it are. -/
theorem entry_signs {B : THD} {J : Journal} {n_p : ℕ} {mu : ℕ → ℕ → ℝ} (ho : Open B J n_p mu)
    (h2a : 2 ≤ B.elements_axial) (h2c : 2 ≤ B.elements_circumferential) {k : ℕ}
    (hk : k < B.elements_axial * B.elements_circumferential) :
    B.Mat_coef J n_p mu k k < 0 ∧ ∀ c, c ≠ k → 0 ≤ B.Mat_coef J n_p mu k c := by
  have hc : 0 < B.elements_circumferential := by omega
  have hi : k / B.elements_circumferential < B.elements_axial := (Nat.div_lt_iff_lt_mul hc).2 hk
  have hj : k % B.elements_circumferential < B.elements_circumferential := Nat.mod_lt _ hc
  obtain ⟨w, e, n, s⟩ := ho.signs h2a h2c hi hj
  constructor
  · unfold Mat_coef
    dsimp only
    rw [row_P_entries B rfl rfl h2a h2c _ _ _ _ _ hi hj, if_pos (show k = k from rfl),
      if_neg (show ¬k = k + 1 by omega), if_neg (show ¬k + 1 = k by omega),
      if_neg (show ¬k = k + B.elements_circumferential by omega), if_neg (show ¬k + B.elements_circumferential = k by omega)]
    have g : ∀ (p : Prop) [Decidable p] (x : ℝ), 0 < x → 0 ≤ if p then x else 0 := by
      intro p _ x hx
      split_ifs
      · exact hx.le
      · exact le_rfl
    linarith [g (k / B.elements_circumferential = 0) _ s, g (k % B.elements_circumferential = 0) _ w,
      g (k % B.elements_circumferential = B.elements_circumferential - 1) _ e,
      g (k / B.elements_circumferential = B.elements_axial - 1) _ n]
  · intro c hck
    unfold Mat_coef
    dsimp only
    rw [row_P_entries B rfl rfl h2a h2c _ _ _ _ _ hi hj, if_neg hck, zero_add]
    have g : ∀ (p q : Prop) [Decidable p] [Decidable q] (x : ℝ), 0 < x →
        0 ≤ if p then (if q then 0 else x) else 0 := by
      intro p q _ _ x hx
      split_ifs
      · exact le_rfl
      · exact hx.le
      · exact le_rfl
    exact add_nonneg (add_nonneg (add_nonneg (g _ _ _ e) (g _ _ _ w)) (g _ _ _ n)) (g _ _ _ s)

theorem op_uniq {B : THD} {J : Journal} {n_p : ℕ} {mu : ℕ → ℕ → ℝ} (ho : Open B J n_p mu)
    (h2a : 2 ≤ B.elements_axial) (h2c : 2 ≤ B.elements_circumferential) (x : ℕ → ℝ)
    (hx : Solves (B.elements_axial * B.elements_circumferential) (B.Mat_coef J n_p mu) (fun _ => 0) x) :
    ∀ k < B.elements_axial * B.elements_circumferential, x k = 0 := by
  intro r hr
  have := (solves_P B h2a h2c (fun _ _ => 0) x).1 hx
  have h0 := op_inj (t := fun i j => x (i * B.elements_circumferential + j)) (u := fun _ _ => 0)
    (fun i hi j hj => (ho.signs h2a h2c hi hj).1) (fun i hi j hj => (ho.signs h2a h2c hi hj).2.1.le)
    (fun i hi j hj => (ho.signs h2a h2c hi hj).2.2.1.le) (fun i hi j hj => (ho.signs h2a h2c hi hj).2.2.2.le)
    zero_le_two zero_le_two zero_le_two (fun i hi j hj => by rw [this i hi j hj, op_zero, neg_zero])
  have hc : 0 < B.elements_circumferential := by omega
  have := h0 _ ((Nat.div_lt_iff_lt_mul hc).2 hr) _ (Nat.mod_lt r hc)
  simp only [index_eq] at this
  exact this

/-- The diagonal outweighs the rest. -/
theorem dominant {B : THD} {J : Journal} {n_p : ℕ} {mu : ℕ → ℕ → ℝ} (ho : Open B J n_p mu)
    (h2a : 2 ≤ B.elements_axial) (h2c : 2 ≤ B.elements_circumferential) :
    ∃ v θ, GaussSeidel.Dominant (B.elements_axial * B.elements_circumferential) (B.Mat_coef J n_p mu) v θ := by
  set N := B.elements_axial * B.elements_circumferential with hN
  obtain ⟨v, hv, -⟩ := solves_exists (op_uniq ho h2a h2c) (fun _ => -1)
  have hop := (solves_P B h2a h2c (fun _ _ => -1) v).1 hv
  have hnn := op_nonneg (t := fun i j => v (i * B.elements_circumferential + j))
    (fun i hi j hj => (ho.signs h2a h2c hi hj).1)
    (fun i hi j hj => (ho.signs h2a h2c hi hj).2.1.le)
    (fun i hi j hj => (ho.signs h2a h2c hi hj).2.2.1.le) (fun i hi j hj => (ho.signs h2a h2c hi hj).2.2.2.le)
    zero_le_two zero_le_two zero_le_two (fun i hi j hj => by rw [hop i hi j hj]; norm_num)
  have hc : 0 < B.elements_circumferential := by omega
  have hv0 : ∀ k < N, 0 ≤ v k := by
    intro k hk
    have := hnn _ ((Nat.div_lt_iff_lt_mul hc).2 hk) _ (Nat.mod_lt k hc)
    simp only [index_eq] at this
    exact this
  have hrest : ∀ k < N, ∑ c ∈ (Finset.range N).erase k, |B.Mat_coef J n_p mu k c| * v c =
      |B.Mat_coef J n_p mu k k| * v k - 1 := by
    intro k hk
    obtain ⟨h1, h2⟩ := entry_signs ho h2a h2c hk
    have h3 := hv k hk
    rw [← Finset.add_sum_erase _ _ (Finset.mem_range.2 hk)] at h3
    rw [abs_of_neg h1, Finset.sum_congr rfl (fun c hc => by rw [abs_of_nonneg (h2 c (Finset.ne_of_mem_erase hc))])]
    linarith
  have hbig : ∀ k < N, 1 ≤ |B.Mat_coef J n_p mu k k| * v k := by
    intro k hk
    have : 0 ≤ ∑ c ∈ (Finset.range N).erase k, |B.Mat_coef J n_p mu k c| * v c :=
      Finset.sum_nonneg fun c hc => mul_nonneg (abs_nonneg _) (hv0 c (Finset.mem_range.1 (Finset.mem_of_mem_erase hc)))
    rw [hrest k hk] at this
    linarith
  set W := 1 + ∑ k ∈ Finset.range N, |B.Mat_coef J n_p mu k k| * v k with hW
  have hWk : ∀ k < N, |B.Mat_coef J n_p mu k k| * v k ≤ W := by
    intro k hk
    have := Finset.single_le_sum (f := fun k => |B.Mat_coef J n_p mu k k| * v k)
      (fun c hc => mul_nonneg (abs_nonneg _) (hv0 c (Finset.mem_range.1 hc))) (Finset.mem_range.2 hk)
    linarith
  have hW1 : 1 ≤ W := by
    have : 0 ≤ ∑ k ∈ Finset.range N, |B.Mat_coef J n_p mu k k| * v k :=
      Finset.sum_nonneg fun c hc => mul_nonneg (abs_nonneg _) (hv0 c (Finset.mem_range.1 hc))
    linarith
  have hWp : 0 < W := by linarith
  refine ⟨v, 1 - 1 / W, fun k hk => ?_, ?_, ?_, fun k hk => (entry_signs ho h2a h2c hk).1.ne, fun k hk => ?_⟩
  · rcases (hv0 k hk).eq_or_lt with h | h
    · have := hbig k hk
      rw [← h, mul_zero] at this
      linarith
    · exact h
  · have : 1 / W ≤ 1 := by rw [div_le_one hWp]; exact hW1
    linarith
  · have : 0 < 1 / W := by positivity
    linarith
  · rw [hrest k hk]
    have : |B.Mat_coef J n_p mu k k| * v k / W ≤ 1 := by rw [div_le_one hWp]; exact hWk k hk
    have e : (1 - 1 / W) * (|B.Mat_coef J n_p mu k k| * v k) =
        |B.Mat_coef J n_p mu k k| * v k - |B.Mat_coef J n_p mu k k| * v k / W := by ring
    rw [e]
    linarith

/-- A journal that is moved by `s` in a direction: the film becomes thicker by `s a D`, and its rate by `s b D`. -/
structure Moves (B : THD) (J : Journal) (n_p : ℕ) (D : ℝ → ℝ) (a b : ℝ) (Js : ℝ → Journal) : Prop where
  film : ∀ s t, B.film (Js s) n_p t = B.film J n_p t + s * (a * D t)
  rate : ∀ s t, (Js s).Xpt * cos t + (Js s).Ypt * sin t = J.Xpt * cos t + J.Ypt * sin t - s * (b * D t)

theorem moves_X (B : THD) (J : Journal) (n_p : ℕ) : Moves B J n_p HX 1 0 (fun s => { J with X := J.X + s }) :=
  ⟨fun s t => by unfold THD.film HX; dsimp only; split_ifs <;> ring, fun s t => by dsimp only; ring⟩

theorem moves_Y (B : THD) (J : Journal) (n_p : ℕ) : Moves B J n_p HY 1 0 (fun s => { J with Y := J.Y + s }) :=
  ⟨fun s t => by unfold THD.film HY; dsimp only; split_ifs <;> ring, fun s t => by dsimp only; ring⟩

theorem moves_Xpt (B : THD) (J : Journal) (n_p : ℕ) : Moves B J n_p HX 0 1 (fun s => { J with Xpt := J.Xpt + s }) :=
  ⟨fun s t => by unfold THD.film; dsimp only; ring, fun s t => by unfold HX; dsimp only; ring⟩

theorem moves_Ypt (B : THD) (J : Journal) (n_p : ℕ) : Moves B J n_p HY 0 1 (fun s => { J with Ypt := J.Ypt + s }) :=
  ⟨fun s t => by unfold THD.film; dsimp only; ring, fun s t => by unfold HY; dsimp only; ring⟩

theorem linear_deriv (h d : ℝ) : HasDerivAt (fun s : ℝ => h + s * d) d 0 := by
  have := ((hasDerivAt_id (0 : ℝ)).mul_const d).const_add h
  simpa using this

theorem cube_deriv (h d : ℝ) : HasDerivAt (fun s : ℝ => (h + s * d) ^ 3) (3 * h ^ 2 * d) 0 := by
  have := (linear_deriv h d).fun_pow 3
  simpa using this

variable {B : THD} {J : Journal} {n_p : ℕ} {mu : ℕ → ℕ → ℝ} {D : ℝ → ℝ} {a b : ℝ} {Js : ℝ → Journal}

theorem CE_deriv (hm : Moves B J n_p D a b Js) (i j : ℕ) :
    HasDerivAt (fun s => B.CE (Js s) n_p mu i j) (-(a * B.CDE D J n_p mu i j)) 0 := by
  unfold CE
  simp only [hm.film]
  have := ((cube_deriv (B.film J n_p (B.jj n_p j + 0.5 * B.dtheta)) (a * D (B.jj n_p j + 0.5 * B.dtheta))).const_mul
    B.dZ).div_const (12 * B.MU_e mu i j * B.dY * B.betha_s ^ 2)
  refine this.congr_deriv ?_
  unfold CDE
  ring

theorem CW_deriv (hm : Moves B J n_p D a b Js) (i j : ℕ) :
    HasDerivAt (fun s => B.CW (Js s) n_p mu i j) (-(a * B.CDW D J n_p mu i j)) 0 := by
  unfold CW
  simp only [hm.film]
  have := ((cube_deriv (B.film J n_p (B.jj n_p j - 0.5 * B.dtheta)) (a * D (B.jj n_p j - 0.5 * B.dtheta))).const_mul
    B.dZ).div_const (12 * MU_w mu i j * B.dY * B.betha_s ^ 2)
  refine this.congr_deriv ?_
  unfold CDW
  ring

theorem CN_deriv (hm : Moves B J n_p D a b Js) (i j : ℕ) :
    HasDerivAt (fun s => B.CN (Js s) n_p mu i j) (-(a * B.CDN D J n_p mu i j)) 0 := by
  unfold CN
  simp only [hm.film]
  have := ((cube_deriv (B.film J n_p (B.jj n_p j)) (a * D (B.jj n_p j))).const_mul
    (B.dY * B.journal_radius ^ 2)).div_const (12 * B.MU_n mu i j * B.dZ * B.axial_length ^ 2)
  refine this.congr_deriv ?_
  unfold CDN
  ring

theorem CS_deriv (hm : Moves B J n_p D a b Js) (i j : ℕ) :
    HasDerivAt (fun s => B.CS (Js s) n_p mu i j) (-(a * B.CDS D J n_p mu i j)) 0 := by
  unfold CS
  simp only [hm.film]
  have := ((cube_deriv (B.film J n_p (B.jj n_p j)) (a * D (B.jj n_p j))).const_mul
    (B.dY * B.journal_radius ^ 2)).div_const (12 * MU_s mu i j * B.dZ * B.axial_length ^ 2)
  refine this.congr_deriv ?_
  unfold CDS
  ring

theorem source_deriv (hm : Moves B J n_p D a b Js) (j : ℕ) :
    HasDerivAt (fun s => B.source (Js s) n_p j)
      (a * (B.dZ / (2 * B.betha_s) * (D (B.jj n_p j + 0.5 * B.dtheta) - D (B.jj n_p j - 0.5 * B.dtheta))) +
        b * (D (B.jj n_p j) * B.dY * B.dZ)) 0 := by
  unfold source
  simp only [hm.film, hm.rate]
  have e : (fun s : ℝ => B.dZ / (2 * B.betha_s) *
        (B.film J n_p (B.jj n_p j + 0.5 * B.dtheta) + s * (a * D (B.jj n_p j + 0.5 * B.dtheta)) -
          (B.film J n_p (B.jj n_p j - 0.5 * B.dtheta) + s * (a * D (B.jj n_p j - 0.5 * B.dtheta)))) -
      (J.Xpt * cos (B.jj n_p j) + J.Ypt * sin (B.jj n_p j) - s * (b * D (B.jj n_p j))) * B.dY * B.dZ) = fun s : ℝ =>
      (B.dZ / (2 * B.betha_s) * (B.film J n_p (B.jj n_p j + 0.5 * B.dtheta) - B.film J n_p (B.jj n_p j - 0.5 * B.dtheta)) -
        (J.Xpt * cos (B.jj n_p j) + J.Ypt * sin (B.jj n_p j)) * B.dY * B.dZ) + s *
      (a * (B.dZ / (2 * B.betha_s) * (D (B.jj n_p j + 0.5 * B.dtheta) - D (B.jj n_p j - 0.5 * B.dtheta))) +
        b * (D (B.jj n_p j) * B.dY * B.dZ)) := by
    funext s
    ring
  rw [e]
  exact linear_deriv _ _

theorem op_deriv {na nc : ℕ} {w e n s x : ℝ → ℕ → ℕ → ℝ} {w' e' n' s' x' : ℕ → ℕ → ℝ} {kE kN kS : ℝ} {i j : ℕ}
    (hi : i < na) (hj : j < nc)
    (hw : HasDerivAt (fun t => w t i j) (w' i j) 0) (he : HasDerivAt (fun t => e t i j) (e' i j) 0)
    (hn : HasDerivAt (fun t => n t i j) (n' i j) 0) (hs : HasDerivAt (fun t => s t i j) (s' i j) 0)
    (hx : ∀ i < na, ∀ j < nc, HasDerivAt (fun t => x t i j) (x' i j) 0) :
    HasDerivAt (fun t => op na nc (w t) (e t) (n t) (s t) kE kN kS (x t) i j)
      (op na nc w' e' n' s' kE kN kS (x 0) i j + op na nc (w 0) (e 0) (n 0) (s 0) kE kN kS x' i j) 0 := by
  unfold op
  have h0 := hx i hi j hj
  have gW : HasDerivAt (fun t => if j = 0 then 2 * x t i j else x t i j - x t i (j - 1))
      (if j = 0 then 2 * x' i j else x' i j - x' i (j - 1)) 0 := by
    split_ifs
    · exact h0.const_mul _
    · exact h0.sub (hx i hi (j - 1) (by omega))
  have gE : HasDerivAt (fun t => if j = nc - 1 then kE * x t i j else x t i j - x t i (j + 1))
      (if j = nc - 1 then kE * x' i j else x' i j - x' i (j + 1)) 0 := by
    split_ifs
    · exact h0.const_mul _
    · exact h0.sub (hx i hi (j + 1) (by omega))
  have gN : HasDerivAt (fun t => if i = na - 1 then kN * x t i j else x t i j - x t (i + 1) j)
      (if i = na - 1 then kN * x' i j else x' i j - x' (i + 1) j) 0 := by
    split_ifs
    · exact h0.const_mul _
    · exact h0.sub (hx (i + 1) (by omega) j hj)
  have gS : HasDerivAt (fun t => if i = 0 then kS * x t i j else x t i j - x t (i - 1) j)
      (if i = 0 then kS * x' i j else x' i j - x' (i - 1) j) 0 := by
    split_ifs
    · exact h0.const_mul _
    · exact h0.sub (hx (i - 1) (by omega) j hj)
  have := (((hw.fun_mul gW).fun_add (he.fun_mul gE)).fun_add (hn.fun_mul gN)).fun_add (hs.fun_mul gS)
  refine this.congr_deriv ?_
  ring

theorem film_pos_near (hm : Moves B J n_p D a b Js) {t : ℝ} (h : 0 < B.film J n_p t) :
    ∀ᶠ s in 𝓝 (0 : ℝ), 0 < B.film (Js s) n_p t := by
  have hd := linear_deriv (B.film J n_p t) (a * D t)
  have hc := hd.continuousAt.eventually_mem (lt_mem_nhds (a := 0) (by rw [zero_mul, add_zero]; exact h))
  filter_upwards [hc] with s hs
  rw [hm.film]
  exact hs

theorem open_near (hm : Moves B J n_p D a b Js) (ho : Open B J n_p mu) : ∀ᶠ s in 𝓝 (0 : ℝ), Open B (Js s) n_p mu := by
  have h1 : ∀ᶠ s in 𝓝 (0 : ℝ), ∀ j ∈ Finset.range B.elements_circumferential, 0 < B.film (Js s) n_p (B.jj n_p j) :=
    (Filter.eventually_all_finset _).2 fun j hj => film_pos_near hm (ho.middle j (Finset.mem_range.1 hj))
  have h2 : ∀ᶠ s in 𝓝 (0 : ℝ), ∀ j ∈ Finset.range (B.elements_circumferential + 1), 0 < face B (Js s) n_p j :=
    (Filter.eventually_all_finset _).2 fun j hj =>
      film_pos_near hm (ho.faces j (Nat.lt_succ_iff.1 (Finset.mem_range.1 hj)))
  filter_upwards [h1, h2] with s g1 g2
  exact ⟨fun j hj => g1 j (Finset.mem_range.2 hj), fun j hj => g2 j (Finset.mem_range.2 (by omega)), ho.viscosity, ho.arc,
    ho.radius, ho.length⟩

theorem coef_differentiable (hm : Moves B J n_p D a b Js) (h2a : 2 ≤ B.elements_axial)
    (h2c : 2 ≤ B.elements_circumferential) {r : ℕ} (hr : r < B.elements_axial * B.elements_circumferential) (c : ℕ) :
    DifferentiableAt ℝ (fun s => B.Mat_coef (Js s) n_p mu r c) 0 := by
  have hc : 0 < B.elements_circumferential := by omega
  have hi : r / B.elements_circumferential < B.elements_axial := (Nat.div_lt_iff_lt_mul hc).2 hr
  have hj : r % B.elements_circumferential < B.elements_circumferential := Nat.mod_lt _ hc
  unfold Mat_coef
  dsimp only
  simp only [row_P_entries B rfl rfl h2a h2c _ _ _ _ _ hi hj]
  have dE := (CE_deriv (mu := mu) hm (r / B.elements_circumferential) (r % B.elements_circumferential)).differentiableAt
  have dW := (CW_deriv (mu := mu) hm (r / B.elements_circumferential) (r % B.elements_circumferential)).differentiableAt
  have dN := (CN_deriv (mu := mu) hm (r / B.elements_circumferential) (r % B.elements_circumferential)).differentiableAt
  have dS := (CS_deriv (mu := mu) hm (r / B.elements_circumferential) (r % B.elements_circumferential)).differentiableAt
  have pick : ∀ (p : Prop) [Decidable p] (f : ℝ → ℝ), DifferentiableAt ℝ f 0 →
      DifferentiableAt ℝ (fun s => if p then f s else 0) 0 := by
    intro p _ f hf
    split_ifs
    · exact hf
    · exact differentiableAt_const _
  have pick' : ∀ (p : Prop) [Decidable p] (f : ℝ → ℝ), DifferentiableAt ℝ f 0 →
      DifferentiableAt ℝ (fun s => if p then 0 else f s) 0 := by
    intro p _ f hf
    split_ifs
    · exact differentiableAt_const _
    · exact hf
  refine ((((pick _ _ ?_).fun_add (pick _ _ (pick' _ _ dE))).fun_add (pick _ _ (pick' _ _ dW))).fun_add
    (pick _ _ (pick' _ _ dN))).fun_add (pick _ _ (pick' _ _ dS))
  exact (((((dE.fun_add dW).fun_add dN).fun_add dS).fun_neg.fun_sub (pick _ _ dS)).fun_sub (pick _ _ dW)).fun_sub
    (pick _ _ dE) |>.fun_sub (pick _ _ dN)

/-- How the solution of the equations changes as the journal moves. -/
theorem pressure_deriv {solve} (hsp : SolverOk solve) (hm : Moves B J n_p D a b Js) (h0 : Js 0 = J) (ho : Open B J n_p mu)
    (h2a : 2 ≤ B.elements_axial) (h2c : 2 ≤ B.elements_circumferential) :
    ∃ q : ℕ → ℕ → ℝ, ∀ i < B.elements_axial, ∀ j < B.elements_circumferential,
      HasDerivAt (fun s => solve (B.elements_axial * B.elements_circumferential) (B.Mat_coef (Js s) n_p mu)
        (B.b_P (Js s) n_p) (i * B.elements_circumferential + j)) (q i j) 0 ∧
      op B.elements_axial B.elements_circumferential (B.CW J n_p mu) (B.CE J n_p mu) (B.CN J n_p mu)
          (B.CS J n_p mu) 2 2 2 q i j =
        a * (op B.elements_axial B.elements_circumferential (B.CDW D J n_p mu) (B.CDE D J n_p mu) (B.CDN D J n_p mu)
          (B.CDS D J n_p mu) 2 2 2 (fun i j => solve (B.elements_axial * B.elements_circumferential)
            (B.Mat_coef J n_p mu) (B.b_P J n_p) (i * B.elements_circumferential + j)) i j -
          B.dZ / (2 * B.betha_s) * (D (B.jj n_p j + 0.5 * B.dtheta) - D (B.jj n_p j - 0.5 * B.dtheta))) -
        b * (D (B.jj n_p j) * B.dY * B.dZ) := by
  set N := B.elements_axial * B.elements_circumferential with hN
  set Q : ℝ → ℕ → ℝ := fun s => solve N (B.Mat_coef (Js s) n_p mu) (B.b_P (Js s) n_p) with hQ
  have hev : ∀ᶠ s in 𝓝 (0 : ℝ), Solves N (B.Mat_coef (Js s) n_p mu) (B.b_P (Js s) n_p) (Q s) := by
    filter_upwards [open_near hm ho] with s hs
    obtain ⟨x, hx, hux⟩ := pressure_exists hs h2a h2c
    exact hsp _ _ _ x hx hux
  have hdiff := solution_differentiable (x := Q) (fun r hr c _ => coef_differentiable (mu := mu) hm h2a h2c hr c)
    (fun r _ => (source_deriv hm (r % B.elements_circumferential)).differentiableAt)
    (by rw [h0]; exact op_uniq ho h2a h2c) hev
  refine ⟨fun i j => deriv (fun s => Q s (i * B.elements_circumferential + j)) 0, fun i hi j hj => ?_⟩
  refine ⟨(hdiff _ (index_lt hi hj)).hasDerivAt, ?_⟩
  have hop := op_deriv (kE := 2) (kN := 2) (kS := 2) (x := fun s i j => Q s (i * B.elements_circumferential + j))
    (w' := fun i j => -(a * B.CDW D J n_p mu i j)) (e' := fun i j => -(a * B.CDE D J n_p mu i j))
    (n' := fun i j => -(a * B.CDN D J n_p mu i j)) (s' := fun i j => -(a * B.CDS D J n_p mu i j))
    (w := fun s => B.CW (Js s) n_p mu) (e := fun s => B.CE (Js s) n_p mu)
    (n := fun s => B.CN (Js s) n_p mu) (s := fun s => B.CS (Js s) n_p mu) hi hj (CW_deriv hm i j) (CE_deriv hm i j)
    (CN_deriv hm i j) (CS_deriv hm i j) (fun i hi j hj => (hdiff _ (index_lt hi hj)).hasDerivAt)
  have hsrc := (source_deriv hm j).fun_neg
  have heq : (fun s => -B.source (Js s) n_p j) =ᶠ[𝓝 0]
      fun s => op B.elements_axial B.elements_circumferential (B.CW (Js s) n_p mu) (B.CE (Js s) n_p mu)
        (B.CN (Js s) n_p mu) (B.CS (Js s) n_p mu) 2 2 2 (fun i j => Q s (i * B.elements_circumferential + j)) i j := by
    filter_upwards [hev] with s hs
    exact ((solves_P B h2a h2c (fun _ j => B.source (Js s) n_p j) _).1 hs i hi j hj).symm
  have := (hop.congr_of_eventuallyEq heq).unique hsrc
  have e0 : Q 0 = solve N (B.Mat_coef J n_p mu) (B.b_P J n_p) := by rw [hQ]; dsimp only; rw [h0]
  rw [h0, e0] at this
  have e1 : op B.elements_axial B.elements_circumferential (fun i j => -(a * B.CDW D J n_p mu i j))
      (fun i j => -(a * B.CDE D J n_p mu i j)) (fun i j => -(a * B.CDN D J n_p mu i j))
      (fun i j => -(a * B.CDS D J n_p mu i j)) 2 2 2 (fun i j => solve N (B.Mat_coef J n_p mu) (B.b_P J n_p)
        (i * B.elements_circumferential + j)) i j =
      -(a * op B.elements_axial B.elements_circumferential (B.CDW D J n_p mu) (B.CDE D J n_p mu) (B.CDN D J n_p mu)
          (B.CDS D J n_p mu) 2 2 2 (fun i j => solve N (B.Mat_coef J n_p mu) (B.b_P J n_p)
        (i * B.elements_circumferential + j)) i j) := by
    unfold op
    ring
  rw [e1] at this
  linear_combination this

theorem mat_sum (h2a : 2 ≤ B.elements_axial) (h2c : 2 ≤ B.elements_circumferential) (x : ℕ → ℝ) {i j : ℕ}
    (hi : i < B.elements_axial) (hj : j < B.elements_circumferential) :
    ∑ c ∈ Finset.range (B.elements_axial * B.elements_circumferential),
      B.Mat_coef J n_p mu (i * B.elements_circumferential + j) c * x c =
    -op B.elements_axial B.elements_circumferential (B.CW J n_p mu) (B.CE J n_p mu) (B.CN J n_p mu)
        (B.CS J n_p mu) 2 2 2 (fun i j => x (i * B.elements_circumferential + j)) i j := by
  rw [← row_P_sum B rfl rfl h2a h2c (B.CE J n_p mu) (B.CW J n_p mu) (B.CN J n_p mu) (B.CS J n_p mu) x hi hj]
  refine Finset.sum_congr rfl fun c _ => ?_
  unfold Mat_coef
  rw [index_div hj, index_mod hj]

theorem rowD_sum (h2a : 2 ≤ B.elements_axial) (h2c : 2 ≤ B.elements_circumferential) (P : ℕ → ℕ → ℝ) {i j : ℕ}
    (hi : i < B.elements_axial) (hj : j < B.elements_circumferential) :
    ∑ c ∈ Finset.range (B.elements_axial * B.elements_circumferential),
      B.lund_rowD D J n_p mu (i * B.elements_circumferential + j) c *
        P (c / B.elements_circumferential) (c % B.elements_circumferential) =
    -op B.elements_axial B.elements_circumferential (B.CDW D J n_p mu) (B.CDE D J n_p mu) (B.CDN D J n_p mu)
        (B.CDS D J n_p mu) 2 2 2 P i j := by
  have := row_P_sum B rfl rfl h2a h2c (B.CDE D J n_p mu) (B.CDW D J n_p mu) (B.CDN D J n_p mu) (B.CDS D J n_p mu)
    (fun c => P (c / B.elements_circumferential) (c % B.elements_circumferential)) hi hj
  rw [op_congr (u := P) (fun i _ j hj => by rw [index_div hj, index_mod hj]) hi hj] at this
  rw [← this]
  refine Finset.sum_congr rfl fun c _ => ?_
  unfold lund_rowD
  rw [index_div hj, index_mod hj]

/-- The right-hand side, in a film full of oil. -/
theorem lund_B_full (h2a : 2 ≤ B.elements_axial) (h2c : 2 ≤ B.elements_circumferential) (inj : ℝ) (P : ℕ → ℕ → ℝ)
    {i j : ℕ} (hi : i < B.elements_axial) (hj : j < B.elements_circumferential) :
    B.lund_B inj D n_p ⟨J, P, mu, fun _ _ => 1, 1⟩ (i * B.elements_circumferential + j) =
      ((-op B.elements_axial B.elements_circumferential (B.CDW D J n_p mu) (B.CDE D J n_p mu) (B.CDN D J n_p mu)
        (B.CDS D J n_p mu) 2 2 2 P i j +
        B.dZ / (2 * B.betha_s) * (D (B.jj n_p j + 0.5 * B.dtheta) - D (B.jj n_p j - 0.5 * B.dtheta)) +
        (if j = 0 then 2 * B.CDW D J n_p mu i j * inj else 0) : ℝ) : ℂ) +
      ((lund_gamma * (D (B.jj n_p j) * B.dY * B.dZ) : ℝ) : ℂ) * Complex.I := by
  unfold lund_B
  dsimp only
  rw [rowD_sum h2a h2c P hi hj, index_div hj, index_mod hj]
  unfold KDW KDP
  split_ifs with h
  · push_cast
    ring
  · push_cast
    ring

/-- The equations that belong to the solution of the sweeps. -/
theorem lund_solution {P : ℕ → ℕ → ℝ} (h2a : 2 ≤ B.elements_axial) (h2c : 2 ≤ B.elements_circumferential)
    {q v : ℕ → ℕ → ℝ}
    (hq : ∀ i < B.elements_axial, ∀ j < B.elements_circumferential,
      op B.elements_axial B.elements_circumferential (B.CW J n_p mu) (B.CE J n_p mu) (B.CN J n_p mu)
          (B.CS J n_p mu) 2 2 2 q i j =
        op B.elements_axial B.elements_circumferential (B.CDW D J n_p mu) (B.CDE D J n_p mu) (B.CDN D J n_p mu)
          (B.CDS D J n_p mu) 2 2 2 P i j -
          B.dZ / (2 * B.betha_s) * (D (B.jj n_p j + 0.5 * B.dtheta) - D (B.jj n_p j - 0.5 * B.dtheta)))
    (hv : ∀ i < B.elements_axial, ∀ j < B.elements_circumferential,
      op B.elements_axial B.elements_circumferential (B.CW J n_p mu) (B.CE J n_p mu) (B.CN J n_p mu)
          (B.CS J n_p mu) 2 2 2 v i j = -(D (B.jj n_p j) * B.dY * B.dZ)) {k : ℕ}
    (hk : k < B.elements_axial * B.elements_circumferential) :
    ∑ c ∈ Finset.range (B.elements_axial * B.elements_circumferential), (B.Mat_coef J n_p mu k c : ℂ) *
      ((q (c / B.elements_circumferential) (c % B.elements_circumferential) : ℂ) +
        (lund_gamma * v (c / B.elements_circumferential) (c % B.elements_circumferential) : ℝ) * Complex.I) =
    B.lund_B 0 D n_p ⟨J, P, mu, fun _ _ => 1, 1⟩ k := by
  have hc : 0 < B.elements_circumferential := by omega
  have hi : k / B.elements_circumferential < B.elements_axial := (Nat.div_lt_iff_lt_mul hc).2 hk
  have hj : k % B.elements_circumferential < B.elements_circumferential := Nat.mod_lt _ hc
  have key := lund_B_full (J := J) (n_p := n_p) (mu := mu) (D := D) h2a h2c 0 P hi hj
  rw [index_eq] at key
  rw [key]
  have s1 := mat_sum (J := J) (n_p := n_p) (mu := mu) h2a h2c
    (fun c => q (c / B.elements_circumferential) (c % B.elements_circumferential)) hi hj
  have s2 := mat_sum (J := J) (n_p := n_p) (mu := mu) h2a h2c
    (fun c => v (c / B.elements_circumferential) (c % B.elements_circumferential)) hi hj
  rw [op_congr (u := q) (fun i _ j hj => by rw [index_div hj, index_mod hj]) hi hj, hq _ hi _ hj, index_eq] at s1
  rw [op_congr (u := v) (fun i _ j hj => by rw [index_div hj, index_mod hj]) hi hj, hv _ hi _ hj, index_eq] at s2
  have e : ∀ c, (B.Mat_coef J n_p mu k c : ℂ) *
      ((q (c / B.elements_circumferential) (c % B.elements_circumferential) : ℂ) +
        (lund_gamma * v (c / B.elements_circumferential) (c % B.elements_circumferential) : ℝ) * Complex.I) =
      ((B.Mat_coef J n_p mu k c * q (c / B.elements_circumferential) (c % B.elements_circumferential) : ℝ) : ℂ) +
      (lund_gamma : ℂ) * Complex.I *
      ((B.Mat_coef J n_p mu k c * v (c / B.elements_circumferential) (c % B.elements_circumferential) : ℝ) : ℂ) := by
    intro c
    push_cast
    ring
  rw [Finset.sum_congr rfl fun c _ => e c, Finset.sum_add_distrib, ← Finset.mul_sum, ← Complex.ofReal_sum,
    ← Complex.ofReal_sum, s1, s2, mul_zero, ite_self]
  push_cast
  ring

theorem norm_entry (x : ℕ → ℂ) {k : ℕ} (hk : k < B.elements_axial * B.elements_circumferential) :
    ‖x k‖ ≤ B.lund_norm x := by
  unfold lund_norm
  refine Real.le_sqrt_of_sq_le ?_
  rw [← Complex.normSq_eq_norm_sq]
  exact Finset.single_le_sum (f := fun k => Complex.normSq (x k)) (fun c _ => Complex.normSq_nonneg _)
    (Finset.mem_range.2 hk)

theorem norm_nonneg' (x : ℕ → ℂ) : 0 ≤ B.lund_norm x := Real.sqrt_nonneg _

/-- What is known when the sweeps for a pad have ended. -/
theorem last_pass {tol inj : ℝ} {fuel : ℕ} {F : LundFilm} {w : Whirl} (htol : tol < 1)
    (hinj : B.injection_pressure = some inj) (h : B.lund_pad tol fuel n_p F = some (.ok w)) :
    ∃ x y, w.PX = B.lund_sweep inj HX n_p F x ∧ w.PY = B.lund_sweep inj HY n_p F y ∧
      (∀ k, ¬Loaded B F k → x k = 0 ∧ y k = 0) ∧
      ∀ k < B.elements_axial * B.elements_circumferential, ‖w.PX k - x k‖ ≤ tol ∧ ‖w.PY k - y k‖ ≤ tol := by
  unfold lund_pad at h
  rw [hinj] at h
  dsimp only at h
  obtain ⟨s, hI, hb, -, ht⟩ := while_last (fun s : Whirl => ∀ k, ¬Loaded B F k → s.PX k = 0 ∧ s.PY k = 0)
    (fun s s1 hI _ hb k hk => by
      cases hb
      unfold lund_step
      dsimp only
      rw [lund_sweep_eq, lund_sweep_eq, GaussSeidel.sweep_inactive _ hk, GaussSeidel.sweep_inactive _ hk]
      exact hI k hk)
    (fun k _ => ⟨rfl, rfl⟩) (show (1 : ℝ) > tol from htol) h
  cases hb
  refine ⟨s.PX, s.PY, rfl, rfl, hI, fun k hk => ?_⟩
  have ht' := not_lt.1 ht
  unfold lund_step at ht'
  dsimp only at ht'
  have h1 := norm_entry (B := B) (fun k => B.lund_sweep inj HX n_p F s.PX k - s.PX k) hk
  have h2 := norm_entry (B := B) (fun k => B.lund_sweep inj HY n_p F s.PY k - s.PY k) hk
  have h3 := norm_nonneg' (B := B) (fun k => B.lund_sweep inj HX n_p F s.PX k - s.PX k)
  have h4 := norm_nonneg' (B := B) (fun k => B.lund_sweep inj HY n_p F s.PY k - s.PY k)
  unfold lund_step
  dsimp only at h1 h2 ⊢
  exact ⟨by linarith, by linarith⟩

/-- The sweeps end. -/
theorem pad_ends {tol inj : ℝ} {F : LundFilm} (htol : 0 < tol) (hinj : B.injection_pressure = some inj)
    (ho : Open B F.J n_p F.mu) (h2a : 2 ≤ B.elements_axial) (h2c : 2 ≤ B.elements_circumferential) :
    ∃ n, ∀ fuel ≥ n, ∃ w, B.lund_pad tol fuel n_p F = some (.ok w) := by
  set N := B.elements_axial * B.elements_circumferential with hN
  obtain ⟨v, θ, hD⟩ := dominant ho h2a h2c
  set X := GaussSeidel.iter N (B.Mat_coef F.J n_p F.mu) (B.lund_B inj HX n_p F) (Loaded B F) (fun _ => 0) with hX
  set Y := GaussSeidel.iter N (B.Mat_coef F.J n_p F.mu) (B.lund_B inj HY n_p F) (Loaded B F) (fun _ => 0) with hY
  set st : ℕ → Whirl := fun n => ⟨B.lund_norm (fun k => X (n + 1) k - X n k) + B.lund_norm (fun k => Y (n + 1) k - Y n k),
    X (n + 1), Y (n + 1)⟩ with hst
  have hstep : ∀ n, B.lund_step inj n_p F (st n) = st (n + 1) := by
    intro n
    unfold lund_step
    simp only [hst, lund_sweep_eq]
    rfl
  have hsmall : ∃ n, ¬(st n).erro > tol := by
    have hq : 0 < tol / (2 * (√N + 1)) := by positivity
    obtain ⟨n1, h1⟩ := GaussSeidel.iter_ends (b := B.lund_B inj HX n_p F) (S := Loaded B F) hD (fun _ => 0) hq
    obtain ⟨n2, h2⟩ := GaussSeidel.iter_ends (b := B.lund_B inj HY n_p F) (S := Loaded B F) hD (fun _ => 0) hq
    refine ⟨max n1 n2, not_lt.2 ?_⟩
    have hb : ∀ x : ℕ → ℂ, (∀ k < N, ‖x k‖ ≤ tol / (2 * (√N + 1))) → B.lund_norm x ≤ tol / 2 := by
      intro x hx
      unfold lund_norm
      rw [← hN]
      refine (Real.sqrt_le_sqrt (y := (N : ℝ) * (tol / (2 * (√N + 1))) ^ 2) ?_).trans ?_
      · calc _ ≤ ∑ k ∈ Finset.range N, (tol / (2 * (√N + 1))) ^ 2 := Finset.sum_le_sum fun k hk => by
              rw [Complex.normSq_eq_norm_sq]
              exact pow_le_pow_left₀ (norm_nonneg _) (hx k (Finset.mem_range.1 hk)) 2
          _ = _ := by rw [Finset.sum_const, Finset.card_range, nsmul_eq_mul]
      · rw [Real.sqrt_mul (Nat.cast_nonneg _), Real.sqrt_sq hq.le]
        have h0 : 0 < √(N : ℝ) + 1 := by positivity
        have : √(N : ℝ) * (tol / (2 * (√N + 1))) = tol / 2 * (√N / (√N + 1)) := by field_simp
        rw [this]
        refine mul_le_of_le_one_right (by linarith) ?_
        rw [div_le_one h0]
        linarith
    have e1 := hb _ (h1 (max n1 n2) (le_max_left _ _))
    have e2 := hb _ (h2 (max n1 n2) (le_max_right _ _))
    have : (st (max n1 n2)).erro = B.lund_norm (fun k => X (max n1 n2 + 1) k - X (max n1 n2) k) +
      B.lund_norm (fun k => Y (max n1 n2 + 1) k - Y (max n1 n2) k) := rfl
    rw [this]
    linarith
  obtain ⟨m, hm⟩ := hsmall
  have hloop : ∀ d n, m = n + d → ∀ fuel ≥ d + 1, ∃ w, whileLoop (fun s : Whirl => s.erro > tol)
      (fun s => some (.ok (B.lund_step inj n_p F s))) fuel (st n) = some (.ok w) := by
    intro d
    induction d with
    | zero =>
      intro n hn fuel hf
      obtain ⟨f, rfl⟩ : ∃ f, fuel = f + 1 := ⟨fuel - 1, by omega⟩
      rw [show n = m by omega]
      unfold whileLoop
      rw [if_neg hm]
      exact ⟨_, rfl⟩
    | succ d ih =>
      intro n hn fuel hf
      obtain ⟨f, rfl⟩ : ∃ f, fuel = f + 1 := ⟨fuel - 1, by omega⟩
      unfold whileLoop
      split_ifs
      · dsimp only
        rw [hstep]
        exact ih (n + 1) (by omega) f (by omega)
      · exact ⟨_, rfl⟩
  refine ⟨m + 2, fun fuel hf => ?_⟩
  unfold lund_pad
  rw [hinj]
  dsimp only
  obtain ⟨f, rfl⟩ : ∃ f, fuel = f + 1 := ⟨fuel - 1, by omega⟩
  unfold whileLoop
  split_ifs
  · dsimp only
    have : B.lund_step inj n_p F ⟨1, fun _ => 0, fun _ => 0⟩ = st 0 := by
      unfold lund_step
      simp only [hst, lund_sweep_eq]
      rfl
    rw [this]
    exact hloop m 0 (by omega) f (by omega)
  · exact ⟨_, rfl⟩

/-- The entries of a row after the diagonal. -/
theorem after_sum (ho : Open B J n_p mu) (h2a : 2 ≤ B.elements_axial) (h2c : 2 ≤ B.elements_circumferential) {i j : ℕ}
    (hi : i < B.elements_axial) (hj : j < B.elements_circumferential) :
    ∑ c ∈ (Finset.range (B.elements_axial * B.elements_circumferential)).filter
        (i * B.elements_circumferential + j < ·), |B.Mat_coef J n_p mu (i * B.elements_circumferential + j) c| ≤
      B.CE J n_p mu i j + B.CN J n_p mu i j := by
  obtain ⟨w, e, n, s⟩ := ho.signs h2a h2c hi hj
  set k := i * B.elements_circumferential + j with hk
  have hb : ∀ c ∈ (Finset.range (B.elements_axial * B.elements_circumferential)).filter (k < ·),
      |B.Mat_coef J n_p mu k c| ≤ (if c = k + 1 then B.CE J n_p mu i j else 0) +
        (if c = k + B.elements_circumferential then B.CN J n_p mu i j else 0) := by
    intro c hc
    rw [Finset.mem_filter] at hc
    rw [abs_of_nonneg ((entry_signs ho h2a h2c (index_lt hi hj)).2 c (by omega))]
    unfold Mat_coef
    dsimp only
    rw [hk, index_div hj, index_mod hj, row_P_entries B rfl rfl h2a h2c _ _ _ _ _ hi hj, ← hk,
      if_neg (show ¬c = k by omega), if_neg (show ¬c + 1 = k by omega),
      if_neg (show ¬c + B.elements_circumferential = k by omega), zero_add, add_zero, add_zero]
    refine add_le_add ?_ ?_
    · by_cases h : c = k + 1
      · rw [if_pos h, if_pos h]
        split_ifs
        · exact e.le
        · exact le_rfl
      · rw [if_neg h, if_neg h]
    · by_cases h : c = k + B.elements_circumferential
      · rw [if_pos h, if_pos h]
        split_ifs
        · exact n.le
        · exact le_rfl
      · rw [if_neg h, if_neg h]
  refine (Finset.sum_le_sum hb).trans ?_
  rw [Finset.sum_add_distrib, Finset.sum_ite_eq', Finset.sum_ite_eq']
  refine add_le_add ?_ ?_
  · split_ifs
    · exact le_rfl
    · exact e.le
  · split_ifs
    · exact le_rfl
    · exact n.le

theorem padExcess_eq (h2a : 2 ≤ B.elements_axial) (h2c : 2 ≤ B.elements_circumferential) (P : ℕ → ℕ → ℝ) (i j : ℕ) :
    padExcess B.elements_axial B.elements_circumferential (B.thetaI n_p) (B.betha_s_dg * π / 180)
      ((B.journal_radius / B.axial_length) ^ 2) (B.film J n_p) (fun t => -(J.Xpt * cos t + J.Ypt * sin t)) mu P i j =
    op B.elements_axial B.elements_circumferential (B.CW J n_p mu) (B.CE J n_p mu) (B.CN J n_p mu)
      (B.CS J n_p mu) 2 2 2 P i j + B.source J n_p j := by
  rw [← excess_eq h2a h2c]
  have e : ∀ j : ℕ, B.thetaI n_p + ((j : ℝ) + 1 / 2) * (B.betha_s_dg * π / 180 / B.elements_circumferential) =
      B.jj n_p j := by
    intro j
    unfold jj dtheta betha_s
    ring
  have e1 : ∀ j : ℕ, B.film J n_p (B.thetaI n_p + (j : ℝ) * (B.betha_s_dg * π / 180 / B.elements_circumferential)) =
      face B J n_p j := by
    intro j
    unfold face dtheta betha_s
    rw [sub_zero]
  have e2 : ∀ t, -(J.Xpt * cos t + J.Ypt * sin t) = hpt J t := by
    intro t
    unfold hpt
    ring
  unfold padExcess
  simp only [e, e1, e2]
  rfl

/-- How what flows out of a cell changes when the journal is moved and the pressure with it. -/
theorem excess_deriv (hm : Moves B J n_p D a b Js) (h0 : Js 0 = J) (h2a : 2 ≤ B.elements_axial)
    (h2c : 2 ≤ B.elements_circumferential) (P x : ℕ → ℕ → ℝ) {i j : ℕ} (hi : i < B.elements_axial)
    (hj : j < B.elements_circumferential) :
    HasDerivAt (fun s => padExcess B.elements_axial B.elements_circumferential (B.thetaI n_p) (B.betha_s_dg * π / 180)
      ((B.journal_radius / B.axial_length) ^ 2) (B.film (Js s) n_p)
      (fun t => -((Js s).Xpt * cos t + (Js s).Ypt * sin t)) mu (fun i j => P i j + s * x i j) i j)
      (-(a * op B.elements_axial B.elements_circumferential (B.CDW D J n_p mu) (B.CDE D J n_p mu) (B.CDN D J n_p mu)
          (B.CDS D J n_p mu) 2 2 2 P i j) +
        op B.elements_axial B.elements_circumferential (B.CW J n_p mu) (B.CE J n_p mu) (B.CN J n_p mu)
          (B.CS J n_p mu) 2 2 2 x i j +
        (a * (B.dZ / (2 * B.betha_s) * (D (B.jj n_p j + 0.5 * B.dtheta) - D (B.jj n_p j - 0.5 * B.dtheta))) +
        b * (D (B.jj n_p j) * B.dY * B.dZ))) 0 := by
  simp only [padExcess_eq h2a h2c]
  have hop := op_deriv (kE := 2) (kN := 2) (kS := 2) (x := fun s i j => P i j + s * x i j) (x' := x)
    (w' := fun i j => -(a * B.CDW D J n_p mu i j)) (e' := fun i j => -(a * B.CDE D J n_p mu i j))
    (n' := fun i j => -(a * B.CDN D J n_p mu i j)) (s' := fun i j => -(a * B.CDS D J n_p mu i j))
    (w := fun s => B.CW (Js s) n_p mu) (e := fun s => B.CE (Js s) n_p mu)
    (n := fun s => B.CN (Js s) n_p mu) (s := fun s => B.CS (Js s) n_p mu) hi hj (CW_deriv hm i j) (CE_deriv hm i j)
    (CN_deriv hm i j) (CS_deriv hm i j) (fun i _ j _ => linear_deriv _ _)
  refine (hop.fun_add (source_deriv hm j)).congr_deriv ?_
  rw [h0]
  simp only [zero_mul, add_zero]
  congr 2
  unfold op
  ring

/-- What is left of the equations of the sweeps. -/
theorem lund_residual {inj d : ℝ} {P : ℕ → ℕ → ℝ} (ho : Open B J n_p mu) (h2a : 2 ≤ B.elements_axial)
    (h2c : 2 ≤ B.elements_circumferential) {x : ℕ → ℂ} {i j : ℕ} (hi : i < B.elements_axial)
    (hj : j < B.elements_circumferential) (hP : 0 < P i j)
    (hd : ∀ k < B.elements_axial * B.elements_circumferential,
      ‖B.lund_sweep inj D n_p ⟨J, P, mu, fun _ _ => 1, 1⟩ x k - x k‖ ≤ d) :
    ‖∑ c ∈ Finset.range (B.elements_axial * B.elements_circumferential),
        (B.Mat_coef J n_p mu (i * B.elements_circumferential + j) c : ℂ) *
          B.lund_sweep inj D n_p ⟨J, P, mu, fun _ _ => 1, 1⟩ x c -
      B.lund_B inj D n_p ⟨J, P, mu, fun _ _ => 1, 1⟩ (i * B.elements_circumferential + j)‖ ≤
    (B.CE J n_p mu i j + B.CN J n_p mu i j) * d := by
  rw [lund_sweep_eq] at hd ⊢
  have hk := index_lt hi hj
  have hd0 : 0 ≤ d := (norm_nonneg _).trans (hd _ hk)
  refine (GaussSeidel.residual_le x hk ?_ (entry_signs ho h2a h2c hk).1.ne hd).trans
    (mul_le_mul_of_nonneg_right (after_sum ho h2a h2c hi hj) hd0)
  show 0 < P _ _
  rw [index_div hj, index_mod hj]
  exact hP

end Ross.ThdLemmas
