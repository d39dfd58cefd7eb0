import Verif.Model.Readout
import Verif.Spec.Readout
import Verif.Lemmas.Slots
import Verif.Lemmas.Accept2
import Verif.Props.RotorDofs
import Verif.Lemmas.Orbit
import Verif.Lemmas.Shape

/-! # Lemmas on readings at a node -/

namespace Ross.ReadoutLemmas

open Ross Ross.Spec Ross.RotorLemmas Ross.Rotor Ross.BearingLemmas

variable {pd : Pandas} {fuel : ℕ} {a : RotorArgs} {r : Rotor} {six : Bool} {N : ℕ}

/-- The nodes that bearings are linked to. -/
theorem mem_link (hs : SortsRows pd) (h : init pd fuel a = some (.ok r)) (k : ℕ) :
    k ∈ r.link_nodes ↔ ∃ b ∈ r.bearings, b.n_link = some k := by
  obtain ⟨r₀, rows, h1, -, h3⟩ := init_ok_build h
  obtain ⟨df, rfl⟩ := finish_ok h3
  have hb := build_ok h1
  have e : r₀.link_nodes = ((pd.sortByNl (concatRows r₀.shaft (shaftPos r₀.shaft) r₀.disks r₀.bearings
      r₀.pms)).filterMap (·.n_link)).reverse.dedup.reverse := by
    unfold build at h1
    dsimp only at h1
    split_ifs at h1 with ht
    obtain ⟨nd, -, h2⟩ := bind_ok.1 h1
    unfold buildFrom at h2
    dsimp only at h2
    split_ifs at h2 with ho
    obtain ⟨dkpos, -, h4⟩ := bind_ok.1 h2
    obtain ⟨placed, -, h5⟩ := bind_ok.1 h4
    rw [← Except.ok.inj h5]
  simp only [e, List.mem_reverse, List.mem_dedup, List.mem_filterMap, (hs _).mem_iff]
  constructor
  · rintro ⟨row, hrow, hk⟩
    unfold concatRows shaftRows diskRows brgRows pmRows at hrow
    simp only [List.mem_append, List.mem_map, List.mem_filter] at hrow
    rcases hrow with (((⟨x, -, rfl⟩ | ⟨x, -, rfl⟩) | ⟨b, hb, rfl⟩) | ⟨x, -, rfl⟩) | ⟨b, hb, rfl⟩
    · cases hk
    · cases hk
    · exact ⟨b, hb.1, hk⟩
    · cases hk
    · exact ⟨b, hb.1, hk⟩
  · rintro ⟨b, hb, hk⟩
    refine ⟨⟨b.tag, some b.n, some b.n, b.n_link, none, none, true⟩, ?_, hk⟩
    unfold concatRows shaftRows diskRows brgRows pmRows
    simp only [List.mem_append, List.mem_map, List.mem_filter]
    cases hi : b.isSeal with
    | false => exact Or.inl (Or.inl (Or.inr ⟨b, ⟨hb, by simp [hi]⟩, rfl⟩))
    | true => exact Or.inr ⟨b, ⟨hb, by simp [hi]⟩, rfl⟩

/-- The same in terms of the given bearings. -/
theorem mem_link_args (hs : SortsRows pd) (h : init pd fuel a = some (.ok r)) (k : ℕ) :
    k ∈ r.link_nodes ↔ ∃ b ∈ a.bearings, b.n_link = some k := by
  rw [mem_link hs h, (init_ok h).bearings]
  have hp : ∀ l : List BrgEl, (∃ b ∈ sortBearings (tagBearings l), b.n_link = some k) ↔
      ∃ b ∈ l, b.n_link = some k := by
    intro l
    have hperm : (sortBearings (tagBearings l)).Perm (tagBearings l) := by
      unfold sortBearings
      exact List.mergeSort_perm _ _
    have e : (tagBearings l).map BrgEl.n_link = l.map BrgEl.n_link := by
      refine List.ext_getElem (by simp [tagBearings]) fun i h1 h2 => ?_
      simp [tagBearings, setTag_link]
    constructor
    · rintro ⟨b, hb, hk⟩
      have : some k ∈ (tagBearings l).map BrgEl.n_link := List.mem_map.2 ⟨b, hperm.mem_iff.1 hb, hk⟩
      rw [e] at this
      exact List.mem_map.1 this
    · rintro ⟨b, hb, hk⟩
      have : some k ∈ l.map BrgEl.n_link := List.mem_map.2 ⟨b, hb, hk⟩
      rw [← e] at this
      obtain ⟨c, hc, hk⟩ := List.mem_map.1 this
      exact ⟨c, hperm.mem_iff.2 hc, hk⟩
  exact hp a.bearings

theorem full_of_wf (hw : WellFormed six N a) (h : init pd fuel a = some (.ok r)) : Full r.shaft N := by
  rw [(init_ok h).shaft]
  exact (ctx_of_wf hw).full

theorem pos_length (hw : WellFormed six N a) (h : init pd fuel a = some (.ok r)) :
    r.nodes_pos.length = N + 1 := by
  rw [(init_ok h).pos, (full_of_wf hw h).nodesPos]
  simp

theorem end_eq (hw : WellFormed six N a) (h : init pd fuel a = some (.ok r)) : shaftEnd r = N := by
  rw [Props.shaftEnd_eq h]
  exact (full_of_wf hw h).last

theorem ndof_eq' (hw : WellFormed six N a) (h : init pd fuel a = some (.ok r)) :
    (r.number_dof = 4 ∨ r.number_dof = 6) ∧ r.ndof = size r.number_dof N a.pms.length := by
  obtain ⟨h1, h2⟩ := Props.C17_ndof h
  rw [end_eq hw h] at h2
  have : r.pms.length = a.pms.length := by
    rw [(init_ok h).pms]
    simp [parts, tagPms]
  rw [this] at h2
  exact ⟨h1, h2⟩

/-- The column of a degree of freedom. -/
theorem column_ok {M : ℕ} {α : Type} (yout : List (Fin M → α)) (i : ℕ) (h : i < M) :
    column yout (i : ℤ) = .ok (yout.map fun y => y ⟨i, h⟩) := by
  have hw : wrap M (i : ℤ) = .ok i := by
    unfold wrap
    rw [if_pos ⟨by omega, by omega⟩]
    rfl
  unfold column
  rw [hw]
  simp [h]

theorem column_motion {M : ℕ} {α : Type} [Zero α] {nd N : ℕ} {key : String × ℕ} (yout : List (Fin M → α))
    {i : ℤ} (hi : i = slot nd N key) (h : slot nd N key < M) :
    column yout i = .ok (yout.map fun y => motion nd N y key) := by
  rw [hi, column_ok yout _ h]
  simp [motion, h]

/-- Where the translations of a shaft node stand. -/
theorem slot_shaft {nd N node : ℕ} (hnd : nd = 4 ∨ nd = 6) (hn : node ≤ N) :
    slot nd N ("x", node) = nd * node ∧ slot nd N ("y", node) = nd * node + 1 ∧
    (nd = 6 → slot nd N ("z", node) = nd * node + 2) ∧
    slot nd N ("alpha", node) = nd * node + nd / 2 ∧ slot nd N ("beta", node) = nd * node + nd / 2 + 1 := by
  unfold slot
  simp only [if_pos hn]
  rcases hnd with rfl | rfl <;> simp [nodeLetters, List.idxOf_cons]

theorem slot_support {nd N node : ℕ} (hnd : nd = 4 ∨ nd = 6) (hn : N < node) :
    slot nd N ("x", node) = nd * (N + 1) + nd / 2 * (node - N - 1) ∧
    slot nd N ("y", node) = nd * (N + 1) + nd / 2 * (node - N - 1) + 1 ∧
    (nd = 6 → slot nd N ("z", node) = nd * (N + 1) + nd / 2 * (node - N - 1) + 2) := by
  unfold slot
  simp only [if_neg (not_le.2 hn)]
  rcases hnd with rfl | rfl <;> simp [supportLetters, List.idxOf_cons]

theorem fixDof_shaft (hs : SortsRows pd) (h : init pd fuel a = some (.ok r)) {node : ℕ}
    (hl : ∀ b ∈ a.bearings, b.n_link ≠ some node) : r.fixDof node = 0 := by
  unfold fixDof
  rw [if_neg]
  rw [mem_link_args hs h]
  rintro ⟨b, hb, e⟩
  exact hl b hb e

theorem fixDof_link (hs : SortsRows pd) (hw : WellFormed six N a) (h : init pd fuel a = some (.ok r)) {node : ℕ}
    (hl : ∃ b ∈ a.bearings, b.n_link = some node) :
    r.fixDof node = ((node : ℤ) - N - 1) * (r.number_dof / 2 : ℕ) := by
  unfold fixDof
  rw [if_pos ((mem_link_args hs h node).2 hl), pos_length hw h]
  rcases (ndof_eq' hw h).1 with e | e <;> rw [e] <;> push_cast <;> omega

/-- The index is the number of the degree of freedom. -/
theorem readDof_eq (hs : SortsRows pd) (hw : WellFormed six N a) (h : init pd fuel a = some (.ok r)) {node : ℕ}
    (hl : Readable a N node) :
    r.readDof node 0 = slot r.number_dof N ("x", node) ∧ r.readDof node 1 = slot r.number_dof N ("y", node) ∧
    (r.number_dof = 6 → r.readDof node 2 = slot r.number_dof N ("z", node)) ∧
    slot r.number_dof N ("x", node) < r.ndof ∧ slot r.number_dof N ("y", node) < r.ndof ∧
    (r.number_dof = 6 → slot r.number_dof N ("z", node) < r.ndof) := by
  obtain ⟨hnd, hN⟩ := ndof_eq' hw h
  rw [hN]
  unfold readDof size
  rcases hl with ⟨h1, h2⟩ | ⟨h1, h2, h3⟩
  · rw [fixDof_shaft hs h h2]
    obtain ⟨e1, e2, e3, -⟩ := slot_shaft hnd h1
    rw [e1, e2]
    refine ⟨by push_cast; ring, by push_cast; ring, fun e => ?_, ?_, ?_, fun e => ?_⟩
    · rw [e3 e]; push_cast; ring
    · rcases hnd with e | e <;> rw [e] <;> omega
    · rcases hnd with e | e <;> rw [e] <;> omega
    · rw [e3 e, e]; omega
  · rw [fixDof_link hs hw h h3]
    obtain ⟨e1, e2, e3⟩ := slot_support hnd h1
    rw [e1, e2]
    obtain ⟨d, rfl⟩ : ∃ d, node = N + 1 + d := ⟨node - N - 1, by omega⟩
    have hd : N + 1 + d - N - 1 = d := by omega
    rw [hd]
    refine ⟨?_, ?_, fun e => ?_, ?_, ?_, fun e => ?_⟩
    · rcases hnd with e | e <;> rw [e] <;> push_cast <;> ring
    · rcases hnd with e | e <;> rw [e] <;> push_cast <;> ring
    · rw [e3 e, hd, e]; push_cast; ring
    · rcases hnd with e | e <;> rw [e] <;> omega
    · rcases hnd with e | e <;> rw [e] <;> omega
    · rw [e3 e, hd, e]; omega

theorem zipWith_map {α β γ δ : Type} (f : β → γ → δ) (g : α → β) (k : α → γ) (l : List α) :
    List.zipWith f (l.map g) (l.map k) = l.map fun x => f (g x) (k x) := by
  rw [List.zipWith_map_left, List.zipWith_map_right, List.zipWith_self]

/-! ### Forward and backward vectors -/

theorem rel_eq : Complex.exp (Complex.I * Real.pi / 2) = Complex.I := by
  rw [show Complex.I * (Real.pi : ℂ) / 2 = (Real.pi / 2 : ℂ) * Complex.I by ring, Complex.exp_mul_I,
    Complex.cos_pi_div_two, Complex.sin_pi_div_two]
  simp

/-- The forward vector. -/
noncomputable def fow (x y : ℂ) : ℂ := x / 2 + Complex.I * y / 2
/-- The backward vector. -/
noncomputable def back (x y : ℂ) : ℂ := (starRingEnd ℂ) x / 2 + Complex.I * (starRingEnd ℂ) y / 2

theorem coord_conj (x : ℂ) (τ : ℝ) :
    ((coord x τ : ℝ) : ℂ) =
      (x * Complex.exp (Complex.I * τ) + (starRingEnd ℂ) x * Complex.exp (-Complex.I * τ)) / 2 := by
  unfold coord
  rw [Complex.re_eq_add_conj, map_mul, ← Complex.exp_conj, map_mul, Complex.conj_I, Complex.conj_ofReal]

/-- The two vectors, turned against each other, give the position of the node. -/
theorem position_eq (x y : ℂ) (τ : ℝ) :
    fow x y * Complex.exp (Complex.I * τ) + back x y * Complex.exp (-Complex.I * τ) =
      ⟨coord x τ, coord y τ⟩ := by
  have : (⟨coord x τ, coord y τ⟩ : ℂ) = (coord x τ : ℂ) + (coord y τ : ℂ) * Complex.I := by
    apply Complex.ext <;> simp
  rw [this, coord_conj, coord_conj]
  unfold fow back
  ring

theorem radius_norm (x y : ℂ) (τ : ℝ) : radius x y τ = ‖(⟨coord x τ, coord y τ⟩ : ℂ)‖ := by
  unfold radius
  rw [Complex.norm_eq_sqrt_sq_add_sq]

theorem angle2pi_polar (z : ℂ) : z = ‖z‖ * Complex.exp (Complex.I * (angle2pi z : ℝ)) := by
  have h : z = ‖z‖ * Complex.exp (Complex.I * (Complex.arg z : ℝ)) := by
    rw [mul_comm Complex.I]
    exact (Complex.norm_mul_exp_arg_mul_I z).symm
  unfold angle2pi
  split_ifs
  · have : Complex.exp (Complex.I * ((Complex.arg z + 2 * Real.pi : ℝ) : ℂ)) =
        Complex.exp (Complex.I * (Complex.arg z : ℝ)) := by
      push_cast
      rw [mul_add, Complex.exp_add, show Complex.I * (2 * (Real.pi : ℂ)) = 2 * Real.pi * Complex.I by ring,
        Complex.exp_two_pi_mul_I, mul_one]
    rw [this]
    exact h
  · exact h

theorem norm_exp_I (a : ℝ) : ‖Complex.exp (Complex.I * a)‖ = 1 := by
  rw [mul_comm]
  exact Complex.norm_exp_ofReal_mul_I a

theorem norm_exp_neg_I (a : ℝ) : ‖Complex.exp (-Complex.I * a)‖ = 1 := by
  rw [show -Complex.I * (a : ℂ) = Complex.I * ((-a : ℝ) : ℂ) by push_cast; ring]
  exact norm_exp_I _

/-- Half a turn changes the sign of both vectors. -/
theorem turnBack_norm (f b : ℂ) (a : ℝ) :
    ‖f * Complex.exp (Complex.I * (turnBack a : ℝ)) + b * Complex.exp (-Complex.I * (turnBack a : ℝ))‖ =
      ‖f * Complex.exp (Complex.I * a) + b * Complex.exp (-Complex.I * a)‖ := by
  unfold turnBack
  split_ifs
  · have e1 : Complex.exp (Complex.I * ((a - Real.pi : ℝ) : ℂ)) = -Complex.exp (Complex.I * a) := by
      push_cast
      rw [show Complex.I * ((a : ℂ) - Real.pi) = Complex.I * a - Real.pi * Complex.I by ring, Complex.exp_sub,
        Complex.exp_pi_mul_I]
      ring
    have e2 : Complex.exp (-Complex.I * ((a - Real.pi : ℝ) : ℂ)) = -Complex.exp (-Complex.I * a) := by
      push_cast
      rw [show -Complex.I * ((a : ℂ) - Real.pi) = -Complex.I * a + Real.pi * Complex.I by ring, Complex.exp_add,
        Complex.exp_pi_mul_I]
      ring
    rw [e1, e2, ← norm_neg]
    congr 1
    ring
  · rfl

theorem major_norm (f b : ℂ) :
    ‖f * Complex.exp (Complex.I * (((angle2pi b - angle2pi f) / 2 : ℝ) : ℂ)) +
      b * Complex.exp (-Complex.I * (((angle2pi b - angle2pi f) / 2 : ℝ) : ℂ))‖ = ‖f‖ + ‖b‖ := by
  have hf := angle2pi_polar f
  have hb := angle2pi_polar b
  set F := angle2pi f
  set B := angle2pi b
  have : f * Complex.exp (Complex.I * (((B - F) / 2 : ℝ) : ℂ)) +
      b * Complex.exp (-Complex.I * (((B - F) / 2 : ℝ) : ℂ)) =
      ((‖f‖ + ‖b‖ : ℝ) : ℂ) * Complex.exp (Complex.I * (((F + B) / 2 : ℝ) : ℂ)) := by
    conv_lhs => rw [hf, hb]
    rw [mul_assoc, mul_assoc, ← Complex.exp_add, ← Complex.exp_add]
    rw [show Complex.I * (F : ℂ) + Complex.I * (((B - F) / 2 : ℝ) : ℂ) = Complex.I * (((F + B) / 2 : ℝ) : ℂ) by
      push_cast; ring]
    rw [show Complex.I * (B : ℂ) + -Complex.I * (((B - F) / 2 : ℝ) : ℂ) = Complex.I * (((F + B) / 2 : ℝ) : ℂ) by
      push_cast; ring]
    push_cast
    ring
  rw [this, norm_mul, norm_exp_I, mul_one, Complex.norm_real, Real.norm_of_nonneg (by positivity)]

theorem minor_norm (f b : ℂ) :
    ‖f * Complex.exp (Complex.I * (((angle2pi b - angle2pi f + Real.pi) / 2 : ℝ) : ℂ)) +
      b * Complex.exp (-Complex.I * (((angle2pi b - angle2pi f + Real.pi) / 2 : ℝ) : ℂ))‖ = |‖f‖ - ‖b‖| := by
  have hf := angle2pi_polar f
  have hb := angle2pi_polar b
  set F := angle2pi f
  set B := angle2pi b
  have : f * Complex.exp (Complex.I * (((B - F + Real.pi) / 2 : ℝ) : ℂ)) +
      b * Complex.exp (-Complex.I * (((B - F + Real.pi) / 2 : ℝ) : ℂ)) =
      ((‖f‖ - ‖b‖ : ℝ) : ℂ) * Complex.exp (Complex.I * (((F + B + Real.pi) / 2 : ℝ) : ℂ)) := by
    conv_lhs => rw [hf, hb]
    rw [mul_assoc, mul_assoc, ← Complex.exp_add, ← Complex.exp_add]
    rw [show Complex.I * (F : ℂ) + Complex.I * (((B - F + Real.pi) / 2 : ℝ) : ℂ) =
      Complex.I * (((F + B + Real.pi) / 2 : ℝ) : ℂ) by push_cast; ring]
    rw [show Complex.I * (B : ℂ) + -Complex.I * (((B - F + Real.pi) / 2 : ℝ) : ℂ) =
      Complex.I * (((F + B + Real.pi) / 2 : ℝ) : ℂ) - Real.pi * Complex.I by push_cast; ring]
    rw [Complex.exp_sub, Complex.exp_pi_mul_I]
    push_cast
    ring
  rw [this, norm_mul, norm_exp_I, mul_one, Complex.norm_real, Real.norm_eq_abs]

theorem radius_le (x y : ℂ) (τ : ℝ) : radius x y τ ≤ ‖fow x y‖ + ‖back x y‖ := by
  rw [radius_norm, ← position_eq]
  refine (norm_add_le _ _).trans ?_
  rw [norm_mul, norm_mul, norm_exp_I, norm_exp_neg_I, mul_one, mul_one]

theorem le_radius (x y : ℂ) (τ : ℝ) : |‖fow x y‖ - ‖back x y‖| ≤ radius x y τ := by
  rw [radius_norm, ← position_eq]
  have := abs_norm_sub_norm_le (fow x y * Complex.exp (Complex.I * τ)) (-(back x y * Complex.exp (-Complex.I * τ)))
  rw [norm_neg, norm_mul, norm_mul, norm_exp_I, norm_exp_neg_I, mul_one, mul_one, sub_neg_eq_add] at this
  exact this

theorem axisRow_eq (x y : ℂ) (angle : Orbit.Angle) :
    (axisRow x y angle).fow = fow x y ∧ (axisRow x y angle).back = back x y ∧
    (axisRow x y angle).amplitude = radius x y (axisRow x y angle).axis_angle ∧
    (axisRow x y angle).phase = Complex.arg
      ⟨coord x (axisRow x y angle).axis_angle, coord y (axisRow x y angle).axis_angle⟩ := by
  have e : ∀ a : ℝ, (x / 2 + Complex.exp (Complex.I * Real.pi / 2) * y / 2) * Complex.exp (Complex.I * a) +
      ((starRingEnd ℂ) x / 2 + Complex.exp (Complex.I * Real.pi / 2) * (starRingEnd ℂ) y / 2) *
        Complex.exp (-Complex.I * a) = ⟨coord x a, coord y a⟩ := by
    intro a
    rw [rel_eq]
    exact position_eq x y a
  refine ⟨?_, ?_, ?_, ?_⟩
  · show x / 2 + Complex.exp (Complex.I * Real.pi / 2) * y / 2 = _
    rw [rel_eq]
    rfl
  · show (starRingEnd ℂ) x / 2 + Complex.exp (Complex.I * Real.pi / 2) * (starRingEnd ℂ) y / 2 = _
    rw [rel_eq]
    rfl
  · rw [radius_norm]
    exact congrArg norm (e _)
  · exact congrArg Complex.arg (e _)

theorem axis_major (x y : ℂ) : (axisRow x y .major).amplitude = ‖fow x y‖ + ‖back x y‖ := by
  obtain ⟨-, -, h, -⟩ := axisRow_eq x y .major
  have ha : (axisRow x y .major).axis_angle = turnBack ((angle2pi (back x y) - angle2pi (fow x y)) / 2) := by
    unfold fow back
    conv_rhs => rw [← rel_eq]
    rfl
  rw [h, ha, radius_norm, ← position_eq, turnBack_norm, major_norm]

theorem axis_minor (x y : ℂ) : (axisRow x y .minor).amplitude = |‖fow x y‖ - ‖back x y‖| := by
  obtain ⟨-, -, h, -⟩ := axisRow_eq x y .minor
  have ha : (axisRow x y .minor).axis_angle =
      turnBack ((angle2pi (back x y) - angle2pi (fow x y) + Real.pi) / 2) := by
    unfold fow back
    conv_rhs => rw [← rel_eq]
    rfl
  rw [h, ha, radius_norm, ← position_eq, turnBack_norm, minor_norm]

/-! ### Bending moments -/

open Polynomial

/-- The second derivative of a line of degree three from its values and slopes at the ends. -/
theorem hermite_second (X : ℂ[X]) (hX : X.natDegree ≤ 3) (a L : ℝ) :
    -6 * X.eval (a : ℂ) + 6 * X.eval ((a + L : ℝ) : ℂ) + -4 * L * X.derivative.eval (a : ℂ) +
        -2 * L * X.derivative.eval ((a + L : ℝ) : ℂ) = L ^ 2 * X.derivative.derivative.eval (a : ℂ) ∧
    6 * X.eval (a : ℂ) + -6 * X.eval ((a + L : ℝ) : ℂ) + 2 * L * X.derivative.eval (a : ℂ) +
        4 * L * X.derivative.eval ((a + L : ℝ) : ℂ) =
      L ^ 2 * X.derivative.derivative.eval ((a + L : ℝ) : ℂ) := by
  have hx : X = C (X.coeff 0) + C (X.coeff 1) * Polynomial.X + C (X.coeff 2) * Polynomial.X ^ 2 +
      C (X.coeff 3) * Polynomial.X ^ 3 := by
    conv_lhs => rw [X.as_sum_range_C_mul_X_pow' (by omega : X.natDegree < 4)]
    simp [Finset.sum_range_succ]
  generalize X.coeff 0 = c0 at hx
  generalize X.coeff 1 = c1 at hx
  generalize X.coeff 2 = c2 at hx
  generalize X.coeff 3 = c3 at hx
  subst hx
  simp only [derivative_add, derivative_mul, derivative_C, derivative_X, derivative_X_pow, eval_add, eval_mul,
    eval_C, eval_X, eval_pow, zero_mul, zero_add, mul_one, eval_natCast, map_natCast, eval_zero,
    derivative_natCast, derivative_zero]
  push_cast
  constructor <;> (simp; ring)

theorem magAt_eq {v : Fin r.ndof → ℂ} {k : ℕ} {z : ℂ} (h : (List.ofFn v)[k]? = some z) :
    r.magAt v k = .ok z.re := by
  obtain ⟨hk, hz⟩ := List.getElem?_eq_some_iff.1 h
  simp only [List.length_ofFn] at hk
  rw [List.getElem_ofFn] at hz
  unfold magAt
  rw [dif_pos hk, hz, Real.cos_neg, Complex.norm_mul_cos_arg]

/-- The bending stiffness of an element. -/
noncomputable def ei (e : ShaftEl) : ℝ := e.s.material.E * e.s.Ie

theorem elementMoment_eq {v : Fin r.ndof → ℂ} {pos : List ℝ} {X Y : ℂ[X]} (hnd : r.number_dof = 4 ∨ r.number_dof = 6)
    (hX : X.natDegree ≤ 3) (hY : Y.natDegree ≤ 3) (hs : Sampled r.number_dof (List.ofFn v) pos X Y)
    (e : ShaftEl) {z : ℝ} (hL : e.s.L ≠ 0) (hz : pos[nodeOf e]? = some z)
    (hz' : pos[nodeOf e + 1]? = some (z + e.s.L)) :
    r.elementMoment v e =
      .ok ((-ei e * (X.derivative.derivative.eval (z : ℂ)).re,
            -ei e * (X.derivative.derivative.eval ((z + e.s.L : ℝ) : ℂ)).re),
           (-ei e * (Y.derivative.derivative.eval (z : ℂ)).re,
            -ei e * (Y.derivative.derivative.eval ((z + e.s.L : ℝ) : ℂ)).re)) := by
  obtain ⟨x1, y1, a1, b1⟩ := hs _ _ hz
  obtain ⟨x2, y2, a2, b2⟩ := hs _ _ hz'
  obtain ⟨hx, hx'⟩ := hermite_second X hX z e.s.L
  obtain ⟨hy, hy'⟩ := hermite_second Y hY z e.s.L
  generalize ((z + e.s.L : ℝ) : ℂ) = w at *
  have re : ∀ (p q s t : ℂ) (c1 c2 c3 c4 : ℝ) (w : ℂ),
      (c1 : ℂ) * p + (c2 : ℂ) * q + (c3 : ℂ) * s + (c4 : ℂ) * t = (e.s.L : ℂ) ^ 2 * w →
      c1 * p.re + c2 * q.re + c3 * s.re + c4 * t.re = e.s.L ^ 2 * w.re := by
    intro p q s t c1 c2 c3 c4 w h
    have := congrArg Complex.re h
    rw [← Complex.ofReal_pow] at this
    simpa only [Complex.add_re, Complex.re_ofReal_mul] using this
  unfold elementMoment
  simp only [add_zero] at *
  rw [magAt_eq x1, magAt_eq x2, magAt_eq b1, magAt_eq b2, magAt_eq y1, magAt_eq y2, magAt_eq a1, magAt_eq a2]
  simp only [ShapeLemmas.ok_bind, pure, Except.pure, Except.ok.injEq, Prod.mk.injEq, Complex.neg_re]
  have h1 := re _ _ _ _ (-6) 6 (-4 * e.s.L) (-2 * e.s.L) _ (by push_cast; push_cast at hx; exact hx)
  have h2 := re _ _ _ _ 6 (-6) (2 * e.s.L) (4 * e.s.L) _ (by push_cast; push_cast at hx'; exact hx')
  have h3 := re _ _ _ _ (-6) 6 (-4 * e.s.L) (-2 * e.s.L) _ (by push_cast; push_cast at hy; exact hy)
  have h4 := re _ _ _ _ 6 (-6) (2 * e.s.L) (4 * e.s.L) _ (by push_cast; push_cast at hy'; exact hy')
  have hc : ∀ s w : ℝ, s = e.s.L ^ 2 * w → -e.s.material.E * e.s.Ie / e.s.L ^ 2 * s = -ei e * w := by
    intro s w h
    rw [h]
    unfold ei
    field_simp
  refine ⟨⟨hc _ _ ?_, hc _ _ ?_⟩, ⟨hc _ _ ?_, hc _ _ ?_⟩⟩
  · exact h1
  · exact h2
  · rw [← h3]; ring
  · rw [← h4]; ring

theorem addAt_eq {M : List ℝ} {n : ℕ} (hn : n + 1 < M.length) (m : ℝ × ℝ) :
    ∃ M', addAt M n (n + 1) m = .ok M' ∧ M'.length = M.length ∧
      ∀ i : ℕ, M'[i]? = (M[i]?).map fun z => z + ((if n = i then m.1 else 0) + if n + 1 = i then m.2 else 0) := by
  refine ⟨_, if_pos ⟨by omega, hn⟩, by simp, fun i => ?_⟩
  rw [List.getElem?_mapIdx]
  cases M[i]? with
  | none => rfl
  | some z =>
    simp only [Option.map_some, Option.some.injEq]
    by_cases h1 : i = n
    · subst h1
      simp
    · by_cases h2 : i = n + 1
      · subst h2
        simp
      · rw [if_neg h1, if_neg h2, if_neg (Ne.symm h1), if_neg (Ne.symm h2)]
        ring

/-- The stiffnesses of the elements of a list that begin or end at a node. -/
noncomputable def around (l : List ShaftEl) (i : ℕ) : ℝ :=
  (l.map fun e => (if nodeOf e = i then ei e else 0) + if nodeOf e + 1 = i then ei e else 0).sum

theorem moment_fold {v : Fin r.ndof → ℂ} {pos : List ℝ} {X Y : ℂ[X]} (hnd : r.number_dof = 4 ∨ r.number_dof = 6)
    (hX : X.natDegree ≤ 3) (hY : Y.natDegree ≤ 3) (hs : Sampled r.number_dof (List.ofFn v) pos X Y)
    (l : List ShaftEl)
    (hl : ∀ e ∈ l, e.s.L ≠ 0 ∧ ∃ z, pos[nodeOf e]? = some z ∧ pos[nodeOf e + 1]? = some (z + e.s.L)) :
    ∀ M : List ℝ × List ℝ, M.1.length = pos.length → M.2.length = pos.length →
    ∃ M', l.foldlM (r.addMoment v) M = .ok M' ∧ M'.1.length = pos.length ∧ M'.2.length = pos.length ∧
      ∀ (i : ℕ) (z : ℝ), pos[i]? = some z →
        M'.1[i]? = (M.1[i]?).map (fun m => m - around l i * (X.derivative.derivative.eval (z : ℂ)).re) ∧
        M'.2[i]? = (M.2[i]?).map (fun m => m - around l i * (Y.derivative.derivative.eval (z : ℂ)).re) := by
  induction l with
  | nil =>
    intro M h1 h2
    refine ⟨M, rfl, h1, h2, fun i z _ => ?_⟩
    simp [around]
  | cons e t ih =>
    intro M h1 h2
    obtain ⟨hL, z0, hz, hz'⟩ := hl e (List.mem_cons_self)
    have hlt := (List.getElem?_eq_some_iff.1 hz').1
    have hm := elementMoment_eq hnd hX hY hs e hL hz hz'
    set m := ((-ei e * (X.derivative.derivative.eval (z0 : ℂ)).re,
            -ei e * (X.derivative.derivative.eval ((z0 + e.s.L : ℝ) : ℂ)).re),
           (-ei e * (Y.derivative.derivative.eval (z0 : ℂ)).re,
            -ei e * (Y.derivative.derivative.eval ((z0 + e.s.L : ℝ) : ℂ)).re)) with hmdef
    obtain ⟨A, hA, hAl, hAi⟩ := addAt_eq (M := M.1) (n := nodeOf e) (by omega) m.1
    obtain ⟨B, hB, hBl, hBi⟩ := addAt_eq (M := M.2) (n := nodeOf e) (by omega) m.2
    have hstep : r.addMoment v M e = .ok (A, B) := by
      unfold addMoment
      rw [hm]
      simp only [ShapeLemmas.ok_bind]
      rw [hA]
      simp only [ShapeLemmas.ok_bind]
      rw [hB]
      rfl
    obtain ⟨M', hM, l1, l2, hi⟩ := ih (fun e he => hl e (List.mem_cons_of_mem _ he)) (A, B)
      (hAl.trans h1) (hBl.trans h2)
    refine ⟨M', ?_, l1, l2, fun i z hpz => ?_⟩
    · rw [List.foldlM_cons, hstep]
      exact hM
    · obtain ⟨i1, i2⟩ := hi i z hpz
      have key : ∀ (W : ℂ[X]) (a b : ℝ), a = -ei e * (W.eval (z0 : ℂ)).re →
          b = -ei e * (W.eval ((z0 + e.s.L : ℝ) : ℂ)).re →
          ∀ m : ℝ, m + ((if nodeOf e = i then a else 0) + if nodeOf e + 1 = i then b else 0) -
            around t i * (W.eval (z : ℂ)).re = m - around (e :: t) i * (W.eval (z : ℂ)).re := by
        intro W a b ha hb m
        have hc : around (e :: t) i =
            ((if nodeOf e = i then ei e else 0) + if nodeOf e + 1 = i then ei e else 0) + around t i := by
          simp [around]
        rw [hc]
        by_cases c1 : nodeOf e = i
        · rw [c1, hpz] at hz
          rw [if_pos c1, if_neg (by omega), if_pos c1, if_neg (by omega), ha, Option.some.inj hz]
          ring
        · by_cases c2 : nodeOf e + 1 = i
          · rw [c2, hpz] at hz'
            rw [if_neg c1, if_pos c2, if_neg c1, if_pos c2, hb, Option.some.inj hz']
            ring
          · rw [if_neg c1, if_neg c2, if_neg c1, if_neg c2]
            ring
      rw [i1, i2]
      simp only
      rw [hAi, hBi, Option.map_map, Option.map_map]
      constructor
      · congr 1
        funext m'
        exact key _ _ _ rfl rfl m'
      · congr 1
        funext m'
        exact key _ _ _ rfl rfl m'

section

variable {pd : Pandas} {fuel : ℕ} {a : RotorArgs} {r : Rotor} {six : Bool} {N : ℕ}

theorem slice2_eq {M : ℕ} (v : Fin M → ℂ) (k : ℕ) (h : k + 1 < M) :
    slice2 v k = [v ⟨k, by omega⟩, v ⟨k + 1, h⟩] := by
  unfold slice2
  rw [List.drop_eq_getElem_cons (by simp; omega), List.drop_eq_getElem_cons (by simp; omega)]
  simp

/-- On the shaft the orbit of the forced response is that of the complex amplitudes of the node. -/
theorem nodeOrbitAt_eq (la : Lapack) (hw : WellFormed six N a) (h : init pd fuel a = some (.ok r)) {node : ℕ}
    (hn : node ≤ N) (v : Fin r.ndof → ℂ) :
    r.nodeOrbitAt la v node = .ok (Orbit.init la node (position r.shaft node)
      (motion r.number_dof N v ("x", node)) (motion r.number_dof N v ("y", node))) := by
  obtain ⟨hnd, hN⟩ := ndof_eq' hw h
  obtain ⟨ex, ey, -⟩ := slot_shaft hnd hn
  have hlt : r.number_dof * node + 1 < r.ndof := by
    rw [hN, size]
    rcases hnd with e | e <;> rw [e] <;> omega
  unfold nodeOrbitAt
  rw [slice2_eq v _ hlt]
  simp only
  rw [(init_ok h).pos, (full_of_wf hw h).nodesPos, List.getElem?_map, List.getElem?_range (by omega)]
  simp only [Option.map_some]
  unfold motion
  rw [dif_pos (by rw [ex]; omega), dif_pos (by rw [ey]; exact hlt)]
  simp only [ex, ey]

theorem around_eq (h : init pd fuel a = some (.ok r)) (n : ℕ) :
    around r.shaft n = stiffness (beginAt r n) + stiffness (endAt r n) := by
  have hn : ∀ e ∈ r.shaft, e.s.n = some (nodeOf e) := by
    intro e he
    rw [(init_ok h).shaft] at he
    exact parts_sh_n he
  unfold around beginAt endAt
  revert hn
  induction r.shaft with
  | nil => intro _; simp [stiffness]
  | cons e t ih =>
    intro hn
    have he := hn e List.mem_cons_self
    have ih := ih fun x hx => hn x (List.mem_cons_of_mem _ hx)
    rw [List.map_cons, List.sum_cons, ih]
    have e1 : (e.s.n = some n) = (nodeOf e = n) := by rw [he]; simp
    have e2 : (e.s.n.map (· + 1) = some n) = (nodeOf e + 1 = n) := by rw [he]; simp
    rw [List.filter_cons, List.filter_cons]
    simp only [e1, e2, decide_eq_true_eq]
    unfold stiffness ei
    split_ifs <;> simp <;> ring

theorem layer_step (hw : WellFormed six N a) (h : init pd fuel a = some (.ok r))
    (hL : ∀ e ∈ r.shaft, ∀ f ∈ r.shaft, e.s.n = f.s.n → e.s.L = f.s.L) :
    ∀ e ∈ r.shaft, ∀ (n : ℕ) (z z' : ℝ), e.s.n = some n → r.nodes_pos[n]? = some z →
      r.nodes_pos[n + 1]? = some z' → z' = z + e.s.L := by
  intro e he n z z' hn hz hz'
  have hf := full_of_wf hw h
  have hs : ∀ e ∈ r.shaft, e.s.n = some (nodeOf e) := by
    intro e he
    rw [(init_ok h).shaft] at he
    exact parts_sh_n he
  have hne : nodeOf e = n := by simp [nodeOf, hn]
  have hlt : n < N := hne ▸ (hf.nodes _).1 ⟨e, he, rfl⟩
  rw [(init_ok h).pos, hf.nodesPos, List.getElem?_map, List.getElem?_range (by omega)] at hz hz'
  have h1 := Option.some.inj hz
  have h2 := Option.some.inj hz'
  rw [← h1, ← h2]
  unfold position
  rw [hf.left]
  have e1 : (Finset.range N).filter (· < n + 1) = insert n ((Finset.range N).filter (· < n)) := by
    ext k
    simp only [Finset.mem_filter, Finset.mem_range, Finset.mem_insert]
    omega
  rw [e1, Finset.sum_insert (by simp), add_comm]
  congr 1
  unfold layerLength
  rw [leftNode_eq]
  cases hx : r.shaft.find? fun e => nodeOf e = n with
  | none => exact absurd hne (by simpa using List.find?_eq_none.1 hx e he)
  | some f =>
    have hm := List.mem_of_find?_eq_some hx
    have hk : nodeOf f = n := by simpa using List.find?_some hx
    simp only [Option.map_some, Option.getD_some]
    exact hL f hm e he (by rw [hs f hm, hs e he, hk, hne])

/-- Every rotor can be bent to any lines. -/
theorem bent (hw : WellFormed six N a) (h : init pd fuel a = some (.ok r)) (X Y : ℂ[X]) :
    ∃ v : Fin r.ndof → ℂ, Sampled r.number_dof (List.ofFn v) r.nodes_pos X Y := by
  obtain ⟨hnd, hN⟩ := ndof_eq' hw h
  have hlen := pos_length hw h
  let at' : ℕ → ℂ := fun k =>
    let z : ℂ := ((r.nodes_pos.getD (k / r.number_dof) 0 : ℝ) : ℂ)
    if k % r.number_dof = 0 then X.eval z else if k % r.number_dof = 1 then Y.eval z
    else if k % r.number_dof = r.number_dof / 2 then -Y.derivative.eval z else X.derivative.eval z
  refine ⟨fun i => at' i, fun n z hz => ?_⟩
  have hn : n < N + 1 := by
    rw [← hlen]
    exact (List.getElem?_eq_some_iff.1 hz).1
  have hg : r.nodes_pos.getD n 0 = z := by rw [List.getD_eq_getElem?_getD, hz]; rfl
  have hr : ∀ j, j < r.number_dof → (List.ofFn fun i : Fin r.ndof => at' i)[r.number_dof * n + j]? =
      some (at' (r.number_dof * n + j)) := by
    intro j hj
    have : r.number_dof * n + j < r.ndof := by
      rw [hN, size]
      rcases hnd with e | e <;> rw [e] at hj ⊢ <;> omega
    rw [List.getElem?_eq_getElem (by simpa using this), List.getElem_ofFn]
  have hq : ∀ j, j < r.number_dof → (r.number_dof * n + j) / r.number_dof = n ∧
      (r.number_dof * n + j) % r.number_dof = j := by
    intro j hj
    rcases hnd with e | e <;> rw [e] at hj ⊢ <;> omega
  have l0 : 0 < r.number_dof := by rcases hnd with e | e <;> omega
  have l1 : 1 < r.number_dof := by rcases hnd with e | e <;> omega
  have l2 : r.number_dof / 2 < r.number_dof := by omega
  have l3 : r.number_dof / 2 + 1 < r.number_dof := by rcases hnd with e | e <;> omega
  have g2 : ¬ r.number_dof / 2 = 0 ∧ ¬ r.number_dof / 2 = 1 := by rcases hnd with e | e <;> omega
  have g3 : ¬ r.number_dof / 2 + 1 = 0 ∧ ¬ r.number_dof / 2 + 1 = 1 ∧
    ¬ r.number_dof / 2 + 1 = r.number_dof / 2 := by rcases hnd with e | e <;> omega
  refine ⟨(hr 0 l0).trans ?_, (hr 1 l1).trans ?_, (hr _ l2).trans ?_, ?_⟩
  · simp only [at', (hq 0 l0).1, (hq 0 l0).2, hg, if_true]
  · simp only [at', (hq 1 l1).1, (hq 1 l1).2, hg, if_true, if_neg one_ne_zero]
  · simp only [at', (hq _ l2).1, (hq _ l2).2, hg, if_true, if_neg g2.1, if_neg g2.2]
  · rw [add_assoc, hr _ l3]
    simp only [at', (hq _ l3).1, (hq _ l3).2, hg, if_neg g3.1, if_neg g3.2.1, if_neg g3.2.2]

end

end Ross.ReadoutLemmas
