import Verif.Model.Static
import Verif.Lemmas.StaticWork

/-! # The reduced matrices of the static analysis -/

namespace Ross.StaticLemmas

open Ross Ross.Spec Ross.BearingLemmas Ross.Rotor Ross.RotorLemmas Ross.ShaftLemmas Ross.Props
  Ross.Shaft6Lemmas Ross.AssemblyLemmas Matrix

variable {pd : Pandas} {a : RotorArgs} {r : Rotor} {fuel : ℕ}

/-- The motion with four numbers per node. -/
noncomputable def U (w : ℕ → ℝ) (key : String × ℕ) : ℝ :=
  if key.1 = "x" then w (4 * key.2) else if key.1 = "y" then w (4 * key.2 + 1)
  else if key.1 = "alpha" then w (4 * key.2 + 2) else if key.1 = "beta" then w (4 * key.2 + 3)
  else 0

theorem U_flat (w : ℕ → ℝ) : Flat (U w) := fun n => by simp [U]

/-- Indices kept in a node of a 6-dof rotor. -/
def emb (p : ℕ) : ℕ := 6 * (p / 4) + [0, 1, 3, 4].getD (p % 4) 0

theorem emb_lt {p k : ℕ} (h : p < 4 * k) : emb p < 6 * k := by
  unfold emb
  have : p / 4 < k := by omega
  have h4 : p % 4 < 4 := Nat.mod_lt _ (by norm_num)
  have : [0, 1, 3, 4].getD (p % 4) 0 < 6 := by
    generalize p % 4 = q at h4
    interval_cases q <;> simp
  omega

theorem emb_add (k i : ℕ) (hi : i < 4) : emb (4 * k + i) = 6 * k + [0, 1, 3, 4].getD i 0 := by
  unfold emb
  rw [show (4 * k + i) / 4 = k by omega, show (4 * k + i) % 4 = i by omega]

theorem keptDofs_six (k : ℕ) : keptDofs (6 * k) = (List.range (4 * k)).map emb := by
  induction k with
  | zero => rfl
  | succ k ih =>
    unfold keptDofs at ih ⊢
    rw [show 6 * (k + 1) = 6 * k + 6 by ring, show 4 * (k + 1) = 4 * k + 4 by ring,
      List.range_add, List.range_add, List.filter_append, List.map_append, ih]
    congr 1
    have e : ∀ i, thirdDof (6 * k + i) = (decide (2 ≤ 6 * k + i) && decide ((6 * k + i - 2) % 3 = 0)) := by
      intro i; simp [thirdDof]
    have h0 : thirdDof (6 * k + 0) = false := by rw [e]; simp; omega
    have h1 : thirdDof (6 * k + 1) = false := by rw [e]; simp; omega
    have h2 : thirdDof (6 * k + 2) = true := by rw [e]; simp; omega
    have h3 : thirdDof (6 * k + 3) = false := by rw [e]; simp; omega
    have h4 : thirdDof (6 * k + 4) = false := by rw [e]; simp; omega
    have h5 : thirdDof (6 * k + 5) = true := by rw [e]; simp; omega
    have r6 : List.range 6 = [0, 1, 2, 3, 4, 5] := rfl
    have r4 : List.range 4 = [0, 1, 2, 3] := rfl
    rw [r6, r4]
    simp only [List.map_cons, List.map_nil, List.filter_cons, List.filter_nil, h0, h1, h2, h3, h4,
      h5, Bool.not_false, Bool.not_true, if_true]
    rw [emb_add k 0 (by norm_num), emb_add k 1 (by norm_num), emb_add k 2 (by norm_num),
      emb_add k 3 (by norm_num)]
    simp

theorem sum_emb (k : ℕ) (f : ℕ → ℝ) (h : ∀ j, f (6 * j + 2) = 0 ∧ f (6 * j + 5) = 0) :
    ∑ i ∈ Finset.range (6 * k), f i = ∑ p ∈ Finset.range (4 * k), f (emb p) := by
  induction k with
  | zero => rfl
  | succ k ih =>
    rw [show 6 * (k + 1) = 6 * k + 6 by ring, show 4 * (k + 1) = 4 * k + 4 by ring]
    simp only [Finset.sum_range_succ, ih]
    rw [← add_zero (4 * k), emb_add k 0 (by norm_num), add_zero, emb_add k 1 (by norm_num),
      emb_add k 2 (by norm_num), emb_add k 3 (by norm_num)]
    obtain ⟨h2, h5⟩ := h k
    rw [h2, h5]
    simp

theorem ent_of {n : ℕ} (A : Matrix (Fin n) (Fin n) ℝ) (i j : Fin n) :
    LMat.ent ⟨n, A⟩ i j = A i j := by
  simp [LMat.ent]

theorem bilin_range {n : ℕ} (A : Matrix (Fin n) (Fin n) ℝ) (x y : ℕ → ℝ) :
    bilin A x y = ∑ i ∈ Finset.range n, ∑ j ∈ Finset.range n, x i * LMat.ent ⟨n, A⟩ i j * y j := by
  unfold bilin
  rw [← Fin.sum_univ_eq_sum_range (fun i => ∑ j ∈ Finset.range n, x i * LMat.ent ⟨n, A⟩ i j * y j)]
  refine Finset.sum_congr rfl fun i _ => ?_
  rw [← Fin.sum_univ_eq_sum_range (fun j => x i * LMat.ent ⟨n, A⟩ i j * y j)]
  exact Finset.sum_congr rfl fun j _ => by rw [ent_of]

/-- The form of a matrix with its size. -/
noncomputable def form (B : LMat) (w w' : ℕ → ℝ) : ℝ :=
  ∑ p ∈ Finset.range B.1, ∑ q ∈ Finset.range B.1, w p * B.ent p q * w' q

/-- The reduction of `run_static`. -/
def red (nd : ℕ) (A : LMat) : LMat := if nd = 6 then removeDofs A else A

theorem removeDofs_ent (A : LMat) {k : ℕ} (hA : A.1 = 6 * k) :
    (removeDofs A).1 = 4 * k ∧ ∀ p q, p < 4 * k → q < 4 * k →
      (removeDofs A).ent p q = A.ent (emb p) (emb q) := by
  have h1 : keptDofs A.1 = (List.range (4 * k)).map emb := by rw [hA, keptDofs_six]
  have hl : (removeDofs A).1 = 4 * k := by
    show (keptDofs A.1).length = 4 * k
    rw [h1]; simp
  refine ⟨hl, fun p q hp hq => ?_⟩
  have g : ∀ p, p < 4 * k → (keptDofs A.1).getD p 0 = emb p := by
    intro p hp
    rw [h1, List.getD_eq_getElem?_getD, List.getElem?_eq_getElem (by simpa using hp)]
    simp
  have : (removeDofs A).ent p q =
      A.ent ((keptDofs A.1).getD p 0) ((keptDofs A.1).getD q 0) := by
    unfold LMat.ent
    rw [dif_pos ⟨by rw [hl]; exact hp, by rw [hl]; exact hq⟩]
    rfl
  rw [this, g p hp, g q hq]

theorem ndof_nil (h : init pd fuel a = some (.ok r)) (hp : r.pms = []) :
    r.ndof = r.number_dof * (shaftEnd r + 1) := by
  rw [ndof_eq (init_ok h), hp, ← shaftEnd_last h]; simp [size]

theorem describes_four (h : init pd fuel a = some (.ok r)) (hp : r.pms = [])
    (h4 : r.number_dof = 4) {x : ℕ → ℝ} {w : ℕ → ℝ} (hx : Describes r x (U w)) {i : ℕ}
    (hi : i < r.ndof) : x i = w i := by
  have hn := ndof_nil h hp
  rw [h4] at hn
  have hle : i / 4 ≤ shaftEnd r := by omega
  have hlt : i % 4 < 4 := Nat.mod_lt _ (by norm_num)
  obtain ⟨j, q, rfl, hq⟩ : ∃ j q, i = 4 * j + q ∧ q < 4 := ⟨i / 4, i % 4, by omega, hlt⟩
  have hj : j ≤ shaftEnd r := by omega
  have key := fun l (hl : l ∈ nodeLetters 4) => hx (l, j) (Or.inl ⟨hj, by rw [h4]; exact hl⟩)
  simp only [h4, slot, hj, if_true] at key
  interval_cases q
  · have := key "x" (by simp [nodeLetters]); simpa [nodeLetters, U] using this
  · have := key "y" (by simp [nodeLetters]); simpa [nodeLetters, U] using this
  · have := key "alpha" (by simp [nodeLetters]); simpa [nodeLetters, U] using this
  · have := key "beta" (by simp [nodeLetters]); simpa [nodeLetters, U] using this

theorem describes_six (h : init pd fuel a = some (.ok r)) (hp : r.pms = [])
    (h6 : r.number_dof = 6) {x : ℕ → ℝ} {w : ℕ → ℝ} (hx : Describes r x (U w)) {j : ℕ}
    (hj : j ≤ shaftEnd r) :
    x (6 * j + 2) = 0 ∧ x (6 * j + 5) = 0 ∧ ∀ q < 4, x (emb (4 * j + q)) = w (4 * j + q) := by
  have key := fun l (hl : l ∈ nodeLetters 6) => hx (l, j) (Or.inl ⟨hj, by rw [h6]; exact hl⟩)
  simp only [h6, slot, hj, if_true] at key
  refine ⟨?_, ?_, fun q hq => ?_⟩
  · have := key "z" (by simp [nodeLetters]); simpa [nodeLetters, U] using this
  · have := key "theta" (by simp [nodeLetters]); simpa [nodeLetters, U] using this
  · rw [emb_add j q hq]
    interval_cases q
    · have := key "x" (by simp [nodeLetters]); simpa [nodeLetters, U] using this
    · have := key "y" (by simp [nodeLetters]); simpa [nodeLetters, U] using this
    · have := key "alpha" (by simp [nodeLetters]); simpa [nodeLetters, U] using this
    · have := key "beta" (by simp [nodeLetters]); simpa [nodeLetters, U] using this

/-- Motions without axial and torsional part see the reduced matrix. -/
theorem red_form (h : init pd fuel a = some (.ok r)) (hp : r.pms = [])
    (A : Matrix (Fin r.ndof) (Fin r.ndof) ℝ) {x y w w' : ℕ → ℝ}
    (hx : Describes r x (U w)) (hy : Describes r y (U w')) :
    (red r.number_dof ⟨r.ndof, A⟩).1 = 4 * (shaftEnd r + 1) ∧
      form (red r.number_dof ⟨r.ndof, A⟩) w w' = bilin A x y := by
  have hn := ndof_nil h hp
  rw [bilin_range]
  rcases nd_cases (init_ok h) with h4 | h6
  · rw [h4] at hn
    have e : red r.number_dof ⟨r.ndof, A⟩ = ⟨r.ndof, A⟩ := by simp [red, h4]
    rw [e]
    refine ⟨hn, ?_⟩
    unfold form
    refine Finset.sum_congr rfl fun i hi => Finset.sum_congr rfl fun j hj => ?_
    rw [describes_four h hp h4 hx (Finset.mem_range.1 hi),
      describes_four h hp h4 hy (Finset.mem_range.1 hj)]
  · rw [h6] at hn
    have e : red r.number_dof ⟨r.ndof, A⟩ = removeDofs ⟨r.ndof, A⟩ := by simp [red, h6]
    rw [e]
    obtain ⟨h1, h2⟩ := removeDofs_ent ⟨r.ndof, A⟩ hn
    refine ⟨h1, ?_⟩
    unfold form
    rw [h1]
    -- vectors that vanish beyond the nodes
    have trunc : ∀ {z v : ℕ → ℝ}, Describes r z (U v) → ∃ z' : ℕ → ℝ,
        (∀ i < 6 * (shaftEnd r + 1), z' i = z i) ∧
        (∀ j, z' (6 * j + 2) = 0 ∧ z' (6 * j + 5) = 0) ∧
        ∀ p < 4 * (shaftEnd r + 1), z' (emb p) = v p := by
      intro z v hz
      refine ⟨fun i => if i < 6 * (shaftEnd r + 1) then z i else 0, fun i hi => if_pos hi,
        fun j => ?_, fun p hp' => ?_⟩
      · by_cases hj : j ≤ shaftEnd r
        · obtain ⟨d1, d2, -⟩ := describes_six h hp h6 hz hj
          simp only
          rw [if_pos (by omega), if_pos (by omega)]
          exact ⟨d1, d2⟩
        · simp only
          rw [if_neg (by omega), if_neg (by omega)]
          exact ⟨rfl, rfl⟩
      · simp only
        rw [if_pos (emb_lt hp')]
        have := (describes_six h hp h6 hz (j := p / 4) (by omega)).2.2 (p % 4)
          (Nat.mod_lt _ (by norm_num))
        rwa [show 4 * (p / 4) + p % 4 = p by omega] at this
    obtain ⟨x', x1, x2, x3⟩ := trunc hx
    obtain ⟨y', y1, y2, y3⟩ := trunc hy
    have step : ∑ i ∈ Finset.range r.ndof, ∑ j ∈ Finset.range r.ndof,
        x i * LMat.ent ⟨r.ndof, A⟩ i j * y j =
        ∑ i ∈ Finset.range (6 * (shaftEnd r + 1)), ∑ j ∈ Finset.range (6 * (shaftEnd r + 1)),
          x' i * LMat.ent ⟨r.ndof, A⟩ i j * y' j := by
      rw [show Finset.range r.ndof = Finset.range (6 * (shaftEnd r + 1)) by rw [hn]]
      refine Finset.sum_congr rfl fun i hi => Finset.sum_congr rfl fun j hj => ?_
      rw [x1 i (Finset.mem_range.1 hi), y1 j (Finset.mem_range.1 hj)]
    rw [step, sum_emb]
    · refine Finset.sum_congr rfl fun p hp' => ?_
      rw [sum_emb]
      · refine Finset.sum_congr rfl fun q hq => ?_
        rw [h2 p q (Finset.mem_range.1 hp') (Finset.mem_range.1 hq), x3 p (Finset.mem_range.1 hp'),
          y3 q (Finset.mem_range.1 hq)]
      · intro j; simp [y2 j]
    · intro j
      exact ⟨Finset.sum_eq_zero fun q _ => by simp [x2 j],
        Finset.sum_eq_zero fun q _ => by simp [x2 j]⟩

/-! ### Lists -/

theorem mulVec_length (A : LMat) (v : List ℝ) : (A.mulVec v).length = A.1 := by
  simp [LMat.mulVec]

theorem mulVec_getD (A : LMat) (v : List ℝ) {p : ℕ} (hp : p < A.1) :
    (A.mulVec v).getD p 0 = ∑ q ∈ Finset.range A.1, A.ent p q * v.getD q 0 := by
  unfold LMat.mulVec
  rw [List.getD_eq_getElem?_getD, List.getElem?_eq_getElem (by simpa using hp), Option.getD_some,
    List.getElem_ofFn, ← Fin.sum_univ_eq_sum_range (fun q => A.ent p q * v.getD q 0)]
  refine Finset.sum_congr rfl fun q _ => ?_
  have := ent_of A.2 ⟨p, hp⟩ q
  rw [← this]

theorem sum_mulVec (A : LMat) (v : List ℝ) (w : ℕ → ℝ) :
    ∑ p ∈ Finset.range A.1, w p * (A.mulVec v).getD p 0 = form A w fun q => v.getD q 0 := by
  unfold form
  refine Finset.sum_congr rfl fun p hp => ?_
  rw [mulVec_getD A v (Finset.mem_range.1 hp), Finset.mul_sum]
  exact Finset.sum_congr rfl fun q _ => by ring

theorem solve_ok {A : LMat} {b l : List ℝ} (h : A.solve b = .ok l) :
    l.length = A.1 ∧ ∀ p < A.1, (A.mulVec l).getD p 0 = b.getD p 0 := by
  unfold LMat.solve at h
  by_cases hd : A.2.det = 0
  · rw [if_pos hd] at h; cases h
  rw [if_neg hd] at h
  have := (Except.ok.inj h).symm
  subst this
  refine ⟨by simp, fun p hp => ?_⟩
  have hu : IsUnit A.2.det := isUnit_iff_ne_zero.2 hd
  have hk : A.2 *ᵥ (A.2⁻¹ *ᵥ fun i : Fin A.1 => b.getD i 0) = fun i : Fin A.1 => b.getD i 0 := by
    rw [mulVec_mulVec, Matrix.mul_nonsing_inv _ hu, one_mulVec]
  have hk' : _ = b.getD p 0 := congrFun hk ⟨p, hp⟩
  rw [← hk']
  unfold LMat.mulVec
  rw [List.getD_eq_getElem?_getD, List.getElem?_eq_getElem (by simpa using hp), Option.getD_some,
    List.getElem_ofFn]
  unfold Matrix.mulVec dotProduct
  refine Finset.sum_congr rfl fun q _ => ?_
  congr 1
  rw [List.getD_eq_getElem?_getD, List.getElem?_eq_getElem (by simp), Option.getD_some,
    List.getElem_ofFn]

theorem from1by4_length {l : List ℝ} {m : ℕ} (h : l.length = 4 * m) : (from1by4 l).length = m := by
  simp [from1by4, h]; omega

theorem from1by4_getD {l : List ℝ} {m : ℕ} (h : l.length = 4 * m) {i : ℕ} (hi : i < m) :
    (from1by4 l).getD i 0 = l.getD (4 * i + 1) 0 := by
  rw [List.getD_eq_getElem?_getD,
    List.getElem?_eq_getElem (by rw [from1by4_length h]; exact hi), Option.getD_some]
  simp [from1by4]

theorem npSub_ok {a b l : List ℝ} (h : npSub a b = .ok l) :
    a.length = b.length ∧ l.length = a.length ∧ ∀ i, l.getD i 0 = a.getD i 0 - b.getD i 0 := by
  unfold npSub at h
  by_cases hl : a.length = b.length
  · rw [if_pos hl] at h
    have := (Except.ok.inj h).symm
    subst this
    refine ⟨hl, by simp [hl], fun i => ?_⟩
    by_cases hi : i < a.length
    · rw [List.getD_eq_getElem?_getD, List.getD_eq_getElem?_getD, List.getD_eq_getElem?_getD,
        List.getElem?_eq_getElem (by simpa [← hl] using hi), List.getElem?_eq_getElem hi,
        List.getElem?_eq_getElem (hl ▸ hi)]
      simp
    · rw [List.getD_eq_getElem?_getD, List.getD_eq_getElem?_getD, List.getD_eq_getElem?_getD,
        List.getElem?_eq_none (by simp; omega), List.getElem?_eq_none (by omega),
        List.getElem?_eq_none (by omega)]
      simp
  · rw [if_neg hl] at h; cases h

/-- Sums over the vertical directions. -/
theorem sum_vertical (m : ℕ) (c f : ℕ → ℝ) :
    ∑ p ∈ Finset.range (4 * m), (if p % 4 = 1 then c (p / 4) else 0) * f p =
      ∑ i ∈ Finset.range m, c i * f (4 * i + 1) := by
  induction m with
  | zero => rfl
  | succ m ih =>
    rw [show 4 * (m + 1) = 4 * m + 4 by ring]
    simp only [Finset.sum_range_succ, ih]
    rw [if_neg (by omega), if_pos (by omega), if_neg (by omega), if_neg (by omega),
      show (4 * m + 1) / 4 = m by omega]
    ring

end Ross.StaticLemmas
