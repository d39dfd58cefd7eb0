import Verif.Props.ThdHeat

/-!
# Mixing of the oil, and forces of a flooded thermohydrodynamic bearing (C94, C95)
-/

namespace Ross.ThdLemmas

open Real Thd Thd.THD Stencil Spec.Fluid Spec.Thd

/-- What is kept by every pass of a loop holds at its end, where its condition does not. -/
theorem while_inv {σ : Type} {test : σ → Prop} {body : σ → Option (Res σ)} (I : σ → Prop)
    (hstep : ∀ s s1, I s → test s → body s = some (.ok s1) → I s1) {fuel : ℕ} {s s' : σ} (h0 : I s)
    (h : whileLoop test body fuel s = some (.ok s')) : I s' ∧ ¬test s' := by
  induction fuel generalizing s with
  | zero => simp [whileLoop] at h
  | succ n ih =>
    unfold whileLoop at h
    split_ifs at h with ht
    · split at h
      · cases h
      · cases h
      · rename_i s1 hs1
        exact ih (hstep s s1 h0 ht hs1) h
    · cases h
      exact ⟨h0, ht⟩

/-- A loop whose condition holds at the start has a last pass. -/
theorem while_last {σ : Type} {test : σ → Prop} {body : σ → Option (Res σ)} (I : σ → Prop)
    (hstep : ∀ s s1, I s → test s → body s = some (.ok s1) → I s1) {fuel : ℕ} {s s' : σ} (h0 : I s) (ht : test s)
    (h : whileLoop test body fuel s = some (.ok s')) :
    ∃ s1, I s1 ∧ body s1 = some (.ok s') ∧ I s' ∧ ¬test s' := by
  induction fuel generalizing s with
  | zero => simp [whileLoop] at h
  | succ n ih =>
    unfold whileLoop at h
    rw [if_pos ht] at h
    split at h
    · cases h
    · cases h
    · rename_i s1 hs1
      have hI1 := hstep s s1 h0 ht hs1
      by_cases ht1 : test s1
      · exact ih hI1 ht1 h
      · have hn : s' = s1 := by
          cases n with
          | zero => simp [whileLoop] at h
          | succ k =>
            unfold whileLoop at h
            rw [if_neg ht1] at h
            cases h
            rfl
        subst hn
        exact ⟨s, h0, hs1, hI1, ht1⟩

/-- The pass with which the loop of pad `p` ends, and which left the arrays of that pad as they are in `s`. -/
def Done (B : THD) (solve : Fluid.FluidFlow.Solver) (J : Journal) (I : Fields → Prop) (p : ℕ) (s : Fields) : Prop :=
  ∃ s0 s1, I s0 ∧ B.pad_step solve J p s0 = .ok s1 ∧ ¬B.pad_cond p s1 ∧ pad s.P p = pad s1.P p ∧
    pad s.T p = pad s1.T p ∧ pad s.T_new p = pad s1.T_new p ∧ pad s.mu_turb p = pad s1.mu_turb p

/-- What the arrays of a pad have in common in two states. -/
def SamePad (q : ℕ) (s s' : Fields) : Prop :=
  pad s'.P q = pad s.P q ∧ pad s'.T q = pad s.T q ∧ pad s'.T_new q = pad s.T_new q ∧ pad s'.mu_turb q = pad s.mu_turb q

theorem step_same {B : THD} {solve} {J : Journal} {n_p q : ℕ} {s s' : Fields}
    (h : B.pad_step solve J n_p s = .ok s') (hq : q ≠ n_p) : SamePad q s s' := by
  obtain ⟨P, f, mt, S, -, -, -, -, h1, h2, h3, h4, h5, h6, -⟩ := pad_step_ok h
  unfold SamePad
  rw [h1, h2, h3, h5]
  exact ⟨pad_setPad_ne _ hq _, pad_setPad_ne _ hq _, pad_setPad_ne _ hq _, pad_setPad_ne _ hq _⟩

theorem SamePad.trans {q : ℕ} {s s1 s2 : Fields} (h : SamePad q s s1) (h' : SamePad q s1 s2) : SamePad q s s2 :=
  ⟨h'.1.trans h.1, h'.2.1.trans h.2.1, h'.2.2.1.trans h.2.2.1, h'.2.2.2.trans h.2.2.2⟩

theorem pads_done {B : THD} {solve} {J : Journal} {I : Fields → Prop}
    (hI : ∀ p s s1, I s → B.pad_step solve J p s = .ok s1 → I s1) {fuel : ℕ} {l : List ℕ} (hnd : l.Nodup)
    {s s' : Fields} (h0 : I s) (hc : ∀ p ∈ l, ∀ t, SamePad p s t → B.pad_cond p t)
    (h : B.pads_loop solve J fuel l s = some (.ok s')) :
    I s' ∧ (∀ p ∈ l, Done B solve J I p s') ∧ ∀ q, q ∉ l → SamePad q s s' := by
  induction l generalizing s with
  | nil =>
    simp only [pads_loop, Option.some.injEq, Except.ok.injEq] at h
    subst h
    exact ⟨h0, fun p hp => absurd hp List.not_mem_nil, fun q _ => ⟨rfl, rfl, rfl, rfl⟩⟩
  | cons p rest ih =>
    unfold pads_loop at h
    split at h
    · cases h
    · cases h
    · rename_i s1 hs1
      unfold pad_loop at hs1
      obtain ⟨hp, hnd'⟩ := List.nodup_cons.1 hnd
      have hbody : ∀ t t1, some (B.pad_step solve J p t) = some (.ok t1) → B.pad_step solve J p t = .ok t1 :=
        fun t t1 h => Option.some.inj h
      obtain ⟨s0, hI0, hb0, hI1, ht1⟩ := while_last I (fun t t1 hIt _ hb => hI p t t1 hIt (hbody _ _ hb)) h0
        (hc p List.mem_cons_self s ⟨rfl, rfl, rfl, rfl⟩) hs1
      have hsame : ∀ q, q ≠ p → SamePad q s s1 := fun q hq =>
        (while_inv (fun t => SamePad q s t) (fun t t1 hIt _ hb => hIt.trans (step_same (hbody _ _ hb) hq))
          ⟨rfl, rfl, rfl, rfl⟩ hs1).1
      obtain ⟨hI', hd, hs⟩ := ih hnd' hI1 (fun q hq t ht => hc q (List.mem_cons_of_mem _ hq) t
        ((hsame q (fun e => hp (e ▸ hq))).trans ht)) h
      refine ⟨hI', fun q hq => ?_, fun q hq => ?_⟩
      · rcases List.mem_cons.1 hq with rfl | hq
        · have := hs q hp
          exact ⟨s0, s1, hI0, hbody _ _ hb0, ht1, this.1, this.2.1, this.2.2.1, this.2.2.2⟩
        · exact hd q hq
      · rw [List.mem_cons, not_or] at hq
        exact (hsame q hq.1).trans (hs q hq.2)

/-- At the start of a pass over the pads the loop of every pad is entered. -/
theorem fresh_cond {B : THD} (hna : 0 < B.elements_axial) (hnc : 0 < B.elements_circumferential) (E M : ℕ → ℝ) (p : ℕ)
    (t : Fields) (ht : SamePad p (fresh E M) t) : B.pad_cond p t := by
  have e1 : pad t.T p = fun _ _ => 1 := ht.2.1
  have e2 : pad t.T_new p = fun _ _ => 1.2 := ht.2.2.1
  unfold pad_cond
  have e3 : (fun i j => t.T_new i j p - t.T i j p) = fun _ _ => (0.2 : ℝ) := by
    funext i j
    have a1 := congrFun (congrFun e1 i) j
    have a2 := congrFun (congrFun e2 i) j
    change t.T i j p = 1 at a1
    change t.T_new i j p = 1.2 at a2
    rw [a1, a2]
    norm_num
  rw [e3, e1]
  have hn : ∀ x : ℝ, 0 ≤ x → B.norm (fun _ _ => x) = √(B.elements_axial * B.elements_circumferential) * x := by
    intro x hx
    unfold THD.norm
    simp only [Finset.sum_const, Finset.card_range, nsmul_eq_mul]
    rw [← mul_assoc, Real.sqrt_mul (by positivity), Real.sqrt_sq hx]
  rw [hn _ (by norm_num), hn _ (by norm_num)]
  have : 0 < √((B.elements_axial : ℝ) * B.elements_circumferential) := by
    have : (0 : ℝ) < B.elements_axial := by exact_mod_cast hna
    have : (0 : ℝ) < B.elements_circumferential := by exact_mod_cast hnc
    positivity
  rw [mul_one, mul_comm, mul_div_cancel_right₀ _ this.ne']
  norm_num

/-- What `_forces` leaves behind. -/
theorem film_ok {B : THD} {solve} {fuel : ℕ} {J : Journal} {f : (ℕ → ℕ → ℕ → ℝ) × (ℕ → ℕ → ℕ → ℝ)} (I : Fields → Prop)
    (hI : ∀ p s s1, I s → B.pad_step solve J p s = .ok s1 → I s1)
    (hfresh : I (fresh (fun _ => 1) (fun _ => B.reference_temperature)))
    (hagain : ∀ s, I s → I (fresh s.T_end s.T_mist))
    (hna : 0 < B.elements_axial) (hnc : 0 < B.elements_circumferential)
    (h : B.film_flooded solve fuel J = some (.ok f)) :
    ∃ ct, B.pad_ct = .ok ct ∧ ct.length = B.n_pad ∧ ∃ s : Fields, I s ∧ f.1 = s.P ∧ f.2 = s.mu_new ∧
      ∀ p < B.n_pad, Done B solve J I p s := by
  unfold film_flooded at h
  split at h
  · cases h
  · rename_i ct hct
    split at h
    · cases h
    · cases h
    · rename_i m hm
      obtain ⟨⟨-, hM⟩, -⟩ := while_inv
        (fun m : Mixing => I (fresh m.T_end m.T_mist) ∧
          ∀ P, m.P = some P → ∃ s : Fields, I s ∧ P = s.P ∧ m.mu_l = s.mu_new ∧ ∀ p < B.n_pad, Done B solve J I p s)
        (fun m m1 hIm _ hb => by
          unfold mixing_step at hb
          split at hb
          · cases hb
          · cases hb
          · rename_i s hs
            cases hb
            obtain ⟨hIs, hd, -⟩ := pads_done hI List.nodup_range hIm.1
              (fun p _ t ht => fresh_cond hna hnc _ _ p t ht) hs
            refine ⟨hagain s hIs, fun P hP => ⟨s, hIs, ?_, rfl, fun p hp => hd p (List.mem_range.2 hp)⟩⟩
            cases hP
            rfl)
        ⟨hfresh, fun P hP => (by cases hP)⟩ hm
      split at h
      · cases h
      · rename_i P hP
        split_ifs at h with hl
        · cases h
        · cases h
          obtain ⟨s, hIs, rfl, hmu, hd⟩ := hM P hP
          exact ⟨ct, hct, not_not.1 hl, s, hIs, rfl, hmu, hd⟩

theorem forces_film {B : THD} {solve} {fuel : ℕ} {J : Journal} {F : ℝ × ℝ}
    (h : B.forces_flooded solve fuel J = some (.ok F)) :
    ∃ f, B.film_flooded solve fuel J = some (.ok f) ∧ F = B.resultant f.1 := by
  unfold forces_flooded at h
  split at h
  · cases h
  · cases h
  · rename_i f hf
    cases h
    exact ⟨f, hf, rfl⟩

/-- What is known when `_forces` ends. -/
theorem forces_ok {B : THD} {solve} {fuel : ℕ} {J : Journal} {F : ℝ × ℝ} (I : Fields → Prop)
    (hI : ∀ p s s1, I s → B.pad_step solve J p s = .ok s1 → I s1)
    (hfresh : I (fresh (fun _ => 1) (fun _ => B.reference_temperature)))
    (hagain : ∀ s, I s → I (fresh s.T_end s.T_mist))
    (hna : 0 < B.elements_axial) (hnc : 0 < B.elements_circumferential)
    (h : B.forces_flooded solve fuel J = some (.ok F)) :
    ∃ ct, B.pad_ct = .ok ct ∧ ct.length = B.n_pad ∧ ∃ s : Fields, I s ∧ F = B.resultant s.P ∧
      ∀ p < B.n_pad, Done B solve J I p s := by
  obtain ⟨f, hf, rfl⟩ := forces_film h
  obtain ⟨ct, h1, h2, s, h3, h4, -, h5⟩ := film_ok I hI hfresh hagain hna hnc hf
  exact ⟨ct, h1, h2, s, h3, by rw [h4], h5⟩

theorem trapz_zero {m : ℕ} {y x : ℕ → ℝ} (h : ∀ q < m, y q = 0) : trapz m y x = 0 := by
  unfold trapz
  refine Finset.sum_eq_zero fun q hq => ?_
  rw [Finset.mem_range] at hq
  rw [h q (by omega), h (q + 1) (by omega)]
  ring

theorem trapz_nonneg {m : ℕ} {y x : ℕ → ℝ} (h : ∀ q < m, 0 ≤ y q) (hx : ∀ q, q + 1 < m → x q ≤ x (q + 1)) :
    0 ≤ trapz m y x := by
  unfold trapz
  refine Finset.sum_nonneg fun q hq => ?_
  rw [Finset.mem_range] at hq
  have h1 := h q (by omega)
  have h2 := h (q + 1) (by omega)
  have h3 := hx q (by omega)
  exact div_nonneg (mul_nonneg (by linarith) (by linarith)) (by norm_num)

/-- Where nothing presses, there is no force. -/
theorem resultant_zero {B : THD} {P : ℕ → ℕ → ℕ → ℝ}
    (h : ∀ p < B.n_pad, ∀ i < B.elements_axial, ∀ j < B.elements_circumferential, P i j p = 0) :
    B.resultant P = (0, 0) := by
  have hz : ∀ i < B.elements_axial, ∀ q < B.elements_circumferential * B.n_pad,
      B.Pdim P i (q % B.elements_circumferential) (q / B.elements_circumferential) = 0 := by
    intro i hi q hq
    have hc : 0 < B.elements_circumferential := Nat.pos_of_ne_zero fun e => by rw [e, zero_mul] at hq; omega
    unfold Pdim
    rw [h _ (Nat.div_lt_of_lt_mul hq) i hi _ (Nat.mod_lt _ hc)]
    simp
  unfold resultant
  dsimp only
  rw [trapz_zero fun i hi => trapz_zero fun q hq => by rw [hz i hi q hq, zero_mul],
    trapz_zero fun i hi => trapz_zero fun q hq => by rw [hz i hi q hq, zero_mul], neg_zero]

/-- A loop that ends after three passes at most. -/
theorem while_ends {σ : Type} {test : σ → Prop} {body : σ → Option (Res σ)} {I : σ → Prop}
    (hbody : ∀ s, I s → ∃ s1, body s = some (.ok s1) ∧ I s1)
    (hend : ∀ s s1 s2 s3, I s → body s = some (.ok s1) → body s1 = some (.ok s2) → body s2 = some (.ok s3) → ¬test s3)
    (n : ℕ) {s : σ} (h0 : I s) : ∃ s', whileLoop test body (n + 4) s = some (.ok s') ∧ I s' := by
  obtain ⟨s1, hb1, h1⟩ := hbody s h0
  obtain ⟨s2, hb2, h2⟩ := hbody s1 h1
  obtain ⟨s3, hb3, h3⟩ := hbody s2 h2
  have ht := hend s s1 s2 s3 h0 hb1 hb2 hb3
  by_cases t0 : test s
  · by_cases t1 : test s1
    · by_cases t2 : test s2
      · refine ⟨s3, ?_, h3⟩
        rw [whileLoop, if_pos t0, hb1]
        dsimp only
        rw [whileLoop, if_pos t1, hb2]
        dsimp only
        rw [whileLoop, if_pos t2, hb3]
        dsimp only
        rw [whileLoop, if_neg ht]
      · refine ⟨s2, ?_, h2⟩
        rw [whileLoop, if_pos t0, hb1]
        dsimp only
        rw [whileLoop, if_pos t1, hb2]
        dsimp only
        rw [whileLoop, if_neg t2]
    · refine ⟨s1, ?_, h1⟩
      rw [whileLoop, if_pos t0, hb1]
      dsimp only
      rw [whileLoop, if_neg t1]
  · refine ⟨s, ?_, h0⟩
    rw [whileLoop, if_neg t0]

theorem pads_end {B : THD} {solve} {J : Journal} {fuel : ℕ} {I : Fields → Prop} {l : List ℕ}
    (h : ∀ p ∈ l, ∀ s, I s → ∃ s1, B.pad_loop solve J fuel p s = some (.ok s1) ∧ I s1) {s : Fields} (h0 : I s) :
    ∃ s', B.pads_loop solve J fuel l s = some (.ok s') ∧ I s' := by
  induction l generalizing s with
  | nil => exact ⟨s, rfl, h0⟩
  | cons p rest ih =>
    obtain ⟨s1, hs1, h1⟩ := h p List.mem_cons_self s h0
    obtain ⟨s', hs', h'⟩ := ih (fun q hq => h q (List.mem_cons_of_mem _ hq)) h1
    refine ⟨s', ?_, h'⟩
    unfold pads_loop
    rw [hs1]
    exact hs'

/-- The trapezoidal rule for points at the same distance. -/
theorem trapz_uniform {m : ℕ} {y x : ℕ → ℝ} {d : ℝ} (hm : 2 ≤ m) (hx : ∀ q, q + 1 < m → x (q + 1) - x q = d) :
    trapz m y x = ∑ q ∈ Finset.range m, (if q = 0 ∨ q = m - 1 then 1 / 2 else 1) * (y q * d) := by
  have key : ∀ k, k + 1 ≤ m → ∑ q ∈ Finset.range k, (x (q + 1) - x q) * (y q + y (q + 1)) / 2 =
      (∑ q ∈ Finset.range k, (if q = 0 then 1 / 2 else 1) * (y q * d)) + if k = 0 then 0 else 1 / 2 * (y k * d) := by
    intro k
    induction k with
    | zero => simp
    | succ k ih =>
      intro hk
      rw [Finset.sum_range_succ, ih (by omega), Finset.sum_range_succ, hx k (by omega)]
      by_cases h0 : k = 0
      · subst h0
        simp
        ring
      · simp only [h0, if_false, Nat.succ_ne_zero]
        ring
  unfold trapz
  rw [key (m - 1) (by omega)]
  obtain ⟨k, rfl⟩ : ∃ k, m = k + 2 := ⟨m - 2, by omega⟩
  rw [show k + 2 - 1 = k + 1 from rfl, Finset.sum_range_succ (n := k + 1), if_neg (Nat.succ_ne_zero k),
    if_pos (Or.inr rfl)]
  congr 1
  refine Finset.sum_congr rfl fun q hq => ?_
  rw [Finset.mem_range] at hq
  by_cases h0 : q = 0
  · simp [h0]
  · rw [if_neg h0, if_neg (by omega)]

theorem pad_ct_ok {B : THD} {ct : List ℕ} (h : B.pad_ct = .ok ct) (hl : ct.length = B.n_pad) : B.n_pad ∣ 360 := by
  unfold pad_ct at h
  split_ifs at h with h0 h1
  cases h
  rw [List.length_map, List.length_range] at hl
  have hk : 0 < 360 / B.n_pad := Nat.pos_of_ne_zero h1
  have hn : 0 < B.n_pad := Nat.pos_of_ne_zero h0
  generalize hke : 360 / B.n_pad = k at *
  have h2 : k * B.n_pad ≤ 360 := by rw [← hke]; exact Nat.div_mul_le_self _ _
  have h3 : (360 + k - 1) / k ≤ B.n_pad := hl.le
  rw [Nat.div_le_iff_le_mul_add_pred hk] at h3
  refine ⟨k, ?_⟩
  rw [Nat.mul_comm] at h3 h2
  omega

end Ross.ThdLemmas

namespace Ross.Props

open Real Thd Thd.THD Stencil Spec.Fluid Spec.Thd ThdLemmas

/-- C94: with up to two pads the oil that enters the pad after `n_p` is a mixture of fresh oil, with the part given for
the groove, and of the oil that leaves pad `n_p`, with the mean temperature of its last cells. -/
theorem C94_mixing_partial {B : THD} {solve : Fluid.FluidFlow.Solver} {J : Journal} {n_p : ℕ} {s s' : Fields}
    (h : B.pad_step solve J n_p s = .ok s') (hn : B.n_pad ≤ 2) (hp : n_p < B.n_pad) :
    ∃ l f, B.fat_mixt = .list l ∧ l[n_p]? = some f ∧
      s'.T_mist ((n_p + 1) % B.n_pad) = f * B.reference_temperature + (1 - f) *
        ((∑ i ∈ Finset.range B.elements_axial,
          s'.T_new i (B.elements_circumferential - 1) n_p * B.reference_temperature) / B.elements_axial) := by
  obtain ⟨P, f, mt, S, -, hf, -, -, -, -, h3, -, -, h6, h7⟩ := pad_step_ok h
  unfold THD.fat at hf
  split at hf
  · cases hf
  · rename_i l hl
    split at hf
    · rename_i hf'
      cases hf
      refine ⟨l, f, hl, hf', ?_⟩
      have hb : B.before n_p = (n_p + 1) % B.n_pad := by
        unfold before
        have : B.n_pad = 1 ∨ B.n_pad = 2 := by omega
        rcases this with e | e
        · rw [e] at hp ⊢
          have : n_p = 0 := by omega
          subst this
          rfl
        · rw [e] at hp ⊢
          have : n_p = 0 ∨ n_p = 1 := by omega
          rcases this with rfl | rfl <;> rfl
      rw [h7, hb, Function.update_self, h6, Function.update_self, h3]
      unfold setPad
      simp only [if_true]
    · cases hf

/-- C94, refuted for three or more pads: the oil that leaves a pad does not enter the next one.  The mixing temperature of
the next pad is left as it is, and the mixture is the one that enters the pad before. -/
theorem C94_mixing_false {B : THD} {solve : Fluid.FluidFlow.Solver} {J : Journal} {n_p : ℕ} {s s' : Fields}
    (h : B.pad_step solve J n_p s = .ok s') (hn : 3 ≤ B.n_pad) (hp : n_p < B.n_pad) :
    s'.T_mist ((n_p + 1) % B.n_pad) = s.T_mist ((n_p + 1) % B.n_pad) ∧
      ∃ f, s'.T_mist ((n_p + B.n_pad - 1) % B.n_pad) =
        f * B.reference_temperature + (1 - f) * s'.T_end n_p := by
  obtain ⟨P, f, mt, S, -, hf, -, -, -, -, -, -, -, -, h7⟩ := pad_step_ok h
  have hb : B.before n_p = (n_p + B.n_pad - 1) % B.n_pad := by
    unfold before
    split_ifs with h0
    · subst h0
      rw [zero_add, Nat.mod_eq_of_lt (by omega)]
    · rw [show n_p + B.n_pad - 1 = n_p - 1 + B.n_pad by omega, Nat.add_mod_right, Nat.mod_eq_of_lt (by omega)]
  have hne : (n_p + 1) % B.n_pad ≠ B.before n_p := by
    unfold before
    by_cases h1 : n_p + 1 = B.n_pad
    · rw [h1, Nat.mod_self]
      split_ifs <;> omega
    · rw [Nat.mod_eq_of_lt (by omega)]
      split_ifs <;> omega
  rw [h7]
  refine ⟨Function.update_of_ne hne _ _, f, ?_⟩
  rw [← hb, Function.update_self]

/-- C94: with a part from 0 to 1 the mixture is between both temperatures. -/
theorem C94_between {B : THD} {solve : Fluid.FluidFlow.Solver} {J : Journal} {n_p : ℕ} {s s' : Fields} {l : List ℝ}
    {f : ℝ} (h : B.pad_step solve J n_p s = .ok s') (hl : B.fat_mixt = .list l) (hf : l[n_p]? = some f) (hf0 : 0 ≤ f)
    (hf1 : f ≤ 1) :
    min B.reference_temperature (s'.T_end n_p) ≤ s'.T_mist (B.before n_p) ∧
      s'.T_mist (B.before n_p) ≤ max B.reference_temperature (s'.T_end n_p) := by
  obtain ⟨P, f', mt, S, -, hf', -, -, -, -, -, -, -, -, h7⟩ := pad_step_ok h
  unfold THD.fat at hf'
  rw [hl] at hf'
  dsimp only at hf'
  rw [hf] at hf'
  cases hf'
  rw [h7, Function.update_self]
  constructor
  · have h1 := min_le_left B.reference_temperature (s'.T_end n_p)
    have h2 := min_le_right B.reference_temperature (s'.T_end n_p)
    nlinarith [mul_le_mul_of_nonneg_left h1 hf0, mul_le_mul_of_nonneg_left h2 (sub_nonneg.2 hf1)]
  · have h1 := le_max_left B.reference_temperature (s'.T_end n_p)
    have h2 := le_max_right B.reference_temperature (s'.T_end n_p)
    nlinarith [mul_le_mul_of_nonneg_left h1 hf0, mul_le_mul_of_nonneg_left h2 (sub_nonneg.2 hf1)]

/-- C94, refuted: a groove factor that is a number is documented, but no pass succeeds with it. -/
theorem C94_number_false {B : THD} {x : ℝ} (hx : B.fat_mixt = .scalar x) (solve : Fluid.FluidFlow.Solver) (J : Journal)
    (n_p : ℕ) (s s' : Fields) : B.pad_step solve J n_p s ≠ .ok s' := by
  intro h
  obtain ⟨P, f', mt, S, -, hf', -⟩ := pad_step_ok h
  unfold THD.fat at hf'
  rw [hx] at hf'
  cases hf'

/-- C94: a list needs a part for every pad. -/
theorem C94_list {B : THD} {l : List ℝ} (hl : B.fat_mixt = .list l) {solve : Fluid.FluidFlow.Solver} {fuel : ℕ}
    {J : Journal} {F : ℝ × ℝ} (hna : 0 < B.elements_axial) (hnc : 0 < B.elements_circumferential)
    (h : B.forces_flooded solve fuel J = some (.ok F)) : B.n_pad ≤ l.length := by
  obtain ⟨-, -, -, s, -, -, hd⟩ := forces_ok (fun _ => True) (fun _ _ _ _ _ => trivial) trivial (fun _ _ => trivial)
    hna hnc h
  by_contra hlt
  push Not at hlt
  obtain ⟨s0, s1, -, hs, -⟩ := hd l.length hlt
  obtain ⟨P, f', mt, S, -, hf', -⟩ := pad_step_ok hs
  unfold THD.fat at hf'
  rw [hl] at hf'
  simp at hf'


/-- C95: when forces are reported, the number of pads divides 360, the pads have their centres at odd multiples of half
the angle of a pad with its groove, and the forces are the resultant of pressures each of which is the one of its pad for
some viscosity, at which the temperatures of the last two passes differ by less than a hundredth. -/
theorem C95_forces {B : THD} {solve : Fluid.FluidFlow.Solver} {fuel : ℕ} {J : Journal} {F : ℝ × ℝ}
    (hna : 0 < B.elements_axial) (hnc : 0 < B.elements_circumferential)
    (h : B.forces_flooded solve fuel J = some (.ok F)) :
    B.n_pad ∣ 360 ∧
    (∀ p, (B.thetaI p + B.thetaF p) / 2 = (2 * p + 1) * (π / B.n_pad) ∧
      B.thetaF p - B.thetaI p = B.betha_s_dg * (π / 180)) ∧
    ∃ s : Fields, F = B.resultant s.P ∧
      ∀ p < B.n_pad, (∃ mu, B.flooded solve J p mu = .ok (pad s.P p)) ∧
        B.norm (fun i j => s.T_new i j p - s.T i j p) / B.norm (pad s.T p) < 0.01 := by
  obtain ⟨ct, hct, hl, s, -, hF, hd⟩ := forces_ok (fun _ => True) (fun _ _ _ _ _ => trivial) trivial
    (fun _ _ => trivial) hna hnc h
  have hdvd := pad_ct_ok hct hl
  refine ⟨hdvd, fun p => ?_, s, hF, fun p hp => ?_⟩
  · have hn : (B.n_pad : ℝ) ≠ 0 := by
      intro e
      rw [Nat.cast_eq_zero] at e
      rw [e] at hdvd
      norm_num at hdvd
    obtain ⟨k, hk⟩ := hdvd
    have hn0 : 0 < B.n_pad := Nat.pos_of_ne_zero fun e => hn (by rw [e]; norm_num)
    have hk2 : 360 / B.n_pad = k := by rw [hk]; exact Nat.mul_div_cancel_left k hn0
    have hk3 : (k : ℝ) = 360 / B.n_pad := by
      rw [eq_div_iff hn, mul_comm]
      exact_mod_cast hk.symm
    unfold thetaI thetaF
    rw [hk2]
    push_cast
    rw [hk3]
    constructor
    · field_simp
      ring
    · ring
  · obtain ⟨s0, s1, -, hs, hc, e1, e2, e3, -⟩ := hd p hp
    obtain ⟨P, f, mt, S, hP, -, -, -, h1, -⟩ := pad_step_ok hs
    refine ⟨⟨pad s0.mu_new p, ?_⟩, ?_⟩
    · rw [hP, e1, h1, pad_setPad]
    · unfold pad_cond at hc
      push Not at hc
      have e4 : (fun i j => s.T_new i j p - s.T i j p) = fun i j => s1.T_new i j p - s1.T i j p := by
        funext i j
        have a := congrFun (congrFun e2 i) j
        have b := congrFun (congrFun e3 i) j
        change s.T i j p = s1.T i j p at a
        change s.T_new i j p = s1.T_new i j p at b
        rw [a, b]
      rw [e4, e2]
      exact hc

/-- C95: no forces are reported when the number of pads does not divide 360, as with seven pads. -/
theorem C95_seven {B : THD} (hna : 0 < B.elements_axial) (hnc : 0 < B.elements_circumferential) (h7 : B.n_pad = 7)
    (solve : Fluid.FluidFlow.Solver) (fuel : ℕ) (J : Journal) (F : ℝ × ℝ) :
    B.forces_flooded solve fuel J ≠ some (.ok F) := by
  intro h
  have := (C95_forces hna hnc h).1
  rw [h7] at this
  norm_num at this

/-- C95, refuted: below a reference temperature of 2.5 °C the loop over the mixing temperatures is not entered, and there is
no pressure to take the forces from. -/
theorem C95_cold_false {B : THD} (hT : B.reference_temperature < 2.5) (hn : B.n_pad = 2) (solve : Fluid.FluidFlow.Solver)
    (fuel : ℕ) (J : Journal) : B.forces_flooded solve (fuel + 1) J = some (.error .attributeError) := by
  unfold forces_flooded film_flooded
  have : B.pad_ct = .ok [0, 180] := by
    unfold pad_ct
    rw [hn]
    rfl
  rw [this]
  dsimp only
  unfold whileLoop
  rw [if_neg (by dsimp only; linarith)]

/-- C95: the angles at which the pressure acts are those of the middle of the cells. -/
theorem C95_angles {B : THD} (h2c : 2 ≤ B.elements_circumferential) (p j : ℕ) :
    B.Ytheta p j = B.thetaI p + (j + 1 / 2) * (B.betha_s_dg * (π / 180) / B.elements_circumferential) := by
  have hc : (B.elements_circumferential : ℝ) ≠ 0 := by
    have : (0 : ℝ) < B.elements_circumferential := by exact_mod_cast (by omega : 0 < B.elements_circumferential)
    exact this.ne'
  have hc1 : (B.elements_circumferential : ℝ) - 1 ≠ 0 := by
    have : (1 : ℝ) < B.elements_circumferential := by exact_mod_cast h2c
    linarith
  unfold Ytheta dtheta betha_s thetaI thetaF
  rw [sub_zero]
  field_simp
  ring

/-- The data of a bearing as they are in practice. -/
structure Physical (B : THD) : Prop where
  length : 0 < B.axial_length
  radius : 0 < B.journal_radius
  clearance : 0 < B.radial_clearance
  arc : 0 < B.betha_s_dg
  temperature : 0 < B.reference_temperature
  viscosity : 0 < B.a
  density : 0 < B.rho
  heat : 0 < B.Cp
  conductivity : 0 < B.k_t
  speed : 0 < B.speed
  factors : ∀ p f, B.fat p = .ok f → 0 ≤ f ∧ f ≤ 1

theorem Physical.reference {B : THD} (hB : Physical B) : 0 < B.reference_viscosity :=
  mul_pos hB.viscosity (rpow_pos_of_pos hB.temperature _)

/-- A pass for a journal in the centre of a circular bore: the pressure is 0, and viscosity and temperature stay
positive. -/
theorem rest_step {B : THD} (hB : Physical B) {solve : Fluid.FluidFlow.Solver} (hsolve : SolverOk solve)
    (hg : B.geometry = "circular") {p : ℕ} {s s1 : Fields}
    (hmu : ∀ q, ∀ i < B.elements_axial, ∀ j < B.elements_circumferential, 0 < s.mu_new i j q ∧ 0 < s.mu_turb i j q)
    (hT : ∀ q, 0 < s.T_mist q) (h : B.pad_step solve ⟨0, 0, 0, 0⟩ p s = .ok s1) :
    (∀ q, ∀ i < B.elements_axial, ∀ j < B.elements_circumferential, 0 < s1.mu_new i j q ∧ 0 < s1.mu_turb i j q) ∧
      (∀ q, 0 < s1.T_mist q) ∧ ∀ i < B.elements_axial, ∀ j < B.elements_circumferential, s1.P i j p = 0 := by
  obtain ⟨P, f, mt, S, hP, hf, hmt, hS, h1, -, h3, h4, h5, h6, h7⟩ := pad_step_ok h
  obtain ⟨-, h2c, h2a, -⟩ := flooded_ok hP
  have hP0 := C92_rest hsolve hP hg (fun i hi j hj => (hmu p i hi j hj).1) hB.arc.ne' hB.radius.ne' hB.length.ne'
  have hfilm : ∀ t, B.film ⟨0, 0, 0, 0⟩ p t = 1 := by
    intro t; unfold film; rw [if_pos hg]; ring
  have hfp : ∀ t, 0 < B.film ⟨0, 0, 0, 0⟩ p t := fun t => by rw [hfilm]; norm_num
  have hmtp : ∀ i < B.elements_axial, ∀ j < B.elements_circumferential, 0 < mt i j := by
    intro i hi j hj
    rw [hmt]
    have hh : (0 : ℝ) ≤ B.HP ⟨0, 0, 0, 0⟩ p j := (hfp _).le
    exact lt_of_lt_of_le (hmu p i hi j hj).1
      (C93_turbulence hh hB.clearance.le hB.reference hB.density (hmu p i hi j hj).1 (hmu p i hi j hj).2).1
  have hy : ∀ i < B.elements_axial, ∀ j < B.elements_circumferential, B.dPdy P i j = 0 := by
    intro i hi j hj
    unfold dPdy
    have a : (if j = B.elements_circumferential - 1 then 0 else P i (j + 1)) = 0 := by
      split_ifs with h0
      · rfl
      · exact hP0 i hi (j + 1) (by omega)
    have b : (if j = 0 then 0 else P i (j - 1)) = 0 := by
      split_ifs with h0
      · rfl
      · exact hP0 i hi (j - 1) (by omega)
    rw [a, b]
    simp
  have hz : ∀ i < B.elements_axial, ∀ j < B.elements_circumferential, B.dPdz P i j = 0 := by
    intro i hi j hj
    unfold dPdz
    have a : (if i = B.elements_axial - 1 then 0 else P (i + 1) j) = 0 := by
      split_ifs with h0
      · rfl
      · exact hP0 (i + 1) (by omega) j hj
    have b : (if i = 0 then 0 else P (i - 1) j) = 0 := by
      split_ifs with h0
      · rfl
      · exact hP0 (i - 1) (by omega) j hj
    rw [a, b]
    simp
  have hk : 0 < B.k_t / (B.rho * B.Cp * B.speed) :=
    div_pos hB.conductivity (mul_pos (mul_pos hB.density hB.heat) hB.speed)
  have hcalm : Calm B ⟨0, 0, 0, 0⟩ p mt P := by
    refine ⟨hk, fun i hi j hj => ?_, fun i hi j hj => ?_⟩
    · change 0 ≤ Spec.Thd.around _ _ _ (B.dPdy P i j)
      rw [hy i hi j hj, hfilm]
      unfold Spec.Thd.around
      have := hB.arc
      have := Real.pi_pos
      rw [mul_zero, sub_zero]
      positivity
    · change |Spec.Thd.along _ _ _ (B.dPdz P i j)| * _ ≤ _
      rw [hz i hi j hj, hfilm]
      unfold Spec.Thd.along
      rw [mul_zero, neg_zero, abs_zero, zero_mul]
      have := hB.length
      positivity
  have e1 : pad s1.P p = P := by rw [h1, pad_setPad]
  have e3 : pad s1.T_new p = S := by rw [h3, pad_setPad]
  have e5 : pad s1.mu_turb p = mt := by rw [h5, pad_setPad]
  obtain ⟨T, hTb, hTu⟩ := C93_unique (Tin := s.T_mist p) hcalm h2a h2c hB.arc.ne' hB.radius.ne' hB.clearance.ne' hfp hmtp
  have hbal := (C93_balance hsolve h hB.radius.ne' hB.clearance.ne' hfp
    (fun i hi j hj => by
      have := congrFun (congrFun e5 i) j
      change s1.mu_turb i j p = mt i j at this
      rw [this]; exact hmtp i hi j hj) (T := T) (by rw [e1, e5]; exact hTb) (by rw [e1, e5]; exact hTu)).1
  rw [e1, e3, e5] at hbal
  have hw := C93_heated hcalm h2a h2c hB.arc.ne' hB.radius.ne' hB.clearance.ne' hfp hmtp rfl rfl
    (div_nonneg (mul_nonneg hB.reference.le hB.speed.le)
      (mul_nonneg (mul_nonneg hB.density.le hB.heat.le) hB.temperature.le)) hbal
  have hSp : ∀ i < B.elements_axial, ∀ j < B.elements_circumferential, 0 < S i j := fun i hi j hj =>
    lt_of_lt_of_le (div_pos (hT p) hB.temperature) (hw i hi j hj)
  refine ⟨fun q i hi j hj => ?_, fun q => ?_, fun i hi j hj => ?_⟩
  · rw [h4, h5]
    unfold setPad
    by_cases hq : q = p
    · rw [if_pos hq, if_pos hq]
      exact ⟨div_pos (mul_pos hB.viscosity (rpow_pos_of_pos (mul_pos (hSp i hi j hj) hB.temperature) _)) hB.reference,
        hmtp i hi j hj⟩
    · rw [if_neg hq, if_neg hq]
      exact hmu q i hi j hj
  · have hend : 0 < s1.T_end p := by
      rw [h6, Function.update_self]
      refine div_pos (Finset.sum_pos (fun i hi => ?_) ?_) ?_
      · exact mul_pos (hSp i (Finset.mem_range.1 hi) _ (by omega)) hB.temperature
      · exact ⟨0, Finset.mem_range.2 (by omega)⟩
      · exact_mod_cast (by omega : 0 < B.elements_axial)
    rw [h7]
    by_cases hq : q = B.before p
    · rw [hq, Function.update_self]
      obtain ⟨f0, f1⟩ := hB.factors p f hf
      rcases f0.eq_or_lt with e | e
      · rw [← e]; linarith
      · have := mul_pos e hB.temperature
        have := mul_nonneg (sub_nonneg.2 f1) hend.le
        linarith
    · rw [Function.update_of_ne hq]
      exact hT q
  · rw [← hP0 i hi j hj, ← e1]
    rfl

/-- C95: a journal in the centre of a circular bore that does not move across is not pushed: whenever the calculation ends,
the forces are 0. -/
theorem C95_rest {B : THD} (hB : Physical B) {solve : Fluid.FluidFlow.Solver} (hsolve : SolverOk solve)
    (hg : B.geometry = "circular") (hna : 0 < B.elements_axial) (hnc : 0 < B.elements_circumferential) {fuel : ℕ}
    {F : ℝ × ℝ} (h : B.forces_flooded solve fuel ⟨0, 0, 0, 0⟩ = some (.ok F)) : F = (0, 0) := by
  obtain ⟨-, -, -, s, -, hF, hd⟩ := forces_ok
    (fun s => (∀ q, ∀ i < B.elements_axial, ∀ j < B.elements_circumferential,
      0 < s.mu_new i j q ∧ 0 < s.mu_turb i j q) ∧ ∀ q, 0 < s.T_mist q)
    (fun p s s1 hs h => ⟨(rest_step hB hsolve hg hs.1 hs.2 h).1, (rest_step hB hsolve hg hs.1 hs.2 h).2.1⟩)
    ⟨fun q i _ j _ => ⟨by show (0 : ℝ) < 1.1; norm_num, by show (0 : ℝ) < 1.3; norm_num⟩, fun _ => hB.temperature⟩
    (fun s hs => ⟨fun q i _ j _ => ⟨by show (0 : ℝ) < 1.1; norm_num, by show (0 : ℝ) < 1.3; norm_num⟩, hs.2⟩)
    hna hnc h
  rw [hF]
  refine resultant_zero fun p hp i hi j hj => ?_
  obtain ⟨s0, s1, hs0, hs, -, e1, -⟩ := hd p hp
  have := (rest_step hB hsolve hg hs0.1 hs0.2 hs).2.2 i hi j hj
  rw [← this]
  exact congrFun (congrFun e1 i) j

/-- C95: with a viscosity that does not depend on the temperature, a laminar film and grooves with nothing but fresh oil,
the calculation ends, whatever the position and the motion of the journal. -/
theorem C95_ends {B : THD} {J : Journal} (hb : B.b = 0) (ha : B.a ≠ 0) (hT : 2.5 ≤ B.reference_temperature)
    (hn : B.n_pad ∣ 360) (h2a : 2 ≤ B.elements_axial) (h2c : 2 ≤ B.elements_circumferential)
    (hg : ∀ p < B.n_pad, B.film_check p = .ok ()) (hf : ∀ p < B.n_pad, B.fat p = .ok 1)
    (hlam : ∀ p < B.n_pad, ∀ j, B.Reyn (B.HP J p j) 1 ≤ 500) (solve : Fluid.FluidFlow.Solver) (fuel : ℕ) :
    ∃ F, B.forces_flooded solve (fuel + 4) J = some (.ok F) := by
  have hv : B.reference_viscosity ≠ 0 := by
    unfold reference_viscosity
    rw [hb, rpow_zero, mul_one]
    exact ha
  -- a pass for a pad
  have hstep : ∀ p < B.n_pad, ∀ s : Fields, (∀ q, s.T_mist q = B.reference_temperature) →
      ∃ s1, B.pad_step solve J p s = .ok s1 ∧ ∀ q, s1.T_mist q = B.reference_temperature := by
    intro p hp s hs
    obtain ⟨P, hP⟩ := flooded_eq (solve := solve) (J := J) (mu := pad s.mu_new p) (hg p hp) h2c h2a
    unfold pad_step
    dsimp only
    rw [hP, hf p hp]
    refine ⟨_, rfl, fun q => ?_⟩
    dsimp only
    by_cases hq : q = B.before p
    · rw [hq, Function.update_self]
      ring
    · rw [Function.update_of_ne hq]
      exact hs q
  -- what a pass does depends on the viscosity only
  have hmu : ∀ p < B.n_pad, ∀ s s1 : Fields, B.pad_step solve J p s = .ok s1 → pad s1.mu_new p = fun _ _ => 1 := by
    intro p _ s s1 h
    obtain ⟨P, f, mt, S, -, -, -, -, -, -, -, h4, -⟩ := pad_step_ok h
    rw [h4, pad_setPad]
    funext i j
    rw [hb, rpow_zero, mul_one]
    unfold reference_viscosity
    rw [hb, rpow_zero, mul_one, div_self ha]
  have hlam' : ∀ p < B.n_pad, ∀ s : Fields, pad s.mu_new p = (fun _ _ => 1) → ∀ P,
      B.mu_turb J p P (pad s.mu_new p) (pad s.mu_turb p) = fun _ _ => 1 := by
    intro p hp s hs P
    funext i j
    unfold THD.mu_turb mi_t
    rw [hs, C93_weight.1 _ (hlam p hp j)]
    ring
  have hsame : ∀ p < B.n_pad, ∀ s1 s2 s3 : Fields, (∀ q, s1.T_mist q = B.reference_temperature) →
      (∀ q, s2.T_mist q = B.reference_temperature) →
      pad s1.mu_new p = (fun _ _ => 1) → B.pad_step solve J p s1 = .ok s2 → B.pad_step solve J p s2 = .ok s3 →
      ¬B.pad_cond p s3 := by
    intro p hp s1 s2 s3 hm1 hm2 h1 h12 h23
    have h2 := hmu p hp s1 s2 h12
    obtain ⟨P, f, mt, S, hP, -, hmt, hS, -, -, h3, -⟩ := pad_step_ok h12
    obtain ⟨P', f', mt', S', hP', -, hmt', hS', -, h2', h3', -⟩ := pad_step_ok h23
    rw [h1] at hP
    rw [h2] at hP'
    have eP : P = P' := Except.ok.inj (hP.symm.trans hP')
    rw [hlam' p hp s1 h1] at hmt
    rw [hlam' p hp s2 h2] at hmt'
    have eS : S = S' := by
      rw [hS, hS', eP, hmt, hmt', hm1, hm2]
    unfold pad_cond
    have e : (fun i j => s3.T_new i j p - s3.T i j p) = fun _ _ => (0 : ℝ) := by
      funext i j
      rw [h3', h2', h3]
      unfold setPad pad
      simp only [if_true]
      rw [eS, sub_self]
    rw [e]
    have : B.norm (fun _ _ => (0 : ℝ)) = 0 := by
      unfold THD.norm
      simp
    rw [this, zero_div]
    norm_num
  have hloop : ∀ p ∈ List.range B.n_pad, ∀ s : Fields, (∀ q, s.T_mist q = B.reference_temperature) →
      ∃ s1, B.pad_loop solve J (fuel + 4) p s = some (.ok s1) ∧ ∀ q, s1.T_mist q = B.reference_temperature := by
    intro p hp s hs
    have hp' := List.mem_range.1 hp
    unfold pad_loop
    refine while_ends (I := fun s : Fields => ∀ q, s.T_mist q = B.reference_temperature) ?_ ?_ fuel hs
    · intro t ht
      obtain ⟨t1, h1, h2⟩ := hstep p hp' t ht
      exact ⟨t1, by rw [h1], h2⟩
    · intro t t1 t2 t3 ht h1 h2 h3
      have h1' := Option.some.inj h1
      have h2' := Option.some.inj h2
      have h3' := Option.some.inj h3
      obtain ⟨u1, e1, m1⟩ := hstep p hp' t ht
      have : u1 = t1 := Except.ok.inj (e1.symm.trans h1')
      subst this
      obtain ⟨u2, e2, m2⟩ := hstep p hp' u1 m1
      have : u2 = t2 := Except.ok.inj (e2.symm.trans h2')
      subst this
      exact hsame p hp' u1 u2 t3 m1 m2 (hmu p hp' t u1 h1') h2' h3'
  have hmix : ∀ m : Mixing, (∀ q, m.T_mist q = B.reference_temperature) →
      ∃ m1 : Mixing, B.mixing_step solve J (fuel + 4) m = some (.ok m1) ∧ (∀ q, m1.T_mist q = B.reference_temperature) ∧
        m1.T_conv = B.reference_temperature ∧ m1.P ≠ none := by
    intro m hm
    obtain ⟨s', hs', hM⟩ := pads_end (I := fun s : Fields => ∀ q, s.T_mist q = B.reference_temperature) hloop
      (s := fresh m.T_end m.T_mist) hm
    refine ⟨⟨m.T_mist 0, s'.T_end, s'.T_mist, some s'.P, s'.mu_new⟩, ?_, hM, hm 0, by simp⟩
    unfold mixing_step
    rw [hs']
  have hn0 : B.n_pad ≠ 0 := by
    intro e
    rw [e] at hn
    norm_num at hn
  have hct : ∃ ct, B.pad_ct = .ok ct ∧ ct.length = B.n_pad := by
    obtain ⟨k, hk⟩ := hn
    have hk2 : 360 / B.n_pad = k := by rw [hk]; exact Nat.mul_div_cancel_left k (Nat.pos_of_ne_zero hn0)
    have hk0 : k ≠ 0 := by rintro rfl; simp at hk
    unfold pad_ct
    rw [if_neg hn0, hk2, if_neg hk0]
    refine ⟨_, rfl, ?_⟩
    rw [List.length_map, List.length_range, hk]
    have : B.n_pad * k + k - 1 = k - 1 + k * B.n_pad := by
      rw [Nat.mul_comm]
      omega
    rw [this, Nat.add_mul_div_left _ _ (Nat.pos_of_ne_zero hk0), Nat.div_eq_of_lt (by omega), zero_add]
  obtain ⟨ct, hct, hlen⟩ := hct
  obtain ⟨m1, h1, h2, h3, h4⟩ := hmix ⟨0.8 * B.reference_temperature, fun _ => 1, fun _ => B.reference_temperature, none,
    fun _ _ _ => 0⟩
    (fun _ => rfl)
  have hw : whileLoop (fun m : Mixing => 0.5 ≤ m.T_mist 0 - m.T_conv) (B.mixing_step solve J (fuel + 4)) (fuel + 4)
      ⟨0.8 * B.reference_temperature, fun _ => 1, fun _ => B.reference_temperature, none,
    fun _ _ _ => 0⟩ = some (.ok m1) := by
    rw [whileLoop, if_pos (by dsimp only; linarith), h1]
    dsimp only
    rw [whileLoop, if_neg (by rw [h2, h3]; norm_num)]
  unfold forces_flooded film_flooded
  rw [hct]
  dsimp only
  rw [hw]
  dsimp only
  cases hP : m1.P with
  | none => exact absurd hP h4
  | some P =>
    dsimp only
    rw [if_neg (by rw [hlen]; simp)]
    exact ⟨_, rfl⟩

/-- A bearing whose grooves bring fresh oil only. -/
noncomputable def freshThd : THD := { exThd "circular" 1 with fat_mixt := .list [1] }

/-- `freshThd` meets the hypotheses, for every journal inside the bore. -/
theorem freshThd_ends (solve : Fluid.FluidFlow.Solver) (fuel : ℕ) {J : Journal} (hJ : |J.X| ≤ 1) (hJ' : |J.Y| ≤ 1) :
    ∃ F, freshThd.forces_flooded solve (fuel + 4) J = some (.ok F) := by
  refine C95_ends rfl one_ne_zero (by norm_num [freshThd, exThd]) (by simp [freshThd, exThd]) le_rfl le_rfl
    (fun _ _ => rfl) ?_ ?_ solve fuel
  · intro p hp
    have hp0 : p = 0 := by
      have : freshThd.n_pad = 1 := rfl
      omega
    subst hp0
    rfl
  · intro p _ j
    have e : freshThd.Reyn (freshThd.HP J p j) 1 = freshThd.HP J p j := by
      norm_num [Reyn, freshThd, exThd, reference_viscosity]
    rw [e]
    unfold HP film
    rw [if_pos (show freshThd.geometry = "circular" from rfl)]
    have h1 := abs_le.1 ((abs_mul J.X (cos (freshThd.jj p j))).le.trans
      (mul_le_one₀ hJ (abs_nonneg _) (abs_cos_le_one _)))
    have h2 := abs_le.1 ((abs_mul J.Y (sin (freshThd.jj p j))).le.trans
      (mul_le_one₀ hJ' (abs_nonneg _) (abs_sin_le_one _)))
    linarith [h1.1, h2.1]

/-- In the centre it reports no force. -/
example {solve : Fluid.FluidFlow.Solver} (hsolve : SolverOk solve) :
    freshThd.forces_flooded solve 4 ⟨0, 0, 0, 0⟩ = some (.ok (0, 0)) := by
  obtain ⟨F, hF⟩ := freshThd_ends solve 0 (J := ⟨0, 0, 0, 0⟩) (by simp) (by simp)
  have hB : Physical freshThd := by
    refine ⟨by norm_num [freshThd, exThd], by norm_num [freshThd, exThd], by norm_num [freshThd, exThd],
      by norm_num [freshThd, exThd], by norm_num [freshThd, exThd], by norm_num [freshThd, exThd],
      by norm_num [freshThd, exThd], by norm_num [freshThd, exThd], by norm_num [freshThd, exThd],
      by norm_num [freshThd, exThd], fun p f h => ?_⟩
    have : f = 1 := by
      unfold THD.fat at h
      rw [show freshThd.fat_mixt = .list [1] from rfl] at h
      match p, h with
      | 0, h => simpa using h.symm
      | k + 1, h => simp at h
    rw [this]
    norm_num
  rw [C95_rest hB hsolve rfl (by decide) (by decide) hF] at hF
  exact hF

end Ross.Props
