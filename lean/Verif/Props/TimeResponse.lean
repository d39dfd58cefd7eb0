import Verif.Lemmas.TimeResponse
import Verif.Props.Newmark
import Verif.Props.State
import Verif.Props.Stability

/-! # C50: time response of rotors -/

namespace Ross.Props

open Ross Ross.Newmark Ross.Spec Ross.Rotor Ross.NewmarkLemmas Ross.BearingLemmas Ross.TimeLemmas
  Ross.RotorLemmas Ross.AssemblyLemmas Matrix
open Ross.StateLemmas (A_ok)

variable {pd : Pandas} {fuel : ℕ} {a : RotorArgs} {r : Rotor}

/-- The result of the integrator in terms of the equations at every step. -/
theorem newmark_integrates {n : ℕ} {func : ℕ → ℝ → State n → Res (Sys n)} {t : List ℝ} {tol : ℝ}
    {y : List (Fin n → ℝ)} (h : newmark func t { tol := tol } = .ok y) (sys : ℕ → Sys n)
    (hs : ∀ k dt q s, k + 1 < t.length → func (k + 1) dt q = .ok s → s = sys (k + 1)) :
    ∃ q, Integrates t tol sys q ∧ y = q.map State.y := by
  obtain ⟨q, hl, h1, h2, h3⟩ := C27_motion h
  refine ⟨q, ⟨hl, h2, ?_⟩, h1⟩
  intro k t0 t1 q0 q1 e1 e2 e3 e4
  obtain ⟨hk, rfl⟩ := List.getElem?_eq_some_iff.1 e1
  obtain ⟨hk', rfl⟩ := List.getElem?_eq_some_iff.1 e2
  obtain ⟨hq, rfl⟩ := List.getElem?_eq_some_iff.1 e3
  obtain ⟨hq', rfl⟩ := List.getElem?_eq_some_iff.1 e4
  obtain ⟨s, h4, h5, h6, -⟩ := h3 k hk'
  rw [hs k _ _ s hk' h4] at h6
  have e1 : (({ tol := tol } : Options).gamma) = 1 / 2 := by norm_num
  have e2 : (({ tol := tol } : Options).beta) = 1 / 4 := by norm_num
  rw [e1, e2] at h5
  exact ⟨h5, h6⟩

theorem integrate_direct {ei : Eigh} {speed : SpeedArg} {F : List (Fin r.ndof → ℝ)} {t : List ℝ}
    {x : List ℝ × List (Fin r.ndof → ℝ)} {kw : IntegrateArgs r.ndof}
    (hk : kw.num_modes = none)
    (h : r.integrate_system ei speed F t kw = .ok x) :
    x.1 = t ∧ ∃ func, r.system (.direct r.ndof) speed F t kw = .ok func ∧
      newmark func t kw.options = .ok x.2 := by
  unfold integrate_system at h
  rw [hk] at h
  simp only at h
  obtain ⟨y, h1, h2⟩ := bind_ok.1 h
  simp only [pure, Except.pure, Except.ok.injEq] at h2
  subst h2
  unfold integrateWith at h1
  obtain ⟨func, h3, h4⟩ := bind_ok.1 h1
  obtain ⟨resp, h5, h6⟩ := bind_ok.1 h4
  simp only [pure, Except.pure, Except.ok.injEq, Reduction.direct, List.map_id_fun, id] at h6
  subst h6
  exact ⟨rfl, func, h3, h5⟩

theorem forces_direct {F : List (Fin r.ndof → ℝ)} {kw : IntegrateArgs r.ndof} (hk : kw.add_to_RHS = none)
    {k : ℕ} {dt : ℝ} {q : State r.ndof} {f : Fin r.ndof → ℝ}
    (h : r.forces (.direct r.ndof) F kw k dt q = .ok f) : f = F.getD k 0 ∧ k < F.length := by
  unfold Rotor.forces at h
  rw [hk] at h
  cases hF : F[k]? with
  | none => simp [hF] at h
  | some g =>
    simp only [hF, Except.ok.injEq, Reduction.direct, id] at h
    subst h
    refine ⟨by rw [List.getD_eq_getElem?_getD, hF]; rfl, ?_⟩
    by_contra hc
    rw [List.getElem?_eq_none (not_lt.1 hc)] at hF
    cases hF

/-- **C50** constant speed: whatever is returned is a motion of the rotor from rest, with the matrices of
the rotor at that speed (the mass matrix at frequency zero) and the given force at every instant. -/
theorem C50_constant {ei : Eigh} {Ω : ℝ} {F : List (Fin r.ndof → ℝ)} {t : List ℝ}
    {x : List ℝ × List (Fin r.ndof → ℝ)}
    (h : r.integrate_system ei (.scalar Ω) F t = .ok x) :
    x.1 = t ∧ ∃ M C G K, r.M (some 0) = .ok M ∧ r.C Ω = .ok C ∧ r.G = .ok G ∧ r.K Ω = .ok K ∧
      ∃ q, Integrates t 1e-6 (fun k => ⟨M, C + Ω • G, K, F.getD k 0⟩) q ∧ x.2 = q.map State.y := by
  obtain ⟨h1, func, hf, hn⟩ := integrate_direct rfl h
  refine ⟨h1, ?_⟩
  unfold Rotor.system at hf
  obtain ⟨M, hM, hf⟩ := bind_ok.1 hf
  obtain ⟨G, hG, hf⟩ := bind_ok.1 hf
  obtain ⟨S, hS, hf⟩ := bind_ok.1 hf
  simp only [SpeedArg.isArray, Bool.false_eq_true, if_false, Reduction.direct, id, Option.getD_none,
    SpeedArg.ref] at hf
  obtain ⟨C, hC, hf⟩ := bind_ok.1 hf
  obtain ⟨K, hK, hf⟩ := bind_ok.1 hf
  simp only [pure, Except.pure, Except.ok.injEq] at hf
  subst hf
  refine ⟨M, C, G, K, hM, hC, hG, hK, ?_⟩
  refine newmark_integrates hn _ fun k dt q s hk hs => ?_
  obtain ⟨f, hff, hs⟩ := bind_ok.1 hs
  cases hs
  have := forces_direct rfl hff
  rw [this.1]

/-- **C50** varying speed: the damping and stiffness matrices are those of the rotor at the current
speed, the angular acceleration is that of the speed array, and the transient stiffness enters with
it. -/
theorem C50_runup (hi : init pd fuel a = some (.ok r)) (hm : ∀ b ∈ a.bearings, Made b)
    {ei : Eigh} {Ω : List ℝ} (hΩ : 1 < Ω.dedup.length) {F : List (Fin r.ndof → ℝ)} {t : List ℝ}
    {x : List ℝ × List (Fin r.ndof → ℝ)}
    (h : r.integrate_system ei (.array Ω) F t = .ok x) :
    x.1 = t ∧ ∃ M G S α, r.M (some 0) = .ok M ∧ r.G = .ok G ∧ r.Ksdt = .ok S ∧
      npGradient Ω t = .ok α ∧ ∃ C K : ℕ → Matrix (Fin r.ndof) (Fin r.ndof) ℝ,
      (∀ k, k + 1 < t.length → r.C (Ω.getD (k + 1) 0) = .ok (C (k + 1)) ∧
        r.K (Ω.getD (k + 1) 0) = .ok (K (k + 1))) ∧
      ∃ q, Integrates t 1e-6 (fun k => ⟨M, C k + (Ω.getD k 0) • G, K k + (α.getD k 0) • S, F.getD k 0⟩) q ∧
        x.2 = q.map State.y := by
  have hb := init_ok hi
  obtain ⟨h1, func, hf, hn⟩ := integrate_direct rfl h
  refine ⟨h1, ?_⟩
  unfold Rotor.system at hf
  obtain ⟨M, hM, hf⟩ := bind_ok.1 hf
  obtain ⟨G, hG, hf⟩ := bind_ok.1 hf
  obtain ⟨S, hS, hf⟩ := bind_ok.1 hf
  have hia : (SpeedArg.array Ω).isArray = true := by simpa [SpeedArg.isArray] using hΩ
  rw [if_pos hia] at hf
  obtain ⟨α, hα, hf⟩ := bind_ok.1 hf
  simp only [SpeedArg.list] at hα
  have hlen : Ω.length = t.length := by
    by_contra hc
    simp [npGradient, hc] at hα
  refine ⟨M, G, S, α, hM, hG, hS, hα, ?_⟩
  have hat : ∀ k s, (SpeedArg.array Ω).at' k = .ok s → s = Ω.getD k 0 := by
    intro k s hs
    unfold SpeedArg.at' at hs
    cases hk : Ω[k]? with
    | none => simp [hk] at hs
    | some w =>
      simp only [hk, Except.ok.injEq] at hs
      rw [List.getD_eq_getElem?_getD, hk, ← hs]; rfl
  have hC : ∀ e, Const e → ∀ ω ω', Elm.C ω e = Elm.C ω' e := fun e he ω ω' => (he ω ω').2.2
  have hK : ∀ e, Const e → ∀ ω ω', Elm.K ω e = Elm.K ω' e := fun e he ω ω' => (he ω ω').2.1
  by_cases hv : r.varying ≠ []
  · rw [if_pos hv] at hf
    simp only [Option.isSome_none, Bool.false_eq_true, or_self, if_false] at hf
    obtain ⟨C0, hC0, hf⟩ := bind_ok.1 hf
    obtain ⟨K0, hK0, hf⟩ := bind_ok.1 hf
    simp only [pure, Except.pure, Except.ok.injEq] at hf
    -- the assembled matrices at each step
    have hstep : ∀ k dt q s, k + 1 < t.length → func (k + 1) dt q = .ok s →
        ∃ C K, r.C (Ω.getD (k + 1) 0) = .ok C ∧ r.K (Ω.getD (k + 1) 0) = .ok K ∧
          s = (⟨M, C + (Ω.getD (k + 1) 0) • G, K + (α.getD (k + 1) 0) • S, F.getD (k + 1) 0⟩ :
            Sys r.ndof) := by
      intro k dt q s hk hs
      rw [← hf] at hs
      obtain ⟨w, hw, hs⟩ := bind_ok.1 hs
      obtain ⟨⟨C, K⟩, hck, hs⟩ := bind_ok.1 hs
      obtain ⟨f, hff, hs⟩ := bind_ok.1 hs
      cases hs
      have hw' := hat _ _ hw
      subst hw'
      obtain ⟨c1, c2⟩ := (assembleCK_ok varying_brg).1 hck
      refine ⟨C, K, (varying_assemble hb hm hC hC0).1 c1, (varying_assemble hb hm hK hK0).1 c2, ?_⟩
      rw [(forces_direct rfl hff).1]
      rfl
    obtain ⟨q, hl, hy, -, h3⟩ := C27_motion hn
    have hex : ∀ k, ∃ CK : Matrix (Fin r.ndof) (Fin r.ndof) ℝ × Matrix (Fin r.ndof) (Fin r.ndof) ℝ,
        k < t.length → 0 < k → r.C (Ω.getD k 0) = .ok CK.1 ∧ r.K (Ω.getD k 0) = .ok CK.2 := by
      intro k
      by_cases hk : k < t.length ∧ 0 < k
      · obtain ⟨j, rfl⟩ := Nat.exists_eq_succ_of_ne_zero hk.2.ne'
        obtain ⟨s, hs, -⟩ := h3 j hk.1
        obtain ⟨C, K, hc, hk', -⟩ := hstep j _ _ s hk.1 hs
        exact ⟨(C, K), fun _ _ => ⟨hc, hk'⟩⟩
      · exact ⟨(0, 0), fun h1 h2 => absurd ⟨h1, h2⟩ hk⟩
    choose CK hCK using hex
    refine ⟨fun k => (CK k).1, fun k => (CK k).2, fun k hk => hCK _ hk (Nat.succ_pos k), ?_⟩
    refine newmark_integrates hn _ fun k dt q s hk hs => ?_
    obtain ⟨C, K, hc, hk', rfl⟩ := hstep k dt q s hk hs
    obtain ⟨e1, e2⟩ := hCK (k + 1) hk (Nat.succ_pos k)
    rw [hc] at e1
    rw [hk'] at e2
    cases e1; cases e2
    rfl
  · rw [if_neg hv] at hf
    push Not at hv
    obtain ⟨C0, hC0, hf⟩ := bind_ok.1 hf
    obtain ⟨K0, hK0, hf⟩ := bind_ok.1 hf
    simp only [pure, Except.pure, Except.ok.injEq] at hf
    subst hf
    refine ⟨fun _ => C0, fun _ => K0, fun k _ => ⟨?_, ?_⟩, ?_⟩
    · rw [← hC0]; exact fixed_assemble hb hm hC hv _ _
    · rw [← hK0]; exact fixed_assemble hb hm hK hv _ _
    · refine newmark_integrates hn _ fun k dt q s hk hs => ?_
      obtain ⟨w, hw, hs⟩ := bind_ok.1 hs
      obtain ⟨f, hff, hs⟩ := bind_ok.1 hs
      cases hs
      rw [(forces_direct rfl hff).1, hat _ _ hw]
      rfl

/-- **C50** the angular acceleration of a speed that grows linearly with time is its slope, for every
strictly increasing time array. -/
theorem C50_ramp {t : List ℝ} (ht : t.Pairwise (· < ·)) (h2 : 2 ≤ t.length) (s₀ α : ℝ) :
    npGradient (t.map fun (x : ℝ) => s₀ + α * x) t = .ok (t.map fun _ => α) := by
  unfold npGradient
  have hc : ¬ ((t.map fun (x : ℝ) => s₀ + α * x).length ≠ t.length ∨
      (t.map fun (x : ℝ) => s₀ + α * x).length < 2) := by rw [List.length_map]; omega
  rw [if_neg hc]
  simp only [Except.ok.injEq]
  apply List.ext_getElem
  · simp
  intro i h1 h1'
  have hi : i < t.length := by simpa using h1
  have hF : ∀ j, j < t.length → (t.map fun (x : ℝ) => s₀ + α * x).getD j 0 = s₀ + α * t.getD j 0 := by
    intro j hj
    rw [List.getD_eq_getElem?_getD, List.getD_eq_getElem?_getD, List.getElem?_eq_getElem (by simpa using hj),
      List.getElem?_eq_getElem hj]
    simp
  have hlt : ∀ j, j + 1 < t.length → t.getD j 0 < t.getD (j + 1) 0 := by
    intro j hj
    rw [List.getD_eq_getElem?_getD, List.getD_eq_getElem?_getD, List.getElem?_eq_getElem (by omega),
      List.getElem?_eq_getElem hj]
    exact List.pairwise_iff_getElem.1 ht j (j + 1) (by omega) hj (by omega)
  simp only [List.getElem_map, List.getElem_range, List.length_map]
  split_ifs with c1 c2
  · have := hlt 0 (by omega)
    rw [hF 0 (by omega), hF 1 (by omega)]
    rw [div_eq_iff (by linarith)]
    ring
  · have := hlt (i - 1) (by omega)
    rw [show i - 1 + 1 = i by omega] at this ⊢
    rw [hF i hi, hF (i - 1) (by omega)]
    rw [div_eq_iff (by linarith)]
    ring
  · have e1 := hlt (i - 1) (by omega)
    have e2 := hlt i (by omega)
    rw [show i - 1 + 1 = i by omega] at e1 ⊢
    rw [hF i hi, hF (i - 1) (by omega), hF (i + 1) (by omega)]
    have d1 : t.getD i 0 - t.getD (i - 1) 0 ≠ 0 := by linarith
    have d2 : t.getD (i + 1) 0 - t.getD i 0 ≠ 0 := by linarith
    have d3 : (t.getD (i + 1) 0 - t.getD i 0) + (t.getD i 0 - t.getD (i - 1) 0) ≠ 0 := by linarith
    generalize t.getD i 0 = b at *
    generalize t.getD (i - 1) 0 = c at *
    generalize t.getD (i + 1) 0 = d at *
    field_simp
    ring

/-- The equations of a rotor at constant speed. -/
theorem system_constant {Ω : ℝ} {F : List (Fin r.ndof → ℝ)} {t : List ℝ}
    {M C G K S : Matrix (Fin r.ndof) (Fin r.ndof) ℝ} (hM : r.M (some 0) = .ok M) (hC : r.C Ω = .ok C)
    (hG : r.G = .ok G) (hK : r.K Ω = .ok K) (hS : r.Ksdt = .ok S) :
    ∃ func, r.system (.direct r.ndof) (.scalar Ω) F t {} = .ok func ∧
      (∀ k dt q s, func k dt q = .ok s → s = ⟨M, C + Ω • G, K, F.getD k 0⟩) ∧
      ∀ k dt q, k < F.length → ∃ s, func k dt q = .ok s := by
  have hM' : r.M = .ok M := hM
  refine ⟨fun k dt q => do
    let f ← r.forces (.direct r.ndof) F {} k dt q
    pure ⟨M, C + Ω • G, K, f⟩, ?_, ?_, ?_⟩
  · unfold Rotor.system
    simp only [hM', hG, hS, hC, hK, SpeedArg.isArray, SpeedArg.ref, Reduction.direct, id,
      Option.getD_none, Bool.false_eq_true, if_false]
    rfl
  · intro k dt q s hs
    obtain ⟨f, hff, hs⟩ := bind_ok.1 hs
    cases hs
    rw [(forces_direct rfl hff).1]
  · intro k dt q hk
    refine ⟨⟨M, C + Ω • G, K, F[k]⟩, bind_ok.2 ⟨F[k], ?_, rfl⟩⟩
    unfold Rotor.forces
    rw [List.getElem?_eq_getElem hk]
    rfl

theorem form_eq {N : ℕ} (B : Matrix (Fin N) (Fin N) ℝ) (v : Fin N → ℝ) :
    v ⬝ᵥ (B *ᵥ v) = ∑ i, ∑ j, v i * B i j * v j := by
  simp only [dotProduct, mulVec, Finset.mul_sum]
  exact Finset.sum_congr rfl fun i _ => Finset.sum_congr rfl fun j _ => by ring

theorem skew_form {N : ℕ} {G : Matrix (Fin N) (Fin N) ℝ} (hG : Gᵀ = -G) (v : Fin N → ℝ) :
    ∑ i, ∑ j, v i * G i j * v j = 0 := by
  have h : ∑ i, ∑ j, v i * G i j * v j = -∑ i, ∑ j, v i * G i j * v j := by
    conv_lhs => rw [Finset.sum_comm]
    rw [← Finset.sum_neg_distrib]
    refine Finset.sum_congr rfl fun i _ => ?_
    rw [← Finset.sum_neg_distrib]
    refine Finset.sum_congr rfl fun j _ => ?_
    have : G j i = -G i j := congrFun (congrFun hG i) j
    rw [this]; ring
  linarith

/-- **C50** a passive rotor at constant speed is integrated to the end, for every force history and
every non-decreasing time array; between unforced instants its energy grows by no more than the
tolerance allows, at any speed and for any step size. -/
theorem C50_passive (hi : init pd fuel a = some (.ok r)) (hf : ∀ e ∈ r.elements, Fits r.number_dof e)
    {Ω : ℝ} (hp0 : Passive r 0) (hp : Passive r Ω)
    {M C G K S : Matrix (Fin r.ndof) (Fin r.ndof) ℝ} (hM : r.M (some 0) = .ok M) (hC : r.C Ω = .ok C)
    (hG : r.G = .ok G) (hK : r.K Ω = .ok K) (hS : r.Ksdt = .ok S) (ei : Eigh)
    {F : List (Fin r.ndof → ℝ)} {t : List ℝ} (hne : t ≠ []) (ht : t.Pairwise (· ≤ ·))
    (hF : t.length ≤ F.length) :
    ∃ y, r.integrate_system ei (.scalar Ω) F t = .ok (t, y) ∧
    ∃ (q : List (State r.ndof)) (hl : q.length = t.length), y = q.map State.y ∧
      ∀ k (hk : k + 1 < t.length), F[k + 1] = 0 → (k = 0 ∨ F[k] = 0) →
        energy M K q[k + 1] ≤ energy M K q[k] +
          1e-6 * Real.sqrt (∑ i, (q[k + 1].y i - q[k].y i) ^ 2) ∧
        ((k = 0 ∨ q[k].y2dot ≠ 0) → q[k + 1].y2dot ≠ 0 → energy M K q[k + 1] ≤ energy M K q[k]) := by
  obtain ⟨f1, -, -⟩ := C47_forms hi hf hp0
  obtain ⟨-, f2, f3⟩ := C47_forms hi hf hp
  have hMs : ∀ i j, M i j = M j i := fun i j => congrFun (congrFun (f1 M hM).1 j) i
  have hKs : ∀ i j, K i j = K j i := fun i j => congrFun (congrFun (f2 K hK).1 j) i
  have hCn : ∀ x : Fin r.ndof → ℝ, 0 ≤ ∑ i, ∑ j, x i * (C + Ω • G) i j * x j := by
    intro x
    have h1 := f3 C hC x
    have h2 := skew_form (C18_gyro_skew hi hG) x
    rw [form_eq] at h1
    have : ∑ i, ∑ j, x i * (C + Ω • G) i j * x j =
        (∑ i, ∑ j, x i * C i j * x j) + Ω * ∑ i, ∑ j, x i * G i j * x j := by
      simp only [Finset.mul_sum, ← Finset.sum_add_distrib, Matrix.add_apply, Matrix.smul_apply, smul_eq_mul]
      exact Finset.sum_congr rfl fun i _ => Finset.sum_congr rfl fun j _ => by ring
    rw [this, h2]; linarith
  obtain ⟨func, s1, s2, s3⟩ := system_constant (F := F) (t := t) hM hC hG hK hS
  obtain ⟨y, hy⟩ := C27_converges (o := {}) (func := func) (by norm_num) hne ht
    (fun step dt q hs => s3 step dt q (lt_of_lt_of_le hs hF)) (by
      intro step dt q s hdt hs
      rw [s2 _ _ _ _ hs]
      refine C27_solvable (by norm_num) (by norm_num) hdt (fun x hx => ?_) hCn fun x => ?_
      · rw [← form_eq]; exact (f1 M hM).2 x hx
      · rw [← form_eq]; exact (f2 K hK).2 x)
  refine ⟨y, ?_, ?_⟩
  · unfold integrate_system integrateWith
    simp only [s1]
    refine bind_ok.2 ⟨y, bind_ok.2 ⟨func, rfl, bind_ok.2 ⟨y, hy, ?_⟩⟩, rfl⟩
    simp [Reduction.direct, pure, Except.pure]
  · obtain ⟨q, hl, h1, h2⟩ := C27_decay (F := fun k => F.getD k 0) hMs hKs hCn s2 hy
    refine ⟨q, hl, h1, fun k hk h3 h4 => ?_⟩
    have e : ∀ j (hj : j < F.length), F.getD j 0 = F[j] := fun j hj => by
      rw [List.getD_eq_getElem?_getD, List.getElem?_eq_getElem hj]; rfl
    have hle : t[k] ≤ t[k + 1] := List.pairwise_iff_getElem.1 ht k (k + 1) (by omega) hk (by omega)
    refine h2 k hk hle ?_ ?_
    · simp only [e (k + 1) (by omega)]; exact h3
    · simp only [e k (by omega)]; exact h4

/-- The two-bearing rotor meets the hypotheses at every speed and is integrated for every force. -/
example (α c Ω : ℝ) (hα : 0 ≤ α) (hc : 0 ≤ c) (ei : Eigh) :
    ∃ r, init exPandas 10 (twoArgs α c) = some (.ok r) ∧
      ∀ F : List (Fin r.ndof → ℝ), 3 ≤ F.length →
        ∃ y, r.integrate_system ei (.scalar Ω) F [0, 0.1, 0.2] = .ok ([0, 0.1, 0.2], y) := by
  obtain ⟨r, h, h4, -, hf, hp, -, -, -, -, hA⟩ := two_facts α c hα hc
  refine ⟨r, h, fun F hF => ?_⟩
  obtain ⟨A, hA0⟩ := hA 0 0
  obtain ⟨M, -, -, G, hM, -, -, hG, -⟩ := A_ok.1 hA0
  obtain ⟨A', hA1⟩ := hA Ω Ω
  obtain ⟨-, K, C, -, -, hK, hC, -, -⟩ := A_ok.1 hA1
  have hS : r.Ksdt = .ok 0 := by unfold Rotor.Ksdt; rw [if_neg (by omega)]
  obtain ⟨y, hy, -⟩ := C50_passive h hf (hp 0) (hp Ω) hM hC hG hK hS ei (F := F) (t := [0, 0.1, 0.2])
    (by simp) (by norm_num) (by simpa using hF)
  exact ⟨y, hy⟩

/-- A run-up with bearings of constant coefficients is integrated to the end when the matrix of every
step is solvable. -/
theorem runup_runs {m : ℕ} (red : Reduction r.ndof m) (hv : r.varying = [])
    {M C G K S : Matrix (Fin r.ndof) (Fin r.ndof) ℝ} {Ω : List ℝ} (hΩ : 1 < Ω.dedup.length)
    (hM : r.M = .ok M) (hC : r.C (Ω.sum / Ω.length) = .ok C) (hG : r.G = .ok G)
    (hK : r.K (Ω.sum / Ω.length) = .ok K) (hS : r.Ksdt = .ok S) (nm : Option ℕ)
    {F : List (Fin r.ndof → ℝ)} {t : List ℝ} (hlen : Ω.length = t.length) (ht : t.Pairwise (· ≤ ·))
    (hF : t.length ≤ F.length)
    (hd : ∀ (dt s α : ℝ) (f : Fin m → ℝ), 0 ≤ dt → (effective (1 / 2) (1 / 4) dt ⟨red.matrix M,
      red.matrix C + s • red.matrix G, red.matrix K + α • red.matrix S, f⟩).det ≠ 0) :
    ∃ y, r.integrateWith red (.array Ω) F t { num_modes := nm } false = .ok y := by
  have h2 : 2 ≤ Ω.length := le_trans hΩ (List.dedup_sublist Ω).length_le
  obtain ⟨α, hα⟩ : ∃ α, npGradient Ω t = .ok α := by
    unfold npGradient
    rw [if_neg (by omega)]
    exact ⟨_, rfl⟩
  have hia : (SpeedArg.array Ω).isArray = true := by simpa [SpeedArg.isArray] using hΩ
  set func : ℕ → ℝ → State m → Res (Sys m) := fun k dt q => do
    let s ← (SpeedArg.array Ω).at' k
    let f ← r.forces red F { num_modes := nm } k dt q
    pure ⟨red.matrix M, red.matrix C + s • red.matrix G, red.matrix K + (α.getD k 0) • red.matrix S, f⟩
    with hfunc
  have s1 : r.system red (.array Ω) F t { num_modes := nm } = .ok func := by
    unfold Rotor.system
    simp only [hM, hG, hS, SpeedArg.list, Option.getD_none, hia, if_true, hα, hv, ne_eq, not_true,
      if_false, SpeedArg.ref, hC, hK]
    rfl
  have hne : t ≠ [] := by
    rintro rfl
    rw [List.length_nil] at hlen
    omega
  obtain ⟨y, hy⟩ := C27_converges (o := {}) (func := func) (by norm_num) hne ht
    (fun step dt q hs => by
      refine ⟨_, bind_ok.2 ⟨Ω[step]'(by omega), ?_, bind_ok.2 ⟨red.vector (F[step]'(by omega)), ?_, rfl⟩⟩⟩
      · simp only [SpeedArg.at', List.getElem?_eq_getElem (show step < Ω.length by omega)]
      · unfold Rotor.forces
        simp only [List.getElem?_eq_getElem (show step < F.length by omega)])
    (by
      intro step dt q s hdt hs
      obtain ⟨w, hw, hs⟩ := bind_ok.1 hs
      obtain ⟨f, hff, hs⟩ := bind_ok.1 hs
      cases hs
      have e1 : (({} : Options).gamma) = 1 / 2 := by norm_num
      have e2 : (({} : Options).beta) = 1 / 4 := by norm_num
      rw [e1, e2]
      exact hd dt w _ f hdt)
  exact ⟨_, bind_ok.2 ⟨func, s1, bind_ok.2 ⟨y, hy, rfl⟩⟩⟩

/-- **C50** a passive rotor with four dofs per node and bearings of constant coefficients is integrated
to the end for every speed history and every force. -/
theorem C50_runup_runs (hi : init pd fuel a = some (.ok r)) (hf : ∀ e ∈ r.elements, Fits r.number_dof e)
    {Ω : List ℝ} (hΩ : 1 < Ω.dedup.length) (hp0 : Passive r 0) (hp : Passive r (Ω.sum / Ω.length))
    (h4 : r.number_dof ≠ 6) (hv : r.varying = [])
    {M C G K : Matrix (Fin r.ndof) (Fin r.ndof) ℝ} (hM : r.M (some 0) = .ok M)
    (hC : r.C (Ω.sum / Ω.length) = .ok C) (hG : r.G = .ok G) (hK : r.K (Ω.sum / Ω.length) = .ok K)
    (ei : Eigh) {F : List (Fin r.ndof → ℝ)} {t : List ℝ} (hlen : Ω.length = t.length)
    (ht : t.Pairwise (· ≤ ·)) (hF : t.length ≤ F.length) :
    ∃ y, r.integrate_system ei (.array Ω) F t = .ok (t, y) := by
  obtain ⟨f1, -, -⟩ := C47_forms hi hf hp0
  obtain ⟨-, f2, f3⟩ := C47_forms hi hf hp
  have hS : r.Ksdt = .ok 0 := by unfold Rotor.Ksdt; rw [if_neg h4]
  obtain ⟨y, hy⟩ := runup_runs (.direct r.ndof) hv hΩ hM hC hG hK hS none hlen ht hF (by
    intro dt s α f hdt
    refine C27_solvable (by norm_num) (by norm_num) hdt (fun x hx => ?_) (fun x => ?_) fun x => ?_
    · rw [← form_eq]; exact (f1 M hM).2 x hx
    · have h1 := f3 C hC x
      have h2 := skew_form (C18_gyro_skew hi hG) x
      rw [← form_eq] at h2
      rw [← form_eq]
      simp only [Reduction.direct, id]
      rw [add_mulVec, smul_mulVec, dotProduct_add, dotProduct_smul, h2]
      simpa using h1
    · rw [← form_eq]
      simp only [Reduction.direct, id, smul_zero, add_zero]
      exact (f2 K hK).2 x)
  exact ⟨y, bind_ok.2 ⟨y, hy, rfl⟩⟩

/-- The two-bearing rotor meets the hypotheses. -/
example (α c : ℝ) (hα : 0 ≤ α) (hc : 0 ≤ c) (ei : Eigh) :
    ∃ r, init exPandas 10 (twoArgs α c) = some (.ok r) ∧
      ∀ F : List (Fin r.ndof → ℝ), 3 ≤ F.length →
        ∃ y, r.integrate_system ei (.array [0, 10, 30]) F [0, 0.1, 0.2] = .ok ([0, 0.1, 0.2], y) := by
  obtain ⟨r, h, h4, -, hf, hp, -, -, -, hb, hA⟩ := two_facts α c hα hc
  refine ⟨r, h, fun F hF => ?_⟩
  obtain ⟨A, hA0⟩ := hA 0 0
  obtain ⟨M, -, -, G, hM, -, -, hG, -⟩ := A_ok.1 hA0
  obtain ⟨A', hA1⟩ := hA 0 (([0, 10, 30] : List ℝ).sum / ([0, 10, 30] : List ℝ).length)
  obtain ⟨-, K, C, -, -, hK, hC, -, -⟩ := A_ok.1 hA1
  refine C50_runup_runs h hf ?_ (hp 0) (hp _) (by omega) ?_ hM hC hG hK ei (by simp) (by norm_num)
    (by simpa using hF)
  · norm_num [List.dedup_cons_of_notMem]
  · unfold Rotor.varying
    refine List.filter_eq_nil_iff.2 fun x hx => ?_
    have hx' : x.1 ∈ r.elements := List.mem_map.2 ⟨x, hx, rfl⟩
    rcases (mem_elements (init_ok h) x.1).1 hx' with ⟨_, _, e⟩ | ⟨_, _, e⟩ | ⟨b, hm, e⟩ | ⟨_, _, e⟩
    · simp [e]
    · simp [e]
    · obtain ⟨n, tg, rfl⟩ := hb b hm
      simp [e, BrgEl.base, exBrg]
    · simp [e]

/-- **C50** the optional arguments at constant speed: matrices that are given replace those of the rotor,
the extra force is evaluated at the previous state and added to the given force, and the parameters of
the integrator are those given. -/
theorem C50_options {ei : Eigh} {Ω : ℝ} {F : List (Fin r.ndof → ℝ)} {t : List ℝ}
    {x : List ℝ × List (Fin r.ndof → ℝ)} {kw : IntegrateArgs r.ndof} (hk : kw.num_modes = none)
    (h : r.integrate_system ei (.scalar Ω) F t kw = .ok x) :
    x.1 = t ∧ ∃ M C G K, (kw.M = some M ∨ kw.M = none ∧ r.M (some 0) = .ok M) ∧
      (kw.C = some C ∨ kw.C = none ∧ r.C Ω = .ok C) ∧
      (kw.G = some G ∨ kw.G = none ∧ r.G = .ok G) ∧
      (kw.K = some K ∨ kw.K = none ∧ r.K Ω = .ok K) ∧
      ∃ (q : List (State r.ndof)) (hl : q.length = t.length), x.2 = q.map State.y ∧
        q[0]? = some ⟨0, 0, 0⟩ ∧
        ∀ k (hk : k + 1 < t.length), ∃ hF : k + 1 < F.length,
          NewmarkStep kw.options.gamma kw.options.beta (t[k + 1] - t[k]) q[k] q[k + 1] ∧
          Real.sqrt (∑ i, unbalanced ⟨M, C + Ω • G, K, match kw.add_to_RHS with
            | none => F[k + 1]
            | some g => F[k + 1] + g (k + 1) (t[k + 1] - t[k]) q[k]⟩ q[k + 1] i ^ 2) < kw.options.tol := by
  obtain ⟨h1, func, hf, hn⟩ := integrate_direct hk h
  refine ⟨h1, ?_⟩
  unfold Rotor.system at hf
  obtain ⟨M, hM, hf⟩ := bind_ok.1 hf
  obtain ⟨G, hG, hf⟩ := bind_ok.1 hf
  obtain ⟨S, hS, hf⟩ := bind_ok.1 hf
  simp only [SpeedArg.isArray, Bool.false_eq_true, if_false, Reduction.direct, id,
    SpeedArg.ref] at hf
  obtain ⟨C, hC, hf⟩ := bind_ok.1 hf
  obtain ⟨K, hK, hf⟩ := bind_ok.1 hf
  simp only [pure, Except.pure, Except.ok.injEq] at hf
  subst hf
  have gd' : ∀ {α : Type} (o : Option α) (d : α) (R : Res α), R = .ok d →
      (o = some (o.getD d) ∨ o = none ∧ R = .ok (o.getD d)) := by
    intro α o d R hR
    cases o with
    | none => exact Or.inr ⟨rfl, hR⟩
    | some y => exact Or.inl rfl
  refine ⟨kw.M.getD M, kw.C.getD C, kw.G.getD G, kw.K.getD K, gd' _ _ _ hM, gd' _ _ _ hC, gd' _ _ _ hG,
    gd' _ _ _ hK, ?_⟩
  obtain ⟨q, hl, h2, h3, h4⟩ := C27_motion hn
  refine ⟨q, hl, h2, h3, fun k hk' => ?_⟩
  obtain ⟨s, h5, h6, h7, -⟩ := h4 k hk'
  obtain ⟨f, hff, hs⟩ := bind_ok.1 h5
  unfold Rotor.forces at hff
  have hF : k + 1 < F.length := by
    by_contra hc
    rw [List.getElem?_eq_none (not_lt.1 hc)] at hff
    cases hff
  refine ⟨hF, h6, ?_⟩
  rw [List.getElem?_eq_getElem hF] at hff
  cases hs
  cases hg : kw.add_to_RHS with
  | none =>
    simp only [hg, Except.ok.injEq] at hff
    subst hff
    exact h7
  | some g =>
    simp only [hg, Except.ok.injEq] at hff
    subst hff
    exact h7

end Ross.Props
