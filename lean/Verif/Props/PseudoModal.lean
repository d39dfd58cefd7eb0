import Mathlib.Analysis.Matrix.Spectrum
import Mathlib.Data.Fin.Tuple.Sort
import Verif.Lemmas.PseudoModal
import Verif.Props.TimeResponse

/-! # C51: pseudo-modal time response -/

namespace Ross.Props

open Ross Ross.Newmark Ross.Spec Ross.Rotor Ross.NewmarkLemmas Ross.BearingLemmas Ross.TimeLemmas
  Ross.RotorLemmas Ross.AssemblyLemmas Matrix
open Ross.StateLemmas (A_ok)

variable {pd : Pandas} {fuel : ℕ} {a : RotorArgs} {r : Rotor}

/-- **C51** the modes are those of the rotor without the cross-coupled stiffness of its bearings: the
stiffness matrix handed to the eigenvalue solver is assembled from the elements with `kxy` and `kyx`
replaced by zero. No bearing may be linked to another node. -/
theorem C51_uncoupled {ω : ℝ} {B : Matrix (Fin r.ndof) (Fin r.ndof) ℝ} (h : r.uncoupledK ω = .ok B) :
    (∀ x ∈ r.placed, ∀ b, x.1 = .brg b → b.n_link = none) ∧
      assemble r.ndof (fun e => Elm.K ω (decoupled e)) r.placed = .ok B := uncoupled_ok h

theorem decoupled_symm (hi : init pd fuel a = some (.ok r))
    (hs : ∀ e ∈ r.shaft, e.s.Built ∧ e.s.torque = 0) {ω : ℝ} {e : Elm} (he : e ∈ r.elements) {E : LMat}
    (hE : Elm.K ω (decoupled e) = .ok E) : E.2ᵀ = E.2 := by
  have z : ∀ {x}, zeroCoeff.eval ω = .ok x → x = 0 := by
    intro x hx
    simpa [zeroCoeff, Coeff.eval, eq_comm] using hx
  rcases (mem_elements (init_ok hi) e).1 he with ⟨⟨six, s⟩, hm, rfl⟩ | ⟨⟨six, s⟩, hm, rfl⟩ | ⟨b, hm, rfl⟩ |
    ⟨p, hm, rfl⟩
  · obtain ⟨h1, h4⟩ := hs _ hm
    cases six <;> cases hE
    · exact (C07_stiffness_symm_iff s h1).2 h4
    · exact K6_symm s h4
  · cases six <;> cases hE
    · have : s.K = 0 := (C03_gyro s).2.2.2.1
      simp only; rw [this]; simp
    · have : s.K₆ = 0 := (C03_six s).2.2.2.2.2.1
      simp only; rw [this]; simp
  · cases b with
    | brg sl b =>
      obtain ⟨xx, yy, xy, yx, e1, e2, e3, e4, hS⟩ := brgK_support hE
      rw [z e3, z e4] at hS
      exact support_symm hS (by ext i j; fin_cases i <;> fin_cases j <;> rfl)
    | brg6 b =>
      obtain ⟨xx, yy, xy, yx, zz, e1, e2, e3, e4, e5, hS⟩ := brg6K_support hE
      rw [z e3, z e4] at hS
      exact support_symm hS (by ext i j; fin_cases i <;> fin_cases j <;> rfl)
  · cases p <;> cases hE
    · rename_i p
      have : p.K = 0 := (C16_matrices p).2.2.2.1
      simp only; rw [this]; simp
    · rename_i p
      have : p.K = 0 := (C16_matrices6 p).2.2.2.1
      simp only; rw [this]; simp

theorem uncoupled_symm (hi : init pd fuel a = some (.ok r))
    (hs : ∀ e ∈ r.shaft, e.s.Built ∧ e.s.torque = 0) {ω : ℝ}
    {B : Matrix (Fin r.ndof) (Fin r.ndof) ℝ} (h : r.uncoupledK ω = .ok B) : Bᵀ = B := by
  have hb := init_ok hi
  have hd : ∀ x ∈ r.placed, x.2.values.Nodup := by
    have := keep_nodup hb []
    rwa [show r.keep [] = r.placed by simp [Rotor.keep]] at this
  exact assemble_symm hd (uncoupled_ok h).2 fun z hz E hE =>
    decoupled_symm hi hs (placed_mem hb hz) hE

/-- **C51** the modes: the columns of the modal matrix are eigenvectors of the uncoupled rotor for the
smallest eigenvalues, orthonormal with respect to the mass matrix. -/
theorem C51_modes (hi : init pd fuel a = some (.ok r)) (hs : ∀ e ∈ r.shaft, e.s.Built ∧ e.s.torque = 0)
    {ei : Eigh} (hE : EighOk ei) {Ω : ℝ} {k : ℕ} {M : Matrix (Fin r.ndof) (Fin r.ndof) ℝ}
    (hM : r.M (some Ω) = .ok M) (hMs : Mᵀ = M) (hMp : ∀ v ≠ 0, 0 < v ⬝ᵥ (M *ᵥ v))
    {Φ : Matrix (Fin r.ndof) (Fin (min k r.ndof)) ℝ} (h : r.pseudoModal ei Ω k = .ok Φ) :
    ∃ B w, r.uncoupledK Ω = .ok B ∧ Φᵀ * M * Φ = 1 ∧ Monotone w ∧
      (∀ j, B *ᵥ (fun i => Φ i j) = w ⟨j, by omega⟩ • (M *ᵥ fun i => Φ i j)) ∧
      ∃ V : Matrix (Fin r.ndof) (Fin r.ndof) ℝ, Vᵀ * M * V = 1 ∧ B * V = M * V * diagonal w ∧
        ∀ i j, Φ i j = V i ⟨j, by omega⟩ := by
  unfold Rotor.pseudoModal at h
  obtain ⟨M', hM', h⟩ := bind_ok.1 h
  rw [hM] at hM'
  cases hM'
  obtain ⟨B, hB, h⟩ := bind_ok.1 h
  obtain ⟨w, V, e1, e2, e3, e4⟩ := hE B M (uncoupled_symm hi hs hB) hMs hMp
  simp only [e1, Except.ok.injEq] at h
  have hΦ : ∀ i j, Φ i j = V i ⟨j, by omega⟩ := fun i j => by rw [← h]; rfl
  refine ⟨B, w, hB, ?_, e4, ?_, V, e2, e3, hΦ⟩
  · ext p q
    have := congrFun (congrFun e2 ⟨p, by omega⟩) ⟨q, by omega⟩
    simp only [Matrix.mul_apply, Matrix.transpose_apply, hΦ] at this ⊢
    rw [this]
    simp [Matrix.one_apply, Fin.ext_iff]
  · intro j
    funext i
    have := congrFun (congrFun e3 i) ⟨j, by omega⟩
    rw [Matrix.mul_diagonal] at this
    simp only [Matrix.mul_apply] at this
    simp only [mulVec, dotProduct, hΦ, Pi.smul_apply, smul_eq_mul]
    rw [this, mul_comm]

/-- **C51** no time response with modes for a rotor with linked bearings (`_pseudo_modal` masks a
matrix of the linked bearing with one of half its size). -/
theorem C51_linked {ei : Eigh} {speed : SpeedArg} {F : List (Fin r.ndof → ℝ)} {t : List ℝ}
    {kw : IntegrateArgs r.ndof} {k : ℕ} (hk : kw.num_modes = some (k + 1))
    (hl : ∃ x ∈ r.placed, ∃ b, x.1 = .brg b ∧ b.n_link ≠ none) (it : Bool) :
    ∀ y, r.integrate_system ei speed F t kw it ≠ .ok y := by
  intro y h
  unfold integrate_system at h
  rw [hk] at h
  simp only at h
  obtain ⟨Φ, h1, -⟩ := bind_ok.1 h
  unfold Rotor.pseudoModal at h1
  obtain ⟨M, -, h1⟩ := bind_ok.1 h1
  obtain ⟨B, hB, -⟩ := bind_ok.1 h1
  obtain ⟨x, hx, b, hb, hn⟩ := hl
  exact hn ((uncoupled_ok hB).1 x hx b hb)

theorem forces_modal {m : ℕ} {Φ : Matrix (Fin r.ndof) (Fin m) ℝ} {F : List (Fin r.ndof → ℝ)}
    {kw : IntegrateArgs r.ndof} (hk : kw.add_to_RHS = none)
    {k : ℕ} {dt : ℝ} {q : State m} {f : Fin m → ℝ}
    (h : r.forces (.modal Φ) F kw k dt q = .ok f) : f = Φᵀ *ᵥ F.getD k 0 := by
  unfold Rotor.forces at h
  rw [hk] at h
  cases hF : F[k]? with
  | none => simp [hF] at h
  | some g =>
    simp only [hF, Except.ok.injEq, Reduction.modal] at h
    subst h
    rw [List.getD_eq_getElem?_getD, hF]; rfl

/-- **C51** at constant speed the response is the combination of the modes whose coefficients satisfy the
projected equation of motion at every instant. -/
theorem C51_galerkin {ei : Eigh} {Ω : ℝ} {F : List (Fin r.ndof → ℝ)} {t : List ℝ}
    {x : List ℝ × List (Fin r.ndof → ℝ)} {k : ℕ} 
    (h : r.integrate_system ei (.scalar Ω) F t { num_modes := some (k + 1) } = .ok x) :
    x.1 = t ∧ ∃ M C G K Φ, r.M (some 0) = .ok M ∧ r.C Ω = .ok C ∧ r.G = .ok G ∧ r.K Ω = .ok K ∧
      r.pseudoModal ei Ω (k + 1) = .ok Φ ∧
      ∃ q, Integrates t 1e-6 (fun k => ⟨Φᵀ * M * Φ, Φᵀ * C * Φ + Ω • (Φᵀ * G * Φ), Φᵀ * K * Φ,
          Φᵀ *ᵥ F.getD k 0⟩) q ∧ x.2 = q.map fun s => Φ *ᵥ s.y := by
  unfold integrate_system at h
  simp only at h
  obtain ⟨Φ, hΦ, h⟩ := bind_ok.1 h
  obtain ⟨y, h1, h2⟩ := bind_ok.1 h
  simp only [pure, Except.pure, Except.ok.injEq] at h2
  subst h2
  refine ⟨rfl, ?_⟩
  unfold integrateWith at h1
  obtain ⟨func, hf, h4⟩ := bind_ok.1 h1
  obtain ⟨resp, hn, h6⟩ := bind_ok.1 h4
  simp only [pure, Except.pure, Except.ok.injEq] at h6
  unfold Rotor.system at hf
  obtain ⟨M, hM, hf⟩ := bind_ok.1 hf
  obtain ⟨G, hG, hf⟩ := bind_ok.1 hf
  obtain ⟨S, hS, hf⟩ := bind_ok.1 hf
  simp only [SpeedArg.isArray, Bool.false_eq_true, if_false, Reduction.modal, Option.getD_none,
    SpeedArg.ref] at hf
  obtain ⟨C, hC, hf⟩ := bind_ok.1 hf
  obtain ⟨K, hK, hf⟩ := bind_ok.1 hf
  simp only [pure, Except.pure, Except.ok.injEq] at hf
  subst hf
  refine ⟨M, C, G, K, Φ, hM, hC, hG, hK, hΦ, ?_⟩
  have hs := newmark_integrates hn (fun k => ⟨Φᵀ * M * Φ, Φᵀ * C * Φ + Ω • (Φᵀ * G * Φ), Φᵀ * K * Φ,
          Φᵀ *ᵥ F.getD k 0⟩) fun k dt q s hk hs => by
    obtain ⟨f, hff, hs⟩ := bind_ok.1 hs
    cases hs
    rw [forces_modal rfl hff]
  obtain ⟨q, hq, rfl⟩ := hs
  refine ⟨q, hq, ?_⟩
  rw [← h6, List.map_map]
  rfl

/-- **C51** at varying speed the modes are those of the rotor at the mean of the speeds, and the
response is the Galerkin approximation of the run-up: at every instant the matrices of the current
speed and the transient stiffness times the current acceleration, projected on the modes. -/
theorem C51_runup (hi : init pd fuel a = some (.ok r)) (hm : ∀ b ∈ a.bearings, Made b)
    {ei : Eigh} {Ω : List ℝ} (hΩ : 1 < Ω.dedup.length) {F : List (Fin r.ndof → ℝ)} {t : List ℝ}
    {x : List ℝ × List (Fin r.ndof → ℝ)} {n : ℕ}
    (h : r.integrate_system ei (.array Ω) F t { num_modes := some (n + 1) } = .ok x) :
    x.1 = t ∧ ∃ M G S α Φ, r.M (some 0) = .ok M ∧ r.G = .ok G ∧ r.Ksdt = .ok S ∧
      npGradient Ω t = .ok α ∧ r.pseudoModal ei (Ω.sum / Ω.length) (n + 1) = .ok Φ ∧
      ∃ C K : ℕ → Matrix (Fin r.ndof) (Fin r.ndof) ℝ,
      (∀ k, k + 1 < t.length → r.C (Ω.getD (k + 1) 0) = .ok (C (k + 1)) ∧
        r.K (Ω.getD (k + 1) 0) = .ok (K (k + 1))) ∧
      ∃ q, Integrates t 1e-6 (fun k => ⟨Φᵀ * M * Φ, Φᵀ * C k * Φ + (Ω.getD k 0) • (Φᵀ * G * Φ),
          Φᵀ * K k * Φ + (α.getD k 0) • (Φᵀ * S * Φ), Φᵀ *ᵥ F.getD k 0⟩) q ∧
        x.2 = q.map fun s => Φ *ᵥ s.y := by
  have hb := init_ok hi
  unfold integrate_system at h
  simp only at h
  obtain ⟨Φ, hΦ, h⟩ := bind_ok.1 h
  obtain ⟨y, h1, h2⟩ := bind_ok.1 h
  simp only [pure, Except.pure, Except.ok.injEq] at h2
  subst h2
  refine ⟨rfl, ?_⟩
  unfold integrateWith at h1
  obtain ⟨func, hf, h4⟩ := bind_ok.1 h1
  obtain ⟨resp, hn, h6⟩ := bind_ok.1 h4
  simp only [pure, Except.pure, Except.ok.injEq] at h6
  unfold Rotor.system at hf
  obtain ⟨M, hM, hf⟩ := bind_ok.1 hf
  obtain ⟨G, hG, hf⟩ := bind_ok.1 hf
  obtain ⟨S, hS, hf⟩ := bind_ok.1 hf
  have hia : (SpeedArg.array Ω).isArray = true := by simpa [SpeedArg.isArray] using hΩ
  rw [if_pos hia] at hf
  obtain ⟨α, hα, hf⟩ := bind_ok.1 hf
  simp only [SpeedArg.list] at hα
  refine ⟨M, G, S, α, Φ, hM, hG, hS, hα, hΦ, ?_⟩
  have hat : ∀ k s, (SpeedArg.array Ω).at' k = .ok s → s = Ω.getD k 0 := by
    intro k s hs
    unfold SpeedArg.at' at hs
    cases hk : Ω[k]? with
    | none => simp [hk] at hs
    | some w =>
      simp only [hk, Except.ok.injEq] at hs
      rw [List.getD_eq_getElem?_getD, hk, ← hs]; rfl
  have hC : ∀ e, Const e → ∀ ω ω', Elm.C ω e = Elm.C ω' e := fun e he ω ω' => (he ω ω').2.2
  have hK : ∀ e, Const e → ∀ ω ω', Elm.K ω e = Elm.K ω' e := fun e he ω ω' => (he ω ω').2.1
  -- the matrices of each step
  have hstep : ∀ k dt q s, k + 1 < t.length → func (k + 1) dt q = .ok s →
      ∃ C K, r.C (Ω.getD (k + 1) 0) = .ok C ∧ r.K (Ω.getD (k + 1) 0) = .ok K ∧
        s = (⟨Φᵀ * M * Φ, Φᵀ * C * Φ + (Ω.getD (k + 1) 0) • (Φᵀ * G * Φ),
          Φᵀ * K * Φ + (α.getD (k + 1) 0) • (Φᵀ * S * Φ), Φᵀ *ᵥ F.getD (k + 1) 0⟩ : Sys _) := by
    intro k dt q s hk hs
    by_cases hv : r.varying ≠ []
    · rw [if_pos hv] at hf
      simp only [Option.isSome_none, Bool.false_eq_true, or_self, if_false] at hf
      obtain ⟨C0, hC0, hf⟩ := bind_ok.1 hf
      obtain ⟨K0, hK0, hf⟩ := bind_ok.1 hf
      simp only [pure, Except.pure, Except.ok.injEq] at hf
      rw [← hf] at hs
      obtain ⟨w, hw, hs⟩ := bind_ok.1 hs
      obtain ⟨⟨C, K⟩, hck, hs⟩ := bind_ok.1 hs
      obtain ⟨f, hff, hs⟩ := bind_ok.1 hs
      cases hs
      have hw' := hat _ _ hw
      subst hw'
      obtain ⟨c1, c2⟩ := (assembleCK_ok varying_brg).1 hck
      refine ⟨C, K, (varying_assemble hb hm hC hC0).1 c1, (varying_assemble hb hm hK hK0).1 c2, ?_⟩
      rw [forces_modal rfl hff]
      rfl
    · rw [if_neg hv] at hf
      obtain ⟨C0, hC0, hf⟩ := bind_ok.1 hf
      obtain ⟨K0, hK0, hf⟩ := bind_ok.1 hf
      simp only [pure, Except.pure, Except.ok.injEq] at hf
      rw [← hf] at hs
      obtain ⟨w, hw, hs⟩ := bind_ok.1 hs
      obtain ⟨f, hff, hs⟩ := bind_ok.1 hs
      cases hs
      have hw' := hat _ _ hw
      subst hw'
      refine ⟨C0, K0, ?_, ?_, ?_⟩
      · rw [← hC0]; exact fixed_assemble hb hm hC (not_not.1 hv) _ _
      · rw [← hK0]; exact fixed_assemble hb hm hK (not_not.1 hv) _ _
      · rw [forces_modal rfl hff]
        rfl
  obtain ⟨q', hl', -, -, h3⟩ := C27_motion hn
  have hex : ∀ k, ∃ CK : Matrix (Fin r.ndof) (Fin r.ndof) ℝ × Matrix (Fin r.ndof) (Fin r.ndof) ℝ,
      k < t.length → 0 < k → r.C (Ω.getD k 0) = .ok CK.1 ∧ r.K (Ω.getD k 0) = .ok CK.2 := by
    intro k
    by_cases hk : k < t.length ∧ 0 < k
    · obtain ⟨j, rfl⟩ := Nat.exists_eq_succ_of_ne_zero hk.2.ne'
      obtain ⟨s, hs, -⟩ := h3 j hk.1
      obtain ⟨C, K, hc, hk', -⟩ := hstep j _ _ s hk.1 hs
      exact ⟨(C, K), fun _ _ => ⟨hc, hk'⟩⟩
    · exact ⟨(0, 0), fun h1 h2 => absurd ⟨h1, h2⟩ hk⟩
  choose CK hCK using hex
  refine ⟨fun k => (CK k).1, fun k => (CK k).2, fun k hk => hCK _ hk (Nat.succ_pos k), ?_⟩
  have hs := newmark_integrates hn (fun k => ⟨Φᵀ * M * Φ, Φᵀ * (CK k).1 * Φ + (Ω.getD k 0) • (Φᵀ * G * Φ),
      Φᵀ * (CK k).2 * Φ + (α.getD k 0) • (Φᵀ * S * Φ), Φᵀ *ᵥ F.getD k 0⟩) fun k dt q s hk hs => by
    obtain ⟨C, K, hc, hk', rfl⟩ := hstep k dt q s hk hs
    obtain ⟨e1, e2⟩ := hCK (k + 1) hk (Nat.succ_pos k)
    rw [hc] at e1
    rw [hk'] at e2
    cases e1; cases e2
    rfl
  obtain ⟨q, hq, rfl⟩ := hs
  refine ⟨q, hq, ?_⟩
  rw [← h6, List.map_map]
  rfl

/-- The quadratic form of a projected matrix. -/
theorem form_proj {N m : ℕ} (Φ : Matrix (Fin N) (Fin m) ℝ) (B : Matrix (Fin N) (Fin N) ℝ) (v : Fin m → ℝ) :
    v ⬝ᵥ ((Φᵀ * B * Φ) *ᵥ v) = (Φ *ᵥ v) ⬝ᵥ (B *ᵥ (Φ *ᵥ v)) := by
  rw [← mulVec_mulVec, ← mulVec_mulVec, dotProduct_mulVec v Φᵀ, vecMul_transpose]

/-- **C51** a passive rotor without linked bearings is integrated to the end with any number of modes at
any constant speed. -/
theorem C51_passive (hi : init pd fuel a = some (.ok r)) (hf : ∀ e ∈ r.elements, Fits r.number_dof e)
    {Ω : ℝ} (hp0 : Passive r 0) (hp : Passive r Ω)
    (hl : ∀ x ∈ r.placed, ∀ b, x.1 = .brg b → b.n_link = none ∧
      ((r.number_dof = 6 ∧ ∃ c, b = .brg6 c) ∨ (r.number_dof ≠ 6 ∧ ∃ s c, b = .brg s c)))
    {M M' C G K S : Matrix (Fin r.ndof) (Fin r.ndof) ℝ} (hM : r.M (some 0) = .ok M)
    (hM' : r.M (some Ω) = .ok M') (hC : r.C Ω = .ok C)
    (hG : r.G = .ok G) (hK : r.K Ω = .ok K) (hS : r.Ksdt = .ok S) {ei : Eigh} (hE : EighOk ei) (k : ℕ)
    {F : List (Fin r.ndof → ℝ)} {t : List ℝ} (hne : t ≠ []) (ht : t.Pairwise (· ≤ ·))
    (hF : t.length ≤ F.length) :
    ∃ y, r.integrate_system ei (.scalar Ω) F t { num_modes := some (k + 1) } = .ok (t, y) := by
  obtain ⟨f1, -, -⟩ := C47_forms hi hf hp0
  obtain ⟨f1', f2, f3⟩ := C47_forms hi hf hp
  have hsh : ∀ e ∈ r.shaft, e.s.Built ∧ e.s.torque = 0 := fun e he =>
    ⟨(hp.shaft e he).1, (hp.shaft e he).2.2.2.1⟩
  obtain ⟨B, hB⟩ := uncoupled_exists hK hl
  obtain ⟨w, V, e1, e2, e3, e4⟩ := hE B M' (uncoupled_symm hi hsh hB) (f1' M' hM').1 (f1' M' hM').2
  obtain ⟨Φ, hΦ⟩ : ∃ Φ, r.pseudoModal ei Ω (k + 1) = .ok Φ := by
    unfold Rotor.pseudoModal
    exact ⟨Matrix.of fun i j => V i ⟨j.val, by omega⟩, bind_ok.2 ⟨M', hM', bind_ok.2 ⟨B, hB, by simp only [e1]⟩⟩⟩
  obtain ⟨-, -, -, hΦM, -⟩ := C51_modes hi hsh hE hM' (f1' M' hM').1 (f1' M' hM').2 hΦ
  have hinj : ∀ v, v ≠ 0 → Φ *ᵥ v ≠ 0 := by
    intro v hv h0
    apply hv
    have : (Φᵀ * M' * Φ) *ᵥ v = 0 := by rw [← mulVec_mulVec, h0, mulVec_zero]
    rwa [hΦM, one_mulVec] at this
  have hCn : ∀ x : Fin r.ndof → ℝ, 0 ≤ x ⬝ᵥ ((C + Ω • G) *ᵥ x) := by
    intro x
    have h1 := f3 C hC x
    have h2 := skew_form (C18_gyro_skew hi hG) x
    rw [← form_eq] at h2
    rw [add_mulVec, smul_mulVec, dotProduct_add, dotProduct_smul, h2]
    simpa using h1
  have hM0 : r.M = .ok M := hM
  set func : ℕ → ℝ → State (min (k + 1) r.ndof) → Res (Sys (min (k + 1) r.ndof)) := fun j dt q => do
    let f ← r.forces (.modal Φ) F { num_modes := some (k + 1) } j dt q
    pure ⟨Φᵀ * M * Φ, Φᵀ * C * Φ + Ω • (Φᵀ * G * Φ), Φᵀ * K * Φ, f⟩ with hfunc
  have s1 : r.system (.modal Φ) (.scalar Ω) F t { num_modes := some (k + 1) } = .ok func := by
    unfold Rotor.system
    simp only [hM0, hG, hS, hC, hK, SpeedArg.isArray, SpeedArg.ref, 
      Option.getD_none, Bool.false_eq_true, if_false]
    rfl
  obtain ⟨y, hy⟩ := C27_converges (o := {}) (func := func) (by norm_num) hne ht
    (fun step dt q hs => by
      have : step < F.length := lt_of_lt_of_le hs hF
      refine ⟨⟨Φᵀ * M * Φ, Φᵀ * C * Φ + Ω • (Φᵀ * G * Φ), Φᵀ * K * Φ, Φᵀ *ᵥ F[step]⟩,
        bind_ok.2 ⟨Φᵀ *ᵥ F[step], ?_, rfl⟩⟩
      unfold Rotor.forces
      rw [List.getElem?_eq_getElem this]
      rfl) (by
      intro step dt q s hdt hs
      obtain ⟨f, hff, hs⟩ := bind_ok.1 hs
      cases hs
      refine C27_solvable (by norm_num) (by norm_num) hdt (fun x hx => ?_) (fun x => ?_) fun x => ?_
      · rw [← form_eq, form_proj]; exact (f1 M hM).2 _ (hinj x hx)
      · rw [← form_eq]
        have : Φᵀ * C * Φ + Ω • (Φᵀ * G * Φ) = Φᵀ * (C + Ω • G) * Φ := by
          rw [Matrix.mul_add, Matrix.add_mul, Matrix.mul_smul, Matrix.smul_mul]
        rw [this, form_proj]
        exact hCn _
      · rw [← form_eq, form_proj]; exact (f2 K hK).2 _)
  refine ⟨y.map (Φ *ᵥ ·), ?_⟩
  unfold integrate_system integrateWith
  refine bind_ok.2 ⟨Φ, hΦ, bind_ok.2 ⟨y.map (Φ *ᵥ ·), ?_, rfl⟩⟩
  rw [s1]
  exact bind_ok.2 ⟨func, rfl, bind_ok.2 ⟨y, hy, rfl⟩⟩

/-- **C51** with modes too, every run-up of a passive rotor with four dofs per node, bearings to ground
and constant coefficients is integrated to the end. -/
theorem C51_runup_runs (hi : init pd fuel a = some (.ok r)) (hf : ∀ e ∈ r.elements, Fits r.number_dof e)
    {Ω : List ℝ} (hΩ : 1 < Ω.dedup.length) (hp0 : Passive r 0) (hp : Passive r (Ω.sum / Ω.length))
    (h4 : r.number_dof = 4) (hv : r.varying = [])
    (hl : ∀ x ∈ r.placed, ∀ b, x.1 = .brg b → b.n_link = none)
    {M M' C G K : Matrix (Fin r.ndof) (Fin r.ndof) ℝ} (hM : r.M (some 0) = .ok M)
    (hM' : r.M (some (Ω.sum / Ω.length)) = .ok M')
    (hC : r.C (Ω.sum / Ω.length) = .ok C) (hG : r.G = .ok G) (hK : r.K (Ω.sum / Ω.length) = .ok K)
    {ei : Eigh} (hE : EighOk ei) (k : ℕ) {F : List (Fin r.ndof → ℝ)} {t : List ℝ}
    (hlen : Ω.length = t.length) (ht : t.Pairwise (· ≤ ·)) (hF : t.length ≤ F.length) :
    ∃ y, r.integrate_system ei (.array Ω) F t { num_modes := some (k + 1) } = .ok (t, y) := by
  obtain ⟨f1, -, -⟩ := C47_forms hi hf hp0
  obtain ⟨f1', f2, f3⟩ := C47_forms hi hf hp
  have hsh : ∀ e ∈ r.shaft, e.s.Built ∧ e.s.torque = 0 := fun e he =>
    ⟨(hp.shaft e he).1, (hp.shaft e he).2.2.2.1⟩
  have hS : r.Ksdt = .ok 0 := by unfold Rotor.Ksdt; rw [if_neg (by omega)]
  obtain ⟨B, hB⟩ := uncoupled_exists hK fun x hx b hb => ⟨hl x hx b hb, .inr ⟨by omega, by
    have hm : Elm.brg b ∈ r.elements := List.mem_map.2 ⟨x, hx, hb⟩
    have := brg_six hi hm
    cases b with
    | brg s c => exact ⟨s, c, rfl⟩
    | brg6 c => simp only at this; omega⟩⟩
  obtain ⟨w, V, e1, e2, e3, e4⟩ := hE B M' (uncoupled_symm hi hsh hB) (f1' M' hM').1 (f1' M' hM').2
  obtain ⟨Φ, hΦ⟩ : ∃ Φ, r.pseudoModal ei (Ω.sum / Ω.length) (k + 1) = .ok Φ := by
    unfold Rotor.pseudoModal
    exact ⟨Matrix.of fun i j => V i ⟨j.val, by omega⟩, bind_ok.2 ⟨M', hM', bind_ok.2 ⟨B, hB, by simp only [e1]⟩⟩⟩
  obtain ⟨-, -, -, hΦM, -⟩ := C51_modes hi hsh hE hM' (f1' M' hM').1 (f1' M' hM').2 hΦ
  have hinj : ∀ v, v ≠ 0 → Φ *ᵥ v ≠ 0 := by
    intro v hv h0
    apply hv
    have : (Φᵀ * M' * Φ) *ᵥ v = 0 := by rw [← mulVec_mulVec, h0, mulVec_zero]
    rwa [hΦM, one_mulVec] at this
  obtain ⟨y, hy⟩ := runup_runs (.modal Φ) hv hΩ hM hC hG hK hS (some (k + 1)) hlen ht hF (by
    intro dt s α f hdt
    refine C27_solvable (by norm_num) (by norm_num) hdt (fun x hx => ?_) (fun x => ?_) fun x => ?_
    · rw [← form_eq]
      simp only [Reduction.modal]
      rw [form_proj]; exact (f1 M hM).2 _ (hinj x hx)
    · have h1 := f3 C hC (Φ *ᵥ x)
      have h2 := skew_form (C18_gyro_skew hi hG) (Φ *ᵥ x)
      rw [← form_eq] at h2
      rw [← form_eq]
      simp only [Reduction.modal]
      rw [add_mulVec, smul_mulVec, dotProduct_add, dotProduct_smul, form_proj, form_proj, h2]
      simpa using h1
    · rw [← form_eq]
      simp only [Reduction.modal, Matrix.mul_zero, Matrix.zero_mul, smul_zero, add_zero]
      rw [form_proj]
      exact (f2 K hK).2 _)
  exact ⟨y, bind_ok.2 ⟨Φ, hΦ, bind_ok.2 ⟨y, hy, rfl⟩⟩⟩

/-- The two-bearing rotor runs up with two modes. -/
example (α c : ℝ) (hα : 0 ≤ α) (hc : 0 ≤ c) (ei : Eigh) (hE : EighOk ei) :
    ∃ r, init exPandas 10 (twoArgs α c) = some (.ok r) ∧
      ∀ F : List (Fin r.ndof → ℝ), 3 ≤ F.length →
        ∃ y, r.integrate_system ei (.array [0, 10, 30]) F [0, 0.1, 0.2] { num_modes := some 2 } =
          .ok ([0, 0.1, 0.2], y) := by
  obtain ⟨r, h, h4, -, hf, hp, -, -, -, hb, hA⟩ := two_facts α c hα hc
  refine ⟨r, h, fun F hF => ?_⟩
  obtain ⟨A, hA0⟩ := hA 0 0
  obtain ⟨M, -, -, G, hM, -, -, hG, -⟩ := A_ok.1 hA0
  obtain ⟨A', hA1⟩ := hA 0 (([0, 10, 30] : List ℝ).sum / ([0, 10, 30] : List ℝ).length)
  obtain ⟨M', K, C, -, hM', hK, hC, -, -⟩ := A_ok.1 hA1
  have hbrg : ∀ x ∈ r.placed, ∀ b, x.1 = .brg b → b.n_link = none ∧ b.base.frequency = none := by
    intro x hx b e
    have hx' : x.1 ∈ r.elements := List.mem_map.2 ⟨x, hx, rfl⟩
    rcases (mem_elements (init_ok h) x.1).1 hx' with ⟨_, _, e'⟩ | ⟨_, _, e'⟩ | ⟨b', hm, e'⟩ | ⟨_, _, e'⟩
    · simp [e] at e'
    · simp [e] at e'
    · rw [e] at e'
      cases e'
      obtain ⟨n, tg, rfl⟩ := hb b hm
      exact ⟨rfl, rfl⟩
    · simp [e] at e'
  refine C51_runup_runs h hf ?_ (hp 0) (hp _) h4 ?_ (fun x hx b e => (hbrg x hx b e).1) hM hM' hC hG hK hE 1
    (by simp) (by norm_num) (by simpa using hF)
  · norm_num [List.dedup_cons_of_notMem]
  · unfold Rotor.varying
    refine List.filter_eq_nil_iff.2 fun x hx => ?_
    cases e : x.1 with
    | brg b => simp [(hbrg x hx b e).2]
    | _ => simp

/-- The two-bearing rotor is integrated with two modes. -/
example (α c Ω : ℝ) (hα : 0 ≤ α) (hc : 0 ≤ c) (ei : Eigh) (hE : EighOk ei) :
    ∃ r, init exPandas 10 (twoArgs α c) = some (.ok r) ∧
      ∀ F : List (Fin r.ndof → ℝ), 3 ≤ F.length →
        ∃ y, r.integrate_system ei (.scalar Ω) F [0, 0.1, 0.2] { num_modes := some 2 } =
          .ok ([0, 0.1, 0.2], y) := by
  obtain ⟨r, h, h4, -, hf, hp, -, -, -, hb, hA⟩ := two_facts α c hα hc
  refine ⟨r, h, fun F hF => ?_⟩
  obtain ⟨A, hA0⟩ := hA 0 0
  obtain ⟨M, -, -, G, hM, -, -, hG, -⟩ := A_ok.1 hA0
  obtain ⟨A', hA1⟩ := hA Ω Ω
  obtain ⟨M', K, C, -, hM', hK, hC, -, -⟩ := A_ok.1 hA1
  have hS : r.Ksdt = .ok 0 := by unfold Rotor.Ksdt; rw [if_neg (by omega)]
  refine C51_passive h hf (hp 0) (hp Ω) ?_ hM hM' hC hG hK hS hE 1 (by simp) (by norm_num)
    (by simpa using hF)
  intro x hx b hbx
  have hx := placed_mem (init_ok h) hx
  rw [hbx] at hx
  rcases (mem_elements (init_ok h) _).1 hx with ⟨s, -, hs⟩ | ⟨s, -, hs⟩ | ⟨b', hs, hs'⟩ | ⟨s, -, hs⟩
  all_goals first | cases hs' | cases hs
  obtain ⟨n, t, rfl⟩ := hb _ hs
  exact ⟨rfl, Or.inr ⟨by omega, _, _, rfl⟩⟩

theorem orth_diag {N : ℕ} {A : Matrix (Fin N) (Fin N) ℝ} (hA : Aᵀ = A) :
    ∃ (U : Matrix (Fin N) (Fin N) ℝ) (w : Fin N → ℝ), Uᵀ * U = 1 ∧ Uᵀ * A * U = diagonal w := by
  have h : A.IsHermitian := by
    rw [Matrix.IsHermitian, Matrix.conjTranspose_eq_transpose_of_trivial]; exact hA
  refine ⟨h.eigenvectorUnitary, h.eigenvalues, ?_, ?_⟩
  · have := Unitary.coe_star_mul_self h.eigenvectorUnitary
    rwa [Matrix.star_eq_conjTranspose, Matrix.conjTranspose_eq_transpose_of_trivial] at this
  · have := h.conjStarAlgAut_star_eigenvectorUnitary
    rw [Unitary.conjStarAlgAut_star_apply, Matrix.star_eq_conjTranspose,
      Matrix.conjTranspose_eq_transpose_of_trivial] at this
    rw [this]
    rfl

/-- The assumption on the eigenvalue solver can be met. -/
theorem eigh_exists : ∃ ei, EighOk ei := by
  classical
  have key : ∀ {N : ℕ} (A B : Matrix (Fin N) (Fin N) ℝ), Aᵀ = A → Bᵀ = B →
      (∀ v ≠ 0, 0 < v ⬝ᵥ (B *ᵥ v)) → ∃ wV : (Fin N → ℝ) × Matrix (Fin N) (Fin N) ℝ,
        wV.2ᵀ * B * wV.2 = 1 ∧ A * wV.2 = B * wV.2 * diagonal wV.1 ∧ Monotone wV.1 := by
    intro N A B hA hB hp
    obtain ⟨U, d, hU, hd⟩ := orth_diag hB
    have hdp : ∀ i, 0 < d i := by
      intro i
      have h0 : U *ᵥ Pi.single i 1 ≠ 0 := by
        intro h0
        have : (Uᵀ * U) *ᵥ (Pi.single i 1 : Fin N → ℝ) = 0 := by
          rw [← mulVec_mulVec, h0, mulVec_zero]
        rw [hU, one_mulVec] at this
        simpa using congrFun this i
      have := hp _ h0
      rw [← form_proj, hd] at this
      simpa [diagonal_mulVec_single] using this
    set W := U * diagonal (fun i => (Real.sqrt (d i))⁻¹) with hW
    have hWB : Wᵀ * B * W = 1 := by
      have : Wᵀ * B * W = diagonal (fun i => (Real.sqrt (d i))⁻¹) * (Uᵀ * B * U) *
          diagonal (fun i => (Real.sqrt (d i))⁻¹) := by
        rw [hW, transpose_mul, diagonal_transpose]; simp only [Matrix.mul_assoc]
      rw [this, hd, diagonal_mul_diagonal, diagonal_mul_diagonal, ← diagonal_one]
      congr 1
      funext i
      have := Real.mul_self_sqrt (hdp i).le
      have hne : Real.sqrt (d i) ≠ 0 := (Real.sqrt_pos.2 (hdp i)).ne'
      field_simp
      nlinarith
    clear_value W
    obtain ⟨Q, w, hQ, hw⟩ := orth_diag (A := Wᵀ * A * W) (by
      rw [transpose_mul, transpose_mul, transpose_transpose, hA, Matrix.mul_assoc])
    set σ := Tuple.sort w
    set P : Matrix (Fin N) (Fin N) ℝ := (W * Q).submatrix id σ with hP
    have e1 : Pᵀ * B * P = 1 := by
      have : (W * Q)ᵀ * B * (W * Q) = 1 := by
        rw [transpose_mul]
        calc Qᵀ * Wᵀ * B * (W * Q) = Qᵀ * (Wᵀ * B * W) * Q := by simp only [Matrix.mul_assoc]
          _ = 1 := by rw [hWB, Matrix.mul_one, hQ]
      ext i j
      have h1 := congrFun (congrFun this (σ i)) (σ j)
      simp only [Matrix.mul_apply, Matrix.transpose_apply, hP, Matrix.submatrix_apply, id] at h1 ⊢
      rw [h1]
      simp [Matrix.one_apply]
    have e2 : Pᵀ * A * P = diagonal (w ∘ σ) := by
      have : (W * Q)ᵀ * A * (W * Q) = diagonal w := by
        rw [transpose_mul]
        calc Qᵀ * Wᵀ * A * (W * Q) = Qᵀ * (Wᵀ * A * W) * Q := by simp only [Matrix.mul_assoc]
          _ = _ := hw
      ext i j
      have h1 := congrFun (congrFun this (σ i)) (σ j)
      simp only [Matrix.mul_apply, Matrix.transpose_apply, hP, Matrix.submatrix_apply, id] at h1 ⊢
      rw [h1]
      simp [Matrix.diagonal_apply]
    refine ⟨(w ∘ σ, P), e1, ?_, Tuple.monotone_sort w⟩
    have e3 : P * (Pᵀ * B) = 1 := mul_eq_one_comm.1 e1
    have e4 : B * P * Pᵀ = 1 := by
      have := congrArg Matrix.transpose e3
      rwa [transpose_mul, transpose_mul, transpose_transpose, transpose_one, hB] at this
    calc A * P = B * P * Pᵀ * (A * P) := by rw [e4, Matrix.one_mul]
      _ = B * P * (Pᵀ * A * P) := by simp only [Matrix.mul_assoc]
      _ = _ := by rw [e2]
  refine ⟨⟨fun {N} A B => if h : ∃ wV : (Fin N → ℝ) × Matrix (Fin N) (Fin N) ℝ,
    wV.2ᵀ * B * wV.2 = 1 ∧ A * wV.2 = B * wV.2 * diagonal wV.1 ∧ Monotone wV.1 then some h.choose
    else none⟩, fun {N} A B h1 h2 h3 => ?_⟩
  have h := key A B h1 h2 h3
  exact ⟨h.choose.1, h.choose.2, by simp only [dif_pos h], h.choose_spec⟩

end Ross.Props
