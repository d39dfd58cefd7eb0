import Verif.Props.Undamped

/-! # C26: forced and unbalance responses -/

namespace Ross.Props

open Ross Ross.Spec Ross.AssemblyLemmas Ross.BearingLemmas Ross.DynamicsLemmas Ross.StateLemmas Ross.RotorLemmas Matrix Rotor

variable {r : Rotor} {la : Lapack} {pd : Pandas} {fuel : ℕ} {a : RotorArgs} {modes : Option (List ℤ)}

theorem slot_xy {nd N k : ℕ} (hnd : nd = 4 ∨ nd = 6) (hk : k ≤ N) :
    slot nd N ("x", k) = nd * k ∧ slot nd N ("y", k) = nd * k + 1 := by
  rcases hnd with rfl | rfl <;> simp only [slot, hk, if_true] <;> exact ⟨rfl, rfl⟩

theorem slot_support {nd N k : ℕ} (hnd : nd = 4 ∨ nd = 6) (hk : N < k) :
    slot nd N ("x", k) = nd * (N + 1) + nd / 2 * (k - N - 1) ∧
      slot nd N ("y", k) = nd * (N + 1) + nd / 2 * (k - N - 1) + 1 := by
  have : ¬ k ≤ N := by omega
  rcases hnd with rfl | rfl <;> simp only [slot, this, if_false] <;> exact ⟨rfl, rfl⟩

/-- What `_unbalance_force` returns, by rows. -/
theorem unbalance_rows {node : ℕ} {m p : ℝ} {omega : List ℝ}
    (hn : r.number_dof * node + r.number_dof ≤ r.ndof) (h2 : 2 ≤ r.number_dof) :
    r.unbalance_force node m p omega = .ok (omega.map fun (w : ℝ) (i : Fin r.ndof) =>
      if i.val = r.number_dof * node then (m * w ^ 2 * Complex.exp (Complex.I * p) : ℂ)
      else if i.val = r.number_dof * node + 1 then -Complex.I * (m * w ^ 2 * Complex.exp (Complex.I * p)) else 0) := by
  unfold unbalance_force
  rw [mapM_ok_iff, List.map_map]
  refine List.map_congr_left fun w _ => ?_
  simp only [Function.comp_apply]
  rw [if_neg (by omega)]
  congr 1
  funext i
  by_cases h1 : i.val = r.number_dof * node
  · rw [if_pos (by omega), if_pos (by omega), if_pos h1]; ring
  by_cases h3 : i.val = r.number_dof * node + 1
  · rw [if_pos (by omega), if_neg (by omega), if_pos (by omega), if_neg h1, if_pos h3]; ring
  · rw [if_neg h1, if_neg h3]
    by_cases h4 : r.number_dof * node ≤ i.val ∧ i.val < r.number_dof * node + r.number_dof
    · rw [if_pos h4, if_neg (by omega), if_neg (by omega), mul_zero]
    · rw [if_neg h4]

/-- **C26** The unbalance `m` with phase `p` on a shaft node makes at each frequency `ω` the rotating force
`m ω² e^{jp}` in `x` and `-j` times it in `y` of that node, and no other. -/
theorem C26_force (h : init pd fuel a = some (.ok r)) {node : ℕ} (hn : node ≤ shaftEnd r) (m p : ℝ) (omega : List ℝ) :
    ∃ F, r.unbalance_force node m p omega = .ok F ∧ F.length = omega.length ∧
      ∀ k (hk : k < omega.length), ∃ f, F[k]? = some f ∧ ∀ i : Fin r.ndof,
        (i.val = slot r.number_dof (shaftEnd r) ("x", node) →
          f i = m * omega[k] ^ 2 * Complex.exp (Complex.I * p)) ∧
        (i.val = slot r.number_dof (shaftEnd r) ("y", node) →
          f i = -Complex.I * (m * omega[k] ^ 2 * Complex.exp (Complex.I * p))) ∧
        (i.val ≠ slot r.number_dof (shaftEnd r) ("x", node) →
          i.val ≠ slot r.number_dof (shaftEnd r) ("y", node) → f i = 0) := by
  have hnd := nd_cases (init_ok h)
  obtain ⟨sx, sy⟩ := slot_xy hnd hn
  have hle : r.number_dof * node + r.number_dof ≤ r.ndof := by
    rw [ndof_eq (init_ok h), size, ← shaftEnd_last h]
    rcases hnd with e | e <;> rw [e] <;> omega
  refine ⟨_, unbalance_rows hle (by omega), by simp, fun k hk => ?_⟩
  rw [List.getElem?_map, List.getElem?_eq_getElem hk]
  refine ⟨_, rfl, fun i => ?_⟩
  rw [sx, sy]
  beta_reduce
  refine ⟨fun h => by rw [if_pos h], fun h => by rw [if_neg (by omega), if_pos h], fun h1 h2 => by
    rw [if_neg h1, if_neg h2]⟩

/-- **C26** An unbalance on the second support node is not applied there: unless there are four support nodes it is
refused, otherwise the force goes to the third. -/
theorem C26_support_false (h : init pd fuel a = some (.ok r)) (m p w : ℝ) :
    (r.pms.length < 4 → r.unbalance_force (shaftEnd r + 2) m p [w] = .error .valueError) ∧
    (4 ≤ r.pms.length → ∃ f, r.unbalance_force (shaftEnd r + 2) m p [w] = .ok [f] ∧ ∀ i : Fin r.ndof,
      (i.val = slot r.number_dof (shaftEnd r) ("x", shaftEnd r + 2) → f i = 0) ∧
      (i.val = slot r.number_dof (shaftEnd r) ("x", shaftEnd r + 3) →
        f i = m * w ^ 2 * Complex.exp (Complex.I * p))) := by
  have hnd := nd_cases (init_ok h)
  have hsz := ndof_eq (init_ok h)
  rw [size, ← shaftEnd_last h] at hsz
  obtain ⟨sx2, sy2⟩ := slot_support (N := shaftEnd r) (k := shaftEnd r + 2) hnd (by omega)
  obtain ⟨sx3, sy3⟩ := slot_support (N := shaftEnd r) (k := shaftEnd r + 3) hnd (by omega)
  constructor
  · intro hl
    unfold unbalance_force
    have : r.ndof < r.number_dof * (shaftEnd r + 2) + r.number_dof := by
      rw [hsz]
      rcases hnd with e | e <;> rw [e] <;> omega
    simp only [List.mapM_cons, if_pos this]
    rfl
  · intro hl
    have hle : r.number_dof * (shaftEnd r + 2) + r.number_dof ≤ r.ndof := by
      rw [hsz]
      rcases hnd with e | e <;> rw [e] <;> omega
    refine ⟨_, unbalance_rows hle (by omega), fun i => ?_⟩
    rw [sx2, sx3]
    beta_reduce
    constructor
    · intro hi
      rw [if_neg ?_, if_neg ?_]
      · rcases hnd with e | e <;> rw [e] at hi ⊢ <;> omega
      · rcases hnd with e | e <;> rw [e] at hi ⊢ <;> omega
    · intro hi
      rw [if_pos ?_]
      rcases hnd with e | e <;> rw [e] at hi ⊢ <;> omega

/-- **C26** The forced response at each frequency is `H F`, its velocity and acceleration `j ω H F` and `(j ω)² H F`. -/
theorem C26_forced {force : List (Fin r.ndof → ℂ)} {speeds : List ℝ} {res : List (ForcedResp r.ndof)}
    (h : r.run_forced_response la force speeds modes = .ok res) : res.length = speeds.length ∧
    ∀ k (hk : k < speeds.length), ∃ R f H, res[k]? = some R ∧ force[k]? = some f ∧
      r.transfer_matrix la speeds[k] none modes = .ok H ∧ R.forced_resp = H *ᵥ f ∧
      R.velc_resp = (Complex.I * speeds[k]) • R.forced_resp ∧
      R.accl_resp = (Complex.I * speeds[k]) ^ 2 • R.forced_resp := by
  unfold run_forced_response at h
  obtain ⟨fr, hfr, h⟩ := bind_ok.1 h
  obtain ⟨hl1, hg1⟩ := C24_freq_response hfr
  obtain ⟨hl2, hg2⟩ := mapM_get h
  rw [List.length_zipIdx] at hl2
  refine ⟨by omega, fun k hk => ?_⟩
  obtain ⟨R, hR, hH, hv, ha⟩ := hg1 k hk
  obtain ⟨Q, hQ, hf⟩ := hg2 k (by rw [List.length_zipIdx]; omega)
  rw [List.getElem?_eq_getElem (by omega)] at hR
  have hR' := Option.some.inj hR
  simp only [List.getElem_zipIdx, Nat.zero_add, hR'] at hf
  cases hfk : force[k]? with
  | none => rw [hfk] at hf; cases hf
  | some f =>
    rw [hfk] at hf
    have hf' := (Except.ok.inj hf).symm
    refine ⟨Q, f, R.freq_resp, hQ, rfl, hH, by rw [hf'], ?_, ?_⟩
    · rw [hf']; simp only [hv, smul_mulVec]
    · rw [hf']; simp only [ha, smul_mulVec]

/-- The forced response exists when there is a force for every frequency and the transfer matrices exist. -/
theorem forced_exists {force : List (Fin r.ndof → ℂ)} {speeds : List ℝ} (hl : speeds.length ≤ force.length)
    (h : ∀ w ∈ speeds, ∃ H, r.transfer_matrix la w none modes = .ok H) :
    ∃ res, r.run_forced_response la force speeds modes = .ok res := by
  have h1 : ∃ fr, r.run_freq_response la speeds modes = .ok fr := by
    unfold run_freq_response
    refine mapM_ok_of fun w hw => ?_
    obtain ⟨H, hH⟩ := h w hw
    exact ⟨_, bind_ok.2 ⟨H, hH, rfl⟩⟩
  obtain ⟨fr, hfr⟩ := h1
  have hlen := (C24_freq_response hfr).1
  unfold run_forced_response
  obtain ⟨res, hres⟩ : ∃ res : List (ForcedResp r.ndof), fr.zipIdx.mapM (fun x =>
    match force[x.2]? with
    | none => (.error .indexError : Res (ForcedResp r.ndof))
    | some f => .ok ⟨x.1.freq_resp *ᵥ f, x.1.velc_resp *ᵥ f, x.1.accl_resp *ᵥ f⟩) = .ok res := by
    refine mapM_ok_of fun x hx => ?_
    have hx2 : x.2 < force.length := by
      have := List.snd_lt_of_mem_zipIdx hx
      simp at this
      omega
    rw [List.getElem?_eq_getElem hx2]
    exact ⟨_, rfl⟩
  exact ⟨res, bind_ok.2 ⟨fr, hfr, hres⟩⟩

/-- **C26** With all modes, the forced response solves the equation of motion
`(K - ω² M + j ω (C + ω G)) q = F` at every frequency that is not a natural frequency. -/
theorem C26_motion (hla : LapackOk la) {force : List (Fin r.ndof → ℂ)} {speeds : List ℝ}
    {res : List (ForcedResp r.ndof)} (h : r.run_forced_response la force speeds = .ok res)
    {k : ℕ} (hk : k < speeds.length) {M K C G : Matrix (Fin r.ndof) (Fin r.ndof) ℝ}
    (hM : r.M (some speeds[k]) = .ok M) (hK : r.K speeds[k] = .ok K) (hC : r.C speeds[k] = .ok C) (hG : r.G = .ok G)
    (hd : (dynStiff M (C + speeds[k] • G) K (Complex.I * speeds[k])).det ≠ 0) :
    ∃ R f, res[k]? = some R ∧ force[k]? = some f ∧
      dynStiff M (C + speeds[k] • G) K (Complex.I * speeds[k]) *ᵥ R.forced_resp = f := by
  obtain ⟨-, hg⟩ := C26_forced h
  obtain ⟨R, f, H, hR, hf, hH, e, -⟩ := hg k hk
  refine ⟨R, f, hR, hf, ?_⟩
  rw [e, mulVec_mulVec, C24_transfer hla hH hM hK hC hG hd, one_mulVec]

theorem unbalance_length {node : ℕ} {m p : ℝ} {omega : List ℝ} {F : List (Fin r.ndof → ℂ)}
    (h : r.unbalance_force node m p omega = .ok F) : F.length = omega.length := by
  unfold unbalance_force at h
  exact (mapM_get h).1

/-- The sum of the forces, entry by entry. -/
theorem sumForces_ok {omega : List ℝ} {unb : List (ℕ × ℝ × ℝ)} {F : List (Fin r.ndof → ℂ)}
    (h : r.sumForces omega unb = .ok F) : F.length = omega.length ∧
    ∃ Fs : List (List (Fin r.ndof → ℂ)), unb.mapM (fun u => r.unbalance_force u.1 u.2.1 u.2.2 omega) = .ok Fs ∧
      ∀ k < omega.length, F.getD k 0 = (Fs.map fun G => G.getD k 0).sum := by
  unfold sumForces at h
  have key : ∀ (unb : List (ℕ × ℝ × ℝ)) (F0 F : List (Fin r.ndof → ℂ)), F0.length = omega.length →
      unb.foldlM (fun force u => do
        let F ← r.unbalance_force u.1 u.2.1 u.2.2 omega
        pure (List.zipWith (· + ·) force F)) F0 = .ok F → F.length = omega.length ∧
      ∃ Fs : List (List (Fin r.ndof → ℂ)), unb.mapM (fun u => r.unbalance_force u.1 u.2.1 u.2.2 omega) = .ok Fs ∧
        ∀ k < omega.length, F.getD k 0 = F0.getD k 0 + (Fs.map fun G => G.getD k 0).sum := by
    intro unb
    induction unb with
    | nil =>
      intro F0 F hl h
      cases h
      exact ⟨hl, [], rfl, fun k _ => by simp⟩
    | cons u unb ih =>
      intro F0 F hl h
      rw [List.foldlM_cons] at h
      obtain ⟨F1, h1, h⟩ := bind_ok.1 h
      obtain ⟨G, hG, h1⟩ := bind_ok.1 h1
      cases h1
      have hGl := unbalance_length hG
      obtain ⟨hF, Fs, hFs, hk⟩ := ih _ F (by rw [List.length_zipWith]; omega) h
      refine ⟨hF, G :: Fs, ?_, fun k hkk => ?_⟩
      · rw [List.mapM_cons, hG, hFs]; rfl
      · rw [hk k hkk, List.map_cons, List.sum_cons, ← add_assoc]
        congr 1
        simp only [List.getD_eq_getElem?_getD]
        rw [List.getElem?_eq_getElem (by rw [List.length_zipWith]; omega), List.getElem?_eq_getElem (by omega),
          List.getElem?_eq_getElem (by omega)]
        simp
  obtain ⟨h1, Fs, h2, h3⟩ := key unb _ F (by simp) h
  refine ⟨h1, Fs, h2, fun k hk => ?_⟩
  rw [h3 k hk]
  simp [List.getD_eq_getElem?_getD, List.getElem?_map, hk]

/-- **C26** Superposition: the response to several unbalances is at every frequency the sum of the responses to the
single ones. -/
theorem C26_superposition {node : List ℕ} {mag phase : List ℝ} {freq : List ℝ} {res : List (ForcedResp r.ndof)}
    (h : r.run_unbalance_response la node mag phase freq modes = .ok res) :
    node.length = mag.length ∧ node.length = phase.length ∧ res.length = freq.length ∧
    ∃ ress : List (List (ForcedResp r.ndof)),
      (node.zip (mag.zip phase)).mapM (fun u => r.run_unbalance_response₁ la u.1 u.2.1 u.2.2 freq modes) = .ok ress ∧
      ∀ k < freq.length, ∃ R, ∃ Rs : List (ForcedResp r.ndof), res[k]? = some R ∧ ress.map (·[k]?) = Rs.map some ∧
        R.forced_resp = (Rs.map (·.forced_resp)).sum ∧ R.velc_resp = (Rs.map (·.velc_resp)).sum ∧
        R.accl_resp = (Rs.map (·.accl_resp)).sum := by
  unfold run_unbalance_response at h
  obtain ⟨F, hF, h⟩ := bind_ok.1 h
  by_cases hc : node.length ≠ mag.length ∨ node.length ≠ phase.length
  · rw [if_pos hc] at h; cases h
  rw [if_neg hc] at h
  push Not at hc
  obtain ⟨hFl, Fs, hFs, hsum⟩ := sumForces_ok hF
  obtain ⟨hl, hg⟩ := C26_forced h
  have htr : ∀ w ∈ freq, ∃ H, r.transfer_matrix la w none modes = .ok H := by
    intro w hw
    obtain ⟨k, hk, rfl⟩ := List.getElem_of_mem hw
    obtain ⟨R, f, H, -, -, hH, -⟩ := hg k hk
    exact ⟨H, hH⟩
  -- single responses
  have hsingle : ∀ u ∈ node.zip (mag.zip phase), ∃ G R, r.unbalance_force u.1 u.2.1 u.2.2 freq = .ok G ∧
      r.run_forced_response la G freq modes = .ok R := by
    intro u hu
    obtain ⟨k, hk, rfl⟩ := List.getElem_of_mem hu
    obtain ⟨G, -, hG⟩ := (mapM_get hFs).2 k hk
    obtain ⟨R, hR⟩ := forced_exists (force := G) (by rw [unbalance_length hG]) htr
    exact ⟨G, R, hG, hR⟩
  obtain ⟨ress, hress⟩ : ∃ ress : List (List (ForcedResp r.ndof)), (node.zip (mag.zip phase)).mapM
      (fun u => r.run_unbalance_response₁ la u.1 u.2.1 u.2.2 freq modes) = .ok ress := by
    refine mapM_ok_of fun u hu => ?_
    obtain ⟨G, R, hG, hR⟩ := hsingle u hu
    exact ⟨R, bind_ok.2 ⟨G, hG, hR⟩⟩
  refine ⟨hc.1, hc.2, hl, ress, hress, fun k hk => ?_⟩
  obtain ⟨R, f, H, hR, hf, hH, e1, e2, e3⟩ := hg k hk
  obtain ⟨hrl, hrg⟩ := mapM_get hress
  obtain ⟨hFsl, hFsg⟩ := mapM_get hFs
  -- pair up forces and responses
  have hpair : ∀ j (hj : j < ress.length), ∃ Q, ress[j][k]? = some Q ∧
      ∃ hj' : j < Fs.length, Q.forced_resp = H *ᵥ (Fs[j].getD k 0) ∧ Q.velc_resp = (Complex.I * freq[k]) • Q.forced_resp ∧
        Q.accl_resp = (Complex.I * freq[k]) ^ 2 • Q.forced_resp := by
    intro j hj
    have hju : j < (node.zip (mag.zip phase)).length := by omega
    obtain ⟨R', hR', hrun⟩ := hrg j hju
    obtain ⟨G', hG', hfor⟩ := hFsg j hju
    rw [List.getElem?_eq_getElem hj] at hR'
    rw [List.getElem?_eq_getElem (by omega)] at hG'
    have hR2 := Option.some.inj hR'
    have hG2 := Option.some.inj hG'
    unfold run_unbalance_response₁ at hrun
    obtain ⟨G3, hG3, hrun⟩ := bind_ok.1 hrun
    rw [hfor] at hG3
    cases hG3
    obtain ⟨-, hg'⟩ := C26_forced hrun
    obtain ⟨Q, f', H', hQ, hf', hH', q1, q2, q3⟩ := hg' k hk
    rw [hH] at hH'
    cases hH'
    rw [hR2]
    refine ⟨Q, hQ, by omega, ?_, q2, q3⟩
    rw [hG2, q1, List.getD_eq_getElem?_getD, hf', Option.getD_some]
  choose Qf hQ1 hQ2 hQ3 hQ4 hQ5 using hpair
  refine ⟨R, List.ofFn fun j : Fin ress.length => Qf j j.2, hR, ?_, ?_⟩
  · apply List.ext_getElem
    · simp
    · intro j h1 h2
      simp only [List.length_map] at h1
      simp [hQ1 j h1]
  · have hfe : F.getD k 0 = f := by rw [List.getD_eq_getElem?_getD, hf, Option.getD_some]
    have hsf : R.forced_resp = ((List.ofFn fun j : Fin ress.length => Qf j j.2).map (·.forced_resp)).sum := by
      rw [e1, ← hfe, hsum k hk]
      have hmv : ∀ L : List (List (Fin r.ndof → ℂ)), H *ᵥ (L.map fun G => G.getD k 0).sum =
          (L.map fun G => H *ᵥ G.getD k 0).sum := by
        intro L
        induction L with
        | nil => simp
        | cons G L ih => rw [List.map_cons, List.sum_cons, mulVec_add, ih, List.map_cons, List.sum_cons]
      rw [hmv]
      congr 1
      apply List.ext_getElem
      · simp; omega
      · intro j h1 h2
        simp only [List.length_map] at h1
        simp [hQ3 j (by omega)]
    have hsm : ∀ (c : ℂ) (L : List (Fin r.ndof → ℂ)), c • L.sum = (L.map (c • ·)).sum := by
      intro c L
      induction L with
      | nil => simp
      | cons G L ih => rw [List.sum_cons, smul_add, ih, List.map_cons, List.sum_cons]
    refine ⟨hsf, ?_, ?_⟩
    · rw [e2, hsf, hsm, List.map_map]
      congr 1
      rw [List.map_ofFn, List.map_ofFn]
      congr 1
      funext j
      simp [hQ4 j j.2]
    · rw [e3, hsf, hsm, List.map_map]
      congr 1
      rw [List.map_ofFn, List.map_ofFn]
      congr 1
      funext j
      simp [hQ5 j j.2]

/-- **C26** Scaling: `c` times the unbalance makes `c` times the response. -/
theorem C26_scaling {node : ℕ} {m p c : ℝ} {freq : List ℝ} {res : List (ForcedResp r.ndof)}
    (h : r.run_unbalance_response₁ la node m p freq modes = .ok res) :
    r.run_unbalance_response₁ la node (c * m) p freq modes = .ok (res.map fun R =>
      ⟨(c : ℂ) • R.forced_resp, (c : ℂ) • R.velc_resp, (c : ℂ) • R.accl_resp⟩) := by
  unfold run_unbalance_response₁ at h ⊢
  obtain ⟨F, hF, h⟩ := bind_ok.1 h
  have hF' : r.unbalance_force node (c * m) p freq = .ok (F.map fun f => (c : ℂ) • f) := by
    unfold unbalance_force at hF ⊢
    rw [mapM_ok_iff] at hF ⊢
    rw [List.map_map]
    have : F.map (Except.ok ∘ fun f => (c : ℂ) • f) = (F.map Except.ok).map
        (fun x : Res (Fin r.ndof → ℂ) => x.map fun f => (c : ℂ) • f) := by
      rw [List.map_map]; rfl
    rw [this, ← hF, List.map_map]
    refine List.map_congr_left fun w _ => ?_
    simp only [Function.comp_apply]
    by_cases h1 : r.ndof < r.number_dof * node + r.number_dof
    · rw [if_pos h1, if_pos h1]; rfl
    · rw [if_neg h1, if_neg h1]
      show _ = Except.ok _
      congr 1
      funext i
      simp only [Pi.smul_apply, smul_eq_mul, mul_ite, mul_zero]
      split_ifs <;> push_cast <;> ring
  refine bind_ok.2 ⟨_, hF', ?_⟩
  unfold run_forced_response at h ⊢
  obtain ⟨fr, hfr, h⟩ := bind_ok.1 h
  refine bind_ok.2 ⟨fr, hfr, ?_⟩
  rw [mapM_ok_iff] at h ⊢
  have : (res.map fun R => (⟨(c : ℂ) • R.forced_resp, (c : ℂ) • R.velc_resp, (c : ℂ) • R.accl_resp⟩ : ForcedResp r.ndof)).map
      Except.ok = (res.map Except.ok).map (fun x : Res (ForcedResp r.ndof) => x.map fun R =>
        ⟨(c : ℂ) • R.forced_resp, (c : ℂ) • R.velc_resp, (c : ℂ) • R.accl_resp⟩) := by
    rw [List.map_map, List.map_map]; rfl
  rw [this, ← h, List.map_map]
  refine List.map_congr_left fun x _ => ?_
  simp only [Function.comp_apply, List.getElem?_map]
  cases F[x.2]? with
  | none => rfl
  | some f =>
    show Except.ok _ = Except.ok _
    simp only [mulVec_smul]

/-- A rotor whose unbalance responses exist. -/
example : ∃ la r, LapackOk la ∧ init exPandas 10 (twoArgs 0 0) = some (.ok r) ∧
    (∃ res, r.run_unbalance_response la [0, 1] [1, 2] [0, 3] [0, 1, 100] = .ok res) ∧
    ∃ res, r.run_unbalance_response₁ la 1 2 3 [0, 1, 100] = .ok res := by
  obtain ⟨la, hla, hfull⟩ := lapack_full_exists
  obtain ⟨r, h1, h2, h3, h4, h5, h6, h7⟩ := two_undamped
  have htr : ∀ w ∈ [(0 : ℝ), 1, 100], ∃ H, r.transfer_matrix la w = .ok H := by
    intro ω _
    obtain ⟨A, hA⟩ := h7 ω ω
    obtain ⟨H, -, -, -, -, hH, -⟩ := C49_transfer hla hfull h1 h2 (h3 ω) h4 (h6 ω) (h5 ω) hA
    exact ⟨H, hH⟩
  have hend : 1 ≤ shaftEnd r := by
    obtain ⟨r', e1, -, -, -, e3, -, -, ⟨b, hb, d, hd, hbd, hh⟩, -⟩ := two_facts 0 0 le_rfl le_rfl
    rw [h1] at e1
    cases e1
    have := ((hh 0).2).2.1
    omega
  obtain ⟨F0, f0, l0, -⟩ := C26_force h1 (node := 0) (by omega) 1 0 [0, 1, 100]
  obtain ⟨F1, f1, l1, -⟩ := C26_force h1 (node := 1) hend 2 3 [0, 1, 100]
  refine ⟨la, r, hla, h1, ?_, ?_⟩
  · unfold run_unbalance_response sumForces
    simp only [List.zip_cons_cons, List.zip_nil_left, List.foldlM_cons, List.foldlM_nil, f0, f1, bind, Except.bind,
      pure, Except.pure]
    rw [if_neg (by simp)]
    exact forced_exists (by simp [l0, l1]) htr
  · unfold run_unbalance_response₁
    simp only [f1, bind, Except.bind]
    exact forced_exists (by rw [l1]) htr

end Ross.Props
