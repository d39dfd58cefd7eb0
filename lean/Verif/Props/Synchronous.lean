import Verif.Spec.Synchronous
import Verif.Props.Stability

/-! # C46: synchronous analysis -/

namespace Ross.Props

open Ross Ross.Spec Ross.StateLemmas Ross.BearingLemmas Ross.Rotor Ross.AssemblyLemmas Ross.RotorLemmas Matrix

variable {pd : Pandas} {fuel : ℕ} {a : RotorArgs} {r : Rotor} {Ω ω : ℝ}

/-- Cosine and sine parts of a forward whirl at the 8 dofs of a shaft element. -/
def Whirl8 (p q : Fin 8 → ℝ) : Prop :=
  (p 1 = q 0 ∧ q 1 = -p 0 ∧ p 2 = -q 3 ∧ q 2 = p 3) ∧
  (p 5 = q 4 ∧ q 5 = -p 4 ∧ p 6 = -q 7 ∧ q 6 = p 7)

theorem sync_shaft (s : ShaftElement) {p q : Fin 8 → ℝ} (h : Whirl8 p q) :
    syncShaft s.M s.G *ᵥ p = s.M *ᵥ p + s.G *ᵥ q := by
  obtain ⟨⟨h1, h2, h3, h4⟩, h5, h6, h7, h8⟩ := h
  have hG : ∀ i j, BeamLemmas.plane i = BeamLemmas.plane j → s.G i j = 0 := by
    intro i j hij
    unfold ShaftElement.G
    split_ifs
    · rw [Matrix.smul_apply, G_entry, if_pos hij, smul_zero]
    · rfl
  generalize s.M = M
  generalize s.G = G at hG
  ext i
  have g0 := hG i 0; have g1 := hG i 1; have g2 := hG i 2; have g3 := hG i 3
  have g4 := hG i 4; have g5 := hG i 5; have g6 := hG i 6; have g7 := hG i 7
  fin_cases i <;>
    simp [BeamLemmas.plane] at g0 g1 g2 g3 g4 g5 g6 g7 <;>
    simp [mulVec, dotProduct, Fin.sum_univ_eight, syncShaft, LMat.ent, *] <;> ring

theorem sync_disk (d : DiskElement) {p q : Fin 4 → ℝ}
    (h : p 1 = q 0 ∧ q 1 = -p 0 ∧ p 2 = -q 3 ∧ q 2 = p 3) :
    syncDisk d.M d.G *ᵥ p = d.M *ᵥ p + d.G *ᵥ q := by
  obtain ⟨h1, h2, h3, h4⟩ := h
  ext i
  fin_cases i <;>
    simp [mulVec, dotProduct, Fin.sum_univ_four, syncDisk, LMat.ent, DiskElement.M, DiskElement.G, *] <;>
    ring

theorem bilin_sync (h : init pd fuel a = some (.ok r)) (hf : ∀ e ∈ r.elements, Fits r.number_dof e)
    {sync : Bool} {B : Matrix (Fin r.ndof) (Fin r.ndof) ℝ} (hB : r.M (some ω) sync = .ok B) :
    (∀ e ∈ r.elements, ∃ E, e.Msync ω sync = .ok E) ∧
    ∀ x y, bilin B x y = (r.elements.map fun e =>
      workOf r.number_dof (shaftEnd r) (Elm.Msync ω sync) e x y).sum := by
  unfold Rotor.M at hB
  rw [← placed_filter_true r] at hB
  obtain ⟨h1, h2⟩ := assembled h hf (fun _ => true) hB
  simp only [elements_filter_true] at h1 h2
  exact ⟨fun e he => (h1 e he).imp fun _ h => h.1, h2⟩

theorem sync_bilin (h : init pd fuel a = some (.ok r)) (hf : ∀ e ∈ r.elements, Fits r.number_dof e)
    (h4 : r.number_dof = 4) {Ms M G : Matrix (Fin r.ndof) (Fin r.ndof) ℝ}
    (hMs : r.M (some ω) true = .ok Ms) (hM : r.M (some ω) = .ok M) (hG : r.G = .ok G)
    {p q : ℕ → ℝ} (hw : ∀ k ≤ shaftEnd r, at' r p "y" k = at' r q "x" k ∧
      at' r q "y" k = -at' r p "x" k ∧ at' r p "alpha" k = -at' r q "beta" k ∧
      at' r q "alpha" k = at' r p "beta" k) (w : ℕ → ℝ) :
    bilin Ms w p = bilin M w p + bilin G w q := by
  have hb := init_ok h
  obtain ⟨s1, s2⟩ := bilin_sync h hf hMs
  obtain ⟨m1, m2⟩ := C18_mass h hf hM
  obtain ⟨g1, g2⟩ := C18_gyro h hf hG
  rw [s2, m2, g2, ← List.sum_map_add]
  congr 1
  refine List.map_congr_left fun e he => ?_
  obtain ⟨E, hE⟩ := g1 e he
  obtain ⟨E', hE'⟩ := m1 e he
  rcases (mem_elements hb e).1 he with ⟨⟨six, s⟩, hm, rfl⟩ | ⟨⟨six, d⟩, hm, rfl⟩ | ⟨b, hm, rfl⟩ | ⟨pm, hm, rfl⟩
  · have h6 := shaft_six h he
    rw [h4] at h6
    cases six
    · rw [workOf_ok (mat := Elm.Msync ω true) (E := ⟨8, syncShaft s.M s.G⟩) rfl,
        workOf_ok (mat := Elm.M _) (E := ⟨8, s.M⟩) rfl, workOf_ok (mat := Elm.G) (E := ⟨8, s.G⟩) rfl,
        sync_shaft s, dotProduct_add]
      have hle := node_le_last hb hm
      have hend := shaftEnd_last h
      unfold lastShaftNode at hend
      unfold nodeOf at hle
      simp only at hle
      have w1 := hw (s.n.getD 0) (by omega)
      have w2 := hw (s.n.getD 0 + 1) (by omega)
      unfold at' at w1 w2
      rw [h4] at w1 w2
      simp [Whirl8, loc, globalOf, h4, attach, dofsAt, nodeLetters, Elm.n]
      exact ⟨⟨w1.1, w1.2.1, w1.2.2.1, w1.2.2.2⟩, w2.1, w2.2.1, w2.2.2.1, w2.2.2.2⟩
    · simp at h6
  · have h6 := disk_six h he
    rw [h4] at h6
    cases six
    · rw [workOf_ok (mat := Elm.Msync ω true) (E := ⟨4, syncDisk d.M d.G⟩) rfl,
        workOf_ok (mat := Elm.M _) (E := ⟨4, d.M⟩) rfl, workOf_ok (mat := Elm.G) (E := ⟨4, d.G⟩) rfl,
        sync_disk d, dotProduct_add]
      have hle : d.n ≤ shaftEnd r := by
        rw [shaftEnd_last h]; exact disk_le hb hm
      have w1 := hw d.n hle
      unfold at' at w1
      rw [h4] at w1
      simp [loc, globalOf, h4, attach, dofsAt, nodeLetters, Elm.n]
      exact w1
    · simp at h6
  · have e1 : workOf r.number_dof (shaftEnd r) (Elm.Msync ω true) (.brg b) w p =
        workOf r.number_dof (shaftEnd r) (Elm.M ω) (.brg b) w p := rfl
    rw [e1]
    have e2 : workOf r.number_dof (shaftEnd r) Elm.G (.brg b) w q = 0 := by
      have h6 := brg_six h he
      cases b with
      | brg sl b =>
        rw [workOf_ok hE]
        simp only [Elm.G, BearingElement.G] at hE
        obtain ⟨k, -, hE⟩ := bind_ok.1 hE
        cases hE; simp
      | brg6 b => simp only at h6; omega
    rw [e2, add_zero]; rfl
  · have e1 : workOf r.number_dof (shaftEnd r) (Elm.Msync ω true) (.pm pm) w p =
        workOf r.number_dof (shaftEnd r) (Elm.M ω) (.pm pm) w p := rfl
    rw [e1]
    have e2 : workOf r.number_dof (shaftEnd r) Elm.G (.pm pm) w q = 0 := by
      rw [workOf_ok hE]
      cases pm with
      | pm pm =>
        cases hE
        have := (C16_matrices pm).2.2.2.2
        simp only; rw [this]; simp
      | pm6 pm =>
        cases hE
        have := (C16_matrices6 pm).2.2.2.2
        simp only; rw [this]; simp
    rw [e2, add_zero]; rfl

theorem vec_ext {N : ℕ} {u v : Fin N → ℝ} (h : ∀ w, w ⬝ᵥ u = w ⬝ᵥ v) : u = v := by
  ext i
  simpa using h (Pi.single i 1)

/-- A complex vector on the dofs of the rotor as a function of all indices. -/
def extendC {N : ℕ} (v : Fin N → ℂ) (i : ℕ) : ℂ := if h : i < N then v ⟨i, h⟩ else 0

/-- **C46** (4-dof rotors) on every forward circular whirl the synchronous mass matrix acts as `M - jG`.

Partial: for 6-dof rotors this is false, see `C46_six_false`. -/
theorem C46_synchronous_partial (h : init pd fuel a = some (.ok r))
    (hf : ∀ e ∈ r.elements, Fits r.number_dof e) (h4 : r.number_dof = 4)
    {Ms M G : Matrix (Fin r.ndof) (Fin r.ndof) ℝ} (hMs : r.M (some ω) true = .ok Ms)
    (hM : r.M (some ω) = .ok M) (hG : r.G = .ok G) {x : Fin r.ndof → ℂ}
    (hx : ForwardWhirl r (extendC x)) :
    cplx Ms *ᵥ x = (cplx M - Complex.I • cplx G) *ᵥ x := by
  have hre : ∀ i, extend (fun i => (x i).re) i = (extendC x i).re := by
    intro i; unfold extend extendC; split_ifs <;> simp
  have him : ∀ i, extend (fun i => (x i).im) i = (extendC x i).im := by
    intro i; unfold extend extendC; split_ifs <;> simp
  have hre' : ∀ i, extend (fun i => -(x i).re) i = -(extendC x i).re := by
    intro i; unfold extend extendC; split_ifs <;> simp
  have e1 : Ms *ᵥ (fun i => (x i).re) = M *ᵥ (fun i => (x i).re) + G *ᵥ (fun i => (x i).im) := by
    refine vec_ext fun w => ?_
    rw [dotProduct_add, ← bilin_extend, ← bilin_extend, ← bilin_extend]
    refine sync_bilin h hf h4 hMs hM hG (fun k hk => ?_) _
    obtain ⟨h1, h2⟩ := hx k hk
    unfold at'
    simp only [hre, him, h1, h2]
    simp
  have e2 : Ms *ᵥ (fun i => (x i).im) = M *ᵥ (fun i => (x i).im) + G *ᵥ (fun i => -(x i).re) := by
    refine vec_ext fun w => ?_
    rw [dotProduct_add, ← bilin_extend, ← bilin_extend, ← bilin_extend]
    refine sync_bilin h hf h4 hMs hM hG (fun k hk => ?_) _
    obtain ⟨h1, h2⟩ := hx k hk
    unfold at'
    simp only [hre', him, h1, h2]
    simp
  ext i
  have f1 := congrFun e1 i
  have f2 := congrFun e2 i
  simp only [mulVec, dotProduct, Pi.add_apply, ← Finset.sum_add_distrib] at f1 f2
  apply Complex.ext
  · simp only [mulVec, dotProduct, Complex.re_sum, cplx, Matrix.sub_apply, Matrix.smul_apply, map_apply]
    simpa [sub_mul] using f1
  · simp only [mulVec, dotProduct, Complex.im_sum, cplx, Matrix.sub_apply, Matrix.smul_apply, map_apply]
    simpa [sub_mul, sub_eq_add_neg] using f2

/-- **C46** (4-dof rotors) hence the synchronous system without gyroscopic matrix has the same response
to whirl at the speed of rotation as the complete one. Partial as above. -/
theorem C46_response_partial (h : init pd fuel a = some (.ok r))
    (hf : ∀ e ∈ r.elements, Fits r.number_dof e) (h4 : r.number_dof = 4)
    {Ms M G K C : Matrix (Fin r.ndof) (Fin r.ndof) ℝ} (hMs : r.M (some Ω) true = .ok Ms)
    (hM : r.M (some Ω) = .ok M) (hG : r.G = .ok G) {x : Fin r.ndof → ℂ}
    (hx : ForwardWhirl r (extendC x)) :
    dynStiff Ms C K (Complex.I * Ω) *ᵥ x = dynStiff M (C + Ω • G) K (Complex.I * Ω) *ᵥ x := by
  have hD : cplx (C + Ω • G) = cplx C + (Ω : ℂ) • cplx G := by
    ext i j; simp [cplx]
  simp only [dynStiff, hD, add_mulVec, smul_mulVec, C46_synchronous_partial h hf h4 hMs hM hG hx,
    sub_mulVec, smul_add, smul_sub, smul_smul]
  have : (Complex.I * Ω) ^ 2 * Complex.I = -(Complex.I * Ω * Ω) := by
    linear_combination (Complex.I * Ω ^ 2) * Complex.I_sq
  rw [this]
  module

/-- A 6-dof rotor: one shaft element without gyroscopic effect and a disk at node 0. -/
noncomputable def sixArgs : RotorArgs where
  shaft := [.el ⟨true, { exShaft with n := some 0, tag := some "shaft", gyroscopic := false }⟩]
  disks := [⟨true, ⟨0, 30, 1, 2, some "disk", 1, ""⟩⟩]

theorem sixArgs_wf : WellFormed true 1 sixArgs where
  pos := by norm_num
  nodes := by
    intro k
    show k ∈ [0] ↔ k < 1
    simp
  len := by
    intro e he
    simp [sixArgs, shaftList, Nest.flattenAll, Nest.flatten] at he
    subst he
    norm_num [exShaft]
  shaft_six := by
    intro e he
    simp [sixArgs, shaftList, Nest.flattenAll, Nest.flatten] at he
    subst he; rfl
  disk_six := by simp [sixArgs]
  brg_six := by simp [sixArgs]
  disk_on := by simp [sixArgs]
  brg_nodes := by simp [sixArgs]
  brg_on := by simp [sixArgs]
  brg_linked := by simp [sixArgs]
  brg_order := by simp [sixArgs]
  pm_on := by simp [sixArgs]
  tags := by
    show (["shaft", "disk"] : List String).Nodup
    decide

theorem syncShaft_zero {k : ℕ} (M : Matrix (Fin k) (Fin k) ℝ) : syncShaft M 0 = M := by
  ext i j
  have : ∀ q, LMat.ent ⟨k, 0⟩ i q = 0 := by
    intro q; unfold LMat.ent; split_ifs <;> rfl
  unfold syncShaft
  simp only [this]
  split_ifs <;> simp

theorem foldlM_congr_mem {α β : Type} {f g : β → α → Res β} : ∀ {l : List α} {b : β},
    (∀ z ∈ l, (fun A => f A z) = fun A => g A z) → l.foldlM f b = l.foldlM g b
  | [], _, _ => rfl
  | z :: l, b, h => by
    have h1 := congrFun (h z (by simp)) b
    simp only [List.foldlM_cons, h1]
    congr 1
    funext c
    exact foldlM_congr_mem fun z hz => h z (by simp [hz])

theorem syncDisk_six (d : DiskElement) : syncDisk d.M₆ d.G₆ = d.M₆ := by
  ext i j
  unfold syncDisk
  split_ifs with h1 h2
  · simp [LMat.ent, DiskElement.G₆]
  · simp [LMat.ent, DiskElement.G₆]
  · rfl

/-- **C46** fails for 6-dof rotors: the indices that the synchronous matrix modifies are those of 4-dof
elements, so the gyroscopic effect of a 6-dof disk is lost. -/
theorem C46_six_false : ∃ a r, ∃ Ms M G : Matrix (Fin r.ndof) (Fin r.ndof) ℝ,
    init exPandas 10 a = some (.ok r) ∧ r.number_dof = 6 ∧ (∀ e ∈ r.elements, Fits r.number_dof e) ∧
    r.M (some 1) true = .ok Ms ∧ r.M (some 1) = .ok M ∧ r.G = .ok G ∧
    ∃ x : Fin r.ndof → ℂ, ForwardWhirl r (extendC x) ∧
      cplx Ms *ᵥ x ≠ (cplx M - Complex.I • cplx G) *ᵥ x := by
  obtain ⟨r, h, h6, -, hfull⟩ := accepts exPandas_sorts sixArgs_wf (fuel := 10) (by simp [sixArgs])
  simp only [if_true] at h6
  have hb := init_ok h
  have hend : shaftEnd r = 1 := by rw [shaftEnd_eq h, lastShaftNode_full hfull]
  have hpm : r.pms = [] := by rw [hb.pms]; rfl
  have hbr : r.bearings = [] := by
    rw [hb.bearings]
    have := parts_br_perm sixArgs
    simpa [tagBearings, sixArgs] using this
  have hdk : r.disks = [⟨true, ⟨0, 30, 1, 2, some "disk", 1, ""⟩⟩] := by rw [hb.disks]; rfl
  have hsh : r.shaft = [⟨true, { exShaft with n := some 0, tag := some "shaft", gyroscopic := false }⟩] := by
    rw [hb.shaft]
    have := parts_sh_perm sixArgs
    simpa [parts, numberShaft, sixArgs, Nest.flattenAll, Nest.flatten, defTag,
      List.perm_singleton] using this
  have hnd : r.ndof = 12 := by
    rw [ndof_eq hb, ← shaftEnd_last h, h6, hend, hpm]; rfl
  have hel : r.elements =
      [.shaft ⟨true, { exShaft with n := some 0, tag := some "shaft", gyroscopic := false }⟩,
        .disk ⟨true, ⟨0, 30, 1, 2, some "disk", 1, ""⟩⟩] := by
    rw [elements_eq' hb, hsh, hdk, hbr, hpm]; rfl
  have hf : ∀ e ∈ r.elements, Fits r.number_dof e := by
    rw [hel]; simp [Fits]
  have hin : ∀ e ∈ r.elements, InRange r e := by
    rw [hel]
    unfold InRange
    rw [hend, hpm, h6]
    intro e he key hkey
    simp at he
    rcases he with rfl | rfl
    · simp [attach, Elm.n, nodeLetters, dofsAt] at hkey
      rcases hkey with h | h | h | h | h | h | h | h | h | h | h | h <;> subst h <;> simp
    · simp [attach, Elm.n, nodeLetters, dofsAt] at hkey
      rcases hkey with h | h | h | h | h | h <;> subst h <;> simp
  obtain ⟨i1, -, -, i4⟩ := C18_assembles_iff h hf (1 : ℝ)
  obtain ⟨M, hM⟩ := i1.2 fun e he => ⟨hin e he, by rw [hel] at he; simp at he; rcases he with rfl | rfl <;> trivial,
    by rw [hel] at he; simp at he; rcases he with rfl | rfl <;> exact ⟨_, rfl⟩⟩
  obtain ⟨G, hG⟩ := i4.2 fun e he => ⟨hin e he, by rw [hel] at he; simp at he; rcases he with rfl | rfl <;> trivial,
    by rw [hel] at he; simp at he; rcases he with rfl | rfl <;> exact ⟨_, rfl⟩⟩
  have hsame : ∀ e ∈ r.elements, Elm.Msync 1 true e = Elm.Msync 1 false e := by
    rw [hel]
    intro e he
    simp at he
    rcases he with rfl | rfl
    · simp [Elm.Msync, Elm.M, ShaftElement.G₆, syncShaft_zero]
    · simp [Elm.Msync, Elm.M, syncDisk_six]
  have hMs : r.M (some 1) true = .ok M := by
    rw [← hM]
    unfold Rotor.M assemble
    refine foldlM_congr_mem fun z hz => ?_
    funext A
    simp only [Option.getD_some, hsame z.1 (List.mem_map_of_mem hz)]
  refine ⟨sixArgs, r, M, M, G, h, h6, hf, hMs, hM, hG,
    fun i => if i.val = 4 then 1 else if i.val = 3 then Complex.I else 0, ?_, ?_⟩
  · intro k hk
    rw [hend] at hk
    rw [h6, hend]
    interval_cases k <;> simp [extendC, hnd, slot, nodeLetters]
  · intro hx
    obtain ⟨-, g2⟩ := C18_gyro h hf hG
    let i3 : Fin r.ndof := ⟨3, by omega⟩
    let i4 : Fin r.ndof := ⟨4, by omega⟩
    have key := g2 (extend (Pi.single i3 1)) (extend (Pi.single i4 1))
    rw [hel] at key
    simp only [List.map_cons, List.map_nil, List.sum_cons, List.sum_nil] at key
    rw [workOf_ok (mat := Elm.G) (E := ⟨12, 0⟩) (by simp [Elm.G, ShaftElement.G₆]),
      workOf_ok (mat := Elm.G) (E := ⟨6, _⟩) rfl, bilin_extend] at key
    simp [loc, globalOf, attach, dofsAt, nodeLetters, Elm.n, h6, hend, slot, extend, hnd, Pi.single_apply,
      Fin.ext_iff, i3, i4, DiskElement.G₆, mulVec, dotProduct, Fin.sum_univ_six] at key
    rw [sub_mulVec, eq_comm, sub_eq_self] at hx
    have := congrArg Complex.im (congrFun hx i3)
    simp [cplx, mulVec, dotProduct] at this
    rw [Finset.sum_eq_single i3 (fun i _ hi => if_neg fun h => hi (Fin.ext h)) (by simp), if_pos rfl,
      Finset.sum_eq_single i4 (fun i _ hi => if_neg fun h => hi (Fin.ext h)) (by simp), if_pos rfl] at key
    rw [Finset.sum_eq_single i4 (fun i _ hi => by
      rw [if_neg fun h => hi (Fin.ext h)]
      split_ifs <;> simp) (by simp), if_pos (by rfl)] at this
    simp [key] at this

/-- Matrices of the example rotor exist, and there is a forward whirl that is not at rest. -/
example : ∃ r, init exPandas 10 exArgs = some (.ok r) ∧ (∀ e ∈ r.elements, Fits r.number_dof e) ∧
    r.number_dof = 4 ∧ (∀ ω, (∃ B, r.M (some ω) = .ok B) ∧ (∃ B, r.M (some ω) true = .ok B) ∧
      ∃ B, r.G = .ok B) ∧ ∃ x : Fin r.ndof → ℂ, x ≠ 0 ∧ ForwardWhirl r (extendC x) := by
  obtain ⟨r, f⟩ := exRotor_facts
  have hnd : r.ndof = 14 := by
    rw [ndof_eq (init_ok f.init), ← shaftEnd_last f.init, f.nd, f.stop, f.one]; rfl
  refine ⟨r, f.init, f.fits, f.nd, fun ω => ?_, ?_⟩
  · have h := exFacts_matrices f ω
    have h' := exFacts_range f
    obtain ⟨i1, i2, i3, i4⟩ := C18_assembles_iff f.init f.fits ω
    refine ⟨i1.2 fun e he => ⟨(h' e he).1, (h' e he).2, (h e he).1⟩, ?_,
      i4.2 fun e he => ⟨(h' e he).1, (h' e he).2, (h e he).2.2.2⟩⟩
    have := succeeds_iff f.init f.fits (mat := Elm.Msync ω true) (fun _ => true) (fun e E hE => by
      rcases e with ⟨_ | _, s⟩ | ⟨_ | _, d⟩ | b | p
      · cases hE; exact size_M (e := .shaft ⟨false, s⟩) (E := ⟨8, s.M⟩) (ω := ω) rfl
      · cases hE; exact size_M (e := .shaft ⟨true, s⟩) (E := ⟨12, s.M₆⟩) (ω := ω) rfl
      · cases hE; exact size_M (e := .disk ⟨false, d⟩) (E := ⟨4, d.M⟩) (ω := ω) rfl
      · cases hE; exact size_M (e := .disk ⟨true, d⟩) (E := ⟨6, d.M₆⟩) (ω := ω) rfl
      · exact size_M (e := .brg b) (ω := ω) hE
      · exact size_M (e := .pm p) (ω := ω) hE)
    have := (by simpa [Rotor.M] using this :
      (∃ B, r.M (some ω) true = .ok B) ↔ _)
    refine this.2 fun e he => ⟨(h' e he).1, (h' e he).2, ?_⟩
    obtain ⟨⟨E, hE⟩, -⟩ := h e he
    rcases e with ⟨_ | _, s⟩ | ⟨_ | _, d⟩ | b | p
    · exact ⟨_, _, rfl⟩
    · exact ⟨_, _, rfl⟩
    · exact ⟨_, _, rfl⟩
    · exact ⟨_, _, rfl⟩
    · exact ⟨_, _, hE⟩
    · exact ⟨_, _, hE⟩
  · refine ⟨fun i => if i.val = 0 then 1 else if i.val = 1 then -Complex.I else 0, ?_, ?_⟩
    · intro h0
      have := congrFun h0 ⟨0, by omega⟩
      simp at this
    · intro k hk
      rw [f.stop] at hk
      rw [f.nd, f.stop]
      interval_cases k <;> simp [extendC, hnd, slot, nodeLetters]

end Ross.Props
