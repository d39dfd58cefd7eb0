import Verif.Lemmas.Bearing

/-! # C14, C15: bearings -/

namespace Ross.Props

open Matrix Spec BearingLemmas

variable {sp : Scipy} {a : BearingArgs} {b : BearingElement}

/-- **C14** a constructed bearing remembers where it is attached. -/
theorem C14_attributes (h : BearingElement.init sp a = .ok b) :
    b.n = a.n ∧ b.n_link = a.n_link ∧ b.frequency = a.frequency ∧ b.tag = a.tag ∧
      b.scale_factor = a.scale_factor ∧ b.color = a.color := by
  obtain ⟨h1, h2, h3, h4, h5, h6, -⟩ := init_ok h
  exact ⟨h1, h2, h3, h4, h5, h6⟩

/-- **C14** stiffness: at every frequency `K` is the support matrix of the coefficients denoted by
the arguments (with `kyy` defaulting to `kxx`), to ground or between the two linked nodes. -/
theorem C14_stiffness (hc : ScipyContract sp) (hd : Distinct a.frequency)
    (hi : Increasing a.frequency) (h : BearingElement.init sp a = .ok b) :
    ∃ kxx kxy kyx kyy : ℝ → ℝ,
      Denotes sp a.frequency a.kxx kxx ∧ Denotes sp a.frequency a.kxy kxy ∧
      Denotes sp a.frequency a.kyx kyx ∧ Denotes sp a.frequency (a.kyy.getD a.kxx) kyy ∧
      ∀ ω, ∃ r, b.K ω = .ok r ∧ IsSupport a.n_link !![kxx ω, kxy ω; kyx ω, kyy ω] r := by
  obtain ⟨-, h2, -, -, -, -, hp⟩ := init_ok h
  simp only [List.mem_cons, List.not_mem_nil, or_false, forall_eq_or_imp, forall_eq] at hp
  obtain ⟨⟨p1, l1⟩, ⟨p2, l2⟩, ⟨p3, l3⟩, ⟨p4, l4⟩, -⟩ := hp
  obtain ⟨-, e1, d1, -⟩ := process_spec hc hd p1 l1
  obtain ⟨-, e2, d2, -⟩ := process_spec hc hd p2 l2
  obtain ⟨-, e3, d3, -⟩ := process_spec hc hd p3 l3
  obtain ⟨-, e4, d4, -⟩ := process_spec hc hd p4 l4
  obtain ⟨g1, hg1⟩ := e1 hi
  obtain ⟨g2, hg2⟩ := e2 hi
  obtain ⟨g3, hg3⟩ := e3 hi
  obtain ⟨g4, hg4⟩ := e4 hi
  refine ⟨g1, g3, g4, g2, d1 _ hg1, d3 _ hg3, d4 _ hg4, d2 _ hg2, fun ω => ⟨_, ?_,
    linkMat_isSupport _ _⟩⟩
  simp [BearingElement.K, Coeff.eval, hg1, hg2, hg3, hg4, h2, bind, Except.bind, pure, Except.pure]

/-- **C14** damping. -/
theorem C14_damping (hc : ScipyContract sp) (hd : Distinct a.frequency)
    (hi : Increasing a.frequency) (h : BearingElement.init sp a = .ok b) :
    ∃ cxx cxy cyx cyy : ℝ → ℝ,
      Denotes sp a.frequency a.cxx cxx ∧ Denotes sp a.frequency a.cxy cxy ∧
      Denotes sp a.frequency a.cyx cyx ∧ Denotes sp a.frequency (a.cyy.getD a.cxx) cyy ∧
      ∀ ω, ∃ r, b.C ω = .ok r ∧ IsSupport a.n_link !![cxx ω, cxy ω; cyx ω, cyy ω] r := by
  obtain ⟨-, h2, -, -, -, -, hp⟩ := init_ok h
  simp only [List.mem_cons, List.not_mem_nil, or_false, forall_eq_or_imp, forall_eq] at hp
  obtain ⟨-, -, -, -, ⟨p1, l1⟩, ⟨p2, l2⟩, ⟨p3, l3⟩, ⟨p4, l4⟩, -⟩ := hp
  obtain ⟨-, e1, d1, -⟩ := process_spec hc hd p1 l1
  obtain ⟨-, e2, d2, -⟩ := process_spec hc hd p2 l2
  obtain ⟨-, e3, d3, -⟩ := process_spec hc hd p3 l3
  obtain ⟨-, e4, d4, -⟩ := process_spec hc hd p4 l4
  obtain ⟨g1, hg1⟩ := e1 hi
  obtain ⟨g2, hg2⟩ := e2 hi
  obtain ⟨g3, hg3⟩ := e3 hi
  obtain ⟨g4, hg4⟩ := e4 hi
  refine ⟨g1, g3, g4, g2, d1 _ hg1, d3 _ hg3, d4 _ hg4, d2 _ hg2, fun ω => ⟨_, ?_,
    linkMat_isSupport _ _⟩⟩
  simp [BearingElement.C, Coeff.eval, hg1, hg2, hg3, hg4, h2, bind, Except.bind, pure, Except.pure]

/-- **C14** added mass; without mass arguments it vanishes. -/
theorem C14_mass (hc : ScipyContract sp) (hd : Distinct a.frequency)
    (hi : Increasing a.frequency) (h : BearingElement.init sp a = .ok b) :
    ∃ mxx mxy myx myy : ℝ → ℝ,
      Denotes sp a.frequency (a.mxx.getD (.scalar 0)) mxx ∧ Denotes sp a.frequency a.mxy mxy ∧
      Denotes sp a.frequency a.myx myx ∧
      Denotes sp a.frequency (a.myy.getD (a.mxx.getD (.scalar 0))) myy ∧
      ∀ ω, ∃ r, b.M ω = .ok r ∧ IsSupport a.n_link !![mxx ω, mxy ω; myx ω, myy ω] r := by
  obtain ⟨-, h2, -, -, -, -, hp⟩ := init_ok h
  simp only [List.mem_cons, List.not_mem_nil, or_false, forall_eq_or_imp, forall_eq] at hp
  obtain ⟨-, -, -, -, -, -, -, -, ⟨p1, l1⟩, ⟨p2, l2⟩, ⟨p3, l3⟩, ⟨p4, l4⟩⟩ := hp
  obtain ⟨-, e1, d1, -⟩ := process_spec hc hd p1 l1
  obtain ⟨-, e2, d2, -⟩ := process_spec hc hd p2 l2
  obtain ⟨-, e3, d3, -⟩ := process_spec hc hd p3 l3
  obtain ⟨-, e4, d4, -⟩ := process_spec hc hd p4 l4
  obtain ⟨g1, hg1⟩ := e1 hi
  obtain ⟨g2, hg2⟩ := e2 hi
  obtain ⟨g3, hg3⟩ := e3 hi
  obtain ⟨g4, hg4⟩ := e4 hi
  refine ⟨g1, g3, g4, g2, d1 _ hg1, d3 _ hg3, d4 _ hg4, d2 _ hg2, fun ω => ⟨_, ?_,
    linkMat_isSupport _ _⟩⟩
  simp [BearingElement.M, Coeff.eval, hg1, hg2, hg3, hg4, h2, bind, Except.bind, pure, Except.pure]

/-- **C14** a bearing never contributes a gyroscopic matrix, and the zero matrix it returns has the
size of its stiffness. -/
theorem C14_gyro (r : LMat) (h : b.G = .ok r) :
    r.2 = 0 ∧ ∃ k, b.K 0 = .ok k ∧ k.1 = r.1 := by
  unfold BearingElement.G at h
  rw [bind_ok] at h
  obtain ⟨k, hk, h⟩ := h
  cases h
  exact ⟨rfl, k, hk, rfl⟩

/-- **C14** consequences for linked bearings: the forces on the two nodes are opposite, and there is
no force when both nodes move together. -/
theorem C14_action_reaction {k : ℕ} {m : ℕ} {A : Matrix (Fin k) (Fin k) ℝ} {r : LMat}
    (h : IsSupport (some m) A r) :
    ∃ B : Matrix (Fin (k + k)) (Fin (k + k)) ℝ, r = ⟨k + k, B⟩ ∧
      (∀ u i, (B *ᵥ u) (Fin.castAdd k i) = -(B *ᵥ u) (Fin.natAdd k i)) ∧
      ∀ v : Fin k → ℝ, B *ᵥ Fin.append v v = 0 := by
  obtain ⟨B, rfl, hB⟩ := h
  refine ⟨B, rfl, ?_, ?_⟩
  · intro u i
    have hu : u = Fin.append (fun i => u (Fin.castAdd k i)) (fun i => u (Fin.natAdd k i)) :=
      (Fin.append_castAdd_natAdd (f := u)).symm
    rw [hu, hB, Fin.append_left, Fin.append_right]
    simp
  · intro v
    rw [hB]
    simp only [sub_self, mulVec_zero, neg_zero]
    funext i
    refine Fin.addCases (fun j => ?_) (fun j => ?_) i
    · simp
    · rw [Fin.append_right]; rfl

/-- **C14** the support matrix is determined by the specification. -/
theorem C14_support_unique {k : ℕ} {l : Option ℕ} {A : Matrix (Fin k) (Fin k) ℝ} {r r' : LMat}
    (h : IsSupport l A r) (h' : IsSupport l A r') : r = r' := by
  cases l with
  | none => exact h.trans h'.symm
  | some m =>
    obtain ⟨B, rfl, hB⟩ := h
    obtain ⟨B', rfl, hB'⟩ := h'
    have : B = B' := by
      apply Matrix.ext_of_mulVec_single
      intro j
      have hu : (Pi.single j 1 : Fin (k + k) → ℝ)
          = Fin.append (fun i => (Pi.single j 1 : Fin (k + k) → ℝ) (Fin.castAdd k i))
            (fun i => (Pi.single j 1 : Fin (k + k) → ℝ) (Fin.natAdd k i)) :=
        (Fin.append_castAdd_natAdd (f := (Pi.single j 1 : Fin (k + k) → ℝ))).symm
      rw [hu, hB, hB']
    rw [this]

/-- **C14** the axial coefficients of the 6-dof bearing. -/
theorem C14_six {kzz czz mzz : Coef} {b : BearingElement6DoF} (hc : ScipyContract sp)
    (hd : Distinct a.frequency) (hi : Increasing a.frequency)
    (hz : Consistent a.frequency kzz) (hcz : Consistent a.frequency czz)
    (hmz : Consistent a.frequency mzz)
    (h : BearingElement6DoF.init sp a kzz czz mzz = .ok b) :
    ∃ kxx kxy kyx kyy kz cxx cxy cyx cyy cz mxx mxy myx myy mz : ℝ → ℝ,
      Denotes sp a.frequency a.kxx kxx ∧ Denotes sp a.frequency a.kxy kxy ∧
      Denotes sp a.frequency a.kyx kyx ∧ Denotes sp a.frequency (a.kyy.getD a.kxx) kyy ∧
      Denotes sp a.frequency kzz kz ∧
      Denotes sp a.frequency a.cxx cxx ∧ Denotes sp a.frequency a.cxy cxy ∧
      Denotes sp a.frequency a.cyx cyx ∧ Denotes sp a.frequency (a.cyy.getD a.cxx) cyy ∧
      Denotes sp a.frequency czz cz ∧
      Denotes sp a.frequency (a.mxx.getD (.scalar 0)) mxx ∧ Denotes sp a.frequency a.mxy mxy ∧
      Denotes sp a.frequency a.myx myx ∧
      Denotes sp a.frequency (a.myy.getD (a.mxx.getD (.scalar 0))) myy ∧
      Denotes sp a.frequency mzz mz ∧
      ∀ ω, (∃ r, b.K ω = .ok r ∧
          IsSupport a.n_link !![kxx ω, kxy ω, 0; kyx ω, kyy ω, 0; 0, 0, kz ω] r) ∧
        (∃ r, b.C ω = .ok r ∧
          IsSupport a.n_link !![cxx ω, cxy ω, 0; cyx ω, cyy ω, 0; 0, 0, cz ω] r) ∧
        (∃ r, b.M ω = .ok r ∧
          IsSupport a.n_link !![mxx ω, mxy ω, 0; myx ω, myy ω, 0; 0, 0, mz ω] r) := by
  unfold BearingElement6DoF.init at h
  simp only [bind_ok] at h
  obtain ⟨base, h0, z1, hz1, z2, hz2, z3, hz3, h⟩ := h
  cases h
  obtain ⟨-, h2, -, -, -, -, hp⟩ := init_ok h0
  simp only [List.mem_cons, List.not_mem_nil, or_false, forall_eq_or_imp, forall_eq] at hp
  have ez : ∀ {c : Coef} {r : Coeff}, Consistent a.frequency c →
      Coeff.process sp a.frequency c = .ok r → ∃ g, r.interp = some g ∧
        Denotes sp a.frequency c g := by
    intro c r hcons hr
    obtain ⟨r', hr', hl⟩ := process_accepts hc hd hcons
    rw [hr] at hr'
    cases hr'
    obtain ⟨-, e, d, -⟩ := process_spec hc hd hr hl
    obtain ⟨g, hg⟩ := e hi
    exact ⟨g, hg, d g hg⟩
  have ep : ∀ {c : Coef} {r : Coeff}, Coeff.process sp a.frequency c = .ok r ∧
      r.values.length = reqLen a.frequency → ∃ g, r.interp = some g ∧
        Denotes sp a.frequency c g := by
    intro c r hr
    obtain ⟨-, e, d, -⟩ := process_spec hc hd hr.1 hr.2
    obtain ⟨g, hg⟩ := e hi
    exact ⟨g, hg, d g hg⟩
  obtain ⟨p1, p2, p3, p4, p5, p6, p7, p8, p9, p10, p11, p12⟩ := hp
  obtain ⟨g1, i1, d1⟩ := ep p1
  obtain ⟨g2, i2, d2⟩ := ep p2
  obtain ⟨g3, i3, d3⟩ := ep p3
  obtain ⟨g4, i4, d4⟩ := ep p4
  obtain ⟨g5, i5, d5⟩ := ep p5
  obtain ⟨g6, i6, d6⟩ := ep p6
  obtain ⟨g7, i7, d7⟩ := ep p7
  obtain ⟨g8, i8, d8⟩ := ep p8
  obtain ⟨g9, i9, d9⟩ := ep p9
  obtain ⟨g10, i10, d10⟩ := ep p10
  obtain ⟨g11, i11, d11⟩ := ep p11
  obtain ⟨g12, i12, d12⟩ := ep p12
  obtain ⟨k1, j1, q1⟩ := ez hz hz1
  obtain ⟨k2, j2, q2⟩ := ez hcz hz2
  obtain ⟨k3, j3, q3⟩ := ez hmz hz3
  refine ⟨g1, g3, g4, g2, k1, g5, g7, g8, g6, k2, g9, g11, g12, g10, k3, d1, d3, d4, d2, q1, d5, d7,
    d8, d6, q2, d9, d11, d12, d10, q3, fun ω => ⟨⟨_, ?_, linkMat_isSupport _ _⟩,
      ⟨_, ?_, linkMat_isSupport _ _⟩, ⟨_, ?_, linkMat_isSupport _ _⟩⟩⟩
  · simp [BearingElement6DoF.K, Coeff.eval, i1, i2, i3, i4, j1, h2, bind, Except.bind, pure,
      Except.pure]
  · simp [BearingElement6DoF.C, Coeff.eval, i5, i6, i7, i8, j2, h2, bind, Except.bind, pure,
      Except.pure]
  · simp [BearingElement6DoF.M, Coeff.eval, i9, i10, i11, i12, j3, h2, bind, Except.bind, pure,
      Except.pure]

/-- **C15** exactly the consistent argument lists are accepted. -/
theorem C15_accepts_iff (hc : ScipyContract sp) (hd : Distinct a.frequency) :
    (∃ b, BearingElement.init sp a = .ok b) ↔
      ∀ c ∈ (defaults a).toList, Consistent a.frequency c := by
  refine ⟨?_, init_accepts hc hd⟩
  rintro ⟨b, h⟩
  obtain ⟨-, -, -, -, -, -, hp⟩ := init_ok h
  simp only [List.mem_cons, List.not_mem_nil, or_false, forall_eq_or_imp, forall_eq] at hp
  simp only [Coefs12.toList, List.mem_cons, List.not_mem_nil, or_false, forall_eq_or_imp,
    forall_eq]
  have ep : ∀ {c : Coef} {r : Coeff}, Coeff.process sp a.frequency c = .ok r ∧
      r.values.length = reqLen a.frequency → Consistent a.frequency c :=
    fun hr => (process_spec hc hd hr.1 hr.2).1
  obtain ⟨p1, p2, p3, p4, p5, p6, p7, p8, p9, p10, p11, p12⟩ := hp
  exact ⟨ep p1, ep p2, ep p3, ep p4, ep p5, ep p6, ep p7, ep p8, ep p9, ep p10, ep p11, ep p12⟩

/-- **C15** inconsistent lengths raise `ValueError`; the only other error is the `IndexError` of an
empty table. -/
theorem C15_rejects {e : PyErr} (h : BearingElement.init sp a = .error e) :
    e = .valueError ∨ (e = .indexError ∧
      (a.frequency = some [] ∨ .list [] ∈ (defaults a).toList)) := init_error h

/-- **C15** (partial: increasing frequencies) a constructed bearing can be evaluated. -/
theorem C15_evaluates_partial (hc : ScipyContract sp) (hd : Distinct a.frequency)
    (hi : Increasing a.frequency) (h : BearingElement.init sp a = .ok b) (ω : ℝ) :
    (∃ r, b.K ω = .ok r) ∧ (∃ r, b.C ω = .ok r) ∧ (∃ r, b.M ω = .ok r) := by
  obtain ⟨_, _, _, _, -, -, -, -, hk⟩ := C14_stiffness hc hd hi h
  obtain ⟨_, _, _, _, -, -, -, -, hC⟩ := C14_damping hc hd hi h
  obtain ⟨_, _, _, _, -, -, -, -, hm⟩ := C14_mass hc hd hi h
  exact ⟨(hk ω).imp fun _ h => h.1, (hC ω).imp fun _ h => h.1, (hm ω).imp fun _ h => h.1⟩

/-- **C15 is false in general**: a table with decreasing frequencies and more than three rows is
accepted, but evaluating the bearing raises `TypeError`. -/
theorem C15_evaluates_false (hc : ScipyContract sp) :
    ∃ a b, BearingElement.init sp a = .ok b ∧ Distinct a.frequency ∧
      (∀ c ∈ (defaults a).toList, Consistent a.frequency c) ∧
      ∀ ω, b.K ω = .error .typeError := by
  set f : List ℝ := [4, 3, 2, 1] with hf
  set a : BearingArgs :=
    { n := 0, kxx := .list [1, 2, 3, 4], cxx := .scalar 1, frequency := some f } with ha
  have hd : Distinct a.frequency := by simp [Distinct, ha, hf]
  have hcons : ∀ c ∈ (defaults a).toList, Consistent a.frequency c := by
    simp [Coefs12.toList, defaults, ha, hf, Consistent]
  obtain ⟨b, hb⟩ := init_accepts hc hd hcons
  refine ⟨a, b, hb, hd, hcons, ?_⟩
  obtain ⟨-, -, -, -, -, -, hp⟩ := init_ok hb
  have h1 := (hp (b.kxx, (defaults a).kxx) (by simp)).1
  have hu : sp.univariateSpline f [1, 2, 3, 4] = none := by
    apply hc.spline_unsorted
    simp [hf]
  have h2 : b.kxx = ⟨[1, 2, 3, 4], none⟩ := by
    simp only [defaults, ha, Coeff.process, Coeff.interpolate, hu] at h1
    simp [hf] at h1
    exact h1.symm
  intro ω
  simp [BearingElement.K, Coeff.eval, h2, bind, Except.bind]

/-- **C15 is false for the 6-dof bearing** even with increasing frequencies: the axial coefficients
are not length-checked, so a table of the wrong length is accepted and evaluation raises
`TypeError`. -/
theorem C15_six_false (hc : ScipyContract sp) :
    ∃ a kzz b, BearingElement6DoF.init sp a kzz = .ok b ∧ Distinct a.frequency ∧
      Increasing a.frequency ∧ ¬ Consistent a.frequency kzz ∧ ∀ ω, b.K ω = .error .typeError := by
  set f : List ℝ := [1, 2, 3, 4] with hf
  set a : BearingArgs :=
    { n := 0, kxx := .list [1, 2, 3, 4], cxx := .scalar 1, frequency := some f } with ha
  have hd : Distinct a.frequency := by simp [Distinct, ha, hf]
  have hi : Increasing a.frequency := by
    right; simp [hf]; norm_num
  have hcons : ∀ c ∈ (defaults a).toList, Consistent a.frequency c := by
    simp [Coefs12.toList, defaults, ha, hf, Consistent]
  obtain ⟨b, hb⟩ := init_accepts hc hd hcons
  have hu : sp.univariateSpline f [1, 2] = none := by
    apply hc.spline_length
    simp [hf]
  have hz : Coeff.process sp a.frequency (.list [1, 2]) = .ok ⟨[1, 2], none⟩ := by
    simp only [ha, Coeff.process, Coeff.interpolate, hu]
    simp [hf]
  obtain ⟨z, hz0, -⟩ := process_accepts (c := .scalar 0) hc hd (show f ≠ [] by simp [hf])
  refine ⟨a, .list [1, 2], ⟨b, ⟨[1, 2], none⟩, z, z⟩, ?_, hd, hi, ?_, ?_⟩
  · simp [BearingElement6DoF.init, hb, hz, hz0, bind, Except.bind, pure, Except.pure]
  · simp [Consistent, ha, hf]
  · intro ω
    obtain ⟨g1, g2, g3, g4, -, -, -, -, hk⟩ := C14_stiffness hc hd hi hb
    obtain ⟨r, hr, -⟩ := hk ω
    unfold BearingElement.K at hr
    simp only [bind_ok] at hr
    obtain ⟨x1, h1, x2, h2, x3, h3, x4, h4, -⟩ := hr
    simp only [BearingElement6DoF.K, h1, h2, h3, h4, bind, Except.bind]
    rfl

/-- Non-vacuity: the contract is satisfiable, and with it a constant linked bearing and a tabulated
one are built. -/
example : ScipyContract exScipy ∧
    (∃ b, BearingElement.init exScipy
      { n := 3, kxx := .scalar 1000, cxx := .scalar 2, n_link := some 7 } = .ok b) ∧
    (∃ b, BearingElement.init exScipy
      { n := 3, kxx := .list [1, 2, 3, 5], cxx := .scalar 2,
        frequency := some [0, 10, 20, 30] } = .ok b ∧ Increasing b.frequency) := by
  refine ⟨exScipy_contract, ?_, ?_⟩
  · exact (C15_accepts_iff (a := { n := 3, kxx := .scalar 1000, cxx := .scalar 2, n_link := some 7 })
      exScipy_contract trivial).2 (by simp [Coefs12.toList, defaults, Consistent])
  · obtain ⟨b, hb⟩ := (C15_accepts_iff (a :=
      { n := 3, kxx := .list [1, 2, 3, 5], cxx := .scalar 2,
        frequency := some [0, 10, 20, 30] }) exScipy_contract
        (by simp [Distinct])).2
      (by simp [Coefs12.toList, defaults, Consistent])
    refine ⟨b, hb, ?_⟩
    rw [(C14_attributes hb).2.2.1]
    right; simp; norm_num

end Ross.Props
