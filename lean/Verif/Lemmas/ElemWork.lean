import Verif.Lemmas.Work
import Verif.Props.Shaft6
import Verif.Props.Disk
import Verif.Props.PointMass

/-! # Mass of the elements in a rigid translation -/

namespace Ross.AssemblyLemmas

open Ross Ross.Spec Ross.BearingLemmas Ross.Rotor Ross.RotorLemmas Ross.ShaftLemmas Ross.Props Ross.Shaft6Lemmas Matrix

variable {pd : Pandas} {a : RotorArgs} {r : Rotor} {fuel : ℕ}

/-- The mass of one element in a translation along `dir`. -/
noncomputable def massAlong (ω : ℝ) (dir : String) : Elm → ℝ
  | .shaft e => e.s.m
  | .disk e => e.d.m
  | .brg b => BrgEl.groundMass ω dir b
  | .pm p => PmEl.massAlong dir p

theorem shaft_six (h : init pd fuel a = some (.ok r)) {e : ShaftEl} (he : Elm.shaft e ∈ r.elements) :
    e.six = decide (r.number_dof = 6) := by
  have hb := init_ok h
  rcases (mem_elements hb _).1 he with ⟨e', h', h''⟩ | ⟨_, _, h'⟩ | ⟨_, _, h'⟩ | ⟨_, _, h'⟩
  · cases h''; exact (check_ok hb.dof).2.2.1 _ h'
  all_goals cases h'

theorem disk_six (h : init pd fuel a = some (.ok r)) {e : DiskEl} (he : Elm.disk e ∈ r.elements) :
    e.six = decide (r.number_dof = 6) := by
  have hb := init_ok h
  rcases (mem_elements hb _).1 he with ⟨_, _, h'⟩ | ⟨e', h', h''⟩ | ⟨_, _, h'⟩ | ⟨_, _, h'⟩
  · cases h'
  · cases h''; exact (check_ok hb.dof).2.2.2.1 _ h'
  all_goals cases h'

theorem brg_six (h : init pd fuel a = some (.ok r)) {b : BrgEl} (he : Elm.brg b ∈ r.elements) :
    match (generalizing := false) b with
    | .brg _ _ => r.number_dof = 4
    | .brg6 _ => r.number_dof = 6 := by
  have hb := init_ok h
  rcases (mem_elements hb _).1 he with ⟨_, _, h'⟩ | ⟨_, _, h'⟩ | ⟨e', h', h''⟩ | ⟨_, _, h'⟩
  · cases h'
  · cases h'
  · cases h''; exact (check_ok hb.dof).2.2.2.2 _ h'
  · cases h'

/-- The matrices of a bearing are support matrices. -/
theorem brgM_support {b : BearingElement} {ω : ℝ} {E : LMat} (h : b.M ω = .ok E) :
    ∃ mxx myy mxy myx, b.mxx.eval ω = .ok mxx ∧ b.myy.eval ω = .ok myy ∧ b.mxy.eval ω = .ok mxy ∧
      b.myx.eval ω = .ok myx ∧ IsSupport b.n_link !![mxx, mxy; myx, myy] E := by
  unfold BearingElement.M at h
  obtain ⟨mxx, h1, h⟩ := bind_ok.1 h
  obtain ⟨myy, h2, h⟩ := bind_ok.1 h
  obtain ⟨mxy, h3, h⟩ := bind_ok.1 h
  obtain ⟨myx, h4, h⟩ := bind_ok.1 h
  have := Except.ok.inj h
  subst this
  exact ⟨_, _, _, _, h1, h2, h3, h4, linkMat_isSupport _ _⟩

theorem brg6M_support {b : BearingElement6DoF} {ω : ℝ} {E : LMat} (h : b.M ω = .ok E) :
    ∃ mxx myy mxy myx mzz, b.base.mxx.eval ω = .ok mxx ∧ b.base.myy.eval ω = .ok myy ∧
      b.base.mxy.eval ω = .ok mxy ∧ b.base.myx.eval ω = .ok myx ∧ b.mzz.eval ω = .ok mzz ∧
      IsSupport b.base.n_link !![mxx, mxy, 0; myx, myy, 0; 0, 0, mzz] E := by
  unfold BearingElement6DoF.M at h
  obtain ⟨mxx, h1, h⟩ := bind_ok.1 h
  obtain ⟨myy, h2, h⟩ := bind_ok.1 h
  obtain ⟨mxy, h3, h⟩ := bind_ok.1 h
  obtain ⟨myx, h4, h⟩ := bind_ok.1 h
  obtain ⟨mzz, h5, h⟩ := bind_ok.1 h
  have := Except.ok.inj h
  subst this
  exact ⟨_, _, _, _, _, h1, h2, h3, h4, h5, linkMat_isSupport _ _⟩

theorem eval_interp {c : Coeff} {ω v : ℝ} (h : c.eval ω = .ok v) :
    (match c.interp with | some g => g ω | none => 0) = v := by
  unfold Coeff.eval at h
  cases hi : c.interp with
  | none => rw [hi] at h; cases h
  | some g => rw [hi] at h; exact Except.ok.inj h

theorem two_singles {k : ℕ} (A : Matrix (Fin k) (Fin k) ℝ) (i j : Fin k) :
    (Pi.single i 1 + Pi.single j 1) ⬝ᵥ (A *ᵥ (Pi.single i 1 + Pi.single j 1)) =
      A i i + A i j + (A j i + A j j) := by
  simp [mulVec_add, add_dotProduct, dotProduct_add]
  ring

theorem mass6 (s : ShaftElement) (hs : s.Built) (hφ : 1 + s.phi ≠ 0) :
    ![1, 0, 0, 0, 0, 0, 1, 0, 0, 0, 0, 0] ⬝ᵥ (s.M₆ *ᵥ ![1, 0, 0, 0, 0, 0, 1, 0, 0, 0, 0, 0]) = s.m ∧
    ![0, 1, 0, 0, 0, 0, 0, 1, 0, 0, 0, 0] ⬝ᵥ (s.M₆ *ᵥ ![0, 1, 0, 0, 0, 0, 0, 1, 0, 0, 0, 0]) = s.m := by
  obtain ⟨h1, h2⟩ := C06_rigid_mass_m s hs hφ
  have hm := C10_mass s
  have e : ∀ i j : Fin 8, s.M₆ (bend i) (bend j) = s.M i j := fun i j => by rw [← hm]; rfl
  have v1 : (![1, 0, 0, 0, 0, 0, 1, 0, 0, 0, 0, 0] : Fin 12 → ℝ) =
      Pi.single (bend 0) 1 + Pi.single (bend 4) 1 := by
    ext i; fin_cases i <;> simp [bend, Pi.single_apply, Fin.ext_iff]
  have v2 : (![0, 1, 0, 0, 0, 0, 0, 1, 0, 0, 0, 0] : Fin 12 → ℝ) =
      Pi.single (bend 1) 1 + Pi.single (bend 5) 1 := by
    ext i; fin_cases i <;> simp [bend, Pi.single_apply, Fin.ext_iff]
  have w1 : (![1, 0, 0, 0, 1, 0, 0, 0] : Fin 8 → ℝ) = Pi.single 0 1 + Pi.single 4 1 := by
    ext i; fin_cases i <;> simp [Fin.ext_iff]
  have w2 : (![0, 1, 0, 0, 0, 1, 0, 0] : Fin 8 → ℝ) = Pi.single 1 1 + Pi.single 5 1 := by
    ext i; fin_cases i <;> simp [Fin.ext_iff]
  rw [w1, two_singles] at h1
  rw [w2, two_singles] at h2
  rw [v1, v2, two_singles, two_singles, e, e, e, e, e, e, e, e]
  exact ⟨h1, h2⟩

/-- The work of one element in a common unit translation is its mass. -/
theorem mass_work (h : init pd fuel a = some (.ok r)) {e : Elm} (he : e ∈ r.elements)
    (hf : Fits r.number_dof e) {ω : ℝ} {E : LMat} (hE : e.M ω = .ok E)
    (hk : E.1 = (globalOf r.number_dof (shaftEnd r) e).length)
    (hlt : ∀ d ∈ globalOf r.number_dof (shaftEnd r) e, d < r.ndof)
    (hgood : ∀ s, e = .shaft s → s.s.Built ∧ 1 + s.s.phi ≠ 0)
    {dir : String} (hdir : dir = "x" ∨ dir = "y") {x : ℕ → ℝ}
    (hx : Describes r x (translation dir)) :
    workOf r.number_dof (shaftEnd r) (Elm.M ω) e x x = massAlong ω dir e := by
  rw [workOf_ok hE]
  have hloc := loc_describes h he hf hlt hx hk
  rcases e with ⟨six, s⟩ | ⟨six, d⟩ | b | (p | p)
  · obtain ⟨hB, hφ⟩ := hgood _ rfl
    have hs := shaft_six h he
    rcases nd_cases (init_ok h) with h4 | h4
    · rw [h4] at hs hloc
      simp only [Nat.reduceEqDiff, decide_false] at hs
      subst hs
      cases hE
      simp only at hloc ⊢
      obtain ⟨m1, m2⟩ := C06_rigid_mass_m s hB hφ
      rcases hdir with rfl | rfl
      · have : loc (globalOf 4 (shaftEnd r) (Elm.shaft ⟨false, s⟩)) 8 x =
            ![1, 0, 0, 0, 1, 0, 0, 0] := by
          funext p; rw [hloc p]
          fin_cases p <;> simp [attach, dofsAt, nodeLetters, translation]
        rw [h4, this]; exact m1
      · have : loc (globalOf 4 (shaftEnd r) (Elm.shaft ⟨false, s⟩)) 8 x =
            ![0, 1, 0, 0, 0, 1, 0, 0] := by
          funext p; rw [hloc p]
          fin_cases p <;> simp [attach, dofsAt, nodeLetters, translation]
        rw [h4, this]; exact m2
    · rw [h4] at hs hloc
      simp only [decide_true] at hs
      subst hs
      cases hE
      simp only at hloc ⊢
      obtain ⟨m1, m2⟩ := mass6 s hB hφ
      rcases hdir with rfl | rfl
      · have : loc (globalOf 6 (shaftEnd r) (Elm.shaft ⟨true, s⟩)) 12 x =
            ![1, 0, 0, 0, 0, 0, 1, 0, 0, 0, 0, 0] := by
          funext p; rw [hloc p]
          fin_cases p <;> simp [attach, dofsAt, nodeLetters, translation]
        rw [h4, this]; exact m1
      · have : loc (globalOf 6 (shaftEnd r) (Elm.shaft ⟨true, s⟩)) 12 x =
            ![0, 1, 0, 0, 0, 0, 0, 1, 0, 0, 0, 0] := by
          funext p; rw [hloc p]
          fin_cases p <;> simp [attach, dofsAt, nodeLetters, translation]
        rw [h4, this]; exact m2
  · have hs := disk_six h he
    rcases nd_cases (init_ok h) with h4 | h4
    · rw [h4] at hs hloc
      simp only [Nat.reduceEqDiff, decide_false] at hs
      subst hs
      cases hE
      simp only at hloc ⊢
      rw [(C03_mass d).1, h4]
      rcases hdir with rfl | rfl <;> simp [hloc, attach, dofsAt, nodeLetters, translation, massAlong]
    · rw [h4] at hs hloc
      simp only [decide_true] at hs
      subst hs
      cases hE
      simp only at hloc ⊢
      rw [(C03_six d).1, h4]
      rcases hdir with rfl | rfl <;> simp [hloc, attach, dofsAt, nodeLetters, translation, massAlong]
  · rw [← workOf_ok hE]
    have hs := brg_six h he
    have hrel : ∀ k, (∃ m, b.n_link = some m) → brgRel r.number_dof k b (translation dir) = 0 := by
      rintro k ⟨m, hm⟩
      funext p; simp [brgRel, hm, translation]
    cases b with
    | brg sl b =>
      simp only at hs
      obtain ⟨mxx, myy, mxy, myx, e1, e2, e3, e4, hS⟩ := brgM_support hE
      rw [brg_work h he hE hk hlt (by rw [hs]) hS hx hx]
      cases hl : b.n_link with
      | none =>
        have hm : massAlong ω dir (.brg (.brg sl b)) = if dir = "x" then mxx else myy := by
          simp only [massAlong, BrgEl.groundMass, BrgEl.n_link, BrgEl.base, hl]
          by_cases hd : dir = "x"
          · rw [if_pos hd, if_pos hd]; exact eval_interp e1
          · rw [if_neg hd, if_neg hd]; exact eval_interp e2
        have hl' : (BrgEl.brg sl b).n_link = none := hl
        rw [hm, hs]
        rcases hdir with rfl | rfl <;>
          simp [brgRel, hl', supportLetters, translation, dotProduct, mulVec, Fin.sum_univ_two]
      | some k =>
        rw [hrel 2 ⟨k, hl⟩]
        have hl' : (BrgEl.brg sl b).n_link = some k := hl
        simp [massAlong, BrgEl.groundMass, hl']
    | brg6 b =>
      simp only at hs
      obtain ⟨mxx, myy, mxy, myx, mzz, e1, e2, e3, e4, e5, hS⟩ := brg6M_support hE
      rw [brg_work h he hE hk hlt (by rw [hs]) hS hx hx]
      cases hl : b.base.n_link with
      | none =>
        have hm : massAlong ω dir (.brg (.brg6 b)) = if dir = "x" then mxx else myy := by
          simp only [massAlong, BrgEl.groundMass, BrgEl.n_link, BrgEl.base, hl]
          by_cases hd : dir = "x"
          · rw [if_pos hd, if_pos hd]; exact eval_interp e1
          · rw [if_neg hd, if_neg hd]; exact eval_interp e2
        have hl' : (BrgEl.brg6 b).n_link = none := hl
        rw [hm, hs]
        rcases hdir with rfl | rfl <;>
          simp [brgRel, hl', supportLetters, translation, dotProduct, mulVec, Fin.sum_univ_three]
      | some k =>
        rw [hrel 3 ⟨k, hl⟩]
        have hl' : (BrgEl.brg6 b).n_link = some k := hl
        simp [massAlong, BrgEl.groundMass, hl']
  · cases hE
    simp only at hloc ⊢
    rw [(C16_matrices p).1]
    rcases hdir with rfl | rfl <;>
      simp [hloc, attach, dofsAt, translation, dotProduct, Fin.sum_univ_two, massAlong, PmEl.massAlong]
  · cases hE
    simp only at hloc ⊢
    rw [(C16_matrices6 p).1]
    rcases hdir with rfl | rfl <;>
      simp [hloc, attach, dofsAt, translation, dotProduct, Fin.sum_univ_three, massAlong,
        PmEl.massAlong]

end Ross.AssemblyLemmas
