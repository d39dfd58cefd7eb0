import Verif.Lemmas.Refine
import Verif.Props.Convergence

/-! # C29: a refined element contains the motions of the element -/

namespace Ross.Props

open Ross Ross.Spec Ross.RefineLemmas Ross.ShaftLemmas Ross.ConvLemmas Ross.AssemblyLemmas
  Ross.RotorLemmas Ross.StaticLemmas Rotor

variable {k : ℕ} {s y : ShaftElement}

theorem mM {t : ShaftElement} (ht : t.Built) (h : 1 + t.phi ≠ 0) :
    t.M = Matrix.of (t.beam.massT t.phi) +
      (if t.rotary_inertia then Matrix.of (t.beam.massR t.phi) else 0) := by
  ext i j
  rw [C05_mass_galerkin t ht h]
  split_ifs <;> simp

theorem mK {t : ShaftElement} (ht : t.Built) (h : 1 + t.phi ≠ 0) (hp : Plain t) :
    t.K = Matrix.of (t.beam.stiffB t.phi) + Matrix.of (t.beam.stiffS t.kappa t.phi) := by
  ext i j
  rw [C07_stiffness_galerkin t ht h]
  have : t.beam.F = 0 := hp.1
  simp [Beam.stiffF, Beam.stiffT, this, hp.2.1]

theorem mG {t : ShaftElement} (ht : t.Built) (h : 1 + t.phi ≠ 0) :
    t.G = if t.gyroscopic then Matrix.of (t.beam.gyro t.phi) else 0 := by
  ext i j
  rw [C09_gyro_galerkin t ht h]
  split_ifs <;> simp

theorem part_physical (hk : k ≠ 0) (hp : Part k s y) (hphys : s.beam.Physical) : y.beam.Physical := by
  have hL := hphys.L_pos
  refine ⟨?_, ?_, ?_, ?_, ?_, ?_, ?_, ?_, ?_⟩
  · simp only [ShaftElement.beam, hp.length] at hL ⊢
    have : (0:ℝ) < k := by exact_mod_cast Nat.pos_of_ne_zero hk
    positivity
  all_goals simp only [ShaftElement.beam, hp.idl, hp.odl, hp.idr, hp.odr, hp.material]
  exacts [hphys.2, hphys.3, hphys.4, hphys.5, hphys.6, hphys.7, hphys.8, hphys.9]

theorem part_nested (hk : k ≠ 0) (hp : Part k s y) (hs : s.Built) (hy : y.Built)
    (hphys : s.beam.Physical) (hi : s.idl = s.idr) (ho : s.odl = s.odr) (ps : Plain s)
    (py : Plain y) :
    pull s.beam s.phi y.L k y.M = s.M ∧ pull s.beam s.phi y.L k y.K = s.K ∧
    pull s.beam s.phi y.L k y.G = s.G := by
  have fs := built_facts hs
  have fy := built_facts hy
  have hkR : (k : ℝ) ≠ 0 := by exact_mod_cast hk
  have hyp := part_physical hk hp hphys
  have h1 : 1 + s.phi ≠ 0 := (one_add_phi_pos fs hphys).ne'
  have h2 : 1 + y.phi ≠ 0 := (one_add_phi_pos fy hyp).ne'
  obtain ⟨hkap, hphi⟩ := part_phi hk hp fs fy ho.symm hi.symm ps.2.2.2.2 py.2.2.2.2
  have hL : s.L = k * y.L := by rw [hp.length]; field_simp
  have rN : ∀ z a t, s.beam.N s.phi a (z + t) = ∑ c, ends s.beam s.phi z y.L a c * y.beam.N y.phi c t :=
    fun z a t => N_restrict (b := s.beam) (b' := y.beam) fs.L fy.L hphi h1 h2 a z t
  have rT : ∀ z a t, s.beam.Θ s.phi a (z + t) = ∑ c, ends s.beam s.phi z y.L a c * y.beam.Θ y.phi c t :=
    fun z a t => Θ_restrict (b := s.beam) (b' := y.beam) fs.L fy.L hphi h1 h2 a z t
  have rdN := fun z a => deriv_restrict (differentiable_N y.beam y.phi) (rN z a)
  have rdT := fun z a => deriv_restrict (differentiable_Θ y.beam y.phi) (rT z a)
  have rγ : ∀ z a t, s.beam.γ s.phi a (z + t) = ∑ c, ends s.beam s.phi z y.L a c * y.beam.γ y.phi c t := by
    intro z a t
    simp only [Beam.γ]
    rw [rdN, rT, ← Finset.sum_sub_distrib]
    exact Finset.sum_congr rfl fun c _ => by ring
  have c1 := const_section (b := s.beam) ho.symm hi.symm
  have c2 := const_section (b := y.beam) (by simp only [ShaftElement.beam, hp.odl, hp.odr, ho])
      (by simp only [ShaftElement.beam, hp.idl, hp.idr, hi])
  have eo : y.beam.odl = s.beam.odl := hp.odl
  have ei : y.beam.idl = s.beam.idl := hp.idl
  have er : y.beam.rho = s.beam.rho := congrArg Material.rho hp.material
  have eE : y.beam.E = s.beam.E := congrArg Material.E hp.material
  have eG : y.beam.G = s.beam.G := congrArg Material.G_s hp.material
  have eL : s.beam.L = k * y.L := hL
  have eL' : y.beam.L = y.L := rfl
  have nT : pull s.beam s.phi y.L k (Matrix.of (y.beam.massT y.phi)) = Matrix.of (s.beam.massT s.phi) := by
    unfold Beam.massT
    simp only [(c1 _).1, (c2 _).1, eo, ei, er, eL, eL']
    exact same_nested (continuous_N _ _) (continuous_N _ _) rN
  have nR : pull s.beam s.phi y.L k (Matrix.of (y.beam.massR y.phi)) = Matrix.of (s.beam.massR s.phi) := by
    unfold Beam.massR
    simp only [(c1 _).2, (c2 _).2, eo, ei, er, eL, eL']
    exact same_nested (continuous_Θ _ _) (continuous_Θ _ _) rT
  have nB : pull s.beam s.phi y.L k (Matrix.of (y.beam.stiffB y.phi)) = Matrix.of (s.beam.stiffB s.phi) := by
    unfold Beam.stiffB
    simp only [(c1 _).2, (c2 _).2, eo, ei, eE, eL, eL']
    exact same_nested (continuous_dΘ _ _) (continuous_dΘ _ _) rdT
  have nS : pull s.beam s.phi y.L k (Matrix.of (y.beam.stiffS y.kappa y.phi))
      = Matrix.of (s.beam.stiffS s.kappa s.phi) := by
    unfold Beam.stiffS
    simp only [(c1 _).1, (c2 _).1, eo, ei, eG, eL, eL', hkap]
    exact same_nested (continuous_γ _ _) (continuous_γ _ _) rγ
  have nG : pull s.beam s.phi y.L k (Matrix.of (y.beam.gyro y.phi)) = Matrix.of (s.beam.gyro s.phi) := by
    unfold Beam.gyro
    simp only [(c1 _).2, (c2 _).2, eo, ei, er, eL, eL']
    exact cross_nested (continuous_Θ _ _) (continuous_Θ _ _) rT
  refine ⟨?_, ?_, ?_⟩
  · rw [mM hs h1, mM hy h2, pull_add, nT, hp.rotary]
    congr 1
    split_ifs
    · exact nR
    · exact pull_zero ..
  · rw [mK hs h1 ps, mK hy h2 py, pull_add, nB, nS]
  · rw [mG hs h1, mG hy h2, hp.gyro]
    split_ifs
    · exact nG
    · exact pull_zero ..

/-- Parts of the same element have the same matrices. -/
theorem part_same {y' : ShaftElement} (hk : k ≠ 0) (hphys : s.beam.Physical) (hy : Part k s y)
    (hy' : Part k s y') (b : y.Built) (b' : y'.Built) (p : Plain y) (p' : Plain y') :
    y'.M = y.M ∧ y'.K = y.K ∧ y'.G = y.G := by
  have hb : y'.beam = y.beam := by
    simp [ShaftElement.beam, hy.length, hy'.length, hy.idl, hy'.idl, hy.odl, hy'.odl, hy.idr, hy'.idr,
      hy.odr, hy'.odr, hy.material, hy'.material, p.1, p'.1]
  have hκ : y'.kappa = y.kappa := by
    rw [kappa_eq, kappa_eq, specKappa, specKappa, hb, p.2.2.2.2, p'.2.2.2.2, hy.material, hy'.material]
  have hφ : y'.phi = y.phi := by
    rw [phi_eq (built_facts b), phi_eq (built_facts b'), specPhi, specPhi, ← kappa_eq, ← kappa_eq, hκ, hb,
      hy.shear, hy'.shear]
  have h1 : 1 + y.phi ≠ 0 := (one_add_phi_pos (built_facts b) (part_physical hk hy hphys)).ne'
  have h2 : 1 + y'.phi ≠ 0 := hφ ▸ h1
  rw [mM b h1, mM b' h2, mK b h1 p, mK b' h2 p', mG b h1, mG b' h2, hb, hφ, hκ, hy.rotary, hy'.rotary,
    hy.gyro, hy'.gyro]
  exact ⟨rfl, rfl, rfl⟩

theorem motion_zero (b : Beam) (hL : b.L ≠ 0) {φ : ℝ} (hφ : 1 + φ ≠ 0) (q : Fin 8 → ℝ) (c : Fin 4) :
    b.motion φ q 0 c = q (c.castLE (by omega)) := by
  fin_cases c <;> simp [Beam.motion, Fin.sum_univ_eight, Beam.field, Beam.N, Beam.Θ] <;>
    field_simp <;> first | rfl | (simp; rfl)

theorem motion_end (b : Beam) (hL : b.L ≠ 0) {φ : ℝ} (hφ : 1 + φ ≠ 0) (q : Fin 8 → ℝ) (c : Fin 4) :
    b.motion φ q b.L c = q (c.natAdd 4) := by
  have h2 : φ + 1 ≠ 0 := by rwa [add_comm]
  fin_cases c
  · show ∑ i, q i * Beam.field (b.N φ) 0 i b.L = q 4
    simp [Fin.sum_univ_eight, Beam.field, Beam.N, div_self hL]
    field_simp; ring
  · show ∑ i, q i * Beam.field (b.N φ) 1 i b.L = q 5
    simp [Fin.sum_univ_eight, Beam.field, Beam.N, div_self hL]
    field_simp; ring
  · show -∑ i, q i * Beam.field (b.Θ φ) 1 i b.L = q 6
    simp [Fin.sum_univ_eight, Beam.field, Beam.Θ, div_self hL]
    field_simp; ring
  · show ∑ i, q i * Beam.field (b.Θ φ) 0 i b.L = q 7
    simp [Fin.sum_univ_eight, Beam.field, Beam.Θ, div_self hL]
    field_simp; ring

/-- The unknowns of a part are the motion at its ends. -/
theorem nodal_motion (b : Beam) (φ z l : ℝ) (q : Fin 8 → ℝ) (c : Fin 8) :
    (b.nodal φ z l).mulVec q c = if h : (c : ℕ) < 4 then b.motion φ q z ⟨c, h⟩
      else b.motion φ q (z + l) ⟨c - 4, by omega⟩ := by
  simp only [Matrix.mulVec, dotProduct, Beam.nodal, Matrix.of_apply]
  fin_cases c <;> simp [Beam.motion, mul_comm]

variable {pd pd' : Pandas} {fuel fuel' : ℕ} {a b : RotorArgs} {r x : Rotor}

/-- **C29** (cylindrical elements without axial force and torque) the `k` parts of an element, when
they move as the element does, have the mass, stiffness and gyroscopic matrix of the element. -/
theorem C29_elements_partial (hk : k ≠ 0) (hr : r.refine k = .ok b)
    (hx : init pd fuel b = some (.ok x)) (i : ℕ) (hi : i < r.shaft.length)
    (hs : r.shaft[i].s.Built) (hphys : r.shaft[i].s.beam.Physical) (hc : Cylinder r.shaft[i])
    (hp : Plain r.shaft[i].s) (j : ℕ) (hj : j < k) :
    ∃ hp : k * i + j < x.shaft.length,
      let P := fun m : ℕ => r.shaft[i].s.beam.nodal r.shaft[i].s.phi (m * (r.shaft[i].s.L / k))
        (r.shaft[i].s.L / k)
      let y := x.shaft[k * i + j].s
      ∑ m ∈ Finset.range k, (P m).transpose * y.M * P m = r.shaft[i].s.M ∧
      ∑ m ∈ Finset.range k, (P m).transpose * y.K * P m = r.shaft[i].s.K ∧
      ∑ m ∈ Finset.range k, (P m).transpose * y.G * P m = r.shaft[i].s.G := by
  obtain ⟨hz, hq⟩ := C29_sections_partial hk hr hx i hi hc j hj
  obtain ⟨-, -, ht⟩ := C29_tiles hr hx
  obtain ⟨_, -, -, -, -, -, -, hpl⟩ := ht i hi j hj
  have hb : x.shaft[k * i + j].s.Built :=
    facts_built (physical_facts (part_physical hk hq hphys) (Or.inr hpl.2.2.2.2))
  have := part_nested hk hq hs hb hphys hc.1 hc.2 hp hpl
  rw [hq.length] at this
  exact ⟨hz, this⟩

theorem interp_node (hk : k ≠ 0) (hne : r.shaft ≠ []) (hg : ∀ e ∈ r.shaft, e.s.beam.L ≠ 0 ∧ 1 + e.s.phi ≠ 0)
    {u w : ℕ → ℝ} (hw : Interpolates r k u w) {n : ℕ} (hn : n ≤ r.shaft.length) (c : Fin 4) :
    w (4 * (k * n) + c) = u (4 * n + c) := by
  have hkR : (k : ℝ) ≠ 0 := by exact_mod_cast hk
  rcases Nat.lt_or_eq_of_le hn with h | rfl
  · obtain ⟨h1, h2⟩ := hg _ (List.getElem_mem h)
    have := hw n h 0 (Nat.zero_le _) c
    rw [Nat.add_zero, Nat.cast_zero, zero_mul, motion_zero _ h1 h2] at this
    exact this
  · have hp := List.length_pos_iff.2 hne
    obtain ⟨m, hm⟩ : ∃ m, r.shaft.length = m + 1 := ⟨_, (Nat.succ_pred_eq_of_pos hp).symm⟩
    have hi : m < r.shaft.length := by omega
    obtain ⟨h1, h2⟩ := hg _ (List.getElem_mem hi)
    have := hw m hi k le_rfl c
    have e : (k : ℝ) * (r.shaft[m].s.L / k) = r.shaft[m].s.beam.L := by
      show (k : ℝ) * (r.shaft[m].s.L / k) = r.shaft[m].s.L
      field_simp
    rw [e, motion_end _ h1 h2] at this
    rw [hm, Nat.mul_succ, this]
    congr 1
    simp; omega

theorem sum_blocks (k n : ℕ) (f : ℕ → ℝ) :
    ∑ p ∈ Finset.range (k * n), f p = ∑ i ∈ Finset.range n, ∑ j ∈ Finset.range k, f (k * i + j) := by
  induction n with
  | zero => simp
  | succ n ih => rw [Nat.mul_succ, Finset.sum_range_add, ih, Finset.sum_range_succ]

theorem sum_list {α : Type} (l : List α) (f : α → ℝ) :
    (l.map f).sum = ∑ p ∈ Finset.range l.length, if h : p < l.length then f l[p] else 0 := by
  rw [Finset.sum_range]
  simp only [Fin.is_lt, dite_true]
  rw [← List.sum_ofFn]
  congr 1
  apply List.ext_getElem <;> simp

theorem global_shaft {N n : ℕ} {e : ShaftEl} (hn : e.s.n = some n) (hN : n + 1 ≤ N) (w : ℕ → ℝ) :
    loc (globalOf 4 N (.shaft e)) 8 w = fun (p : Fin 8) => w (4 * n + p) := by
  have h1 : n ≤ N := by omega
  funext p
  fin_cases p <;>
    simp [loc, globalOf, attach, Elm.n, hn, nodeLetters, dofsAt, slot, h1, hN, Nat.mul_succ,
      List.idxOf_cons]

theorem disk_inside (h : init pd' fuel' a = some (.ok r)) (hr : r.refine k = .ok b)
    (hx : init pd fuel b = some (.ok x)) (hk : k ≠ 0) {c : DiskEl} (hc : c ∈ r.disks) :
    c.d.n ≤ r.shaft.length := by
  have hb := refined_disks h hr hx
  obtain ⟨hlen, hs, -⟩ := refined_shaft hr hx
  have hi := (init_ok hx).inside
  have hpm : x.pms = [] := by
    obtain ⟨L, -, rfl⟩ := refine_iff.1 hr
    rw [(init_ok hx).pms]; rfl
  rw [hpm] at hi
  simp only [outside, decide_eq_false_iff_not, gt_iff_lt, not_lt] at hi
  have h1 := maxOr0_le.1 hi (k * c.d.n) (by
    rw [hb, List.map_map]
    exact List.mem_append_left _ (List.mem_append_right _ (List.mem_map.2 ⟨c, hc, rfl⟩)))
  have h2 : maxOr0 (x.shaft.map fun e => nodeOf e + 1) ≤ k * r.shaft.length := by
    rw [maxOr0_le]
    intro y hy
    obtain ⟨e, he, rfl⟩ := List.mem_map.1 hy
    have : leftNode e ∈ x.shaft.map leftNode := List.mem_map_of_mem he
    rw [hs, List.mem_range, hlen] at this
    exact this
  have h3 : k * c.d.n ≤ k * r.shaft.length :=
    h1.trans (max_le h2 (Nat.zero_le _))
  exact Nat.le_of_mul_le_mul_left h3 (Nat.pos_of_ne_zero hk)

theorem workOf_moved {nd N N' : ℕ} {mat : Elm → Res LMat} {e e' : Elm} {u v u' v' : ℕ → ℝ}
    (hm : mat e' = mat e) (hu : ∀ p, u' ((globalOf nd N' e').getD p 0) = u ((globalOf nd N e).getD p 0))
    (hv : ∀ p, v' ((globalOf nd N' e').getD p 0) = v ((globalOf nd N e).getD p 0)) :
    workOf nd N' mat e' u' v' = workOf nd N mat e u v := by
  unfold workOf
  rw [hm]
  cases mat e with
  | error _ => rfl
  | ok E => simp only [elemBilin, hu, hv]

/-- The work of the elements of the refined rotor in interpolated motions. -/
theorem refined_work (h : init pd' fuel' a = some (.ok r)) (h4 : r.number_dof = 4)
    (hl : SingleLayer r.shaft) (hne : r.shaft ≠ [])
    (hg : ∀ e ∈ r.shaft, e.s.Built ∧ e.s.beam.Physical ∧ Cylinder e ∧ Plain e.s)
    (hlink : ∀ c ∈ r.bearings, c.n_link = none) (hpm : r.pms = []) (hk : k ≠ 0) (hr : r.refine k = .ok b)
    (hx : init pd fuel b = some (.ok x)) {u v u' v' : ℕ → ℝ} (hu : Interpolates r k u u')
    (hv : Interpolates r k v v') (mat : Elm → Res LMat)
    (hmat : ∀ i (hi : i < r.shaft.length), ∃ (S : Matrix (Fin 8) (Fin 8) ℝ) (Y : Matrix (Fin 8) (Fin 8) ℝ),
      mat (.shaft r.shaft[i]) = .ok ⟨8, S⟩ ∧
      (∀ j (_ : j < k) (hp : k * i + j < x.shaft.length), mat (.shaft x.shaft[k * i + j]) = .ok ⟨8, Y⟩) ∧
      pull r.shaft[i].s.beam r.shaft[i].s.phi (r.shaft[i].s.L / k) k Y = S)
    (hdk : ∀ e ∈ r.disks, mat (.disk (scaleDisk k e)) = mat (.disk e))
    (hbk : ∀ e ∈ r.bearings, mat (.brg (scaleBrg k e)) = mat (.brg e)) :
    (x.elements.map fun e => workOf x.number_dof (shaftEnd x) mat e u' v').sum =
      (r.elements.map fun e => workOf r.number_dof (shaftEnd r) mat e u v).sum := by
  have hxb := init_ok hx
  have hrb := init_ok h
  obtain ⟨hlen, hsx, ht⟩ := C29_tiles hr hx
  have hlp := List.length_pos_iff.2 hne
  have hkp := Nat.pos_of_ne_zero hk
  have hLr : ∀ e ∈ r.shaft, 0 < e.s.L := fun e he => (hg e he).2.1.L_pos
  have hxn : x.shaft ≠ [] := by
    rw [← List.length_pos_iff, hlen]; exact Nat.mul_pos hkp hlp
  have hLx : ∀ e ∈ x.shaft, 0 < e.s.L := by
    intro e he
    obtain ⟨p, hp', rfl⟩ := List.getElem_of_mem he
    have h1 : k * (p / k) + p % k = p := Nat.div_add_mod p k
    have hi : p / k < r.shaft.length := Nat.div_lt_of_lt_mul (by rwa [hlen] at hp')
    obtain ⟨hb, -, h2, -⟩ := ht (p / k) hi (p % k) (Nat.mod_lt _ hkp)
    simp only [h1] at h2
    rw [h2]
    exact div_pos (hLr _ (List.getElem_mem _)) (by exact_mod_cast hkp)
  have fr := full_of_single hl hLr hne
  have fx := full_of_single hsx hLx hxn
  have er : shaftEnd r = r.shaft.length := by rw [shaftEnd_eq h, lastShaftNode_full fr]
  have ex : shaftEnd x = k * r.shaft.length := by rw [shaftEnd_eq hx, lastShaftNode_full fx, hlen]
  have hx4 : x.number_dof = 4 := by
    obtain ⟨hp, h0, -⟩ := ht 0 hlp 0 hkp
    have e4 := shaft_six hx ((mem_elements hxb _).2 (.inl ⟨_, List.getElem_mem hp, rfl⟩))
    rw [h0] at e4
    rcases nd_cases hxb with h | h
    · exact h
    · simp [h] at e4
  have hxpm : x.pms = [] := by
    obtain ⟨L, -, rfl⟩ := refine_iff.1 hr
    rw [hxb.pms]; rfl
  have hgood : ∀ e ∈ r.shaft, e.s.beam.L ≠ 0 ∧ 1 + e.s.phi ≠ 0 := fun e he =>
    ⟨(hLr e he).ne', (one_add_phi_pos (built_facts (hg e he).1) (hg e he).2.1).ne'⟩
  have node : ∀ {w w' : ℕ → ℝ}, Interpolates r k w w' → ∀ {n : ℕ}, n ≤ r.shaft.length → ∀ c : ℕ, c < 4 →
      w' (4 * (k * n) + c) = w (4 * n + c) := fun hw n hn c hc =>
    interp_node hk hne hgood hw hn ⟨c, hc⟩
  have nodeR : ∀ i (hi : i < r.shaft.length), r.shaft[i].s.n = some i := by
    intro i hi
    have h1 := (shaft_given h (List.getElem_mem hi)).1
    have h2 := congrArg (fun l => l[i]?) hl
    simp only [List.getElem?_map, List.getElem?_eq_getElem hi, List.getElem?_range hi,
      Option.map_some, Option.some.injEq] at h2
    rw [h1]; exact congrArg some h2
  have nodeX : ∀ i (hi : i < x.shaft.length), x.shaft[i].s.n = some i := by
    intro i hi
    have h1 := (shaft_given hx (List.getElem_mem hi)).1
    have h2 := congrArg (fun l => l[i]?) hsx
    simp only [List.getElem?_map, List.getElem?_eq_getElem hi, List.getElem?_range hi,
      Option.map_some, Option.some.injEq] at h2
    rw [h1]; exact congrArg some h2
  rw [elements_eq' hxb, elements_eq' hrb, hxpm, hpm, hx4, h4, er, ex]
  simp only [List.map_append, List.map_map, List.sum_append, List.map_nil, List.sum_nil, add_zero]
  congr 1
  · congr 1
    · rw [sum_list, sum_list, show Finset.range x.shaft.length =
        Finset.range (k * r.shaft.length) from by rw [hlen], sum_blocks]
      refine Finset.sum_congr rfl fun i hi => ?_
      have hi := Finset.mem_range.1 hi
      rw [dif_pos hi]
      obtain ⟨S, Y, hS, hY, hpull⟩ := hmat i hi
      have e1 : ∀ j ∈ Finset.range k, (if hp : k * i + j < x.shaft.length then
          ((fun e => workOf 4 (k * r.shaft.length) mat e u' v') ∘ Elm.shaft) x.shaft[k * i + j] else 0) =
          dotProduct (fun d : Fin 8 => u (4 * i + d)) (((r.shaft[i].s.beam.nodal r.shaft[i].s.phi
            (j * (r.shaft[i].s.L / k)) (r.shaft[i].s.L / k)).transpose * Y *
            r.shaft[i].s.beam.nodal r.shaft[i].s.phi (j * (r.shaft[i].s.L / k))
              (r.shaft[i].s.L / k)).mulVec fun d : Fin 8 => v (4 * i + d)) := by
        intro j hj
        have hj := Finset.mem_range.1 hj
        obtain ⟨hp, -⟩ := ht i hi j hj
        have hp' : k * i + j + 1 ≤ k * r.shaft.length := by rw [← hlen]; exact hp
        have key : ∀ {w w' : ℕ → ℝ}, Interpolates r k w w' →
            (fun p : Fin 8 => w' (4 * (k * i + j) + p)) =
            (r.shaft[i].s.beam.nodal r.shaft[i].s.phi (j * (r.shaft[i].s.L / k))
              (r.shaft[i].s.L / k)).mulVec fun d : Fin 8 => w (4 * i + d) := by
          intro w w' hw
          funext p
          rw [nodal_motion]
          split_ifs with hp4
          · exact hw i hi j hj.le ⟨p, hp4⟩
          · have := hw i hi (j + 1) hj ⟨p - 4, by omega⟩
            have e : ((j + 1 : ℕ) : ℝ) * (r.shaft[i].s.L / k) =
              j * (r.shaft[i].s.L / k) + r.shaft[i].s.L / k := by push_cast; ring
            rw [e] at this
            rw [← this]
            congr 1
            show 4 * (k * i + j) + (p : ℕ) = 4 * (k * i + (j + 1)) + (p - 4)
            omega
        rw [dif_pos hp]
        simp only [Function.comp_apply, workOf, hY j hj hp]
        rw [elemBilin_loc, global_shaft (nodeX _ hp) hp', global_shaft (nodeX _ hp) hp', key hu, key hv]
        simp only [Matrix.mulVec_mulVec, Matrix.dotProduct_mulVec, Matrix.vecMul_vecMul,
          Matrix.mul_assoc]
        rw [← Matrix.vecMul_transpose, Matrix.vecMul_vecMul]
      rw [Finset.sum_congr rfl e1]
      simp only [Function.comp_apply, workOf, hS]
      rw [elemBilin_loc, global_shaft (nodeR _ hi) hi, global_shaft (nodeR _ hi) hi, ← hpull, pull,
        Matrix.sum_mulVec, dotProduct_sum]
    · rw [refined_disks h hr hx, List.map_map]
      congr 1
      refine List.map_congr_left fun d hd => ?_
      have hn := disk_inside h hr hx hk hd
      have hn' : k * d.d.n ≤ k * r.shaft.length := Nat.mul_le_mul_left k hn
      refine workOf_moved (hdk d hd) (fun p => ?_) fun p => ?_
      · rcases p with _ | _ | _ | _ | p <;>
          simp [globalOf, attach, Elm.n, nodeLetters, dofsAt, slot, hn, hn', scaleDisk, List.idxOf_cons]
        · exact node hu hn 0 (by omega)
        · exact node hu hn 1 (by omega)
        · exact node hu hn 2 (by omega)
        · exact node hu hn 3 (by omega)
        · exact node hu (Nat.zero_le _) 0 (by omega)
      · rcases p with _ | _ | _ | _ | p <;>
          simp [globalOf, attach, Elm.n, nodeLetters, dofsAt, slot, hn, hn', scaleDisk, List.idxOf_cons]
        · exact node hv hn 0 (by omega)
        · exact node hv hn 1 (by omega)
        · exact node hv hn 2 (by omega)
        · exact node hv hn 3 (by omega)
        · exact node hv (Nat.zero_le _) 0 (by omega)
  · rw [refined_bearings h hr hx, List.map_map]
    congr 1
    refine List.map_congr_left fun d hd => ?_
    have hn := refined_inside h hr hx hk hd
    have hn' : k * d.n ≤ k * r.shaft.length := Nat.mul_le_mul_left k hn
    have e1 : globalOf 4 (k * r.shaft.length) (.brg (scaleBrg k d)) = [4 * (k * d.n), 4 * (k * d.n) + 1] := by
      simp [globalOf, attach, Elm.n, supportLetters, nodeLetters, dofsAt, slot, hn', scaleBrg_n, scaleBrg_link,
        hlink d hd, List.idxOf_cons]
    have e2 : globalOf 4 r.shaft.length (.brg d) = [4 * d.n, 4 * d.n + 1] := by
      simp [globalOf, attach, Elm.n, supportLetters, nodeLetters, dofsAt, slot, hn, hlink d hd, List.idxOf_cons]
    refine workOf_moved (hbk d hd) (fun p => ?_) fun p => ?_
    · rw [e1, e2]
      rcases p with _ | _ | p
      · exact node hu hn 0 (by omega)
      · exact node hu hn 1 (by omega)
      · exact node hu (Nat.zero_le _) 0 (by omega)
    · rw [e1, e2]
      rcases p with _ | _ | p
      · exact node hv hn 0 (by omega)
      · exact node hv hn 1 (by omega)
      · exact node hv (Nat.zero_le _) 0 (by omega)

/-- The parts of an element, with matrices common to all of them. -/
theorem parts_mats (hk : k ≠ 0) (hr : r.refine k = .ok b) (hx : init pd fuel b = some (.ok x)) (i : ℕ)
    (hi : i < r.shaft.length) (hs : r.shaft[i].s.Built) (hphys : r.shaft[i].s.beam.Physical)
    (hc : Cylinder r.shaft[i]) (hp : Plain r.shaft[i].s) : ∃ y : ShaftElement,
      (∀ j (_ : j < k) (hp : k * i + j < x.shaft.length), ∃ z, x.shaft[k * i + j] = ⟨false, z⟩ ∧
        z.M = y.M ∧ z.K = y.K ∧ z.C = 0 ∧ z.G = y.G) ∧
      pull r.shaft[i].s.beam r.shaft[i].s.phi (r.shaft[i].s.L / k) k y.M = r.shaft[i].s.M ∧
      pull r.shaft[i].s.beam r.shaft[i].s.phi (r.shaft[i].s.L / k) k y.K = r.shaft[i].s.K ∧
      pull r.shaft[i].s.beam r.shaft[i].s.phi (r.shaft[i].s.L / k) k y.G = r.shaft[i].s.G := by
  obtain ⟨-, -, ht⟩ := C29_tiles hr hx
  have all : ∀ j (_ : j < k) (hp : k * i + j < x.shaft.length), x.shaft[k * i + j].six = false ∧
      Part k r.shaft[i].s x.shaft[k * i + j].s ∧ Plain x.shaft[k * i + j].s ∧
      x.shaft[k * i + j].s.Built := by
    intro j hj hp
    obtain ⟨_, hq⟩ := C29_sections_partial hk hr hx i hi hc j hj
    obtain ⟨_, h6, -, -, -, -, -, hpl⟩ := ht i hi j hj
    exact ⟨h6, hq, hpl, facts_built (physical_facts (part_physical hk hq hphys) (Or.inr hpl.2.2.2.2))⟩
  obtain ⟨h0, -⟩ := ht i hi 0 (Nat.pos_of_ne_zero hk)
  obtain ⟨-, q0, p0, b0⟩ := all 0 (Nat.pos_of_ne_zero hk) h0
  have hn := part_nested hk q0 hs b0 hphys hc.1 hc.2 hp p0
  rw [q0.length] at hn
  refine ⟨x.shaft[k * i + 0].s, fun j hj hp => ?_, hn⟩
  obtain ⟨h6, qj, pj, bj⟩ := all j hj hp
  obtain ⟨e1, e2, e3⟩ := part_same hk hphys q0 qj b0 bj p0 pj
  refine ⟨x.shaft[k * i + j].s, ?_, e1, e2, ?_, e3⟩
  · rw [← h6]
  · simp [ShaftElement.C, pj.2.2.1, pj.2.2.2.1]

/-- **C29** (4-dof rotors with one layer of cylindrical elements, without axial force, torque and
material damping, on bearings to ground) the refined rotor contains the rotor: in the motions that
the rotor can describe, the mass, stiffness, damping and gyroscopic matrices of both do the same
work. -/
theorem C29_nested_partial (h : init pd' fuel' a = some (.ok r)) (h4 : r.number_dof = 4)
    (hl : SingleLayer r.shaft) (hne : r.shaft ≠ [])
    (hg : ∀ e ∈ r.shaft, e.s.Built ∧ e.s.beam.Physical ∧ Cylinder e ∧ Plain e.s)
    (hlink : ∀ c ∈ r.bearings, c.n_link = none) (hpm : r.pms = []) (hk : k ≠ 0) (hr : r.refine k = .ok b)
    (hx : init pd fuel b = some (.ok x)) {u v u' v' : ℕ → ℝ} (hu : Interpolates r k u u')
    (hv : Interpolates r k v v') (ω : ℝ) :
    (∀ B B', r.M (some ω) = .ok B → x.M (some ω) = .ok B' → bilin B' u' v' = bilin B u v) ∧
    (∀ B B', r.K ω = .ok B → x.K ω = .ok B' → bilin B' u' v' = bilin B u v) ∧
    (∀ B B', r.C ω = .ok B → x.C ω = .ok B' → bilin B' u' v' = bilin B u v) ∧
    ∀ B B', r.G = .ok B → x.G = .ok B' → bilin B' u' v' = bilin B u v := by
  have hxpm : x.pms = [] := by
    obtain ⟨L, -, rfl⟩ := refine_iff.1 hr
    rw [(init_ok hx).pms]; rfl
  have fits : ∀ {r : Rotor} {pd fuel a}, init pd fuel a = some (.ok r) → r.pms = [] →
      ∀ e ∈ r.elements, Fits r.number_dof e := by
    intro r pd fuel a h hpm e he
    rcases (mem_elements (init_ok h) e).1 he with ⟨s, hs, h⟩ | ⟨s, hs, h⟩ | ⟨s, hs, h⟩ | ⟨p, hp, h⟩
    · rw [h]; trivial
    · rw [h]; trivial
    · rw [h]; trivial
    · rw [hpm] at hp; cases hp
  have hfr := fits h hpm
  have hfx := fits hx hxpm
  have hsr : ∀ i (hi : i < r.shaft.length), r.shaft[i] = ⟨false, r.shaft[i].s⟩ := by
    intro i hi
    have := shaft_six h ((mem_elements (init_ok h) _).2 (.inl ⟨_, List.getElem_mem hi, rfl⟩))
    simp only [h4, Nat.reduceEqDiff, decide_false] at this
    rw [← this]
  have pm := fun i (hi : i < r.shaft.length) =>
    have g := hg _ (List.getElem_mem hi)
    parts_mats hk hr hx i hi g.1 g.2.1 g.2.2.1 g.2.2.2
  have hdisk : ∀ e : DiskEl, (Elm.disk (scaleDisk k e)).M ω = (Elm.disk e).M ω ∧
      (Elm.disk (scaleDisk k e)).K ω = (Elm.disk e).K ω ∧
      (Elm.disk (scaleDisk k e)).C ω = (Elm.disk e).C ω ∧
      (Elm.disk (scaleDisk k e)).G = (Elm.disk e).G := by
    rintro ⟨six, d⟩
    cases six <;> exact ⟨rfl, rfl, rfl, rfl⟩
  have hbrg := fun e => scaleBrg_mats k e ω
  have go := fun mat hmat hdk hbk =>
    refined_work h h4 hl hne hg hlink hpm hk hr hx hu hv mat hmat hdk hbk
  refine ⟨fun B B' hB hB' => ?_, fun B B' hB hB' => ?_, fun B B' hB hB' => ?_, fun B B' hB hB' => ?_⟩
  · rw [(C18_mass hx hfx hB').2, (C18_mass h hfr hB).2]
    refine go (Elm.M ω) (fun i hi => ?_) (fun e _ => (hdisk e).1) fun e _ => (hbrg e).1
    obtain ⟨y, hy, hM, hK, hG⟩ := pm i hi
    refine ⟨_, y.M, by rw [hsr i hi]; rfl, fun j hj hp => ?_, hM⟩
    obtain ⟨z, hz, e1, e2, e3, e4⟩ := hy j hj hp
    rw [hz, ← e1]; rfl
  · rw [(C18_stiffness hx hfx hB').2, (C18_stiffness h hfr hB).2]
    simp only [List.not_mem_nil, not_false_eq_true, decide_true, List.filter_true]
    refine go (Elm.K ω) (fun i hi => ?_) (fun e _ => (hdisk e).2.1) fun e _ => (hbrg e).2.1
    obtain ⟨y, hy, hM, hK, hG⟩ := pm i hi
    refine ⟨_, y.K, by rw [hsr i hi]; rfl, fun j hj hp => ?_, hK⟩
    obtain ⟨z, hz, e1, e2, e3, e4⟩ := hy j hj hp
    rw [hz, ← e2]; rfl
  · rw [(C18_damping hx hfx hB').2, (C18_damping h hfr hB).2]
    simp only [List.not_mem_nil, not_false_eq_true, decide_true, List.filter_true]
    refine go (Elm.C ω) (fun i hi => ?_) (fun e _ => (hdisk e).2.2.1) fun e _ => (hbrg e).2.2.1
    obtain ⟨y, hy, hM, hK, hG⟩ := pm i hi
    have hpl := (hg _ (List.getElem_mem hi)).2.2.2
    refine ⟨0, 0, ?_, fun j hj hp => ?_, pull_zero ..⟩
    · rw [hsr i hi]
      show (Except.ok ⟨8, r.shaft[i].s.C⟩ : Res LMat) = _
      rw [ShaftElement.C, hpl.2.2.1, hpl.2.2.2.1]; simp
    · obtain ⟨z, hz, e1, e2, e3, e4⟩ := hy j hj hp
      rw [hz, ← e3]; rfl
  · rw [(C18_gyro hx hfx hB').2, (C18_gyro h hfr hB).2]
    refine go Elm.G (fun i hi => ?_) (fun e _ => (hdisk e).2.2.2) fun e _ => (hbrg e).2.2.2
    obtain ⟨y, hy, hM, hK, hG⟩ := pm i hi
    refine ⟨_, y.G, by rw [hsr i hi]; rfl, fun j hj hp => ?_, hG⟩
    obtain ⟨z, hz, e1, e2, e3, e4⟩ := hy j hj hp
    rw [hz, ← e4]; rfl

/-- Every motion of the rotor has a description on the finer mesh. -/
theorem interpolates_exists (hk : k ≠ 0) (hg : ∀ e ∈ r.shaft, e.s.beam.L ≠ 0 ∧ 1 + e.s.phi ≠ 0)
    (u : ℕ → ℝ) : ∃ w, Interpolates r k u w := by
  have hkR : (k : ℝ) ≠ 0 := by exact_mod_cast hk
  have hkp := Nat.pos_of_ne_zero hk
  let mot : ℕ → ℕ → Fin 4 → ℝ := fun i j c => if hi : i < r.shaft.length then
    r.shaft[i].s.beam.motion r.shaft[i].s.phi (fun d => u (4 * i + d)) (j * (r.shaft[i].s.L / k)) c
    else u (4 * i + c)
  refine ⟨fun p => mot (p / 4 / k) (p / 4 % k) ⟨p % 4, Nat.mod_lt _ (by norm_num)⟩, ?_⟩
  intro i hi j hj c
  have e1 : (4 * (k * i + j) + (c : ℕ)) / 4 = k * i + j := by omega
  have e2 : (⟨(4 * (k * i + j) + (c : ℕ)) % 4, Nat.mod_lt _ (by norm_num)⟩ : Fin 4) = c := by
    ext; show (4 * (k * i + j) + (c : ℕ)) % 4 = c; omega
  simp only [e1, e2]
  rcases Nat.lt_or_eq_of_le hj with hj | rfl
  · have e3 : (k * i + j) / k = i := by
      rw [Nat.mul_add_div hkp, Nat.div_eq_of_lt hj, Nat.add_zero]
    have e4 : (k * i + j) % k = j := by rw [Nat.mul_add_mod, Nat.mod_eq_of_lt hj]
    rw [e3, e4]
    simp only [mot, dif_pos hi]
  · have e3 : (j * i + j) / j = i + 1 := by
      rw [Nat.mul_add_div hkp, Nat.div_self hkp]
    have e4 : (j * i + j) % j = 0 := by rw [Nat.mul_add_mod, Nat.mod_self]
    rw [e3, e4]
    obtain ⟨h1, h2⟩ := hg _ (List.getElem_mem hi)
    have e : (j : ℝ) * (r.shaft[i].s.L / j) = r.shaft[i].s.beam.L := by
      show (j : ℝ) * (r.shaft[i].s.L / j) = r.shaft[i].s.L
      field_simp
    rw [e, motion_end _ h1 h2]
    have e5 : mot (i + 1) 0 c = u (4 * (i + 1) + c) := by
      simp only [mot]
      split_ifs with h3
      · obtain ⟨g1, g2⟩ := hg _ (List.getElem_mem h3)
        rw [Nat.cast_zero, zero_mul, motion_zero _ g1 g2]
        rfl
      · rfl
    rw [e5]
    congr 1
    simp; omega

/-- **C29** (same rotors) refining the mesh never raises the lower bound of the natural frequencies: if
`λ` bounds the ratio of stiffness to inertia from below in all motions of the refined rotor, it does
so in all motions of the rotor. -/
theorem C29_rayleigh_partial (h : init pd' fuel' a = some (.ok r)) (h4 : r.number_dof = 4)
    (hl : SingleLayer r.shaft) (hne : r.shaft ≠ [])
    (hg : ∀ e ∈ r.shaft, e.s.Built ∧ e.s.beam.Physical ∧ Cylinder e ∧ Plain e.s)
    (hlink : ∀ c ∈ r.bearings, c.n_link = none) (hpm : r.pms = []) (hk : k ≠ 0) (hr : r.refine k = .ok b)
    (hx : init pd fuel b = some (.ok x)) {ω lam : ℝ} {M K M' K'} (hM : r.M (some ω) = .ok M)
    (hK : r.K ω = .ok K) (hM' : x.M (some ω) = .ok M') (hK' : x.K ω = .ok K')
    (hb : ∀ w, lam * bilin M' w w ≤ bilin K' w w) (u : ℕ → ℝ) : lam * bilin M u u ≤ bilin K u u := by
  have hgood : ∀ e ∈ r.shaft, e.s.beam.L ≠ 0 ∧ 1 + e.s.phi ≠ 0 := fun e he =>
    ⟨(hg e he).2.1.L_pos.ne', (one_add_phi_pos (built_facts (hg e he).1) (hg e he).2.1).ne'⟩
  obtain ⟨w, hw⟩ := interpolates_exists hk hgood u
  obtain ⟨e1, e2, -⟩ := C29_nested_partial h h4 hl hne hg hlink hpm hk hr hx hw hw ω
  rw [← e1 M M' hM hM', ← e2 K K' hK hK']
  exact hb w

/-- The rod meets the hypotheses; its matrices and those of its refinements exist. -/
example {m : ℕ} (hm : m ≠ 0) : ∃ r b x, init exPandas 10 (rodArgs 2) = some (.ok r) ∧
    r.number_dof = 4 ∧ SingleLayer r.shaft ∧ r.shaft ≠ [] ∧
    (∀ e ∈ r.shaft, e.s.Built ∧ e.s.beam.Physical ∧ Cylinder e ∧ Plain e.s) ∧
    (∀ c ∈ r.bearings, c.n_link = none) ∧ r.pms = [] ∧ r.refine m = .ok b ∧
    init exPandas 10 b = some (.ok x) ∧ (∃ B, r.M (some 0) = .ok B) ∧ (∃ B, x.M (some 0) = .ok B) ∧
    (∃ B, r.K 0 = .ok B) ∧ (∃ B, x.K 0 = .ok B) ∧ ∀ u, ∃ w, Interpolates r m u w := by
  obtain ⟨r, b, x, A, h1, h4, hl, hlen, hc, -, -, ⟨A0, hA0⟩, hr, hx, hA⟩ := rod_refines hm
  have hb := init_ok h1
  obtain ⟨r', h1', -, hsh, -⟩ := rod_facts (Or.inr rfl)
  rw [h1] at h1'
  cases h1'
  have hg : ∀ e ∈ r.shaft, e.s.Built ∧ e.s.beam.Physical ∧ Cylinder e ∧ Plain e.s := by
    intro e he
    obtain ⟨n, t, rfl⟩ := hsh e he
    exact ⟨rod_built _ _, rod_physical _ _, ⟨rfl, rfl⟩, rfl, rfl, rfl, rfl, rfl⟩
  have mats : ∀ {r : Rotor} {A}, r.A 0 = .ok A → (∃ B, r.M (some 0) = .ok B) ∧ ∃ B, r.K 0 = .ok B := by
    intro r A hA
    obtain ⟨M, K, -, -, hM, hK, -⟩ := StateLemmas.A_ok.1 hA
    exact ⟨⟨M, hM⟩, K, hK⟩
  obtain ⟨m1, m2⟩ := mats hA0
  obtain ⟨m3, m4⟩ := mats hA
  refine ⟨r, b, x, h1, h4, hl, by intro h0; rw [h0] at hlen; simp at hlen, hg, fun c hc' => ?_,
    by rw [hb.pms]; rfl, hr, hx, m1, m3, m2, m4, fun u => interpolates_exists hm (fun e he =>
      ⟨(hg e he).2.1.L_pos.ne', (one_add_phi_pos (built_facts (hg e he).1) (hg e he).2.1).ne'⟩) u⟩
  rw [hb.bearings, (parts_br_perm (rodArgs 2)).mem_iff] at hc'
  have : tagBearings (rodArgs 2).bearings =
    [.brg false { exBrg 0 none 1e6 100 with tag := some "Bearing 0" },
     .brg false { exBrg 2 none 1e6 100 with tag := some "Bearing 1" }] := rfl
  rw [this] at hc'
  simp only [List.mem_cons, List.not_mem_nil, or_false] at hc'
  rcases hc' with rfl | rfl <;> rfl

end Ross.Props
