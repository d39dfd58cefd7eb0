import Verif.Props.Assembly
import Verif.Lemmas.Passive
import Verif.Lemmas.StaticShaft

/-! # Virtual work of the elements in motions without axial and torsional part -/

namespace Ross.StaticLemmas

open Ross Ross.Spec Ross.BearingLemmas Ross.Rotor Ross.RotorLemmas Ross.ShaftLemmas Ross.Props
  Ross.Shaft6Lemmas Ross.AssemblyLemmas Matrix

variable {pd : Pandas} {a : RotorArgs} {r : Rotor} {fuel : ℕ}

/-- No axial displacement and no spin. -/
def Flat (u : String × ℕ → ℝ) : Prop := ∀ n, u ("z", n) = 0 ∧ u ("theta", n) = 0

/-- The motion of the two ends of an element. -/
def nodeVec (u : String × ℕ → ℝ) (n : ℕ) : Fin 8 → ℝ :=
  ![u ("x", n), u ("y", n), u ("alpha", n), u ("beta", n),
    u ("x", n + 1), u ("y", n + 1), u ("alpha", n + 1), u ("beta", n + 1)]

/-- Vectors of a 6-dof element without axial and torsional part. -/
def ext12 (f : Fin 8 → ℝ) : Fin 12 → ℝ :=
  ![f 0, f 1, 0, f 2, f 3, 0, f 4, f 5, 0, f 6, f 7, 0]

theorem sum_bend (h : Fin 12 → ℝ) (h2 : h 2 = 0) (h5 : h 5 = 0) (h8 : h 8 = 0) (h11 : h 11 = 0) :
    ∑ i, h i = ∑ i, h (bend i) := by
  have e : ∑ i, h i = h 0 + h 1 + h 2 + h 3 + h 4 + h 5 + h 6 + h 7 + h 8 + h 9 + h 10 + h 11 := by
    simp only [Fin.sum_univ_succ, Fin.sum_univ_zero]
    simp only [Fin.succ_zero_eq_one, Fin.succ_one_eq_two]
    rw [show (Fin.succ (2 : Fin 11)) = 3 from rfl]
    ring_nf
    rfl
  rw [e, h2, h5, h8, h11, Fin.sum_univ_eight]
  simp [bend]

theorem ext12_form (A : Matrix (Fin 12) (Fin 12) ℝ) (f g : Fin 8 → ℝ) :
    ext12 f ⬝ᵥ (A *ᵥ ext12 g) = f ⬝ᵥ (A.submatrix bend bend *ᵥ g) := by
  have hb : ∀ (f : Fin 8 → ℝ) (i : Fin 8), ext12 f (bend i) = f i := by
    intro f i; fin_cases i <;> rfl
  unfold dotProduct
  rw [sum_bend _ (by simp [ext12]) (by simp [ext12]) (by simp [ext12]) (by simp [ext12])]
  refine Finset.sum_congr rfl fun i _ => ?_
  rw [hb]
  congr 1
  unfold mulVec dotProduct
  rw [sum_bend _ (by simp [ext12]) (by simp [ext12]) (by simp [ext12]) (by simp [ext12])]
  exact Finset.sum_congr rfl fun j _ => by rw [hb]; rfl

/-- The form of a shaft element, of either class. -/
theorem shaft_work (h : init pd fuel a = some (.ok r)) {e : ShaftEl} (he : Elm.shaft e ∈ r.elements)
    {mat : Elm → Res LMat} {E : LMat} (hE : mat (.shaft e) = .ok E)
    (hk : E.1 = (globalOf r.number_dof (shaftEnd r) (.shaft e)).length)
    (hlt : ∀ d ∈ globalOf r.number_dof (shaftEnd r) (.shaft e), d < r.ndof)
    {A : Matrix (Fin 8) (Fin 8) ℝ} {A₆ : Matrix (Fin 12) (Fin 12) ℝ}
    (h4 : e.six = false → E = ⟨8, A⟩) (h6 : e.six = true → E = ⟨12, A₆⟩)
    (hA : A₆.submatrix bend bend = A)
    {x y : ℕ → ℝ} {u v : String × ℕ → ℝ} (hx : Describes r x u) (hy : Describes r y v)
    (hu : Flat u) (hv : Flat v) :
    workOf r.number_dof (shaftEnd r) mat (.shaft e) x y =
      nodeVec u (nodeOf e) ⬝ᵥ (A *ᵥ nodeVec v (nodeOf e)) := by
  have hn : (Elm.shaft e).n.getD 0 = nodeOf e := rfl
  rw [workOf_ok hE]
  have hs := shaft_six h he
  rcases nd_cases (init_ok h) with hnd | hnd
  · rw [hnd] at hs
    simp only [Nat.reduceEqDiff, decide_false] at hs
    have := h4 hs
    subst this
    have key : ∀ {z : ℕ → ℝ} {w : String × ℕ → ℝ}, Describes r z w →
        loc (globalOf r.number_dof (shaftEnd r) (.shaft e)) 8 z = nodeVec w (nodeOf e) := by
      intro z w hz
      funext p
      rw [loc_describes h he trivial hlt hz hk p, hn, hnd]
      fin_cases p <;> simp [attach, dofsAt, nodeLetters, nodeVec]
    simp only
    rw [key hx, key hy]
  · rw [hnd] at hs
    simp only [decide_true] at hs
    have := h6 hs
    subst this
    have key : ∀ {z : ℕ → ℝ} {w : String × ℕ → ℝ}, Describes r z w → Flat w →
        loc (globalOf r.number_dof (shaftEnd r) (.shaft e)) 12 z = ext12 (nodeVec w (nodeOf e)) := by
      intro z w hz hw
      funext p
      rw [loc_describes h he trivial hlt hz hk p, hn, hnd]
      have h1 := hw (nodeOf e)
      have h2 := hw (nodeOf e + 1)
      fin_cases p <;> simp [attach, dofsAt, nodeLetters, nodeVec, ext12, h1, h2]
    simp only
    rw [key hx hu, key hy hv, ext12_form, hA]

/-- The relative motion of a bearing in one direction. -/
def rel (dir : String) (b : BrgEl) (u : String × ℕ → ℝ) : ℝ :=
  u (dir, b.n) - match b.n_link with
    | none => 0
    | some m => u (dir, m)

theorem rel2_0 (b : BrgEl) (u : String × ℕ → ℝ) : brgRel 4 2 b u 0 = rel "x" b u := by
  unfold brgRel rel; cases b.n_link <;> simp [supportLetters]

theorem rel2_1 (b : BrgEl) (u : String × ℕ → ℝ) : brgRel 4 2 b u 1 = rel "y" b u := by
  unfold brgRel rel; cases b.n_link <;> simp [supportLetters]

theorem rel3_0 (b : BrgEl) (u : String × ℕ → ℝ) : brgRel 6 3 b u 0 = rel "x" b u := by
  unfold brgRel rel; cases b.n_link <;> simp [supportLetters]

theorem rel3_1 (b : BrgEl) (u : String × ℕ → ℝ) : brgRel 6 3 b u 1 = rel "y" b u := by
  unfold brgRel rel; cases b.n_link <;> simp [supportLetters]

/-- A bearing whose stiffness at frequency zero is `k` in both directions and that has no mass. -/
structure Iso (k : ℝ) (b : BrgEl) : Prop where
  kxx : b.base.kxx.eval 0 = .ok k
  kyy : b.base.kyy.eval 0 = .ok k
  kxy : b.base.kxy.eval 0 = .ok 0
  kyx : b.base.kyx.eval 0 = .ok 0
  mxx : b.base.mxx.eval 0 = .ok 0
  myy : b.base.myy.eval 0 = .ok 0
  mxy : b.base.mxy.eval 0 = .ok 0
  myx : b.base.myx.eval 0 = .ok 0

theorem brg_work_K (h : init pd fuel a = some (.ok r)) {b : BrgEl} (he : Elm.brg b ∈ r.elements)
    {k : ℝ} (hi : Iso k b) {E : LMat} (hE : Elm.K 0 (.brg b) = .ok E)
    (hk : E.1 = (globalOf r.number_dof (shaftEnd r) (.brg b)).length)
    (hlt : ∀ d ∈ globalOf r.number_dof (shaftEnd r) (.brg b), d < r.ndof)
    {x y : ℕ → ℝ} {u v : String × ℕ → ℝ} (hx : Describes r x u) (hy : Describes r y v)
    (hu : Flat u) :
    workOf r.number_dof (shaftEnd r) (Elm.K 0) (.brg b) x y =
      k * (rel "x" b u * rel "x" b v + rel "y" b u * rel "y" b v) := by
  have hs := brg_six h he
  cases b with
  | brg sl b =>
    simp only at hs
    obtain ⟨xx, yy, xy, yx, e1, e2, e3, e4, hS⟩ := brgK_support hE
    rw [show b.kxx.eval 0 = .ok k from hi.kxx] at e1
    rw [show b.kyy.eval 0 = .ok k from hi.kyy] at e2
    rw [show b.kxy.eval 0 = .ok 0 from hi.kxy] at e3
    rw [show b.kyx.eval 0 = .ok 0 from hi.kyx] at e4
    cases e1; cases e2; cases e3; cases e4
    rw [brg_work h he hE hk hlt (by rw [hs]) hS hx hy, hs]
    simp [rel2_0, rel2_1, dotProduct, mulVec,
      Fin.sum_univ_two]
    ring
  | brg6 b =>
    simp only at hs
    obtain ⟨xx, yy, xy, yx, zz, e1, e2, e3, e4, -, hS⟩ := brg6K_support hE
    rw [show b.base.kxx.eval 0 = .ok k from hi.kxx] at e1
    rw [show b.base.kyy.eval 0 = .ok k from hi.kyy] at e2
    rw [show b.base.kxy.eval 0 = .ok 0 from hi.kxy] at e3
    rw [show b.base.kyx.eval 0 = .ok 0 from hi.kyx] at e4
    cases e1; cases e2; cases e3; cases e4
    rw [brg_work h he hE hk hlt (by rw [hs]) hS hx hy, hs]
    have hz : brgRel 6 3 (BrgEl.brg6 b) u 2 = 0 := by
      unfold brgRel
      cases hl : (BrgEl.brg6 b).n_link <;> simp [supportLetters, hu _]
    simp [dotProduct, mulVec, Fin.sum_univ_three, hz]
    rw [rel3_0, rel3_1, rel3_0, rel3_1]
    ring

theorem brg_work_M (h : init pd fuel a = some (.ok r)) {b : BrgEl} (he : Elm.brg b ∈ r.elements)
    {k : ℝ} (hi : Iso k b) {E : LMat} (hE : Elm.M 0 (.brg b) = .ok E)
    (hk : E.1 = (globalOf r.number_dof (shaftEnd r) (.brg b)).length)
    (hlt : ∀ d ∈ globalOf r.number_dof (shaftEnd r) (.brg b), d < r.ndof)
    {x y : ℕ → ℝ} {u v : String × ℕ → ℝ} (hx : Describes r x u) (hy : Describes r y v)
    (hu : Flat u) :
    workOf r.number_dof (shaftEnd r) (Elm.M 0) (.brg b) x y = 0 := by
  have hs := brg_six h he
  cases b with
  | brg sl b =>
    simp only at hs
    obtain ⟨xx, yy, xy, yx, e1, e2, e3, e4, hS⟩ := brgM_support hE
    rw [show b.mxx.eval 0 = .ok 0 from hi.mxx] at e1
    rw [show b.myy.eval 0 = .ok 0 from hi.myy] at e2
    rw [show b.mxy.eval 0 = .ok 0 from hi.mxy] at e3
    rw [show b.myx.eval 0 = .ok 0 from hi.myx] at e4
    cases e1; cases e2; cases e3; cases e4
    rw [brg_work h he hE hk hlt (by rw [hs]) hS hx hy]
    simp [dotProduct, mulVec, Fin.sum_univ_two]
  | brg6 b =>
    simp only at hs
    obtain ⟨xx, yy, xy, yx, zz, e1, e2, e3, e4, -, hS⟩ := brg6M_support hE
    rw [show b.base.mxx.eval 0 = .ok 0 from hi.mxx] at e1
    rw [show b.base.myy.eval 0 = .ok 0 from hi.myy] at e2
    rw [show b.base.mxy.eval 0 = .ok 0 from hi.mxy] at e3
    rw [show b.base.myx.eval 0 = .ok 0 from hi.myx] at e4
    cases e1; cases e2; cases e3; cases e4
    rw [brg_work h he hE hk hlt (by rw [hs]) hS hx hy, hs]
    have hz : brgRel 6 3 (BrgEl.brg6 b) u 2 = 0 := by
      unfold brgRel
      cases hl : (BrgEl.brg6 b).n_link <;> simp [supportLetters, hu _]
    simp [dotProduct, mulVec, Fin.sum_univ_three, hz]

theorem disk_work_K (h : init pd fuel a = some (.ok r)) {d : DiskEl} (he : Elm.disk d ∈ r.elements)
    {ω : ℝ} (x y : ℕ → ℝ) :
    workOf r.number_dof (shaftEnd r) (Elm.K ω) (.disk d) x y = 0 := by
  have hs := disk_six h he
  obtain ⟨six, d⟩ := d
  cases six with
  | false =>
    rw [workOf_ok (E := ⟨4, d.K⟩) rfl]
    have : d.K = 0 := rfl
    simp [this]
  | true =>
    rw [workOf_ok (E := ⟨6, d.K₆⟩) rfl]
    have : d.K₆ = 0 := rfl
    simp [this]

theorem disk_work_M (h : init pd fuel a = some (.ok r)) {d : DiskEl} (he : Elm.disk d ∈ r.elements)
    {E : LMat} (hE : Elm.M 0 (.disk d) = .ok E)
    (hk : E.1 = (globalOf r.number_dof (shaftEnd r) (.disk d)).length)
    (hlt : ∀ k ∈ globalOf r.number_dof (shaftEnd r) (.disk d), k < r.ndof)
    {x y : ℕ → ℝ} {u : String × ℕ → ℝ} (hx : Describes r x u)
    (hy : Describes r y (translation "y")) :
    workOf r.number_dof (shaftEnd r) (Elm.M 0) (.disk d) x y = d.d.m * u ("y", d.d.n) := by
  have hs := disk_six h he
  rw [workOf_ok hE]
  have l1 := loc_describes h he trivial hlt hx hk
  have l2 := loc_describes h he trivial hlt hy hk
  obtain ⟨six, d⟩ := d
  rcases nd_cases (init_ok h) with h4 | h4
  · rw [h4] at hs l1 l2
    simp only [Nat.reduceEqDiff, decide_false] at hs
    subst hs
    cases hE
    simp only at l1 l2 ⊢
    rw [h4]
    simp [dotProduct, mulVec, Fin.sum_univ_four, l1, l2, attach, dofsAt, nodeLetters, translation,
      DiskElement.M, Elm.n]
    ring
  · rw [h4] at hs l1 l2
    simp only [decide_true] at hs
    subst hs
    cases hE
    simp only at l1 l2 ⊢
    rw [h4]
    simp [dotProduct, mulVec, Fin.sum_univ_six, l1, l2, attach, dofsAt, nodeLetters, translation,
      DiskElement.M₆, Elm.n]
    ring

theorem sum_elements (hb : Built pd a r) (hp : r.pms = []) (f : Elm → ℝ) :
    (r.elements.map f).sum = (r.shaft.map fun e => f (.shaft e)).sum +
      (r.disks.map fun e => f (.disk e)).sum + (r.bearings.map fun e => f (.brg e)).sum := by
  rw [elements_eq' hb, hp]
  simp [List.sum_append, List.map_map, Function.comp_def, add_assoc]

theorem fits_of_nil (hb : Built pd a r) (hp : r.pms = []) :
    ∀ e ∈ r.elements, Fits r.number_dof e := by
  intro e he
  rcases (mem_elements hb _).1 he with ⟨s, _, rfl⟩ | ⟨s, _, rfl⟩ | ⟨s, _, rfl⟩ | ⟨s, h', rfl⟩
  · trivial
  · trivial
  · trivial
  · rw [hp] at h'; simp at h'

/-- The stiffness of a rotor on isotropic bearings. -/
theorem K_form (h : init pd fuel a = some (.ok r)) (hp : r.pms = []) {k : ℝ}
    (hi : ∀ b ∈ r.bearings, Iso k b) {B : Matrix (Fin r.ndof) (Fin r.ndof) ℝ} (hB : r.K 0 = .ok B)
    {x y : ℕ → ℝ} {u v : String × ℕ → ℝ} (hx : Describes r x u) (hy : Describes r y v)
    (hu : Flat u) (hv : Flat v) :
    bilin B x y =
      (r.shaft.map fun e => nodeVec u (nodeOf e) ⬝ᵥ (e.s.K *ᵥ nodeVec v (nodeOf e))).sum +
      k * (r.bearings.map fun b => rel "x" b u * rel "x" b v + rel "y" b u * rel "y" b v).sum := by
  have hb := init_ok h
  unfold Rotor.K at hB
  obtain ⟨h1, h2⟩ := assembled h (fits_of_nil hb hp) (fun e => e.tag ∉ []) hB
  have hft : r.elements.filter (fun e => decide (e.tag ∉ ([] : List (Option String)))) = r.elements := by
    simp
  rw [hft] at h1 h2
  rw [h2, sum_elements hb hp, ← List.sum_map_mul_left]
  have e1 : (r.disks.map fun e =>
      workOf r.number_dof (shaftEnd r) (Elm.K 0) (.disk e) x y).sum = 0 := by
    refine List.sum_eq_zero fun z hz => ?_
    obtain ⟨d, hd, rfl⟩ := List.mem_map.1 hz
    exact disk_work_K h ((mem_elements hb _).2 (.inr (.inl ⟨d, hd, rfl⟩))) _ _
  rw [e1, add_zero]
  congr 1
  · refine congrArg List.sum (List.map_congr_left fun e he => ?_)
    have he' : Elm.shaft e ∈ r.elements := (mem_elements hb _).2 (.inl ⟨e, he, rfl⟩)
    obtain ⟨E, hE, hk, hlt⟩ := h1 _ he'
    refine shaft_work h he' hE hk hlt (A₆ := e.s.K₆) ?_ ?_ (C10_stiffness _) hx hy hu hv
    · intro h6
      obtain ⟨six, s⟩ := e
      simp only at h6
      subst h6
      exact (Except.ok.inj hE).symm
    · intro h6
      obtain ⟨six, s⟩ := e
      simp only at h6
      subst h6
      exact (Except.ok.inj hE).symm
  · refine congrArg List.sum (List.map_congr_left fun b hbm => ?_)
    have he' : Elm.brg b ∈ r.elements := (mem_elements hb _).2 (.inr (.inr (.inl ⟨b, hbm, rfl⟩)))
    obtain ⟨E, hE, hk, hlt⟩ := h1 _ he'
    exact brg_work_K h he' (hi b hbm) hE hk hlt hx hy hu

/-- The weight of a rotor on massless bearings. -/
theorem M_form (h : init pd fuel a = some (.ok r)) (hp : r.pms = []) {k : ℝ}
    (hi : ∀ b ∈ r.bearings, Iso k b) {B : Matrix (Fin r.ndof) (Fin r.ndof) ℝ}
    (hB : r.M (some 0) = .ok B)
    {x y : ℕ → ℝ} {u : String × ℕ → ℝ} (hx : Describes r x u)
    (hy : Describes r y (translation "y")) (hu : Flat u) :
    bilin B x y =
      (r.shaft.map fun e => nodeVec u (nodeOf e) ⬝ᵥ (e.s.M *ᵥ eY)).sum +
      (r.disks.map fun e => e.d.m * u ("y", e.d.n)).sum := by
  have hb := init_ok h
  have hmat : Elm.Msync 0 false = Elm.M 0 := by funext e; simp [Elm.Msync]
  unfold Rotor.M at hB
  rw [Option.getD_some, hmat, ← placed_filter_true r] at hB
  obtain ⟨h1, h2⟩ := assembled h (fits_of_nil hb hp) (fun _ => true) hB
  simp only [elements_filter_true] at h1 h2
  have hv : Flat (translation "y") := fun n => by simp [translation]
  have hev : ∀ n, nodeVec (translation "y") n = eY := by
    intro n; simp [nodeVec, translation, eY]
  rw [h2, sum_elements hb hp]
  have e1 : (r.bearings.map fun e =>
      workOf r.number_dof (shaftEnd r) (Elm.M 0) (.brg e) x y).sum = 0 := by
    refine List.sum_eq_zero fun z hz => ?_
    obtain ⟨b, hbm, rfl⟩ := List.mem_map.1 hz
    have he' : Elm.brg b ∈ r.elements := (mem_elements hb _).2 (.inr (.inr (.inl ⟨b, hbm, rfl⟩)))
    obtain ⟨E, hE, hk, hlt⟩ := h1 _ he'
    exact brg_work_M h he' (hi b hbm) hE hk hlt hx hy hu
  rw [e1, add_zero]
  congr 1
  · refine congrArg List.sum (List.map_congr_left fun e he => ?_)
    have he' : Elm.shaft e ∈ r.elements := (mem_elements hb _).2 (.inl ⟨e, he, rfl⟩)
    obtain ⟨E, hE, hk, hlt⟩ := h1 _ he'
    rw [← hev (nodeOf e)]
    refine shaft_work h he' hE hk hlt (A₆ := e.s.M₆) ?_ ?_ (C10_mass _) hx hy hu hv
    · intro h6
      obtain ⟨six, s⟩ := e
      simp only at h6
      subst h6
      exact (Except.ok.inj hE).symm
    · intro h6
      obtain ⟨six, s⟩ := e
      simp only at h6
      subst h6
      exact (Except.ok.inj hE).symm
  · refine congrArg List.sum (List.map_congr_left fun d hd => ?_)
    have he' : Elm.disk d ∈ r.elements := (mem_elements hb _).2 (.inr (.inl ⟨d, hd, rfl⟩))
    obtain ⟨E, hE, hk, hlt⟩ := h1 _ he'
    exact disk_work_M h he' hE hk hlt hx hy

end Ross.StaticLemmas
