import Verif.Spec.TimeResponse
import Verif.Lemmas.Newmark
import Verif.Lemmas.Work
import Verif.Lemmas.Accept2

/-! # Lemmas on the time integration of rotors -/

namespace Ross.TimeLemmas

open Ross Ross.Spec Ross.Rotor Ross.Newmark Ross.BearingLemmas Ross.AssemblyLemmas Ross.RotorLemmas
  Matrix

/-! ### Assembly as a sum -/

/-- What an element adds. -/
noncomputable def sc (mat : Elm → Res LMat) (x : Elm × Dict DofKey ℕ) (i j : ℕ) : ℝ :=
  match mat x.1 with
  | .ok E => scat x.2.values E i j
  | .error _ => 0

/-- An element matrix exists and fits its dofs. -/
def Good (N : ℕ) (mat : Elm → Res LMat) (x : Elm × Dict DofKey ℕ) : Prop :=
  ∃ E, mat x.1 = .ok E ∧ E.1 = x.2.values.length ∧ ∀ d ∈ x.2.values, d < N

theorem add_ok {N : ℕ} {mat : Elm → Res LMat} {x : Elm × Dict DofKey ℕ}
    {A B : Matrix (Fin N) (Fin N) ℝ} :
    (mat x.1 >>= ixAdd A x.2.values) = .ok B ↔
      Good N mat x ∧ ∀ i j, B i j = A i j + sc mat x i j := by
  rw [bind_ok]
  constructor
  · rintro ⟨E, h1, h2⟩
    obtain ⟨h3, h4, h5⟩ := ixAdd_ok.1 h2
    exact ⟨⟨E, h1, h4, h3⟩, fun i j => by rw [h5]; simp only [sc, h1]⟩
  · rintro ⟨⟨E, h1, h4, h3⟩, h5⟩
    refine ⟨E, h1, ixAdd_ok.2 ⟨h3, h4, ?_⟩⟩
    funext i j
    rw [h5]; simp only [sc, h1]

theorem fold_ok {N : ℕ} {mat : Elm → Res LMat} {l : List (Elm × Dict DofKey ℕ)}
    {A B : Matrix (Fin N) (Fin N) ℝ} :
    l.foldlM (fun A x => mat x.1 >>= ixAdd A x.2.values) A = .ok B ↔
      (∀ x ∈ l, Good N mat x) ∧ ∀ i j, B i j = A i j + (l.map fun x => sc mat x i j).sum := by
  induction l generalizing A with
  | nil =>
    simp only [List.foldlM_nil, pure, Except.pure, Except.ok.injEq, List.not_mem_nil, false_imp_iff,
      implies_true, List.map_nil, List.sum_nil, add_zero, true_and]
    constructor
    · rintro rfl i j; rfl
    · intro h; ext i j; exact (h i j).symm
  | cons x t ih =>
    rw [List.foldlM_cons, bind_ok]
    simp only [add_ok, ih, List.mem_cons, forall_eq_or_imp, List.map_cons, List.sum_cons]
    constructor
    · rintro ⟨A', ⟨h1, h3⟩, h2, h4⟩
      exact ⟨⟨h1, h2⟩, fun i j => by rw [h4, h3]; ring⟩
    · rintro ⟨⟨h1, h2⟩, h3⟩
      exact ⟨Matrix.of fun i j => A i j + sc mat x i j, ⟨h1, fun i j => rfl⟩, h2,
        fun i j => by rw [h3, Matrix.of_apply]; ring⟩

theorem assemble_fold {N : ℕ} {mat : Elm → Res LMat} {l : List (Elm × Dict DofKey ℕ)}
    {B : Matrix (Fin N) (Fin N) ℝ} : assemble N mat l = .ok B ↔
      (∀ x ∈ l, Good N mat x) ∧ ∀ i j, B i j = (l.map fun x => sc mat x i.val j.val).sum := by
  have := fold_ok (mat := mat) (l := l) (A := (0 : Matrix (Fin N) (Fin N) ℝ)) (B := B)
  simpa [assemble] using this

/-! ### Bearings with constant coefficients -/

theorem process_none {sp : Scipy} {c : Coef} {x : Coeff} (h : Coeff.process sp none c = .ok x)
    (ω ω' : ℝ) : x.eval ω = x.eval ω' := by
  have key : ∀ l, Coeff.interpolate sp none l = .ok x → x.eval ω = x.eval ω' := by
    intro l h
    unfold Coeff.interpolate at h
    split_ifs at h
    cases l with
    | nil => simp at h
    | cons a t =>
      simp only [Except.ok.injEq] at h
      subst h
      simp [Coeff.eval]
  cases c with
  | scalar y => exact key _ h
  | list l => exact key _ h

theorem made_const {b : BrgEl} (hb : Made b) (hf : b.base.frequency = none) (ω ω' : ℝ) :
    Elm.M ω (.brg b) = Elm.M ω' (.brg b) ∧ Elm.K ω (.brg b) = Elm.K ω' (.brg b) ∧
      Elm.C ω (.brg b) = Elm.C ω' (.brg b) := by
  have base : ∀ {sp args} {x : BearingElement}, BearingElement.init sp args = .ok x →
      x.frequency = none → args.frequency = none ∧ ∀ c ∈ [x.kxx, x.kyy, x.kxy, x.kyx, x.cxx, x.cyy,
        x.cxy, x.cyx, x.mxx, x.myy, x.mxy, x.myx], c.eval ω = c.eval ω' := by
    intro sp args x h hx
    obtain ⟨-, -, h3, -, -, -, h⟩ := BearingLemmas.init_ok h
    rw [hx] at h3
    rw [← h3] at h
    refine ⟨h3.symm, ?_⟩
    simp only [List.mem_cons, List.not_mem_nil, or_false, forall_eq_or_imp, forall_eq] at h ⊢
    obtain ⟨h1, h2, h3, h4, h5, h6, h7, h8, h9, h10, h11, h12⟩ := h
    exact ⟨process_none h1.1 _ _, process_none h2.1 _ _, process_none h3.1 _ _,
      process_none h4.1 _ _, process_none h5.1 _ _, process_none h6.1 _ _, process_none h7.1 _ _,
      process_none h8.1 _ _, process_none h9.1 _ _, process_none h10.1 _ _, process_none h11.1 _ _,
      process_none h12.1 _ _⟩
  cases b with
  | brg s x =>
    obtain ⟨sp, args, h⟩ := hb
    obtain ⟨-, h⟩ := base h hf
    simp only [List.mem_cons, List.not_mem_nil, or_false, forall_eq_or_imp, forall_eq] at h
    obtain ⟨h1, h2, h3, h4, h5, h6, h7, h8, h9, h10, h11, h12⟩ := h
    simp only [Elm.M, Elm.K, Elm.C, BearingElement.M, BearingElement.K, BearingElement.C,
      h1, h2, h3, h4, h5, h6, h7, h8, h9, h10, h11, h12, and_self]
  | brg6 x =>
    obtain ⟨sp, args, k, c, m, h⟩ := hb
    unfold BearingElement6DoF.init at h
    simp only [bind_ok] at h
    obtain ⟨b0, hb0, k', hk, c', hc, m', hm, h⟩ := h
    simp only [pure, Except.pure, Except.ok.injEq] at h
    subst h
    obtain ⟨hn, h⟩ := base hb0 hf
    rw [hn] at hk hc hm
    have hk := process_none hk ω ω'
    have hc := process_none hc ω ω'
    have hm := process_none hm ω ω'
    simp only [List.mem_cons, List.not_mem_nil, or_false, forall_eq_or_imp, forall_eq] at h
    obtain ⟨h1, h2, h3, h4, h5, h6, h7, h8, h9, h10, h11, h12⟩ := h
    simp only [Elm.M, Elm.K, Elm.C, BearingElement6DoF.M, BearingElement6DoF.K, BearingElement6DoF.C,
      h1, h2, h3, h4, h5, h6, h7, h8, h9, h10, h11, h12, hk, hc, hm, and_self]

/-- The bearings of a rotor are those given to it, with other tags. -/
theorem setTag_mats (b : BrgEl) (t : Option String) (ω : ℝ) :
    Elm.M ω (.brg (b.setTag t)) = Elm.M ω (.brg b) ∧ Elm.K ω (.brg (b.setTag t)) = Elm.K ω (.brg b) ∧
      Elm.C ω (.brg (b.setTag t)) = Elm.C ω (.brg b) := by
  cases b <;> exact ⟨rfl, rfl, rfl⟩

variable {pd : Pandas} {fuel : ℕ} {a : RotorArgs} {r : Rotor}

/-- The element has the same matrices at all frequencies. -/
def Const (e : Elm) : Prop := ∀ ω ω', e.M ω = e.M ω' ∧ e.K ω = e.K ω' ∧ e.C ω = e.C ω'

theorem const_of (hb : Built pd a r) (hm : ∀ b ∈ a.bearings, Made b) {e : Elm}
    (he : e ∈ r.elements) (hv : ∀ b, e = .brg b → b.base.frequency = none) : Const e := by
  intro ω ω'
  rcases (mem_elements hb e).1 he with ⟨s, -, rfl⟩ | ⟨s, -, rfl⟩ | ⟨b, hs, rfl⟩ | ⟨s, -, rfl⟩
  · obtain ⟨six, s⟩ := s
    cases six <;> exact ⟨rfl, rfl, rfl⟩
  · obtain ⟨six, s⟩ := s
    cases six <;> exact ⟨rfl, rfl, rfl⟩
  · rw [hb.bearings] at hs
    obtain ⟨c, hc, t, rfl⟩ := mem_tagBearings ((parts_br_perm a).mem_iff.1 hs)
    have h0 : c.base.frequency = none := by
      have := hv _ rfl
      cases c <;> exact this
    have := made_const (hm c hc) h0 ω ω'
    have e1 := setTag_mats c t ω
    have e2 := setTag_mats c t ω'
    exact ⟨by rw [e1.1, e2.1, this.1], by rw [e1.2.1, e2.2.1, this.2.1], by rw [e1.2.2, e2.2.2, this.2.2]⟩
  · cases s <;> exact ⟨rfl, rfl, rfl⟩

/-! ### Matrices at the current speed -/

theorem tags_inj (hb : Built pd a r) {x y : Elm × Dict DofKey ℕ} (hx : x ∈ r.placed) (hy : y ∈ r.placed)
    (h : x.1.tag = y.1.tag) : x = y := by
  have hn : (r.placed.map fun x => x.1.tag).Nodup := by
    have : (r.elements.map Elm.tag).Nodup := by rw [elements_eq hb]; exact hb.tags
    simpa [elements, List.map_map, Function.comp_def] using this
  exact List.inj_on_of_nodup_map hn hx hy h

theorem keep_varying (hb : Built pd a r) : r.keep (r.varying.map fun x => x.1.tag) =
    r.placed.filter fun x => match x.1 with
      | .brg b => b.base.frequency.isNone
      | _ => true := by
  unfold Rotor.keep
  refine List.filter_congr fun x hx => ?_
  have : x.1.tag ∈ (r.varying.map fun x => x.1.tag) ↔ x ∈ r.varying := by
    constructor
    · intro h
      obtain ⟨y, hy, h⟩ := List.mem_map.1 h
      rw [← tags_inj hb (List.mem_of_mem_filter hy) hx h]; exact hy
    · exact fun h => List.mem_map.2 ⟨x, h, rfl⟩
  classical
  rw [show decide (x.1.tag ∉ r.varying.map fun x => x.1.tag) = !decide (x ∈ r.varying) by
    simp only [this]; by_cases h : x ∈ r.varying <;> simp [h]]
  unfold Rotor.varying
  simp only [List.mem_filter, hx, true_and]
  cases hx1 : x.1 <;> simp

theorem sum_split {α : Type*} (l : List α) (p q : α → Bool) (hpq : ∀ x ∈ l, q x = !p x) (f : α → ℝ) :
    (l.map f).sum = ((l.filter p).map f).sum + ((l.filter q).map f).sum := by
  induction l with
  | nil => simp
  | cons x t ih =>
    have h1 := hpq x List.mem_cons_self
    have ih := ih fun y hy => hpq y (List.mem_cons_of_mem _ hy)
    by_cases h : p x = true
    · rw [List.filter_cons_of_pos h, List.filter_cons_of_neg (by simp [h1, h])]
      simp only [List.map_cons, List.sum_cons, ih]; ring
    · rw [List.filter_cons_of_neg h, List.filter_cons_of_pos (by simp [h1, h])]
      simp only [List.map_cons, List.sum_cons, ih]; ring

theorem call_none_brg (mat : ℝ → Elm → Res LMat) (b : BrgEl) :
    (Elm.brg b).call mat none = .error .typeError := rfl

theorem tryAdd_brg {N : ℕ} {mat : ℝ → Elm → Res LMat} {ω : ℝ} {A B : Matrix (Fin N) (Fin N) ℝ}
    {x : Elm × Dict DofKey ℕ} (hx : ∃ b, x.1 = .brg b) :
    tryAdd mat (some ω) A x = .ok B ↔ (mat ω x.1 >>= ixAdd A x.2.values) = .ok B := by
  obtain ⟨b, hb⟩ := hx
  unfold tryAdd
  rw [hb, call_none_brg]
  have : (Elm.brg b).call mat (some ω) = mat ω (.brg b) := rfl
  rw [this]
  cases mat ω (.brg b) >>= ixAdd A x.2.values with
  | ok B' => rfl
  | error e => simp [bind, Except.bind]

theorem assembleCK_ok {N : ℕ} {l : List (Elm × Dict DofKey ℕ)} (hl : ∀ x ∈ l, ∃ b, x.1 = .brg b)
    {ω : ℝ} {C0 K0 C K : Matrix (Fin N) (Fin N) ℝ} :
    assembleCK l C0 K0 (some ω) = .ok (C, K) ↔
      l.foldlM (fun A x => Elm.C ω x.1 >>= ixAdd A x.2.values) C0 = .ok C ∧
      l.foldlM (fun A x => Elm.K ω x.1 >>= ixAdd A x.2.values) K0 = .ok K := by
  unfold assembleCK
  induction l generalizing C0 K0 with
  | nil => simp [pure, Except.pure]
  | cons x t ih =>
    have hx := hl x List.mem_cons_self
    simp only [List.foldlM_cons, bind_ok]
    constructor
    · rintro ⟨A, ⟨C1, h1, K1, h2, h3⟩, h4⟩
      simp only [pure, Except.pure, Except.ok.injEq] at h3
      subst h3
      obtain ⟨h5, h6⟩ := (ih fun y hy => hl y (List.mem_cons_of_mem _ hy)).1 h4
      exact ⟨⟨C1, bind_ok.1 ((tryAdd_brg hx).1 h1), h5⟩, ⟨K1, bind_ok.1 ((tryAdd_brg hx).1 h2), h6⟩⟩
    · rintro ⟨⟨C1, h1, h5⟩, ⟨K1, h2, h6⟩⟩
      exact ⟨(C1, K1), ⟨C1, (tryAdd_brg hx).2 (bind_ok.2 h1), K1, (tryAdd_brg hx).2 (bind_ok.2 h2), rfl⟩,
        (ih fun y hy => hl y (List.mem_cons_of_mem _ hy)).2 ⟨h5, h6⟩⟩

theorem varying_brg : ∀ x ∈ r.varying, ∃ b, x.1 = .brg b := by
  intro x hx
  have := (List.mem_filter.1 hx).2
  cases hx1 : x.1 <;> simp [hx1] at this ⊢

/-- The matrix of the fixed elements at the mean speed plus the varying bearings at the current speed is
the matrix of the rotor at the current speed. -/
theorem varying_assemble (hb : Built pd a r) (hm : ∀ b ∈ a.bearings, Made b)
    {mat : ℝ → Elm → Res LMat} (hmat : ∀ e, Const e → ∀ ω ω', mat ω e = mat ω' e) {ω₀ ω : ℝ}
    {C0 C : Matrix (Fin r.ndof) (Fin r.ndof) ℝ}
    (h0 : assemble r.ndof (mat ω₀) (r.keep (r.varying.map fun x => x.1.tag)) = .ok C0) :
    r.varying.foldlM (fun A x => mat ω x.1 >>= ixAdd A x.2.values) C0 = .ok C ↔
      assemble r.ndof (mat ω) (r.keep []) = .ok C := by
  rw [keep_varying hb] at h0
  obtain ⟨g0, hC0⟩ := assemble_fold.1 h0
  set p : Elm × Dict DofKey ℕ → Bool := fun x => match x.1 with
      | .brg b => b.base.frequency.isNone
      | _ => true with hp
  have hv : r.varying = r.placed.filter fun x => !p x := by
    unfold Rotor.varying
    refine List.filter_congr fun x _ => ?_
    simp only [hp]
    obtain ⟨e, d⟩ := x
    cases e with
    | brg b => simp
    | _ => rfl
  have hk : r.keep [] = r.placed := by simp [Rotor.keep]
  have hc : ∀ x ∈ r.placed.filter p, mat ω x.1 = mat ω₀ x.1 := by
    intro x hx
    obtain ⟨hx, hpx⟩ := List.mem_filter.1 hx
    refine hmat _ (const_of hb hm (placed_mem hb hx) fun b hb' => ?_) _ _
    simp only [hp, hb'] at hpx
    simpa using hpx
  rw [fold_ok, assemble_fold, hk, hv]
  have hsum : ∀ i j, (r.placed.map fun x => sc (mat ω) x i j).sum =
      ((r.placed.filter p).map fun x => sc (mat ω₀) x i j).sum +
        ((r.placed.filter fun x => !p x).map fun x => sc (mat ω) x i j).sum := by
    intro i j
    rw [sum_split r.placed p (fun x => !p x) (fun _ _ => rfl)]
    congr 2
    refine List.map_congr_left fun x hx => ?_
    simp only [sc, hc x hx]
  simp only [hsum, hC0]
  refine and_congr_left fun _ => ⟨fun h x hx => ?_, fun h x hx => h x (List.mem_of_mem_filter hx)⟩
  by_cases hpx : p x = true
  · have hm' := List.mem_filter.2 ⟨hx, hpx⟩
    have := g0 x hm'
    unfold Good at this ⊢
    rwa [hc x hm']
  · exact h x (List.mem_filter.2 ⟨hx, by simpa using hpx⟩)

/-- Without varying bearings the matrices are the same at all speeds. -/
theorem fixed_assemble (hb : Built pd a r) (hm : ∀ b ∈ a.bearings, Made b)
    {mat : ℝ → Elm → Res LMat} (hmat : ∀ e, Const e → ∀ ω ω', mat ω e = mat ω' e)
    (hv : r.varying = []) (ω₀ ω : ℝ) {ig : List (Option String)} :
    assemble r.ndof (mat ω₀) (r.keep ig) = assemble r.ndof (mat ω) (r.keep ig) := by
  have hc : ∀ x ∈ r.keep ig, mat ω₀ x.1 = mat ω x.1 := by
    intro x hx
    have hx := List.mem_of_mem_filter hx
    refine hmat _ (const_of hb hm (placed_mem hb hx) fun b hb' => ?_) _ _
    by_contra hne
    have : x ∈ r.varying := by
      refine List.mem_filter.2 ⟨hx, ?_⟩
      simp only [hb']
      exact Option.isSome_iff_ne_none.2 hne
    rw [hv] at this
    cases this
  unfold assemble
  generalize (0 : Matrix (Fin r.ndof) (Fin r.ndof) ℝ) = A
  revert hc
  generalize r.keep ig = l
  induction l generalizing A with
  | nil => intro _; rfl
  | cons x t ih =>
    intro hc
    simp only [List.foldlM_cons]
    rw [hc x List.mem_cons_self]
    congr 1
    funext A'
    exact ih _ fun y hy => hc y (List.mem_cons_of_mem _ hy)

end Ross.TimeLemmas
