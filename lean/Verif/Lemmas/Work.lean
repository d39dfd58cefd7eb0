import Verif.Lemmas.Assembly2
import Verif.Spec.Work
import Verif.Spec.Bearing

/-! # Virtual work of the elements -/

namespace Ross.AssemblyLemmas

open Ross Ross.Spec Ross.BearingLemmas Ross.Rotor Ross.RotorLemmas Matrix

variable {pd : Pandas} {a : RotorArgs} {r : Rotor} {fuel : ℕ}

theorem shaftEnd_last (h : init pd fuel a = some (.ok r)) : shaftEnd r = lastShaftNode r := by
  have hb := init_ok h
  apply le_antisymm
  · refine maxOr0_le.2 fun y hy => ?_
    obtain ⟨e, he, rfl⟩ := List.mem_map.1 hy
    have := node_le_last hb he
    unfold lastShaftNode nodeOf at *
    omega
  · obtain ⟨e, he⟩ : ∃ e, r.shaft.getLast? = some e :=
      ⟨_, List.getLast?_eq_getLast_of_ne_nil (shaft_ne hb)⟩
    have hl : lastNode r.shaft = nodeOf e := by simp [lastNode, he]
    unfold lastShaftNode
    rw [hl]
    exact le_maxOr0 (List.mem_map.2 ⟨e, List.mem_of_getLast? he, rfl⟩)

/-- The values of a vector at the local indices of an element. -/
def loc (ds : List ℕ) (k : ℕ) (x : ℕ → ℝ) : Fin k → ℝ := fun p => x (ds.getD p 0)

theorem elemBilin_loc {k : ℕ} (ds : List ℕ) (E : Matrix (Fin k) (Fin k) ℝ) (x y : ℕ → ℝ) :
    elemBilin ds E x y = loc ds k x ⬝ᵥ (E *ᵥ loc ds k y) := by
  simp only [elemBilin, dotProduct, mulVec, Finset.mul_sum, loc]
  exact Finset.sum_congr rfl fun p _ => Finset.sum_congr rfl fun q _ => by ring

theorem values_globalOf (h : init pd fuel a = some (.ok r)) {z : Elm × Dict DofKey ℕ}
    (hz : z ∈ r.placed) (hf : Fits r.number_dof z.1) :
    z.2.values = globalOf r.number_dof (shaftEnd r) z.1 := by
  obtain ⟨n, hn, hg⟩ := placed_eq (init_ok h) hz hf
  rw [hg, Dict.values, List.map_map, globalOf, hn, shaftEnd_last h]
  rfl

theorem contrib_workOf (h : init pd fuel a = some (.ok r)) {z : Elm × Dict DofKey ℕ}
    (hz : z ∈ r.placed) (hf : Fits r.number_dof z.1) (mat : Elm → Res LMat) (x y : ℕ → ℝ) :
    contrib mat z x y = workOf r.number_dof (shaftEnd r) mat z.1 x y := by
  unfold contrib workOf
  rw [values_globalOf h hz hf]
  cases mat z.1 <;> rfl

/-- Everything an assembled matrix says about the elements that went into it. -/
theorem assembled (h : init pd fuel a = some (.ok r))
    (hf : ∀ e ∈ r.elements, Fits r.number_dof e) {mat : Elm → Res LMat} (p : Elm → Bool)
    {B : Matrix (Fin r.ndof) (Fin r.ndof) ℝ}
    (hB : assemble r.ndof mat (r.placed.filter fun z => p z.1) = .ok B) :
    (∀ e ∈ r.elements.filter p, ∃ E, mat e = .ok E ∧
      E.1 = (globalOf r.number_dof (shaftEnd r) e).length ∧
      ∀ d ∈ globalOf r.number_dof (shaftEnd r) e, d < r.ndof) ∧
    ∀ x y, bilin B x y =
      ((r.elements.filter p).map fun e => workOf r.number_dof (shaftEnd r) mat e x y).sum := by
  have hb := init_ok h
  have hd : ∀ z ∈ r.placed.filter fun z => p z.1, z.2.values.Nodup := fun z hz =>
    values_nodup hb (List.mem_of_mem_filter hz)
  obtain ⟨h1, h2⟩ := assemble_sum hd hB
  have hfz : ∀ z ∈ r.placed, Fits r.number_dof z.1 := fun z hz =>
    hf _ (List.mem_map.2 ⟨z, hz, rfl⟩)
  have hel : r.elements.filter p = (r.placed.filter fun z => p z.1).map Prod.fst := by
    rw [elements, List.filter_map]; rfl
  constructor
  · intro e he
    rw [hel] at he
    obtain ⟨z, hz, rfl⟩ := List.mem_map.1 he
    have hz' := List.mem_of_mem_filter hz
    have := h1 z hz
    rwa [values_globalOf h hz' (hfz z hz')] at this
  · intro x y
    rw [h2, hel, List.map_map]
    congr 1
    refine List.map_congr_left fun z hz => ?_
    have hz' := List.mem_of_mem_filter hz
    exact contrib_workOf h hz' (hfz z hz') _ _ _

theorem placed_filter_true (r : Rotor) : (r.placed.filter fun _ => true) = r.placed := by simp

theorem elements_filter_true (r : Rotor) : (r.elements.filter fun _ => true) = r.elements := by simp

/-- Assembly succeeds exactly when every matrix exists, has the size of its dofs, and these are in
range. -/
theorem assembled_iff (h : init pd fuel a = some (.ok r))
    (hf : ∀ e ∈ r.elements, Fits r.number_dof e) {mat : Elm → Res LMat} (p : Elm → Bool) :
    (∃ B, assemble r.ndof mat (r.placed.filter fun z => p z.1) = .ok B) ↔
    ∀ e ∈ r.elements.filter p, ∃ E, mat e = .ok E ∧
      E.1 = (globalOf r.number_dof (shaftEnd r) e).length ∧
      ∀ d ∈ globalOf r.number_dof (shaftEnd r) e, d < r.ndof := by
  have hb := init_ok h
  have hd : ∀ z ∈ r.placed.filter fun z => p z.1, z.2.values.Nodup := fun z hz =>
    values_nodup hb (List.mem_of_mem_filter hz)
  rw [assemble_iff hd]
  have hfz : ∀ z ∈ r.placed, Fits r.number_dof z.1 := fun z hz =>
    hf _ (List.mem_map.2 ⟨z, hz, rfl⟩)
  have hel : r.elements.filter p = (r.placed.filter fun z => p z.1).map Prod.fst := by
    rw [elements, List.filter_map]; rfl
  rw [hel]
  constructor
  · intro h1 e he
    obtain ⟨z, hz, rfl⟩ := List.mem_map.1 he
    have hz' := List.mem_of_mem_filter hz
    have := h1 z hz
    rwa [values_globalOf h hz' (hfz z hz')] at this
  · intro h1 z hz
    have hz' := List.mem_of_mem_filter hz
    rw [values_globalOf h hz' (hfz z hz')]
    exact h1 z.1 (List.mem_map.2 ⟨z, hz, rfl⟩)

/-! ### Sizes and ranges -/

theorem attach_len {nd : ℕ} (hnd : nd = 4 ∨ nd = 6) (e : Elm) (n : ℕ) :
    (attach nd e n).length = match e with
      | .shaft _ => nd + nd
      | .disk _ => nd
      | .brg b => match b.n_link with
        | none => nd / 2
        | some k => if k = n then nd / 2 else nd / 2 + nd / 2
      | .pm (.pm _) => 2
      | .pm (.pm6 _) => 3 := by
  have l1 := node_len hnd
  have l2 := support_len hnd
  rcases e with s | s | b | (p | p)
  · simp [attach, dofsAt, l1]
  · simp [attach, dofsAt, l1]
  · cases hl : b.n_link with
    | none => simp [attach, dofsAt, hl, l2]
    | some k =>
      by_cases hk : k = n <;> simp [attach, dofsAt, hl, hk, l2]
  · simp [attach, dofsAt]
  · simp [attach, dofsAt]

/-- An index of an element in range is the index of a degree of freedom of the rotor. -/
theorem isDof_of_lt (h : init pd fuel a = some (.ok r)) {e : Elm} (he : e ∈ r.elements)
    (hf : Fits r.number_dof e) {key : DofKey} (hk : key ∈ attach r.number_dof e (e.n.getD 0))
    (hlt : slot r.number_dof (shaftEnd r) key < r.ndof) :
    IsDof r.number_dof (shaftEnd r) r.pms.length key := by
  have hb := init_ok h
  obtain ⟨z, hz, rfl⟩ := List.mem_map.1 he
  obtain ⟨n, hn, -⟩ := placed_eq hb hz hf
  rw [hn] at hk
  have hl := attach_letter hb he hf hn hk
  rw [shaftEnd_last h] at hlt ⊢
  rw [ndof_eq hb] at hlt
  exact isDof_of_le hl ((slot_lt_iff (nd_cases hb) hl).1 hlt)

/-- The local values of a described motion. -/
theorem loc_describes (h : init pd fuel a = some (.ok r)) {e : Elm} (he : e ∈ r.elements)
    (hf : Fits r.number_dof e)
    (hlt : ∀ d ∈ globalOf r.number_dof (shaftEnd r) e, d < r.ndof)
    {x : ℕ → ℝ} {u : String × ℕ → ℝ} (hx : Describes r x u) {k : ℕ}
    (hk : k = (globalOf r.number_dof (shaftEnd r) e).length) (p : Fin k) :
    loc (globalOf r.number_dof (shaftEnd r) e) k x p =
      ((attach r.number_dof e (e.n.getD 0)).map u).getD p 0 := by
  have hp : p.val < (attach r.number_dof e (e.n.getD 0)).length := by
    have := lt_of_lt_of_eq p.isLt hk
    simpa [globalOf] using this
  unfold loc
  have e1 : (globalOf r.number_dof (shaftEnd r) e).getD p 0 =
      slot r.number_dof (shaftEnd r) ((attach r.number_dof e (e.n.getD 0))[p.val]'hp) := by
    simp [globalOf, List.getD_eq_getElem?_getD, List.getElem?_eq_getElem hp]
  rw [e1, hx]
  · simp [List.getD_eq_getElem?_getD, List.getElem?_eq_getElem hp]
  · refine isDof_of_lt h he hf (List.getElem_mem _) ?_
    rw [← e1]
    refine hlt _ ?_
    rw [List.getD_eq_getElem?_getD, List.getElem?_eq_getElem (by simpa [globalOf] using hp)]
    exact List.getElem_mem _

/-- The number of rows of the matrices of an element. -/
def elemSize : Elm → ℕ
  | .shaft ⟨false, _⟩ => 8
  | .shaft ⟨true, _⟩ => 12
  | .disk ⟨false, _⟩ => 4
  | .disk ⟨true, _⟩ => 6
  | .brg (.brg _ b) => (if b.n_link.isSome then 4 else 2)
  | .brg (.brg6 b) => (if b.base.n_link.isSome then 6 else 3)
  | .pm (.pm _) => 2
  | .pm (.pm6 _) => 3

theorem linkMat_size (l : Option ℕ) {k : ℕ} (A : Matrix (Fin k) (Fin k) ℝ) :
    (linkMat l A).1 = if l.isSome then k + k else k := by
  cases l <;> rfl

theorem size_M {ω : ℝ} {e : Elm} {E : LMat} (h : e.M ω = .ok E) : E.1 = elemSize e := by
  rcases e with ⟨_ | _, s⟩ | ⟨_ | _, d⟩ | (⟨sl, b⟩ | b) | (p | p)
  all_goals first
    | (cases h; rfl)
    | skip
  · simp only [Elm.M, BearingElement.M] at h
    obtain ⟨_, -, h⟩ := bind_ok.1 h
    obtain ⟨_, -, h⟩ := bind_ok.1 h
    obtain ⟨_, -, h⟩ := bind_ok.1 h
    obtain ⟨_, -, h⟩ := bind_ok.1 h
    cases h
    rw [linkMat_size]; rfl
  · simp only [Elm.M, BearingElement6DoF.M] at h
    obtain ⟨_, -, h⟩ := bind_ok.1 h
    obtain ⟨_, -, h⟩ := bind_ok.1 h
    obtain ⟨_, -, h⟩ := bind_ok.1 h
    obtain ⟨_, -, h⟩ := bind_ok.1 h
    obtain ⟨_, -, h⟩ := bind_ok.1 h
    cases h
    rw [linkMat_size]; rfl

theorem size_K {ω : ℝ} {e : Elm} {E : LMat} (h : e.K ω = .ok E) : E.1 = elemSize e := by
  rcases e with ⟨_ | _, s⟩ | ⟨_ | _, d⟩ | (⟨sl, b⟩ | b) | (p | p)
  all_goals first
    | (cases h; rfl)
    | skip
  · simp only [Elm.K, BearingElement.K] at h
    obtain ⟨_, -, h⟩ := bind_ok.1 h
    obtain ⟨_, -, h⟩ := bind_ok.1 h
    obtain ⟨_, -, h⟩ := bind_ok.1 h
    obtain ⟨_, -, h⟩ := bind_ok.1 h
    cases h
    rw [linkMat_size]; rfl
  · simp only [Elm.K, BearingElement6DoF.K] at h
    obtain ⟨_, -, h⟩ := bind_ok.1 h
    obtain ⟨_, -, h⟩ := bind_ok.1 h
    obtain ⟨_, -, h⟩ := bind_ok.1 h
    obtain ⟨_, -, h⟩ := bind_ok.1 h
    obtain ⟨_, -, h⟩ := bind_ok.1 h
    cases h
    rw [linkMat_size]; rfl

theorem size_C {ω : ℝ} {e : Elm} {E : LMat} (h : e.C ω = .ok E) : E.1 = elemSize e := by
  rcases e with ⟨_ | _, s⟩ | ⟨_ | _, d⟩ | (⟨sl, b⟩ | b) | (p | p)
  all_goals first
    | (cases h; rfl)
    | skip
  · simp only [Elm.C, BearingElement.C] at h
    obtain ⟨_, -, h⟩ := bind_ok.1 h
    obtain ⟨_, -, h⟩ := bind_ok.1 h
    obtain ⟨_, -, h⟩ := bind_ok.1 h
    obtain ⟨_, -, h⟩ := bind_ok.1 h
    cases h
    rw [linkMat_size]; rfl
  · simp only [Elm.C, BearingElement6DoF.C] at h
    obtain ⟨_, -, h⟩ := bind_ok.1 h
    obtain ⟨_, -, h⟩ := bind_ok.1 h
    obtain ⟨_, -, h⟩ := bind_ok.1 h
    obtain ⟨_, -, h⟩ := bind_ok.1 h
    obtain ⟨_, -, h⟩ := bind_ok.1 h
    cases h
    rw [linkMat_size]; rfl

theorem size_G {e : Elm} {E : LMat} (h : e.G = .ok E) : E.1 = elemSize e := by
  rcases e with ⟨_ | _, s⟩ | ⟨_ | _, d⟩ | (⟨sl, b⟩ | b) | (p | p)
  all_goals first
    | (cases h; rfl)
    | skip
  · simp only [Elm.G, BearingElement.G] at h
    obtain ⟨k, hk, h⟩ := bind_ok.1 h
    cases h
    exact size_K (ω := 0) (E := k) (e := .brg (.brg sl b)) hk
  · simp only [Elm.G, BearingElement6DoF.G] at h
    obtain ⟨k, hk, h⟩ := bind_ok.1 h
    cases h
    exact size_K (ω := 0) (E := k) (e := .brg (.brg6 b)) hk

/-! ### Support matrices -/

/-- The bilinear form of a linked support. -/
theorem support_some {m : ℕ} {k : ℕ} {A : Matrix (Fin k) (Fin k) ℝ} {E : LMat}
    (hE : IsSupport (some m) A E) : ∃ B : Matrix (Fin (k + k)) (Fin (k + k)) ℝ, E = ⟨k + k, B⟩ ∧
        ∀ u₁ u₂ v₁ v₂, Fin.append u₁ u₂ ⬝ᵥ (B *ᵥ Fin.append v₁ v₂) =
          (u₁ - u₂) ⬝ᵥ (A *ᵥ (v₁ - v₂)) := by
  obtain ⟨B, rfl, hB⟩ := hE
  refine ⟨B, rfl, fun u₁ u₂ v₁ v₂ => ?_⟩
  rw [hB]
  simp only [dotProduct, Fin.sum_univ_add, Fin.append_left, Fin.append_right, Pi.sub_apply,
    Pi.neg_apply, sub_mul, mul_neg]
  rw [Finset.sum_neg_distrib, Finset.sum_sub_distrib]
  ring

theorem workOf_ok {nd N : ℕ} {mat : Elm → Res LMat} {e : Elm} {E : LMat} (h : mat e = .ok E)
    (x y : ℕ → ℝ) : workOf nd N mat e x y =
      loc (globalOf nd N e) E.1 x ⬝ᵥ (E.2 *ᵥ loc (globalOf nd N e) E.1 y) := by
  unfold workOf
  rw [h]
  exact elemBilin_loc _ _ _ _

/-- The displacement that a bearing feels: of its node, relative to its link node if it has one. -/
def brgRel (nd k : ℕ) (b : BrgEl) (u : String × ℕ → ℝ) : Fin k → ℝ := fun p =>
  u ((supportLetters nd).getD p "", b.n) -
    match b.n_link with
    | none => 0
    | some m => u ((supportLetters nd).getD p "", m)

theorem brg_work (h : init pd fuel a = some (.ok r)) {b : BrgEl} (he : Elm.brg b ∈ r.elements)
    {mat : Elm → Res LMat} {E : LMat} (hE : mat (.brg b) = .ok E)
    (hk : E.1 = (globalOf r.number_dof (shaftEnd r) (.brg b)).length)
    (hlt : ∀ d ∈ globalOf r.number_dof (shaftEnd r) (.brg b), d < r.ndof)
    {k : ℕ} (hk2 : r.number_dof / 2 = k) {A : Matrix (Fin k) (Fin k) ℝ}
    (hS : IsSupport b.n_link A E)
    {x y : ℕ → ℝ} {u v : String × ℕ → ℝ} (hx : Describes r x u) (hy : Describes r y v) :
    workOf r.number_dof (shaftEnd r) mat (.brg b) x y =
      brgRel r.number_dof k b u ⬝ᵥ (A *ᵥ brgRel r.number_dof k b v) := by
  have hnd := nd_cases (init_ok h)
  rw [workOf_ok hE]
  have hg : (globalOf r.number_dof (shaftEnd r) (.brg b)).length =
      (attach r.number_dof (.brg b) b.n).length := by simp [globalOf, Elm.n]
  have hk' := hk
  rw [hg, attach_len hnd] at hk'
  simp only at hk'
  cases hl : b.n_link with
  | none =>
    rw [hl] at hS
    have hS' : E = ⟨k, A⟩ := hS
    subst hS'
    have hv : ∀ (z : ℕ → ℝ) (w : String × ℕ → ℝ), Describes r z w →
        loc (globalOf r.number_dof (shaftEnd r) (.brg b)) k z = brgRel r.number_dof k b w := by
      intro z w hz
      funext p
      rw [loc_describes h he trivial hlt hz hk p]
      rcases hnd with h4 | h4 <;> rw [h4] at hk2 ⊢ <;> subst hk2 <;> revert p <;>
        intro p <;> fin_cases p <;>
        simp [attach, brgRel, hl, Elm.n, dofsAt, supportLetters]
    simp only
    rw [hv x u hx, hv y v hy]
  | some m =>
    rw [hl] at hS hk'
    obtain ⟨B, rfl, hB⟩ := support_some hS
    have hm : m ≠ b.n := by
      rintro rfl
      simp only [if_true] at hk'
      rcases hnd with h4 | h4 <;> rw [h4] at hk2 hk' <;> omega
    have hv : ∀ (z : ℕ → ℝ) (w : String × ℕ → ℝ), Describes r z w →
        loc (globalOf r.number_dof (shaftEnd r) (.brg b)) (k + k) z =
          Fin.append (fun p : Fin k => w ((supportLetters r.number_dof).getD p "", b.n))
            (fun p : Fin k => w ((supportLetters r.number_dof).getD p "", m)) := by
      intro z w hz
      funext p
      rw [loc_describes h he trivial hlt hz hk p]
      rcases hnd with h4 | h4 <;> rw [h4] at hk2 ⊢ <;> subst hk2 <;> revert p <;>
        intro p <;> fin_cases p <;>
        simp [attach, hl, hm, Elm.n, dofsAt, supportLetters, Fin.append, Fin.addCases]
    simp only
    rw [hv x u hx, hv y v hy, hB]
    congr 1
    · funext p; simp [brgRel, hl]
    · congr 1; funext p; simp [brgRel, hl]

/-- The matrices of an element have as many rows as it has dofs, unless it links a node to itself. -/
theorem size_iff (h : init pd fuel a = some (.ok r)) {e : Elm} (he : e ∈ r.elements) :
    elemSize e = (globalOf r.number_dof (shaftEnd r) e).length ↔ NotSelfLinked e := by
  have hb := init_ok h
  have hnd := nd_cases hb
  have hg : (globalOf r.number_dof (shaftEnd r) e).length =
      (attach r.number_dof e (e.n.getD 0)).length := by simp [globalOf]
  rw [hg, attach_len hnd]
  obtain ⟨-, -, hs, hd, hbr⟩ := check_ok hb.dof
  rcases (mem_elements hb e).1 he with ⟨⟨six, s⟩, hm, rfl⟩ | ⟨⟨six, s⟩, hm, rfl⟩ | ⟨b, hm, rfl⟩ |
    ⟨p, hm, rfl⟩
  · have := hs _ hm
    simp only at this
    rcases hnd with h4 | h4 <;> rw [h4] at this ⊢ <;> simp at this <;> subst this <;>
      simp [elemSize, NotSelfLinked]
  · have := hd _ hm
    simp only at this
    rcases hnd with h4 | h4 <;> rw [h4] at this ⊢ <;> simp at this <;> subst this <;>
      simp [elemSize, NotSelfLinked]
  · have := hbr _ hm
    cases b with
    | brg sl b =>
      simp only at this
      rw [this]
      simp only [NotSelfLinked, elemSize, BrgEl.n_link, BrgEl.n, BrgEl.base, Elm.n, Option.getD_some]
      cases hl : b.n_link with
      | none => simp
      | some k =>
        by_cases hk : k = b.n <;> simp [hk]
    | brg6 b =>
      simp only at this
      rw [this]
      simp only [NotSelfLinked, elemSize, BrgEl.n_link, BrgEl.n, BrgEl.base, Elm.n, Option.getD_some]
      cases hl : b.base.n_link with
      | none => simp
      | some k =>
        by_cases hk : k = b.base.n <;> simp [hk]
  · cases p <;> simp [elemSize, NotSelfLinked]

theorem range_iff (h : init pd fuel a = some (.ok r)) {e : Elm} (he : e ∈ r.elements)
    (hf : Fits r.number_dof e) :
    (∀ d ∈ globalOf r.number_dof (shaftEnd r) e, d < r.ndof) ↔ InRange r e := by
  have hb := init_ok h
  obtain ⟨z, hz, rfl⟩ := List.mem_map.1 he
  obtain ⟨n, hn, -⟩ := placed_eq hb hz hf
  simp only [globalOf, List.mem_map, forall_exists_index, and_imp, forall_apply_eq_imp_iff₂, InRange]
  rw [hn, shaftEnd_last h, ndof_eq hb]
  refine forall₂_congr fun key hk => ?_
  exact slot_lt_iff (nd_cases hb) (attach_letter hb he hf hn hk)

/-- When an assembly succeeds. -/
theorem succeeds_iff (h : init pd fuel a = some (.ok r))
    (hf : ∀ e ∈ r.elements, Fits r.number_dof e) {mat : Elm → Res LMat} (p : Elm → Bool)
    (hsize : ∀ e E, mat e = .ok E → E.1 = elemSize e) :
    (∃ B, assemble r.ndof mat (r.placed.filter fun z => p z.1) = .ok B) ↔
    ∀ e ∈ r.elements, p e = true → InRange r e ∧ NotSelfLinked e ∧ ∃ E, mat e = .ok E := by
  rw [assembled_iff h hf]
  constructor
  · intro h1 e he hp
    obtain ⟨E, hE, h2, h3⟩ := h1 e (List.mem_filter.2 ⟨he, hp⟩)
    rw [hsize e E hE] at h2
    exact ⟨(range_iff h he (hf e he)).1 h3, (size_iff h he).1 h2, E, hE⟩
  · intro h1 e he
    obtain ⟨he, hp⟩ := List.mem_filter.1 he
    obtain ⟨h2, h3, E, hE⟩ := h1 e he hp
    refine ⟨E, hE, ?_, (range_iff h he (hf e he)).2 h2⟩
    rw [hsize e E hE]
    exact (size_iff h he).2 h3

/-! ### Order of the elements -/

theorem placed_perm {pd' : Pandas} {fuel' : ℕ} {a' : RotorArgs} {r' : Rotor}
    (h : init pd fuel a = some (.ok r)) (h' : init pd' fuel' a' = some (.ok r'))
    (hp : (parts a).elements.Perm (parts a').elements) :
    r.number_dof = r'.number_dof ∧ r.ndof = r'.ndof ∧ r.placed.Perm r'.placed := by
  have hb := init_ok h
  have hb' := init_ok h'
  have hel : r.elements = (parts a).elements := (place_ok hb.placed).1
  have hel' : r'.elements = (parts a').elements := (place_ok hb'.placed).1
  have hpe : r.elements.Perm r'.elements := by rw [hel, hel']; exact hp
  have hmem : ∀ e, e ∈ r.shaft ↔ e ∈ r'.shaft := by
    intro e
    have e1 : ∀ {pd : Pandas} {a : RotorArgs} {r : Rotor}, Built pd a r →
        (e ∈ r.shaft ↔ Elm.shaft e ∈ r.elements) := by
      intro pd a r hb
      rw [mem_elements hb]
      constructor
      · intro h; exact Or.inl ⟨e, h, rfl⟩
      · rintro (⟨_, h, h'⟩ | ⟨_, _, h'⟩ | ⟨_, _, h'⟩ | ⟨_, _, h'⟩) <;> cases h'
        exact h
    rw [e1 hb, e1 hb', hpe.mem_iff]
  have hnd : r.number_dof = r'.number_dof := by
    obtain ⟨e, he⟩ := List.exists_mem_of_ne_nil _ (shaft_ne hb)
    have s1 := (check_ok hb.dof).2.2.1 e he
    have s2 := (check_ok hb'.dof).2.2.1 e ((hmem e).1 he)
    rw [s1] at s2
    have := nd_cases hb
    have := nd_cases hb'
    simp only [decide_eq_decide] at s2
    omega
  have hend : shaftEnd r = shaftEnd r' := by
    apply le_antisymm <;> refine maxOr0_le.2 fun y hy => ?_ <;>
      obtain ⟨e, he, rfl⟩ := List.mem_map.1 hy
    · exact le_maxOr0 (List.mem_map.2 ⟨e, (hmem e).1 he, rfl⟩)
    · exact le_maxOr0 (List.mem_map.2 ⟨e, (hmem e).2 he, rfl⟩)
  have hlast : lastNode r.shaft = lastNode r'.shaft := by
    rw [shaftEnd_last h, shaftEnd_last h'] at hend
    unfold lastShaftNode at hend
    omega
  have hpm : r.pms.length = r'.pms.length := by
    have e1 : ∀ {pd : Pandas} {a : RotorArgs} {r : Rotor}, Built pd a r →
        (r.elements.filter fun e => match e with | .pm _ => true | _ => false).length =
          r.pms.length := by
      intro pd a r hb
      rw [elements_eq' hb]
      simp [List.filter_map, Function.comp_def]
    rw [← e1 hb, ← e1 hb']
    exact (hpe.filter _).length_eq
  refine ⟨hnd, ?_, ?_⟩
  · rw [ndof_eq hb, ndof_eq hb', hnd, hpm, ← shaftEnd_last h, ← shaftEnd_last h', hend]
  · have p1 := hb.placed
    have p2 := hb'.placed
    rw [← hnd, ← hlast] at p2
    exact mapM_perm hp p1 p2

theorem assemble_perm {pd' : Pandas} {fuel' : ℕ} {a' : RotorArgs} {r' : Rotor}
    (h : init pd fuel a = some (.ok r)) (h' : init pd' fuel' a' = some (.ok r'))
    (hp : (parts a).elements.Perm (parts a').elements) {mat : Elm → Res LMat} (p : Elm → Bool)
    {B : Matrix (Fin r.ndof) (Fin r.ndof) ℝ}
    (hB : assemble r.ndof mat (r.placed.filter fun z => p z.1) = .ok B) :
    ∃ B', assemble r'.ndof mat (r'.placed.filter fun z => p z.1) = .ok B' ∧
      ∀ x y, bilin B x y = bilin B' x y := by
  obtain ⟨-, h2, h3⟩ := placed_perm h h' hp
  have hf := h3.filter (fun z => p z.1)
  have hd : ∀ z ∈ r.placed.filter fun z => p z.1, z.2.values.Nodup := fun z hz =>
    values_nodup (init_ok h) (List.mem_of_mem_filter hz)
  have hd' : ∀ z ∈ r'.placed.filter fun z => p z.1, z.2.values.Nodup := fun z hz =>
    values_nodup (init_ok h') (List.mem_of_mem_filter hz)
  obtain ⟨e1, e2⟩ := assemble_sum hd hB
  obtain ⟨B', hB'⟩ := (assemble_iff (N := r'.ndof) (mat := mat) hd').2 fun z hz => by
    have := e1 z (hf.mem_iff.2 hz)
    rwa [← h2]
  refine ⟨B', hB', fun x y => ?_⟩
  rw [e2, (assemble_sum hd' hB').2]
  exact (hf.map _).sum_eq

end Ross.AssemblyLemmas
