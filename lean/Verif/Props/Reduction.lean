import Verif.Lemmas.Reduction
import Verif.Props.Shaft6
import Verif.Props.Synchronous

/-! # C44: dropping the axial and torsional degrees of freedom -/

namespace Ross.Props

open Ross Ross.Spec Ross.RotorLemmas Ross.Rotor Ross.ReductionLemmas Ross.BearingLemmas
  Ross.Shaft6Lemmas Ross.AssemblyLemmas Matrix

variable {pd pd' : Pandas} {a₆ a₄ : RotorArgs} {r₆ r₄ : Rotor} {fuel fuel' : ℕ}

/-! ### The matrix operation -/

/-- **C44** a third of the rows and columns is deleted. -/
theorem C44_size (A : LMat) : (removeDofs A).1 = A.1 - A.1 / 3 := removeDofs_size A

/-- **C44** the others are kept in their order: rows and columns `0, 1, 3, 4, 6, 7, …`. -/
theorem C44_entries (A : LMat) (p q : Fin (removeDofs A).1) :
    ∃ (hp : keptIdx p < A.1) (hq : keptIdx q < A.1),
      (removeDofs A).2 p q = A.2 ⟨keptIdx p, hp⟩ ⟨keptIdx q, hq⟩ := by
  have hp := p.2
  have hq := q.2
  have e := removeDofs_size A
  have h1 : keptIdx p < A.1 := by unfold keptIdx; omega
  have h2 : keptIdx q < A.1 := by unfold keptIdx; omega
  refine ⟨h1, h2, ?_⟩
  have := removeDofs_ent A (p := p) (q := q) (by omega) (by omega)
  unfold LMat.ent at this
  rwa [dif_pos ⟨hp, hq⟩, dif_pos ⟨h1, h2⟩] at this

/-- **C44** no row outside the deleted ones is lost: `keptIdx` lists in increasing order exactly the
numbers which do not leave rest 2 when divided by 3. -/
theorem C44_kept : StrictMono keptIdx ∧ ∀ i, (∃ p, keptIdx p = i) ↔ i % 3 ≠ 2 := by
  constructor
  · refine strictMono_nat_of_lt_succ fun n => ?_
    unfold keptIdx; omega
  · intro i
    constructor
    · rintro ⟨p, rfl⟩
      unfold keptIdx; omega
    · intro h
      exact ⟨i - i / 3, by unfold keptIdx; omega⟩

/-- **C44** with a list of dofs: the call succeeds iff they are all rows of the matrix, and then the
result is the matrix on the increasing sequence of the others. -/
theorem C44_list (A : LMat) (dofs : List ℕ) :
    ((∃ B, removeDofsOf A dofs = .ok B) ↔ ∀ d ∈ dofs, d < A.1) ∧
    ∀ B, removeDofsOf A dofs = .ok B → ∃ f : Fin B.1 → Fin A.1, StrictMono f ∧
      (∀ i, (∃ p, f p = i) ↔ (i : ℕ) ∉ dofs) ∧ B.2 = A.2.submatrix f f := by
  constructor
  · unfold removeDofsOf
    by_cases h : dofs.all (· < A.1) = true
    · rw [if_pos h]
      simpa using h
    · rw [if_neg h]
      simp only [reduceCtorEq, exists_false, false_iff]
      simpa using h
  · intro B hB
    unfold removeDofsOf at hB
    split_ifs at hB with h
    cases hB
    set kept := (List.range A.1).filter fun i => decide (i ∉ dofs) with hk
    have hlt : ∀ p : Fin kept.length, kept[p] < A.1 := by
      intro p
      have := List.getElem_mem p.2
      exact List.mem_range.1 (List.mem_filter.1 this).1
    have hs : kept.Pairwise (· < ·) := List.pairwise_lt_range.filter _
    refine ⟨fun p => ⟨kept[p], hlt p⟩, ?_, ?_, ?_⟩
    · intro p q hpq
      exact List.pairwise_iff_getElem.1 hs p q p.2 q.2 hpq
    · intro i
      constructor
      · rintro ⟨p, rfl⟩
        have := List.getElem_mem p.2
        simpa using (List.mem_filter.1 this).2
      · intro hi
        have : (i : ℕ) ∈ kept := by
          rw [hk, List.mem_filter, List.mem_range]
          exact ⟨i.2, by simpa using hi⟩
        obtain ⟨p, hp, he⟩ := List.getElem_of_mem this
        exact ⟨⟨p, hp⟩, Fin.ext he⟩
    · ext p q
      show A.ent (kept.getD p 0) (kept.getD q 0) = A.2 ⟨kept[p], hlt p⟩ ⟨kept[q], hlt q⟩
      rw [List.getD_eq_getElem?_getD, List.getD_eq_getElem?_getD, List.getElem?_eq_getElem p.2,
        List.getElem?_eq_getElem q.2, Option.getD_some, Option.getD_some]
      unfold LMat.ent
      exact dif_pos ⟨hlt p, hlt q⟩

/-! ### Rotors -/

/-- **C44** the degrees of freedom that stay are the bending ones: displacements and rotations of the
shaft nodes and displacements of the supports, numbered as in a 4-dof rotor; the deleted ones are the
axial displacements and the rotations about the axis. -/
theorem C44_directions (N n : ℕ) :
    slot 6 N ("x", n) = keptIdx (slot 4 N ("x", n)) ∧ slot 6 N ("y", n) = keptIdx (slot 4 N ("y", n)) ∧
    slot 6 N ("z", n) % 3 = 2 ∧
    (n ≤ N → slot 6 N ("alpha", n) = keptIdx (slot 4 N ("alpha", n)) ∧
      slot 6 N ("beta", n) = keptIdx (slot 4 N ("beta", n)) ∧ slot 6 N ("theta", n) % 3 = 2) :=
  ⟨(slots N n).1, (slots N n).2.1, (slots N n).2.2, fun h => slots_node h⟩

/-- **C44** mass: reducing the matrix of a 6-dof rotor gives the matrix of the 4-dof rotor made of the
same elements. -/
theorem C44_mass (h6 : init pd fuel a₆ = some (.ok r₆)) (h4 : init pd' fuel' a₄ = some (.ok r₄))
    (hs : SameBending a₆ a₄) (hn : r₆.number_dof = 6) (ω : Option ℝ)
    {B : Matrix (Fin r₆.ndof) (Fin r₆.ndof) ℝ} (hB : r₆.M ω = .ok B) :
    ∃ B', r₄.M ω = .ok B' ∧ removeDofs ⟨r₆.ndof, B⟩ = ⟨r₄.ndof, B'⟩ := by
  unfold Rotor.M at hB ⊢
  rw [← placed_filter_true r₆] at hB
  obtain ⟨B', h1, h2⟩ := assemble_reduce h6 h4 hs hn (fun _ => true) (fun _ => rfl)
    (fun e he => reduces_M (six_of h6 hn he) (ω.getD 0)) hB
  rw [placed_filter_true r₄] at h1
  exact ⟨B', h1, h2⟩

/-- **C44** stiffness, with any elements ignored. -/
theorem C44_stiffness (h6 : init pd fuel a₆ = some (.ok r₆)) (h4 : init pd' fuel' a₄ = some (.ok r₄))
    (hs : SameBending a₆ a₄) (hn : r₆.number_dof = 6) (ω : ℝ) (ignore : List (Option String))
    {B : Matrix (Fin r₆.ndof) (Fin r₆.ndof) ℝ} (hB : r₆.K ω ignore = .ok B) :
    ∃ B', r₄.K ω ignore = .ok B' ∧ removeDofs ⟨r₆.ndof, B⟩ = ⟨r₄.ndof, B'⟩ :=
  assemble_reduce h6 h4 hs hn (fun e => decide (e.tag ∉ ignore)) (fun e => by rw [drop_tag])
    (fun e he => reduces_K (six_of h6 hn he) ω) hB

/-- **C44** damping, with any elements ignored. -/
theorem C44_damping (h6 : init pd fuel a₆ = some (.ok r₆)) (h4 : init pd' fuel' a₄ = some (.ok r₄))
    (hs : SameBending a₆ a₄) (hn : r₆.number_dof = 6) (ω : ℝ) (ignore : List (Option String))
    {B : Matrix (Fin r₆.ndof) (Fin r₆.ndof) ℝ} (hB : r₆.C ω ignore = .ok B) :
    ∃ B', r₄.C ω ignore = .ok B' ∧ removeDofs ⟨r₆.ndof, B⟩ = ⟨r₄.ndof, B'⟩ :=
  assemble_reduce h6 h4 hs hn (fun e => decide (e.tag ∉ ignore)) (fun e => by rw [drop_tag])
    (fun e he => reduces_C (six_of h6 hn he) ω) hB

/-- A shaft element for which the two classes have the same gyroscopic matrix: without gyroscopic
effect, or cylindrical. -/
def SameGyro (s : ShaftElement) : Prop :=
  s.gyroscopic = false ∨ (s.Built ∧ 1 + s.phi ≠ 0 ∧ s.odl = s.odr ∧ s.idl = s.idr)

theorem SameGyro.eq {s : ShaftElement} (h : SameGyro s) : s.G₆.submatrix bend bend = s.G := by
  rcases h with h | ⟨h1, h2, h3, h4⟩
  · simp [ShaftElement.G₆, ShaftElement.G, h]
  · exact C10_gyro_partial s h1 h2 h3 h4

/-- **C44** gyroscopic matrix, for rotors whose conical elements have no gyroscopic effect: for the
others the element matrices themselves differ, see `C10_gyro_false`. -/
theorem C44_gyro_partial (h6 : init pd fuel a₆ = some (.ok r₆)) (h4 : init pd' fuel' a₄ = some (.ok r₄))
    (hs : SameBending a₆ a₄) (hn : r₆.number_dof = 6) (hg : ∀ e ∈ r₆.shaft, SameGyro e.s)
    {B : Matrix (Fin r₆.ndof) (Fin r₆.ndof) ℝ} (hB : r₆.G = .ok B) :
    ∃ B', r₄.G = .ok B' ∧ removeDofs ⟨r₆.ndof, B⟩ = ⟨r₄.ndof, B'⟩ := by
  unfold Rotor.G at hB ⊢
  rw [← placed_filter_true r₆] at hB
  obtain ⟨B', h1, h2⟩ := assemble_reduce h6 h4 hs hn (fun _ => true) (fun _ => rfl)
    (fun e he => reduces_G (six_of h6 hn he) fun s hse => by
      subst hse
      rcases (mem_elements (init_ok h6) _).1 he with ⟨s', hs', h⟩ | ⟨s', hs', h⟩ | ⟨s', hs', h⟩ |
        ⟨s', hs', h⟩ <;> cases h
      exact (hg _ hs').eq) hB
  rw [placed_filter_true r₄] at h1
  exact ⟨B', h1, h2⟩

/-! ### The converted rotor -/

/-- Two results are equal up to the names of the indices. -/
def SameUpTo {n m : ℕ} (h : n = m) (x : Matrix (Fin n) (Fin n) ℝ) (y : Matrix (Fin m) (Fin m) ℝ) : Prop :=
  ∀ i j, x i j = y (Fin.cast h i) (Fin.cast h j)

theorem sameUpTo_of {n m : ℕ} (h : n = m) {x : Matrix (Fin n) (Fin n) ℝ} {y : Matrix (Fin m) (Fin m) ℝ}
    (e : (⟨n, x⟩ : LMat) = ⟨m, y⟩) : SameUpTo h x y := by
  subst h
  intro i j
  cases e
  rfl

/-- The state matrix of a converted rotor from those of the 4-dof rotor. -/
theorem A_transfer {n m : ℕ} (h : n = m) {ω f : ℝ} {M K C G : Matrix (Fin n) (Fin n) ℝ}
    {M' K' C' G' : Matrix (Fin m) (Fin m) ℝ} (hM : SameUpTo h M M') (hK : SameUpTo h K K')
    (hC : SameUpTo h C C') (hG : SameUpTo h G G')
    {S : Matrix (Fin n ⊕ Fin n) (Fin n ⊕ Fin n) ℝ}
    (hS : (do
      let X ← laSolve (-M) K
      let Y ← laSolve (-M) (C + ω • G)
      pure (fromBlocks 0 1 X Y) : Res (Matrix (Fin n ⊕ Fin n) (Fin n ⊕ Fin n) ℝ)) = .ok S) :
    ∃ S', (do
      let X ← laSolve (-M') K'
      let Y ← laSolve (-M') (C' + ω • G')
      pure (fromBlocks 0 1 X Y) : Res (Matrix (Fin m ⊕ Fin m) (Fin m ⊕ Fin m) ℝ)) = .ok S' ∧
      S = S'.submatrix (Sum.map (Fin.cast h) (Fin.cast h)) (Sum.map (Fin.cast h) (Fin.cast h)) := by
  subst h
  have e1 : M = M' := by ext i j; exact hM i j
  have e2 : K = K' := by ext i j; exact hK i j
  have e3 : C = C' := by ext i j; exact hC i j
  have e4 : G = G' := by ext i j; exact hG i j
  subst e1 e2 e3 e4
  refine ⟨S, hS, ?_⟩
  ext i j
  rcases i with i | i <;> rcases j with j | j <;> rfl

/-- **C44** the conversion of a 6-dof rotor whose mass matrix is defined succeeds; the result has 4
degrees of freedom per node, as many in total as the 4-dof rotor of the same elements, and its mass,
stiffness and damping matrices are those of that rotor. -/
theorem C44_convert (h6 : init pd fuel a₆ = some (.ok r₆)) (h4 : init pd' fuel' a₄ = some (.ok r₄))
    (hs : SameBending a₆ a₄) (hn : r₆.number_dof = 6)
    {B : Matrix (Fin r₆.ndof) (Fin r₆.ndof) ℝ} (hB : r₆.M = .ok B) :
    ∃ c, convert6to4 r₆ = .ok c ∧ c.number_dof = 4 ∧ r₄.number_dof = 4 ∧ c.ndof = r₄.ndof ∧
      ∃ h : (keptDofs r₆.ndof).length = r₄.ndof,
        (∀ f X, c.M f false = .ok X → ∃ Y, r₄.M f = .ok Y ∧ SameUpTo h X Y) ∧
        (∀ ω X, c.K ω = .ok X → ∃ Y, r₄.K ω = .ok Y ∧ SameUpTo h X Y) ∧
        (∀ ω X, c.C ω = .ok X → ∃ Y, r₄.C ω = .ok Y ∧ SameUpTo h X Y) := by
  have hsz : (keptDofs r₆.ndof).length = r₄.ndof := by
    rw [keptDofs_length, size_drop h6 h4 hs hn]
  refine ⟨_, bind_ok.2 ⟨_, hB, rfl⟩, rfl, dof_drop h4 hs, hsz, hsz, ?_, ?_, ?_⟩
  · intro f X hX
    obtain ⟨A, hA, e⟩ := bind_ok.1 hX
    cases e
    obtain ⟨Y, hY, e⟩ := C44_mass h6 h4 hs hn f hA
    exact ⟨Y, hY, sameUpTo_of hsz e⟩
  · intro ω X hX
    obtain ⟨A, hA, e⟩ := bind_ok.1 hX
    cases e
    obtain ⟨Y, hY, e⟩ := C44_stiffness h6 h4 hs hn ω [] hA
    exact ⟨Y, hY, sameUpTo_of hsz e⟩
  · intro ω X hX
    obtain ⟨A, hA, e⟩ := bind_ok.1 hX
    cases e
    obtain ⟨Y, hY, e⟩ := C44_damping h6 h4 hs hn ω [] hA
    exact ⟨Y, hY, sameUpTo_of hsz e⟩

/-- **C44** hence the state matrix of the converted rotor, from which its modes are computed, is that
of the 4-dof rotor, for rotors whose conical elements have no gyroscopic effect. -/
theorem C44_state_partial (h6 : init pd fuel a₆ = some (.ok r₆)) (h4 : init pd' fuel' a₄ = some (.ok r₄))
    (hs : SameBending a₆ a₄) (hn : r₆.number_dof = 6) (hg : ∀ e ∈ r₆.shaft, SameGyro e.s)
    {c : Converted (keptDofs r₆.ndof).length} (hc : convert6to4 r₆ = .ok c) (ω : ℝ) (f : Option ℝ)
    {S : Matrix (Fin (keptDofs r₆.ndof).length ⊕ Fin (keptDofs r₆.ndof).length)
      (Fin (keptDofs r₆.ndof).length ⊕ Fin (keptDofs r₆.ndof).length) ℝ} (hS : c.A ω f = .ok S) :
    ∃ (h : (keptDofs r₆.ndof).length = r₄.ndof) (S' : _), r₄.A ω f = .ok S' ∧
      S = S'.submatrix (Sum.map (Fin.cast h) (Fin.cast h)) (Sum.map (Fin.cast h) (Fin.cast h)) := by
  have hsz : (keptDofs r₆.ndof).length = r₄.ndof := by
    rw [keptDofs_length, size_drop h6 h4 hs hn]
  refine ⟨hsz, ?_⟩
  obtain ⟨M0, -, e⟩ := bind_ok.1 hc
  cases e
  unfold Converted.A at hS
  obtain ⟨M, hM, h1⟩ := bind_ok.1 hS
  obtain ⟨K, hK, h2⟩ := bind_ok.1 h1
  obtain ⟨X, hX, h3⟩ := bind_ok.1 h2
  obtain ⟨C, hC, h4'⟩ := bind_ok.1 h3
  obtain ⟨G, hG, h5⟩ := bind_ok.1 h4'
  obtain ⟨Y, hY, h6'⟩ := bind_ok.1 h5
  clear h1 h2 h3 h4' h5 hS
  obtain ⟨M₆, hM₆, e⟩ := bind_ok.1 hM; cases e
  obtain ⟨K₆, hK₆, e⟩ := bind_ok.1 hK; cases e
  obtain ⟨C₆, hC₆, e⟩ := bind_ok.1 hC; cases e
  obtain ⟨G₆, hG₆, e⟩ := bind_ok.1 hG; cases e
  obtain ⟨M₄, hM₄, eM⟩ := C44_mass h6 h4 hs hn _ hM₆
  obtain ⟨K₄, hK₄, eK⟩ := C44_stiffness h6 h4 hs hn _ [] hK₆
  obtain ⟨C₄, hC₄, eC⟩ := C44_damping h6 h4 hs hn _ [] hC₆
  obtain ⟨G₄, hG₄, eG⟩ := C44_gyro_partial h6 h4 hs hn hg hG₆
  obtain ⟨S', hS', e⟩ := A_transfer hsz (f := 0) (sameUpTo_of hsz eM) (sameUpTo_of hsz eK)
    (sameUpTo_of hsz eC) (sameUpTo_of hsz eG) (S := S) (bind_ok.2 ⟨X, hX, bind_ok.2 ⟨Y, hY, h6'⟩⟩)
  refine ⟨S', ?_, e⟩
  obtain ⟨X', hX', hS'⟩ := bind_ok.1 hS'
  obtain ⟨Y', hY', hS'⟩ := bind_ok.1 hS'
  exact bind_ok.2 ⟨_, hM₄, bind_ok.2 ⟨_, hK₄, bind_ok.2 ⟨_, hX', bind_ok.2 ⟨_, hC₄, bind_ok.2
    ⟨_, hG₄, bind_ok.2 ⟨_, hY', hS'⟩⟩⟩⟩⟩⟩

/-! ### A concrete case -/

/-- A 6-dof rotor on a support: a shaft element without gyroscopic effect, a disk, a bearing that
stands on a mass of 10 and a bearing that holds it. -/
noncomputable def sixLinked : RotorArgs where
  shaft := [.el ⟨true, { exShaft with n := some 0, tag := some "shaft", gyroscopic := false }⟩]
  disks := [⟨true, ⟨0, 30, 1, 2, some "disk", 1, ""⟩⟩]
  bearings := [.brg6 ⟨{ exBrg 0 (some 2) 1e6 10 with tag := some "b" }, constCoeff 5, constCoeff 6, constCoeff 7⟩,
    .brg6 ⟨{ exBrg 2 none 1e7 10 with tag := some "c" }, constCoeff 5, constCoeff 6, constCoeff 7⟩]
  pms := [.pm6 ⟨some 2, 10, 10, 11, some "p", ""⟩]

/-- Its bending counterpart. -/
noncomputable def fourLinked : RotorArgs where
  shaft := [.el ⟨false, { exShaft with n := some 0, tag := some "shaft", gyroscopic := false }⟩]
  disks := [⟨false, ⟨0, 30, 1, 2, some "disk", 1, ""⟩⟩]
  bearings := [.brg false { exBrg 0 (some 2) 1e6 10 with tag := some "b" },
    .brg false { exBrg 2 none 1e7 10 with tag := some "c" }]
  pms := [.pm ⟨some 2, none, 10, 10, some "p", ""⟩]

theorem linked_same : SameBending sixLinked fourLinked where
  shaft := rfl
  disks := rfl
  bearings := rfl
  pms := rfl

theorem sixLinked_wf : WellFormed true 1 sixLinked where
  pos := by norm_num
  nodes := by
    intro k
    show k ∈ [0] ↔ k < 1
    simp
  len := by
    intro e he
    simp [sixLinked, shaftList, Nest.flattenAll, Nest.flatten] at he
    subst he
    norm_num [exShaft]
  shaft_six := by
    intro e he
    simp [sixLinked, shaftList, Nest.flattenAll, Nest.flatten] at he
    subst he; rfl
  disk_six := by simp [sixLinked]
  brg_six := by
    intro e he; simp [sixLinked] at he
    rcases he with rfl | rfl <;> rfl
  disk_on := by simp [sixLinked]
  brg_nodes := by simp [sixLinked, BrgEl.n, BrgEl.base, exBrg]
  brg_on := by
    intro e he; simp [sixLinked] at he
    rcases he with rfl | rfl
    · left; norm_num [BrgEl.n, BrgEl.base, exBrg]
    · right; exact ⟨_, List.mem_cons_self, rfl⟩
  brg_linked := by
    intro e he h; simp [sixLinked] at he
    rcases he with rfl | rfl
    · norm_num [BrgEl.n, BrgEl.base, exBrg] at h
    · exact ⟨_, List.mem_cons_self, rfl⟩
  brg_order := by
    intro e he c hc h hl; simp [sixLinked] at he hc
    rcases he with rfl | rfl <;> rcases hc with rfl | rfl <;>
      simp [BrgEl.n, BrgEl.n_link, BrgEl.base, exBrg] at h hl ⊢
  pm_on := by
    intro p hp; simp [sixLinked] at hp; subst hp
    exact ⟨_, List.mem_cons_of_mem _ List.mem_cons_self, rfl⟩
  tags := by
    show (["shaft", "disk", "b", "c", "p"] : List String).Nodup
    decide

theorem mapIdx_comp {α β γ : Type} (l : List α) (f : α → β) (g : ℕ → β → γ) :
    (l.map f).mapIdx g = l.mapIdx fun i x => g i (f x) := by
  apply List.ext_getElem
  · simp
  · intro i h1 h2
    simp

/-- The bending counterpart of a well-formed 6-dof description is well-formed, so the 4-dof rotor of
the theorems above exists for each of them. -/
theorem C44_counterpart {N : ℕ} (h : WellFormed true N a₆) (hs : SameBending a₆ a₄) :
    WellFormed false N a₄ := by
  have e1 : shaftList a₄ = (shaftList a₆).map dropShaft := hs.shaft
  have n1 : ∀ b, (dropBrg b).n = b.n := by rintro (b | b) <;> rfl
  have n2 : ∀ b, (dropBrg b).n_link = b.n_link := by rintro (b | b) <;> rfl
  have n3 : ∀ p, (dropPm p).n = p.n := by rintro (p | p) <;> rfl
  have br : ∀ P : BrgEl → Prop, (∀ b ∈ a₄.bearings, P b) ↔ ∀ b ∈ a₆.bearings, P (dropBrg b) := by
    intro P; rw [hs.bearings]; simp
  have ex : ∀ P : BrgEl → Prop, (∃ b ∈ a₄.bearings, P b) ↔ ∃ b ∈ a₆.bearings, P (dropBrg b) := by
    intro P; rw [hs.bearings]; simp
  have sh : ∀ P : ShaftEl → Prop, (∀ b ∈ shaftList a₄, P b) ↔ ∀ b ∈ shaftList a₆, P (dropShaft b) := by
    intro P; rw [e1]; simp
  have dk : ∀ P : DiskEl → Prop, (∀ b ∈ a₄.disks, P b) ↔ ∀ b ∈ a₆.disks, P (dropDisk b) := by
    intro P; rw [hs.disks]; simp
  have pm : ∀ P : PmEl → Prop, (∀ b ∈ a₄.pms, P b) ↔ ∀ b ∈ a₆.pms, P (dropPm b) := by
    intro P; rw [hs.pms]; simp
  have ep : ∀ P : PmEl → Prop, (∃ b ∈ a₄.pms, P b) ↔ ∃ b ∈ a₆.pms, P (dropPm b) := by
    intro P; rw [hs.pms]; simp
  have gn : givenNodes a₄ = givenNodes a₆ := by
    unfold givenNodes; rw [e1, mapIdx_comp]; rfl
  have six : ∀ b ∈ a₆.bearings, BrgSix true b := h.brg_six
  have tg : allTags a₄ = allTags a₆ := by
    unfold allTags
    rw [e1, hs.disks, hs.bearings, hs.pms, mapIdx_comp, mapIdx_comp, mapIdx_comp,
      mapIdx_comp]
    congr 1
    · congr 1
      apply List.ext_getElem
      · simp
      · intro i hi1 hi2
        have hi : i < a₆.bearings.length := by simpa using hi2
        rw [List.getElem_mapIdx, List.getElem_mapIdx]
        have := six a₆.bearings[i] (List.getElem_mem _)
        rcases h : a₆.bearings[i] with b | b
        · rw [h] at this; cases this
        · simp [h, dropBrg, BrgEl.isSeal, BrgEl.tag]
          rfl
    · congr 1
      funext i p
      rcases p with p | p <;> rfl
  refine ⟨h.pos, gn ▸ h.nodes, (sh _).2 h.len, (sh _).2 fun _ _ => rfl, (dk _).2 fun _ _ => rfl,
    (br _).2 ?_, (dk _).2 h.disk_on, ?_, (br _).2 ?_, (br _).2 ?_, (br _).2 ?_, (pm _).2 ?_, tg ▸ h.tags⟩
  · intro b hb
    rcases b with b | b <;> rfl
  · rw [hs.bearings, List.map_map]
    have : BrgEl.n ∘ dropBrg = BrgEl.n := funext n1
    rw [this]
    exact h.brg_nodes
  · intro b hb
    rw [n1, ep]
    simp only [n3]
    exact h.brg_on b hb
  · intro b hb
    rw [n1, ex]
    simp only [n2]
    exact h.brg_linked b hb
  · intro b hb
    rw [br]
    simp only [n1, n2]
    exact h.brg_order b hb
  · intro p hp
    rw [n3, ex]
    simp only [n1]
    exact h.pm_on p hp

/-- The hypotheses of the theorems above are met by the two rotors. -/
example : ∃ r₆ r₄, init exPandas 10 sixLinked = some (.ok r₆) ∧ init exPandas 10 fourLinked = some (.ok r₄) ∧
    r₆.number_dof = 6 ∧ SameBending sixLinked fourLinked ∧ (∀ e ∈ r₆.shaft, SameGyro e.s) := by
  obtain ⟨r₆, h1, h2, -, -⟩ := accepts exPandas_sorts sixLinked_wf (fuel := 10) (by simp [sixLinked])
  obtain ⟨r₄, h3, -, -, -⟩ := accepts exPandas_sorts (C44_counterpart sixLinked_wf linked_same)
    (fuel := 10) (by simp [fourLinked])
  refine ⟨r₆, r₄, h1, h3, by simpa using h2, linked_same, fun e he => Or.inl ?_⟩
  rw [(init_ok h1).shaft] at he
  have h0 : e ∈ numberShaft (Nest.flattenAll sixLinked.shaft) := (parts_sh_perm sixLinked).mem_iff.1 he
  simp [numberShaft, sixLinked, Nest.flattenAll, Nest.flatten] at h0
  rw [h0]

end Ross.Props
