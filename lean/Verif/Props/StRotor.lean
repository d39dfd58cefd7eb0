import Verif.Lemmas.StRotor
import Verif.Lemmas.Percentile
import Verif.Lemmas.ExRotor
import Verif.Lemmas.Accept2
import Verif.Lemmas.Readout
import Verif.Props.Stochastic

/-! # Random rotors and their analyses (C69, C70, C72, C73) -/

namespace Ross.Props

open Stochastic Spec StRotorLemmas

variable {N : ℕ} {sp : Scipy} {a : StArgs} {s : Elements N}

/-! ### C69: the rotors drawn from a random rotor -/

/-- C69: a random rotor with `N` samples of its random elements has `N` sets of arguments for rotors, with the
elements of the sample in their places. -/
theorem C69_args (h : SampledArgs sp a s) : ∃ r, stBuild sp a = .ok r ∧ r.RV_size = N ∧
    (∀ i : Fin N, r.rotorArgs i = .ok (s.args a i)) ∧ r.allArgs = .ok ((List.finRange N).map (s.args a)) := by
  unfold stBuild
  rw [kindSize_ok h.shaft, kindSize_ok h.disks, kindSize_ok h.bearings, kindSize_ok h.pms]
  simp only [ShapeLemmas.ok_bind]
  rw [expand_ok h.shaft, expand_ok h.disks, expand_ok h.bearings, expand_ok h.pms]
  have hsome : hasRandom a.shaft = true ∨ hasRandom a.disks = true ∨ hasRandom a.bearings = true ∨
      hasRandom a.pms = true := by
    obtain ⟨e, h⟩ := h.random
    simp only [hasRandom_iff]
    rcases h with h | h | h | h
    · exact .inl ⟨e, h⟩
    · exact .inr (.inl ⟨e, h⟩)
    · exact .inr (.inr (.inl ⟨e, h⟩))
    · exact .inr (.inr (.inr ⟨e, h⟩))
  have hsize : commonSize ([("shaft_elements", if hasRandom a.shaft then some N else none),
      ("disk_elements", if hasRandom a.disks then some N else none),
      ("bearing_elements", if hasRandom a.bearings then some N else none),
      ("point_mass_elements", if hasRandom a.pms then some N else none)].filterMap Prod.snd) = .ok N := by
    revert hsome
    generalize hasRandom a.shaft = b1
    generalize hasRandom a.disks = b2
    generalize hasRandom a.bearings = b3
    generalize hasRandom a.pms = b4
    intro hsome
    cases b1 <;> cases b2 <;> cases b3 <;> cases b4 <;> simp_all [commonSize]
  rw [hsize]
  refine ⟨_, rfl, rfl, ?_⟩
  generalize hK : randomKinds [("shaft_elements", if hasRandom a.shaft then some N else none),
      ("disk_elements", if hasRandom a.disks then some N else none),
      ("bearing_elements", if hasRandom a.bearings then some N else none),
      ("point_mass_elements", if hasRandom a.pms then some N else none)] = K
  have hk : ∀ k, k ∈ K ↔
      (k = "shaft_elements" ∧ hasRandom a.shaft = true) ∨ (k = "disk_elements" ∧ hasRandom a.disks = true) ∨
      (k = "bearing_elements" ∧ hasRandom a.bearings = true) ∨
      (k = "point_mass_elements" ∧ hasRandom a.pms = true) := by
    rw [← hK]
    generalize hasRandom a.shaft = b1
    generalize hasRandom a.disks = b2
    generalize hasRandom a.bearings = b3
    generalize hasRandom a.pms = b4
    cases b1 <;> cases b2 <;> cases b3 <;> cases b4 <;> simp [randomKinds]
  have hargs : ∀ i : Fin N, StRotor.rotorArgs ⟨K, List.zipWith drawnOf a.shaft s.shaft,
      List.zipWith drawnOf a.disks s.disks, List.zipWith drawnOf a.bearings s.bearings,
      List.zipWith drawnOf a.pms s.pms, a.min_w, a.max_w, a.rated_w, a.tag, N⟩ i = .ok (s.args a i) := by
    intro i
    unfold StRotor.rotorArgs
    have e1 : decide ("shaft_elements" ∈ K) = hasRandom a.shaft := by
      rw [Bool.eq_iff_iff, decide_eq_true_iff, hk]; simp
    have e2 : decide ("disk_elements" ∈ K) = hasRandom a.disks := by
      rw [Bool.eq_iff_iff, decide_eq_true_iff, hk]; simp
    have e3 : decide ("bearing_elements" ∈ K) = hasRandom a.bearings := by
      rw [Bool.eq_iff_iff, decide_eq_true_iff, hk]; simp
    have e4 : decide ("point_mass_elements" ∈ K) = hasRandom a.pms := by
      rw [Bool.eq_iff_iff, decide_eq_true_iff, hk]; simp
    simp only [e1, e2, e3, e4]
    rw [shaftItems_ok h.shaft, items_ok h.disks, items_ok h.bearings, items_ok h.pms]
    rfl
  refine ⟨hargs, ?_⟩
  have hv : StRotor.varSize ⟨K, List.zipWith drawnOf a.shaft s.shaft,
      List.zipWith drawnOf a.disks s.disks, List.zipWith drawnOf a.bearings s.bearings,
      List.zipWith drawnOf a.pms s.pms, a.min_w, a.max_w, a.rated_w, a.tag, N⟩ = .ok N := by
    have f1 := firstList_ok h.shaft
    have f2 := firstList_ok h.disks
    have f3 := firstList_ok h.bearings
    have f4 := firstList_ok h.pms
    unfold StRotor.varSize
    clear hk hargs hsize
    revert hsome f1 f2 f3 f4 hK
    generalize hasRandom a.shaft = b1
    generalize hasRandom a.disks = b2
    generalize hasRandom a.bearings = b3
    generalize hasRandom a.pms = b4
    intro hsome hK f1 f2 f3 f4
    subst hK
    cases b1 <;> cases b2 <;> cases b3 <;> cases b4 <;> simp_all [randomKinds]
  unfold StRotor.allArgs
  rw [hv]
  exact mapM_range N _ _ hargs

/-- C69: the rotors drawn are those built from the elements of the samples, one for each sample. -/
theorem C69_rotors (pd : Pandas) (fuel : ℕ) (h : SampledArgs sp a s) : ∃ r, stBuild sp a = .ok r ∧ r.RV_size = N ∧
    ∀ rs, r.rotors pd fuel = some (.ok rs) ↔
      (List.finRange N).map (fun i => Rotor.init pd fuel (s.args a i)) = rs.map fun x => some (.ok x) := by
  obtain ⟨r, hr, hn, -, hall⟩ := C69_args h
  refine ⟨r, hr, hn, fun rs => ?_⟩
  unfold StRotor.rotors
  rw [hall]
  show buildAll pd fuel _ = _ ↔ _
  rw [buildAll_iff, List.map_map]
  rfl

/-- C69: the elements that the rotors receive are those that the random elements draw. -/
theorem C69_drawn (e : StElement) :
    (∀ l, drawShafts e = .ok l ↔ ∃ r, shafts e = .ok r ∧ l.map ShaftEl.s = r ∧ ∀ x ∈ l, x.six = false) ∧
    (∀ l, drawDisks e = .ok l → ∃ r, disks e = .ok r ∧ List.Forall₂ SameDisk r l) ∧
    (∀ l, drawBearings sp e = .ok l ↔ ∃ r, bearings sp e = .ok r ∧ l = r.map (BrgEl.brg false)) ∧
    (∀ l, drawPms e = .ok l ↔ ∃ r, pointMasses e = .ok r ∧ l = r.map PmEl.pm) := by
  refine ⟨fun l => ?_, fun l => ?_, fun l => ?_, fun l => ?_⟩
  · unfold drawShafts
    cases shafts e with
    | error x => simp
    | ok r =>
      simp only [Except.ok.injEq, exists_eq_left']
      constructor
      · rintro rfl
        refine ⟨?_, by simp⟩
        rw [List.map_map]
        exact List.map_id r
      · rintro ⟨rfl, h⟩
        rw [List.map_map]
        conv_rhs => rw [← List.map_id l]
        apply List.map_congr_left
        intro x hx
        have := h x hx
        cases x
        subst this
        rfl
  · unfold drawDisks
    cases disks e with
    | error x => simp
    | ok r =>
      intro h
      cases h
      refine ⟨r, rfl, ?_⟩
      rw [List.forall₂_map_right_iff, List.forall₂_same]
      exact fun x _ => ⟨rfl, rfl, rfl, rfl, rfl⟩
  · unfold drawBearings
    cases bearings sp e <;> simp [eq_comm]
  · unfold drawPms
    cases pointMasses e <;> simp [eq_comm]

/-- C69: whatever is accepted has a random element, and all random elements have the same number of samples. -/
theorem C69_sizes {r : StRotor} (h : stBuild sp a = .ok r) :
    SomeRandom a ∧
    (∀ e, .st e ∈ a.shaft → ∃ l, shafts e = .ok l ∧ l.length = r.RV_size) ∧
    (∀ e, .st e ∈ a.disks → ∃ l, disks e = .ok l ∧ l.length = r.RV_size) ∧
    (∀ e, .st e ∈ a.bearings → ∃ l, bearings sp e = .ok l ∧ l.length = r.RV_size) ∧
    (∀ e, .st e ∈ a.pms → ∃ l, pointMasses e = .ok l ∧ l.length = r.RV_size) := by
  unfold stBuild at h
  obtain ⟨sh, h1, h⟩ := bindOk h
  obtain ⟨dk, h2, h⟩ := bindOk h
  obtain ⟨brg, h3, h⟩ := bindOk h
  obtain ⟨pm, h4, h⟩ := bindOk h
  obtain ⟨size, h5, h⟩ := bindOk h
  obtain ⟨l1, -, h⟩ := bindOk h
  obtain ⟨l2, -, h⟩ := bindOk h
  obtain ⟨l3, -, h⟩ := bindOk h
  obtain ⟨l4, -, h⟩ := bindOk h
  cases h
  show _ ∧ (∀ e, _ → ∃ l, _ ∧ _ = size) ∧ (∀ e, _ → ∃ l, _ ∧ _ = size) ∧ (∀ e, _ → ∃ l, _ ∧ _ = size) ∧
    (∀ e, _ → ∃ l, _ ∧ _ = size)
  have hs := commonSize_spec h5
  have k1 := kindSize_spec h1
  have k2 := kindSize_spec h2
  have k3 := kindSize_spec h3
  have k4 := kindSize_spec h4
  refine ⟨?_, ?_, ?_, ?_, ?_⟩
  · have : ∃ n, n ∈ [("shaft_elements", sh), ("disk_elements", dk), ("bearing_elements", brg),
        ("point_mass_elements", pm)].filterMap Prod.snd := ⟨_, hs.1⟩
    obtain ⟨n, hn⟩ := this
    simp only [List.mem_filterMap, List.mem_cons, List.not_mem_nil, or_false] at hn
    obtain ⟨x, rfl | rfl | rfl | rfl, hx⟩ := hn
    · obtain ⟨e, he⟩ := k1.2 _ hx; exact ⟨e, .inl he⟩
    · obtain ⟨e, he⟩ := k2.2 _ hx; exact ⟨e, .inr (.inl he)⟩
    · obtain ⟨e, he⟩ := k3.2 _ hx; exact ⟨e, .inr (.inr (.inl he))⟩
    · obtain ⟨e, he⟩ := k4.2 _ hx; exact ⟨e, .inr (.inr (.inr he))⟩
  · intro e he
    obtain ⟨n, rfl, l, hl, hn⟩ := k1.1 e he
    have := hs.2 n (by simp)
    unfold drawShafts at hl
    split at hl
    · rename_i l' hl'; cases hl; exact ⟨l', hl', by simpa [this] using hn⟩
    · cases hl
  · intro e he
    obtain ⟨n, rfl, l, hl, hn⟩ := k2.1 e he
    have := hs.2 n (by cases sh <;> simp)
    unfold drawDisks at hl
    split at hl
    · rename_i l' hl'; cases hl; exact ⟨l', hl', by simpa [this] using hn⟩
    · cases hl
  · intro e he
    obtain ⟨n, rfl, l, hl, hn⟩ := k3.1 e he
    have := hs.2 n (by cases sh <;> cases dk <;> simp)
    unfold drawBearings at hl
    split at hl
    · rename_i l' hl'; cases hl; exact ⟨l', hl', by simpa [this] using hn⟩
    · cases hl
  · intro e he
    obtain ⟨n, rfl, l, hl, hn⟩ := k4.1 e he
    have := hs.2 n (by cases sh <;> cases dk <;> cases brg <;> simp)
    unfold drawPms at hl
    split at hl
    · rename_i l' hl'; cases hl; exact ⟨l', hl', by simpa [this] using hn⟩
    · cases hl

/-- C69: without random elements there is no random rotor. -/
theorem C69_none (h : ¬ SomeRandom a) : stBuild sp a = .error .indexError := by
  have h0 : ∀ {α : Type} (draw : StElement → Res (List α)) (l : List (Item α)), (∀ e, .st e ∉ l) →
      kindSize draw l = .ok none := by
    intro α draw l hl
    have : randomItems l = [] := by
      by_contra hne
      obtain ⟨e, he⟩ := List.exists_mem_of_ne_nil _ hne
      exact hl e ((mem_randomItems l e).1 he)
    unfold kindSize
    rw [this]
  unfold stBuild
  rw [h0 _ _ fun e he => h ⟨e, .inl he⟩, h0 _ _ fun e he => h ⟨e, .inr (.inl he)⟩,
    h0 _ _ fun e he => h ⟨e, .inr (.inr (.inl he))⟩, h0 _ _ fun e he => h ⟨e, .inr (.inr (.inr he))⟩]
  rfl

/-- C69: a random rotor has the numbers of degrees of freedom, the supports and the positions of the rotor of the
first sample.  The numbers of degrees of freedom are those of all samples; the positions need not be. -/
theorem C69_object_partial {pd : Pandas} {fuel : ℕ} (h : SampledArgs sp a s) (hN : 0 < N) {r₀ : Rotor}
    (h₀ : Rotor.init pd fuel (s.args a ⟨0, hN⟩) = some (.ok r₀)) :
    ∃ o, stInit pd fuel sp a = some (.ok o) ∧ stBuild sp a = .ok o.toStRotor ∧ o.RV_size = N ∧
      o.ndof = r₀.ndof ∧ o.number_dof = r₀.number_dof ∧ o.link_nodes = r₀.link_nodes ∧
      o.nodes_pos = r₀.nodes_pos ∧
      ∀ (six : Bool) (n : ℕ) (i : Fin N) (r : Rotor), WellFormed six n (s.args a ⟨0, hN⟩) →
        WellFormed six n (s.args a i) → Rotor.init pd fuel (s.args a i) = some (.ok r) →
        r.number_dof = o.number_dof ∧ r.ndof = o.ndof := by
  obtain ⟨r, hr, hn, hargs, hall⟩ := C69_args h
  refine ⟨⟨r, r₀.ndof, r₀.number_dof, r₀.link_nodes, r₀.nodes_pos⟩, ?_, hr, hn, rfl, rfl, rfl, rfl, ?_⟩
  · unfold stInit
    rw [hr]
    have := hargs ⟨0, hN⟩
    dsimp only at this ⊢
    rw [this]
    dsimp only
    rw [h₀]
  · intro six n i r w₀ w hi
    have hd : ∀ {b : RotorArgs} {q : Rotor}, WellFormed six n b → Rotor.init pd fuel b = some (.ok q) →
        q.number_dof = if six then 6 else 4 := by
      intro b q hb hq
      have hB := RotorLemmas.init_ok hq
      have := hB.dof
      rw [hB.shaft, hB.disks, hB.bearings, RotorLemmas.check_accepts hb] at this
      exact (Except.ok.inj this).symm
    have d₀ := hd w₀ h₀
    have d := hd w hi
    have n₀ := (ReadoutLemmas.ndof_eq' w₀ h₀).2
    have n₁ := (ReadoutLemmas.ndof_eq' w hi).2
    refine ⟨by rw [d, d₀], ?_⟩
    rw [n₁, n₀, d, d₀]
    simp [Elements.args]

/-- A shaft element with length `L`. -/
noncomputable def exLong (L : ℝ) : ShaftElement :=
  { exShaft with L := L, axial_force := 0, alpha := 0, beta := 0 }

/-- A random shaft element with lengths 1/4 and 1/2. -/
theorem exLong_exists : ∃ e, drawShafts e = .ok [⟨false, exLong (1 / 4)⟩, ⟨false, exLong (1 / 2)⟩] := by
  obtain ⟨e, he, hs⟩ := C67_shaft (N := 2) (.random ![1 / 4, 1 / 2]) (.fixed (1 / 100)) (.fixed (1 / 20))
    (some (.fixed 0)) (some (.fixed (1 / 10))) (.fixed exMaterial)
    (.one (.val (.mat exMaterial))) rfl (some 0) (.fixed 0) (.fixed 0) true true true "cowper"
    ["L"] (by refine ⟨by simp, ?_, ?_⟩ <;> simp [Sample.isRandom, randomOpt])
  have hi : ∀ L : ℝ, 0 < L → ShaftElement.init L (1 / 100) (1 / 20) (some 0) (some (1 / 10)) (some exMaterial)
      (some 0) 0 0 true true true "cowper" none 0 0 = .ok (exLong L) := by
    intro L hL
    refine ShaftLemmas.facts_init (s := exLong L) (ShaftLemmas.physical_facts ?_ (.inr rfl))
    constructor <;> norm_num [exLong, exShaft, exMaterial, ShaftElement.beam]
    exact hL
  refine ⟨e, ?_⟩
  unfold drawShafts
  rw [hs]
  have h1 := hi (1 / 4) (by norm_num)
  have h2 := hi (1 / 2) (by norm_num)
  simp only [List.finRange_succ, List.finRange_zero, List.map_cons, List.map_nil, List.mapM_cons, List.mapM_nil]
  simp only [Sample.draw, Option.map_some, Matrix.cons_val_zero, Matrix.cons_val_succ, h1, h2]
  rfl

/-- The arguments of a random rotor with such an element. -/
noncomputable def exLongArgs (e : StElement) : StArgs := { shaft := [.st e] }

/-- Its samples. -/
noncomputable def exLongElements : Elements 2 :=
  ⟨[fun i => ⟨false, exLong (![1 / 4, 1 / 2] i)⟩], [], [], []⟩

theorem exLong_wf (e : StElement) (i : Fin 2) : WellFormed false 1 (exLongElements.args (exLongArgs e) i) where
  pos := by norm_num
  nodes := by
    intro k
    show k ∈ [0] ↔ k < 1
    simp
  len := by
    intro e he
    simp [exLongElements, Elements.args, shaftList, Nest.flattenAll, Nest.flatten] at he
    subst he
    fin_cases i <;> norm_num [exLong, exShaft]
  shaft_six := by
    intro e he
    simp [exLongElements, Elements.args, shaftList, Nest.flattenAll, Nest.flatten] at he
    subst he; rfl
  disk_six := by intro e he; simp [exLongElements, Elements.args] at he
  brg_six := by intro e he; simp [exLongElements, Elements.args] at he
  disk_on := by intro e he; simp [exLongElements, Elements.args] at he
  brg_nodes := by simp [exLongElements, Elements.args]
  brg_on := by intro e he; simp [exLongElements, Elements.args] at he
  brg_linked := by intro e he; simp [exLongElements, Elements.args] at he
  brg_order := by intro e he; simp [exLongElements, Elements.args] at he
  pm_on := by intro e he; simp [exLongElements, Elements.args] at he
  tags := List.nodup_singleton _

theorem exLong_sampled {e : StElement}
    (he : drawShafts e = .ok [⟨false, exLong (1 / 4)⟩, ⟨false, exLong (1 / 2)⟩]) :
    SampledArgs sp (exLongArgs e) exLongElements where
  shaft := .cons (by show drawShafts e = _; rw [he]; rfl) .nil
  disks := .nil
  bearings := .nil
  pms := .nil
  random := ⟨e, .inl (by simp [exLongArgs])⟩

/-- C69 does not hold for the positions of the nodes: they should be the means over the samples, and are those of
the first sample. -/
theorem C69_position_false (sp : Scipy) : ∃ (a : StArgs) (s : Elements 2) (o : StRotorObj) (r₀ r₁ : Rotor),
    SampledArgs sp a s ∧ stInit RotorLemmas.exPandas 10 sp a = some (.ok o) ∧
    Rotor.init RotorLemmas.exPandas 10 (s.args a 0) = some (.ok r₀) ∧
    Rotor.init RotorLemmas.exPandas 10 (s.args a 1) = some (.ok r₁) ∧
    r₀.nodes_pos = [0, 1 / 4] ∧ r₁.nodes_pos = [0, 1 / 2] ∧ o.nodes_pos = [0, 1 / 4] := by
  obtain ⟨e, he⟩ := exLong_exists
  have hs := exLong_sampled (sp := sp) he
  have hacc : ∀ i : Fin 2, ∃ r, Rotor.init RotorLemmas.exPandas 10 (exLongElements.args (exLongArgs e) i) =
      some (.ok r) ∧ r.nodes_pos = [0, ![1 / 4, 1 / 2] i] := by
    intro i
    obtain ⟨r, h1, -, h3, h4⟩ := RotorLemmas.accepts RotorLemmas.exPandas_sorts (exLong_wf e i) (fuel := 10)
      (by simp [exLongElements, Elements.args])
    refine ⟨r, h1, ?_⟩
    rw [(RotorLemmas.init_ok h1).pos, h4.nodesPos, h3]
    have hp : (Rotor.parts (exLongElements.args (exLongArgs e) i)).sh =
        [⟨false, { exLong (![1 / 4, 1 / 2] i) with tag := some "ShaftElement 0" }⟩] := by
      show List.mergeSort [_] _ = _
      rw [List.mergeSort_singleton]
      rfl
    rw [hp]
    simp [List.range_succ, position, leftNodes, leftNode, layerLength, exLong, exShaft,
      Finset.sum_filter]
  obtain ⟨r₀, h₀, p₀⟩ := hacc 0
  obtain ⟨r₁, h₁, p₁⟩ := hacc 1
  obtain ⟨o, ho, -, -, -, -, -, hp, -⟩ := C69_object_partial hs (by norm_num) h₀
  exact ⟨_, _, o, r₀, r₁, hs, ho, h₀, h₁, p₀, p₁, hp.trans p₀⟩

/-- C69 does not hold for a second random rotor made of the same lists: the first one has replaced the random
elements in the lists of the caller. -/
theorem C69_lists_false {r : StRotor} (h : stBuild sp a = .ok r) :
    stBuild sp (callerArgs sp a) = .error .indexError := by
  apply C69_none
  have h0 : ∀ {α : Type} (l : List (Drawn α)) (e : StElement), .st e ∉ l.map afterwards := by
    intro α l e he
    obtain ⟨x, -, hx⟩ := List.mem_map.1 he
    cases x <;> cases hx
  rintro ⟨e, he⟩
  unfold callerArgs at he
  rw [h] at he
  rcases he with he | he | he | he <;> exact h0 _ _ he

/-- The hypotheses of C69 hold for a random shaft element with two lengths. -/
example (sp : Scipy) : ∃ (a : StArgs) (s : Elements 2), SampledArgs sp a s ∧
    ∀ i, WellFormed false 1 (s.args a i) :=
  have ⟨e, he⟩ := exLong_exists
  ⟨exLongArgs e, exLongElements, exLong_sampled he, exLong_wf e⟩

/-! ### C70: every rotor is analysed with its own sample -/

/-- C70: an analysis is run once for every sample, on the rotor of that sample. -/
theorem C70_runs {β : Type} (run : Rotor → Res β) {pd : Pandas} {fuel : ℕ} (h : SampledArgs sp a s) {r : StRotor}
    {rs : List Rotor} {l : List β} (hr : stBuild sp a = .ok r) (hrs : r.rotors pd fuel = some (.ok rs))
    (hl : runAll run rs = .ok l) :
    l.length = N ∧ ∀ (i : Fin N) (x : β), l[(i : ℕ)]? = some x →
      ∃ q, Rotor.init pd fuel (s.args a i) = some (.ok q) ∧ run q = .ok x := by
  obtain ⟨r', hr', -, hiff⟩ := C69_rotors pd fuel h
  cases hr.symm.trans hr'
  have h1 := (hiff rs).1 hrs
  have h2 : rs.map run = l.map Except.ok := (mapM_ok_iff _ _ _).1 hl
  have e1 : rs.length = N := by simpa using (congrArg List.length h1).symm
  have e2 : rs.length = l.length := by simpa using congrArg List.length h2
  refine ⟨by omega, fun i x hx => ?_⟩
  have hi : (i : ℕ) < rs.length := by omega
  refine ⟨rs[(i : ℕ)], ?_, ?_⟩
  · have := congrArg (fun l => l[(i : ℕ)]?) h1
    simpa [hi] using this
  · have := congrArg (fun l => l[(i : ℕ)]?) h2
    simpa [hi, hx] using this

/-- C70: frequency `j` of the results of a Campbell analysis is, for every speed, frequency `j` of the rotor. -/
theorem C70_campbell {k : ℕ} {wd c : List (List ℝ)} (h : campbellColumn k wd = .ok c) :
    c.length = k ∧ ∀ j < k, ∃ row : List ℝ, c[j]? = some row ∧ row.length = wd.length ∧
      ∀ (v : ℕ) (speed : List ℝ), wd[v]? = some speed → speed[j]? = row[v]? := by
  have hc : (List.range k).map (fun j => wd.mapM (SVal.entry j)) = c.map Except.ok := (mapM_ok_iff _ _ _).1 h
  have hlen : c.length = k := by simpa using (congrArg List.length hc).symm
  refine ⟨hlen, fun j hj => ?_⟩
  have hj' : j < c.length := by omega
  have e := congrArg (fun l => l[j]?) hc
  simp only [List.getElem?_map, List.getElem?_range hj, List.getElem?_eq_getElem hj', Option.map_some,
    Option.some.injEq] at e
  have e' : wd.map (SVal.entry j) = c[j].map Except.ok := (mapM_ok_iff _ _ _).1 e
  refine ⟨c[j], List.getElem?_eq_getElem hj', by simpa using (congrArg List.length e').symm, fun v speed hv => ?_⟩
  have e2 := congrArg (fun l => l[v]?) e'
  simp only [List.getElem?_map, hv, Option.map_some] at e2
  unfold SVal.entry at e2
  cases hs : speed[j]? with
  | none => rw [hs] at e2; cases hr : c[j][v]? <;> rw [hr] at e2 <;> simp at e2
  | some x => rw [hs] at e2; cases hr : c[j][v]? <;> rw [hr] at e2 <;> simp_all

/-- The hypothesis of `C70_campbell` holds for two frequencies at three speeds. -/
example : campbellColumn 2 [[1, 2], [3, 4], [5, 6]] = .ok [[1, 3, 5], [2, 4, 6]] := by
  simp [campbellColumn, SVal.entry, List.range_succ]
  rfl

/-- C70: every rotor is analysed with the magnitude and the phase of its sample, and with the options given,
if magnitude or phase are random or no options are given. -/
theorem C70_unbalance_partial (rotors : List Rotor) (hl : rotors.length = N) (node : ℕ) (m p : Sample N ℝ)
    (frequency_range : List ℝ) (modes : Option (List ℤ)) (cluster_points : Bool) (num_modes num_points : ℕ) (rtol : ℝ)
    (h : m.isRandom = true ∨ p.isRandom = true ∨
      (modes = none ∧ cluster_points = false ∧ num_modes = 12 ∧ num_points = 10 ∧ rtol = 0.005)) :
    unbalanceCalls rotors ⟨.one node, m.unb, p.unb, frequency_range, modes, cluster_points, num_modes, num_points, rtol⟩ =
      .ok ((List.finRange N).map fun i => (rotors[i],
        ⟨.one node, .num (m.draw i), .num (p.draw i), frequency_range, modes, cluster_points, num_modes, num_points,
          rtol⟩)) := by
  have hz : ∀ f : Fin N → UArgs, rotors.zip ((List.finRange N).map f) =
      (List.finRange N).map fun i => (rotors[i], f i) := by
    intro f
    subst hl
    apply List.ext_getElem
    · simp
    · intro i h1 h2; simp
  rcases m with m | m <;> rcases p with p | p
  · obtain h | h | ⟨rfl, rfl, rfl, rfl, rfl⟩ := h
    · cases h
    · cases h
    · show Except.ok _ = _
      congr 1
      subst hl
      apply List.ext_getElem
      · simp
      · intro i h1 h2; simp [Sample.draw, Sample.unb]
  · unfold unbalanceCalls
    simp only [Sample.unb, UVal.isRandom, UVal.varSize, List.length_ofFn, ShapeLemmas.ok_bind, Bool.false_eq_true,
      if_false, false_or, if_true]
    rw [mapM_range N _ (fun i => ⟨.one node, .num m, .num (p i), frequency_range, modes, cluster_points, num_modes,
      num_points, rtol⟩) (fun i => by simp [UArgs.round, UVal.get]; rfl)]
    exact congrArg Except.ok (hz _)
  · unfold unbalanceCalls
    simp only [Sample.unb, UVal.isRandom, UVal.varSize, List.length_ofFn, ShapeLemmas.ok_bind, if_true, true_or]
    rw [mapM_range N _ (fun i => ⟨.one node, .num (m i), .num p, frequency_range, modes, cluster_points, num_modes,
      num_points, rtol⟩) (fun i => by simp [UArgs.round, UVal.get]; rfl)]
    exact congrArg Except.ok (hz _)
  · unfold unbalanceCalls
    simp only [Sample.unb, UVal.isRandom, UVal.varSize, List.length_ofFn, ShapeLemmas.ok_bind, if_true, true_or]
    rw [mapM_range N _ (fun i => ⟨.one node, .num (m i), .num (p i), frequency_range, modes, cluster_points, num_modes,
      num_points, rtol⟩) (fun i => by simp [UArgs.round, UVal.get]; rfl)]
    exact congrArg Except.ok (hz _)

/-- The hypotheses of `C70_unbalance_partial` hold for two samples of the magnitude. -/
example (r : Rotor) : [r, r].length = 2 ∧ (Sample.random ![1e-3, 2e-3] : Sample 2 ℝ).isRandom = true := ⟨rfl, rfl⟩

/-- C70: what is stored for every rotor is the result of its call. -/
theorem C70_stored {β : Type} (run : Rotor → UArgs → Res β) (zero : β) (rotors : List Rotor) (u : UArgs)
    {calls : List (Rotor × UArgs)} (hc : unbalanceCalls rotors u = .ok calls) (hn : calls.length = N) (l : List β) :
    runUnbalance run zero N rotors u = .ok l ↔ calls.map (fun x => run x.1 x.2) = l.map .ok := by
  unfold runUnbalance
  rw [hc, ShapeLemmas.ok_bind]
  cases hm : calls.mapM fun x => run x.1 x.2 with
  | error e =>
    refine ⟨fun h => (by cases h), fun h => ?_⟩
    rw [(mapM_ok_iff _ _ _).2 h] at hm
    cases hm
  | ok l' =>
    have h' := (mapM_ok_iff _ _ _).1 hm
    have hl : l'.length = N := by rw [← hn]; simpa using (congrArg List.length h').symm
    show store zero N l' = _ ↔ _
    unfold store
    rw [if_neg (by omega), hl, Nat.sub_self, List.replicate_zero, List.append_nil, h']
    refine ⟨(fun h => by cases h; rfl), fun h => ?_⟩
    rw [List.map_injective_iff.2 (fun x y h => by cases h; rfl) h]

/-- C70 does not hold for the options of an analysis with one magnitude and one phase: they are dropped. -/
theorem C70_options_false (rotors : List Rotor) (node : ℕ) (m p : ℝ) (frequency_range : List ℝ)
    (modes : Option (List ℤ)) (cluster_points : Bool) (num_modes num_points : ℕ) (rtol : ℝ) :
    unbalanceCalls rotors ⟨.one node, .num m, .num p, frequency_range, modes, cluster_points, num_modes, num_points, rtol⟩ =
      .ok (rotors.map fun r => (r, ⟨.one node, .num m, .num p, frequency_range, none, false, 12, 10, 0.005⟩)) := rfl

/-- C70 does not hold for unbalances on several nodes with a list of samples for each of them: with more samples
than nodes there is no result, -/
theorem C70_nodes_false (rotors : List Rotor) (nodes : List ℕ) (m p : List (List ℝ)) (frequency_range : List ℝ)
    (hn : nodes ≠ []) (hm : m.length = nodes.length) (hp : p.length = nodes.length)
    (hmN : ∀ x ∈ m, x.length = N) (hpN : ∀ x ∈ p, x.length = N) (h : nodes.length < N) :
    unbalanceCalls rotors { node := .list nodes, magnitude := .grid m, phase := .grid p,
                            frequency_range := frequency_range } = .error .indexError := by
  rcases m with _ | ⟨m₀, m⟩
  · exact absurd (List.length_eq_zero_iff.1 hm.symm) hn
  rcases p with _ | ⟨p₀, p⟩
  · exact absurd (List.length_eq_zero_iff.1 hp.symm) hn
  unfold unbalanceCalls
  simp only [UVal.isRandom, UVal.firstIterable, UVal.varSize, ShapeLemmas.ok_bind, if_true, true_or,
    hmN m₀ (by simp)]
  rw [mapM_error (List.range N) _ .indexError]
  · rfl
  · intro i
    unfold UArgs.round
    simp only [if_true]
    unfold UVal.get
    dsimp only
    rcases lt_or_ge i (m₀ :: m).length with hi | hi
    · right
      rw [List.getElem?_eq_getElem hi, List.getElem?_eq_getElem (by omega)]
      exact ⟨_, rfl⟩
    · left
      rw [List.getElem?_eq_none hi]
      rfl
  · refine ⟨nodes.length, List.mem_range.2 h, ?_⟩
    unfold UArgs.round
    simp only [if_true]
    unfold UVal.get
    dsimp only
    rw [List.getElem?_eq_none hm.le]
    rfl

/-- and with as many samples as nodes a rotor gets the samples of one node. -/
theorem C70_mixed_false (r₁ r₂ : Rotor) (x y z t : ℝ) (frequency_range : List ℝ) :
    unbalanceCalls [r₁, r₂] { node := .list [0, 1], magnitude := .grid [[x, y], [z, t]], phase := .list [0, 0],
                              frequency_range := frequency_range } =
      .ok [(r₁, { node := .list [0, 1], magnitude := .list [x, y], phase := .list [0, 0],
                  frequency_range := frequency_range }),
           (r₂, { node := .list [0, 1], magnitude := .list [z, t], phase := .list [0, 0],
                  frequency_range := frequency_range })] := rfl

/-- C70: with a force for each rotor, what is stored for every rotor is its response to its force. -/
theorem C70_forces_partial {β φ : Type} (run : Rotor → φ → Res β) (zero : β) (rotors : List Rotor) (force : List φ)
    (h : force.length = rotors.length) (l : List β) :
    runForces run zero rotors.length rotors force = .ok l ↔
      List.zipWith run rotors force = l.map .ok := by
  unfold runForces
  have e : List.zipWith run rotors force = (rotors.zip force).map fun x => run x.1 x.2 := by
    rw [List.zip, List.map_zipWith]
  rw [e]
  cases hm : (rotors.zip force).mapM fun x => run x.1 x.2 with
  | error e =>
    refine ⟨fun h => (by cases h), fun h => ?_⟩
    rw [(mapM_ok_iff _ _ _).2 h] at hm
    cases hm
  | ok l' =>
    have h' := (mapM_ok_iff _ _ _).1 hm
    have hl : l'.length = rotors.length := by
      have := (congrArg List.length h').symm
      simpa [h] using this
    show store zero _ l' = _ ↔ _
    unfold store
    rw [if_neg (by omega), hl, Nat.sub_self, List.replicate_zero, List.append_nil, h']
    refine ⟨(fun h => by cases h; rfl), fun h => ?_⟩
    rw [List.map_injective_iff.2 (fun x y h => by cases h; rfl) h]

/-- C70 does not hold for fewer forces than rotors: the responses of the other rotors are zero, and no error is
raised. -/
theorem C70_truncated_false {β φ : Type} (run : Rotor → φ → Res β) (zero : β) (rotors : List Rotor) (force : List φ)
    (h : force.length < rotors.length) {l : List β} (hl : runForces run zero rotors.length rotors force = .ok l) :
    l.length = rotors.length ∧ ∀ i, force.length ≤ i → i < rotors.length → l[i]? = some zero := by
  unfold runForces at hl
  split at hl
  · cases hl
  · rename_i l' hm
    have h' := (mapM_ok_iff _ _ _).1 hm
    have hlen : l'.length = force.length := by
      have := (congrArg List.length h').symm
      simp at this; omega
    unfold store at hl
    rw [if_neg (by omega)] at hl
    cases hl
    refine ⟨by simp; omega, fun i h1 h2 => ?_⟩
    rw [List.getElem?_append_right (by omega), List.getElem?_replicate, if_pos (by omega)]

/-! ### C72: percentiles and confidence intervals -/

section Percentiles

open PercentileLemmas

/-- C72: a percentile is a value between the smallest and the largest sample, which are the percentiles 0 and 100,
and grows with `q`. -/
theorem C72_percentile {l : List ℝ} (hl : l ≠ []) :
    (∀ q, (0 ≤ q ∧ q ≤ 100 → ∃ v, percentile l q = .ok v) ∧ (¬ (0 ≤ q ∧ q ≤ 100) → percentile l q = .error .valueError)) ∧
    (∀ q q' v v', percentile l q = .ok v → percentile l q' = .ok v' → q ≤ q' → v ≤ v') ∧
    (∀ v, percentile l 0 = .ok v ↔ v ∈ l ∧ ∀ x ∈ l, v ≤ x) ∧
    (∀ v, percentile l 100 = .ok v ↔ v ∈ l ∧ ∀ x ∈ l, x ≤ v) := by
  have hn : 1 ≤ l.length := List.length_pos_iff.2 hl
  have hbad : ∀ q : ℝ, ¬ (0 ≤ q ∧ q ≤ 100) → percentile l q = .error .valueError := by
    intro q h
    unfold percentile
    rw [if_pos (by rcases not_and_or.1 h with h | h <;> simp at h <;> simp [h])]
  have hok : ∀ (q v : ℝ), percentile l q = .ok v → 0 ≤ q ∧ q ≤ 100 := by
    intro q v h
    by_contra hq
    rw [hbad q hq] at h; cases h
  have e0 : percentile l 0 = .ok ((sorted l).getD 0 0) := by
    have := valueAt_nat (l := l) 0
    rw [Nat.cast_zero] at this
    rw [percentile_eq hl le_rfl (by norm_num), pos_zero, this]
  have e1 : percentile l 100 = .ok ((sorted l).getD (l.length - 1) 0) := by
    rw [percentile_eq hl (by norm_num) le_rfl, pos_hundred hl, valueAt_nat]
  have b0 : (sorted l).getD 0 0 ∈ l ∧ ∀ x ∈ l, (sorted l).getD 0 0 ≤ x := by
    refine ⟨getD_mem hn, fun x hx => ?_⟩
    obtain ⟨i, hi, rfl⟩ := mem_sorted hx
    exact getD_mono (Nat.zero_le _) hi
  have b1 : (sorted l).getD (l.length - 1) 0 ∈ l ∧ ∀ x ∈ l, x ≤ (sorted l).getD (l.length - 1) 0 := by
    refine ⟨getD_mem (by omega), fun x hx => ?_⟩
    obtain ⟨i, hi, rfl⟩ := mem_sorted hx
    exact getD_mono (by omega) (by omega)
  refine ⟨fun q => ⟨fun h => ⟨_, percentile_eq hl h.1 h.2⟩, hbad q⟩, ?_, ?_, ?_⟩
  · intro q q' v v' h h' hq
    obtain ⟨h1, h2⟩ := hok q v h
    obtain ⟨h3, h4⟩ := hok q' v' h'
    rw [percentile_eq hl h1 h2] at h
    rw [percentile_eq hl h3 h4] at h'
    cases h; cases h'
    exact valueAt_mono hl (pos_nonneg hl h1) (pos_mono hl hq) (pos_le hl h4)
  · intro v
    rw [e0]
    refine ⟨fun h => (by cases h; exact b0), fun h => ?_⟩
    rw [le_antisymm (b0.2 v h.1) (h.2 _ b0.1)]
  · intro v
    rw [e1]
    refine ⟨fun h => (by cases h; exact b1), fun h => ?_⟩
    rw [le_antisymm (h.2 _ b1.1) (b1.2 v h.1)]

/-- C72: with `n` samples the percentile `100 k / (n - 1)` has `k` samples before it in the order of the samples, and
between two such percentiles the percentile is a linear function of `q`. -/
theorem C72_order {l : List ℝ} (hl : 2 ≤ l.length) (k : ℕ) (hk : k + 1 < l.length) :
    ∃ x y, percentile l (100 * k / (l.length - 1)) = .ok x ∧ percentile l (100 * (k + 1) / (l.length - 1)) = .ok y ∧
      x ∈ l ∧ y ∈ l ∧ x ≤ y ∧ (l.countP fun v => decide (v < x)) ≤ k ∧ k + 1 ≤ (l.countP fun v => decide (v ≤ x)) ∧
      ∀ t : ℝ, 0 ≤ t → t ≤ 1 → percentile l (100 * (k + t) / (l.length - 1)) = .ok (x + t * (y - x)) := by
  have hne : l ≠ [] := by rintro rfl; simp at hl
  have hn : (2 : ℝ) ≤ l.length := by exact_mod_cast hl
  have hkn : (k : ℝ) + 1 ≤ l.length - 1 := by
    have : ((k + 1 + 1 : ℕ) : ℝ) ≤ l.length := by exact_mod_cast hk
    push_cast at this
    linarith
  have hk0 : (0 : ℝ) ≤ k := by positivity
  have hper : ∀ t : ℝ, 0 ≤ t → t ≤ 1 → percentile l (100 * (k + t) / (l.length - 1)) = .ok (valueAt l (k + t)) := by
    intro t h0 h1
    have hp : posOf l (100 * (k + t) / (l.length - 1)) = k + t := by
      unfold posOf
      have : (l.length : ℝ) - 1 ≠ 0 := by linarith
      field_simp
    rw [percentile_eq hne, hp]
    · exact div_nonneg (by linarith) (by linarith)
    · rw [div_le_iff₀ (by linarith)]; linarith
  have hv : ∀ t : ℝ, 0 ≤ t → t ≤ 1 → valueAt l (k + t) =
      (sorted l).getD k 0 + t * ((sorted l).getD (k + 1) 0 - (sorted l).getD k 0) := by
    intro t h0 h1
    rcases h1.eq_or_lt with rfl | h1
    · have := valueAt_nat (l := l) (k + 1)
      push_cast at this
      rw [this]; ring
    · unfold valueAt
      have hf : ⌊(k : ℝ) + t⌋₊ = k := by
        rw [Nat.floor_eq_iff (by linarith)]
        exact ⟨by linarith, by linarith⟩
      rw [hf, min_eq_left (by omega)]
      ring
  have p0 := hper 0 le_rfl zero_le_one
  have p1 := hper 1 zero_le_one le_rfl
  rw [hv 0 le_rfl zero_le_one, add_zero, zero_mul, add_zero] at p0
  rw [hv 1 zero_le_one le_rfl, one_mul, add_sub_cancel] at p1
  refine ⟨_, _, p0, p1, getD_mem (by omega), getD_mem hk, getD_mono (by omega) hk, ?_, ?_, fun t h0 h1 => ?_⟩
  · rw [← (sorted_perm l).countP_eq, ← List.take_append_drop k (sorted l), List.countP_append,
      show ((sorted l).drop k).countP _ = 0 from ?_, add_zero, List.take_append_drop]
    · exact List.countP_le_length.trans (by simp)
    · rw [List.countP_eq_zero]
      intro v hv
      obtain ⟨i, hi, rfl⟩ := List.getElem_of_mem hv
      simp only [List.length_drop, sorted_length] at hi
      rw [List.getElem_drop, ← getD_eq (by omega), List.take_append_drop]
      simpa using getD_mono (l := l) (i := k) (j := k + i) (by omega) (by omega)
  · rw [← (sorted_perm l).countP_eq]
    refine le_trans (le_of_eq ?_) ((List.take_sublist (k + 1) (sorted l)).countP_le)
    have hlen : ((sorted l).take (k + 1)).length = k + 1 := by
      rw [List.length_take, sorted_length]; omega
    refine hlen.symm.trans (Eq.symm ?_)
    rw [List.countP_eq_length]
    intro v hv
    obtain ⟨i, hi, rfl⟩ := List.getElem_of_mem hv
    simp only [hlen] at hi
    rw [List.getElem_take, ← getD_eq (by omega)]
    simpa using getD_mono (l := l) (i := i) (j := k) (by omega) (by omega)
  · rw [hper t h0 h1, hv t h0 h1]

/-- C72: a confidence interval of `p` percent contains `p` percent of the samples, up to one sample, and no others
between its limits; intervals for larger `p` contain it; the interval of 100 percent goes from the smallest to the
largest sample. -/
theorem C72_interval {l : List ℝ} (hl : l ≠ []) {p : ℝ} (h0 : 0 ≤ p) (h1 : p ≤ 100) :
    ∃ lo hi, confInterval l p = .ok (lo, hi) ∧ lo ≤ hi ∧
      p / 100 * (l.length - 1) - 1 < (l.countP fun v => decide (lo ≤ v ∧ v ≤ hi) : ℕ) ∧
      (l.countP fun v => decide (lo < v ∧ v < hi) : ℕ) < p / 100 * (l.length - 1) + 1 ∧
      (∀ p' lo' hi', p ≤ p' → confInterval l p' = .ok (lo', hi') → lo' ≤ lo ∧ hi ≤ hi') ∧
      (p = 100 → ∀ v ∈ l, lo ≤ v ∧ v ≤ hi) := by
  have hc : ∀ p : ℝ, 0 ≤ p → p ≤ 100 →
      confInterval l p = .ok (valueAt l (posOf l (50 - p / 2)), valueAt l (posOf l (50 + p / 2))) := by
    intro p h0 h1
    unfold confInterval
    rw [percentile_eq hl (by linarith) (by linarith), percentile_eq hl (by linarith) (by linarith)]
    rfl
  have e : posOf l (50 + p / 2) - posOf l (50 - p / 2) = p / 100 * (l.length - 1) := by
    unfold posOf; ring
  have hle : posOf l (50 - p / 2) ≤ posOf l (50 + p / 2) := pos_mono hl (by linarith)
  have hp0 := pos_nonneg hl (q := 50 - p / 2) (by linarith)
  have hp1 := pos_le hl (q := 50 + p / 2) (by linarith)
  refine ⟨_, _, hc p h0 h1, valueAt_mono hl hp0 hle hp1, ?_, ?_, ?_, ?_⟩
  · rw [← e]; exact count_ge hl hp0 hle hp1
  · rw [← e]; exact count_le hl hp0 hle hp1
  · intro p' lo' hi' hpp h
    have h1' : p' ≤ 100 := by
      by_contra hgt
      have : percentile l (50 + p' / 2) = .error .valueError :=
        ((C72_percentile hl).1 _).2 (by rintro ⟨-, h⟩; linarith)
      unfold confInterval at h
      rw [this] at h; cases h
    rw [hc p' (by linarith) h1'] at h
    cases h
    exact ⟨valueAt_mono hl (pos_nonneg hl (by linarith)) (pos_mono hl (by linarith)) (hle.trans hp1),
      valueAt_mono hl (hp0.trans hle) (pos_mono hl (by linarith)) (pos_le hl (by linarith))⟩
  · rintro rfl v hv
    rw [show (50 : ℝ) - 100 / 2 = 0 by norm_num, show (50 : ℝ) + 100 / 2 = 100 by norm_num]
    have hp := (C72_percentile hl).2.2
    have q0 := (hp.1 _).1 (percentile_eq hl le_rfl (by norm_num))
    have q1 := (hp.2 _).1 (percentile_eq hl (by norm_num) le_rfl)
    exact ⟨q0.2 v hv, q1.2 v hv⟩

/-- C72: there are no confidence intervals of more than 100 percent. -/
theorem C72_above (l : List ℝ) {p : ℝ} (h : 100 < p) : confInterval l p = .error .valueError := by
  unfold confInterval percentile
  rw [if_pos (.inr (by linarith))]
  rfl

/-- C72: the mean is between the smallest and the largest sample, and moves and scales with the samples. -/
theorem C72_mean {l : List ℝ} (hl : l ≠ []) :
    (∀ lo hi : ℝ, (∀ v ∈ l, lo ≤ v ∧ v ≤ hi) → lo ≤ mean l ∧ mean l ≤ hi) ∧
    ∀ c d : ℝ, mean (l.map fun v => c * v + d) = c * mean l + d := by
  have hn : 0 < l.length := List.length_pos_iff.2 hl
  have hn' : (0 : ℝ) < l.length := by exact_mod_cast hn
  constructor
  · intro lo hi h
    unfold mean
    rw [le_div_iff₀ hn', div_le_iff₀ hn']
    have h1 := List.card_nsmul_le_sum l lo fun v hv => (h v hv).1
    have h2 := List.sum_le_card_nsmul l hi fun v hv => (h v hv).2
    simp only [nsmul_eq_mul] at h1 h2
    exact ⟨by linarith, by linarith⟩
  · intro c d
    have : (l.map fun v => c * v + d).sum = c * l.sum + l.length * d := by
      clear hl hn hn'
      induction l with
      | nil => simp
      | cons a l ih => simp only [List.map_cons, List.sum_cons, ih, List.length_cons]; push_cast; ring
    unfold mean
    rw [this, List.length_map]
    field_simp

/-- The hypotheses of C72 hold for three samples, of which the middle one is the interval of 0 percent. -/
example : confInterval [3, 1, 2] 0 = .ok (2, 2) := by
  have hs : sorted [3, 1, 2] = [1, 2, 3] := by
    refine (sorted_perm _).trans ?_ |>.eq_of_pairwise' (List.pairwise_mergeSort' (r := ((· ≤ ·) : ℝ → ℝ → Prop)) _) ?_
    · exact (List.Perm.swap 1 3 [2]).trans (.cons 1 (.swap 2 3 []))
    · norm_num
  have hp : percentile [3, 1, 2] 50 = .ok 2 := by
    rw [percentile_eq (by simp) (by norm_num) (by norm_num)]
    have : posOf [3, 1, 2] 50 = ((1 : ℕ) : ℝ) := by norm_num [posOf]
    rw [this, valueAt_nat, hs]
    rfl
  unfold confInterval
  rw [show (50 : ℝ) + 0 / 2 = 50 by norm_num, show (50 : ℝ) - 0 / 2 = 50 by norm_num, hp]
  rfl

end Percentiles

/-! ### C73: the frequency response of a random rotor -/

/-- C73: what is returned for `inp` and `out` is the response at `out` to a force at `inp`, if the matrices of the
frequency response are symmetric. -/
theorem C73_response_partial {n : ℕ} (inp out : Fin n) (resp : List (Matrix (Fin n) (Fin n) ℂ))
    (h : ∀ H ∈ resp, H.transpose = H) :
    freqColumn inp out resp = resp.map fun H => H.mulVec (Pi.single inp 1) out := by
  unfold freqColumn
  refine List.map_congr_left fun H hH => ?_
  rw [Matrix.mulVec_single_one]
  show H inp out = H out inp
  conv_lhs => rw [← h H hH]
  rfl

/-- C73: without that, it is the response at `inp` to a force at `out`, -/
theorem C73_swapped {n : ℕ} (inp out : Fin n) (resp : List (Matrix (Fin n) (Fin n) ℂ)) :
    freqColumn inp out resp = resp.map fun H => H.mulVec (Pi.single out 1) inp := by
  unfold freqColumn
  refine List.map_congr_left fun H hH => ?_
  rw [Matrix.mulVec_single_one]
  rfl

/-- which need not be the same. -/
theorem C73_response_false : ∃ (H : Matrix (Fin 2) (Fin 2) ℂ), IsUnit H ∧
    freqColumn 0 1 [H] ≠ [H.mulVec (Pi.single 0 1) 1] := by
  refine ⟨!![1, 2; 3, 4], ?_, ?_⟩
  · rw [Matrix.isUnit_iff_isUnit_det, Matrix.det_fin_two_of]; norm_num
  · simp [freqColumn]

end Ross.Props
