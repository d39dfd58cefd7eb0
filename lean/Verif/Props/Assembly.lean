import Verif.Lemmas.ElemWork
import Verif.Lemmas.ExAssembly
import Verif.Props.RotorDofs

/-! # C18, C19: assembled matrices -/

namespace Ross.Props

open Ross Ross.Spec Ross.RotorLemmas Ross.ShaftLemmas Ross.Rotor Ross.BearingLemmas Ross.AssemblyLemmas Matrix

variable {pd : Pandas} {fuel : ℕ} {a : RotorArgs} {r : Rotor}

/-- **C18** mass matrix: the virtual work is the sum over all elements. -/
theorem C18_mass (h : init pd fuel a = some (.ok r))
    (hf : ∀ e ∈ r.elements, Fits r.number_dof e) {ω : Option ℝ}
    {B : Matrix (Fin r.ndof) (Fin r.ndof) ℝ} (hB : r.M ω = .ok B) :
    (∀ e ∈ r.elements, ∃ E, e.M (ω.getD 0) = .ok E) ∧
    ∀ x y, bilin B x y = (r.elements.map fun e =>
      workOf r.number_dof (shaftEnd r) (Elm.M (ω.getD 0)) e x y).sum := by
  have hmat : Elm.Msync (ω.getD 0) false = Elm.M (ω.getD 0) := by funext e; simp [Elm.Msync]
  unfold Rotor.M at hB
  rw [hmat, ← placed_filter_true r] at hB
  obtain ⟨h1, h2⟩ := assembled h hf (fun _ => true) hB
  simp only [elements_filter_true] at h1 h2
  exact ⟨fun e he => (h1 e he).imp fun _ h => h.1, h2⟩

/-- **C18** stiffness matrix: the virtual work is the sum over the elements that are not ignored. -/
theorem C18_stiffness (h : init pd fuel a = some (.ok r))
    (hf : ∀ e ∈ r.elements, Fits r.number_dof e) {ω : ℝ} {ignore : List (Option String)}
    {B : Matrix (Fin r.ndof) (Fin r.ndof) ℝ} (hB : r.K ω ignore = .ok B) :
    (∀ e ∈ r.elements, e.tag ∉ ignore → ∃ E, e.K ω = .ok E) ∧
    ∀ x y, bilin B x y = ((r.elements.filter fun e => e.tag ∉ ignore).map fun e =>
      workOf r.number_dof (shaftEnd r) (Elm.K ω) e x y).sum := by
  obtain ⟨h1, h2⟩ := assembled h hf (fun e => e.tag ∉ ignore) hB
  exact ⟨fun e he ht => (h1 e (List.mem_filter.2 ⟨he, by simpa using ht⟩)).imp fun _ h => h.1, h2⟩

/-- **C18** damping matrix. -/
theorem C18_damping (h : init pd fuel a = some (.ok r))
    (hf : ∀ e ∈ r.elements, Fits r.number_dof e) {ω : ℝ} {ignore : List (Option String)}
    {B : Matrix (Fin r.ndof) (Fin r.ndof) ℝ} (hB : r.C ω ignore = .ok B) :
    (∀ e ∈ r.elements, e.tag ∉ ignore → ∃ E, e.C ω = .ok E) ∧
    ∀ x y, bilin B x y = ((r.elements.filter fun e => e.tag ∉ ignore).map fun e =>
      workOf r.number_dof (shaftEnd r) (Elm.C ω) e x y).sum := by
  obtain ⟨h1, h2⟩ := assembled h hf (fun e => e.tag ∉ ignore) hB
  exact ⟨fun e he ht => (h1 e (List.mem_filter.2 ⟨he, by simpa using ht⟩)).imp fun _ h => h.1, h2⟩

/-- **C18** gyroscopic matrix. -/
theorem C18_gyro (h : init pd fuel a = some (.ok r))
    (hf : ∀ e ∈ r.elements, Fits r.number_dof e)
    {B : Matrix (Fin r.ndof) (Fin r.ndof) ℝ} (hB : r.G = .ok B) :
    (∀ e ∈ r.elements, ∃ E, e.G = .ok E) ∧
    ∀ x y, bilin B x y = (r.elements.map fun e =>
      workOf r.number_dof (shaftEnd r) Elm.G e x y).sum := by
  unfold Rotor.G at hB
  rw [← placed_filter_true r] at hB
  obtain ⟨h1, h2⟩ := assembled h hf (fun _ => true) hB
  simp only [elements_filter_true] at h1 h2
  exact ⟨fun e he => (h1 e he).imp fun _ h => h.1, h2⟩

/-- **C18** the matrix of transient speed changes of a 6-dof rotor: sum over shaft and disks. -/
theorem C18_transient (h : init pd fuel a = some (.ok r))
    (hf : ∀ e ∈ r.elements, Fits r.number_dof e)
    {B : Matrix (Fin r.ndof) (Fin r.ndof) ℝ} (hB : r.Ksdt = .ok B) :
    ∀ x y, bilin B x y = if r.number_dof = 6 then
      (r.shaft.map fun e => elemBilin (globalOf 6 (shaftEnd r) (.shaft e)) e.s.Kst₆ x y).sum +
      (r.disks.map fun e => elemBilin (globalOf 6 (shaftEnd r) (.disk e)) e.d.Kdt₆ x y).sum
      else 0 := by
  intro x y
  have hb := init_ok h
  unfold Rotor.Ksdt at hB
  by_cases h6 : r.number_dof = 6
  · rw [if_pos h6] at hB ⊢
    obtain ⟨h1, h2⟩ := assembled h hf
      (fun e => match e with | .shaft _ => true | .disk _ => true | _ => false) hB
    have he : r.elements.filter
        (fun e => match e with | .shaft _ => true | .disk _ => true | _ => false) =
        r.shaft.map .shaft ++ r.disks.map .disk := by
      rw [elements_eq' hb]
      simp [List.filter_map, Function.comp_def]
    have hs : ∀ e ∈ r.shaft, e.six = true := fun e hm => by
      rw [(check_ok hb.dof).2.2.1 e hm, h6]; rfl
    have hd : ∀ e ∈ r.disks, e.six = true := fun e hm => by
      rw [(check_ok hb.dof).2.2.2.1 e hm, h6]; rfl
    rw [h2, he, List.map_append, List.sum_append, List.map_map, List.map_map, h6]
    congr 2
    · refine List.map_congr_left fun e hm => ?_
      obtain ⟨six, s⟩ := e
      have := hs _ hm
      simp only at this
      subst this
      rfl
    · refine List.map_congr_left fun e hm => ?_
      obtain ⟨six, s⟩ := e
      have := hd _ hm
      simp only at this
      subst this
      rfl
  · rw [if_neg h6] at hB ⊢
    cases hB
    exact bilin_zero _ _

/-- **C18** leaving out elements takes away exactly their contributions (stiffness and damping). -/
theorem C18_ignore (h : init pd fuel a = some (.ok r))
    (hf : ∀ e ∈ r.elements, Fits r.number_dof e) {ω : ℝ} (ignore : List (Option String))
    {K C : Matrix (Fin r.ndof) (Fin r.ndof) ℝ} (hK : r.K ω = .ok K) (hC : r.C ω = .ok C) :
    (∃ K', r.K ω ignore = .ok K' ∧ ∀ x y, bilin K x y = bilin K' x y +
      ((r.elements.filter fun e => e.tag ∈ ignore).map fun e =>
        workOf r.number_dof (shaftEnd r) (Elm.K ω) e x y).sum) ∧
    (∃ C', r.C ω ignore = .ok C' ∧ ∀ x y, bilin C x y = bilin C' x y +
      ((r.elements.filter fun e => e.tag ∈ ignore).map fun e =>
        workOf r.number_dof (shaftEnd r) (Elm.C ω) e x y).sum) := by
  have key : ∀ (f : Elm → ℝ) (l : List Elm), (l.map f).sum =
      ((l.filter fun e => e.tag ∉ ignore).map f).sum +
        ((l.filter fun e => e.tag ∈ ignore).map f).sum := by
    intro f l
    induction l with
    | nil => simp
    | cons e t ih =>
      by_cases hm : e.tag ∈ ignore
      · rw [List.filter_cons_of_neg (by simp [hm]), List.filter_cons_of_pos (by simp [hm])]
        simp only [List.map_cons, List.sum_cons, ih]; ring
      · rw [List.filter_cons_of_pos (by simp [hm]), List.filter_cons_of_neg (by simp [hm])]
        simp only [List.map_cons, List.sum_cons, ih]; ring
  constructor
  · have hex : ∃ K', r.K ω ignore = .ok K' := by
      refine (succeeds_iff h hf (mat := Elm.K ω) (fun e => e.tag ∉ ignore)
        fun e E => size_K).2 fun e he _ => ?_
      exact (succeeds_iff h hf (mat := Elm.K ω) (fun e => e.tag ∉ [])
        fun e E => size_K).1 ⟨K, hK⟩ e he (by simp)
    obtain ⟨K', hK'⟩ := hex
    refine ⟨K', hK', fun x y => ?_⟩
    rw [(C18_stiffness h hf hK).2, (C18_stiffness h hf hK').2, ← key]
    simp
  · have hex : ∃ C', r.C ω ignore = .ok C' := by
      refine (succeeds_iff h hf (mat := Elm.C ω) (fun e => e.tag ∉ ignore)
        fun e E => size_C).2 fun e he _ => ?_
      exact (succeeds_iff h hf (mat := Elm.C ω) (fun e => e.tag ∉ [])
        fun e E => size_C).1 ⟨C, hC⟩ e he (by simp)
    obtain ⟨C', hC'⟩ := hex
    refine ⟨C', hC', fun x y => ?_⟩
    rw [(C18_damping h hf hC).2, (C18_damping h hf hC').2, ← key]
    simp

/-- **C18** when the matrices of a constructed rotor can be computed: exactly when every element acts
on nodes of the rotor, no bearing is linked to its own node, and the element matrices exist. -/
theorem C18_assembles_iff (h : init pd fuel a = some (.ok r))
    (hf : ∀ e ∈ r.elements, Fits r.number_dof e) (ω : ℝ) :
    ((∃ B, r.M (some ω) = .ok B) ↔
      ∀ e ∈ r.elements, InRange r e ∧ NotSelfLinked e ∧ ∃ E, e.M ω = .ok E) ∧
    ((∃ B, r.K ω = .ok B) ↔
      ∀ e ∈ r.elements, InRange r e ∧ NotSelfLinked e ∧ ∃ E, e.K ω = .ok E) ∧
    ((∃ B, r.C ω = .ok B) ↔
      ∀ e ∈ r.elements, InRange r e ∧ NotSelfLinked e ∧ ∃ E, e.C ω = .ok E) ∧
    ((∃ B, r.G = .ok B) ↔
      ∀ e ∈ r.elements, InRange r e ∧ NotSelfLinked e ∧ ∃ E, e.G = .ok E) := by
  have hmat : Elm.Msync ω false = Elm.M ω := by funext e; simp [Elm.Msync]
  refine ⟨?_, ?_, ?_, ?_⟩
  · have := succeeds_iff h hf (mat := Elm.M ω) (fun _ => true) fun e E => size_M
    simpa [Rotor.M, hmat] using this
  · have := succeeds_iff h hf (mat := Elm.K ω) (fun e => e.tag ∉ []) fun e E => size_K
    simpa [Rotor.K, Rotor.keep] using this
  · have := succeeds_iff h hf (mat := Elm.C ω) (fun e => e.tag ∉ []) fun e E => size_C
    simpa [Rotor.C, Rotor.keep] using this
  · have := succeeds_iff h hf (mat := Elm.G) (fun _ => true) fun e E => size_G
    simpa [Rotor.G] using this

theorem parts_perm {a' : RotorArgs} (hl : Labelled a) (hp : Reordered a a') :
    (parts a).elements.Perm (parts a').elements := by
  have hl' : Labelled a' :=
    ⟨fun e he => hl.node e (hp.shaft.mem_iff.2 he), fun e he => hl.shaft e (hp.shaft.mem_iff.2 he),
      fun e he => hl.disk e (hp.disk.mem_iff.2 he), fun e he => hl.brg e (hp.brg.mem_iff.2 he),
      fun e he => hl.pm e (hp.pm.mem_iff.2 he)⟩
  have e1 : ∀ {a}, Labelled a → (parts a).sh₀ = shaftList a := by
    intro a hl
    refine mapIdx_id _ _ fun i e he => ?_
    obtain ⟨n, hn⟩ := Option.isSome_iff_exists.1 (hl.node e he)
    obtain ⟨t, ht⟩ := Option.isSome_iff_exists.1 (hl.shaft e he)
    obtain ⟨six, s⟩ := e
    cases s
    simp_all [defTag]
  have e2 : ∀ {a}, Labelled a → (parts a).dk = a.disks := by
    intro a hl
    refine mapIdx_id _ _ fun i e he => ?_
    obtain ⟨t, ht⟩ := Option.isSome_iff_exists.1 (hl.disk e he)
    obtain ⟨six, s⟩ := e
    cases s
    simp_all [defTag]
  have e3 : ∀ {a}, Labelled a → tagBearings a.bearings = a.bearings := by
    intro a hl
    refine mapIdx_id _ _ fun i b he => ?_
    obtain ⟨t, ht⟩ := Option.isSome_iff_exists.1 (hl.brg b he)
    rw [ht]
    cases b with
    | brg s b => cases b; simp_all [defTag, BrgEl.setTag, BrgEl.tag, BrgEl.base]
    | brg6 b =>
      obtain ⟨b, _, _, _⟩ := b
      cases b; simp_all [defTag, BrgEl.setTag, BrgEl.tag, BrgEl.base]
  have e4 : ∀ {a}, Labelled a → (parts a).pm = a.pms := by
    intro a hl
    refine mapIdx_id _ _ fun i p he => ?_
    obtain ⟨t, ht⟩ := Option.isSome_iff_exists.1 (hl.pm p he)
    rw [ht]
    cases p with
    | pm p => cases p; simp_all [defTag, PmEl.setTag, PmEl.tag]
    | pm6 p => cases p; simp_all [defTag, PmEl.setTag, PmEl.tag]
  have s1 : (parts a).sh.Perm (parts a').sh := by
    refine (parts_sh_perm a).trans (List.Perm.trans ?_ (parts_sh_perm a').symm)
    rw [e1 hl, e1 hl']; exact hp.shaft
  have s2 : (parts a).dk.Perm (parts a').dk := by rw [e2 hl, e2 hl']; exact hp.disk
  have s3 : (parts a).br.Perm (parts a').br := by
    refine (parts_br_perm a).trans (List.Perm.trans ?_ (parts_br_perm a').symm)
    rw [e3 hl, e3 hl']; exact hp.brg
  have s4 : (parts a).pm.Perm (parts a').pm := by rw [e4 hl, e4 hl']; exact hp.pm
  exact (((s1.map _).append (s2.map _)).append (s3.map _)).append (s4.map _)

/-- **C18** the order in which the elements are listed does not matter: rotors of the same labelled
elements have the same number of dofs and the same matrices. -/
theorem C18_order {pd' : Pandas} {fuel' : ℕ} {a' : RotorArgs} {r' : Rotor}
    (hl : Labelled a) (hp : Reordered a a')
    (h : init pd fuel a = some (.ok r)) (h' : init pd' fuel' a' = some (.ok r')) :
    r.number_dof = r'.number_dof ∧ r.ndof = r'.ndof ∧
    (∀ ω B, r.M ω = .ok B → ∃ B', r'.M ω = .ok B' ∧ ∀ x y, bilin B x y = bilin B' x y) ∧
    (∀ ω ig B, r.K ω ig = .ok B → ∃ B', r'.K ω ig = .ok B' ∧ ∀ x y, bilin B x y = bilin B' x y) ∧
    (∀ ω ig B, r.C ω ig = .ok B → ∃ B', r'.C ω ig = .ok B' ∧ ∀ x y, bilin B x y = bilin B' x y) ∧
    (∀ B, r.G = .ok B → ∃ B', r'.G = .ok B' ∧ ∀ x y, bilin B x y = bilin B' x y) := by
  have hpp := parts_perm hl hp
  obtain ⟨h1, h2, -⟩ := placed_perm h h' hpp
  refine ⟨h1, h2, ?_, ?_, ?_, ?_⟩
  · intro ω B hB
    unfold Rotor.M at hB ⊢
    rw [← placed_filter_true r] at hB
    obtain ⟨B', hB', h3⟩ := assemble_perm h h' hpp (fun _ => true) hB
    rw [placed_filter_true r'] at hB'
    exact ⟨B', hB', h3⟩
  · intro ω ig B hB
    exact assemble_perm h h' hpp (fun e => e.tag ∉ ig) hB
  · intro ω ig B hB
    exact assemble_perm h h' hpp (fun e => e.tag ∉ ig) hB
  · intro B hB
    unfold Rotor.G at hB ⊢
    rw [← placed_filter_true r] at hB
    obtain ⟨B', hB', h3⟩ := assemble_perm h h' hpp (fun _ => true) hB
    rw [placed_filter_true r'] at hB'
    exact ⟨B', hB', h3⟩

/-- **C18** symmetric element matrices give symmetric rotor matrices. -/
theorem C18_symm (h : init pd fuel a = some (.ok r)) (ω : ℝ) :
    (∀ B, r.M (some ω) = .ok B → (∀ e ∈ r.elements, ∀ E, e.M ω = .ok E → E.2ᵀ = E.2) → Bᵀ = B) ∧
    (∀ B, r.K ω = .ok B → (∀ e ∈ r.elements, ∀ E, e.K ω = .ok E → E.2ᵀ = E.2) → Bᵀ = B) ∧
    (∀ B, r.C ω = .ok B → (∀ e ∈ r.elements, ∀ E, e.C ω = .ok E → E.2ᵀ = E.2) → Bᵀ = B) := by
  have hb := init_ok h
  have hmat : Elm.Msync ω false = Elm.M ω := by funext e; simp [Elm.Msync]
  refine ⟨fun B hB hs => ?_, fun B hB hs => ?_, fun B hB hs => ?_⟩
  · unfold Rotor.M at hB
    refine assemble_symm (fun z hz => values_nodup hb hz) hB fun z hz E hE => ?_
    simp only [Option.getD_some, hmat] at hE
    exact hs _ (placed_mem hb hz) E hE
  · exact assemble_symm (keep_nodup hb _) hB fun z hz E hE =>
      hs _ (placed_mem hb (List.mem_of_mem_filter hz)) E hE
  · exact assemble_symm (keep_nodup hb _) hB fun z hz E hE =>
      hs _ (placed_mem hb (List.mem_of_mem_filter hz)) E hE

theorem elm_gyro_skew {e : Elm} {E : LMat} (h : e.G = .ok E) : E.2ᵀ = -E.2 := by
  rcases e with ⟨_ | _, s⟩ | ⟨_ | _, d⟩ | (⟨sl, b⟩ | b) | (p | p)
  · cases h; exact C09_gyro_skew s
  · cases h; exact C09_gyro6_skew s
  · cases h; exact (C03_gyro d).2.1
  · cases h; exact (C03_six d).2.2.2.1
  · simp only [Elm.G, BearingElement.G] at h
    obtain ⟨k, -, h⟩ := bind_ok.1 h
    cases h; simp
  · simp only [Elm.G, BearingElement6DoF.G] at h
    obtain ⟨k, -, h⟩ := bind_ok.1 h
    cases h; simp
  · cases h
    have h0 := (C16_matrices p).2.2.2.2
    simp only; rw [h0]; simp
  · cases h
    have h0 := (C16_matrices6 p).2.2.2.2
    simp only; rw [h0]; simp

/-- **C18** the gyroscopic matrix of every constructed rotor is skew-symmetric. -/
theorem C18_gyro_skew (h : init pd fuel a = some (.ok r))
    {B : Matrix (Fin r.ndof) (Fin r.ndof) ℝ} (hB : r.G = .ok B) : Bᵀ = -B :=
  assemble_skew (fun _ hz => values_nodup (init_ok h) hz) hB fun _ _ _ hE => elm_gyro_skew hE

/-- **C19** the kinetic energy of a unit translation of all nodes (twice it) is the total mass of
shaft, disks and point masses plus the added masses of the bearings to ground. -/
theorem C19_energy (h : init pd fuel a = some (.ok r))
    (hf : ∀ e ∈ r.elements, Fits r.number_dof e)
    (hs : ∀ e ∈ r.shaft, e.s.Built ∧ 1 + e.s.phi ≠ 0)
    {ω : ℝ} {B : Matrix (Fin r.ndof) (Fin r.ndof) ℝ} (hB : r.M (some ω) = .ok B)
    {dir : String} (hdir : dir = "x" ∨ dir = "y") {x : ℕ → ℝ}
    (hx : Describes r x (translation dir)) :
    bilin B x x = (r.shaft.map fun e => e.s.m).sum + (r.disks.map fun e => e.d.m).sum +
      (r.bearings.map (BrgEl.groundMass ω dir)).sum + (r.pms.map (PmEl.massAlong dir)).sum := by
  have hb := init_ok h
  have hmat : Elm.Msync ω false = Elm.M ω := by funext e; simp [Elm.Msync]
  unfold Rotor.M at hB
  rw [Option.getD_some, hmat, ← placed_filter_true r] at hB
  obtain ⟨h1, h2⟩ := assembled h hf (fun _ => true) hB
  simp only [elements_filter_true] at h1 h2
  have h3 : (r.elements.map fun e => workOf r.number_dof (shaftEnd r) (Elm.M ω) e x x) =
      r.elements.map (massAlong ω dir) := by
    refine List.map_congr_left fun e he => ?_
    obtain ⟨E, hE, hk, hlt⟩ := h1 e he
    refine mass_work h he (hf e he) hE hk hlt ?_ hdir hx
    rintro s rfl
    rcases (mem_elements hb _).1 he with ⟨e', h', h''⟩ | ⟨_, _, h'⟩ | ⟨_, _, h'⟩ | ⟨_, _, h'⟩
    · cases h''; exact hs _ h'
    all_goals cases h'
  rw [h2, h3, elements_eq' hb]
  simp only [List.map_append, List.sum_append, List.map_map]
  rfl

/-- A vector that describes a given motion exists. -/
theorem describes_exists (h : init pd fuel a = some (.ok r)) (u : String × ℕ → ℝ) :
    ∃ x, Describes r x u := by
  classical
  have hnd := nd_cases (init_ok h)
  refine ⟨fun i => if hi : ∃ key, IsDof r.number_dof (shaftEnd r) r.pms.length key ∧
    slot r.number_dof (shaftEnd r) key = i then u hi.choose else 0, fun key hk => ?_⟩
  have hex : ∃ key', IsDof r.number_dof (shaftEnd r) r.pms.length key' ∧
    slot r.number_dof (shaftEnd r) key' = slot r.number_dof (shaftEnd r) key := ⟨key, hk, rfl⟩
  simp only
  rw [dif_pos hex, slot_inj hnd hex.choose_spec.1 hk hex.choose_spec.2]

/-- **C19** for massless bearings the energy is the sum of the element masses, and `rotor.m` when
there are no point masses. -/
theorem C19_total_mass (h : init pd fuel a = some (.ok r))
    (hf : ∀ e ∈ r.elements, Fits r.number_dof e)
    (hs : ∀ e ∈ r.shaft, e.s.Built ∧ 1 + e.s.phi ≠ 0)
    {ω : ℝ} (hm : ∀ b ∈ r.bearings, b.base.mxx.eval ω = .ok 0 ∧ b.base.myy.eval ω = .ok 0)
    {B : Matrix (Fin r.ndof) (Fin r.ndof) ℝ} (hB : r.M (some ω) = .ok B)
    {dir : String} (hdir : dir = "x" ∨ dir = "y") {x : ℕ → ℝ}
    (hx : Describes r x (translation dir)) :
    bilin B x x = r.m + (r.pms.map (PmEl.massAlong dir)).sum ∧
      (r.pms = [] → bilin B x x = r.m) := by
  have hb := init_ok h
  have h0 : (r.bearings.map (BrgEl.groundMass ω dir)).sum = 0 := by
    refine List.sum_eq_zero fun y hy => ?_
    obtain ⟨b, hb', rfl⟩ := List.mem_map.1 hy
    obtain ⟨h1, h2⟩ := hm b hb'
    unfold BrgEl.groundMass
    cases b.n_link with
    | some k => rfl
    | none =>
      simp only
      by_cases hd : dir = "x"
      · rw [if_pos hd]; exact eval_interp h1
      · rw [if_neg hd]; exact eval_interp h2
  have e := C19_energy h hf hs hB hdir hx
  rw [h0] at e
  have hm' : r.m = (r.shaft.map fun e => e.s.m).sum + (r.disks.map fun e => e.d.m).sum := by
    rw [hb.m, hb.m_shaft, hb.m_disks, add_comm]
  refine ⟨by rw [e, hm']; ring, fun hp => by rw [e, hm', hp]; simp⟩

/-- The example rotor meets the hypotheses of the theorems above: its elements fit, and its matrices
can be computed at every frequency. -/
example : ∃ r, init exPandas 10 exArgs = some (.ok r) ∧ (∀ e ∈ r.elements, Fits r.number_dof e) ∧
    (∀ e ∈ r.shaft, e.s.Built ∧ 1 + e.s.phi ≠ 0) ∧
    (∀ ω, (∃ B, r.M (some ω) = .ok B) ∧ (∃ B, r.K ω = .ok B) ∧ (∃ B, r.C ω = .ok B) ∧
      ∃ B, r.G = .ok B) ∧ (∃ x, Describes r x (translation "x")) ∧
    ∀ ω, ∀ b ∈ r.bearings, b.base.mxx.eval ω = .ok 0 ∧ b.base.myy.eval ω = .ok 0 := by
  obtain ⟨r, f⟩ := exRotor_facts
  refine ⟨r, f.init, f.fits, fun e he => ?_, fun ω => ?_, describes_exists f.init _, ?_⟩
  · obtain ⟨hp, hs⟩ := exFacts_shaft f e he
    exact ⟨hs, (one_add_phi_pos (built_facts hs) hp).ne'⟩
  · have h := exFacts_matrices f ω
    have h' := exFacts_range f
    obtain ⟨i1, i2, i3, i4⟩ := C18_assembles_iff f.init f.fits ω
    exact ⟨i1.2 fun e he => ⟨(h' e he).1, (h' e he).2, (h e he).1⟩,
      i2.2 fun e he => ⟨(h' e he).1, (h' e he).2, (h e he).2.1⟩,
      i3.2 fun e he => ⟨(h' e he).1, (h' e he).2, (h e he).2.2.1⟩,
      i4.2 fun e he => ⟨(h' e he).1, (h' e he).2, (h e he).2.2.2⟩⟩
  · intro ω b hb
    obtain ⟨t, h⟩ := f.brgs b hb
    rcases h with rfl | rfl | rfl <;>
      simp [BrgEl.base, exBrg, constCoeff, Coeff.eval]

/-- Two disks on one shaft element, listed in this order or the other. -/
noncomputable def orderArgs (ds : List DiskEl) : RotorArgs where
  shaft := [.el ⟨false, { exShaft with n := some 0, tag := some "shaft" }⟩]
  disks := ds

theorem orderArgs_wf {ds : List DiskEl} (h6 : ∀ e ∈ ds, e.six = false) (hn : ∀ e ∈ ds, e.d.n ≤ 1)
    (ht : (allTags (orderArgs ds)).Nodup) : WellFormed false 1 (orderArgs ds) where
  pos := by norm_num
  nodes := by
    intro k
    show k ∈ [0] ↔ k < 1
    simp
  len := by
    intro e he
    simp [orderArgs, shaftList, Nest.flattenAll, Nest.flatten] at he
    subst he
    norm_num [exShaft]
  shaft_six := by
    intro e he
    simp [orderArgs, shaftList, Nest.flattenAll, Nest.flatten] at he
    subst he; rfl
  disk_six := h6
  brg_six := by simp [orderArgs]
  disk_on := hn
  brg_nodes := by simp [orderArgs]
  brg_on := by simp [orderArgs]
  brg_linked := by simp [orderArgs]
  brg_order := by simp [orderArgs]
  pm_on := by simp [orderArgs]
  tags := ht

/-- `C18_order` applies to them. -/
example : ∃ a a' r r', Labelled a ∧ Reordered a a' ∧ a ≠ a' ∧
    init exPandas 10 a = some (.ok r) ∧ init exPandas 10 a' = some (.ok r') := by
  let d0 : DiskEl := ⟨false, ⟨0, 30, 1, 2, some "d0", 1, ""⟩⟩
  let d1 : DiskEl := ⟨false, ⟨1, 20, 1, 2, some "d1", 1, ""⟩⟩
  have w : WellFormed false 1 (orderArgs [d0, d1]) :=
    orderArgs_wf (by simp [d0, d1]) (by simp [d0, d1]) (by decide)
  have w' : WellFormed false 1 (orderArgs [d1, d0]) :=
    orderArgs_wf (by simp [d0, d1]) (by simp [d0, d1]) (by decide)
  obtain ⟨r, h, -⟩ := accepts exPandas_sorts w (fuel := 10) (by simp [orderArgs])
  obtain ⟨r', h', -⟩ := accepts exPandas_sorts w' (fuel := 10) (by simp [orderArgs])
  refine ⟨orderArgs [d0, d1], orderArgs [d1, d0], r, r', ⟨?_, ?_, ?_, ?_, ?_⟩,
    ⟨List.Perm.refl _, List.Perm.swap _ _ _, List.Perm.refl _,
    List.Perm.refl _⟩, ?_, h, h'⟩
  · simp [orderArgs, shaftList, Nest.flattenAll, Nest.flatten]
  · simp [orderArgs, shaftList, Nest.flattenAll, Nest.flatten]
  · simp [orderArgs, d0, d1]
  · simp [orderArgs]
  · simp [orderArgs]
  · intro h
    have := congrArg RotorArgs.disks h
    simp [orderArgs, d0, d1] at this

end Ross.Props
