import Verif.Model.PersistFilm
import Verif.Lemmas.Persist
import Verif.Lemmas.Runs
import Verif.Props.Cylindrical
import Verif.Props.RollingBearing

/-!
# C30: saving and loading magnetic, cylindrical and fluid-film bearings

`Persist.saveMagnetic a b` is `bearing.save(file)` on a new file for the bearing `b` that
`MagneticBearingElement` built from the arguments `a`, and `Persist.loadMagnetic` is
`MagneticBearingElement.load`; the other classes in the same way.
-/

namespace Ross.Props

open Persist PersistLemmas BearingLemmas

theorem magnetic_fields {sp : Scipy} {a : MagneticArgs} {b : BearingElement}
    (h : Magnetic.init a sp = .ok b) :
    b.n = a.n ∧ b.tag = a.tag ∧ b.n_link = a.n_link ∧ b.scale_factor = a.scale_factor := by
  unfold Magnetic.init at h
  obtain ⟨_, -, h⟩ := RunLemmas.bindOk h
  obtain ⟨_, -, h⟩ := RunLemmas.bindOk h
  obtain ⟨_, -, h⟩ := RunLemmas.bindOk h
  obtain ⟨_, -, h⟩ := RunLemmas.bindOk h
  dsimp only at h
  obtain ⟨h1, h2, -, h3, h4, -⟩ := init_ok h
  exact ⟨h1, h3, h2, h4⟩

/-- **C30** A magnetic bearing is written to a new file as one table named after its class and tag,
and loading the file gives the same bearing, with the same physical parameters. -/
theorem C30_magnetic {sp : Scipy} {a : MagneticArgs} {b : BearingElement}
    (h : Magnetic.init a sp = .ok b) :
    ∃ t, saveMagnetic a b = .ok [("MagneticBearingElement_" ++ a.tag.getD "None", t)] ∧
      loadMagnetic sp [("MagneticBearingElement_" ++ a.tag.getD "None", t)] = .ok (a, b) := by
  obtain ⟨h1, h2, h3, h4⟩ := magnetic_fields h
  obtain ⟨t, ht⟩ := collect_ok (err := .keyError) (attrs := magneticAttrs a b)
    (params := magneticParams ++ coefNames) (by
      intro p hp
      rw [← Dict.mem_keys_iff]
      revert p
      have : (magneticAttrs a b).keys = (magneticAttrs a b).map Prod.fst := rfl
      simp only [magneticAttrs, brgAttrs, Dict.keys, List.map_append, List.map_cons, List.map_nil]
      decide)
  have key := collect_read ht
  refine ⟨Toml.table t, ?_, ?_⟩
  · unfold saveMagnetic
    rw [ht, ← h2]
    rfl
  · have num : ∀ (k : String) (p : Param), (magneticAttrs a b).get? k = some (ofParam p) →
        k ∈ magneticParams ++ coefNames → req asParam (Toml.table t) k = .ok p := by
      intro k p hk hm
      rw [req, key, if_pos hm, hk]
      cases p <;> rfl
    have hn : req asInt (Toml.table t) "n" = .ok a.n := by
      rw [req, key, if_pos (by decide)]
      rw [← h1]; rfl
    have htag : opt asStr (Toml.table t) "tag" = .ok a.tag := by
      apply opt_str
      rw [key, if_pos (by decide), ← h2]
      show wr (some (Val.ofStr? b.tag)) = _
      cases b.tag <;> rfl
    have hl : opt asInt (Toml.table t) "n_link" = .ok a.n_link := by
      apply opt_int
      rw [key, if_pos (by decide), ← h3]
      show wr (some (Val.ofInt? b.n_link)) = _
      cases b.n_link <;> rfl
    have hs : dflt asNum (Toml.table t) "scale_factor" 1 = .ok a.scale_factor := by
      rw [dflt, key, if_pos (by decide), ← h4]
      rfl
    show callMagnetic sp (Toml.table t) = _
    unfold callMagnetic
    rw [hn, num "g0" a.g0 rfl (by decide), num "i0" a.i0 rfl (by decide),
      num "ag" a.ag rfl (by decide), num "nw" a.nw rfl (by decide),
      num "alpha" a.alpha rfl (by decide), num "kp_pid" a.kp_pid rfl (by decide),
      num "kd_pid" a.kd_pid rfl (by decide), num "k_amp" a.k_amp rfl (by decide),
      num "k_sense" a.k_sense rfl (by decide), htag, hl, hs]
    simp only [bind, Except.bind, pure, Except.pure]
    rw [h]

/-- **C30** does not hold of cylindrical bearings: every one can be saved, and no file that was written
can be loaded, since the coefficients in it are given to the parent class twice. -/
theorem C30_cylindrical_false {sp : Scipy} {pr : PolyRoots} {a : CylindricalArgs}
    {b : CylindricalBearing} (h : CylindricalBearing.init sp pr a = .ok b) :
    ∃ f, saveCylindrical a b = .ok f ∧ loadCylindrical sp pr f = .error .typeError := by
  obtain ⟨t, ht⟩ := collect_ok (err := .keyError) (attrs := cylindricalAttrs a b)
    (params := cylindricalParams ++ coefNames) (by
      intro p hp
      rw [← Dict.mem_keys_iff]
      revert p
      simp only [cylindricalAttrs, brgAttrs, Dict.keys, List.map_append, List.map_cons, List.map_nil]
      decide)
  have key := collect_read ht
  refine ⟨newFile "CylindricalBearing" b.base.tag t, ?_, ?_⟩
  · unfold saveCylindrical
    rw [ht]
    rfl
  · have num : ∀ (k : String) (x : ℝ), (cylindricalAttrs a b).get? k = some (.num x) →
        k ∈ cylindricalParams ++ coefNames → req asNum (Toml.table t) k = .ok x := by
      intro k p hk hm
      rw [req, key, if_pos hm, hk]
      rfl
    have hn : req asInt (Toml.table t) "n" = .ok b.base.n := by
      rw [req, key, if_pos (by decide)]
      rfl
    have hs : req asArr (Toml.table t) "speed" = .ok b.speed := by
      rw [req, key, if_pos (by decide)]
      rfl
    have hw : cylindricalTwice (Toml.table t) = .error .typeError := by
      unfold cylindricalTwice
      rw [if_pos]
      rw [List.any_eq_true]
      refine ⟨"kxx", ?_, by decide⟩
      rw [Dict.mem_keys_iff, key, if_pos (by decide)]
      rfl
    show callCylindrical sp pr (Toml.table t) = _
    unfold callCylindrical
    rw [hn, hs, num "weight" a.weight rfl (by decide),
      num "bearing_length" a.bearing_length rfl (by decide),
      num "journal_diameter" a.journal_diameter rfl (by decide),
      num "radial_clearance" a.radial_clearance rfl (by decide),
      num "oil_viscosity" a.oil_viscosity rfl (by decide), hw]
    rfl

theorem get?_strip {α : Type} (S : List String) (t : Dict String α) (k : String) :
    Dict.get? (t.filter fun kv => kv.1 ∉ S) k = if k ∈ S then none else Dict.get? t k := by
  induction t with
  | nil => simp [Dict.get?]
  | cons p t ih =>
    obtain ⟨k', v⟩ := p
    by_cases h : k' ∈ S
    · rw [List.filter_cons_of_neg (by simpa using h), ih]
      by_cases hk : k ∈ S
      · rw [if_pos hk, if_pos hk]
      · have : k' ≠ k := fun e => hk (e ▸ h)
        simp [hk, Dict.get?, this]
    · rw [List.filter_cons_of_pos (by simpa using h)]
      by_cases hk' : k' = k
      · subst hk'
        simp [Dict.get?, h]
      · simp only [Dict.get?, hk', if_false]
        exact ih

/-- **C30 (partial)** The coefficients are the only obstacle: without them, the file of a cylindrical bearing whose
speeds are not zero and whose other arguments are the defaults gives the same bearing. -/
theorem C30_cylindrical_partial {sp : Scipy} {pr : PolyRoots} {a : CylindricalArgs} {b : CylindricalBearing}
    (h : CylindricalBearing.init sp pr a = .ok b) (hz : ∀ ω ∈ a.speed, ω ≠ 0) (ht : a.tag = none)
    (hl : a.n_link = none) (hs : a.scale_factor = 1) (hc : a.color = "#355d7a") :
    ∃ t, saveCylindrical a b = .ok [("CylindricalBearing_None", t)] ∧
      loadCylindrical sp pr [("CylindricalBearing_None", t.filter fun kv => kv.1 ∉ ["kxx", "kxy", "kyx", "kyy", "cxx",
        "cxy", "cyx", "cyy", "mxx", "mxy", "myx", "myy"])] = .ok (a, b) := by
  have hinit := h
  unfold CylindricalBearing.init at h
  obtain ⟨base, hb, h⟩ := RunLemmas.bindOk h
  cases Except.ok.inj h
  obtain ⟨h1, h2, -, h3, h4, -⟩ := init_ok hb
  have hsp : CylindricalBearing.speeds a = a.speed := by
    unfold CylindricalBearing.speeds
    refine (List.map_congr_left fun ω hω => ?_).trans (List.map_id _)
    rw [if_neg (hz ω hω)]
    rfl
  set b : CylindricalBearing := ⟨base, _, _, _, _, _, _⟩ with hbd
  obtain ⟨t, hcol⟩ := collect_ok (err := .keyError) (attrs := cylindricalAttrs a b)
    (params := cylindricalParams ++ coefNames) (by
      intro p hp
      rw [← Dict.mem_keys_iff]
      revert p
      simp only [cylindricalAttrs, brgAttrs, Dict.keys, List.map_append, List.map_cons, List.map_nil]
      decide)
  have key := collect_read hcol
  refine ⟨Toml.table t, ?_, ?_⟩
  · unfold saveCylindrical
    rw [hcol]
    show Except.ok [("CylindricalBearing_" ++ base.tag.getD "None", _)] = _
    rw [h3]
    show Except.ok [("CylindricalBearing_" ++ a.tag.getD "None", _)] = _
    rw [ht]
    rfl
  · set S : List String := ["kxx", "kxy", "kyx", "kyy", "cxx", "cxy", "cyx", "cyy", "mxx", "mxy", "myx", "myy"] with hS
    set t' : Table := (Toml.table t).filter fun kv => kv.1 ∉ S with ht'
    have key' : ∀ k, t'.get? k = if k ∈ cylindricalParams then wr ((cylindricalAttrs a b).get? k) else none := by
      intro k
      rw [ht', get?_strip, key]
      by_cases hk : k ∈ S
      · rw [if_pos hk, if_neg]
        revert k
        decide
      · rw [if_neg hk]
        by_cases hp : k ∈ cylindricalParams
        · rw [if_pos hp, if_pos (List.mem_append_left _ hp)]
        · rw [if_neg hp, if_neg]
          intro hc
          rcases List.mem_append.1 hc with hc | hc
          · exact hp hc
          · have : ∀ x ∈ coefNames, x ∈ S := by decide
            exact hk (this k hc)
    have num : ∀ (k : String) (x : ℝ), (cylindricalAttrs a b).get? k = some (.num x) →
        k ∈ cylindricalParams → req asNum t' k = .ok x := by
      intro k p hk hm
      rw [req, key', if_pos hm, hk]
      rfl
    have hn : req asInt t' "n" = .ok a.n := by
      rw [req, key', if_pos (by decide)]
      exact congrArg Except.ok h1
    have hsd : req asArr t' "speed" = .ok a.speed := by
      rw [req, key', if_pos (by decide), ← hsp]
      rfl
    have hw : cylindricalTwice t' = .ok () := by
      unfold cylindricalTwice
      rw [if_neg]
      rw [List.any_eq_true]
      rintro ⟨k, hk, hd⟩
      rw [Dict.mem_keys_iff, key'] at hk
      simp only [decide_eq_true_eq] at hd
      rw [if_neg hd.1] at hk
      cases hk
    have o1 : opt asStr t' "tag" = .ok none := by
      rw [opt, key', if_neg (by decide)]
    have o2 : opt asInt t' "n_link" = .ok none := by
      rw [opt, key', if_neg (by decide)]
    have o3 : dflt asNum t' "scale_factor" 1 = .ok 1 := by
      rw [dflt, key', if_neg (by decide)]
    have o4 : dflt asStr t' "color" "#355d7a" = .ok "#355d7a" := by
      rw [dflt, key', if_neg (by decide)]
    show callCylindrical sp pr t' = _
    unfold callCylindrical
    rw [hn, hsd, num "weight" a.weight rfl (by decide),
      num "bearing_length" a.bearing_length rfl (by decide),
      num "journal_diameter" a.journal_diameter rfl (by decide),
      num "radial_clearance" a.radial_clearance rfl (by decide),
      num "oil_viscosity" a.oil_viscosity rfl (by decide), hw, o1, o2, o3, o4]
    have ea : (⟨a.n, a.speed, a.weight, a.bearing_length, a.journal_diameter, a.radial_clearance, a.oil_viscosity, none,
        none, 1, "#355d7a"⟩ : CylindricalArgs) = a := by
      rw [← ht, ← hc, ← hs]
      conv_lhs => rw [show a.tag = none from ht]
      cases a
      simp_all
    simp only [bind, Except.bind, pure, Except.pure]
    rw [ea, hinit]

/-- **C30** does not hold of fluid-film bearings: none can be saved, since the sizes of the film are
not kept. -/
theorem C30_fluidflow_false (b : BearingElement) : saveFluidFlow b = .error .keyError := by
  unfold saveFluidFlow
  rw [collect_error (p := "nz") (by decide) rfl]
  rfl

/-- A magnetic bearing, with different gains along the two axes, and a cylindrical bearing meet the
hypotheses. -/
example : (∃ b, Magnetic.init exMagnetic exScipy = .ok b) ∧
    ∃ b, CylindricalBearing.init exScipy exRoots exJournal = .ok b :=
  ⟨by
    have h : AllOneOrTwo exMagnetic ∧ Working (magnets exMagnetic 0) ∧
        Working (magnets exMagnetic 1) := by
      refine ⟨by simp [AllOneOrTwo, exMagnetic, OneOrTwo], ?_, ?_⟩ <;>
        constructor <;> norm_num [magnets, exMagnetic, Magnetic.entry]
    obtain ⟨b, -, -, hb, -⟩ := C39_magnetic (sp := exScipy) h.1 h.2.1 h.2.2
    exact ⟨b, hb⟩,
    C38_accept exScipy_contract exRoots_finds exJournal_loaded (by simp [exJournal])
      exJournal_pos exJournal_nodup⟩

/-- The cylindrical bearing of the example has speeds other than zero and the defaults. -/
example : (∀ ω ∈ exJournal.speed, ω ≠ 0) ∧ exJournal.tag = none ∧ exJournal.n_link = none ∧ exJournal.scale_factor = 1 ∧
    exJournal.color = "#355d7a" :=
  ⟨fun ω h => (exJournal_pos ω h).ne', rfl, rfl, rfl, rfl⟩

end Ross.Props
