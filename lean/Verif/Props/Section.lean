import Mathlib.Algebra.BigOperators.Intervals
import Mathlib.Algebra.BigOperators.Fin
import Verif.Lemmas.ListRes
import Verif.Model.Section
import Verif.Props.ShaftGeometry

/-! # C13: splitting a shaft section -/

namespace Ross.Props

open Spec Real intervalIntegral ShaftLemmas

variable {L : ℝ} {ne : ℤ} {idl odl : ℝ} {idr odr : Option ℝ} {material : Option Material}
  {n : Option ℕ} {se ri gy : Bool} {alpha beta : ℝ} {els : List ShaftElement}

/-- Helper: what a successful `section` call returns. -/
theorem section_elems
    (h : ShaftElement.sectionElems L ne idl odl idr odr material n se ri gy alpha beta = .ok els)
    (hne : 0 < ne) :
    L ≠ 0 ∧ els.length = ne.toNat ∧ ∀ (i : ℕ) (hi : i < els.length),
      ShaftElement.sectionElem L (L / ne) idl odl (idr.getD idl) (odr.getD odl) material n se ri gy
        alpha beta i = .ok els[i] := by
  unfold ShaftElement.sectionElems at h
  simp only at h
  rw [if_neg hne.ne'] at h
  split_ifs at h with h1
  have hL : L ≠ 0 := fun h2 => h1 ⟨hne, h2⟩
  rw [mapM_ok_iff] at h
  have hlen : els.length = ne.toNat := by
    have := congrArg List.length h
    simpa using this.symm
  refine ⟨hL, hlen, fun i hi => ?_⟩
  have h2 := congrArg (fun l => l[i]?) h
  simp only [List.getElem?_map] at h2
  rw [List.getElem?_range (by omega), List.getElem?_eq_getElem hi] at h2
  simpa using h2

/-- Attributes of the `i`-th element. -/
theorem sectionElem_attrs {L le a b c d : ℝ} {i : ℕ} {s : ShaftElement}
    (h : ShaftElement.sectionElem L le a b c d material n se ri gy alpha beta i = .ok s) :
    s.L = le ∧ s.idl = (c - a) * i * le / L + a ∧ s.odl = (d - b) * i * le / L + b ∧
      s.idr = (c - a) * (i + 1) * le / L + a ∧ s.odr = (d - b) * (i + 1) * le / L + b ∧
      some s.material = material ∧ s.n = n ∧ s.shear_effects = se ∧ s.rotary_inertia = ri ∧
      s.gyroscopic = gy ∧ s.alpha = alpha ∧ s.beta = beta ∧ s.axial_force = 0 ∧ s.torque = 0 := by
  unfold ShaftElement.sectionElem ShaftElement.init at h
  split at h
  · simp at h
  · simp only at h
    split_ifs at h <;>
    · simp only [Except.ok.injEq] at h
      subst h
      simp

/-- **C13** `section` returns `ne` elements of equal length `L/ne`, so the lengths sum to `L`, all
with the requested material and options. -/
theorem C13_length
    (h : ShaftElement.sectionElems L ne idl odl idr odr material n se ri gy alpha beta = .ok els)
    (hne : 0 < ne) :
    els.length = ne.toNat ∧ (∀ s ∈ els, s.L = L / ne ∧ some s.material = material ∧
      s.shear_effects = se ∧ s.rotary_inertia = ri ∧ s.gyroscopic = gy ∧ s.alpha = alpha ∧
      s.beta = beta) ∧ (els.map (·.L)).sum = L := by
  obtain ⟨hL, hlen, hel⟩ := section_elems h hne
  have hall : ∀ s ∈ els, s.L = L / ne ∧ some s.material = material ∧
      s.shear_effects = se ∧ s.rotary_inertia = ri ∧ s.gyroscopic = gy ∧ s.alpha = alpha ∧
      s.beta = beta := by
    intro s hs
    obtain ⟨i, hi, rfl⟩ := List.getElem_of_mem hs
    obtain ⟨h1, -, -, -, -, h2, -, h3, h4, h5, h6, h7, -⟩ := sectionElem_attrs (hel i hi)
    exact ⟨h1, h2, h3, h4, h5, h6, h7⟩
  refine ⟨hlen, hall, ?_⟩
  have : els.map (·.L) = List.replicate els.length (L / ne) := by
    rw [List.eq_replicate_iff]
    exact ⟨by simp, by simpa using fun s hs => (hall s hs).1⟩
  rw [this, List.sum_replicate, hlen, nsmul_eq_mul]
  have h2 : ((ne.toNat : ℕ) : ℝ) = (ne : ℝ) := by
    exact_mod_cast Int.toNat_of_nonneg hne.le
  have h3 : (ne : ℝ) ≠ 0 := by exact_mod_cast hne.ne'
  rw [h2]; field_simp

/-- **C13** the end diameters of the elements lie on the section's linear taper: element `i` spans
the fractions `i/ne … (i+1)/ne`.  Hence consecutive elements join, and the first and last diameters
are the section's. -/
theorem C13_taper {idr' odr' : ℝ}
    (h : ShaftElement.sectionElems L ne idl odl (some idr') (some odr') material n se ri gy alpha
      beta = .ok els) (hne : 0 < ne) (i : ℕ) (hi : i < els.length) :
    els[i].idl = idl + (idr' - idl) * (i / ne) ∧ els[i].odl = odl + (odr' - odl) * (i / ne) ∧
    els[i].idr = idl + (idr' - idl) * ((i + 1) / ne) ∧
    els[i].odr = odl + (odr' - odl) * ((i + 1) / ne) := by
  obtain ⟨hL, hlen, hel⟩ := section_elems h hne
  obtain ⟨-, h1, h2, h3, h4, -⟩ := sectionElem_attrs (hel i hi)
  simp only [Option.getD_some] at h1 h2 h3 h4
  have h5 : (ne : ℝ) ≠ 0 := by exact_mod_cast hne.ne'
  rw [h1, h2, h3, h4]
  refine ⟨?_, ?_, ?_, ?_⟩ <;> field_simp <;> ring

/-- **C13** without right diameters the section is cylindrical. -/
theorem C13_cylinder
    (h : ShaftElement.sectionElems L ne idl odl none none material n se ri gy alpha beta = .ok els)
    (hne : 0 < ne) (s : ShaftElement) (hs : s ∈ els) :
    s.idl = idl ∧ s.odl = odl ∧ s.idr = idl ∧ s.odr = odl := by
  obtain ⟨hL, hlen, hel⟩ := section_elems h hne
  obtain ⟨i, hi, rfl⟩ := List.getElem_of_mem hs
  obtain ⟨-, h1, h2, h3, h4, -⟩ := sectionElem_attrs (hel i hi)
  rw [h1, h2, h3, h4]
  simp

/-- **C13** consecutive elements join continuously and the ends are the section's ends. -/
theorem C13_joins {idr' odr' : ℝ}
    (h : ShaftElement.sectionElems L ne idl odl (some idr') (some odr') material n se ri gy alpha
      beta = .ok els) (hne : 0 < ne) :
    (∀ (i : ℕ) (hi : i + 1 < els.length),
      els[i].idr = els[i + 1].idl ∧ els[i].odr = els[i + 1].odl) ∧
    (∃ hf : 0 < els.length, els[0].idl = idl ∧ els[0].odl = odl ∧
      els[els.length - 1].idr = idr' ∧ els[els.length - 1].odr = odr') := by
  have h5 : (ne : ℝ) ≠ 0 := by exact_mod_cast hne.ne'
  have hlen := (section_elems h hne).2.1
  constructor
  · intro i hi
    obtain ⟨-, -, a, b⟩ := C13_taper h hne i (by omega)
    obtain ⟨c, d, -, -⟩ := C13_taper h hne (i + 1) hi
    rw [a, b, c, d]
    push_cast
    exact ⟨rfl, rfl⟩
  · have hf : 0 < els.length := by omega
    refine ⟨hf, ?_⟩
    obtain ⟨a, b, -, -⟩ := C13_taper h hne 0 hf
    obtain ⟨-, -, c, d⟩ := C13_taper h hne (els.length - 1) (by omega)
    have h6 : (((els.length - 1 : ℕ) : ℝ) + 1) / ne = 1 := by
      have : ((els.length - 1 : ℕ) : ℝ) + 1 = (ne : ℝ) := by
        have h7 : (els.length - 1 + 1 : ℕ) = ne.toNat := by omega
        have h8 : ((ne.toNat : ℕ) : ℝ) = (ne : ℝ) := by
          exact_mod_cast Int.toNat_of_nonneg hne.le
        rw [← h8, ← h7]; push_cast; ring
      rw [this, div_self h5]
    rw [a, b, c, d, h6]
    simp

/-- **C13** the volumes of the elements sum to the volume of the unsplit frustum, and so do the
masses. -/
theorem C13_volume
    (h : ShaftElement.sectionElems L ne idl odl (some idr') (some odr') material n se ri gy alpha
      beta = .ok els) (hne : 0 < ne) :
    (els.map (·.volume)).sum
      = ∫ x in (0)..L, π * ((odl + (odr' - odl) * (x / L)) ^ 2
          - (idl + (idr' - idl) * (x / L)) ^ 2) / 4 := by
  obtain ⟨hL, hlen, hel⟩ := section_elems h hne
  have h5 : (ne : ℝ) ≠ 0 := by exact_mod_cast hne.ne'
  set F : ℝ → ℝ := fun t => π * L * ((odl ^ 2 * t + odl * (odr' - odl) * t ^ 2
      + (odr' - odl) ^ 2 * t ^ 3 / 3) - (idl ^ 2 * t + idl * (idr' - idl) * t ^ 2
      + (idr' - idl) ^ 2 * t ^ 3 / 3)) / 4 with hF
  have hv : ∀ (i : ℕ) (hi : i < els.length), els[i].volume
      = F (((i + 1 : ℕ) : ℝ) / ne) - F ((i : ℝ) / ne) := by
    intro i hi
    obtain ⟨a, b, c, d⟩ := C13_taper h hne i hi
    have e := (sectionElem_attrs (hel i hi)).1
    unfold ShaftElement.volume ShaftElement.outer ShaftElement.inner
    rw [a, b, c, d, e]
    simp only [hF]
    push_cast
    field_simp
    ring
  have hsum : (els.map (·.volume)).sum = ∑ i ∈ Finset.range els.length,
      (F (((i + 1 : ℕ) : ℝ) / ne) - F ((i : ℝ) / ne)) := by
    rw [Finset.sum_range, ← Fin.sum_univ_getElem (els.map (·.volume))]
    have : (els.map (·.volume)).length = els.length := List.length_map _
    rw [← Fin.sum_congr' _ this]
    refine Finset.sum_congr rfl fun i _ => ?_
    simp only [List.getElem_map]
    exact hv _ _
  rw [hsum, Finset.sum_range_sub (fun i : ℕ => F ((i : ℝ) / ne))]
  have h7 : ((els.length : ℕ) : ℝ) / ne = 1 := by
    have : ((ne.toNat : ℕ) : ℝ) = (ne : ℝ) := by exact_mod_cast Int.toNat_of_nonneg hne.le
    rw [hlen, this, div_self h5]
  rw [h7]
  have hI : ∀ x, π * ((odl + (odr' - odl) * (x / L)) ^ 2 - (idl + (idr' - idl) * (x / L)) ^ 2) / 4
      = π / 4 * Poly.pe [odl ^ 2 - idl ^ 2, 2 * (odl * (odr' - odl) - idl * (idr' - idl)),
          (odr' - odl) ^ 2 - (idr' - idl) ^ 2] (x / L) := by
    intro x; simp only [Poly.pe]; ring
  simp only [hI]
  rw [Poly.integral_mul_pe_div _ _ _ hL]
  simp only [hF, Poly.pintk]
  push_cast
  ring

/-- **C13** masses: they sum to density times the volume of the unsplit frustum. -/
theorem C13_mass (mat : Material)
    (h : ShaftElement.sectionElems L ne idl odl (some idr') (some odr') (some mat) n se ri gy alpha
      beta = .ok els) (hne : 0 < ne) :
    (els.map (·.m)).sum
      = mat.rho * ∫ x in (0)..L, π * ((odl + (odr' - odl) * (x / L)) ^ 2
          - (idl + (idr' - idl) * (x / L)) ^ 2) / 4 := by
  rw [← C13_volume h hne, ← List.sum_map_mul_left]
  congr 1
  refine List.map_congr_left fun s hs => ?_
  have := ((C13_length h hne).2.1 s hs).2.1
  simp only [Option.some.injEq] at this
  rw [ShaftElement.m, this]

/-- **C13** acceptance: a physically meaningful section is split for every positive number of
elements; a zero number raises, a negative one returns no elements. -/
theorem C13_accepts (mat : Material) {idr' odr' : ℝ} (b : Beam)
    (hb : b = ⟨L, idl, odl, idr', odr', mat.rho, mat.E, mat.G_s, mat.Poisson, 0⟩) (hp : b.Physical) :
    (0 < ne → ∃ els, ShaftElement.sectionElems L ne idl odl (some idr') (some odr') (some mat) n se
      ri gy alpha beta = .ok els) ∧
    ShaftElement.sectionElems L 0 idl odl (some idr') (some odr') (some mat) n se ri gy alpha beta
      = .error .zeroDivisionError ∧
    (ne < 0 → ShaftElement.sectionElems L ne idl odl (some idr') (some odr') (some mat) n se
      ri gy alpha beta = .ok []) := by
  have hL : 0 < L := by have := hp.L_pos; rw [hb] at this; exact this
  refine ⟨?_, ?_, ?_⟩
  · intro hne
    have h5 : (0 : ℝ) < ne := by exact_mod_cast hne
    have key : ∀ i : ℕ, i < ne.toNat → ∃ s, ShaftElement.sectionElem L (L / ne) idl odl idr' odr'
        (some mat) n se ri gy alpha beta i = .ok s := by
      intro i hi
      set s : ShaftElement :=
        { L := L / ne, idl := (idr' - idl) * i * (L / ne) / L + idl,
          odl := (odr' - odl) * i * (L / ne) / L + odl,
          idr := (idr' - idl) * (i + 1) * (L / ne) / L + idl,
          odr := (odr' - odl) * (i + 1) * (L / ne) / L + odl, material := mat, n := n,
          axial_force := 0, torque := 0, shear_effects := se, rotary_inertia := ri,
          gyroscopic := gy, shear_method_calc := "cowper", tag := none, alpha := alpha,
          beta := beta } with hs
      have hiR : (i : ℝ) + 1 ≤ ne := by
        have : ((i + 1 : ℕ) : ℤ) ≤ ne := by omega
        exact_mod_cast this
      have hq : ∀ t : ℝ, 0 ≤ t → t ≤ ne → 0 ≤ (idr' - idl) * t * (L / ne) / L + idl ∧
          (idr' - idl) * t * (L / ne) / L + idl < (odr' - odl) * t * (L / ne) / L + odl := by
        intro t h0 h1
        have h := od_gt_id b hp (L * (t / ne)) (by positivity) (by
          rw [hb]
          have : t / ne ≤ 1 := (div_le_one h5).2 h1
          nlinarith)
        simp only [hb, Beam.id, Beam.od] at h
        have e1 : (idr' - idl) * t * (L / ne) / L + idl
            = idl + (idr' - idl) * (L * (t / ne) / L) := by field_simp; ring
        have e2 : (odr' - odl) * t * (L / ne) / L + odl
            = odl + (odr' - odl) * (L * (t / ne) / L) := by field_simp; ring
        rw [e1, e2]; exact h
      have h0 : (0 : ℝ) ≤ i := Nat.cast_nonneg i
      have ha := hq i h0 (by linarith)
      have hb' := hq (i + 1) (by linarith) hiR
      have hp' : s.beam.Physical := by
        refine ⟨?_, ha.1, ha.2, hb'.1, hb'.2, ?_, ?_, ?_, ?_⟩
        · exact div_pos hL h5
        · have := hp.rho_pos; rw [hb] at this; exact this
        · have := hp.E_pos; rw [hb] at this; exact this
        · have := hp.G_pos; rw [hb] at this; exact this
        · have := hp.nu_gt; rw [hb] at this; exact this
      have f := physical_facts hp' (Or.inr rfl)
      exact ⟨s, facts_init f⟩
    haveI : Nonempty ShaftElement := ⟨exShaft⟩
    choose! g hg using key
    refine ⟨(List.range ne.toNat).map g, ?_⟩
    unfold ShaftElement.sectionElems
    simp only [Option.getD_some]
    rw [if_neg hne.ne', if_neg (by intro h; exact hL.ne' h.2), mapM_ok_iff, List.map_map]
    refine List.map_congr_left fun i hi => ?_
    simpa using hg i (List.mem_range.1 hi)
  · simp [ShaftElement.sectionElems]
  · intro hne
    unfold ShaftElement.sectionElems
    simp only
    rw [if_neg hne.ne, if_neg (by intro h; exact absurd h.1 (by omega))]
    have : ne.toNat = 0 := by omega
    simp [this, pure, Except.pure]

/-- Non-vacuity: a tapered section split in four meets the hypotheses of the theorems above. -/
example : ∃ els, ShaftElement.sectionElems 1 4 0 (1 / 10) (some 0) (some (1 / 5)) (some exMaterial)
    none true true true 0 0 = .ok els ∧ els.length = 4 := by
  obtain ⟨els, h⟩ := (C13_accepts (L := 1) (idl := 0) (odl := 1 / 10) (idr' := 0)
    (odr' := 1 / 5) (ne := 4) (n := none) (se := true) (ri := true) (gy := true)
    (alpha := 0) (beta := 0) exMaterial _ rfl (by
      constructor <;> norm_num [exMaterial])).1 (by norm_num)
  exact ⟨els, h, (C13_length h (by norm_num)).1⟩

end Ross.Props
