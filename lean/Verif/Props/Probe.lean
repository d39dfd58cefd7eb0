import Verif.Model.Probe

/-! # C35: probes -/

namespace Ross.Props

/-- **C35** a probe exists only as radial with an angle or axial without one. -/
theorem C35_probe_valid {node : ℕ} {angle : Option ℝ} {direction : String} {tag : Option String}
    {p : Probe} (h : Probe.init node angle direction tag = .ok p) :
    ((p.direction = "radial" ∧ ∃ a, p.angle = some a ∧ angle = some a) ∨
     (p.direction = "axial" ∧ p.angle = none)) ∧ p.direction = direction ∧ p.node = node ∧
    p.tag = tag ∧ p.info = (node, p.angle, direction) := by
  unfold Probe.init at h
  split_ifs at h with h1 h2 h3
  · cases h
    exact ⟨Or.inr ⟨h3, rfl⟩, rfl, rfl, rfl, rfl⟩
  · cases h
    push Not at h2
    have hr : direction = "radial" := h1.resolve_right h3
    obtain ⟨a, ha⟩ := Option.ne_none_iff_exists'.1 (h2 hr)
    exact ⟨Or.inl ⟨hr, a, ha, ha⟩, rfl, rfl, rfl, rfl⟩

/-- **C35** exactly the valid requests are accepted; all others raise `ValueError`. -/
theorem C35_probe_accepts (node : ℕ) (angle : Option ℝ) (direction : String)
    (tag : Option String) :
    ((∃ p, Probe.init node angle direction tag = .ok p) ↔
      (direction = "radial" ∧ angle ≠ none) ∨ direction = "axial") ∧
    ((¬ ∃ p, Probe.init node angle direction tag = .ok p) →
      Probe.init node angle direction tag = .error .valueError) := by
  unfold Probe.init
  by_cases hr : direction = "radial"
  · subst hr
    cases angle <;> simp
  · by_cases ha : direction = "axial"
    · subst ha; simp
    · simp [hr, ha]

/-- Non-vacuity. -/
example : (∃ p, Probe.init 3 (some 1) "radial" none = .ok p ∧ p.info = (3, some 1, "radial")) ∧
    (∃ p, Probe.init 3 (some 1) "axial" none = .ok p ∧ p.info = (3, none, "axial")) := by
  refine ⟨?_, ?_⟩
  · obtain ⟨p, hp⟩ := (C35_probe_accepts 3 (some 1) "radial" none).1.2 (Or.inl ⟨rfl, by simp⟩)
    refine ⟨p, hp, ?_⟩
    unfold Probe.init at hp
    simp at hp
    subst hp; rfl
  · obtain ⟨p, hp⟩ := (C35_probe_accepts 3 (some 1) "axial" none).1.2 (Or.inr rfl)
    refine ⟨p, hp, ?_⟩
    unfold Probe.init at hp
    simp at hp
    subst hp; rfl

end Ross.Props
