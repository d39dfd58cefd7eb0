import Verif.Lemmas.ExRotor
import Verif.Lemmas.Work
import Verif.Props.RotorDofs

/-! # The elements of the example rotor -/

namespace Ross.RotorLemmas

open Ross Ross.Spec Ross.Props Ross.Rotor Ross.AssemblyLemmas Ross.ShaftLemmas

/-- What is known about the elements of the example rotor. -/
structure ExFacts (r : Rotor) : Prop where
  init : Rotor.init exPandas 10 exArgs = some (.ok r)
  nd : r.number_dof = 4
  stop : shaftEnd r = 2
  one : r.pms.length = 1
  full : Full r.shaft 2
  shaft : ∀ e ∈ r.shaft, ∃ k < 2, ∃ t, e = ⟨false, { exShaft with n := some k, tag := t }⟩
  disks : r.disks = [⟨false, ⟨1, 30, 1, 2, some "impeller", 1, ""⟩⟩]
  brgs : ∀ b ∈ r.bearings, ∃ t, b = .brg false { exBrg 3 none 1e7 10 with tag := t } ∨
    b = .brg false { exBrg 0 (some 3) 1e6 100 with tag := t } ∨
    b = .brg true { exBrg 2 none 1e6 100 with tag := t }
  pms : r.pms = [.pm ⟨some 3, some 10, 10, 10, some "Point Mass 0", ""⟩]
  fits : ∀ e ∈ r.elements, Fits r.number_dof e

theorem exRotor_facts : ∃ r, ExFacts r := by
  obtain ⟨r, h1, h2, h4⟩ := exRotor_exists
  have hb := init_ok h1
  have hpm : r.pms = [.pm ⟨some 3, some 10, 10, 10, some "Point Mass 0", ""⟩] := by
    rw [hb.pms]
    rfl
  refine ⟨r, h1, h2, ?_, ?_, h4, ?_, ?_, ?_, hpm, ?_⟩
  · rw [shaftEnd_eq h1, lastShaftNode_full h4]
  · rw [hpm]; rfl
  · intro e he
    rw [hb.shaft] at he
    have := (parts_sh_perm exArgs).mem_iff.1 he
    simp only [parts, numberShaft, exArgs, Nest.flattenAll, Nest.flatten, List.append_nil,
      List.cons_append, List.nil_append, List.mapIdx_cons, List.mapIdx_nil, List.mem_cons,
      List.not_mem_nil, or_false] at this
    rcases this with rfl | rfl
    · exact ⟨0, by norm_num, _, rfl⟩
    · exact ⟨1, by norm_num, _, rfl⟩
  · rw [hb.disks]
    simp [parts, tagDisks, exArgs, defTag]
  · intro b hbm
    rw [hb.bearings] at hbm
    have := (parts_br_perm exArgs).mem_iff.1 hbm
    simp only [tagBearings, exArgs, List.mapIdx_cons, List.mapIdx_nil, List.mem_cons,
      List.not_mem_nil, or_false] at this
    rcases this with rfl | rfl | rfl
    · exact ⟨_, Or.inl rfl⟩
    · exact ⟨_, Or.inr (Or.inl rfl)⟩
    · exact ⟨_, Or.inr (Or.inr rfl)⟩
  · intro e he
    rcases (mem_elements hb e).1 he with ⟨s, hs, h⟩ | ⟨s, hs, h⟩ | ⟨s, hs, h⟩ | ⟨p, hp, h⟩
    · rw [h]; trivial
    · rw [h]; trivial
    · rw [h]; trivial
    · rw [hpm, List.mem_singleton] at hp
      rw [h, hp]; trivial

theorem exFacts_range {r : Rotor} (f : ExFacts r) : ∀ e ∈ r.elements, InRange r e ∧ NotSelfLinked e := by
  intro e he
  unfold InRange
  rw [f.stop, f.one, f.nd]
  rcases (mem_elements (init_ok f.init) e).1 he with ⟨s, hs, h⟩ | ⟨s, hs, h⟩ | ⟨s, hs, h⟩ | ⟨p, hp, h⟩
  · obtain ⟨k, hk, t, rfl⟩ := f.shaft s hs
    subst h
    refine ⟨fun key hkey => ?_, trivial⟩
    simp [attach, Elm.n, nodeLetters, dofsAt] at hkey
    rcases hkey with h | h | h | h | h | h | h | h <;> subst h <;> simp <;> omega
  · rw [f.disks, List.mem_singleton] at hs
    subst h; subst hs
    refine ⟨fun key hkey => ?_, trivial⟩
    simp [attach, Elm.n, nodeLetters, dofsAt] at hkey
    rcases hkey with h | h | h | h <;> subst h <;> simp
  · obtain ⟨t, hb⟩ := f.brgs s hs
    subst h
    rcases hb with rfl | rfl | rfl
    · refine ⟨fun key hkey => ?_, ?_⟩
      · simp [attach, Elm.n, supportLetters, dofsAt, exBrg, BrgEl.n_link, BrgEl.n, BrgEl.base] at hkey
        rcases hkey with h | h <;> subst h <;> simp
      · simp [NotSelfLinked, exBrg, BrgEl.n_link, BrgEl.n, BrgEl.base]
    · refine ⟨fun key hkey => ?_, ?_⟩
      · simp [attach, Elm.n, supportLetters, dofsAt, exBrg, BrgEl.n_link, BrgEl.n, BrgEl.base] at hkey
        rcases hkey with h | h | h | h <;> subst h <;> simp
      · simp [NotSelfLinked, exBrg, BrgEl.n_link, BrgEl.n, BrgEl.base]
    · refine ⟨fun key hkey => ?_, ?_⟩
      · simp [attach, Elm.n, supportLetters, dofsAt, exBrg, BrgEl.n_link, BrgEl.n, BrgEl.base] at hkey
        rcases hkey with h | h <;> subst h <;> simp
      · simp [NotSelfLinked, exBrg, BrgEl.n_link, BrgEl.n, BrgEl.base]
  · rw [f.pms, List.mem_singleton] at hp
    subst h; subst hp
    refine ⟨fun key hkey => ?_, trivial⟩
    simp [attach, Elm.n, PmEl.n, dofsAt] at hkey
    rcases hkey with h | h <;> subst h <;> simp

theorem exFacts_matrices {r : Rotor} (f : ExFacts r) (ω : ℝ) : ∀ e ∈ r.elements,
    (∃ E, e.M ω = .ok E) ∧ (∃ E, e.K ω = .ok E) ∧ (∃ E, e.C ω = .ok E) ∧ ∃ E, e.G = .ok E := by
  intro e he
  rcases (mem_elements (init_ok f.init) e).1 he with ⟨s, hs, h⟩ | ⟨s, hs, h⟩ | ⟨s, hs, h⟩ | ⟨p, hp, h⟩
  · obtain ⟨k, hk, t, rfl⟩ := f.shaft s hs
    subst h
    exact ⟨⟨_, rfl⟩, ⟨_, rfl⟩, ⟨_, rfl⟩, ⟨_, rfl⟩⟩
  · rw [f.disks, List.mem_singleton] at hs
    subst h; subst hs
    exact ⟨⟨_, rfl⟩, ⟨_, rfl⟩, ⟨_, rfl⟩, ⟨_, rfl⟩⟩
  · obtain ⟨t, hb⟩ := f.brgs s hs
    subst h
    rcases hb with rfl | rfl | rfl <;>
      exact ⟨⟨_, rfl⟩, ⟨_, rfl⟩, ⟨_, rfl⟩, ⟨_, rfl⟩⟩
  · rw [f.pms, List.mem_singleton] at hp
    subst h; subst hp
    exact ⟨⟨_, rfl⟩, ⟨_, rfl⟩, ⟨_, rfl⟩, ⟨_, rfl⟩⟩

theorem exFacts_shaft {r : Rotor} (f : ExFacts r) : ∀ e ∈ r.shaft, e.s.beam.Physical ∧ e.s.Built := by
  intro e he
  obtain ⟨k, hk, t, rfl⟩ := f.shaft e he
  exact ⟨exShaft_physical, facts_built (physical_facts exShaft_physical (Or.inr rfl))⟩

end Ross.RotorLemmas
