import Verif.Model.Summary
import Verif.Spec.Place
import Verif.Spec.Static

/-! # Specification: what the summary of a rotor says -/

namespace Ross.Spec

open Ross Summary

/-- The rotor's own line. -/
def RotorSays (r : Rotor) (t : Tables) : Prop :=
  t.rotor = ⟨r.tag, 0, shaftEnd r, 0, position r.shaft (shaftEnd r), r.CG, r.Ip, r.m⟩

/-- One line for each shaft element, in order. -/
def ShaftSays (r : Rotor) (t : Tables) : Prop :=
  t.shaft = r.shaft.map fun e => ⟨leftNode e, leftNode e + 1, leftNode e, position r.shaft (leftNode e), e.s.L,
    e.s.beam_cg + position r.shaft (leftNode e), position r.shaft (leftNode e + 1), e.s.material.name, e.s.m, e.s.Im⟩

/-- One line for each disk, with the position of its node. -/
def DisksSay (r : Rotor) (t : Tables) : Prop :=
  t.disks = r.disks.map fun e => ⟨e.d.tag, e.d.n, some (position r.shaft e.d.n), e.d.m, e.d.Ip⟩

/-- The bearings that are not seals. -/
def notSeals (r : Rotor) : List BrgEl := r.bearings.filter fun b => !b.isSeal

/-- One line for each bearing that is not a seal, with a position where it stands. -/
def BearingsSay (r : Rotor) (t : Tables) : Prop :=
  t.bearings.length = (notSeals r).length ∧ ∀ (i : ℕ) b, (notSeals r)[i]? = some b → ∃ k,
    StandsAt r.bearings (shaftEnd r) b k ∧ t.bearings[i]? = some ⟨b.tag, b.n, b.n_link, some (position r.shaft k)⟩

/-- In the line of each bearing on the shaft, the force on its node. -/
def ForcesSay (r : Rotor) (st : StaticResults) (t : Tables) : Prop :=
  ∀ (i : ℕ) b, (notSeals r)[i]? = some b → t.forces[i]? = if b.n ≤ shaftEnd r then some (reactionAt st b.n) else none

end Ross.Spec
