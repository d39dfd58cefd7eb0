import Mathlib.Data.Real.Basic

/-! # Specification: materials

Written without reference to the model: what isotropic elasticity asks of the constants, and
what a library of materials means as a map over its history. -/

namespace Ross.Spec

/-- The isotropic elasticity relation between Young's modulus, shear modulus and Poisson ratio. -/
def ElasticConsistent (E G ν : ℝ) : Prop := E = 2 * G * (1 + ν)

/-- Calls that change a name-indexed library. -/
inductive LibEvent (α : Type*)
  | put (name : String) (a : α)
  | drop (name : String)
  | read

/-- What a name denotes after a history (newest event first): the last `put` under that name,
unless it was dropped afterwards; what it denoted initially if the history never mentions it. -/
def denotes {α : Type*} (initial : String → Option α) : List (LibEvent α) → String → Option α
  | [], k => initial k
  | .put n a :: h, k => if n = k then some a else denotes initial h k
  | .drop n :: h, k => if n = k then none else denotes initial h k
  | .read :: h, k => denotes initial h k

end Ross.Spec
