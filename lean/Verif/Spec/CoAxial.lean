import Verif.Model.CoAxial

/-! # Specification: descriptions of coaxial rotors -/

namespace Ross.Spec.CoAxial

open Ross

/-- All elements of the description. -/
def elements (a : CoAxial.Args) : List Elm :=
  a.shafts.flatten.map .shaft ++ a.disks.map .disk ++ a.bearings.map .brg ++ a.pms.map .pm

/-- The element sits on node `n`, or is linked to it.  (A point mass alone connects nothing.) -/
def touches (n : ℕ) : Elm → Prop
  | .shaft e => e.s.n = some n ∨ ∃ k, e.s.n = some k ∧ k + 1 = n
  | .disk e => e.d.n = n
  | .brg b => b.n = n ∨ b.n_link = some n
  | .pm _ => False

/-- Another element touches the node of `e`. -/
def Connected (l : List Elm) (e : Elm) : Prop :=
  ∃ n, e.n = some n ∧ ∃ e' ∈ l, e'.tag ≠ e.tag ∧ touches n e'

/-- Is it a shaft element? -/
def IsShaft : Elm → Prop
  | .shaft _ => True
  | _ => False

/-- Shaft elements with nodes, everything with distinct tags, 4 dofs per node, no empty shaft, some
bearing that is not a seal, nothing beyond the shafts and point masses. -/
structure Fine (a : CoAxial.Args) : Prop where
  ne : a.shafts ≠ []
  shafts : ∀ l ∈ a.shafts, l ≠ []
  node : ∀ l ∈ a.shafts, ∀ e ∈ l, e.s.n.isSome
  shaft_tag : ∀ l ∈ a.shafts, ∀ e ∈ l, e.s.tag.isSome
  disk_tag : ∀ e ∈ a.disks, e.d.tag.isSome
  brg_tag : ∀ b ∈ a.bearings, b.tag.isSome
  pm_tag : ∀ p ∈ a.pms, p.tag.isSome
  tags : ((elements a).map Elm.tag).Nodup
  shaft_four : ∀ l ∈ a.shafts, ∀ e ∈ l, e.six = false
  disk_four : ∀ e ∈ a.disks, e.six = false
  brg_four : ∀ b ∈ a.bearings, ∃ s c, b = .brg s c
  bearing : ∃ b ∈ a.bearings, b.isSeal = false
  pm_node : ∀ p ∈ a.pms, p.n.isSome
  inside : ∀ e ∈ elements a, ∀ n, e.n = some n →
    (∃ l ∈ a.shafts, ∃ x ∈ l, ∃ k, x.s.n = some k ∧ n ≤ k + 1) ∨ ∃ p ∈ a.pms, ∃ k, p.n = some k ∧ n ≤ k

end Ross.Spec.CoAxial
