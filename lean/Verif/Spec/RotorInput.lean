import Verif.Model.Rotor

/-! # Specification: well-formed arguments of `Rotor(...)` -/

namespace Ross.Spec

open Ross

/-- The shaft elements of the (nested) argument list, in order. -/
def shaftList (a : RotorArgs) : List ShaftEl := Nest.flattenAll a.shaft

/-- The left node of the `i`-th shaft element: the one it was given, or its place in the list. -/
def givenNodes (a : RotorArgs) : List ℕ := (shaftList a).mapIdx fun i e => e.s.n.getD i

/-- The tag of the `i`-th element of a list: the one it was given, or a default one. -/
def tagOr (kind : String) (i : ℕ) (t : Option String) : String := t.getD (kind ++ toString i)

/-- The tags of all elements. -/
def allTags (a : RotorArgs) : List String :=
  ((shaftList a).mapIdx fun i e => tagOr "ShaftElement " i e.s.tag) ++
  (a.disks.mapIdx fun i e => tagOr "Disk " i e.d.tag) ++
  (a.bearings.mapIdx fun i b => tagOr (if b.isSeal then "Seal " else "Bearing ") i b.tag) ++
  (a.pms.mapIdx fun i p => tagOr "Point Mass " i p.tag)

/-- A bearing with the dofs of a rotor made of 4-dof (`six = false`) or 6-dof elements. -/
def BrgSix (six : Bool) : BrgEl → Prop
  | .brg _ _ => six = false
  | .brg6 _ => six = true

/-- A rotor description with nothing unusual in it: the shaft elements fill the nodes `0, …, N`
without gaps and have positive lengths, all elements have the same dofs, disks sit on the shaft, no
two bearings share a node, a bearing beyond the shaft stands on a point mass and is linked to by
bearings of lower nodes only, every point mass carries a bearing, and tags are distinct. -/
structure WellFormed (six : Bool) (N : ℕ) (a : RotorArgs) : Prop where
  pos : 0 < N
  nodes : ∀ k, k ∈ givenNodes a ↔ k < N
  len : ∀ e ∈ shaftList a, 0 < e.s.L
  shaft_six : ∀ e ∈ shaftList a, e.six = six
  disk_six : ∀ e ∈ a.disks, e.six = six
  brg_six : ∀ b ∈ a.bearings, BrgSix six b
  disk_on : ∀ e ∈ a.disks, e.d.n ≤ N
  brg_nodes : (a.bearings.map BrgEl.n).Nodup
  brg_on : ∀ b ∈ a.bearings, b.n ≤ N ∨ ∃ p ∈ a.pms, p.n = some b.n
  brg_linked : ∀ b ∈ a.bearings, N < b.n → ∃ c ∈ a.bearings, c.n_link = some b.n
  brg_order : ∀ b ∈ a.bearings, ∀ c ∈ a.bearings, N < b.n → c.n_link = some b.n → c.n < b.n
  pm_on : ∀ p ∈ a.pms, ∃ b ∈ a.bearings, p.n = some b.n
  tags : (allTags a).Nodup

/-- What is assumed about `df.sort_values(by="n_l")`: no row is lost, added or changed. -/
def SortsRows (pd : Pandas) : Prop := ∀ l, (pd.sortByNl l).Perm l

/-- Every shaft element has a node and every element a tag. -/
structure Labelled (a : RotorArgs) : Prop where
  node : ∀ e ∈ shaftList a, e.s.n.isSome
  shaft : ∀ e ∈ shaftList a, e.s.tag.isSome
  disk : ∀ e ∈ a.disks, e.d.tag.isSome
  brg : ∀ b ∈ a.bearings, b.tag.isSome
  pm : ∀ p ∈ a.pms, p.tag.isSome

/-- The same elements in another order. -/
structure Reordered (a a' : RotorArgs) : Prop where
  shaft : (shaftList a).Perm (shaftList a')
  disk : a.disks.Perm a'.disks
  brg : a.bearings.Perm a'.bearings
  pm : a.pms.Perm a'.pms

/-- A nonempty shaft, and disks and bearings of the same kind (4 or 6 dofs per node). -/
structure SameDofs (six : Bool) (a : RotorArgs) : Prop where
  ne : shaftList a ≠ []
  shaft : ∀ e ∈ shaftList a, e.six = six
  disk : ∀ e ∈ a.disks, e.six = six
  brg : ∀ b ∈ a.bearings, BrgSix six b

/-- Everything but the bearings is placed well: the shaft elements fill the nodes `0, …, N`, disks
sit on them and point masses have nodes. -/
structure PlacedWell (N : ℕ) (a : RotorArgs) : Prop where
  nodes : ∀ k, k ∈ givenNodes a ↔ k < N
  disk_on : ∀ e ∈ a.disks, e.d.n ≤ N
  pm_node : ∀ p ∈ a.pms, p.n.isSome

end Ross.Spec
