import Verif.Model.Assembly

/-! # Model of the heat map of a global matrix (`ross/utils.py` 313-434) -/

namespace Ross.MatrixPlot

open Ross

/-- The argument `matrix`; other names of methods of elements are not modelled. -/
inductive Name where
  | M | K | C | G

/-- `getattr(elm, matrix)(frequency)` and, on `TypeError`, `getattr(elm, matrix)()`
(`utils.py` 362-365): only the mass, stiffness and damping of bearings take a frequency.  `frequency`
is a number here; the default `None` is not modelled. -/
noncomputable def elemMatrix (w : Name) (frequency : ℝ) (e : Elm) : Res LMat :=
  match w with
  | .M => e.M frequency
  | .K => e.K frequency
  | .C => e.C frequency
  | .G => e.G

/-- `zip(l_dofs, g_dofs)` (`utils.py` 359-360, 369-370): `dof_local_index()` has the numbers of
`dof_mapping()`, `dof_global_index` also those of the link node; `zip` stops at the shorter one. -/
def pairs (x : Elm × Dict DofKey ℕ) : List (ℕ × ℕ) := x.1.dofMapping.values.zip x.2.values

/-- What one element appends to `E[i, j]` (`utils.py` 369-377): the element, of which the text has the
class and `n`, and the value, of which the text has three digits. -/
noncomputable def listed (mat : Elm → Res LMat) (x : Elm × Dict DofKey ℕ) (i j : ℕ) :
    List (Elm × ℝ) :=
  match mat x.1 with
  | .error _ => []
  | .ok E =>
    (pairs x).flatMap fun a => (pairs x).flatMap fun b =>
      open Classical in
      if a.2 = i ∧ b.2 = j ∧ E.ent a.1 b.1 ≠ 0 then [(x.1, E.ent a.1 b.1)] else []

/-- `E[i, j]` after the loop over the elements (`utils.py` 352-377). -/
noncomputable def contributions (r : Rotor) (mat : Elm → Res LMat) (i j : ℕ) : List (Elm × ℝ) :=
  r.placed.flatMap fun x => listed mat x i j

/-- `dof_list` (`utils.py` 380-384); `none` stands for the `0` of an entry that is never written.  An
index out of range has already raised `IndexError` in the assembly. -/
def dofList (r : Rotor) : List (Option DofKey) :=
  r.placed.foldl (fun l x => x.2.foldl (fun l kv => l.set kv.2 (some kv.1)) l)
    (List.replicate r.ndof none)

/-- The text of a dof (`utils.py` 395-401): the letter and the node, which is shown as a subscript.
`0.replace` raises `AttributeError`. -/
def text : Option DofKey → Res (String × ℕ)
  | none => .error .attributeError
  | some k =>
    .ok (if k.1 = "alpha" then "α" else if k.1 = "beta" then "β" else k.1, k.2)

/-- Does `np.array(cells, dtype=object).reshape(A.shape)` succeed (`utils.py` 411)?  Lists of different
lengths make an array with one object for each cell; lists of the same length make a second axis, which
has to have length 1. -/
def reshapes {α : Type*} (cells : List (List α)) : Bool :=
  match cells with
  | [] => true
  | c :: t => c.length = 1 ∨ t.any fun d => d.length ≠ c.length

/-- The heat map: the texts of the axes, the values and the data shown when the pointer is on a cell. -/
structure HeatMap where
  x : List (String × ℕ)
  y : List (String × ℕ)
  z : List (List ℝ)
  customdata : List (List (List (Elm × ℝ)))

/-- `visualize_matrix` (`utils.py` 313-434), without the scale of colours and the layout. -/
noncomputable def visualize (r : Rotor) (w : Name) (frequency : ℝ) : Res HeatMap := do
  let A ← Rotor.assemble r.ndof (elemMatrix w frequency) r.placed
  let dofs ← (dofList r).mapM text
  let E := (List.range r.ndof).map fun i => (List.range r.ndof).map fun j =>
    contributions r (elemMatrix w frequency) i j
  if reshapes E.flatten then
    pure { x := dofs, y := dofs.reverse,
           z := (List.ofFn fun i => List.ofFn fun j => A i j).reverse,
           customdata := E.reverse }
  else .error .valueError

end Ross.MatrixPlot
