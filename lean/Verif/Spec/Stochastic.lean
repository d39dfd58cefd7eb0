import Verif.Model.Stochastic

/-! # Specification of random elements: samples of a parameter -/

namespace Ross.Spec

open Stochastic Persist

/-- A parameter of a random element: one value, or one value for each of `N` samples. -/
inductive Sample (N : ℕ) (α : Type)
  | fixed (a : α)
  | random (f : Fin N → α)

namespace Sample

variable {N : ℕ} {α : Type}

/-- The value in sample `i`. -/
def draw (i : Fin N) : Sample N α → α
  | fixed a => a
  | random f => f i

/-- Whether there is a value for each sample. -/
def isRandom : Sample N α → Bool
  | fixed _ => false
  | random _ => true

/-- A number, or a list of numbers. -/
def num : Sample N ℝ → SVal
  | fixed a => .val (.num a)
  | random f => .val (.arr (List.ofFn f))

/-- A material, or a list of materials. -/
def mat : Sample N Material → SVal
  | fixed a => .val (.mat a)
  | random f => .mats (List.ofFn f)

end Sample

/-- A material given as such, or as a random material with the given samples. -/
def MatGiven {N : ℕ} (arg : MatArg) : Sample N Material → Prop
  | .fixed m => arg = .one (.val (.mat m))
  | .random f => ∃ e, arg = .st e ∧ materials e = .ok (List.ofFn f)

/-- A parameter that may be left out. -/
def numOpt {N : ℕ} : Option (Sample N ℝ) → SVal
  | none => .val .null
  | some s => s.num

/-- Whether a parameter that may be left out is random. -/
def randomOpt {N : ℕ} : Option (Sample N ℝ) → Bool
  | none => false
  | some s => s.isRandom

/-- `is_random` is not empty, names all parameters that have to be named, and no parameter that is not random. -/
def Declared (is_random : List String) (must may : List (String × Bool)) : Prop :=
  is_random ≠ [] ∧ (∀ k, (k, true) ∈ must → k ∈ is_random) ∧ ∀ k ∈ is_random, (k, true) ∈ may

/-- A bearing coefficient: one value (a number, or numbers for the frequencies), a number for each of `N` samples,
or a table with a row for each of `F` frequencies and a column for each sample. -/
inductive CoefSample (N F : ℕ)
  | fixed (c : Coef)
  | numbers (f : Fin N → ℝ)
  | table (f : Fin F → Fin N → ℝ)

namespace CoefSample

variable {N F : ℕ}

/-- The coefficient in sample `i`. -/
def draw (i : Fin N) : CoefSample N F → Coef
  | fixed c => c
  | numbers f => .scalar (f i)
  | table f => .list (List.ofFn fun j => f j i)

/-- Whether there is a value for each sample. -/
def isRandom : CoefSample N F → Bool
  | fixed _ => false
  | numbers _ => true
  | table _ => true

/-- The argument given for the coefficient. -/
def value : CoefSample N F → SVal
  | fixed (.scalar x) => .val (.num x)
  | fixed (.list l) => .val (.arr l)
  | numbers f => .val (.arr (List.ofFn f))
  | table f => .grid (List.ofFn fun j => List.ofFn (f j))

/-- No table. -/
def Plain : CoefSample N F → Prop
  | table _ => False
  | _ => True

/-- Not a list of numbers for the samples. -/
def Tabular : CoefSample N F → Prop
  | numbers _ => False
  | _ => True

end CoefSample

/-- A coefficient that may be left out. -/
def coefOpt {N F : ℕ} : Option (CoefSample N F) → SVal
  | none => .val .null
  | some s => s.value

/-- Whether a coefficient that may be left out is random. -/
def coefRandom {N F : ℕ} : Option (CoefSample N F) → Bool
  | none => false
  | some s => s.isRandom

/-- The coefficients of a random bearing. -/
structure BrgSample (N F : ℕ) where
  kxx : CoefSample N F
  cxx : CoefSample N F
  mxx : Option (CoefSample N F) := none
  kyy : Option (CoefSample N F) := none
  kxy : CoefSample N F := .fixed (.scalar 0)
  kyx : CoefSample N F := .fixed (.scalar 0)
  cyy : Option (CoefSample N F) := none
  cxy : CoefSample N F := .fixed (.scalar 0)
  cyx : CoefSample N F := .fixed (.scalar 0)
  myy : Option (CoefSample N F) := none
  mxy : CoefSample N F := .fixed (.scalar 0)
  myx : CoefSample N F := .fixed (.scalar 0)

namespace BrgSample

variable {N F : ℕ} (b : BrgSample N F)

/-- The coefficients that are given. -/
def given : List (CoefSample N F) :=
  [b.kxx, b.cxx, b.kxy, b.kyx, b.cxy, b.cyx, b.mxy, b.myx] ++ b.mxx.toList ++ b.kyy.toList ++ b.cyy.toList ++
    b.myy.toList

/-- The random coefficients are lists of `N ≥ 1` numbers, or all of them are tables for `F ≥ 1` frequencies. -/
def Uniform : Prop :=
  (0 < N ∧ ∀ c ∈ b.given, c.Plain) ∨ (0 < F ∧ ∀ c ∈ b.given, c.Tabular)

/-- The coefficients that `is_random` has to name. -/
def must : List (String × Bool) :=
  [("kxx", b.kxx.isRandom), ("cxx", b.cxx.isRandom), ("mxx", coefRandom b.mxx), ("kyy", coefRandom b.kyy),
    ("kxy", b.kxy.isRandom), ("kyx", b.kyx.isRandom), ("cyy", coefRandom b.cyy), ("cxy", b.cxy.isRandom),
    ("cyx", b.cyx.isRandom), ("myy", coefRandom b.myy), ("mxy", b.mxy.isRandom), ("myx", b.myx.isRandom)]

/-- The coefficients that `is_random` may name: coefficients left out are those of the other direction. -/
def may : List (String × Bool) :=
  [("kxx", b.kxx.isRandom), ("cxx", b.cxx.isRandom), ("mxx", coefRandom b.mxx),
    ("kyy", (b.kyy.getD b.kxx).isRandom), ("kxy", b.kxy.isRandom), ("kyx", b.kyx.isRandom),
    ("cyy", (b.cyy.getD b.cxx).isRandom), ("cxy", b.cxy.isRandom), ("cyx", b.cyx.isRandom),
    ("myy", coefRandom (b.myy <|> b.mxx)), ("mxy", b.mxy.isRandom), ("myx", b.myx.isRandom)]

/-- The arguments of the bearing in sample `i`. -/
def args (n : ℕ) (frequency : Option (List ℝ)) (tag : Option String) (n_link : Option ℕ) (scale_factor : ℝ)
    (i : Fin N) : BearingArgs :=
  { n := n, kxx := b.kxx.draw i, cxx := b.cxx.draw i, mxx := b.mxx.map (·.draw i), kyy := b.kyy.map (·.draw i),
    kxy := b.kxy.draw i, kyx := b.kyx.draw i, cyy := b.cyy.map (·.draw i), cxy := b.cxy.draw i,
    cyx := b.cyx.draw i, myy := b.myy.map (·.draw i), mxy := b.mxy.draw i, myx := b.myx.draw i,
    frequency := frequency, tag := tag, n_link := n_link, scale_factor := scale_factor }

end BrgSample

end Ross.Spec
