import Mathlib.Data.List.Basic
import Mathlib.Data.List.Nodup

/-!
# Python-side basics

Exceptions as values and insertion-ordered dictionaries.
-/

namespace Ross

/-- The Python exception classes that the modelled code can raise. -/
inductive PyErr
  | valueError
  | typeError
  | keyError
  | indexError
  | attributeError
  | zeroDivisionError
  | nameError
  | warning
  | exception
  | linAlgError
  deriving DecidableEq, Repr

/-- A Python computation that returns a value or raises. -/
abbrev Res (α : Type*) := Except PyErr α

/-- A Python `dict` (and a TOML table): an insertion-ordered association list. -/
abbrev Dict (κ : Type*) (α : Type*) := List (κ × α)

namespace Dict

variable {κ α : Type*} [DecidableEq κ]

/-- `d.get(k)`. -/
def get? (d : Dict κ α) (k : κ) : Option α :=
  match d with
  | [] => none
  | (k', v) :: t => if k' = k then some v else get? t k

/-- `d[k] = v`: replaces in place when the key exists, appends otherwise. -/
def set (d : Dict κ α) (k : κ) (v : α) : Dict κ α :=
  match d with
  | [] => [(k, v)]
  | (k', v') :: t => if k' = k then (k', v) :: t else (k', v') :: set t k v

/-- `del d[k]` on a present key (an absent key leaves the list unchanged; callers test
presence first because Python raises `KeyError`). -/
def del (d : Dict κ α) (k : κ) : Dict κ α :=
  match d with
  | [] => []
  | (k', v') :: t => if k' = k then t else (k', v') :: del t k

/-- `list(d.keys())`. -/
def keys (d : Dict κ α) : List κ := d.map Prod.fst

/-- `list(d.values())`. -/
def values (d : Dict κ α) : List α := d.map Prod.snd

end Dict

end Ross
