import Verif.Model.StRotor
import Verif.Spec.Stochastic

/-! # Specification of random rotors -/

namespace Ross.Spec

open Stochastic

/-- The elements that an item gives for `N` samples: an element is the same in every sample, and a random element
gives `N` elements. -/
def Gives {α : Type} (draw : StElement → Res (List α)) (N : ℕ) : Item α → (Fin N → α) → Prop
  | .el a, f => f = fun _ => a
  | .st e, f => draw e = .ok (List.ofFn f)
  | .list _, _ => False

/-- The elements of a random rotor in every sample. -/
structure Elements (N : ℕ) where
  shaft : List (Fin N → ShaftEl)
  disks : List (Fin N → DiskEl)
  bearings : List (Fin N → BrgEl)
  pms : List (Fin N → PmEl)

/-- There is a random element among the arguments. -/
def SomeRandom (a : StArgs) : Prop :=
  ∃ e, .st e ∈ a.shaft ∨ .st e ∈ a.disks ∨ .st e ∈ a.bearings ∨ .st e ∈ a.pms

/-- The arguments have `N` samples, and the elements are those given. -/
structure SampledArgs (sp : Scipy) {N : ℕ} (a : StArgs) (s : Elements N) : Prop where
  shaft : List.Forall₂ (Gives drawShafts N) a.shaft s.shaft
  disks : List.Forall₂ (Gives drawDisks N) a.disks s.disks
  bearings : List.Forall₂ (Gives (drawBearings sp) N) a.bearings s.bearings
  pms : List.Forall₂ (Gives drawPms N) a.pms s.pms
  random : SomeRandom a

/-- The arguments of the rotor in sample `i`. -/
def Elements.args {N : ℕ} (s : Elements N) (a : StArgs) (i : Fin N) : RotorArgs :=
  { shaft := s.shaft.map fun f => .el (f i), disks := s.disks.map (· i), bearings := s.bearings.map (· i),
    pms := s.pms.map (· i), min_w := a.min_w, max_w := a.max_w, rated_w := a.rated_w, tag := a.tag }

/-- The disk of a rotor has the node, mass and inertias of the disk drawn. -/
structure SameDisk (d : DiskObj) (x : DiskEl) : Prop where
  six : x.six = false
  node : x.d.n = d.n
  mass : x.d.m = d.m
  diametral : x.d.Id = d.Id
  polar : x.d.Ip = d.Ip

/-- Magnitude or phase of the unbalance: a number, or a number for each of `N` samples. -/
def Sample.unb {N : ℕ} : Sample N ℝ → UVal
  | .fixed x => .num x
  | .random f => .list (List.ofFn f)

end Ross.Spec
