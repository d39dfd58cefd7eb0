import Verif.Model.Persist

/-!
# Specification of saving and loading

Which objects the constructors produce, and what it means that a file holds an element.
-/

namespace Ross.Spec

/-- A material that the constructor has returned. -/
def MadeMaterial (m : Material) : Prop :=
  ∃ name rho E G_s Poisson color, Material.init name rho E G_s Poisson color = .ok m

/-- A shaft element that the constructor has returned, for some material that the constructor of
materials has returned. -/
def MadeShaft (s : ShaftElement) : Prop :=
  ∃ L idl odl idr odr material n axial_force torque shear rotary gyro method tag alpha beta,
    MadeMaterial material ∧
    ShaftElement.init L idl odl idr odr (some material) n axial_force torque shear rotary gyro
      method tag alpha beta = .ok s

/-- An element that the constructor of its class has returned. -/
def Constructed (sp : Scipy) : Elm → Prop
  | .shaft e => MadeShaft e.s
  | .disk e => ∃ n m Id Ip tag sf color, DiskElement.init n m Id Ip tag sf color = e.d
  | .brg (.brg false b) => ∃ a, BearingElement.init sp a = .ok b
  | .brg (.brg true b) => ∃ a, Persist.sealInit sp a = .ok b
  | .brg (.brg6 b) => ∃ a kzz czz mzz, BearingElement6DoF.init sp a kzz czz mzz = .ok b
  | .pm (.pm p) => ∃ n m mx my tag color, PointMass.init n m mx my tag color = .ok p
  | .pm (.pm6 p) => ∃ n m mx my mz tag color, PointMass6DoF.init n m mx my mz tag color = .ok p

/-- The name of the class of an element. -/
def classOf : Elm → String
  | .shaft e => if e.six then "ShaftElement6DoF" else "ShaftElement"
  | .disk e => if e.six then "DiskElement6DoF" else "DiskElement"
  | .brg (.brg sl _) => if sl then "SealElement" else "BearingElement"
  | .brg (.brg6 _) => "BearingElement6DoF"
  | .pm (.pm _) => "PointMass"
  | .pm (.pm6 _) => "PointMass6DoF"

/-- Not a seal and not a 6-dof point mass: the classes that come back unchanged. -/
def Faithful : Elm → Prop
  | .brg (.brg sl _) => sl = false
  | .pm (.pm6 _) => False
  | _ => True

/-- A bearing as it comes back from a file: a seal has half its scale factor. -/
noncomputable def halved : BrgEl → BrgEl
  | .brg true b => .brg true { b with scale_factor := b.scale_factor / 2 }
  | b => b

/-- An element as it comes back from a file. -/
noncomputable def reread : Elm → Elm
  | .brg b => .brg (halved b)
  | e => e

/-- Not a 6-dof point mass: the classes that can be saved. -/
def Savable : Elm → Prop
  | .pm (.pm6 _) => False
  | _ => True

/-- All the elements that a rotor is built from. -/
def argElements (a : RotorArgs) : List Elm :=
  (Nest.flattenAll a.shaft).map Elm.shaft ++ a.disks.map Elm.disk ++ a.bearings.map Elm.brg ++
    a.pms.map Elm.pm

end Ross.Spec
