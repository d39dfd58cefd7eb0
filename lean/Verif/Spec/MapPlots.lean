import Verif.Model.Bearing

/-!
# Specification of figures of maps and coefficients
-/

namespace Ross.Spec

/-- What a coefficient of a bearing measures. -/
inductive CoeffKind
  | stiffness
  | damping
  | mass
  deriving DecidableEq

/-- The coefficients of a bearing with their names and kinds. -/
def coefficientTable (b : BearingElement) : List (String × CoeffKind × Coeff) :=
  [("kxx", .stiffness, b.kxx), ("kxy", .stiffness, b.kxy), ("kyx", .stiffness, b.kyx), ("kyy", .stiffness, b.kyy),
    ("cxx", .damping, b.cxx), ("cxy", .damping, b.cxy), ("cyx", .damping, b.cyx), ("cyy", .damping, b.cyy),
    ("mxx", .mass, b.mxx), ("mxy", .mass, b.mxy), ("myx", .mass, b.myx), ("myy", .mass, b.myy)]

/-- The unit for a kind of coefficient. -/
def CoeffKind.unit (us ud um : ℝ) : CoeffKind → ℝ
  | .stiffness => us
  | .damping => ud
  | .mass => um

/-- The points of a curve that is given by its coordinates. -/
def pointsOf (x y : List ℝ) : List (ℝ × ℝ) := x.zip y

end Ross.Spec
