import Verif.Model.Shaft

/-! # Model of `ShaftElement.section` (`ross/shaft_element.py` 1115-1217) -/

namespace Ross.ShaftElement

/-- The `i`-th element built by the comprehension (`shaft_element.py` 1198-1213): the constructor
defaults apply to `axial_force`, `torque`, `shear_method_calc` and `tag`, which `section` does not
forward. -/
noncomputable def sectionElem (L le s_idl s_odl s_idr s_odr : ℝ) (material : Option Material)
    (n : Option ℕ) (shear_effects rotary_inertia gyroscopic : Bool) (alpha beta : ℝ) (i : ℕ) :
    Res ShaftElement :=
  init le ((s_idr - s_idl) * i * le / L + s_idl) ((s_odr - s_odl) * i * le / L + s_odl)
    (some ((s_idr - s_idl) * (i + 1) * le / L + s_idl))
    (some ((s_odr - s_odl) * (i + 1) * le / L + s_odl))
    material n 0 0 shear_effects rotary_inertia gyroscopic "cowper" none alpha beta

open Classical in
/-- `ShaftElement.section` (`shaft_element.py` 1189-1217).  `ne` is a Python integer; `range(ne)` is
empty for negative values.  `L / ne` and `… / L` raise `ZeroDivisionError`. -/
noncomputable def sectionElems (L : ℝ) (ne : ℤ) (s_idl s_odl : ℝ) (s_idr s_odr : Option ℝ)
    (material : Option Material) (n : Option ℕ) (shear_effects rotary_inertia gyroscopic : Bool)
    (alpha beta : ℝ) : Res (List ShaftElement) :=
  -- 1189-1192
  let s_idr := s_idr.getD s_idl
  let s_odr := s_odr.getD s_odl
  -- 1194
  if ne = 0 then .error .zeroDivisionError
  else
    let le := L / ne
    if 0 < ne ∧ L = 0 then .error .zeroDivisionError
    else (List.range ne.toNat).mapM
      (sectionElem L le s_idl s_odl s_idr s_odr material n shear_effects rotary_inertia gyroscopic
        alpha beta)

end Ross.ShaftElement
