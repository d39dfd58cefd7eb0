import Verif.Props.ShaftMatrices

/-! # Helper lemmas: 4-dof and 6-dof coefficients of the shaft element -/

namespace Ross

open Matrix

namespace Shaft6Lemmas

/-- Bending dofs `x, y, α, β` of both nodes inside the 12 dofs `x, y, z, α, β, θ` of both nodes. -/
def bend : Fin 8 → Fin 12 := ![0, 1, 3, 4, 6, 7, 9, 10]

theorem m1_eq (s : ShaftElement) : s.m1₆ = s.m1 := by
  unfold ShaftElement.m1₆ ShaftElement.m1; ring

theorem m3_eq (s : ShaftElement) : s.m3₆ = s.m3 := by
  unfold ShaftElement.m3₆ ShaftElement.m3; ring

theorem m8_eq (s : ShaftElement) : s.m8₆ = s.m8 := by
  unfold ShaftElement.m8₆ ShaftElement.m8; ring

theorem m2_eq (s : ShaftElement) : s.m2₆ = s.L * s.m2 := by
  unfold ShaftElement.m2₆ ShaftElement.m2; ring

theorem m4_eq (s : ShaftElement) : s.m4₆ = s.L * s.m4 := by
  unfold ShaftElement.m4₆ ShaftElement.m4; ring

theorem m6_eq (s : ShaftElement) : s.m6₆ = s.L * s.m6 := by
  unfold ShaftElement.m6₆ ShaftElement.m6; ring

theorem m9_eq (s : ShaftElement) : s.m9₆ = s.L * s.m9 := by
  unfold ShaftElement.m9₆ ShaftElement.m9; ring

theorem m5_eq (s : ShaftElement) : s.m5₆ = s.L ^ 2 * s.m5 := by
  unfold ShaftElement.m5₆ ShaftElement.m5; ring

theorem m7_eq (s : ShaftElement) : s.m7₆ = s.L ^ 2 * s.m7 := by
  unfold ShaftElement.m7₆ ShaftElement.m7; ring

theorem m10_eq (s : ShaftElement) : s.m10₆ = s.L ^ 2 * s.m10 := by
  unfold ShaftElement.m10₆ ShaftElement.m10; ring

theorem m11_eq (s : ShaftElement) : s.m11₆ = s.m11 := by
  unfold ShaftElement.m11₆ ShaftElement.m11; ring

theorem m12_eq (s : ShaftElement) : s.m12₆ = s.L * s.m12 := by
  unfold ShaftElement.m12₆ ShaftElement.m12; ring

theorem m13_eq (s : ShaftElement) : s.m13₆ = s.L * s.m13 := by
  unfold ShaftElement.m13₆ ShaftElement.m13; ring

theorem m14_eq (s : ShaftElement) : s.m14₆ = s.L ^ 2 * s.m14 := by
  unfold ShaftElement.m14₆ ShaftElement.m14; ring

theorem m15_eq (s : ShaftElement) : s.m15₆ = s.L ^ 2 * s.m15 := by
  unfold ShaftElement.m15₆ ShaftElement.m15; ring

theorem m16_eq (s : ShaftElement) : s.m16₆ = s.L ^ 2 * s.m16 := by
  unfold ShaftElement.m16₆ ShaftElement.m16; ring

theorem k1_eq (s : ShaftElement) : s.k1₆ = s.k1 := by
  unfold ShaftElement.k1₆ ShaftElement.k1; ring

theorem k2_eq (s : ShaftElement) : s.k2₆ = s.L * s.k2 := by
  unfold ShaftElement.k2₆ ShaftElement.k2; ring

theorem k3_eq (s : ShaftElement) : s.k3₆ = s.L * s.k3 := by
  unfold ShaftElement.k3₆ ShaftElement.k3; ring

theorem k4_eq (s : ShaftElement) : s.k4₆ = s.L ^ 2 * s.k4 := by
  unfold ShaftElement.k4₆ ShaftElement.k4; ring

theorem k5_eq (s : ShaftElement) : s.k5₆ = s.L ^ 2 * s.k5 := by
  unfold ShaftElement.k5₆ ShaftElement.k5; ring

theorem k6_eq (s : ShaftElement) : s.k6₆ = s.L ^ 2 * s.k6 := by
  unfold ShaftElement.k6₆ ShaftElement.k6; ring

theorem k7_eq (s : ShaftElement) : s.k7₆ = s.k7 := by
  unfold ShaftElement.k7₆ ShaftElement.k7; ring

theorem k8_eq (s : ShaftElement) : s.k8₆ = s.L * s.k8 := by
  unfold ShaftElement.k8₆ ShaftElement.k8; ring

theorem k9_eq (s : ShaftElement) : s.k9₆ = s.L ^ 2 * s.k9 := by
  unfold ShaftElement.k9₆ ShaftElement.k9; ring

theorem k10_eq (s : ShaftElement) : s.k10₆ = s.k10 := by
  unfold ShaftElement.k10₆ ShaftElement.k10; ring

theorem k11_eq (s : ShaftElement) : s.k11₆ = s.k11 := by
  unfold ShaftElement.k11₆ ShaftElement.k11; ring

theorem k12_eq (s : ShaftElement) : s.k12₆ = s.k12 := by
  unfold ShaftElement.k12₆ ShaftElement.k12; ring

theorem k13_eq (s : ShaftElement) : s.k13₆ = s.k13 := by
  unfold ShaftElement.k13₆ ShaftElement.k13; ring

theorem g1_eq (s : ShaftElement) : s.g1₆ = s.g1 := by
  unfold ShaftElement.g1₆ ShaftElement.g1; ring

theorem g2_eq (s : ShaftElement) : s.g2₆ = s.L * s.g2 := by
  unfold ShaftElement.g2₆ ShaftElement.g2; ring

theorem g3_eq (s : ShaftElement) : s.g3₆ = s.L * s.g3 := by
  unfold ShaftElement.g3₆ ShaftElement.g3; ring

theorem g4_eq (s : ShaftElement) : s.g4₆ = s.L ^ 2 * s.g4 := by
  unfold ShaftElement.g4₆ ShaftElement.g4; ring

theorem g6_eq (s : ShaftElement) : s.g6₆ = s.L ^ 2 * s.g6 := by
  unfold ShaftElement.g6₆ ShaftElement.g6; ring

theorem Mt_bend (s : ShaftElement) : s.Mt₆.submatrix bend bend = s.Mt := by
  ext i j
  fin_cases i <;> fin_cases j <;>
    simp [ShaftElement.Mt₆, ShaftElement.Mt, bend, m1_eq, m2_eq, m3_eq, m4_eq, m5_eq, m6_eq, m7_eq, m8_eq, m9_eq, m10_eq]

theorem Mr_bend (s : ShaftElement) : s.Mr₆.submatrix bend bend = s.Mr := by
  ext i j
  fin_cases i <;> fin_cases j <;>
    simp [ShaftElement.Mr₆, ShaftElement.Mr, bend, m11_eq, m12_eq, m13_eq, m14_eq, m15_eq, m16_eq]

theorem K1_bend (s : ShaftElement) : s.K1₆.submatrix bend bend = s.K1 := by
  ext i j
  fin_cases i <;> fin_cases j <;>
    simp [ShaftElement.K1₆, ShaftElement.K1, bend, k1_eq, k2_eq, k3_eq, k4_eq, k5_eq, k6_eq]

theorem K2_bend (s : ShaftElement) : s.K2₆.submatrix bend bend = s.K2 := by
  ext i j
  fin_cases i <;> fin_cases j <;>
    simp [ShaftElement.K2₆, ShaftElement.K2, bend, k7_eq, k8_eq, k9_eq]

theorem Kaf_bend (s : ShaftElement) : s.Kaf₆.submatrix bend bend = s.Kaxial := by
  ext i j
  fin_cases i <;> fin_cases j <;>
    simp [ShaftElement.Kaf₆, ShaftElement.Kaxial, bend, k10_eq, k11_eq, k12_eq, k13_eq]

theorem Ktq_bend (s : ShaftElement) : s.Ktq₆.submatrix bend bend = s.Ktorque := by
  ext i j
  fin_cases i <;> fin_cases j <;>
    simp [ShaftElement.Ktq₆, ShaftElement.Ktorque, bend]

theorem Glit_bend (s : ShaftElement) (h : s.g5₆ = s.L ^ 2 * s.g5) :
    s.Glit₆.submatrix bend bend = s.Glit := by
  ext i j
  fin_cases i <;> fin_cases j <;>
    simp [ShaftElement.Glit₆, ShaftElement.Glit, bend, g1_eq, g2_eq, g3_eq, g4_eq, g6_eq, h]

end Shaft6Lemmas

end Ross
