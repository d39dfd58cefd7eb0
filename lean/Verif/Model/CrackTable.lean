import Verif.Model.Crack

/-! # The table `tools/data/PAPADOPOULOS.csv`

The coefficients that `ross/faults/crack.py` reads: pairs of a coefficient and a depth (in radii). -/

namespace Ross

/-- The column `c44` of `tools/data/PAPADOPOULOS.csv`. -/
def papadopoulos_c44 : List (ℚ × ℚ) :=
  [(1.37749e-07, 0.01), (1.5539e-06, 0.02), (6.404919999999999e-06, 0.03), (1.74829e-05, 0.04),
   (3.80767e-05, 0.05), (7.18951e-05, 0.06), (0.000123017, 0.07), (0.000195854, 0.08), (0.000295129, 0.09),
   (0.000425851, 0.1), (0.0005933, 0.11), (0.000803022, 0.12), (0.00106081, 0.13), (0.00137272, 0.14),
   (0.00174502, 0.15), (0.00218425, 0.16), (0.00269719, 0.17), (0.00329083, 0.18), (0.00397245, 0.19),
   (0.00474954, 0.2), (0.00562988, 0.21), (0.00662149, 0.22), (0.00773266, 0.23), (0.00897197, 0.24),
   (0.0103483, 0.25), (0.0118708, 0.26), (0.0135489, 0.27), (0.0153925, 0.28), (0.0174116, 0.29),
   (0.019617, 0.3), (0.0220193, 0.31), (0.02463, 0.32), (0.0274607, 0.33), (0.0305236, 0.34),
   (0.0338313, 0.35), (0.037397, 0.36), (0.0412343, 0.37), (0.0453575, 0.38), (0.0497814, 0.39),
   (0.0545213, 0.4), (0.0595934, 0.41), (0.0650144, 0.42), (0.070802, 0.43), (0.0769744, 0.44),
   (0.0835508, 0.45), (0.0905513, 0.46), (0.0979969, 0.47), (0.10591, 0.48), (0.114313, 0.49),
   (0.12323, 0.5), (0.132687, 0.51), (0.142711, 0.52), (0.15333, 0.53), (0.164573, 0.54), (0.176472, 0.55),
   (0.189059, 0.56), (0.202368, 0.57), (0.216438, 0.58), (0.231305, 0.59), (0.247011, 0.6),
   (0.263599, 0.61), (0.281114, 0.62), (0.299604, 0.63), (0.319121, 0.64), (0.339718, 0.65),
   (0.361453, 0.66), (0.384386, 0.67), (0.408582, 0.68), (0.43411, 0.69), (0.461042, 0.7),
   (0.489457, 0.71), (0.519437, 0.72), (0.55107, 0.73), (0.58445, 0.74), (0.619678, 0.75),
   (0.656861, 0.76), (0.696113, 0.77), (0.737559, 0.78), (0.781329, 0.79), (0.827564, 0.8),
   (0.876418, 0.81), (0.928053, 0.82), (0.982644, 0.83), (1.04038, 0.84), (1.10147, 0.85), (1.16614, 0.86),
   (1.23462, 0.87), (1.30717, 0.88), (1.38408, 0.89), (1.46565, 0.9), (1.55224, 0.91), (1.6442, 0.92),
   (1.74194, 0.93), (1.84591, 0.94), (1.95661, 0.95), (2.07386, 0.96), (2.2005, 0.97), (2.335, 0.98),
   (2.47891, 0.99), (2.63318, 1.0)]

/-- The column `c55` of `tools/data/PAPADOPOULOS.csv`. -/
def papadopoulos_c55 : List (ℚ × ℚ) :=
  [(9.57316e-05, 0.01), (0.000536096, 0.02), (0.00146264, 0.03), (0.0029731, 0.04), (0.00514358, 0.05),
   (0.0080363, 0.06), (0.0117036, 0.07), (0.0161902, 0.08), (0.021535, 0.09), (0.0277722, 0.1),
   (0.0349319, 0.11), (0.043041, 0.12), (0.0521239, 0.13), (0.0622026, 0.14), (0.0732971, 0.15),
   (0.085426, 0.16), (0.0986065, 0.17), (0.112855, 0.18), (0.128186, 0.19), (0.144614, 0.2),
   (0.162154, 0.21), (0.180819, 0.22), (0.200622, 0.23), (0.221576, 0.24), (0.243694, 0.25),
   (0.26699, 0.26), (0.291476, 0.27), (0.317167, 0.28), (0.344075, 0.29), (0.372215, 0.3),
   (0.401601, 0.31), (0.432249, 0.32), (0.464174, 0.33), (0.497393, 0.34), (0.531922, 0.35),
   (0.56778, 0.36), (0.604984, 0.37), (0.643555, 0.38), (0.683513, 0.39), (0.72488, 0.4), (0.767676, 0.41),
   (0.811928, 0.42), (0.857658, 0.43), (0.904893, 0.44), (0.953661, 0.45), (1.00399, 0.46),
   (1.05591, 0.47), (1.10945, 0.48), (1.16465, 0.49), (1.22153, 0.5), (1.28015, 0.51), (1.34052, 0.52),
   (1.4027, 0.53), (1.46673, 0.54), (1.53264, 0.55), (1.60049, 0.56), (1.67032, 0.57), (1.74218, 0.58),
   (1.81612, 0.59), (1.8922, 0.6), (1.97048, 0.61), (2.05101, 0.62), (2.13386, 0.63), (2.2191, 0.64),
   (2.30678, 0.65), (2.39699, 0.66), (2.48979, 0.67), (2.58527, 0.68), (2.6835, 0.69), (2.78458, 0.7),
   (2.88859, 0.71), (2.99562, 0.72), (3.10577, 0.73), (3.21916, 0.74), (3.33587, 0.75), (3.45603, 0.76),
   (3.57975, 0.77), (3.70715, 0.78), (3.83838, 0.79), (3.97355, 0.8), (4.11281, 0.81), (4.25632, 0.82),
   (4.40423, 0.83), (4.55669, 0.84), (4.7139, 0.85), (4.87602, 0.86), (5.04324, 0.87), (5.21578, 0.88),
   (5.39384, 0.89), (5.57764, 0.9), (5.76742, 0.91), (5.96342, 0.92), (6.16592, 0.93), (6.37517, 0.94),
   (6.59149, 0.95), (6.81516, 0.96), (7.04654, 0.97), (7.28595, 0.98), (7.53377, 0.99), (7.79039, 1.0)]

/-- The column `c45` of `tools/data/PAPADOPOULOS.csv`. -/
def papadopoulos_c45 : List (ℚ × ℚ) :=
  [(4.24397e-06, 0.01), (3.37142e-05, 0.02), (0.000113001, 0.03), (0.000266034, 0.04), (0.000516121, 0.05),
   (0.000885984, 0.06), (0.00139779, 0.07), (0.00207321, 0.08), (0.0029334, 0.09), (0.00399911, 0.1),
   (0.00529066, 0.11), (0.00682801, 0.12), (0.00863076, 0.13), (0.0107182, 0.14), (0.0131094, 0.15),
   (0.0158232, 0.16), (0.0188781, 0.17), (0.0222926, 0.18), (0.026085, 0.19), (0.0302734, 0.2),
   (0.034876, 0.21), (0.0399109, 0.22), (0.0453963, 0.23), (0.0513502, 0.24), (0.0577909, 0.25),
   (0.0647367, 0.26), (0.0722062, 0.27), (0.080218, 0.28), (0.0887911, 0.29), (0.0979445, 0.3),
   (0.107698, 0.31), (0.118071, 0.32), (0.129084, 0.33), (0.140758, 0.34), (0.153114, 0.35),
   (0.166173, 0.36), (0.179958, 0.37), (0.194491, 0.38), (0.209797, 0.39), (0.225899, 0.4),
   (0.242823, 0.41), (0.260594, 0.42), (0.279239, 0.43), (0.298786, 0.44), (0.319263, 0.45),
   (0.340701, 0.46), (0.36313, 0.47), (0.386582, 0.48), (0.411092, 0.49), (0.436694, 0.5),
   (0.463423, 0.51), (0.491319, 0.52), (0.520421, 0.53), (0.550769, 0.54), (0.582407, 0.55),
   (0.61538, 0.56), (0.649735, 0.57), (0.685521, 0.58), (0.72279, 0.59), (0.761595, 0.6), (0.801994, 0.61),
   (0.844046, 0.62), (0.887812, 0.63), (0.933358, 0.64), (0.980753, 0.65), (1.03007, 0.66),
   (1.08138, 0.67), (1.13477, 0.68), (1.19031, 0.69), (1.2481, 0.7), (1.30824, 0.71), (1.3708, 0.72),
   (1.43591, 0.73), (1.50367, 0.74), (1.57418, 0.75), (1.64758, 0.76), (1.72399, 0.77), (1.80355, 0.78),
   (1.88639, 0.79), (1.97266, 0.8), (2.06254, 0.81), (2.15617, 0.82), (2.25376, 0.83), (2.35547, 0.84),
   (2.46152, 0.85), (2.57212, 0.86), (2.6875, 0.87), (2.8079, 0.88), (2.93358, 0.89), (3.06481, 0.9),
   (3.2019, 0.91), (3.34516, 0.92), (3.49492, 0.93), (3.65156, 0.94), (3.81546, 0.95), (3.98704, 0.96),
   (4.16676, 0.97), (4.35512, 0.98), (4.55265, 0.99), (4.75993, 1.0)]

/-- The table that is shipped, `tools/data/PAPADOPOULOS.csv`, as `__init__` reads it (117-118); only the
columns that `run` uses. -/
noncomputable def papadopoulos : CrackTable where
  c44 := papadopoulos_c44.map fun x => ((x.1 : ℝ), (x.2 : ℝ))
  c55 := papadopoulos_c55.map fun x => ((x.1 : ℝ), (x.2 : ℝ))
  c45 := papadopoulos_c45.map fun x => ((x.1 : ℝ), (x.2 : ℝ))

end Ross
