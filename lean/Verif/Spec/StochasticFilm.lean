import Verif.Spec.Stochastic
import Verif.Model.StochasticFilm

/-! # Specification of random bearings made from fluid-film data -/

namespace Ross.Spec

open Stochastic Persist Fluid

/-- The data of the films of `N` samples: each parameter is one value or one value for each sample. -/
structure FilmSample (N : ℕ) where
  nz : ℕ
  ntheta : ℕ
  length : Sample N ℝ
  p_in : Sample N ℝ
  p_out : Sample N ℝ
  radius_rotor : Sample N ℝ
  radius_stator : Sample N ℝ
  viscosity : Sample N ℝ
  density : Sample N ℝ
  attitude_angle : Option (Sample N ℝ) := none
  eccentricity : Option (Sample N ℝ) := none
  load : Option (Sample N ℝ) := none
  omegap : Option (Sample N ℝ) := none

namespace FilmSample

variable {N : ℕ} (b : FilmSample N)

/-- The parameters that can be random, and whether they are. -/
def random : List (String × Bool) :=
  [("length", b.length.isRandom), ("p_in", b.p_in.isRandom), ("p_out", b.p_out.isRandom),
    ("radius_rotor", b.radius_rotor.isRandom), ("radius_stator", b.radius_stator.isRandom),
    ("viscosity", b.viscosity.isRandom), ("density", b.density.isRandom),
    ("attitude_angle", randomOpt b.attitude_angle), ("eccentricity", randomOpt b.eccentricity),
    ("load", randomOpt b.load), ("omegap", randomOpt b.omegap)]

/-- The film of sample `i` at a speed. -/
def film (omega : ℝ) (i : Fin N) : FlowArgs :=
  { nz := b.nz, ntheta := b.ntheta, length := b.length.draw i, omega := omega, p_in := b.p_in.draw i,
    p_out := b.p_out.draw i, radius_rotor := b.radius_rotor.draw i, radius_stator := b.radius_stator.draw i,
    viscosity := b.viscosity.draw i, density := b.density.draw i, attitude_angle := b.attitude_angle.map (·.draw i),
    eccentricity := b.eccentricity.map (·.draw i), load := b.load.map (·.draw i), omegap := b.omegap.map (·.draw i) }

end FilmSample

/-- The eight coefficients of the film with the arguments `a`. -/
def FilmCoefs (lib : FlowLib) (a : FlowArgs) (kxx kxy kyx kyy cxx cxy cyx cyy : ℝ) : Prop :=
  ∃ film left, a.init lib = .ok film ∧
    calculate_stiffness_and_damping_coefficients lib film = .ok (left, ⟨[kxx, kxy, kyx, kyy], [cxx, cxy, cyx, cyy]⟩)

end Ross.Spec
