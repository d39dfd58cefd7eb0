import Verif.Model.Persist

/-! # `Rotor.to_ross_only` (`rotor_assembly.py` 3552-3604) -/

namespace Ross

namespace RossOnly

open Persist

/-- The arguments of the new bearings (`rotor_assembly.py` 3559-3573, 3579-3592); what is not given
has its default.  The leakage of a seal is not modelled. -/
def args (b : BearingElement) : BearingArgs where
  n := b.n
  kxx := .list b.kxx.values
  kxy := .list b.kxy.values
  kyx := .list b.kyx.values
  kyy := some (.list b.kyy.values)
  cxx := .list b.cxx.values
  cxy := .list b.cxy.values
  cyx := .list b.cyx.values
  cyy := some (.list b.cyy.values)
  frequency := b.frequency
  tag := b.tag
  color := b.color
  n_link := b.n_link

/-- One pass of the loop (`rotor_assembly.py` 3556-3594). -/
noncomputable def bearing (sp : Scipy) : BrgEl → Res BrgEl
  | .brg true b => (sealInit sp (args b)).map (BrgEl.brg true)
  | .brg false b => (BearingElement.init sp (args b)).map (BrgEl.brg false)
  | .brg6 b => (BearingElement.init sp (args b.base)).map (BrgEl.brg false)

/-- The arguments of the new rotor (`rotor_assembly.py` 3596-3604). -/
def rotorArgs (r : Rotor) (bearings : List BrgEl) : RotorArgs where
  shaft := r.shaft.map Nest.el
  disks := r.disks
  bearings := bearings
  pms := r.pms
  min_w := r.min_w
  max_w := r.max_w
  rated_w := r.rated_w
  tag := some r.tag

/-- `Rotor.to_ross_only(rotor)`. -/
noncomputable def toRossOnly (sp : Scipy) (pd : Pandas) (fuel : ℕ) (r : Rotor) : Option (Res Rotor) :=
  match r.bearings.mapM (bearing sp) with
  | .error e => some (.error e)
  | .ok bs => Rotor.init pd fuel (rotorArgs r bs)

end RossOnly

end Ross
