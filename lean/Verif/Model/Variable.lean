import Verif.Model.Timed

/-!
# Model of `multi_group.variable_source_iteration` (multi_group.py:454-571) and of its anisotropic branch
(multi_group.py:678-795)

The isotropic branch is `Drivers.variableSourceIteration` in `Model/Timed.lean`.
-/

namespace Discrete1.Drivers

open Tools MultiGroup

variable {K : Type} [Field K] [LinearOrder K]

/-- Body of the group loop of `_variable_source_iteration_aniso` (multi_group.py:709-785).  The within-group
moments are collapsed one by one (lines 719-726), the transfer between groups uses the zeroth moment only
(735-743), `xs_scatter_w` (746-748) multiplies moment `l` by `2 l + 1`. -/
def varGroupStepAniso (p : Problem K) (moments : ℕ) (xsTotal : ℕ → ℕ → K) (star : ℕ → K)
    (xs : ℕ → ℕ → ℕ → ℕ → K) (external boundary : Arr3 K) (deltaCoarse deltaFine : ℕ → K) (e : ℕ → ℕ)
    (P PW : ℕ → ℕ → K) (fluxOld : ℕ → ℕ → K) (gg : ℕ) (flux : ℕ → ℕ → K) : Except PyErr (ℕ → ℕ → K) :=
  let ext := external.group (bidx external.groups gg)
  let bnd := boundary.group (bidx boundary.groups gg)
  let off := varOffScatter p.groups flux fluxOld p.mm (fun m o i => xs m o i 0) deltaFine deltaCoarse e gg
  let total := varTotalC xsTotal star deltaFine deltaCoarse e gg
  let xsSelf := fun ii l => varScatterC (fun m o i => xs m o i l) deltaFine deltaCoarse e gg (p.mm ii)
  let xsW := fun ii l => xsSelf ii l * (2 * (l : K) + 1)
  if p.geometry = 1 then
    (Slab.anisotropicSn p.cells p.angles moments p.convIn total xsW off ext bnd p.mm p.dx p.angleX p.angleW
      p.bcL p.bcR false P PW (fun i => fluxOld i gg)).map (putCol flux gg)
  else if p.geometry = 2 then
    (Sphere.anisotropicSn p.cells p.angles moments p.convIn p.pi total (fun ii => xsSelf ii 0) xsW off ext bnd
      p.mm p.dx p.angleX p.angleW false P PW (fun i => fluxOld i gg)).map (putCol flux gg)
  else .ok flux

/-- `_variable_source_iteration_aniso` (multi_group.py:678-795). -/
def variableSourceIterationAniso (p : Problem K) (moments : ℕ) (xsTotal : ℕ → ℕ → K) (star : ℕ → K)
    (xs : ℕ → ℕ → ℕ → ℕ → K) (external boundary : Arr3 K) (deltaCoarse deltaFine : ℕ → K) (e : ℕ → ℕ)
    (P PW : ℕ → ℕ → K) (fluxOld : ℕ → ℕ → K) : Except PyErr (ℕ → ℕ → K) :=
  iterateE (fun old => loopE p.groups (varGroupStepAniso p moments xsTotal star xs external boundary deltaCoarse
    deltaFine e P PW old) (fun _ _ => 0)) p.convOut 99 fluxOld

/-- `variable_source_iteration` (multi_group.py:454-571) without caller-supplied Legendre tables: the tables are
computed from the quadrature (lines 549-552). -/
def variableSourceIterationCall (p : Problem K) (xsTotal : ℕ → ℕ → K) (star : ℕ → K) (xs : Scatter K)
    (external boundary : Arr3 K) (deltaCoarse deltaFine : ℕ → K) (e : ℕ → ℕ) (fluxOld : ℕ → ℕ → K) :
    Except PyErr (ℕ → ℕ → K) :=
  match xs with
  | .iso xs => variableSourceIteration p xsTotal star xs external boundary deltaCoarse deltaFine e fluxOld
  | .aniso L xs => variableSourceIterationAniso p L xsTotal star xs external boundary deltaCoarse deltaFine e
      (fun l nn => legendre (p.angleX nn) l) (fun l nn => p.angleW nn * legendre (p.angleX nn) l) fluxOld

end Discrete1.Drivers
