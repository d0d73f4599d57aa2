import Verif.Model.Slab
import Verif.Model.Sphere

/-!
# Model of `discrete1/multi_group.py` (source iteration and known source problems)

`Problem` bundles the arguments that every solver passes along unchanged.
-/

namespace Discrete1.MultiGroup

open Discrete1.Tools

variable {K : Type*} [Field K] [LinearOrder K]

/-- The arguments shared by all solvers: sizes, mesh, quadrature, reflection flags, geometry
(multi_group.py:42-133). -/
structure Problem (K : Type*) where
  cells : ℕ
  groups : ℕ
  angles : ℕ
  mm : ℕ → ℕ
  dx : ℕ → K
  angleX : ℕ → K
  angleW : ℕ → K
  bcL : Bool
  bcR : Bool
  /-- `geometry`: 1 slab, 2 sphere. -/
  geometry : ℕ
  /-- `np.pi` -/
  pi : K
  /-- inner convergence criterion (spatial_sweep.py:379-382), concretely
  `Slab.fluxConverged cells 1e-12` -/
  convIn : (ℕ → K) → (ℕ → K) → Bool
  /-- outer convergence criterion (multi_group.py:345-349), concretely `fluxConverged2 cells groups 1e-8` -/
  convOut : (ℕ → ℕ → K) → (ℕ → ℕ → K) → Bool

/-- The criterion of multi_group.py:345-349: `norm((flux - flux_old) / flux / cells) < tol` over all
cells and groups, false when some entry of the new flux is zero. -/
def fluxConverged2 (cells groups : ℕ) (tol : K) (new old : ℕ → ℕ → K) : Bool :=
  decide (∀ i < cells, ∀ g < groups, new i g ≠ 0) &&
    decide (accum cells (fun i => accum groups fun g =>
      ((new i g - old i g) / new i g / (cells : K)) ^ 2) < tol ^ 2)

/-- `flux[:, gg] = new` (multi_group.py:153-189). -/
def putCol (f : ℕ → ℕ → K) (gg : ℕ) (new : ℕ → K) : ℕ → ℕ → K :=
  fun ii g => if g = gg then new ii else f ii g

/-- Body of the group loop of `_one_sweep_iso` (multi_group.py:154-190). -/
def groupStepIso (p : Problem K) (xsTotal : ℕ → ℕ → K) (xsScatter : ℕ → ℕ → ℕ → K)
    (external boundary : Arr3 K) (fluxOld : ℕ → ℕ → K) (gg : ℕ) (flux : ℕ → ℕ → K) :
    Except PyErr (ℕ → ℕ → K) :=
  let ext := external.group (bidx external.groups gg)
  let bnd := boundary.group (bidx boundary.groups gg)
  let off := offScatter p.groups flux fluxOld p.mm xsScatter gg
  if p.geometry = 1 then
    (Slab.isotropicSn p.cells p.angles p.convIn (fun m => xsTotal m gg) (fun m => xsScatter m gg gg)
      off ext bnd p.mm p.dx p.angleX p.angleW p.bcL p.bcR false (fun i => fluxOld i gg)).map
      (putCol flux gg)
  else if p.geometry = 2 then
    (Sphere.isotropicSn p.cells p.angles p.convIn p.pi (fun m => xsTotal m gg)
      (fun m => xsScatter m gg gg) off ext bnd p.mm p.dx p.angleX p.angleW false
      (fun i => fluxOld i gg)).map (putCol flux gg)
  else .ok flux

/-- `_one_sweep_iso` (multi_group.py:136-191): `flux *= 0`, then the group loop. -/
def oneSweepIso (p : Problem K) (xsTotal : ℕ → ℕ → K) (xsScatter : ℕ → ℕ → ℕ → K)
    (external boundary : Arr3 K) (fluxOld : ℕ → ℕ → K) : Except PyErr (ℕ → ℕ → K) :=
  loopE p.groups (groupStepIso p xsTotal xsScatter external boundary fluxOld) (fun _ _ => 0)

/-- `source_iteration_iso` (multi_group.py:269-353), `count_gg = 100`. -/
def sourceIterationIso (p : Problem K) (xsTotal : ℕ → ℕ → K) (xsScatter : ℕ → ℕ → ℕ → K)
    (external boundary : Arr3 K) (fluxOld : ℕ → ℕ → K) : Except PyErr (ℕ → ℕ → K) :=
  iterateE (oneSweepIso p xsTotal xsScatter external boundary) p.convOut 99 fluxOld

/-- Body of the group loop of `_one_sweep_aniso` (multi_group.py:215-265). -/
def groupStepAniso (p : Problem K) (moments : ℕ) (xsTotal : ℕ → ℕ → K)
    (xsScatter : ℕ → ℕ → ℕ → ℕ → K) (external boundary : Arr3 K) (P PW : ℕ → ℕ → K)
    (fluxOld : ℕ → ℕ → K) (gg : ℕ) (flux : ℕ → ℕ → K) : Except PyErr (ℕ → ℕ → K) :=
  let ext := external.group (bidx external.groups gg)
  let bnd := boundary.group (bidx boundary.groups gg)
  let off := offScatter p.groups flux fluxOld p.mm (fun m o i => xsScatter m o i 0) gg
  let xsSelf := fun ii l => xsScatter (p.mm ii) gg gg l
  let xsW := fun ii l => xsSelf ii l * (2 * (l : K) + 1)
  if p.geometry = 1 then
    (Slab.anisotropicSn p.cells p.angles moments p.convIn (fun m => xsTotal m gg) xsW
      off ext bnd p.mm p.dx p.angleX p.angleW p.bcL p.bcR false P PW (fun i => fluxOld i gg)).map
      (putCol flux gg)
  else if p.geometry = 2 then
    (Sphere.anisotropicSn p.cells p.angles moments p.convIn p.pi (fun m => xsTotal m gg)
      (fun ii => xsSelf ii 0) xsW off ext bnd p.mm p.dx p.angleX p.angleW false P PW
      (fun i => fluxOld i gg)).map (putCol flux gg)
  else .ok flux

/-- `_one_sweep_aniso` (multi_group.py:194-266). -/
def oneSweepAniso (p : Problem K) (moments : ℕ) (xsTotal : ℕ → ℕ → K)
    (xsScatter : ℕ → ℕ → ℕ → ℕ → K) (external boundary : Arr3 K) (P PW : ℕ → ℕ → K)
    (fluxOld : ℕ → ℕ → K) : Except PyErr (ℕ → ℕ → K) :=
  loopE p.groups (groupStepAniso p moments xsTotal xsScatter external boundary P PW fluxOld)
    (fun _ _ => 0)

/-- `source_iteration_aniso` (multi_group.py:356-451). -/
def sourceIterationAniso (p : Problem K) (moments : ℕ) (xsTotal : ℕ → ℕ → K)
    (xsScatter : ℕ → ℕ → ℕ → ℕ → K) (external boundary : Arr3 K) (P PW : ℕ → ℕ → K)
    (fluxOld : ℕ → ℕ → K) : Except PyErr (ℕ → ℕ → K) :=
  iterateE (oneSweepAniso p moments xsTotal xsScatter external boundary P PW) p.convOut 99 fluxOld

/-- `source_iteration` (multi_group.py:42-133) without caller-supplied Legendre tables: the tables
are computed from the quadrature (lines 115-118). -/
def sourceIteration (p : Problem K) (xsTotal : ℕ → ℕ → K) (xsScatter : Scatter K)
    (external boundary : Arr3 K) (fluxOld : ℕ → ℕ → K) : Except PyErr (ℕ → ℕ → K) :=
  match xsScatter with
  | .iso xs => sourceIterationIso p xsTotal xs external boundary fluxOld
  | .aniso L xs =>
    sourceIterationAniso p L xsTotal xs external boundary (fun l nn => legendre (p.angleX nn) l)
      (fun l nn => p.angleW nn * legendre (p.angleX nn) l) fluxOld

/-- `known_source_angular` (multi_group.py:1095-1174) with the geometry dispatch of `known_source_sn`
(spatial_sweep.py:173-218: no array is touched for an unknown geometry).  The number of columns of each
`angular_flux[:, :, gg]` is `source.shape[1]`, the number of groups `source.shape[2]`. -/
def knownSourceAngular (p : Problem K) (xsTotal : ℕ → ℕ → K) (source boundary : Arr3 K)
    (edges : Bool) : Except PyErr (ℕ → ℕ → ℕ → K) :=
  if p.geometry = 1 then
    .ok fun ii nn gg =>
      Slab.knownSourceSn p.cells p.angles source.angles (fun m => xsTotal m gg)
        (source.group (bidx source.groups gg)) (boundary.group (bidx boundary.groups gg)) p.mm p.dx
        p.angleX p.angleW p.bcL p.bcR edges (fun _ _ => 0) ii nn
  else if p.geometry = 2 then
    (loopE source.groups (fun _ (_ : ℕ → K) => Sphere.knownSourceSn p.angles p.angleX) fun _ => 0).map
      fun _ _ _ _ => 0
  else .ok fun _ _ _ => 0

/-- `known_source_scalar` (multi_group.py:1177-1256; dispatch spatial_sweep.py:173-218). -/
def knownSourceScalar (p : Problem K) (xsTotal : ℕ → ℕ → K) (source boundary : Arr3 K)
    (edges : Bool) : Except PyErr (ℕ → ℕ → K) :=
  if p.geometry = 1 then
    .ok fun ii gg =>
      Slab.knownSourceSn p.cells p.angles 1 (fun m => xsTotal m gg)
        (source.group (bidx source.groups gg)) (boundary.group (bidx boundary.groups gg)) p.mm p.dx
        p.angleX p.angleW p.bcL p.bcR edges (fun _ _ => 0) ii 0
  else if p.geometry = 2 then
    (loopE source.groups (fun _ (_ : ℕ → K) => Sphere.knownSourceSn p.angles p.angleX) fun _ => 0).map
      fun _ _ _ => 0
  else .ok fun _ _ => 0

end Discrete1.MultiGroup
