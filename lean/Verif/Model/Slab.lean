import Verif.Model.Basic
import Verif.Model.Tools

/-!
# Model of the slab part of `discrete1/spatial_sweep.py`

`cells` is `medium_map.shape[0]`; `edges : Bool` is `edges == 1`.
The directional sweeps return the updated `flux` and the outgoing edge flux.
-/

namespace Discrete1.Slab

open Discrete1.Tools

variable {K : Type*} [Field K] [LinearOrder K]

/-! ### Directional sweeps -/

/-- `slab_forward_iso` (spatial_sweep.py:396-442). -/
def forwardIso (cells : ℕ) (flux fluxOld xsTotal xsScatter offScatter external : ℕ → K) (edge1 : K)
    (mm : ℕ → ℕ) (dx : ℕ → K) (mu w : K) (edges : Bool) : (ℕ → K) × K :=
  let flux := if edges then addAt flux 0 (w * edge1) else flux
  loop cells (fun ii s =>
    let flux := s.1
    let edge1 := s.2
    let mat := mm ii
    let edge2 := (xsScatter mat * fluxOld ii + external ii + offScatter ii
      + edge1 * (mu / dx ii - 1 / 2 * xsTotal mat)) / (mu / dx ii + 1 / 2 * xsTotal mat)
    let flux := if edges then addAt flux (ii + 1) (w * edge2)
      else addAt flux ii (1 / 2 * w * (edge1 + edge2))
    (flux, edge2)) (flux, edge1)

/-- `slab_backward_iso` (spatial_sweep.py:451-498). -/
def backwardIso (cells : ℕ) (flux fluxOld xsTotal xsScatter offScatter external : ℕ → K) (edge1 : K)
    (mm : ℕ → ℕ) (dx : ℕ → K) (mu w : K) (edges : Bool) : (ℕ → K) × K :=
  let flux := if edges then addAt flux cells (w * edge1) else flux
  loopDown cells (fun ii s =>
    let flux := s.1
    let edge1 := s.2
    let mat := mm ii
    let edge2 := (xsScatter mat * fluxOld ii + external ii + offScatter ii
      + edge1 * (-mu / dx ii - 1 / 2 * xsTotal mat)) / (-mu / dx ii + 1 / 2 * xsTotal mat)
    let flux := if edges then addAt flux ii (w * edge2)
      else addAt flux ii (1 / 2 * w * (edge1 + edge2))
    (flux, edge2)) (flux, edge1)

/-- State of the anisotropic directional sweeps: `flux`, `psi` (cell averages), `edge1` (spatial_sweep.py:506-760). -/
structure AnisoState (K : Type*) where
  flux : ℕ → K
  psi : ℕ → K
  edge : K

/-- `slab_forward_aniso` (spatial_sweep.py:646-694); `np.empty` is started at zero, every entry is
overwritten. -/
def forwardAniso (cells : ℕ) (flux xsTotal anisotropic offScatter external : ℕ → K) (edge1 : K)
    (mm : ℕ → ℕ) (dx : ℕ → K) (mu w : K) (edges : Bool) : AnisoState K :=
  let flux := if edges then addAt flux 0 (w * edge1) else flux
  loop cells (fun ii s =>
    let mat := mm ii
    let edge2 := (anisotropic ii + external ii + offScatter ii
      + s.edge * (mu / dx ii - 1 / 2 * xsTotal mat)) / (mu / dx ii + 1 / 2 * xsTotal mat)
    { psi := setAt s.psi ii (1 / 2 * (s.edge + edge2))
      flux := if edges then addAt s.flux (ii + 1) (w * edge2)
        else addAt s.flux ii (1 / 2 * w * (s.edge + edge2))
      edge := edge2 }) ⟨flux, fun _ => 0, edge1⟩

/-- `slab_backward_aniso` (spatial_sweep.py:703-751). -/
def backwardAniso (cells : ℕ) (flux xsTotal anisotropic offScatter external : ℕ → K) (edge1 : K)
    (mm : ℕ → ℕ) (dx : ℕ → K) (mu w : K) (edges : Bool) : AnisoState K :=
  let flux := if edges then addAt flux cells (w * edge1) else flux
  loopDown cells (fun ii s =>
    let mat := mm ii
    let edge2 := (anisotropic ii + external ii + offScatter ii
      + s.edge * (-mu / dx ii - 1 / 2 * xsTotal mat)) / (-mu / dx ii + 1 / 2 * xsTotal mat)
    { psi := setAt s.psi ii (1 / 2 * (s.edge + edge2))
      flux := if edges then addAt s.flux ii (w * edge2)
        else addAt s.flux ii (1 / 2 * w * (s.edge + edge2))
      edge := edge2 }) ⟨flux, fun _ => 0, edge1⟩

/-- `slab_forward_scatter` (spatial_sweep.py:1828-1888). -/
def forwardScatter (cells : ℕ) (flux xsTotal scatterSource external : ℕ → K) (edge1 : K)
    (mm : ℕ → ℕ) (dx : ℕ → K) (mu w : K) : (ℕ → K) × K :=
  loop cells (fun ii s =>
    let flux := s.1
    let edge1 := s.2
    let mat := mm ii
    let edge2 := (scatterSource ii + external ii
      + edge1 * (mu / dx ii - 1 / 2 * xsTotal mat)) / (mu / dx ii + 1 / 2 * xsTotal mat)
    (addAt flux ii (1 / 2 * w * (edge1 + edge2)), edge2)) (flux, edge1)

/-- `slab_backward_scatter` (spatial_sweep.py:1896-1956). -/
def backwardScatter (cells : ℕ) (flux xsTotal scatterSource external : ℕ → K) (edge1 : K)
    (mm : ℕ → ℕ) (dx : ℕ → K) (mu w : K) : (ℕ → K) × K :=
  loopDown cells (fun ii s =>
    let flux := s.1
    let edge1 := s.2
    let mat := mm ii
    let edge2 := (scatterSource ii + external ii
      + edge1 * (-mu / dx ii - 1 / 2 * xsTotal mat)) / (-mu / dx ii + 1 / 2 * xsTotal mat)
    (addAt flux ii (1 / 2 * w * (edge1 + edge2)), edge2)) (flux, edge1)

/-! ### The loop over the ordinates -/

/-- State carried through the loop over the angles: the arrays being filled (`acc`), the reflector
and the last `edge1` (spatial_sweep.py:268-387). -/
structure AngleState (K S : Type*) where
  acc : S
  reflector : ℕ → K
  edge : K

/-- The loop over the ordinates shared by `slab_isotropic_sn` (spatial_sweep.py:335-375),
`slab_anisotropic_sn` (588-627) and `slab_scatter_source_sn` (1783-1818), which differ only in the
directional sweep that is called (`fwd`, `bwd`) and in the array that is filled.
`inL nn` / `inR nn` are `boundary[0, bc]` / `boundary[1, bc]`.  An ordinate equal to zero raises. -/
def angleLoop {S : Type*} (angles : ℕ) (angleX : ℕ → K) (bcL bcR : Bool) (inL inR : ℕ → K)
    (fwd bwd : ℕ → S → K → S × K) (start : S) : Except PyErr (AngleState K S) :=
  loopE angles (fun nn s =>
    if 0 < angleX nn then
      let r := fwd nn s.acc (s.reflector nn + inL nn)
      .ok ⟨r.1, reflectorCorrector angles s.reflector angleX r.2 nn bcL bcR, r.2⟩
    else if angleX nn < 0 then
      let r := bwd nn s.acc (s.reflector nn + inR nn)
      .ok ⟨r.1, reflectorCorrector angles s.reflector angleX r.2 nn bcL bcR, r.2⟩
    else .error .discontinuity) ⟨start, fun _ => 0, 0⟩

/-! ### Within-group iterations -/

/-- The convergence measure of spatial_sweep.py:378-382 (and 629-633): false when some entry of the
new flux is zero (the norm is then `inf` or `nan`), otherwise
`norm((flux - flux_old) / flux / cells) < tol`, written with squares.
Simplification: warnings are not turned into exceptions (numpy's default). -/
def fluxConverged (cells : ℕ) (tol : K) (new old : ℕ → K) : Bool :=
  decide (∀ i < cells, new i ≠ 0) &&
    decide (accum cells (fun i => ((new i - old i) / new i / (cells : K)) ^ 2) < tol ^ 2)

/-- One pass of the `while` body of `slab_isotropic_sn` (spatial_sweep.py:332-375). -/
def isotropicSweep (cells angles : ℕ) (xsTotal xsScatter offScatter : ℕ → K)
    (external boundary : Arr2 K) (mm : ℕ → ℕ) (dx angleX angleW : ℕ → K) (bcL bcR edges : Bool)
    (fluxOld : ℕ → K) : Except PyErr (ℕ → K) :=
  let ext := fun nn ii => external.val ii (bidx external.angles nn)
  (angleLoop angles angleX bcL bcR
    (fun nn => boundary.val 0 (bidx boundary.angles nn))
    (fun nn => boundary.val 1 (bidx boundary.angles nn))
    (fun nn flux e => forwardIso cells flux fluxOld xsTotal xsScatter offScatter (ext nn) e mm dx
      (angleX nn) (angleW nn) edges)
    (fun nn flux e => backwardIso cells flux fluxOld xsTotal xsScatter offScatter (ext nn) e mm dx
      (angleX nn) (angleW nn) edges)
    (fun _ => 0)).map AngleState.acc

/-- `slab_isotropic_sn` (spatial_sweep.py:268-387): at most `count_nn = 100` passes (line 26);
`conv` is the criterion of line 379-382, concretely `fluxConverged cells change_nn`. -/
def isotropicSn (cells angles : ℕ) (conv : (ℕ → K) → (ℕ → K) → Bool)
    (xsTotal xsScatter offScatter : ℕ → K)
    (external boundary : Arr2 K) (mm : ℕ → ℕ) (dx angleX angleW : ℕ → K) (bcL bcR edges : Bool)
    (fluxOld : ℕ → K) : Except PyErr (ℕ → K) :=
  iterateE (isotropicSweep cells angles xsTotal xsScatter offScatter external boundary mm dx angleX
    angleW bcL bcR edges) conv 99 fluxOld

/-- One pass of the `while` body of `slab_anisotropic_sn` (spatial_sweep.py:579-627) on the pair
(scalar flux, flux moments).  `xsW ii l` is `xs_scatter_w`, `P l nn`, `PW l nn` the Legendre tables. -/
def anisotropicSweep (cells angles moments : ℕ) (xsTotal : ℕ → K) (xsW : ℕ → ℕ → K)
    (offScatter : ℕ → K) (external boundary : Arr2 K) (mm : ℕ → ℕ) (dx angleX angleW : ℕ → K)
    (bcL bcR edges : Bool) (P PW : ℕ → ℕ → K) (old : (ℕ → K) × (ℕ → ℕ → K)) :
    Except PyErr ((ℕ → K) × (ℕ → ℕ → K)) :=
  let ext := fun nn ii => external.val ii (bidx external.angles nn)
  let aniso : ℕ → ℕ → K := fun ii nn => accum moments fun l => xsW ii l * old.2 ii l * P l nn
  (angleLoop angles angleX bcL bcR
    (fun nn => boundary.val 0 (bidx boundary.angles nn))
    (fun nn => boundary.val 1 (bidx boundary.angles nn))
    (fun nn (s : (ℕ → K) × (ℕ → ℕ → K)) e =>
      let r := forwardAniso cells s.1 xsTotal (fun ii => aniso ii nn) offScatter (ext nn) e mm dx
        (angleX nn) (angleW nn) edges
      ((r.flux, fun ii l => s.2 ii l + r.psi ii * PW l nn), r.edge))
    (fun nn (s : (ℕ → K) × (ℕ → ℕ → K)) e =>
      let r := backwardAniso cells s.1 xsTotal (fun ii => aniso ii nn) offScatter (ext nn) e mm dx
        (angleX nn) (angleW nn) edges
      ((r.flux, fun ii l => s.2 ii l + r.psi ii * PW l nn), r.edge))
    ((fun _ => 0), (fun _ _ => 0))).map AngleState.acc

/-- `slab_anisotropic_sn` (spatial_sweep.py:506-637): the zeroth moment starts at `flux_old`, the
others at zero (lines 570-571); the criterion compares scalar fluxes. -/
def anisotropicSn (cells angles moments : ℕ) (conv : (ℕ → K) → (ℕ → K) → Bool)
    (xsTotal : ℕ → K) (xsW : ℕ → ℕ → K)
    (offScatter : ℕ → K) (external boundary : Arr2 K) (mm : ℕ → ℕ) (dx angleX angleW : ℕ → K)
    (bcL bcR edges : Bool) (P PW : ℕ → ℕ → K) (fluxOld : ℕ → K) : Except PyErr (ℕ → K) :=
  (iterateE (anisotropicSweep cells angles moments xsTotal xsW offScatter external boundary mm dx
    angleX angleW bcL bcR edges P PW) (fun new old => conv new.1 old.1) 99
    (fluxOld, fun ii l => if l = 0 then fluxOld ii else 0)).map Prod.fst

/-! ### Known source -/

/-- Body of the loop of `slab_known_source_sn` (spatial_sweep.py:1479-1552): the four cases scalar /
angular, forward / backward.  `s.acc ii col` is the two-dimensional array, `xdim` its second length.
An ordinate equal to zero matches none of the branches and is skipped. -/
def knownStep (cells angles xdim : ℕ) (xsTotal : ℕ → K) (source boundary : Arr2 K)
    (mm : ℕ → ℕ) (dx angleX angleW : ℕ → K) (bcL bcR edges : Bool) (nn : ℕ)
    (s : AngleState K (ℕ → ℕ → K)) : AngleState K (ℕ → ℕ → K) :=
  let src := fun ii => source.val ii (bidx source.angles nn)
  let inL := boundary.val 0 (bidx boundary.angles nn)
  let inR := boundary.val 1 (bidx boundary.angles nn)
  let zero : ℕ → K := fun _ => 0
  let col := fun (f : ℕ → ℕ → K) (c : ℕ) ii => f ii c
  let put := fun (f : ℕ → ℕ → K) (c : ℕ) (new : ℕ → K) ii k => if k = c then new ii else f ii k
  let s' : AngleState K (ℕ → ℕ → K) :=
    if 0 < angleX nn ∧ xdim = 1 then
      let r := forwardIso cells (col s.acc 0) zero xsTotal zero zero src
        (s.reflector nn + inL) mm dx (angleX nn) (angleW nn) edges
      { s with acc := put s.acc 0 r.1, edge := r.2 }
    else if angleX nn < 0 ∧ xdim = 1 then
      let r := backwardIso cells (col s.acc 0) zero xsTotal zero zero src
        (s.reflector nn + inR) mm dx (angleX nn) (angleW nn) edges
      { s with acc := put s.acc 0 r.1, edge := r.2 }
    else if 0 < angleX nn ∧ 1 < xdim then
      let r := forwardIso cells (col s.acc nn) zero xsTotal zero zero src
        (s.reflector nn + inL) mm dx (angleX nn) 1 edges
      { s with acc := put s.acc nn r.1, edge := r.2 }
    else if angleX nn < 0 ∧ 1 < xdim then
      let r := backwardIso cells (col s.acc nn) zero xsTotal zero zero src
        (s.reflector nn + inR) mm dx (angleX nn) 1 edges
      { s with acc := put s.acc nn r.1, edge := r.2 }
    else s
  { s' with reflector := reflectorCorrector angles s'.reflector angleX s'.edge nn bcL bcR }

/-- `slab_known_source_sn` (spatial_sweep.py:1433-1554). -/
def knownSourceSn (cells angles xdim : ℕ) (xsTotal : ℕ → K) (source boundary : Arr2 K)
    (mm : ℕ → ℕ) (dx angleX angleW : ℕ → K) (bcL bcR edges : Bool) (flux : ℕ → ℕ → K) :
    ℕ → ℕ → K :=
  (loop angles (knownStep cells angles xdim xsTotal source boundary mm dx angleX angleW bcL bcR edges)
    ⟨flux, fun _ => 0, 0⟩).acc

/-- `slab_scatter_source_sn` (spatial_sweep.py:1732-1820).  As in line 1786 the *boundary* column is
selected with the angle axis of `external`. -/
def scatterSourceSn (cells angles : ℕ) (xsTotal scatterSource : ℕ → K) (external boundary : Arr2 K)
    (mm : ℕ → ℕ) (dx angleX angleW : ℕ → K) (bcL bcR : Bool) : Except PyErr (ℕ → K) :=
  let ext := fun nn ii => external.val ii (bidx external.angles nn)
  (angleLoop angles angleX bcL bcR
    (fun nn => boundary.val 0 (bidx external.angles nn))
    (fun nn => boundary.val 1 (bidx external.angles nn))
    (fun nn flux e => forwardScatter cells flux xsTotal scatterSource (ext nn) e mm dx
      (angleX nn) (angleW nn))
    (fun nn flux e => backwardScatter cells flux xsTotal scatterSource (ext nn) e mm dx
      (angleX nn) (angleW nn))
    (fun _ => 0)).map AngleState.acc

end Discrete1.Slab
