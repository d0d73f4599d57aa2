import Verif.Model.Basic
import Verif.Model.Tools
import Verif.Model.Slab

/-!
# Model of the spherical part of `discrete1/spatial_sweep.py`

`pi : K` stands for `np.pi` (any positive number: it cancels). `cells` is `flux.shape[0]`.
-/

namespace Discrete1.Sphere

open Discrete1.Tools

variable {K : Type*} [Field K] [LinearOrder K]

/-- `area1` (spatial_sweep.py:1001, 1077, 1319, 1398, 2172, 2269). -/
def area1 (pi : K) (dx : ℕ → K) (ii : ℕ) : K := 4 * pi * ((ii : K) * dx ii) ^ 2

/-- `area2` (spatial_sweep.py:1002, 1078, 1320, 1399, 2173, 2270). -/
def area2 (pi : K) (dx : ℕ → K) (ii : ℕ) : K := 4 * pi * (((ii : K) + 1) * dx ii) ^ 2

/-- `volume` (spatial_sweep.py:1003-1005 and the five copies). -/
def volume (pi : K) (dx : ℕ → K) (ii : ℕ) : K :=
  4 / 3 * pi * ((((ii : K) + 1) * dx ii) ^ 3 - ((ii : K) * dx ii) ^ 3)

/-- `angle_coef_corrector` (spatial_sweep.py:924-950). -/
def angleCoefCorrector (alphaMinus mu w : K) (nn angles : ℕ) : K :=
  if nn ≠ angles - 1 then alphaMinus - mu * w else 0

/-- `_half_angle_iso` (spatial_sweep.py:896-920), also `_half_angle_aniso` (1240-1268) and
`_half_angle_scatter` (2086-2099), which differ only in how the cell source `q` is written. -/
def halfAngle (cells : ℕ) (xsTotal q : ℕ → K) (mm : ℕ → ℕ) (dx : ℕ → K) (anglePlus : K) : ℕ → K :=
  (loopDown cells (fun ii (s : (ℕ → K) × K) =>
    let h := (2 * s.2 + dx ii * q ii) / (2 + xsTotal (mm ii) * dx ii)
    (setAt s.1 ii h, 2 * h - s.2)) (fun _ => 0, anglePlus)).1

/-- State of the directional sweeps: `flux`, `half_angle`, the recorded cell values `psi`
(anisotropic versions only) and `edge1` (spatial_sweep.py:896-1108, 1240-1425). -/
structure DirState (K : Type*) where
  flux : ℕ → K
  half : ℕ → K
  psi : ℕ → K
  edge : K

/-- Everything a directional sweep reads (spatial_sweep.py:896-1108, 1240-1425). -/
structure DirInput (K : Type*) where
  pi : K
  xsTotal : ℕ → K
  q : ℕ → K          -- external + off_scatter + within-group scattering of the cell
  mm : ℕ → ℕ
  dx : ℕ → K
  mu : K
  w : K
  weight : K
  tau : K
  alphaPlus : K
  alphaMinus : K

/-- The `center` formula of the forward sweeps (spatial_sweep.py:1007-1018, 1325-1336, 2178-2189). -/
def centerForward (p : DirInput K) (ii : ℕ) (edge1 half : K) : K :=
  (p.mu * (area2 p.pi p.dx ii + area1 p.pi p.dx ii) * edge1
    + (1 / p.w) * (area2 p.pi p.dx ii - area1 p.pi p.dx ii) * (p.alphaPlus + p.alphaMinus) * half
    + volume p.pi p.dx ii * p.q ii)
  / (2 * p.mu * area2 p.pi p.dx ii
    + 2 / p.w * (area2 p.pi p.dx ii - area1 p.pi p.dx ii) * p.alphaPlus
    + p.xsTotal (p.mm ii) * volume p.pi p.dx ii)

/-- The `center` formula of the backward sweeps (spatial_sweep.py:1083-1094, 1404-1415, 2275-2286). -/
def centerBackward (p : DirInput K) (ii : ℕ) (edge1 half : K) : K :=
  (-p.mu * (area2 p.pi p.dx ii + area1 p.pi p.dx ii) * edge1
    + (1 / p.w) * (area2 p.pi p.dx ii - area1 p.pi p.dx ii) * (p.alphaPlus + p.alphaMinus) * half
    + volume p.pi p.dx ii * p.q ii)
  / (2 * -p.mu * area1 p.pi p.dx ii
    + 2 / p.w * (area2 p.pi p.dx ii - area1 p.pi p.dx ii) * p.alphaPlus
    + p.xsTotal (p.mm ii) * volume p.pi p.dx ii)

/-- The update of one cell after `center` is known (spatial_sweep.py:1020-1027 and copies); both
directions write `flux[ii + 1]` when edges are requested (line 1098). -/
def cellUpdate (p : DirInput K) (edges : Bool) (ii : ℕ) (center : K) (s : DirState K) : DirState K :=
  { flux := if edges then addAt s.flux (ii + 1) (p.weight * (2 * center - s.edge))
      else addAt s.flux ii (p.weight * center)
    psi := setAt s.psi ii center
    edge := 2 * center - s.edge
    half := if ii ≠ 0 then
        setAt s.half ii (1 / p.tau * (center - (1 - p.tau) * s.half ii)) else s.half }

/-- `sphere_forward_iso` (spatial_sweep.py:959-1027), `sphere_forward_aniso` (1277-1346) and
`sphere_forward_scatter` (2108-2194, never with edges). -/
def forward (cells : ℕ) (edges : Bool) (p : DirInput K) (flux half : ℕ → K) : DirState K :=
  let flux := if edges then addAt flux 0 (p.weight * half 0) else flux
  loop cells (fun ii s => cellUpdate p edges ii (centerForward p ii s.edge (s.half ii)) s)
    ⟨flux, half, fun _ => 0, half 0⟩

/-- `sphere_backward_iso` (spatial_sweep.py:1036-1103) and `sphere_backward_aniso` (1355-1425). -/
def backward (cells : ℕ) (edges : Bool) (p : DirInput K) (boundary : K) (flux half : ℕ → K) :
    DirState K :=
  let flux := if edges then addAt flux cells (p.weight * boundary) else flux
  loopDown cells (fun ii s => cellUpdate p edges ii (centerBackward p ii s.edge (s.half ii)) s)
    ⟨flux, half, fun _ => 0, boundary⟩

/-- `sphere_backward_scatter` (spatial_sweep.py:2203-2291): the boundary argument is ignored,
`edge1 = 0` (line 2257-2258). -/
def backwardScatter (cells : ℕ) (p : DirInput K) (_boundary : K) (flux half : ℕ → K) : DirState K :=
  backward cells false p 0 flux half

/-- State of the loop over the ordinates (spatial_sweep.py:759-880). -/
structure AngleState (K : Type*) where
  flux : ℕ → K
  moments : ℕ → ℕ → K
  half : ℕ → K
  angleMinus : K
  alphaMinus : K

/-- The loop over the ordinates (spatial_sweep.py:821-880, 1173-1225, 2030-2078).  `q nn ii` is the
cell source of ordinate `nn`, `inR nn` is `boundary[1, bc]`, `PW l nn` the moment weights
(`np.outer(psi_nn, P_weights[:, nn])`; absent in the isotropic version),
`bwd` selects `backward` or `backwardScatter`. -/
def angleLoop (cells angles : ℕ) (pi : K) (xsTotal : ℕ → K) (q : ℕ → ℕ → K) (inR : ℕ → K)
    (mm : ℕ → ℕ) (dx angleX angleW : ℕ → K) (edges : Bool) (PW : ℕ → ℕ → K)
    (bwd : DirInput K → K → (ℕ → K) → (ℕ → K) → DirState K) (half0 : ℕ → K) :
    Except PyErr (AngleState K) :=
  loopE angles (fun nn s =>
    let anglePlus := s.angleMinus + 2 * angleW nn
    let tau := (angleX nn - s.angleMinus) / (anglePlus - s.angleMinus)
    let alphaPlus := angleCoefCorrector s.alphaMinus (angleX nn) (angleW nn) nn angles
    let p : DirInput K := ⟨pi, xsTotal, q nn, mm, dx, angleX nn, angleW nn, angleW nn, tau, alphaPlus,
      s.alphaMinus⟩
    if 0 < angleX nn then
      let r := forward cells edges p s.flux s.half
      .ok ⟨r.flux, fun ii l => s.moments ii l + r.psi ii * PW l nn, r.half, anglePlus, alphaPlus⟩
    else if angleX nn < 0 then
      let r := bwd p (inR nn) s.flux s.half
      .ok ⟨r.flux, fun ii l => s.moments ii l + r.psi ii * PW l nn, r.half, anglePlus, alphaPlus⟩
    else .error .discontinuity)
    ⟨fun _ => 0, fun _ _ => 0, half0, -1, 0⟩

/-- One pass of the `while` body of `sphere_isotropic_sn` (spatial_sweep.py:804-880). -/
def isotropicSweep (cells angles : ℕ) (pi : K) (xsTotal xsScatter offScatter : ℕ → K)
    (external boundary : Arr2 K) (mm : ℕ → ℕ) (dx angleX angleW : ℕ → K) (edges : Bool)
    (fluxOld : ℕ → K) : Except PyErr (ℕ → K) :=
  let q := fun nn ii => external.val ii nn + offScatter ii + fluxOld ii * xsScatter (mm ii)
  let half0 := halfAngle cells xsTotal
    (fun ii => external.val ii 0 + offScatter ii + xsScatter (mm ii) * fluxOld ii) mm dx
    (boundary.val 1 0)
  (angleLoop cells angles pi xsTotal (fun nn => q (bidx external.angles nn))
    (fun nn => boundary.val 1 (bidx boundary.angles nn)) mm dx angleX angleW edges (fun _ _ => 0)
    (fun p b f h => backward cells edges p b f h) half0).map AngleState.flux

/-- `sphere_isotropic_sn` (spatial_sweep.py:759-887). -/
def isotropicSn (cells angles : ℕ) (conv : (ℕ → K) → (ℕ → K) → Bool) (pi : K)
    (xsTotal xsScatter offScatter : ℕ → K)
    (external boundary : Arr2 K) (mm : ℕ → ℕ) (dx angleX angleW : ℕ → K) (edges : Bool)
    (fluxOld : ℕ → K) : Except PyErr (ℕ → K) :=
  iterateE (isotropicSweep cells angles pi xsTotal xsScatter offScatter external boundary mm dx
    angleX angleW edges) conv 99 fluxOld

/-- One pass of the `while` body of `sphere_anisotropic_sn` (spatial_sweep.py:1154-1225);
`xsSelf0 ii` is `xs_self_scatter[ii, 0]`. -/
def anisotropicSweep (cells angles moments : ℕ) (pi : K) (xsTotal xsSelf0 : ℕ → K) (xsW : ℕ → ℕ → K)
    (offScatter : ℕ → K) (external boundary : Arr2 K) (mm : ℕ → ℕ) (dx angleX angleW : ℕ → K)
    (edges : Bool) (P PW : ℕ → ℕ → K) (old : (ℕ → K) × (ℕ → ℕ → K)) :
    Except PyErr ((ℕ → K) × (ℕ → ℕ → K)) :=
  let aniso : ℕ → ℕ → K := fun ii nn => accum moments fun l => xsW ii l * old.2 ii l * P l nn
  let half0 := halfAngle cells xsTotal
    (fun ii => external.val ii 0 + offScatter ii + xsSelf0 ii * old.1 ii) mm dx (boundary.val 1 0)
  (angleLoop cells angles pi xsTotal
    (fun nn ii => external.val ii (bidx external.angles nn) + offScatter ii + aniso ii nn)
    (fun nn => boundary.val 1 (bidx boundary.angles nn)) mm dx angleX angleW edges PW
    (fun p b f h => backward cells edges p b f h) half0).map fun s => (s.flux, s.moments)

/-- `sphere_anisotropic_sn` (spatial_sweep.py:1111-1232). -/
def anisotropicSn (cells angles moments : ℕ) (conv : (ℕ → K) → (ℕ → K) → Bool) (pi : K)
    (xsTotal xsSelf0 : ℕ → K) (xsW : ℕ → ℕ → K)
    (offScatter : ℕ → K) (external boundary : Arr2 K) (mm : ℕ → ℕ) (dx angleX angleW : ℕ → K)
    (edges : Bool) (P PW : ℕ → ℕ → K) (fluxOld : ℕ → K) : Except PyErr (ℕ → K) :=
  (iterateE (anisotropicSweep cells angles moments pi xsTotal xsSelf0 xsW offScatter external boundary
    mm dx angleX angleW edges P PW) (fun new old => conv new.1 old.1) 99
    (fluxOld, fun ii l => if l = 0 then fluxOld ii else 0)).map Prod.fst

/-- `sphere_scatter_source_sn` (spatial_sweep.py:1964-2080); line 2032 selects the boundary column
with the angle axis of `external`. -/
def scatterSourceSn (cells angles : ℕ) (pi : K) (xsTotal scatterSource : ℕ → K)
    (external boundary : Arr2 K) (mm : ℕ → ℕ) (dx angleX angleW : ℕ → K) : Except PyErr (ℕ → K) :=
  let half0 := halfAngle cells xsTotal (fun ii => external.val ii 0 + scatterSource ii) mm dx
    (boundary.val 1 0)
  (angleLoop cells angles pi xsTotal
    (fun nn ii => external.val ii (bidx external.angles nn) + scatterSource ii)
    (fun nn => boundary.val 1 (bidx external.angles nn)) mm dx angleX angleW false (fun _ _ => 0)
    (fun p b f h => backwardScatter cells p b f h) half0).map AngleState.flux

/-- Number of dimensions of the array bound to `flux` inside `sphere_known_source_sn`: the argument
is two-dimensional, but line 1609 rebinds the name to `np.zeros((cells_x,))`. -/
def knownSourceFluxNdim : ℕ := 1

/-- Indexing an array of `ndim` axes with `k` indices (`flux[:, nn]` has `k = 2`): numpy raises
`IndexError: too many indices` when `k > ndim` (spatial_sweep.py:1557-1724). -/
def indexAxes (ndim k : ℕ) : Except PyErr Unit := if ndim < k then .error .indexError else .ok ()

/-- `sphere_known_source_sn` (spatial_sweep.py:1557-1724): control flow and array ranks.  Every branch
(lines 1638-1719) starts by indexing `flux` with two indices.  If no branch is taken (only zero
ordinates) the zero array of line 1609 is returned.  What the sweeps would have computed after a
successful indexing is not modelled (it is never reached). -/
def knownSourceSn (angles : ℕ) (angleX : ℕ → K) : Except PyErr (ℕ → K) :=
  (loopE angles (fun nn (_ : Unit) =>
    if 0 < angleX nn then indexAxes knownSourceFluxNdim 2
    else if angleX nn < 0 then indexAxes knownSourceFluxNdim 2
    else .ok ()) ()).map fun _ _ => 0

end Discrete1.Sphere
