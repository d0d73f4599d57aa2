import Verif.Model.MultiGroup

/-!
# Model of the slab source iteration in rounded arithmetic

The other modules model numpy's `float64` by an exact ordered field.  Here the same functions are
written once more with a rounding function `rnd` applied after *every* addition, subtraction,
multiplication and division, in Python's order of evaluation (left to right, `*` and `/` before `+` and
`-`).  `numba.jit` is used without `fastmath` and without contraction, so each operation is rounded once.
Changes of sign, comparisons, the literals `0.0` and `0.5`, and copies are exact.

Simplifications: `rnd` is a function of the exact result of the operation, one function for all
operations; overflow, not-a-number and a denominator that underflows to zero are not modelled; the
convergence tests are the arbitrary functions `convIn`, `convOut` of the problem (so any rounded way of
computing them is covered).  Only the slab with isotropic scattering is modelled, cell averages only
(`edges = 0`, which is what `_one_sweep_iso` passes).
-/

namespace Discrete1.Rounded

open Discrete1.Tools Discrete1.MultiGroup Discrete1.Slab

variable {K : Type*} [Field K] [LinearOrder K]

/-- `edge2 = (xs_scatter[mat] * flux_old[ii] + external[ii] + off_scatter[ii]
+ edge1 * (a - 0.5 * xs_total[mat])) / (a + 0.5 * xs_total[mat])` (spatial_sweep.py:428-433 and
484-489), where `m` is `angle_x` (forward) or `-angle_x` (backward) and `a = m / delta_x[ii]`. -/
def edge2 (rnd : K → K) (xsS old ext off e1 m dx xsT : K) : K :=
  rnd (rnd (rnd (rnd (rnd (xsS * old) + ext) + off)
      + rnd (e1 * rnd (rnd (m / dx) - rnd (1 / 2 * xsT))))
    / rnd (rnd (m / dx) + rnd (1 / 2 * xsT)))

/-- `0.5 * angle_w * (edge1 + edge2)` (spatial_sweep.py:439 and 495). -/
def increment (rnd : K → K) (w e1 e2 : K) : K := rnd (rnd (1 / 2 * w) * rnd (e1 + e2))

/-- `flux[ii] += v`: the sum is rounded before it is stored (spatial_sweep.py:396-498). -/
def addAtR (rnd : K → K) (a : ℕ → K) (i : ℕ) (v : K) : ℕ → K := Function.update a i (rnd (a i + v))

/-- `slab_forward_iso` (spatial_sweep.py:396-442) with `edges = 0`. -/
def forwardIso (rnd : K → K) (cells : ℕ) (flux fluxOld xsTotal xsScatter offScatter external : ℕ → K)
    (edge1 : K) (mm : ℕ → ℕ) (dx : ℕ → K) (mu w : K) : (ℕ → K) × K :=
  loop cells (fun ii s =>
    let mat := mm ii
    let e2 := edge2 rnd (xsScatter mat) (fluxOld ii) (external ii) (offScatter ii) s.2 mu (dx ii)
      (xsTotal mat)
    (addAtR rnd s.1 ii (increment rnd w s.2 e2), e2)) (flux, edge1)

/-- `slab_backward_iso` (spatial_sweep.py:451-498) with `edges = 0`. -/
def backwardIso (rnd : K → K) (cells : ℕ) (flux fluxOld xsTotal xsScatter offScatter external : ℕ → K)
    (edge1 : K) (mm : ℕ → ℕ) (dx : ℕ → K) (mu w : K) : (ℕ → K) × K :=
  loopDown cells (fun ii s =>
    let mat := mm ii
    let e2 := edge2 rnd (xsScatter mat) (fluxOld ii) (external ii) (offScatter ii) s.2 (-mu) (dx ii)
      (xsTotal mat)
    (addAtR rnd s.1 ii (increment rnd w s.2 e2), e2)) (flux, edge1)

/-- `_off_scatter` (tools.py:145-181). -/
def offScatter (rnd : K → K) (groups : ℕ) (flux fluxOld : ℕ → ℕ → K) (mm : ℕ → ℕ)
    (xs : ℕ → ℕ → ℕ → K) (gg : ℕ) : ℕ → K := fun ii =>
  let acc := loop gg (fun og acc => rnd (acc + rnd (xs (mm ii) gg og * flux ii og))) 0
  loop (groups - (gg + 1))
    (fun k acc => rnd (acc + rnd (xs (mm ii) gg (gg + 1 + k) * fluxOld ii (gg + 1 + k)))) acc

/-- The loop over the ordinates of `slab_isotropic_sn` (spatial_sweep.py:335-375);
`edge1 = reflector[nn] + boundary[.., bc]` is a rounded addition. -/
def angleLoop (rnd : K → K) (angles : ℕ) (angleX : ℕ → K) (bcL bcR : Bool) (inL inR : ℕ → K)
    (fwd bwd : ℕ → (ℕ → K) → K → (ℕ → K) × K) (start : ℕ → K) :
    Except PyErr (AngleState K (ℕ → K)) :=
  loopE angles (fun nn s =>
    if 0 < angleX nn then
      let r := fwd nn s.acc (rnd (s.reflector nn + inL nn))
      .ok ⟨r.1, reflectorCorrector angles s.reflector angleX r.2 nn bcL bcR, r.2⟩
    else if angleX nn < 0 then
      let r := bwd nn s.acc (rnd (s.reflector nn + inR nn))
      .ok ⟨r.1, reflectorCorrector angles s.reflector angleX r.2 nn bcL bcR, r.2⟩
    else .error .discontinuity) ⟨start, fun _ => 0, 0⟩

/-- One pass of the `while` body of `slab_isotropic_sn` (spatial_sweep.py:332-375). -/
def isotropicSweep (rnd : K → K) (cells angles : ℕ) (xsTotal xsScatter offScatter : ℕ → K)
    (external boundary : Arr2 K) (mm : ℕ → ℕ) (dx angleX angleW : ℕ → K) (bcL bcR : Bool)
    (fluxOld : ℕ → K) : Except PyErr (ℕ → K) :=
  let ext := fun nn ii => external.val ii (bidx external.angles nn)
  (angleLoop rnd angles angleX bcL bcR
    (fun nn => boundary.val 0 (bidx boundary.angles nn))
    (fun nn => boundary.val 1 (bidx boundary.angles nn))
    (fun nn flux e => forwardIso rnd cells flux fluxOld xsTotal xsScatter offScatter (ext nn) e mm dx
      (angleX nn) (angleW nn))
    (fun nn flux e => backwardIso rnd cells flux fluxOld xsTotal xsScatter offScatter (ext nn) e mm dx
      (angleX nn) (angleW nn))
    (fun _ => 0)).map AngleState.acc

/-- `slab_isotropic_sn` (spatial_sweep.py:268-387), `count_nn = 100` (line 26). -/
def isotropicSn (rnd : K → K) (cells angles : ℕ) (conv : (ℕ → K) → (ℕ → K) → Bool)
    (xsTotal xsScatter offScatter : ℕ → K)
    (external boundary : Arr2 K) (mm : ℕ → ℕ) (dx angleX angleW : ℕ → K) (bcL bcR : Bool)
    (fluxOld : ℕ → K) : Except PyErr (ℕ → K) :=
  iterateE (isotropicSweep rnd cells angles xsTotal xsScatter offScatter external boundary mm dx angleX
    angleW bcL bcR) conv 99 fluxOld

/-- Body of the group loop of `_one_sweep_iso` (multi_group.py:154-190), slab branch. -/
def groupStepIso (rnd : K → K) (p : Problem K) (xsTotal : ℕ → ℕ → K) (xsScatter : ℕ → ℕ → ℕ → K)
    (external boundary : Arr3 K) (fluxOld : ℕ → ℕ → K) (gg : ℕ) (flux : ℕ → ℕ → K) :
    Except PyErr (ℕ → ℕ → K) :=
  (isotropicSn rnd p.cells p.angles p.convIn (fun m => xsTotal m gg) (fun m => xsScatter m gg gg)
    (offScatter rnd p.groups flux fluxOld p.mm xsScatter gg)
    (external.group (bidx external.groups gg)) (boundary.group (bidx boundary.groups gg)) p.mm p.dx
    p.angleX p.angleW p.bcL p.bcR (fun i => fluxOld i gg)).map (putCol flux gg)

/-- `_one_sweep_iso` (multi_group.py:136-191). -/
def oneSweepIso (rnd : K → K) (p : Problem K) (xsTotal : ℕ → ℕ → K) (xsScatter : ℕ → ℕ → ℕ → K)
    (external boundary : Arr3 K) (fluxOld : ℕ → ℕ → K) : Except PyErr (ℕ → ℕ → K) :=
  loopE p.groups (groupStepIso rnd p xsTotal xsScatter external boundary fluxOld) (fun _ _ => 0)

/-- `source_iteration_iso` (multi_group.py:269-353), `count_gg = 100`. -/
def sourceIterationIso (rnd : K → K) (p : Problem K) (xsTotal : ℕ → ℕ → K)
    (xsScatter : ℕ → ℕ → ℕ → K) (external boundary : Arr3 K) (fluxOld : ℕ → ℕ → K) :
    Except PyErr (ℕ → ℕ → K) :=
  iterateE (oneSweepIso rnd p xsTotal xsScatter external boundary) p.convOut 99 fluxOld

end Discrete1.Rounded
