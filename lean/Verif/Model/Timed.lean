import Verif.Model.MultiGroup
import Verif.Model.Hybrid

/-!
# Model of `fixed1d.py`, `timed1d.py`, `hybrid1d.py` and `vhybrid1d.py`

Angular fluxes `(cells, angles, groups)` are `ℕ → ℕ → ℕ → K` (cell, angle, group).
A time dependent source `(steps or 1, ...)` is a `TimeArr`.
-/

namespace Discrete1.Drivers

open Discrete1.Tools Discrete1.MultiGroup

variable {K : Type*} [Field K] [LinearOrder K]

/-- `np.zeros((2, 1, 1))` (critical1d.py:75, hybrid1d.py:249, vhybrid1d.py:37). -/
def zeroBoundary : Arr3 K := ⟨1, 1, fun _ _ _ => 0⟩

/-! ### fixed1d.py -/

/-- What the fixed-source drivers return: a scalar flux `(cells(+1), groups)` or an angular flux
(fixed1d.py:14-315). -/
inductive FixedOut (K : Type*)
  | scalar (f : ℕ → ℕ → K)
  | angular (f : ℕ → ℕ → ℕ → K)

/-- `known_source_calculation` (fixed1d.py:225-315).  `_source_total` (line 286) is compiled for
three-dimensional scattering arrays only (tools.py:312-314): four-dimensional ones raise TypeError. -/
def knownSourceCalculation (p : Problem K) (flux : ℕ → ℕ → K) (xsTotal : ℕ → ℕ → K) (xs : Scatter K)
    (external boundary : Arr3 K) (angular edges : Bool) : Except PyErr (FixedOut K) :=
  match xs with
  | .aniso _ _ => .error .typeError
  | .iso xs =>
    let source : Arr3 K := ⟨p.angles, p.groups, sourceTotal p.groups flux xs p.mm external⟩
    if angular = false ∧ edges = true then
      (knownSourceScalar p xsTotal source boundary edges).map .scalar
    else (knownSourceAngular p xsTotal source boundary edges).map .angular

/-- `fixed1d.source_iteration` (fixed1d.py:14-113). -/
def fixedSourceIteration (p : Problem K) (xsTotal : ℕ → ℕ → K) (scatter : Scatter K)
    (fission : Fission K) (external boundary : Arr3 K) (angular edges : Bool) :
    Except PyErr (FixedOut K) :=
  let xsMatrix := transferMatrix scatter fission
  match sourceIteration p xsTotal xsMatrix external boundary (fun _ _ => 0) with
  | .error e => .error e
  | .ok flux =>
    if angular = false ∧ edges = false then .ok (.scalar flux)
    else knownSourceCalculation p flux xsTotal xsMatrix external boundary angular edges

/-! ### Time dependent data -/

/-- An array whose first axis is time: `steps` is `shape[0]` (timed1d.py:15-266). -/
structure TimeArr (K : Type*) where
  steps : ℕ
  at_ : ℕ → Arr3 K

/-- `qq = 0 if external.shape[0] == 1 else step; external[qq]` (timed1d.py:92-93, 213-214;
hybrid1d.py:254-255, 546-547; vhybrid1d.py:66-67, 190-191); IndexError past the end. -/
def TimeArr.get (a : TimeArr K) (step : ℕ) : Except PyErr (Arr3 K) :=
  if bidx a.steps step < a.steps then .ok (a.at_ (bidx a.steps step)) else .error .indexError

/-- `np.sum(flux_last * angle_w[None, :, None], axis=1)` (timed1d.py:78). -/
def scalarFlux (p : Problem K) (psi : ℕ → ℕ → ℕ → K) : ℕ → ℕ → K :=
  fun i g => accum p.angles fun n => psi i n g * p.angleW n

/-- `xs_total + c / (velocity * dt)` with `c` the numerator (timed1d.py:87, 264). -/
def xsStar (xsTotal : ℕ → ℕ → K) (c : K) (velocity : ℕ → K) (dt : K) : ℕ → ℕ → K :=
  fun m g => xsTotal m g + c / (velocity g * dt)

/-- `q_star = external[qq] + 1 / (velocity * dt) * flux_last` (timed1d.py:96, 219; hybrid1d.py:258, 552);
numpy broadcasts length-one axes of `external[qq]` against the full angular flux. -/
def qStar1 (ext : Arr3 K) (velocity : ℕ → K) (dt : K) (psi : ℕ → ℕ → ℕ → K) : ℕ → ℕ → ℕ → K :=
  fun i n g => ext.val i (bidx ext.angles n) (bidx ext.groups g) + 1 / (velocity g * dt) * psi i n g

/-- `q_star = external[qq] + 2/(v dt) flux_last_1 - 1/(2 v dt) flux_last_2` (timed1d.py:222-226,
hybrid1d.py:555-559). -/
def qStar2 (ext : Arr3 K) (velocity : ℕ → K) (dt : K) (psi1 psi2 : ℕ → ℕ → ℕ → K) :
    ℕ → ℕ → ℕ → K := fun i n g =>
  ext.val i (bidx ext.angles n) (bidx ext.groups g) + 2 / (velocity g * dt) * psi1 i n g
    - 1 / (2 * velocity g * dt) * psi2 i n g

/-- The full-shape array `q_star` (timed1d.py:15-266). -/
def fullArr (p : Problem K) (q : ℕ → ℕ → ℕ → K) : Arr3 K := ⟨p.angles, p.groups, q⟩

/-! ### timed1d.py -/

/-- The part of a time step shared by both integrators (timed1d.py:99-129, 229-260): source iteration
with `q_star`, add the scattering source, solve for the angular flux.  Returns the scalar flux and the
angular flux.  `_time_right_side` (line 115, 245) is compiled for three-dimensional scattering arrays
only (tools.py:448). -/
def timedSolve (p : Problem K) (xsV : ℕ → ℕ → K) (xsMatrix : Scatter K) (q : ℕ → ℕ → ℕ → K)
    (bnd : Arr3 K) (fluxOld : ℕ → ℕ → K) : Except PyErr ((ℕ → ℕ → K) × (ℕ → ℕ → ℕ → K)) :=
  match sourceIteration p xsV xsMatrix (fullArr p q) bnd fluxOld with
  | .error e => .error e
  | .ok flux =>
    match xsMatrix with
    | .aniso _ _ => .error .typeError
    | .iso xs =>
      match knownSourceAngular p xsV (fullArr p (timeRightSide p.groups q flux xs p.mm)) bnd false with
      | .error e => .error e
      | .ok psi => .ok (flux, psi)

/-- Variables live across the time steps of `backward_euler` (timed1d.py:15-131). -/
structure BEState (K : Type*) where
  fluxOld : ℕ → ℕ → K
  psi : ℕ → ℕ → ℕ → K
  /-- `flux_time` -/
  out : ℕ → ℕ → ℕ → K

/-- Body of the time loop of `timed1d.backward_euler` (timed1d.py:90-129). -/
def beStep (p : Problem K) (xsTotal : ℕ → ℕ → K) (xsMatrix : Scatter K) (velocity : ℕ → K)
    (external boundary : TimeArr K) (dt : K) (step : ℕ) (s : BEState K) : Except PyErr (BEState K) :=
  match external.get step, boundary.get step with
  | .error e, _ => .error e
  | .ok _, .error e => .error e
  | .ok ext, .ok bnd =>
    match timedSolve p (xsStar xsTotal 1 velocity dt) xsMatrix (qStar1 ext velocity dt s.psi) bnd
      s.fluxOld with
    | .error e => .error e
    | .ok r => .ok ⟨r.1, r.2, Function.update s.out step r.1⟩

/-- `timed1d.backward_euler` (timed1d.py:15-131). -/
def backwardEuler (p : Problem K) (xsTotal : ℕ → ℕ → K) (scatter : Scatter K) (fission : Fission K)
    (velocity : ℕ → K) (external boundary : TimeArr K) (steps : ℕ) (dt : K)
    (fluxLast : ℕ → ℕ → ℕ → K) : Except PyErr (ℕ → ℕ → ℕ → K) :=
  (loopE steps (beStep p xsTotal (transferMatrix scatter fission) velocity external boundary dt)
    ⟨scalarFlux p fluxLast, fluxLast, fun _ _ _ => 0⟩).map BEState.out

/-- Variables live across the time steps of `bdf2` (timed1d.py:134-266). -/
structure BDFState (K : Type*) where
  fluxOld : ℕ → ℕ → K
  psi1 : ℕ → ℕ → ℕ → K
  psi2 : ℕ → ℕ → ℕ → K
  xsV : ℕ → ℕ → K
  out : ℕ → ℕ → ℕ → K

/-- Body of the time loop of `timed1d.bdf2` (timed1d.py:211-264). -/
def bdfStep (p : Problem K) (xsTotal : ℕ → ℕ → K) (xsMatrix : Scatter K) (velocity : ℕ → K)
    (external boundary : TimeArr K) (dt : K) (step : ℕ) (s : BDFState K) :
    Except PyErr (BDFState K) :=
  match external.get step, boundary.get step with
  | .error e, _ => .error e
  | .ok _, .error e => .error e
  | .ok ext, .ok bnd =>
    let q := if step = 0 then qStar1 ext velocity dt s.psi1 else qStar2 ext velocity dt s.psi1 s.psi2
    match timedSolve p s.xsV xsMatrix q bnd s.fluxOld with
    | .error e => .error e
    | .ok r => .ok
      { fluxOld := r.1
        psi1 := r.2
        psi2 := s.psi1
        xsV := if step = 0 then xsStar xsTotal (3 / 2) velocity dt else s.xsV
        out := Function.update s.out step r.1 }

/-- `timed1d.bdf2` (timed1d.py:134-266). -/
def bdf2 (p : Problem K) (xsTotal : ℕ → ℕ → K) (scatter : Scatter K) (fission : Fission K)
    (velocity : ℕ → K) (external boundary : TimeArr K) (steps : ℕ) (dt : K)
    (fluxLast : ℕ → ℕ → ℕ → K) : Except PyErr (ℕ → ℕ → ℕ → K) :=
  (loopE steps (bdfStep p xsTotal (transferMatrix scatter fission) velocity external boundary dt)
    ⟨scalarFlux p fluxLast, fluxLast, fun _ _ _ => 0, xsStar xsTotal 1 velocity dt,
      fun _ _ _ => 0⟩).map BDFState.out

/-! ### hybrid1d.py -/

/-- `_hybrid_method` (hybrid1d.py:612-673): returns the updated `q_star` (the only argument whose change
the caller sees; `flux_u`, `flux_c` are rebound locally) together with the combined flux that
`_hybrid_source_total` leaves in its `flux_u`.  `pU`, `pC` describe the fine and the collided
discretisation; `flux_c` of the caller is always zero.
`_hybrid_source_collided` / `_hybrid_source_total` accept three-dimensional scattering arrays only. -/
def hybridMethod (pU pC : Problem K) (xsTotalU xsTotalC : ℕ → ℕ → K) (xsU xsC : Scatter K)
    (q : ℕ → ℕ → ℕ → K) (bnd : Arr3 K) (coarseIdx : ℕ → ℕ) (factor : ℕ → K) :
    Except PyErr ((ℕ → ℕ → K) × (ℕ → ℕ → ℕ → K)) :=
  match knownSourceScalar pU xsTotalU (fullArr pU q) bnd false with
  | .error e => .error e
  | .ok fluxU =>
    match xsU with
    | .aniso _ _ => .error .typeError
    | .iso xs =>
      let sourceC : Arr3 K :=
        ⟨1, pC.groups, fun i _ c => hybridSourceCollided pU.groups fluxU xs pU.mm coarseIdx i c⟩
      match sourceIteration pC xsTotalC xsC sourceC zeroBoundary (fun _ _ => 0) with
      | .error e => .error e
      | .ok fluxC =>
        .ok (hybridSourceTotal pU.cells pU.angles pU.groups fluxU fluxC xs q pU.mm coarseIdx factor)

/-- Variables live across the time steps of the hybrid integrators (hybrid1d.py:143-609). -/
structure HybState (K : Type*) where
  psi1 : ℕ → ℕ → ℕ → K
  psi2 : ℕ → ℕ → ℕ → K
  /-- numerator of the time term in `xs_total_star`: 1, then 3/2 for `bdf2` -/
  num : K
  out : ℕ → ℕ → ℕ → K

/-- Body of the time loop of `hybrid1d.backward_euler` (hybrid1d.py:252-300, `second = false`) and of
`hybrid1d.bdf2` (hybrid1d.py:544-607, `second = true`). -/
def hybridStep (second : Bool) (pU pC : Problem K) (xsTotalU xsTotalC : ℕ → ℕ → K)
    (xsU xsC : Scatter K) (velocityU velocityC : ℕ → K) (external boundary : TimeArr K)
    (coarseIdx : ℕ → ℕ) (factor : ℕ → K) (dt : K) (step : ℕ) (s : HybState K) :
    Except PyErr (HybState K) :=
  match external.get step, boundary.get step with
  | .error e, _ => .error e
  | .ok _, .error e => .error e
  | .ok ext, .ok bnd =>
    let q := if second = true ∧ step ≠ 0 then qStar2 ext velocityU dt s.psi1 s.psi2
      else qStar1 ext velocityU dt s.psi1
    let xsVU := xsStar xsTotalU s.num velocityU dt
    let xsVC := xsStar xsTotalC s.num velocityC dt
    match hybridMethod pU pC xsVU xsVC xsU xsC q bnd coarseIdx factor with
    | .error e => .error e
    | .ok r =>
      match knownSourceAngular pU xsVU (fullArr pU r.2) bnd false with
      | .error e => .error e
      | .ok psi => .ok
        { psi1 := psi
          psi2 := s.psi1
          num := if second = true ∧ step = 0 then 3 / 2 else s.num
          out := Function.update s.out step (scalarFlux pU psi) }

/-- `hybrid1d.backward_euler` (hybrid1d.py:143-302) and `hybrid1d.bdf2` (hybrid1d.py:431-609). -/
def hybridRun (second : Bool) (pU pC : Problem K) (xsTotalU xsTotalC : ℕ → ℕ → K)
    (scatterU scatterC : Scatter K) (fissionU fissionC : Fission K) (velocityU velocityC : ℕ → K)
    (external boundary : TimeArr K) (coarseIdx : ℕ → ℕ) (factor : ℕ → K) (steps : ℕ) (dt : K)
    (fluxLast : ℕ → ℕ → ℕ → K) : Except PyErr (ℕ → ℕ → ℕ → K) :=
  (loopE steps (hybridStep second pU pC xsTotalU xsTotalC (transferMatrix scatterU fissionU)
    (transferMatrix scatterC fissionC) velocityU velocityC external boundary coarseIdx factor dt)
    ⟨fluxLast, fun _ _ _ => 0, 1, fun _ _ _ => 0⟩).map HybState.out

/-! ### vhybrid1d.py -/

/-- Collided within-group cross section of `_variable_source_iteration_iso` (multi_group.py:611-617). -/
def varScatterC (xs : ℕ → ℕ → ℕ → K) (deltaFine deltaCoarse : ℕ → K) (e : ℕ → ℕ) (gg mat : ℕ) : K :=
  (∑ og ∈ Finset.Ico (e gg) (e (gg + 1)), ∑ ig ∈ Finset.Ico (e gg) (e (gg + 1)),
    xs mat og ig * deltaFine ig) / deltaCoarse gg

/-- Collided total cross section (multi_group.py:619-623), including `star_coef_c[gg]`. -/
def varTotalC (xsTotal : ℕ → ℕ → K) (star deltaFine deltaCoarse : ℕ → K) (e : ℕ → ℕ) (gg mat : ℕ) : K :=
  (∑ g ∈ Finset.Ico (e gg) (e (gg + 1)), xsTotal mat g * deltaFine g) / deltaCoarse gg + star gg

/-- The call of `_variable_off_scatter` (multi_group.py:626-634): fluxes divided by the coarse widths,
`xs_scatter[:, idx1:idx2] * delta_fine` (row `r` of the slice is outgoing group `idx1 + r`). -/
def varOffScatter (groupsC : ℕ) (flux fluxOld : ℕ → ℕ → K) (mm : ℕ → ℕ) (xs : ℕ → ℕ → ℕ → K)
    (deltaFine deltaCoarse : ℕ → K) (e : ℕ → ℕ) (gg : ℕ) : ℕ → K :=
  variableOffScatter groupsC (e (gg + 1) - e gg) (fun i c => flux i c / deltaCoarse c)
    (fun i c => fluxOld i c / deltaCoarse c) mm
    (fun m r ig => xs m (e gg + r) ig * deltaFine ig) gg e

/-- Body of the group loop of `_variable_source_iteration_iso` (multi_group.py:603-665). -/
def varGroupStep (p : Problem K) (xsTotal : ℕ → ℕ → K) (star : ℕ → K) (xs : ℕ → ℕ → ℕ → K)
    (external boundary : Arr3 K) (deltaCoarse deltaFine : ℕ → K) (e : ℕ → ℕ) (fluxOld : ℕ → ℕ → K)
    (gg : ℕ) (flux : ℕ → ℕ → K) : Except PyErr (ℕ → ℕ → K) :=
  let ext := external.group (bidx external.groups gg)
  let bnd := boundary.group (bidx boundary.groups gg)
  let off := varOffScatter p.groups flux fluxOld p.mm xs deltaFine deltaCoarse e gg
  let total := varTotalC xsTotal star deltaFine deltaCoarse e gg
  let self := varScatterC xs deltaFine deltaCoarse e gg
  if p.geometry = 1 then
    (Slab.isotropicSn p.cells p.angles p.convIn total self off ext bnd p.mm p.dx p.angleX p.angleW
      p.bcL p.bcR false (fun i => fluxOld i gg)).map (putCol flux gg)
  else if p.geometry = 2 then
    (Sphere.isotropicSn p.cells p.angles p.convIn p.pi total self off ext bnd p.mm p.dx p.angleX
      p.angleW false (fun i => fluxOld i gg)).map (putCol flux gg)
  else .ok flux

/-- `_variable_source_iteration_iso` (multi_group.py:574-675); `p.groups` is the number of collided
groups. -/
def variableSourceIteration (p : Problem K) (xsTotal : ℕ → ℕ → K) (star : ℕ → K)
    (xs : ℕ → ℕ → ℕ → K) (external boundary : Arr3 K) (deltaCoarse deltaFine : ℕ → K) (e : ℕ → ℕ)
    (fluxOld : ℕ → ℕ → K) : Except PyErr (ℕ → ℕ → K) :=
  iterateE (fun old => loopE p.groups (varGroupStep p xsTotal star xs external boundary deltaCoarse
    deltaFine e old) (fun _ _ => 0)) p.convOut 99 fluxOld

/-- What `hytools.energy_grid_change` returns (hybrid.py:381-423) for one number of collided groups,
plus the collided discretisation obtained from `angular_x(angles_c, bc_x)` (vhybrid1d.py:323). -/
structure Collided (K : Type*) where
  pC : Problem K
  coarseIdx : ℕ → ℕ
  factor : ℕ → K
  /-- `edges_gidx_c` -/
  e : ℕ → ℕ
  /-- `edges_g` -/
  edges : ℕ → K

/-- `_variable_hybrid_method` (vhybrid1d.py:279-351), isotropic data; `starU`, `starC` are the star
coefficients.  Returns (combined flux, updated `q_star`). -/
def variableHybridMethod (pU : Problem K) (c : Collided K) (xsTotalU : ℕ → ℕ → K) (starU starC : ℕ → K)
    (xs : ℕ → ℕ → ℕ → K) (q : ℕ → ℕ → ℕ → K) (bnd : Arr3 K) :
    Except PyErr ((ℕ → ℕ → K) × (ℕ → ℕ → ℕ → K)) :=
  match knownSourceScalar pU (fun m g => xsTotalU m g + starU g) (fullArr pU q) bnd false with
  | .error e => .error e
  | .ok fluxU =>
    let sourceC : Arr3 K :=
      ⟨1, c.pC.groups, fun i _ k => hybridSourceCollided pU.groups fluxU xs pU.mm c.coarseIdx i k⟩
    let deltaCoarse := Hybrid.diffIdx c.edges c.e
    let deltaFine := Hybrid.diff c.edges
    match variableSourceIteration c.pC xsTotalU starC xs sourceC zeroBoundary deltaCoarse deltaFine c.e
      (coarsenFlux c.e fluxU) with
    | .error e => .error e
    | .ok fluxC =>
      .ok (hybridSourceTotal pU.cells pU.angles pU.groups fluxU fluxC xs q pU.mm c.coarseIdx c.factor)

/-- Variables live across the time steps of `vhybrid1d`: `starU` is `star_coef_u`. `star_coef_c` is
recomputed: for array `groups_c` at every step (vhybrid1d.py:205-208), for an `int` once and again
after step 0 (lines 181, 271-274); both give `num / (coarse velocity * dt)` with `num = 1` at step 0 and
`3/2` later (`1` always for `backward_euler`). -/
structure VHybState (K : Type*) where
  psi1 : ℕ → ℕ → ℕ → K
  psi2 : ℕ → ℕ → ℕ → K
  starU : ℕ → K
  out : ℕ → ℕ → ℕ → K

/-- Body of the time loop of `vhybrid1d.backward_euler` (vhybrid1d.py:64-129, `second = false`) and
`vhybrid1d.bdf2` (vhybrid1d.py:188-274, `second = true`); `grid step` is the collided grid of the step
(constant when `groups_c`, `angles_c` are integers). -/
def vhybridStep (second : Bool) (pU : Problem K) (grid : ℕ → Collided K) (xsTotalU : ℕ → ℕ → K)
    (xs : ℕ → ℕ → ℕ → K) (velocity : ℕ → K) (external boundary : TimeArr K) (dt : K) (step : ℕ)
    (s : VHybState K) : Except PyErr (VHybState K) :=
  match external.get step, boundary.get step with
  | .error e, _ => .error e
  | .ok _, .error e => .error e
  | .ok ext, .ok bnd =>
    let num : K := if second = true ∧ step ≠ 0 then 3 / 2 else 1
    let starC := fun k => num / (Hybrid.coarsenVelocity velocity (grid step).e k * dt)
    let q : ℕ → ℕ → ℕ → K := if second = true ∧ step ≠ 0 then fun i n g =>
        ext.val i (bidx ext.angles n) (bidx ext.groups g) + 4 / 3 * s.starU g * s.psi1 i n g
          - 1 / 3 * s.starU g * s.psi2 i n g
      else fun i n g =>
        ext.val i (bidx ext.angles n) (bidx ext.groups g) + s.starU g * s.psi1 i n g
    match variableHybridMethod pU (grid step) xsTotalU s.starU starC xs q bnd with
    | .error e => .error e
    | .ok r =>
      match knownSourceAngular pU (fun m g => xsTotalU m g + s.starU g) (fullArr pU r.2) bnd false with
      | .error e => .error e
      | .ok psi => .ok
        { psi1 := psi
          psi2 := s.psi1
          starU := if second = true ∧ step = 0 then fun g => (3 / 2) / (velocity g * dt) else s.starU
          out := Function.update s.out step (scalarFlux pU psi) }

/-- `vhybrid1d.backward_euler` (vhybrid1d.py:11-131) / `vhybrid1d.bdf2` (vhybrid1d.py:134-276);
`xs_matrix_u = xs_scatter_u + xs_fission_u`. -/
def vhybridRun (second : Bool) (pU : Problem K) (grid : ℕ → Collided K) (xsTotalU : ℕ → ℕ → K)
    (scatter fission : ℕ → ℕ → ℕ → K) (velocity : ℕ → K) (external boundary : TimeArr K) (steps : ℕ)
    (dt : K) (fluxLast : ℕ → ℕ → ℕ → K) : Except PyErr (ℕ → ℕ → ℕ → K) :=
  (loopE steps (vhybridStep second pU grid xsTotalU (fun m o i => scatter m o i + fission m o i)
    velocity external boundary dt)
    ⟨fluxLast, fun _ _ _ => 0, fun g => 1 / (velocity g * dt), fun _ _ _ => 0⟩).map VHybState.out

end Discrete1.Drivers
