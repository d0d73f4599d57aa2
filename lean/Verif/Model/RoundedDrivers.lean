import Verif.Model.Rounded
import Verif.Model.Critical

/-!
# Model of `critical1d.power_iteration` and `timed1d.backward_euler` in rounded arithmetic

Continues `Model/Rounded.lean`: the rounding function `rnd` is applied after every addition, subtraction,
multiplication and division, in Python's order of evaluation.  As there, `rnd` depends on the exact result of the
operation only, and overflow, not-a-number and underflow to zero of a divisor are not modelled (a division by zero is
zero in the model; the theorems show that no divisor is zero).  Only slabs with isotropic scattering are modelled.
`np.linalg.norm` is an arbitrary function, so any order of summation and any way of rounding in it is covered; so are
the convergence tests.
-/

namespace Discrete1.Rounded

open Discrete1.Tools Discrete1.MultiGroup Discrete1.Slab Discrete1.Drivers Discrete1.Critical

variable {K : Type*} [Field K] [LinearOrder K]

/-- `total = 0.0; for ..: total += f(i)` with rounded additions (tools.py:738-742). -/
def accumR (rnd : K → K) (n : ℕ) (f : ℕ → K) : K := loop n (fun i acc => rnd (acc + f i)) 0

/-! ### critical1d.power_iteration -/

/-- `xs_fission[mat].sum()` (tools.py:735, 781): numba adds the elements in the order of the array. -/
def matSum (rnd : K → K) (groups : ℕ) (xs : ℕ → ℕ → K) : K :=
  loop groups (fun og acc => loop groups (fun ig acc => rnd (acc + xs og ig)) acc) 0

/-- `fission_mat_prod` (tools.py:682-744). -/
def fissionMatProd (rnd : K → K) (groups : ℕ) (flux : ℕ → ℕ → K) (xs : ℕ → ℕ → ℕ → K) (mm : ℕ → ℕ) (keff : K) :
    ℕ → ℕ → K := fun ii og =>
  if matSum rnd groups (xs (mm ii)) = 0 then 0
  else rnd (accumR rnd groups (fun ig => rnd (flux ii ig * xs (mm ii) og ig)) / keff)

/-- `fission_vec_prod` (tools.py:795-860): `flux * chi * nusigf` is `(flux * chi) * nusigf`. -/
def fissionVecProd (rnd : K → K) (groups : ℕ) (flux : ℕ → ℕ → K) (chi nusigf : ℕ → ℕ → K) (mm : ℕ → ℕ)
    (keff : K) : ℕ → ℕ → K := fun ii og =>
  if accumR rnd groups (fun g => chi (mm ii) g) = 0 then 0
  else rnd (accumR rnd groups (fun ig => rnd (rnd (flux ii ig * chi (mm ii) og) * nusigf (mm ii) ig)) / keff)

/-- The power source (critical1d.py:92-95). -/
def fissionSource (rnd : K → K) (groups : ℕ) (mm : ℕ → ℕ) (fission : Fission K) (flux : ℕ → ℕ → K) (keff : K) :
    Arr3 K :=
  match fission with
  | .matrix xs => ⟨1, groups, fun i _ g => fissionMatProd rnd groups flux xs mm keff i g⟩
  | .vector chi nu => ⟨1, groups, fun i _ g => fissionVecProd rnd groups flux chi nu mm keff i g⟩

/-- The fission rates of `_update_keff_mat` (tools.py:776-786). -/
def rateMat (rnd : K → K) (cells groups : ℕ) (flux : ℕ → ℕ → K) (xs : ℕ → ℕ → ℕ → K) (mm : ℕ → ℕ) : K :=
  loop cells (fun ii rate =>
    if matSum rnd groups (xs (mm ii)) = 0 then rate
    else loop groups (fun og rate =>
      loop groups (fun ig rate => rnd (rate + rnd (flux ii ig * xs (mm ii) og ig))) rate) rate) 0

/-- The fission rates of `_update_keff_vec` (tools.py:896-906). -/
def rateVec (rnd : K → K) (cells groups : ℕ) (flux : ℕ → ℕ → K) (chi nusigf : ℕ → ℕ → K) (mm : ℕ → ℕ) : K :=
  loop cells (fun ii rate =>
    if accumR rnd groups (fun g => chi (mm ii) g) = 0 then rate
    else loop groups (fun og rate =>
      loop groups (fun ig rate => rnd (rate + rnd (rnd (flux ii ig * chi (mm ii) og) * nusigf (mm ii) ig)))
        rate) rate) 0

/-- `(rate_new * keff) / rate_old` of `_update_keff_mat` (tools.py:748-787) and `_update_keff_vec`
(tools.py:866-907). -/
def updateKeff (rnd : K → K) (cells groups : ℕ) (mm : ℕ → ℕ) (fission : Fission K) (flux fluxOld : ℕ → ℕ → K)
    (keff : K) : K :=
  match fission with
  | .matrix xs => rnd (rnd (rateMat rnd cells groups flux xs mm * keff) / rateMat rnd cells groups fluxOld xs mm)
  | .vector chi nu =>
    rnd (rnd (rateVec rnd cells groups flux chi nu mm * keff) / rateVec rnd cells groups fluxOld chi nu mm)

/-- `flux /= np.linalg.norm(flux)` (critical1d.py:121). -/
def normalise (rnd : K → K) (norm : (ℕ → ℕ → K) → K) (flux : ℕ → ℕ → K) : ℕ → ℕ → K :=
  fun i g => rnd (flux i g / norm flux)

/-- The start of the power iteration (critical1d.py:79-81). -/
def start (rnd : K → K) (norm : (ℕ → ℕ → K) → K) (random : ℕ → ℕ → K) : KState K :=
  ⟨fun i g => rnd (random i g / |norm random|), norm random⟩

/-- The `while` body up to the normalisation (critical1d.py:91-121). -/
def powerStep (rnd : K → K) (p : Problem K) (norm : (ℕ → ℕ → K) → K) (xsTotal : ℕ → ℕ → K)
    (xs : ℕ → ℕ → ℕ → K) (fission : Fission K) (s : KState K) : Except PyErr (KState K) :=
  match sourceIterationIso rnd p xsTotal xs (fissionSource rnd p.groups p.mm fission s.flux s.keff) zeroBoundary
    s.flux with
  | .error e => .error e
  | .ok flux =>
    .ok ⟨normalise rnd norm flux, updateKeff rnd p.cells p.groups p.mm fission flux s.flux s.keff⟩

/-- `power_iteration` (critical1d.py:30-135) with `counter=True`; `count_kk = 100`. -/
def powerIteration (rnd : K → K) (p : Problem K) (norm : (ℕ → ℕ → K) → K)
    (conv : (ℕ → ℕ → K) → (ℕ → ℕ → K) → Bool) (xsTotal : ℕ → ℕ → K) (xs : ℕ → ℕ → ℕ → K) (fission : Fission K)
    (random : ℕ → ℕ → K) : Except PyErr (KState K × ℕ) :=
  powerLoop (powerStep rnd p norm xsTotal xs fission) conv 99 0 (start rnd norm random)

/-! ### timed1d.backward_euler -/

/-- `transfer_matrix` (tools.py:67-105) for isotropic scattering: `xs_matrix += xs_fission`, or
`xs_scatter + chi * nusigf`. -/
def transferMatrix (rnd : K → K) (xs : ℕ → ℕ → ℕ → K) (fission : Fission K) : ℕ → ℕ → ℕ → K :=
  match fission with
  | .matrix f => fun mat og ig => rnd (xs mat og ig + f mat og ig)
  | .vector chi nu => fun mat og ig => rnd (xs mat og ig + rnd (chi mat og * nu mat ig))

/-- `1 / (velocity * dt)` (timed1d.py:87, 96). -/
def timeRate (rnd : K → K) (velocity : ℕ → K) (dt : K) (g : ℕ) : K := rnd (1 / rnd (velocity g * dt))

/-- `xs_total + 1 / (velocity * dt)` (timed1d.py:87). -/
def xsStar (rnd : K → K) (xsTotal : ℕ → ℕ → K) (velocity : ℕ → K) (dt : K) : ℕ → ℕ → K :=
  fun m g => rnd (xsTotal m g + timeRate rnd velocity dt g)

/-- `q_star = external[qq] + 1 / (velocity * dt) * flux_last` (timed1d.py:96). -/
def qStar1 (rnd : K → K) (ext : Arr3 K) (velocity : ℕ → K) (dt : K) (psi : ℕ → ℕ → ℕ → K) : ℕ → ℕ → ℕ → K :=
  fun i n g => rnd (ext.val i (bidx ext.angles n) (bidx ext.groups g)
    + rnd (timeRate rnd velocity dt g * psi i n g))

/-- `np.sum(flux_last * angle_w[None, :, None], axis=1)` (timed1d.py:78); the terms are added in the order of the
angles (numpy's order for an axis that is not the last). -/
def scalarFlux (rnd : K → K) (p : Problem K) (psi : ℕ → ℕ → ℕ → K) : ℕ → ℕ → K :=
  fun i g => accumR rnd p.angles fun n => rnd (psi i n g * p.angleW n)

/-- `_time_right_side` (tools.py:449-484). -/
def timeRightSide (rnd : K → K) (groups : ℕ) (qStar : ℕ → ℕ → ℕ → K) (flux : ℕ → ℕ → K)
    (xs : ℕ → ℕ → ℕ → K) (mm : ℕ → ℕ) : ℕ → ℕ → ℕ → K := fun ii nn og =>
  rnd (qStar ii nn og + accumR rnd groups (fun ig => rnd (flux ii ig * xs (mm ii) og ig)))

/-- Body of the loop of `slab_known_source_sn` (spatial_sweep.py:1479-1552) for an angular flux (`xdim > 1`) and
cell averages (`edges = 0`): column `nn` of the result, weight `1.0`; an ordinate zero is skipped.  Simplification:
with a single ordinate the code takes its scalar branch (`xdim == 1`, weight `angle_w`), which is not modelled here. -/
def knownStep (rnd : K → K) (cells angles : ℕ) (xsTotal : ℕ → K) (source boundary : Arr2 K)
    (mm : ℕ → ℕ) (dx angleX : ℕ → K) (bcL bcR : Bool) (nn : ℕ)
    (s : AngleState K (ℕ → ℕ → K)) : AngleState K (ℕ → ℕ → K) :=
  let src := fun ii => source.val ii (bidx source.angles nn)
  let zero : ℕ → K := fun _ => 0
  let put := fun (f : ℕ → ℕ → K) (c : ℕ) (new : ℕ → K) ii k => if k = c then new ii else f ii k
  let s' : AngleState K (ℕ → ℕ → K) :=
    if 0 < angleX nn then
      let r := forwardIso rnd cells (fun ii => s.acc ii nn) zero xsTotal zero zero src
        (rnd (s.reflector nn + boundary.val 0 (bidx boundary.angles nn))) mm dx (angleX nn) 1
      { s with acc := put s.acc nn r.1, edge := r.2 }
    else if angleX nn < 0 then
      let r := backwardIso rnd cells (fun ii => s.acc ii nn) zero xsTotal zero zero src
        (rnd (s.reflector nn + boundary.val 1 (bidx boundary.angles nn))) mm dx (angleX nn) 1
      { s with acc := put s.acc nn r.1, edge := r.2 }
    else s
  { s' with reflector := reflectorCorrector angles s'.reflector angleX s'.edge nn bcL bcR }

/-- `known_source_angular` (multi_group.py:1095-1174) on a slab with `edges = 0`. -/
def knownSourceAngular (rnd : K → K) (p : Problem K) (xsTotal : ℕ → ℕ → K) (source boundary : Arr3 K) :
    ℕ → ℕ → ℕ → K := fun ii nn gg =>
  (loop p.angles (knownStep rnd p.cells p.angles (fun m => xsTotal m gg)
    (source.group (bidx source.groups gg)) (boundary.group (bidx boundary.groups gg)) p.mm p.dx p.angleX p.bcL
    p.bcR) ⟨fun _ _ => 0, fun _ => 0, 0⟩).acc ii nn

/-- Body of the time loop of `timed1d.backward_euler` (timed1d.py:90-129). -/
def beStep (rnd : K → K) (p : Problem K) (xsTotal : ℕ → ℕ → K) (xs : ℕ → ℕ → ℕ → K) (velocity : ℕ → K)
    (external boundary : TimeArr K) (dt : K) (step : ℕ) (s : BEState K) : Except PyErr (BEState K) :=
  match external.get step, boundary.get step with
  | .error e, _ => .error e
  | .ok _, .error e => .error e
  | .ok ext, .ok bnd =>
    let q := qStar1 rnd ext velocity dt s.psi
    match sourceIterationIso rnd p (xsStar rnd xsTotal velocity dt) xs (fullArr p q) bnd s.fluxOld with
    | .error e => .error e
    | .ok flux =>
      .ok ⟨flux, knownSourceAngular rnd p (xsStar rnd xsTotal velocity dt)
        (fullArr p (timeRightSide rnd p.groups q flux xs p.mm)) bnd, Function.update s.out step flux⟩

/-- `timed1d.backward_euler` (timed1d.py:15-131). -/
def backwardEuler (rnd : K → K) (p : Problem K) (xsTotal : ℕ → ℕ → K) (xs : ℕ → ℕ → ℕ → K) (fission : Fission K)
    (velocity : ℕ → K) (external boundary : TimeArr K) (steps : ℕ) (dt : K) (fluxLast : ℕ → ℕ → ℕ → K) :
    Except PyErr (ℕ → ℕ → ℕ → K) :=
  (loopE steps (beStep rnd p xsTotal (transferMatrix rnd xs fission) velocity external boundary dt)
    ⟨scalarFlux rnd p fluxLast, fluxLast, fun _ _ _ => 0⟩).map BEState.out

end Discrete1.Rounded
