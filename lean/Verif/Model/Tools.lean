import Verif.Model.Basic
import Mathlib.Order.Interval.Finset.Nat

/-!
# Model of `discrete1/tools.py` (multigroup, k-eigenvalue and hybrid helpers)

In-place results are returned.  `medium_map` is `mm : ℕ → ℕ`.
Loops that write every entry of an array exactly once are written entry-wise; accumulating loops
use `accum`.
-/

namespace Discrete1.Tools

open Finset

variable {K : Type*} [Field K] [LinearOrder K]

/-- A three-dimensional numpy array `(cells or 2, angles, groups)` of which the last two lengths
matter because length-one axes are broadcast by index selection (`external`, `boundary` of multi_group.py:42-133). -/
structure Arr3 (K : Type*) where
  angles : ℕ
  groups : ℕ
  val : ℕ → ℕ → ℕ → K

/-- A two-dimensional array `(cells or 2, angles)` (`external`, `boundary` of spatial_sweep.py:268-387). -/
structure Arr2 (K : Type*) where
  angles : ℕ
  val : ℕ → ℕ → K

/-- `0 if shape == 1 else idx` (tools.py:354,361; multi_group.py:155-156; spatial_sweep.py:336-337). -/
def bidx (shape idx : ℕ) : ℕ := if shape = 1 then 0 else idx

/-- `array[:, :, qq]` (multi_group.py:167). -/
def Arr3.group (a : Arr3 K) (qq : ℕ) : Arr2 K := ⟨a.angles, fun i n => a.val i n qq⟩

/-- Scattering cross sections: `(M, G, G)` (isotropic) or `(M, G, G, L+1)` (anisotropic) (tools.py:67-105). -/
inductive Scatter (K : Type*)
  | iso (xs : ℕ → ℕ → ℕ → K)
  | aniso (moments : ℕ) (xs : ℕ → ℕ → ℕ → ℕ → K)

/-- `_transfer_matrix` (tools.py:109-139). -/
def transferMatrixVec (xsScatter : ℕ → ℕ → ℕ → K) (chi nusigf : ℕ → ℕ → K) : ℕ → ℕ → ℕ → K :=
  fun mat og ig => xsScatter mat og ig + chi mat og * nusigf mat ig

/-- The fission argument of `transfer_matrix`: with `chi is None` it is a matrix `(M, G, G)`,
otherwise a vector `nusigf (M, G)` that goes with `chi` (tools.py:67-105). -/
inductive Fission (K : Type*)
  | matrix (xs : ℕ → ℕ → ℕ → K)
  | vector (chi nusigf : ℕ → ℕ → K)

/-- `transfer_matrix` (tools.py:67-105), the four cases in source order. -/
def transferMatrix (scatter : Scatter K) (fission : Fission K) : Scatter K :=
  match scatter, fission with
  | .aniso L xs, .matrix f =>
      .aniso L fun mat og ig l => if l = 0 then xs mat og ig 0 + f mat og ig else xs mat og ig l
  | .aniso L xs, .vector chi nu =>
      .aniso L fun mat og ig l =>
        if l = 0 then transferMatrixVec (fun m o i => xs m o i 0) chi nu mat og ig
        else xs mat og ig l
  | .iso xs, .matrix f => .iso fun mat og ig => xs mat og ig + f mat og ig
  | .iso xs, .vector chi nu => .iso (transferMatrixVec xs chi nu)

/-- `_off_scatter` (tools.py:145-181): `og` in `range(0, gg)` uses the current flux,
`og` in `range(gg + 1, groups)` the previous iterate. -/
def offScatter (groups : ℕ) (flux fluxOld : ℕ → ℕ → K) (mm : ℕ → ℕ) (xs : ℕ → ℕ → ℕ → K)
    (gg : ℕ) : ℕ → K := fun ii =>
  let acc := loop gg (fun og acc => acc + xs (mm ii) gg og * flux ii og) 0
  loop (groups - (gg + 1))
    (fun k acc => acc + xs (mm ii) gg (gg + 1 + k) * fluxOld ii (gg + 1 + k)) acc

/-- `_off_scatter_0d` (tools.py:1495-1524). -/
def offScatter0d (groups : ℕ) (flux fluxOld : ℕ → K) (xs : ℕ → ℕ → K) (gg : ℕ) : K :=
  let acc := loop gg (fun og acc => acc + xs gg og * flux og) 0
  loop (groups - (gg + 1)) (fun k acc => acc + xs gg (gg + 1 + k) * fluxOld (gg + 1 + k)) acc

/-- `_variable_off_scatter` (tools.py:189-245).  `rows` is the number of rows of the
(already row-sliced, width-weighted) `xs_scatter[mat]`; `np.sum(xs_scatter[mat, :, idx1:idx2])`. -/
def variableOffScatter (groupsC rows : ℕ) (flux fluxOld : ℕ → ℕ → K) (mm : ℕ → ℕ)
    (xs : ℕ → ℕ → ℕ → K) (gg : ℕ) (e : ℕ → ℕ) : ℕ → K := fun ii =>
  loop groupsC (fun og acc =>
    let s := ∑ r ∈ range rows, ∑ ig ∈ Ico (e og) (e (og + 1)), xs (mm ii) r ig
    if og < gg then acc + s * flux ii og
    else if gg < og then acc + s * fluxOld ii og
    else acc) 0

/-- `_coarsen_flux` (tools.py:249-275). -/
def coarsenFlux (e : ℕ → ℕ) (fine : ℕ → ℕ → K) : ℕ → ℕ → K :=
  fun ii gg => ∑ g ∈ Ico (e gg) (e (gg + 1)), fine ii g

/-- `reflector_corrector` (tools.py:278-309): `bcL`, `bcR` are `bc_x[0] == 1`, `bc_x[1] == 1`. -/
def reflectorCorrector (angles : ℕ) (reflector : ℕ → K) (angleX : ℕ → K) (edge : K) (nn : ℕ)
    (bcL bcR : Bool) : ℕ → K :=
  if (0 < angleX nn ∧ bcR = true) ∨ (angleX nn < 0 ∧ bcL = true) then
    setAt reflector (angles - nn - 1) edge
  else reflector

/-- `_source_total` (tools.py:315-362). -/
def sourceTotal (groups : ℕ) (flux : ℕ → ℕ → K) (xs : ℕ → ℕ → ℕ → K) (mm : ℕ → ℕ)
    (external : Arr3 K) : ℕ → ℕ → ℕ → K := fun ii nn og =>
  accum groups (fun ig => flux ii ig * xs (mm ii) og ig)
    + external.val ii (bidx external.angles nn) (bidx external.groups og)

/-- `_source_total_aniso` (tools.py:370-445): only `ll == 0` contributes to `group_sum`. -/
def sourceTotalAniso (groups moments : ℕ) (flux : ℕ → ℕ → K) (xs : ℕ → ℕ → ℕ → ℕ → K)
    (mm : ℕ → ℕ) (external : Arr3 K) (P : ℕ → ℕ → K) : ℕ → ℕ → ℕ → K := fun ii nn og =>
  accum moments (fun ll =>
    (2 * (ll : K) + 1) *
      accum groups (fun ig => if ll = 0 then xs (mm ii) og ig ll * flux ii ig else 0) * P ll nn)
    + external.val ii (bidx external.angles nn) (bidx external.groups og)

/-- `_time_right_side` (tools.py:449-484): `q_star[ii, :, og] += one_group`. -/
def timeRightSide (groups : ℕ) (qStar : ℕ → ℕ → ℕ → K) (flux : ℕ → ℕ → K)
    (xs : ℕ → ℕ → ℕ → K) (mm : ℕ → ℕ) : ℕ → ℕ → ℕ → K := fun ii nn og =>
  qStar ii nn og + accum groups (fun ig => flux ii ig * xs (mm ii) og ig)

/-- `_time_right_side_aniso` (tools.py:492-551). -/
def timeRightSideAniso (groups moments : ℕ) (qStar : ℕ → ℕ → ℕ → K) (flux : ℕ → ℕ → K)
    (xs : ℕ → ℕ → ℕ → ℕ → K) (mm : ℕ → ℕ) (P : ℕ → ℕ → K) : ℕ → ℕ → ℕ → K := fun ii nn og =>
  qStar ii nn og + loop moments (fun ll scatter =>
    if ll = 0 then
      scatter + (2 * (ll : K) + 1) * accum groups (fun ig => flux ii ig * xs (mm ii) og ig ll)
        * P ll nn
    else scatter) 0

/-- `legendre_polynomials` (tools.py:559-585), row `ii` at ordinate `mu` (rows are computed
independently for every ordinate): `P[0] = 1`, `P[1] = mu`,
`P[ii] = ((2 ii - 1) mu P[ii-1] - (ii - 1) P[ii-2]) / ii`. -/
def legendre (mu : K) : ℕ → K
  | 0 => 1
  | 1 => mu
  | ii + 2 =>
    ((2 * ((ii : K) + 2) - 1) * mu * legendre mu (ii + 1) - (((ii : K) + 2) - 1) * legendre mu ii)
      / ((ii : K) + 2)

/-! ### K-eigenvalue functions -/

/-- `xs_fission[mat].sum()` (tools.py:735). -/
def matSum (groups : ℕ) (xs : ℕ → ℕ → K) : K := accum groups fun og => accum groups fun ig => xs og ig

/-- `fission_mat_prod` (tools.py:682-744); `source[ii, 0, og]`, zero for skipped materials. -/
def fissionMatProd (groups : ℕ) (flux : ℕ → ℕ → K) (xs : ℕ → ℕ → ℕ → K) (mm : ℕ → ℕ) (keff : K) :
    ℕ → ℕ → K := fun ii og =>
  if matSum groups (xs (mm ii)) = 0 then 0
  else accum groups (fun ig => flux ii ig * xs (mm ii) og ig) / keff

/-- `fission_vec_prod` (tools.py:795-860). -/
def fissionVecProd (groups : ℕ) (flux : ℕ → ℕ → K) (chi nusigf : ℕ → ℕ → K) (mm : ℕ → ℕ)
    (keff : K) : ℕ → ℕ → K := fun ii og =>
  if accum groups (fun g => chi (mm ii) g) = 0 then 0
  else accum groups (fun ig => flux ii ig * chi (mm ii) og * nusigf (mm ii) ig) / keff

/-- The fission rate accumulated by `_update_keff_mat` (tools.py:776-786): the same loop nest runs
for `rate_new` and `rate_old`. -/
def rateMat (cells groups : ℕ) (flux : ℕ → ℕ → K) (xs : ℕ → ℕ → ℕ → K) (mm : ℕ → ℕ) : K :=
  loop cells (fun ii rate =>
    if matSum groups (xs (mm ii)) = 0 then rate
    else loop groups (fun og rate =>
      loop groups (fun ig rate => rate + flux ii ig * xs (mm ii) og ig) rate) rate) 0

/-- `_update_keff_mat` (tools.py:748-787). -/
def updateKeffMat (cells groups : ℕ) (flux fluxOld : ℕ → ℕ → K) (xs : ℕ → ℕ → ℕ → K) (mm : ℕ → ℕ)
    (keff : K) : K :=
  (rateMat cells groups flux xs mm * keff) / rateMat cells groups fluxOld xs mm

/-- The rates of `_update_keff_vec` (tools.py:896-906). -/
def rateVec (cells groups : ℕ) (flux : ℕ → ℕ → K) (chi nusigf : ℕ → ℕ → K) (mm : ℕ → ℕ) : K :=
  loop cells (fun ii rate =>
    if accum groups (fun g => chi (mm ii) g) = 0 then rate
    else loop groups (fun og rate =>
      loop groups (fun ig rate => rate + flux ii ig * chi (mm ii) og * nusigf (mm ii) ig) rate) rate) 0

/-- `_update_keff_vec` (tools.py:866-907). -/
def updateKeffVec (cells groups : ℕ) (flux fluxOld : ℕ → ℕ → K) (chi nusigf : ℕ → ℕ → K)
    (mm : ℕ → ℕ) (keff : K) : K :=
  (rateVec cells groups flux chi nusigf mm * keff) / rateVec cells groups fluxOld chi nusigf mm

/-- `_hybrid_fission_source` (tools.py:915-961). -/
def hybridFissionSource (cells groups : ℕ) (fluxU : ℕ → ℕ → K) (xs : ℕ → ℕ → ℕ → K)
    (mm : ℕ → ℕ) (keff : K) (coarseIdx : ℕ → ℕ) : ℕ → ℕ → K :=
  let s := loop cells (fun ii s =>
    if matSum groups (xs (mm ii)) = 0 then s
    else loop groups (fun og s =>
      Function.update s ii (addAt (s ii) (coarseIdx og)
        (accum groups (fun ig => fluxU ii ig * xs (mm ii) og ig)))) s) (fun _ _ => 0)
  fun ii c => s ii c / keff

/-- `_hybrid_combine_fluxes` (tools.py:965-991). -/
def hybridCombineFluxes (fluxC : ℕ → ℕ → K) (coarseIdx : ℕ → ℕ) (factor : ℕ → K) : ℕ → ℕ → K :=
  fun ii gg => fluxC ii (coarseIdx gg) * factor gg

/-! ### Hybrid functions -/

/-- `_hybrid_source_collided` (tools.py:1238-1274):
`source_c[ii, 0, coarse_idx[og]] += flux_u[ii, ig] * xs[mat, og, ig]`. -/
def hybridSourceCollided (groups : ℕ) (fluxU : ℕ → ℕ → K) (xs : ℕ → ℕ → ℕ → K) (mm : ℕ → ℕ)
    (coarseIdx : ℕ → ℕ) : ℕ → ℕ → K := fun ii =>
  loop groups (fun og row =>
    loop groups (fun ig row => addAt row (coarseIdx og) (fluxU ii ig * xs (mm ii) og ig)) row)
    (fun _ => 0)

/-- `_hybrid_source_collided_aniso` (tools.py:1282-1326): the zeroth moment only. -/
def hybridSourceCollidedAniso (groups : ℕ) (fluxU : ℕ → ℕ → K) (xs : ℕ → ℕ → ℕ → ℕ → K)
    (mm : ℕ → ℕ) (coarseIdx : ℕ → ℕ) : ℕ → ℕ → K := fun ii =>
  loop groups (fun og row =>
    loop groups (fun ig row => addAt row (coarseIdx og) (fluxU ii ig * xs (mm ii) og ig 0)) row)
    (fun _ => 0)

/-- First inner loop of `_hybrid_source_total` (tools.py:1372-1373, 1436-1437):
`flux_u[ii, og] = flux_u[ii, og] + flux_c[ii, coarse_idx[og]] * factor[og]`, in place. -/
def addCollided (groups : ℕ) (fluxC : ℕ → ℕ → K) (coarseIdx : ℕ → ℕ) (factor : ℕ → K) (ii : ℕ)
    (fluxU : ℕ → ℕ → K) : ℕ → ℕ → K :=
  loop groups (fun og f => fun i g =>
    if i = ii ∧ g = og then f i g + fluxC ii (coarseIdx og) * factor og else f i g) fluxU

/-- `_hybrid_source_total` (tools.py:1334-1379): returns the updated `(flux_u, q_star)`; both arrays
are mutated in place, cell by cell. -/
def hybridSourceTotal (cells angles groups : ℕ) (fluxU fluxC : ℕ → ℕ → K) (xs : ℕ → ℕ → ℕ → K)
    (qStar : ℕ → ℕ → ℕ → K) (mm : ℕ → ℕ) (coarseIdx : ℕ → ℕ) (factor : ℕ → K) :
    (ℕ → ℕ → K) × (ℕ → ℕ → ℕ → K) :=
  loop cells (fun ii s =>
    let f := addCollided groups fluxC coarseIdx factor ii s.1
    (f, loop groups (fun og q =>
      let oneGroup := accum groups (fun ig => f ii ig * xs (mm ii) og ig)
      loop angles (fun nn q => fun i n g =>
        if i = ii ∧ n = nn ∧ g = og then q i n g + oneGroup else q i n g) q) s.2)) (fluxU, qStar)

/-- `_hybrid_source_total_aniso` (tools.py:1387-1451). -/
def hybridSourceTotalAniso (cells angles groups moments : ℕ) (fluxU fluxC : ℕ → ℕ → K)
    (xs : ℕ → ℕ → ℕ → ℕ → K) (qStar : ℕ → ℕ → ℕ → K) (mm : ℕ → ℕ) (coarseIdx : ℕ → ℕ)
    (factor : ℕ → K) (P : ℕ → ℕ → K) : (ℕ → ℕ → K) × (ℕ → ℕ → ℕ → K) :=
  loop cells (fun ii s =>
    let f := addCollided groups fluxC coarseIdx factor ii s.1
    (f, loop groups (fun og q =>
      loop angles (fun nn q =>
        let scatter := loop moments (fun ll scatter =>
          if ll = 0 then
            scatter + (2 * (ll : K) + 1) * accum groups (fun ig => f ii ig * xs (mm ii) og ig ll)
              * P ll nn
          else scatter) 0
        fun i n g => if i = ii ∧ n = nn ∧ g = og then q i n g + scatter else q i n g) q) s.2))
    (fluxU, qStar)

/-- `reaction_rates` (tools.py:1459-1486): `flux[ii] @ xs_matrix[mat].T`. -/
def reactionRates (groups : ℕ) (flux : ℕ → ℕ → K) (xs : ℕ → ℕ → ℕ → K) (mm : ℕ → ℕ) :
    ℕ → ℕ → K := fun ii og => ∑ ig ∈ range groups, flux ii ig * xs (mm ii) og ig

/-! ### Spatially independent functions -/

/-- `_fission_mat_source_0d` (tools.py:1528-1561). -/
def fissionMatSource0d (groups : ℕ) (flux : ℕ → K) (xs : ℕ → ℕ → K) (keff : K) : ℕ → K :=
  fun og => accum groups (fun ig => flux ig * xs og ig) / keff

/-- `_fission_vec_source_0d` (tools.py:1565-1600). -/
def fissionVecSource0d (groups : ℕ) (flux : ℕ → K) (chi nusigf : ℕ → K) (keff : K) : ℕ → K :=
  fun og => accum groups (fun ig => flux ig * chi og * nusigf ig) / keff

/-- Rates of `_update_keff_mat_0d` (tools.py:1628-1634). -/
def rateMat0d (groups : ℕ) (flux : ℕ → K) (xs : ℕ → ℕ → K) : K :=
  loop groups (fun og rate => loop groups (fun ig rate => rate + flux ig * xs og ig) rate) 0

/-- `_update_keff_mat_0d` (tools.py:1604-1635). -/
def updateKeffMat0d (groups : ℕ) (flux fluxOld : ℕ → K) (xs : ℕ → ℕ → K) (keff : K) : K :=
  (rateMat0d groups flux xs * keff) / rateMat0d groups fluxOld xs

/-- Rates of `_update_keff_vec_0d` (tools.py:1665-1671). -/
def rateVec0d (groups : ℕ) (flux : ℕ → K) (chi nusigf : ℕ → K) : K :=
  loop groups (fun og rate =>
    loop groups (fun ig rate => rate + flux ig * chi og * nusigf ig) rate) 0

/-- `_update_keff_vec_0d` (tools.py:1639-1672). -/
def updateKeffVec0d (groups : ℕ) (flux fluxOld : ℕ → K) (chi nusigf : ℕ → K) (keff : K) : K :=
  (rateVec0d groups flux chi nusigf * keff) / rateVec0d groups fluxOld chi nusigf

end Discrete1.Tools
