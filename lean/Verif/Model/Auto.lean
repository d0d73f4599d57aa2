import Verif.Model.Timed
import Verif.Model.Setup

/-!
# Model of `hybrid1d.auto_bdf1` and `hybrid1d.auto_bdf2`

The automatic hybrid drivers: they build the collided (coarse) data from the fine data and call
`hybrid1d.backward_euler` / `hybrid1d.bdf2`.
-/

namespace Discrete1.Auto

open Discrete1.Tools Discrete1.MultiGroup Discrete1.Drivers Discrete1.Setup

variable {K : Type} [Field K] [LinearOrder K]

/-- The argument `xs_fission_u` as the caller passes it: `None`, an array `(materials, groups)` or an
array `(materials, groups, groups)` (hybrid1d.py:17-140, 305-428 (argument `xs_fission`)). -/
inductive FissionArr (K : Type)
  | none
  | vector (nusigf : ℕ → ℕ → K)
  | matrix (xs : ℕ → ℕ → ℕ → K)

/-- How `transfer_matrix` (tools.py:67-105) reads its fission argument, for three-dimensional scattering
data with `M` materials and `G` groups.  `chi is None` leads to `xs_matrix += xs_fission` (line 100): a
matrix is added entry by entry; a vector `(M, G)` is broadcast by numpy to `(M, G, G)` (trailing axes
aligned, so the material axis of the vector meets the outgoing-group axis), which numpy refuses with
ValueError unless the lengths agree or `M = 1`; `None` raises TypeError.  With `chi` the compiled kernel
(signature on line 108) takes two-dimensional `chi` and `nusigf` only. -/
def fissionArg (M G : ℕ) (fission : FissionArr K) (chi : Option (ℕ → ℕ → K)) :
    Except PyErr (Fission K) :=
  match fission, chi with
  | .none, _ => .error .typeError
  | .matrix f, none => .ok (.matrix f)
  | .vector v, none =>
    if M = 1 ∨ M = G then .ok (.matrix fun _ og ig => v (bidx M og) ig) else .error .valueError
  | .matrix _, some _ => .error .typeError
  | .vector v, some c => .ok (.vector c v)

/-- `_xs_matrix_coarsen` (hybrid.py:153-193) applied to the fission argument: `None` stays `None`; on a
two-dimensional array `fine[mat]` is one-dimensional and `fine[mat][aa1:aa2, bb1:bb2]` (line 186) raises
IndexError as soon as there is a material and a coarse group. -/
def coarsenFission (M C : ℕ) (edges : ℕ → K) (e : ℕ → ℕ) : FissionArr K → Except PyErr (FissionArr K)
  | .none => .ok .none
  | .matrix f => .ok (match Hybrid.xsMatrixCoarsen (some f) edges e with
    | some f' => .matrix f'
    | none => .none)
  | .vector _ => if M = 0 ∨ C = 0 then .ok (.matrix fun _ _ _ => 0) else .error .indexError

/-- The tuple `energy_grid = (edges_g, edges_gidx_u, edges_gidx_c)`; `coarseGroups` is
`len(edges_gidx_c) - 1` (hybrid1d.py:17-140 (argument `energy_grid`)). -/
structure EnergyGrid (K : Type) where
  edges : ℕ → K
  gidxU : ℕ → ℕ
  gidxC : ℕ → ℕ
  coarseGroups : ℕ

/-- The collided cross sections and velocity (hybrid1d.py:94-104, 382-392): copies when
`groups_c` equals the number of fine groups (`xs_fission_u.copy()` raises AttributeError for `None`),
otherwise coarsened.  Returns (number of groups, total, scatter, fission, velocity). -/
def collidedData (M G groupsC : ℕ) (grid : EnergyGrid K) (xsTotal : ℕ → ℕ → K)
    (scatter : ℕ → ℕ → ℕ → K) (fission : FissionArr K) (velocity : ℕ → K) :
    Except PyErr (ℕ × (ℕ → ℕ → K) × (ℕ → ℕ → ℕ → K) × FissionArr K × (ℕ → K)) :=
  let edgesU := fun g => grid.edges (grid.gidxU g)
  if groupsC = G then
    match fission with
    | .none => .error .attributeError
    | f => .ok (G, xsTotal, scatter, f, velocity)
  else
    match coarsenFission M grid.coarseGroups edgesU grid.gidxC fission with
    | .error e => .error e
    | .ok f => .ok (grid.coarseGroups, Hybrid.xsVectorCoarsen xsTotal edgesU grid.gidxC,
        (Hybrid.xsMatrixCoarsen (some scatter) edgesU grid.gidxC).getD (fun _ _ _ => 0), f,
        Hybrid.coarsenVelocity velocity grid.gidxC)

/-- The collided ordinates (hybrid1d.py:107-111, 395-399): the fine ones when their number is
`angles_c`, otherwise `angular_x(angles_c, bc_x)`; `gauss n` is the output of `leggauss(n)`. -/
def collidedAngles (p : Problem K) (bc : BcX) (gauss : ℕ → List (K × K)) (anglesC : ℕ) :
    Except PyErr ((ℕ → K) × (ℕ → K)) :=
  if anglesC = p.angles then .ok (p.angleX, p.angleW)
  else match angularX (gauss anglesC) bc with
    | .error e => .error e
    | .ok l => .ok (fun n => (l.getD n (0, 0)).1, fun n => (l.getD n (0, 0)).2)

/-- `hybrid1d.auto_bdf1` (hybrid1d.py:17-140, `second = false`) and `hybrid1d.auto_bdf2`
(hybrid1d.py:305-428, `second = true`) for three-dimensional scattering data.  `M` is the number of
materials; `convC` is the outer convergence criterion on the collided grid (multi_group.py:345-349, its
array shape is the collided one). -/
def autoBdf (second : Bool) (p : Problem K) (bc : BcX) (gauss : ℕ → List (K × K))
    (convC : (ℕ → ℕ → K) → (ℕ → ℕ → K) → Bool) (M : ℕ) (xsTotal : ℕ → ℕ → K)
    (scatter : ℕ → ℕ → ℕ → K) (fission : FissionArr K) (velocity : ℕ → K)
    (external boundary : TimeArr K) (anglesC groupsC : ℕ) (grid : EnergyGrid K) (steps : ℕ) (dt : K)
    (chiU chiC : Option (ℕ → ℕ → K)) (fluxLast : ℕ → ℕ → ℕ → K) : Except PyErr (ℕ → ℕ → ℕ → K) :=
  let idx := Hybrid.indexing grid.coarseGroups grid.edges grid.gidxU grid.gidxC
  match collidedData M p.groups groupsC grid xsTotal scatter fission velocity with
  | .error e => .error e
  | .ok (groups, xsTotalC, scatterC, fissC, velocityC) =>
    match collidedAngles p bc gauss anglesC with
    | .error e => .error e
    | .ok (angleXC, angleWC) =>
      match fissionArg M p.groups fission chiU with
      | .error e => .error e
      | .ok fU =>
        match fissionArg M groups fissC chiC with
        | .error e => .error e
        | .ok fC =>
          let pC : Problem K :=
            { p with groups := groups, angles := anglesC, angleX := angleXC, angleW := angleWC,
                     convOut := if groupsC = p.groups then p.convOut else convC }
          hybridRun second p pC xsTotal xsTotalC (.iso scatter) (.iso scatterC) fU fC velocity velocityC
            external boundary idx.2.1 idx.2.2 steps dt fluxLast

end Discrete1.Auto
