import Verif.Model.Auto
import Verif.Model.Critical

/-!
# Model of the calls `vhybrid1d.backward_euler`, `vhybrid1d.bdf2` and `critical1d.hybrid_power_iteration`

`Model/Timed.lean` and `Model/Critical.lean` model the loops once the collided grids are known; here these
grids are built from the arguments the caller passes.
-/

namespace Discrete1.HybridCalls

open Discrete1.Tools Discrete1.MultiGroup Discrete1.Drivers Discrete1.Setup Discrete1.Auto

variable {K : Type} [Field K] [LinearOrder K]

/-- The Python value of `groups_c` or `angles_c` (vhybrid1d.py:46, 60, 70, 83, 170, 184, 194, 210): an `int`,
a one-dimensional `np.ndarray` of integers, or anything else (a list, a tuple, an `np.int64`). -/
inductive Count
  | int (n : ℕ)
  | array (len : ℕ) (v : ℕ → ℕ)
  | other

/-- The packaged energy grids read by `discrete1.energy_grid` (main.py:101-110): number of groups (`none` for
any grid but 87, 361, 618), energy bounds, and index arrays by number of groups. -/
structure Stock (K : Type) where
  size : ℕ → Option ℕ
  edges : ℕ → ℕ → K
  table : ℕ → ℕ → Option (ℕ → ℕ)

/-- What `energy_grid_change` returns: `coarse_idx`, `factor`, `edges_gidx_c`, `edges_g`, together with the number
of collided groups (utils/hybrid.py:381-423). -/
structure GridChange (K : Type) where
  groups : ℕ
  coarseIdx : ℕ → ℕ
  factor : ℕ → K
  e : ℕ → ℕ
  edges : ℕ → K

/-- `energy_grid_change` (hybrid.py:381-423).  `edges_g[edges_gidx_u][edges_gidx_c]` (line 420) raises IndexError
when the coarse index points past the last fine bound. -/
def energyGridChange (st : Stock K) (grid G C : ℕ) : Except PyErr (GridChange K) :=
  match energyGrid st.size st.table grid G (some C) true with
  | .error e => .error e
  | .ok (_, none) => .error .valueError  -- not reached: a coarse number is always passed
  | .ok (f, some e) =>
    if (List.range (C + 1)).any (fun c => decide (G < e c)) then .error .indexError
    else .ok ⟨C, Hybrid.collidedIndex C e,
      Hybrid.hybridFactor C (Hybrid.diff fun g => st.edges grid (f g))
        (Hybrid.diffIdx (fun g => st.edges grid (f g)) e) e, e, st.edges grid⟩

/-- The collided energy grid in use at `step` (vhybrid1d.py:46-57 and 70-81, 170-181 and 194-208); `none` when
neither `isinstance` test succeeds and the names stay unassigned. -/
def gridAt (st : Stock K) (grid G : ℕ) (groupsC : Count) (step : ℕ) : Except PyErr (Option (GridChange K)) :=
  match groupsC with
  | .int n => (energyGridChange st grid G n).map some
  | .array len v =>
    if step < len then (energyGridChange st grid G (v step)).map some else .error .indexError
  | .other => .ok none

/-- `angle_c` at `step` (vhybrid1d.py:60-61 and 83-84, 184-185 and 210-211). -/
def angleAt (anglesC : Count) (step : ℕ) : Except PyErr (Option ℕ) :=
  match anglesC with
  | .int n => .ok (some n)
  | .array len v => if step < len then .ok (some (v step)) else .error .indexError
  | .other => .ok none

/-- The collided problem of one step: ordinates from `angular_x` (vhybrid1d.py:323), criterion `convC` of
multi_group.py:345-349 on the collided shape. -/
def collided (p : Problem K) (convC : ℕ → (ℕ → ℕ → K) → (ℕ → ℕ → K) → Bool) (g : GridChange K) (angles : ℕ)
    (l : List (K × K)) : Collided K :=
  ⟨{ p with groups := g.groups, angles := angles, angleX := fun n => (l.getD n (0, 0)).1,
            angleW := fun n => (l.getD n (0, 0)).2, convOut := convC g.groups },
    g.coarseIdx, g.factor, g.e, g.edges⟩

/-- One pass of the time loop of `vhybrid1d.backward_euler` (vhybrid1d.py:64-129) or `bdf2` (188-274) with the
caller's arguments.  Order of the failures: `groups_c[step]`, `angles_c[step]`, `external_u[qq]` (line 87), the
names `angle_c`, `coarse_idx`, ... (lines 91-110, UnboundLocalError), `boundary_u[bb]`; inside
`_variable_hybrid_method` the fine sweep (lines 304-315), `angular_x` (line 323), and
`xs_scatter[:, idx1:idx2] * delta_fine` (multi_group.py:630): `delta_fine` (vhybrid1d.py:325) has one entry per
group of the *stock* grid, so numpy raises ValueError unless the problem has that many groups or one
(or there is no collided group to loop over). -/
def callStep (second : Bool) (p : Problem K) (bc : BcX) (gauss : ℕ → List (K × K))
    (convC : ℕ → (ℕ → ℕ → K) → (ℕ → ℕ → K) → Bool) (st : Stock K) (grid : ℕ) (groupsC anglesC : Count)
    (xsTotal : ℕ → ℕ → K) (xs : ℕ → ℕ → ℕ → K) (velocity : ℕ → K) (external boundary : TimeArr K) (dt : K)
    (step : ℕ) (s : VHybState K) : Except PyErr (VHybState K) :=
  match gridAt st grid p.groups groupsC step with
  | .error e => .error e
  | .ok g =>
    match angleAt anglesC step with
    | .error e => .error e
    | .ok a =>
      match external.get step with
      | .error e => .error e
      | .ok _ =>
        match g, a with
        | some g, some a =>
          match boundary.get step with
          | .error e => .error e
          | .ok bnd =>
            match knownSourceScalar p (fun m g => xsTotal m g + s.starU g) (fullArr p fun _ _ _ => 0) bnd false with
            | .error e => .error e
            | .ok _ =>
              match angularX (gauss a) bc with
              | .error e => .error e
              | .ok l =>
                if st.size grid = some p.groups ∨ p.groups = 1 ∨ g.groups = 0 then
                  vhybridStep second p (fun _ => collided p convC g a l) xsTotal xs velocity external boundary dt
                    step s
                else .error .valueError
        | _, _ => .error .unboundLocal

/-- The call `vhybrid1d.backward_euler(groups_c, angles_c, flux_last, ...)` (vhybrid1d.py:11-131,
`second = false`) and `vhybrid1d.bdf2` (134-276, `second = true`), three-dimensional scattering and fission
arrays.  For an `int` the grid is computed before the loop (lines 46-57, 170-181). -/
def vhybridCall (second : Bool) (p : Problem K) (bc : BcX) (gauss : ℕ → List (K × K))
    (convC : ℕ → (ℕ → ℕ → K) → (ℕ → ℕ → K) → Bool) (st : Stock K) (grid : ℕ) (groupsC anglesC : Count)
    (xsTotal : ℕ → ℕ → K) (scatter fission : ℕ → ℕ → ℕ → K) (velocity : ℕ → K)
    (external boundary : TimeArr K) (steps : ℕ) (dt : K) (fluxLast : ℕ → ℕ → ℕ → K) :
    Except PyErr (ℕ → ℕ → ℕ → K) :=
  let run := (loopE steps (callStep second p bc gauss convC st grid groupsC anglesC xsTotal
    (fun m o i => scatter m o i + fission m o i) velocity external boundary dt)
    ⟨fluxLast, fun _ _ _ => 0, fun g => 1 / (velocity g * dt), fun _ _ _ => 0⟩).map VHybState.out
  match groupsC with
  | .int n =>
    match energyGridChange st grid p.groups n with
    | .error e => .error e
    | .ok _ => run
  | _ => run

/-! ### critical1d.hybrid_power_iteration -/

/-- `_collided_terms` (critical1d.py:656-686), cross sections: copies when `groups_c` is the number of fine
groups, otherwise coarsened.  Returns (number of collided groups, total, scatter). -/
def collidedTerms (G groupsC : ℕ) (grid : EnergyGrid K) (xsTotal : ℕ → ℕ → K) (scatter : ℕ → ℕ → ℕ → K) :
    ℕ × (ℕ → ℕ → K) × (ℕ → ℕ → ℕ → K) :=
  let edgesU := fun g => grid.edges (grid.gidxU g)
  if groupsC = G then (G, xsTotal, scatter)
  else
    let xs := Hybrid.coarsenMaterials xsTotal (some scatter) none edgesU grid.gidxC
    (grid.coarseGroups, xs.1, xs.2.1.getD fun _ _ _ => 0)

/-- The call `hybrid_power_iteration(..., angles_c, groups_c, energy_grid)` (critical1d.py:489-653) for
three-dimensional scattering and fission data. -/
def hybridPowerCall (p : Problem K) (bc : BcX) (gauss : ℕ → List (K × K))
    (convC : (ℕ → ℕ → K) → (ℕ → ℕ → K) → Bool) (norm : (ℕ → ℕ → K) → K)
    (conv : (ℕ → ℕ → K) → (ℕ → ℕ → K) → Bool) (xsTotal : ℕ → ℕ → K) (scatter fission : ℕ → ℕ → ℕ → K)
    (anglesC groupsC : ℕ) (grid : EnergyGrid K) (random : ℕ → ℕ → K) :
    Except PyErr (Critical.HybK K × ℕ) :=
  let idx := Hybrid.indexing grid.coarseGroups grid.edges grid.gidxU grid.gidxC
  let terms := collidedTerms p.groups groupsC grid xsTotal scatter
  match collidedAngles p bc gauss anglesC with
  | .error e => .error e
  | .ok (angleXC, angleWC) =>
    let pC : Problem K :=
      { p with groups := terms.1, angles := anglesC, angleX := angleXC, angleW := angleWC,
               convOut := if groupsC = p.groups then p.convOut else convC }
    Critical.hybridPowerIteration p pC norm conv xsTotal terms.2.1 scatter terms.2.2 fission idx.2.1 idx.2.2
      random

end Discrete1.HybridCalls
