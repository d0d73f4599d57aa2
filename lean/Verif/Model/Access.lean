import Verif.Model.Hybrid

/-!
# Array accesses of the compiled kernels

The kernels of `spatial_sweep.py` and `tools.py` are compiled with `numba.jit(nopython=True)` and without bounds
checks: an index outside its array reads or overwrites foreign memory and raises nothing.  This file lists, kernel by
kernel, which elements of which argument each compiled loop touches, and, driver by driver, with which array shapes
the kernels are called.  Whole-array operations (`x *= 0.0`, `x.sum()` of a row, slices, which numba clips) are
listed by the index that selects the row.  Where the source skips a cell (`continue` for materials without fission)
the accesses of that cell are listed nevertheless.
-/

namespace Discrete1.Access

/-- The array arguments of the kernels, by their names in the source
(parameters of the kernels in spatial_sweep.py:396-2291 and tools.py:109-1674). -/
inductive Buf
  | flux | fluxOld | halfAngle | xsTotal | xsScatter | offScatter | external | mediumMap | deltaX | psi | anisotropic
  | scatterSource | source | qStar | legendre | xsMatrix | chi | nusigf | xsFission | fluxU | fluxC | sourceC
  | coarseIdx | factor | edgesC
  deriving DecidableEq, Repr

/-- One element access: the array and the index tuple (leading indices only, for whole rows)
(array element accesses `a[i, j]` in spatial_sweep.py:396-2291, tools.py:109-1674). -/
abbrev Access := Buf × List ℕ

/-- Shapes of the arguments of one kernel call (numpy shapes of the arguments, spatial_sweep.py:396-2291). -/
abbrev Shapes := Buf → List ℕ

/-- A kernel call: the shapes of its arguments and what it touches (kernel calls such as spatial_sweep.py:335-373). -/
structure Call where
  shape : Shapes
  touched : List Access

/-- Length of the first axis (`array.shape[0]`, e.g. spatial_sweep.py:417). -/
def rows (s : List ℕ) : ℕ := s.headD 0

/-- Length of axis `k` (`array.shape[k]`, e.g. spatial_sweep.py:1786). -/
def axis (s : List ℕ) (k : ℕ) : ℕ := s.getD k 0

/-! ### spatial_sweep.py -/

/-- `slab_forward_iso` (spatial_sweep.py:396-445): `cells_x` is the length of `medium_map`. -/
def slabForwardIso (edges : Bool) (mm : ℕ → ℕ) (sh : Shapes) : List Access :=
  (if edges then [(.flux, [0])] else []) ++
  (List.range (rows (sh .mediumMap))).flatMap fun ii =>
    [(.mediumMap, [ii]), (.xsScatter, [mm ii]), (.fluxOld, [ii]), (.external, [ii]), (.offScatter, [ii]),
     (.deltaX, [ii]), (.xsTotal, [mm ii]), (.flux, [if edges then ii + 1 else ii])]

/-- `slab_backward_iso` (spatial_sweep.py:451-500). -/
def slabBackwardIso (edges : Bool) (mm : ℕ → ℕ) (sh : Shapes) : List Access :=
  (if edges then [(.flux, [rows (sh .mediumMap)])] else []) ++
  (List.range (rows (sh .mediumMap))).flatMap fun ii =>
    [(.mediumMap, [ii]), (.xsScatter, [mm ii]), (.fluxOld, [ii]), (.external, [ii]), (.offScatter, [ii]),
     (.deltaX, [ii]), (.xsTotal, [mm ii]), (.flux, [ii])]

/-- `slab_forward_aniso` (spatial_sweep.py:646-694); `psi` is allocated with `cells_x` elements. -/
def slabForwardAniso (edges : Bool) (mm : ℕ → ℕ) (sh : Shapes) : List Access :=
  (if edges then [(.flux, [0])] else []) ++
  (List.range (rows (sh .mediumMap))).flatMap fun ii =>
    [(.mediumMap, [ii]), (.anisotropic, [ii]), (.external, [ii]), (.offScatter, [ii]), (.deltaX, [ii]),
     (.xsTotal, [mm ii]), (.psi, [ii]), (.flux, [if edges then ii + 1 else ii])]

/-- `slab_backward_aniso` (spatial_sweep.py:703-751). -/
def slabBackwardAniso (edges : Bool) (mm : ℕ → ℕ) (sh : Shapes) : List Access :=
  (if edges then [(.flux, [rows (sh .mediumMap)])] else []) ++
  (List.range (rows (sh .mediumMap))).flatMap fun ii =>
    [(.mediumMap, [ii]), (.anisotropic, [ii]), (.external, [ii]), (.offScatter, [ii]), (.deltaX, [ii]),
     (.xsTotal, [mm ii]), (.psi, [ii]), (.flux, [ii])]

/-- `_half_angle_iso` (spatial_sweep.py:896-918): `cells_x` is the length of `flux`. -/
def halfAngleIso (mm : ℕ → ℕ) (sh : Shapes) : List Access :=
  (List.range (rows (sh .flux))).flatMap fun ii =>
    [(.mediumMap, [ii]), (.halfAngle, [ii]), (.deltaX, [ii]), (.external, [ii]), (.offScatter, [ii]),
     (.xsScatter, [mm ii]), (.flux, [ii]), (.xsTotal, [mm ii])]

/-- `_half_angle_aniso` (spatial_sweep.py:1240-1268): the scattering moments are given per cell. -/
def halfAngleAniso (mm : ℕ → ℕ) (sh : Shapes) : List Access :=
  (List.range (rows (sh .flux))).flatMap fun ii =>
    [(.mediumMap, [ii]), (.halfAngle, [ii]), (.deltaX, [ii]), (.external, [ii]), (.offScatter, [ii]),
     (.xsScatter, [ii]), (.flux, [ii]), (.xsTotal, [mm ii])]

/-- `_half_angle_scatter` (spatial_sweep.py:2086-2099). -/
def halfAngleScatter (mm : ℕ → ℕ) (sh : Shapes) : List Access :=
  (List.range (rows (sh .mediumMap))).flatMap fun ii =>
    [(.mediumMap, [ii]), (.halfAngle, [ii]), (.deltaX, [ii]), (.external, [ii]), (.scatterSource, [ii]),
     (.xsTotal, [mm ii])]

/-- `sphere_forward_iso` (spatial_sweep.py:959-1027): `cells_x` is the length of `flux`. -/
def sphereForwardIso (edges : Bool) (mm : ℕ → ℕ) (sh : Shapes) : List Access :=
  [(.halfAngle, [0])] ++ (if edges then [(.flux, [0])] else []) ++
  (List.range (rows (sh .flux))).flatMap fun ii =>
    [(.mediumMap, [ii]), (.deltaX, [ii]), (.halfAngle, [ii]), (.external, [ii]), (.offScatter, [ii]),
     (.fluxOld, [ii]), (.xsScatter, [mm ii]), (.xsTotal, [mm ii]), (.flux, [if edges then ii + 1 else ii])]

/-- `sphere_backward_iso` (spatial_sweep.py:1036-1103); note `flux[ii + 1]` for edges (line 1098). -/
def sphereBackwardIso (edges : Bool) (mm : ℕ → ℕ) (sh : Shapes) : List Access :=
  (if edges then [(.flux, [rows (sh .flux)])] else []) ++
  (List.range (rows (sh .flux))).flatMap fun ii =>
    [(.mediumMap, [ii]), (.deltaX, [ii]), (.halfAngle, [ii]), (.external, [ii]), (.offScatter, [ii]),
     (.fluxOld, [ii]), (.xsScatter, [mm ii]), (.xsTotal, [mm ii]), (.flux, [if edges then ii + 1 else ii])]

/-- `sphere_forward_aniso` (spatial_sweep.py:1277-1346). -/
def sphereForwardAniso (edges : Bool) (mm : ℕ → ℕ) (sh : Shapes) : List Access :=
  [(.halfAngle, [0])] ++ (if edges then [(.flux, [0])] else []) ++
  (List.range (rows (sh .flux))).flatMap fun ii =>
    [(.mediumMap, [ii]), (.deltaX, [ii]), (.halfAngle, [ii]), (.external, [ii]), (.offScatter, [ii]),
     (.anisotropic, [ii]), (.xsTotal, [mm ii]), (.psi, [ii]), (.flux, [if edges then ii + 1 else ii])]

/-- `sphere_backward_aniso` (spatial_sweep.py:1355-1425). -/
def sphereBackwardAniso (edges : Bool) (mm : ℕ → ℕ) (sh : Shapes) : List Access :=
  (if edges then [(.flux, [rows (sh .flux)])] else []) ++
  (List.range (rows (sh .flux))).flatMap fun ii =>
    [(.mediumMap, [ii]), (.deltaX, [ii]), (.halfAngle, [ii]), (.external, [ii]), (.offScatter, [ii]),
     (.anisotropic, [ii]), (.xsTotal, [mm ii]), (.psi, [ii]), (.flux, [if edges then ii + 1 else ii])]

/-- `slab_forward_scatter` and `slab_backward_scatter` (spatial_sweep.py:1828-1956): the same elements, in opposite
order. -/
def slabScatter (mm : ℕ → ℕ) (sh : Shapes) : List Access :=
  (List.range (rows (sh .flux))).flatMap fun ii =>
    [(.mediumMap, [ii]), (.scatterSource, [ii]), (.external, [ii]), (.deltaX, [ii]), (.xsTotal, [mm ii]), (.flux, [ii])]

/-- `sphere_forward_scatter` (spatial_sweep.py:2108-2194; `half_angle[0]` in line 2161) and `sphere_backward_scatter`
(2203-2291). -/
def sphereScatter (forward : Bool) (mm : ℕ → ℕ) (sh : Shapes) : List Access :=
  (if forward then [(.halfAngle, [0])] else []) ++
  (List.range (rows (sh .flux))).flatMap fun ii =>
    [(.mediumMap, [ii]), (.deltaX, [ii]), (.halfAngle, [ii]), (.external, [ii]), (.scatterSource, [ii]),
     (.xsTotal, [mm ii]), (.flux, [ii])]

/-! ### tools.py -/

/-- `_transfer_matrix` (tools.py:108-139). -/
def transferMatrix (sh : Shapes) : List Access :=
  (List.range (axis (sh .xsMatrix) 0)).flatMap fun mat => (List.range (axis (sh .xsMatrix) 1)).flatMap fun og =>
    (List.range (axis (sh .xsMatrix) 1)).flatMap fun ig =>
      [(.xsMatrix, [mat, og, ig]), (.xsScatter, [mat, og, ig]), (.chi, [mat, og]), (.nusigf, [mat, ig])]

/-- `_off_scatter` (tools.py:145-181). -/
def offScatter (gg : ℕ) (mm : ℕ → ℕ) (sh : Shapes) : List Access :=
  (List.range (axis (sh .flux) 0)).flatMap fun ii =>
    [(.mediumMap, [ii])] ++
    ((List.range gg).flatMap fun og => [(.offScatter, [ii]), (.xsScatter, [mm ii, gg, og]), (.flux, [ii, og])]) ++
    ((List.range (axis (sh .flux) 1 - (gg + 1))).flatMap fun k =>
      [(.offScatter, [ii]), (.xsScatter, [mm ii, gg, gg + 1 + k]), (.fluxOld, [ii, gg + 1 + k])])

/-- `_variable_off_scatter` (tools.py:189-245); the slices `idx1:idx2` are clipped by numba. -/
def variableOffScatter (gg : ℕ) (mm : ℕ → ℕ) (sh : Shapes) : List Access :=
  (List.range (axis (sh .flux) 1)).flatMap fun og =>
    [(.edgesC, [og]), (.edgesC, [og + 1])] ++
    if og < gg then (List.range (axis (sh .flux) 0)).flatMap fun ii =>
      [(.mediumMap, [ii]), (.offScatter, [ii]), (.xsScatter, [mm ii]), (.flux, [ii, og])]
    else if gg < og then (List.range (axis (sh .flux) 0)).flatMap fun ii =>
      [(.mediumMap, [ii]), (.offScatter, [ii]), (.xsScatter, [mm ii]), (.fluxOld, [ii, og])]
    else []

/-- `_coarsen_flux` (tools.py:249-274). -/
def coarsenFlux (sh : Shapes) : List Access :=
  (List.range (axis (sh .fluxC) 1)).flatMap fun gg =>
    [(.edgesC, [gg]), (.edgesC, [gg + 1])] ++ (List.range (axis (sh .fluxC) 0)).map fun ii => (.fluxC, [ii, gg])

/-- `_source_total` (tools.py:315-362). -/
def sourceTotal (mm : ℕ → ℕ) (sh : Shapes) : List Access :=
  (List.range (axis (sh .source) 0)).flatMap fun ii => [(.mediumMap, [ii])] ++
    (List.range (axis (sh .source) 2)).flatMap fun og =>
      ((List.range (axis (sh .source) 2)).flatMap fun ig => [(.flux, [ii, ig]), (.xsScatter, [mm ii, og, ig])]) ++
      (List.range (axis (sh .source) 1)).flatMap fun nn =>
        [(.source, [ii, nn, og]),
         (.external, [ii, if axis (sh .external) 1 = 1 then 0 else nn, if axis (sh .external) 2 = 1 then 0 else og])]

/-- `_time_right_side` (tools.py:449-484); `q_star[ii, :, og]` is the whole angular axis. -/
def timeRightSide (mm : ℕ → ℕ) (sh : Shapes) : List Access :=
  (List.range (axis (sh .qStar) 0)).flatMap fun ii => [(.mediumMap, [ii])] ++
    (List.range (axis (sh .qStar) 2)).flatMap fun og =>
      ((List.range (axis (sh .qStar) 2)).flatMap fun ig => [(.flux, [ii, ig]), (.xsScatter, [mm ii, og, ig])]) ++
      (List.range (axis (sh .qStar) 1)).map fun nn => (.qStar, [ii, nn, og])

/-- `_source_total_aniso` (tools.py:370-445): `P[ll, nn]` is read for every moment. -/
def sourceTotalAniso (mm : ℕ → ℕ) (sh : Shapes) : List Access :=
  (List.range (axis (sh .source) 0)).flatMap fun ii => [(.mediumMap, [ii])] ++
    (List.range (axis (sh .source) 2)).flatMap fun og => (List.range (axis (sh .source) 1)).flatMap fun nn =>
      ((List.range (axis (sh .xsScatter) 3)).flatMap fun ll =>
        ((List.range (axis (sh .source) 2)).flatMap fun ig => if ll = 0 then
          [(.xsScatter, [mm ii, og, ig, ll]), (.flux, [ii, ig])] else []) ++ [(.legendre, [ll, nn])]) ++
      [(.source, [ii, nn, og]),
       (.external, [ii, if axis (sh .external) 1 = 1 then 0 else nn, if axis (sh .external) 2 = 1 then 0 else og])]

/-- `_time_right_side_aniso` (tools.py:492-551). -/
def timeRightSideAniso (mm : ℕ → ℕ) (sh : Shapes) : List Access :=
  (List.range (axis (sh .qStar) 0)).flatMap fun ii => [(.mediumMap, [ii])] ++
    (List.range (axis (sh .qStar) 2)).flatMap fun og => (List.range (axis (sh .qStar) 1)).flatMap fun nn =>
      ((List.range (axis (sh .xsScatter) 3)).flatMap fun ll => if ll = 0 then
        ((List.range (axis (sh .qStar) 2)).flatMap fun ig => [(.flux, [ii, ig]), (.xsScatter, [mm ii, og, ig, ll])])
          ++ [(.legendre, [ll, nn])] else []) ++ [(.qStar, [ii, nn, og])]

/-- `fission_mat_prod` (tools.py:682-744). -/
def fissionMatProd (mm : ℕ → ℕ) (sh : Shapes) : List Access :=
  (List.range (axis (sh .flux) 0)).flatMap fun ii => [(.mediumMap, [ii]), (.xsFission, [mm ii])] ++
    (List.range (axis (sh .flux) 1)).flatMap fun og =>
      ((List.range (axis (sh .flux) 1)).flatMap fun ig => [(.flux, [ii, ig]), (.xsFission, [mm ii, og, ig])])
        ++ [(.source, [ii, 0, og])]

/-- `_update_keff_mat` (tools.py:748-787). -/
def updateKeffMat (mm : ℕ → ℕ) (sh : Shapes) : List Access :=
  (List.range (axis (sh .flux) 0)).flatMap fun ii => [(.mediumMap, [ii]), (.xsFission, [mm ii])] ++
    (List.range (axis (sh .flux) 1)).flatMap fun og => (List.range (axis (sh .flux) 1)).flatMap fun ig =>
      [(.flux, [ii, ig]), (.fluxOld, [ii, ig]), (.xsFission, [mm ii, og, ig])]

/-- `fission_vec_prod` (tools.py:795-860). -/
def fissionVecProd (mm : ℕ → ℕ) (sh : Shapes) : List Access :=
  (List.range (axis (sh .flux) 0)).flatMap fun ii => [(.mediumMap, [ii]), (.chi, [mm ii])] ++
    (List.range (axis (sh .flux) 1)).flatMap fun og =>
      ((List.range (axis (sh .flux) 1)).flatMap fun ig =>
        [(.flux, [ii, ig]), (.chi, [mm ii, og]), (.nusigf, [mm ii, ig])]) ++ [(.source, [ii, 0, og])]

/-- `_update_keff_vec` (tools.py:866-907). -/
def updateKeffVec (mm : ℕ → ℕ) (sh : Shapes) : List Access :=
  (List.range (axis (sh .flux) 0)).flatMap fun ii => [(.mediumMap, [ii]), (.chi, [mm ii])] ++
    (List.range (axis (sh .flux) 1)).flatMap fun og => (List.range (axis (sh .flux) 1)).flatMap fun ig =>
      [(.flux, [ii, ig]), (.fluxOld, [ii, ig]), (.chi, [mm ii, og]), (.nusigf, [mm ii, ig])]

/-- `scatter_prod` (tools.py:1168-1227). -/
def scatterProd (mm : ℕ → ℕ) (sh : Shapes) : List Access :=
  (List.range (axis (sh .flux) 0)).flatMap fun ii => [(.mediumMap, [ii]), (.xsScatter, [mm ii])] ++
    (List.range (axis (sh .flux) 1)).flatMap fun og =>
      ((List.range (axis (sh .flux) 1)).flatMap fun ig => [(.flux, [ii, ig]), (.xsScatter, [mm ii, og, ig])])
        ++ [(.source, [ii, og])]

/-- `_hybrid_source_collided` (tools.py:1238-1274). -/
def hybridSourceCollided (mm coarse : ℕ → ℕ) (sh : Shapes) : List Access :=
  (List.range (axis (sh .fluxU) 0)).flatMap fun ii => [(.mediumMap, [ii])] ++
    (List.range (axis (sh .fluxU) 1)).flatMap fun og => (List.range (axis (sh .fluxU) 1)).flatMap fun ig =>
      [(.coarseIdx, [og]), (.sourceC, [ii, 0, coarse og]), (.fluxU, [ii, ig]), (.xsScatter, [mm ii, og, ig])]

/-- `_hybrid_source_total` (tools.py:1334-1379). -/
def hybridSourceTotal (mm coarse : ℕ → ℕ) (sh : Shapes) : List Access :=
  (List.range (axis (sh .qStar) 0)).flatMap fun ii => [(.mediumMap, [ii])] ++
    ((List.range (axis (sh .qStar) 2)).flatMap fun og =>
      [(.fluxU, [ii, og]), (.coarseIdx, [og]), (.fluxC, [ii, coarse og]), (.factor, [og])]) ++
    (List.range (axis (sh .qStar) 2)).flatMap fun og =>
      ((List.range (axis (sh .qStar) 2)).flatMap fun ig => [(.fluxU, [ii, ig]), (.xsScatter, [mm ii, og, ig])]) ++
      (List.range (axis (sh .qStar) 1)).map fun nn => (.qStar, [ii, nn, og])

/-- `_hybrid_source_collided_aniso` (tools.py:1282-1326). -/
def hybridSourceCollidedAniso (mm coarse : ℕ → ℕ) (sh : Shapes) : List Access :=
  (List.range (axis (sh .fluxU) 0)).flatMap fun ii => [(.mediumMap, [ii])] ++
    (List.range (axis (sh .fluxU) 1)).flatMap fun og => (List.range (axis (sh .fluxU) 1)).flatMap fun ig =>
      [(.coarseIdx, [og]), (.sourceC, [ii, 0, coarse og]), (.fluxU, [ii, ig]), (.xsScatter, [mm ii, og, ig, 0])]

/-- `_off_scatter_0d` (tools.py:1495-1524). -/
def offScatter0d (gg : ℕ) (sh : Shapes) : List Access :=
  ((List.range gg).flatMap fun og => [(.xsScatter, [gg, og]), (.flux, [og])]) ++
  ((List.range (rows (sh .flux) - (gg + 1))).flatMap fun k =>
    [(.xsScatter, [gg, gg + 1 + k]), (.fluxOld, [gg + 1 + k])])

/-- `_fission_mat_source_0d`, `_fission_vec_source_0d`, `_update_keff_mat_0d` and `_update_keff_vec_0d`
(tools.py:1528-1674), all their accesses together. -/
def fission0d (sh : Shapes) : List Access :=
  (List.range (rows (sh .flux))).flatMap fun og => ((List.range (rows (sh .flux))).flatMap fun ig =>
    [(.flux, [ig]), (.fluxOld, [ig]), (.xsFission, [og, ig]), (.chi, [og]), (.nusigf, [ig])]) ++ [(.source, [0, og])]

/-! ### The drivers: which shapes the kernels get -/

/-- Shapes given by a table; arrays that are not passed have no elements
(argument lists of the kernel calls, spatial_sweep.py:268-2291). -/
def table : List (Buf × List ℕ) → Shapes
  | [], _ => []
  | (a, s) :: l, b => if b = a then s else table l b

/-- A sweep over the ordinates: forward for positive ones, backward otherwise
(`for nn in range(angles)`, spatial_sweep.py:335-373). -/
def ordinates (A : ℕ) (pos : ℕ → Bool) (fwd bwd : Call) : List Call :=
  (List.range A).map fun nn => if pos nn then fwd else bwd

/-- Kernel calls of one sweep of `slab_isotropic_sn` or `sphere_isotropic_sn` with `edges = 0` as `_one_sweep_iso`
makes it (multi_group.py:135-191, spatial_sweep.py:268-390, 759-886): `N` cells, `M` materials. -/
def isotropicCalls (sphere : Bool) (N M A : ℕ) (pos : ℕ → Bool) (mm : ℕ → ℕ) : List Call :=
  let sh := table [(.flux, [N]), (.fluxOld, [N]), (.halfAngle, [N]), (.xsTotal, [M]), (.xsScatter, [M]),
    (.offScatter, [N]), (.external, [N]), (.mediumMap, [N]), (.deltaX, [N])]
  if sphere then ⟨sh, halfAngleIso mm sh⟩ ::
    ordinates A pos ⟨sh, sphereForwardIso false mm sh⟩ ⟨sh, sphereBackwardIso false mm sh⟩
  else ordinates A pos ⟨sh, slabForwardIso false mm sh⟩ ⟨sh, slabBackwardIso false mm sh⟩

/-- `_one_sweep_iso` (multi_group.py:135-191) for `G` groups. -/
def oneSweepIso (sphere : Bool) (N M G A : ℕ) (pos : ℕ → Bool) (mm : ℕ → ℕ) : List Call :=
  (List.range G).flatMap fun gg =>
    let sh := table [(.flux, [N, G]), (.fluxOld, [N, G]), (.mediumMap, [N]), (.xsScatter, [M, G, G]), (.offScatter, [N])]
    ⟨sh, offScatter gg mm sh⟩ :: isotropicCalls sphere N M A pos mm

/-- Kernel calls of one sweep of `slab_anisotropic_sn` or `sphere_anisotropic_sn` (spatial_sweep.py:506-637,
1111-1232) as `_one_sweep_aniso` makes it; the scattering moments are mapped to cells. -/
def anisotropicCalls (sphere : Bool) (N M A : ℕ) (pos : ℕ → Bool) (mm : ℕ → ℕ) : List Call :=
  let sh := table [(.flux, [N]), (.halfAngle, [N]), (.xsTotal, [M]), (.xsScatter, [N]), (.anisotropic, [N]),
    (.offScatter, [N]), (.external, [N]), (.mediumMap, [N]), (.deltaX, [N]), (.psi, [N])]
  if sphere then ⟨sh, halfAngleAniso mm sh⟩ ::
    ordinates A pos ⟨sh, sphereForwardAniso false mm sh⟩ ⟨sh, sphereBackwardAniso false mm sh⟩
  else ordinates A pos ⟨sh, slabForwardAniso false mm sh⟩ ⟨sh, slabBackwardAniso false mm sh⟩

/-- `_one_sweep_aniso` (multi_group.py:194-266). -/
def oneSweepAniso (sphere : Bool) (N M G A : ℕ) (pos : ℕ → Bool) (mm : ℕ → ℕ) : List Call :=
  (List.range G).flatMap fun gg =>
    let sh := table [(.flux, [N, G]), (.fluxOld, [N, G]), (.mediumMap, [N]), (.xsScatter, [M, G, G]), (.offScatter, [N])]
    ⟨sh, offScatter gg mm sh⟩ :: anisotropicCalls sphere N M A pos mm

/-- `known_source_angular` / `known_source_scalar` on a slab (multi_group.py:1095-1256, spatial_sweep.py:1433-1554):
the array `zero` of `cells + edges` elements is passed as old flux, as off scatter *and as the scattering cross
sections*, which the kernel indexes by material.  One entry per group. -/
def knownSourceSlab (edges : Bool) (N M G A : ℕ) (pos : ℕ → Bool) (mm : ℕ → ℕ) : List Call :=
  let Z := N + if edges then 1 else 0
  let sh := table [(.flux, [Z]), (.fluxOld, [Z]), (.xsTotal, [M]), (.xsScatter, [Z]), (.offScatter, [Z]),
    (.external, [N]), (.mediumMap, [N]), (.deltaX, [N])]
  (List.range G).flatMap fun _ =>
    ordinates A pos ⟨sh, slabForwardIso edges mm sh⟩ ⟨sh, slabBackwardIso edges mm sh⟩

/-- `sphere_known_source_sn` (spatial_sweep.py:1557-1625): the half-angle kernel, with `zero` as flux, as off scatter
and as scattering cross sections; the first ordinate then raises IndexError (line 1640). -/
def knownSourceSphere (edges : Bool) (N M : ℕ) (mm : ℕ → ℕ) : List Call :=
  let Z := N + if edges then 1 else 0
  let sh := table [(.flux, [Z]), (.halfAngle, [Z]), (.xsTotal, [M]), (.xsScatter, [Z]), (.offScatter, [Z]),
    (.external, [N]), (.mediumMap, [N]), (.deltaX, [N])]
  [⟨sh, halfAngleIso mm sh⟩]

/-- `discrete_ordinates(..., edges=1)` (spatial_sweep.py:34-170) for isotropic scattering: the result array has as
many elements as the initial guess, `L`. -/
def discreteOrdinatesEdges (sphere : Bool) (L N M A : ℕ) (pos : ℕ → Bool) (mm : ℕ → ℕ) : List Call :=
  let sh := table [(.flux, [L]), (.fluxOld, [L]), (.halfAngle, [L]), (.xsTotal, [M]), (.xsScatter, [M]),
    (.offScatter, [N]), (.external, [N]), (.mediumMap, [N]), (.deltaX, [N])]
  if sphere then ⟨sh, halfAngleIso mm sh⟩ ::
    ordinates A pos ⟨sh, sphereForwardIso true mm sh⟩ ⟨sh, sphereBackwardIso true mm sh⟩
  else ordinates A pos ⟨sh, slabForwardIso true mm sh⟩ ⟨sh, slabBackwardIso true mm sh⟩

/-- `slab_scatter_source_sn` / `sphere_scatter_source_sn` (spatial_sweep.py:1732-1820, 1964-2080). -/
def scatterSourceCalls (sphere : Bool) (N M A : ℕ) (pos : ℕ → Bool) (mm : ℕ → ℕ) : List Call :=
  let sh := table [(.flux, [N]), (.halfAngle, [N]), (.xsTotal, [M]), (.scatterSource, [N]), (.external, [N]),
    (.mediumMap, [N]), (.deltaX, [N])]
  if sphere then ⟨sh, halfAngleScatter mm sh⟩ ::
    ordinates A pos ⟨sh, sphereScatter true mm sh⟩ ⟨sh, sphereScatter false mm sh⟩
  else ordinates A pos ⟨sh, slabScatter mm sh⟩ ⟨sh, slabScatter mm sh⟩

/-- Kernels that `power_iteration` adds (critical1d.py:30-135), with a fission matrix or vectors, and `scatter_prod`
as `ml` iterations use it (tools.py:1081-1164). -/
def powerCalls (N M G : ℕ) (mm : ℕ → ℕ) : List Call :=
  let sh := table [(.flux, [N, G]), (.fluxOld, [N, G]), (.xsFission, [M, G, G]), (.source, [N, 1, G]), (.mediumMap, [N]),
    (.chi, [M, G]), (.nusigf, [M, G])]
  let sp := table [(.flux, [N, G]), (.xsScatter, [M, G, G]), (.source, [N, G]), (.mediumMap, [N])]
  [⟨sh, fissionMatProd mm sh⟩, ⟨sh, updateKeffMat mm sh⟩, ⟨sh, fissionVecProd mm sh⟩, ⟨sh, updateKeffVec mm sh⟩,
   ⟨sp, scatterProd mm sp⟩]

/-- Kernels of `transfer_matrix`, `known_source_calculation` and the time steps (tools.py:67-105, fixed1d.py:225-315,
timed1d.py:15-266); the external source has `a` angles and `e` groups. -/
def sourceCalls (N M G A a e : ℕ) (mm : ℕ → ℕ) : List Call :=
  let t := table [(.xsMatrix, [M, G, G]), (.xsScatter, [M, G, G]), (.chi, [M, G]), (.nusigf, [M, G])]
  let s := table [(.source, [N, A, G]), (.flux, [N, G]), (.xsScatter, [M, G, G]), (.mediumMap, [N]), (.external, [N, a, e])]
  let q := table [(.qStar, [N, A, G]), (.flux, [N, G]), (.xsScatter, [M, G, G]), (.mediumMap, [N])]
  [⟨t, transferMatrix t⟩, ⟨s, sourceTotal mm s⟩, ⟨q, timeRightSide mm q⟩]

/-- Kernels of a hybrid step (hybrid1d.py:612-673, vhybrid1d.py:279-351) besides the sweeps: `G` fine and `C` coarse
groups, `coarse` the array `coarse_idx` of `indexing`. -/
def hybridCalls (N M G C A : ℕ) (mm coarse : ℕ → ℕ) : List Call :=
  let u := table [(.fluxU, [N, G]), (.xsScatter, [M, G, G]), (.sourceC, [N, 1, C]), (.mediumMap, [N]), (.coarseIdx, [G])]
  let q := table [(.fluxU, [N, G]), (.fluxC, [N, C]), (.xsScatter, [M, G, G]), (.qStar, [N, A, G]), (.mediumMap, [N]),
    (.coarseIdx, [G]), (.factor, [G])]
  let c := table [(.fluxC, [N, C]), (.edgesC, [C + 1])]
  [⟨u, hybridSourceCollided mm coarse u⟩, ⟨q, hybridSourceTotal mm coarse q⟩, ⟨c, coarsenFlux c⟩]

/-- The anisotropic source kernels (`L` moments) with the shapes of their docstrings; no driver calls them
(tools.py:370-446, 492-551, 1282-1451). -/
def anisotropicSourceCalls (N M G C A L a e : ℕ) (mm coarse : ℕ → ℕ) : List Call :=
  let s := table [(.source, [N, A, G]), (.flux, [N, G]), (.xsScatter, [M, G, G, L]), (.mediumMap, [N]),
    (.external, [N, a, e]), (.legendre, [L, A])]
  let q := table [(.qStar, [N, A, G]), (.flux, [N, G]), (.xsScatter, [M, G, G, L]), (.mediumMap, [N]), (.legendre, [L, A])]
  let u := table [(.fluxU, [N, G]), (.xsScatter, [M, G, G, L]), (.sourceC, [N, 1, C]), (.mediumMap, [N]), (.coarseIdx, [G])]
  [⟨s, sourceTotalAniso mm s⟩, ⟨q, timeRightSideAniso mm q⟩, ⟨u, hybridSourceCollidedAniso mm coarse u⟩]

/-- Kernels of the infinite-medium solvers (multi_group_0d.py:25-304, critical0d.py:17-80) for `G` groups. -/
def zeroDCalls (G : ℕ) : List Call :=
  let sh := table [(.flux, [G]), (.fluxOld, [G]), (.xsScatter, [G, G]), (.xsFission, [G, G]), (.chi, [G]), (.nusigf, [G]),
    (.source, [1, G])]
  ⟨sh, fission0d sh⟩ :: (List.range G).map fun gg => ⟨sh, offScatter0d gg sh⟩

/-- `_variable_source_iteration_iso` (multi_group.py:575-686), one sweep over `C` coarse groups; the collapsed
cross sections are given per material. -/
def variableSweep (sphere : Bool) (N M C A : ℕ) (width : ℕ → ℕ) (G : ℕ) (pos : ℕ → Bool) (mm : ℕ → ℕ) : List Call :=
  (List.range C).flatMap fun gg =>
    let sh := table [(.flux, [N, C]), (.fluxOld, [N, C]), (.mediumMap, [N]), (.xsScatter, [M, width gg, G]),
      (.offScatter, [N]), (.edgesC, [C + 1])]
    ⟨sh, variableOffScatter gg mm sh⟩ :: isotropicCalls sphere N M A pos mm

end Discrete1.Access
