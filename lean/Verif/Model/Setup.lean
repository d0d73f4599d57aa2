import Verif.Model.Hybrid
import Verif.Model.Tools

/-!
# Model of the problem set-up helpers: `main.py`, `materials.py`, `boundary1d.py`

One-dimensional arrays whose order matters are lists here.  Strings are lists of characters.
`float(...)` on a string is the parameter `parse` (`none` = ValueError).
-/

namespace Discrete1.Setup

open Discrete1.Tools

variable {K : Type*} [Field K] [LinearOrder K]

/-! ### angular_x -/

/-- The value of `bc_x`: a Python list, a tuple or a numpy array of two integers (main.py:29-64). -/
inductive BcX
  | list (left right : ℕ)
  | tuple (left right : ℕ)
  | array (left right : ℕ)

/-- `np.sum(bc_x)` (main.py:56). -/
def BcX.sum : BcX → ℕ
  | .list l r | .tuple l r | .array l r => l + r

/-- `angle_x.argsort()` applied to both arrays: the pairs in increasing order of the ordinate (main.py:58-62). -/
def sortPairs (g : List (K × K)) : List (K × K) := g.mergeSort fun a b => decide (a.1 ≤ b.1)

/-- `angular_x` (main.py:29-64).  `gauss` are the (ordinate, weight) pairs of `leggauss`.
`bc_x == [1, 0]` is False for a tuple (then `idx` is unbound) and an array for an array (its truth value
raises ValueError). -/
def angularX (gauss : List (K × K)) (bc : BcX) : Except PyErr (List (K × K)) :=
  let total := (gauss.map (·.2)).sum
  let g := gauss.map fun p => (p.1, p.2 / total)
  if 0 < bc.sum then
    match bc with
    | .list 1 0 => .ok (sortPairs g)
    | .list 0 1 => .ok (sortPairs g).reverse
    | .list _ _ => .error .unboundLocal
    | .tuple _ _ => .error .unboundLocal
    | .array _ _ => .error .valueError
  else .ok g

/-! ### energy_grid -/

/-- `energy_grid` (main.py:67-141).  `stock grid` are the numbers of groups of the packaged grids 87, 361
and 618 (`len(edges_g) - 1`), `table` the packaged index arrays, looked up by number of groups (`none` =
KeyError).  Returns the fine and (optional) coarse index arrays as functions. -/
def energyGrid (supported : ℕ → Option ℕ) (table : ℕ → ℕ → Option (ℕ → ℕ)) (grid fine : ℕ)
    (coarse : Option ℕ) (optimize : Bool) : Except PyErr ((ℕ → ℕ) × Option (ℕ → ℕ)) :=
  match supported grid with
  | none => .error .unboundLocal      -- `len(edges_g)` on line 121
  | some size =>
    let fineIdx : Except PyErr (ℕ → ℕ) := match (if optimize then table grid fine else none) with
      | some e => .ok e
      | none => Hybrid.energyCoarseIndex size fine
    match fineIdx with
    | .error e => .error e
    | .ok f =>
      match coarse with
      | none => .ok (f, none)
      | some c =>
        match (if optimize then table grid c else none) with
        | some e => .ok (f, some e)
        | none =>
          match Hybrid.energyCoarseIndex fine c with
          | .error e => .error e
          | .ok e => .ok (f, some e)

/-! ### gamma_time_steps -/

/-- `gamma_time_steps` (main.py:172-204).  Items 0, 1 and 2 must exist for the half step. -/
def gammaTimeSteps (edges : List K) (gamma : K) (halfStep : Bool) : Except PyErr (List K) :=
  let half := if gamma = 1 / 2 then List.zipWith (fun a b => 1 / 2 * (b + a)) edges edges.tail
    else List.zipWith (fun a b => a + (b - a) * gamma) edges edges.tail
  let combined := (edges ++ half).mergeSort fun a b => decide (a ≤ b)
  if halfStep then
    match combined with
    | a :: _ :: c :: rest => .ok (a :: (1 / 2 * (a + c)) :: c :: rest)
    | _ => .error .indexError
  else .ok combined

/-! ### spatial1d -/

/-- `np.argmin(np.fabs(s - edges))` over `n` entries: the first index of the smallest value (main.py:230-231). -/
def argminAbs (n : ℕ) (edges : ℕ → K) (s : K) : ℕ :=
  loop n (fun i best => if |s - edges i| < |s - edges best| then i else best) 0

/-- `str.split(c)` for one character (main.py:228-229). -/
def splitChar (c : Char) : List Char → List (List Char)
  | [] => [[]]
  | x :: xs =>
    if x = c then [] :: splitChar c xs
    else match splitChar c xs with
      | [] => [[x]]
      | h :: t => (x :: h) :: t

/-- The inner body of `spatial1d` (main.py:228-232): exactly two parts, both numbers, otherwise
ValueError; then `medium_map[idx1:idx2] = layer[0]` (an empty slice if `idx1 >= idx2`). -/
def fillRegion {L : Type*} (parse : List Char → Option K) (n : ℕ) (edges : ℕ → K) (label : L)
    (map : ℕ → L) (region : List Char) : Except PyErr (ℕ → L) :=
  match splitChar '-' region with
  | [start, stop] =>
    match parse start, parse stop with
    | some s, some t => .ok fun i =>
        if argminAbs n edges s ≤ i ∧ i < argminAbs n edges t then label else map i
    | _, _ => .error .valueError
  | _ => .error .valueError

/-- `spatial1d` (main.py:207-237).  `n` is `len(edges_x)`, so there are `n - 1` cells; `unset` is `-1`.
With `labels=True` only the type of the map differs. -/
def spatial1d {L : Type*} [DecidableEq L] (unset : L) (parse : List Char → Option K)
    (layers : List (L × List Char)) (n : ℕ) (edges : ℕ → K) (check : Bool) : Except PyErr (ℕ → L) :=
  match layers.foldlM (fun map layer =>
      (splitChar ',' layer.2).foldlM (fun map region => fillRegion parse n edges layer.1 map region) map)
      (fun _ => unset) with
  | .error e => .error e
  | .ok map =>
    if check = true ∧ (List.range (n - 1)).any (fun i => decide (map i = unset)) = true then .error .assertion else .ok map

/-! ### materials.py -/

/-- `str.split("-%")` (materials.py:86, 105). -/
def splitPercent : List Char → List (List Char)
  | '-' :: '%' :: rest => [] :: splitPercent rest
  | x :: rest => match splitPercent rest with
    | [] => [[x]]
    | h :: t => (x :: h) :: t
  | [] => [[]]

/-- `str.strip("%")` (materials.py:106). -/
def stripPercent (s : List Char) : List Char :=
  ((s.dropWhile (· = '%')).reverse.dropWhile (· = '%')).reverse

/-- The three arrays of a material file (materials.py:95-128). -/
structure Xs (K : Type*) where
  total : ℕ → K
  scatter : ℕ → ℕ → K
  fission : ℕ → ℕ → K

/-- `a[xs] * enrichment + b[xs] * (1 - enrichment)` (materials.py:117, 122). -/
def mixXs (e : K) (a b : Xs K) : Xs K :=
  ⟨fun g => a.total g * e + b.total g * (1 - e),
   fun g h => a.scatter g h * e + b.scatter g h * (1 - e),
   fun g h => a.fission g h * e + b.fission g h * (1 - e)⟩

/-- The names of materials.py:28-42. -/
def nonEnrichment : List (List Char) :=
  ["stainless-steel-440".toList, "hydrogen".toList, "high-density-polyethyene-618".toList,
   "high-density-polyethyene-087".toList, "carbon".toList, "uranium-235".toList, "uranium-238".toList,
   "water-uranium-dioxide".toList, "plutonium-239".toList, "plutonium-240".toList, "vacuum".toList]

/-- `__enrichment_materials` (materials.py:27). -/
def enrichmentNames : List (List Char) :=
  ["uranium".toList, "uranium-hydride".toList, "plutonium".toList]

/-- `__materials` (materials.py:43). -/
def knownNames : List (List Char) := enrichmentNames ++ nonEnrichment

/-- Molar masses, densities and conversion factors used by `_generate_uranium_hydride` (materials.py:131-148). -/
structure HydrideConst (K : Type*) where
  u235 : K
  u238 : K
  h1 : K
  hydrideRho : K
  uraniumRho : K
  avogadroBarns : K

/-- `_generate_uranium_hydride` (materials.py:131-148), arithmetic part. -/
def hydrideXs (c : HydrideConst K) (e : K) (a b h : Xs K) : Xs K :=
  let molar := e * c.u235 + (1 - e) * c.u238
  let rho := c.hydrideRho / c.uraniumRho
  let n235 := e * rho * molar / (molar + 3 * c.h1)
  let n238 := (1 - e) * rho * molar / (molar + 3 * c.h1)
  let n1 := c.hydrideRho * c.avogadroBarns / (molar + 3 * c.h1) * 3
  ⟨fun g => n235 * a.total g + n238 * b.total g + n1 * h.total g,
   fun g k => n235 * a.scatter g k + n238 * b.scatter g k + n1 * h.scatter g k,
   fun g k => n235 * a.fission g k + n238 * b.fission g k + n1 * h.fission g k⟩

/-- `_generate_cross_section` (materials.py:95-128) with the file loader as a parameter. `enrichment` is
bound only if the name contains `%`.  (`data` stays empty, hence KeyError, for other names; `materials`
never passes one.) -/
def generateCrossSection (load : List Char → Except PyErr (Xs K)) (parse : List Char → Option K)
    (c : HydrideConst K) (name : List Char) : Except PyErr (Xs K) :=
  let head : Except PyErr (List Char × Option K) :=
    if '%' ∈ name then
      match splitPercent name with
      | [m, e] => match parse (stripPercent e) with
        | some x => .ok (m, some (x / 100))
        | none => .error .valueError
      | _ => .error .valueError
    else .ok (name, none)
  match head with
  | .error e => .error e
  | .ok (m, enrichment) =>
    if m = "vacuum".toList then .ok ⟨fun _ => 0, fun _ _ => 0, fun _ _ => 0⟩
    else if m ∈ nonEnrichment then load m
    else if m = "uranium".toList then
      match load "uranium-235".toList with
      | .error e => .error e
      | .ok a => match load "uranium-238".toList with
        | .error e => .error e
        | .ok b => match enrichment with
          | none => .error .unboundLocal
          | some x => .ok (mixXs x a b)
    else if m = "plutonium".toList then
      match load "plutonium-239".toList with
      | .error e => .error e
      | .ok a => match load "plutonium-240".toList with
        | .error e => .error e
        | .ok b => match enrichment with
          | none => .error .unboundLocal
          | some x => .ok (mixXs x a b)
    else if m = "uranium-hydride".toList then
      match enrichment with
      | none => .error .unboundLocal
      | some x => match load "uranium-235".toList with
        | .error e => .error e
        | .ok a => match load "uranium-238".toList with
          | .error e => .error e
          | .ok b => match load "hydrogen".toList with
            | .error e => .error e
            | .ok h => .ok (hydrideXs c x a b h)
    else .error .keyError

/-- `materials` (materials.py:46-92) with the loader as a parameter. -/
def materialsWith (load : List Char → Except PyErr (Xs K)) (parse : List Char → Option K)
    (c : HydrideConst K) : List (List Char) → Except PyErr (List (Xs K))
  | [] => .ok []
  | name :: rest =>
    if (splitPercent name).headD [] ∈ knownNames then
      match generateCrossSection load parse c name with
      | .error e => .error e
      | .ok x => match materialsWith load parse c rest with
        | .error e => .error e
        | .ok xs => .ok (x :: xs)
    else .error .assertion

/-- The loader as written (materials.py:19, 110-...): `DATA_PATH` is a `pathlib` path
(`importlib.resources.files("discrete1") / "sources"`), and `DATA_PATH + "materials/"` raises TypeError,
whatever the name. -/
def loadAsWritten : List Char → Except PyErr (Xs K) := fun _ => .error .typeError

/-- `materials` as written (materials.py:46-92). -/
def materials (parse : List Char → Option K) (c : HydrideConst K) (names : List (List Char)) :
    Except PyErr (List (Xs K)) := materialsWith loadAsWritten parse c names

/-! ### boundary1d.py -/

/-- `deuterium_deuterium` / `deuterium_tritium` (boundary1d.py:110-157) for the source energy `energy`
(2.45e6 or 14.1e6) and `n` edges (`n - 1` groups).  `location` is a Python index of an axis of length 2. -/
def monoBoundary (n : ℕ) (edges : ℕ → K) (energy : K) (location : ℤ) : Except PyErr (Arr3 K) :=
  let group := argminAbs n edges energy
  if location < -2 ∨ 2 ≤ location then .error .indexError
  else if n - 1 ≤ group then .error .indexError
  else .ok ⟨1, n - 1, fun side _ g =>
    if (side : ℤ) = (if location < 0 then location + 2 else location) ∧ g = group then 1 else 0⟩

/-- A boundary array with a time axis of length `steps` (boundary1d.py:160-246). -/
structure TimeBoundary (K : Type*) where
  steps : ℕ
  val : ℕ → ℕ → ℕ → ℕ → K

/-- `time_dependence_constant` (boundary1d.py:160-174). -/
def timeConstant (b : ℕ → ℕ → ℕ → K) : TimeBoundary K := ⟨1, fun _ => b⟩

/-- `time_dependence_decay_01` (boundary1d.py:177-204); `n` time edges. -/
def timeDecay01 (b : ℕ → ℕ → ℕ → K) (n : ℕ) (edgesT : ℕ → K) (off : K) : TimeBoundary K :=
  ⟨n - 1, fun t s a g => if off < edgesT (t + 1) then b s a g * 0 else b s a g⟩

/-- All index triples of an array of shape `(2, angles, groups)` in C order (boundary1d.py:207-246). -/
def triples (angles groups : ℕ) : List (ℕ × ℕ × ℕ) :=
  (List.range 2).flatMap fun s => (List.range angles).flatMap fun a => (List.range groups).map fun g =>
    (s, a, g)

/-- `boundary_x[tt][idx] = v` (boundary1d.py:243) where `idx = tuple(np.argwhere(b != 0).flatten())`:
with one nonzero entry `idx` is its index; with none it is `()`, which selects the whole array; with two or
more it has six or more components, too many for a three-dimensional array. -/
def assignNonzero (nonzero : List (ℕ × ℕ × ℕ)) (b : ℕ → ℕ → ℕ → K) (v : K) :
    Except PyErr (ℕ → ℕ → ℕ → K) :=
  match nonzero with
  | [] => .ok fun _ _ _ => v
  | [i] => .ok fun s a g => if (s, a, g) = i then v else b s a g
  | _ => .error .indexError

/-- One pass of the loop of `time_dependence_decay_02` (boundary1d.py:236-243). -/
def decay02Step (nonzero : List (ℕ × ℕ × ℕ)) (micro : K → K) (ceil : K → ℕ) (erf : K → K) (edgesT : ℕ → K)
    (tt : ℕ) (out : ℕ → ℕ → ℕ → ℕ → K) : Except PyErr (ℕ → ℕ → ℕ → ℕ → K) :=
  let t := micro (edgesT (tt + 1))
  if 1 / 5 ≤ t then
    let k := ceil ((t - 1 / 5) / (1 / 10))
    let arg := (t - 1 / 10 * (1 + k)) / (1 / 100)
    match assignNonzero nonzero (out tt) ((1 / 2) ^ k * (1 + 2 * (1 - erf arg))) with
    | .error e => .error e
    | .ok row => .ok (Function.update out tt row)
  else .ok out

/-- `time_dependence_decay_02` (boundary1d.py:207-246).  `micro` is `np.round(t * 1e6, 12)`, `ceil` is
`np.ceil` (a natural number, as `t_us >= 0.2`), `erf` is `math.erf`. -/
def timeDecay02 (angles groups : ℕ) (micro : K → K) (ceil : K → ℕ) (erf : K → K) (b : ℕ → ℕ → ℕ → K)
    (n : ℕ) (edgesT : ℕ → K) : Except PyErr (TimeBoundary K) :=
  match loopE (n - 1) (decay02Step ((triples angles groups).filter fun i => decide (b i.1 i.2.1 i.2.2 ≠ 0))
      micro ceil erf edgesT) (fun _ => b) with
  | .error e => .error e
  | .ok out => .ok ⟨n - 1, out⟩

end Discrete1.Setup
