import Verif.Model.MultiGroup

/-!
# Convergence tests when warnings are raised

`spatial_sweep.py` and `multi_group.py` compute the change of an iterate inside `try: ... except RuntimeWarning:`.  numpy
*raises* `RuntimeWarning` only if the process turns warnings into exceptions (`python -W error`,
`warnings.simplefilter("error")`); by default it prints them and the clause is never entered.  `Slab.fluxConverged` and
`MultiGroup.fluxConverged2` model the default, the definitions below the other setting.
-/

namespace Discrete1.Warnings

open Discrete1.MultiGroup

variable {K : Type*} [Field K] [LinearOrder K]

/-- spatial_sweep.py:378-382 with warnings raised: a zero in the new flux makes the division warn, the `except` clause
sets `change = 0.0`, and `change < change_nn` holds. -/
def fluxConverged (cells : ℕ) (tol : K) (new old : ℕ → K) : Bool :=
  if ∃ i < cells, new i = 0 then true else Slab.fluxConverged cells tol new old

/-- multi_group.py:345-349 with warnings raised (likewise 443-447). -/
def fluxConverged2 (cells groups : ℕ) (tol : K) (new old : ℕ → ℕ → K) : Bool :=
  if ∃ i < cells, ∃ g < groups, new i g = 0 then true else MultiGroup.fluxConverged2 cells groups tol new old

/-- The problem `p` under the two settings, with the tolerances `change_nn`, `change_gg` (spatial_sweep.py:27,
multi_group.py:36). -/
def setting (raised : Bool) (p : Problem K) (tolIn tolOut : K) : Problem K :=
  { p with
    convIn := if raised then fluxConverged p.cells tolIn else Slab.fluxConverged p.cells tolIn
    convOut := if raised then fluxConverged2 p.cells p.groups tolOut
      else MultiGroup.fluxConverged2 p.cells p.groups tolOut }

end Discrete1.Warnings
