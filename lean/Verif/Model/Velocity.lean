import Verif.Model.Setup
import Mathlib.Analysis.Real.Sqrt

/-!
# Model of `main.energy_velocity` (square roots, hence over the reals)
-/

namespace Discrete1.Setup

/-- `const.EV_TO_JOULES`, `const.MASS_NEUTRON`, `const.LIGHT_SPEED` (constants.py:21-25). -/
structure SpeedConst where
  ev : ℝ
  mass : ℝ
  light : ℝ

/-- The values of constants.py. -/
noncomputable def speedConst : SpeedConst :=
  ⟨1.60218e-19, 1.67493e-27, 2.9979246e8⟩

/-- `energy_velocity` (main.py:144-169).  `edges = none` is `edges_g=None`; otherwise the group count is
`len(edges_g) - 1` and `edges` the values. -/
noncomputable def energyVelocity (c : SpeedConst) (edges : Option (ℕ → ℝ)) (g : ℕ) : ℝ :=
  match edges with
  | none => 1
  | some e =>
    let center := 1 / 2 * (e (g + 1) + e g)
    let gamma := c.ev * center / (c.mass * c.light ^ 2) + 1
    c.light / gamma * √(gamma ^ 2 - 1) * 100

end Discrete1.Setup
