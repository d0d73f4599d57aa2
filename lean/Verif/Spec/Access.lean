import Verif.Model.Access

/-!
# Specification: accesses inside the arrays
-/

namespace Discrete1.Access

/-- The index tuple selects an element (or a row) of an array of the given shape. -/
def Fits : List ℕ → List ℕ → Prop
  | [], _ => True
  | _ :: _, [] => False
  | i :: is, n :: ns => i < n ∧ Fits is ns

/-- No kernel call touches memory outside its arguments. -/
def Safe (calls : List Call) : Prop := ∀ c ∈ calls, ∀ a ∈ c.touched, Fits a.2 (c.shape a.1)

end Discrete1.Access
