import Verif.Props.EnergyTime

/-!
# C206: in an absorbing medium the time-dependent drivers forget the initial flux geometrically

If every material absorbs at rate at least `c` (net removal at least `c / v` in the mean square), the mean-square
difference of two runs with the same sources shrinks by a fixed factor per step: by `1 + 2 c dt` with
`timed1d.backward_euler`, by `1 + 2 c dt / (9 + 2 c dt)` with `timed1d.bdf2`.  Every mesh, every time step.
-/

set_option linter.unusedSectionVars false
set_option linter.unusedSimpArgs false

namespace Discrete1.Props

open Finset Discrete1.Spec Discrete1.Slab Discrete1.Tools Discrete1.MultiGroup Discrete1.Drivers

variable {K : Type} [Field K] [LinearOrder K] [IsStrictOrderedRing K]

/-- Net absorption at rate at least `c`: with `c / v` taken from every total cross section the medium still does not
multiply. -/
def Absorbs (p : Problem K) (sigma : ℕ → ℕ → K) (xs : ℕ → ℕ → ℕ → K) (velocity : ℕ → K) (dt c : K) : Prop :=
  PassiveMedium p (fun m g => sigma m g - c / velocity g) xs velocity dt

theorem Absorbs.whole {p : Problem K} {sigma : ℕ → ℕ → K} {xs : ℕ → ℕ → ℕ → K} {velocity : ℕ → K} {dt c : K}
    (h : Absorbs p sigma xs velocity dt c) (hc : 0 ≤ c) : TimedOk p sigma velocity dt where
  ok := fun g hg => ⟨(h.timed.ok g hg).slab, (h.timed.ok g hg).nonzero, fun i hi =>
    ⟨((h.timed.ok g hg).phys i hi).1, by
      have h1 := ((h.timed.ok g hg).phys i hi).2
      have h2 := div_nonneg hc (h.timed.velocity g hg).le
      beta_reduce at h1
      linarith⟩⟩
  angles := h.timed.angles
  velocity := h.timed.velocity
  dt := h.timed.dt

/-- Energy of an implicit step with absorption and without sources. -/
theorem absorbing_energy {p : Problem K} {sigma : ℕ → ℕ → K} {xs : ℕ → ℕ → ℕ → K} {velocity : ℕ → K} {dt c : K}
    (hp : Absorbs p sigma xs velocity dt c) (hG : 0 < p.groups) {rho s d : ℕ → ℕ → ℕ → K}
    (h : ImplicitStep p sigma xs (quadrature p d) (fun i n g => rho i n g / (velocity g * dt))
      (fullArr p fun i n g => s i n g / velocity g) zeroBoundary d) :
    vdot p velocity rho d + c * dt * vdot p velocity d d ≤ dt * vdot p velocity s d := by
  have key := implicit_energy hp.timed (hp.weighted hG) hp.norm hp.even hp.dissipative
    (rho := fun i n g => rho i n g + c * dt * d i n g) (s := s) (d := d) (by
      obtain ⟨e, he⟩ := h
      refine ⟨e, fun g hg => ⟨(he g hg).1, fun n hn i hi => ?_, (he g hg).2.2⟩⟩
      rw [← (he g hg).2.1 n hn i hi]
      have hv := (hp.timed.velocity g hg).ne'
      have hdt := hp.timed.dt.ne'
      beta_reduce
      field_simp
      ring)
  have e : vdot p velocity (fun i n g => rho i n g + c * dt * d i n g) d
      = vdot p velocity rho d + c * dt * vdot p velocity d d := by
    simp only [vdot_eq]
    rw [mul_sum, ← sum_add_distrib]
    exact sum_congr rfl fun x _ => by ring
  rw [e] at key
  exact key

/-- One step of the difference of two runs. -/
theorem absorbing_step {second : Bool} {p : Problem K} {sigma : ℕ → ℕ → K} {xs : ℕ → ℕ → ℕ → K} {velocity : ℕ → K}
    {external boundary : TimeArr K} {dt c : K} {steps : ℕ} (hc : 0 ≤ c)
    (hp : Absorbs p sigma xs velocity dt c) (hG : 0 < p.groups) {psi psi' : ℕ → ℕ → ℕ → ℕ → K}
    (h : FullyImplicit second p sigma xs velocity external boundary dt steps psi)
    (h' : FullyImplicit second p sigma xs velocity external boundary dt steps psi') (j : ℕ) (hj : j < steps) :
    vdot p velocity (fun i n g => timeDiff second j (fun j i n g => psi j i n g - psi' j i n g) i n g)
        (fun i n g => psi (j + 1) i n g - psi' (j + 1) i n g)
      + c * dt * vdot p velocity (fun i n g => psi (j + 1) i n g - psi' (j + 1) i n g)
        (fun i n g => psi (j + 1) i n g - psi' (j + 1) i n g) ≤ 0 := by
  have hE := implicit_transport h' j hj
  have key := implicit_diff (hp.whole hc) (r := timeDiff second j psi) (h j hj) (fun _ _ _ _ => rfl) hE
    (timeDiff second j psi')
  have k2 := absorbing_energy hp hG
    (rho := fun i n g => timeDiff second j (fun j i n g => psi j i n g - psi' j i n g) i n g)
    (implicit_congr key (fun _ _ _ _ => rfl) (by
      funext i n g
      congr 1
      unfold timeDiff
      split_ifs <;> ring))
  refine k2.trans (le_of_eq ?_)
  rw [vdot_eq, sum_eq_zero, mul_zero]
  intro x _
  simp

/-- C206 (backward Euler, one step): the mean-square difference shrinks by `1 + 2 c dt`. -/
theorem C206_backward_euler_step {p : Problem K} {sigma : ℕ → ℕ → K} {xs : ℕ → ℕ → ℕ → K} {velocity : ℕ → K}
    {external boundary : TimeArr K} {dt c : K} {steps : ℕ} (hc : 0 ≤ c)
    (hp : Absorbs p sigma xs velocity dt c) (hG : 0 < p.groups) {psi psi' : ℕ → ℕ → ℕ → ℕ → K}
    (h : FullyImplicit false p sigma xs velocity external boundary dt steps psi)
    (h' : FullyImplicit false p sigma xs velocity external boundary dt steps psi') (j : ℕ) (hj : j < steps) :
    (1 + 2 * c * dt) * vdot p velocity (fun i n g => psi (j + 1) i n g - psi' (j + 1) i n g)
        (fun i n g => psi (j + 1) i n g - psi' (j + 1) i n g)
      ≤ vdot p velocity (fun i n g => psi j i n g - psi' j i n g) (fun i n g => psi j i n g - psi' j i n g) := by
  have key := absorbing_step hc hp hG h h' j hj
  have e : 2 * vdot p velocity (fun i n g => timeDiff false j (fun j i n g => psi j i n g - psi' j i n g) i n g)
        (fun i n g => psi (j + 1) i n g - psi' (j + 1) i n g)
      = vdot p velocity (fun i n g => psi (j + 1) i n g - psi' (j + 1) i n g)
          (fun i n g => psi (j + 1) i n g - psi' (j + 1) i n g)
        - vdot p velocity (fun i n g => psi j i n g - psi' j i n g) (fun i n g => psi j i n g - psi' j i n g)
        + vdot p velocity (fun i n g => timeDiff false j (fun j i n g => psi j i n g - psi' j i n g) i n g)
          (fun i n g => timeDiff false j (fun j i n g => psi j i n g - psi' j i n g) i n g) := by
    simp only [vdot_eq]
    rw [mul_sum, ← sum_sub_distrib, ← sum_add_distrib]
    refine sum_congr rfl fun x _ => ?_
    simp only [timeDiff, Bool.false_eq_true, false_and, if_false]
    ring
  have := vdot_self_nonneg (hp.weighted hG)
    fun i n g => timeDiff false j (fun j i n g => psi j i n g - psi' j i n g) i n g
  linarith

/-- The quantity that BDF2 contracts: its energy plus `2 c dt` times the newest square. -/
def dampedEnergy (p : Problem K) (velocity : ℕ → K) (c dt : K) (new old : ℕ → ℕ → ℕ → K) : K :=
  bdfEnergy p velocity new old + 2 * c * dt * vdot p velocity new new

theorem dampedEnergy_le {p : Problem K} {velocity : ℕ → K} (hw : Weighted p velocity) {c dt : K} (hc : 0 ≤ c)
    (hdt : 0 ≤ dt) (new old : ℕ → ℕ → ℕ → K) :
    dampedEnergy p velocity c dt new old
      ≤ (9 + 2 * c * dt) * (vdot p velocity new new + vdot p velocity old old) := by
  -- |2 a - b|^2 + |a + 2 b|^2 = 5 (|a|^2 + |b|^2)
  have e : bdfEnergy p velocity new old
      + vdot p velocity (fun i n g => new i n g + 2 * old i n g) (fun i n g => new i n g + 2 * old i n g)
      = 6 * vdot p velocity new new + 5 * vdot p velocity old old := by
    unfold bdfEnergy
    simp only [vdot_eq]
    rw [mul_sum, mul_sum, ← sum_add_distrib, ← sum_add_distrib, ← sum_add_distrib]
    exact sum_congr rfl fun x _ => by ring
  have h1 := vdot_self_nonneg hw fun i n g => new i n g + 2 * old i n g
  have h2 := vdot_self_nonneg hw new
  have h3 := vdot_self_nonneg hw old
  have h4 : 0 ≤ 2 * c * dt * vdot p velocity old old := by positivity
  unfold dampedEnergy
  nlinarith

/-- C206 (BDF2, one step after the first). -/
theorem C206_bdf2_step {p : Problem K} {sigma : ℕ → ℕ → K} {xs : ℕ → ℕ → ℕ → K} {velocity : ℕ → K}
    {external boundary : TimeArr K} {dt c : K} {steps : ℕ} (hc : 0 ≤ c)
    (hp : Absorbs p sigma xs velocity dt c) (hG : 0 < p.groups) {psi psi' : ℕ → ℕ → ℕ → ℕ → K}
    (h : FullyImplicit true p sigma xs velocity external boundary dt steps psi)
    (h' : FullyImplicit true p sigma xs velocity external boundary dt steps psi') (j : ℕ) (hj : j + 1 < steps) :
    (1 + 2 * c * dt / (9 + 2 * c * dt)) * dampedEnergy p velocity c dt
        (fun i n g => psi (j + 2) i n g - psi' (j + 2) i n g) (fun i n g => psi (j + 1) i n g - psi' (j + 1) i n g)
      ≤ dampedEnergy p velocity c dt
        (fun i n g => psi (j + 1) i n g - psi' (j + 1) i n g) (fun i n g => psi j i n g - psi' j i n g) := by
  have hw := hp.weighted hG
  have hdt := hp.timed.dt.le
  have key := absorbing_step hc hp hG h h' (j + 1) hj
  have e : 4 * vdot p velocity (fun i n g => timeDiff true (j + 1) (fun j i n g => psi j i n g - psi' j i n g) i n g)
        (fun i n g => psi (j + 2) i n g - psi' (j + 2) i n g)
      = bdfEnergy p velocity (fun i n g => psi (j + 2) i n g - psi' (j + 2) i n g)
          (fun i n g => psi (j + 1) i n g - psi' (j + 1) i n g)
        - bdfEnergy p velocity (fun i n g => psi (j + 1) i n g - psi' (j + 1) i n g)
          (fun i n g => psi j i n g - psi' j i n g)
        + vdot p velocity
          (fun i n g => (psi (j + 2) i n g - psi' (j + 2) i n g) - 2 * (psi (j + 1) i n g - psi' (j + 1) i n g)
            + (psi j i n g - psi' j i n g))
          (fun i n g => (psi (j + 2) i n g - psi' (j + 2) i n g) - 2 * (psi (j + 1) i n g - psi' (j + 1) i n g)
            + (psi j i n g - psi' j i n g)) := by
    unfold bdfEnergy
    simp only [vdot_eq]
    rw [mul_sum, ← sum_add_distrib, ← sum_add_distrib, ← sum_sub_distrib, ← sum_add_distrib]
    refine sum_congr rfl fun x _ => ?_
    simp only [timeDiff, ne_eq, Nat.add_eq_zero_iff, one_ne_zero, and_false, not_false_eq_true, and_self, if_true,
      Nat.add_sub_cancel]
    ring
  have h0 := vdot_self_nonneg hw fun i n g => (psi (j + 2) i n g - psi' (j + 2) i n g)
    - 2 * (psi (j + 1) i n g - psi' (j + 1) i n g) + (psi j i n g - psi' j i n g)
  have hle := dampedEnergy_le hw hc hdt (fun i n g => psi (j + 2) i n g - psi' (j + 2) i n g)
    (fun i n g => psi (j + 1) i n g - psi' (j + 1) i n g)
  have hpos : 0 < 9 + 2 * c * dt := by positivity
  have hcd : 0 ≤ 2 * c * dt := by positivity
  have h2 : 2 * c * dt / (9 + 2 * c * dt) * dampedEnergy p velocity c dt
        (fun i n g => psi (j + 2) i n g - psi' (j + 2) i n g) (fun i n g => psi (j + 1) i n g - psi' (j + 1) i n g)
      ≤ 2 * c * dt * (vdot p velocity (fun i n g => psi (j + 2) i n g - psi' (j + 2) i n g)
          (fun i n g => psi (j + 2) i n g - psi' (j + 2) i n g)
        + vdot p velocity (fun i n g => psi (j + 1) i n g - psi' (j + 1) i n g)
          (fun i n g => psi (j + 1) i n g - psi' (j + 1) i n g)) := by
    refine (mul_le_mul_of_nonneg_left hle (div_nonneg hcd hpos.le)).trans (le_of_eq ?_)
    field_simp
  rw [add_mul, one_mul]
  refine (add_le_add_right h2 _).trans ?_
  unfold dampedEnergy
  have key' : vdot p velocity (fun i n g => timeDiff true (j + 1) (fun j i n g => psi j i n g - psi' j i n g) i n g)
        (fun i n g => psi (j + 2) i n g - psi' (j + 2) i n g)
      + c * dt * vdot p velocity (fun i n g => psi (j + 2) i n g - psi' (j + 2) i n g)
        (fun i n g => psi (j + 2) i n g - psi' (j + 2) i n g) ≤ 0 := key
  linarith

/-- C206 (BDF2, the first step, which is backward Euler). -/
theorem C206_bdf2_first {p : Problem K} {sigma : ℕ → ℕ → K} {xs : ℕ → ℕ → ℕ → K} {velocity : ℕ → K}
    {external boundary : TimeArr K} {dt c : K} {steps : ℕ} (hc : 0 ≤ c)
    (hp : Absorbs p sigma xs velocity dt c) (hG : 0 < p.groups) {psi psi' : ℕ → ℕ → ℕ → ℕ → K}
    (h : FullyImplicit true p sigma xs velocity external boundary dt steps psi)
    (h' : FullyImplicit true p sigma xs velocity external boundary dt steps psi') (hj : 0 < steps) :
    dampedEnergy p velocity c dt (fun i n g => psi 1 i n g - psi' 1 i n g) (fun i n g => psi 0 i n g - psi' 0 i n g)
      ≤ 3 * vdot p velocity (fun i n g => psi 0 i n g - psi' 0 i n g) (fun i n g => psi 0 i n g - psi' 0 i n g) := by
  have hw := hp.weighted hG
  have hdt := hp.timed.dt.le
  have key := absorbing_step hc hp hG h h' 0 hj
  simp only [zero_add] at key
  have e : 6 * vdot p velocity (fun i n g => timeDiff true 0 (fun j i n g => psi j i n g - psi' j i n g) i n g)
        (fun i n g => psi 1 i n g - psi' 1 i n g)
      = bdfEnergy p velocity (fun i n g => psi 1 i n g - psi' 1 i n g) (fun i n g => psi 0 i n g - psi' 0 i n g)
        - 3 * vdot p velocity (fun i n g => psi 0 i n g - psi' 0 i n g) (fun i n g => psi 0 i n g - psi' 0 i n g)
        + vdot p velocity (fun i n g => psi 0 i n g - psi' 0 i n g) (fun i n g => psi 0 i n g - psi' 0 i n g)
        + vdot p velocity (fun i n g => timeDiff true 0 (fun j i n g => psi j i n g - psi' j i n g) i n g)
          (fun i n g => timeDiff true 0 (fun j i n g => psi j i n g - psi' j i n g) i n g) := by
    unfold bdfEnergy
    simp only [vdot_eq]
    rw [mul_sum, mul_sum, ← sum_add_distrib, ← sum_sub_distrib, ← sum_add_distrib, ← sum_add_distrib]
    refine sum_congr rfl fun x _ => ?_
    simp only [timeDiff, ne_eq, not_true_eq_false, and_false, if_false]
    ring
  have h1 := vdot_self_nonneg hw fun i n g => timeDiff true 0 (fun j i n g => psi j i n g - psi' j i n g) i n g
  have h2 := vdot_self_nonneg hw fun i n g => psi 0 i n g - psi' 0 i n g
  have h3 := vdot_self_nonneg hw fun i n g => psi 1 i n g - psi' 1 i n g
  have h4 : 0 ≤ c * dt * vdot p velocity (fun i n g => psi 1 i n g - psi' 1 i n g)
      (fun i n g => psi 1 i n g - psi' 1 i n g) := by positivity
  unfold dampedEnergy
  linarith

/-- The factor by which one step shrinks the mean-square difference. -/
def stepFactor (second : Bool) (c dt : K) : K :=
  if second then 1 + 2 * c * dt / (9 + 2 * c * dt) else 1 + 2 * c * dt

/-- C206 for fully implicit sequences: geometric decay of the difference. -/
theorem C206_decay (second : Bool) {p : Problem K} {sigma : ℕ → ℕ → K} {xs : ℕ → ℕ → ℕ → K} {velocity : ℕ → K}
    {external boundary : TimeArr K} {dt c : K} {steps : ℕ} (hc : 0 ≤ c)
    (hp : Absorbs p sigma xs velocity dt c) (hG : 0 < p.groups) {psi psi' : ℕ → ℕ → ℕ → ℕ → K}
    (h : FullyImplicit second p sigma xs velocity external boundary dt steps psi)
    (h' : FullyImplicit second p sigma xs velocity external boundary dt steps psi') (j : ℕ) (hj : j < steps) :
    stepFactor second c dt ^ (if second then j else j + 1)
        * vdot p velocity (fun i n g => psi (j + 1) i n g - psi' (j + 1) i n g)
          (fun i n g => psi (j + 1) i n g - psi' (j + 1) i n g)
      ≤ (if second then 3 else 1)
        * vdot p velocity (fun i n g => psi 0 i n g - psi' 0 i n g) (fun i n g => psi 0 i n g - psi' 0 i n g) := by
  have hw := hp.weighted hG
  have hdt := hp.timed.dt.le
  cases second with
  | false =>
    simp only [stepFactor, Bool.false_eq_true, if_false, one_mul]
    have hf : 0 ≤ 1 + 2 * c * dt := by positivity
    have main : ∀ k ≤ steps, (1 + 2 * c * dt) ^ k * vdot p velocity (fun i n g => psi k i n g - psi' k i n g)
          (fun i n g => psi k i n g - psi' k i n g)
        ≤ vdot p velocity (fun i n g => psi 0 i n g - psi' 0 i n g) (fun i n g => psi 0 i n g - psi' 0 i n g) := by
      intro k
      induction k with
      | zero => intro _; simp
      | succ k ih =>
        intro hk
        refine le_trans ?_ (ih (by omega))
        rw [pow_succ, mul_assoc]
        exact mul_le_mul_of_nonneg_left (C206_backward_euler_step hc hp hG h h' k hk) (pow_nonneg hf k)
    exact main (j + 1) hj
  | true =>
    simp only [stepFactor, if_true]
    have hf : 0 ≤ 1 + 2 * c * dt / (9 + 2 * c * dt) := by positivity
    have main : ∀ k < steps, (1 + 2 * c * dt / (9 + 2 * c * dt)) ^ k * dampedEnergy p velocity c dt
          (fun i n g => psi (k + 1) i n g - psi' (k + 1) i n g) (fun i n g => psi k i n g - psi' k i n g)
        ≤ 3 * vdot p velocity (fun i n g => psi 0 i n g - psi' 0 i n g) (fun i n g => psi 0 i n g - psi' 0 i n g) := by
      intro k
      induction k with
      | zero => intro hk; simpa using C206_bdf2_first hc hp hG h h' hk
      | succ k ih =>
        intro hk
        refine le_trans ?_ (ih (by omega))
        rw [pow_succ, mul_assoc]
        exact mul_le_mul_of_nonneg_left (C206_bdf2_step hc hp hG h h' k hk) (pow_nonneg hf k)
    refine le_trans (mul_le_mul_of_nonneg_left ?_ (pow_nonneg hf j)) (main j hj)
    unfold dampedEnergy bdfEnergy
    have h1 := vdot_self_nonneg hw fun i n g => psi (j + 1) i n g - psi' (j + 1) i n g
    have h2 := vdot_self_nonneg hw fun i n g =>
      2 * (psi (j + 1) i n g - psi' (j + 1) i n g) - (psi j i n g - psi' j i n g)
    have h3 : 0 ≤ 2 * c * dt * vdot p velocity (fun i n g => psi (j + 1) i n g - psi' (j + 1) i n g)
      (fun i n g => psi (j + 1) i n g - psi' (j + 1) i n g) := by positivity
    linarith

/-- C206 (drivers): two runs from different initial fluxes approach each other geometrically, on every mesh and for
every time step (steps solved exactly: no self- and up-scatter). -/
theorem C206_drivers (second : Bool) (p : Problem K) (xsTotal : ℕ → ℕ → K) (scatter : ℕ → ℕ → ℕ → K)
    (fission : Fission K) (velocity : ℕ → K) (external boundary : TimeArr K) (steps : ℕ) (dt c : K)
    (init init' : ℕ → ℕ → ℕ → K) (hc : 0 ≤ c)
    (hp : Absorbs p xsTotal (fun m g g' => scatter m g g' + fissionMatrix fission m g g') velocity dt c)
    (hG : 0 < p.groups) (hext : Covers external steps) (hbnd : Covers boundary steps)
    (hdown : ∀ m g g', g ≤ g' → scatter m g g' + fissionMatrix fission m g g' = 0) :
    ∃ out out' : ℕ → ℕ → ℕ → K,
      (if second then bdf2 p xsTotal (.iso scatter) fission velocity external boundary steps dt init
        else backwardEuler p xsTotal (.iso scatter) fission velocity external boundary steps dt init) = .ok out ∧
      (if second then bdf2 p xsTotal (.iso scatter) fission velocity external boundary steps dt init'
        else backwardEuler p xsTotal (.iso scatter) fission velocity external boundary steps dt init') = .ok out' ∧
      ∀ j < steps, stepFactor second c dt ^ (if second then j else j + 1)
          * scalarSquare p velocity (fun i g => out j i g - out' j i g)
        ≤ (if second then 3 else 1) * vdot p velocity (fun i n g => init i n g - init' i n g)
          (fun i n g => init i n g - init' i n g) := by
  have hok := hp.whole hc
  obtain ⟨out, psi, h1, h2, h3, h4⟩ := timed_downscatter second p xsTotal scatter fission velocity external boundary
    steps dt init hok hG hext hbnd hdown
  obtain ⟨out', psi', h1', h2', h3', h4'⟩ := timed_downscatter second p xsTotal scatter fission velocity external
    boundary steps dt init' hok hG hext hbnd hdown
  have hw := hp.weighted hG
  have hdt := hp.timed.dt.le
  have hf : 0 ≤ stepFactor second c dt := by
    unfold stepFactor; split_ifs <;> positivity
  refine ⟨out, out', h1, h1', fun j hj => (mul_le_mul_of_nonneg_left
    (scalarSquare_sub_le hw hp.norm (h4 j hj) (h4' j hj)) (pow_nonneg hf _)).trans ?_⟩
  subst h2 h2'
  exact C206_decay second hc hp hG h3 h3' j hj

/-- C206 (steady state): with constant sources both drivers approach the steady state geometrically. -/
theorem C206_steady (second : Bool) (p : Problem K) (xsTotal : ℕ → ℕ → K) (scatter : ℕ → ℕ → ℕ → K)
    (fission : Fission K) (velocity : ℕ → K) (ext bnd : Arr3 K) (steps : ℕ) (dt c : K)
    (init steady : ℕ → ℕ → ℕ → K) (hc : 0 ≤ c)
    (hp : Absorbs p xsTotal (fun m g g' => scatter m g g' + fissionMatrix fission m g g') velocity dt c)
    (hG : 0 < p.groups)
    (hdown : ∀ m g g', g ≤ g' → scatter m g g' + fissionMatrix fission m g g' = 0)
    (hst : TransportAt p xsTotal (fun m g g' => scatter m g g' + fissionMatrix fission m g g') velocity ext bnd steady
      (fun _ _ _ => 0)) :
    ∃ out : ℕ → ℕ → ℕ → K,
      (if second then bdf2 p xsTotal (.iso scatter) fission velocity ⟨1, fun _ => ext⟩ ⟨1, fun _ => bnd⟩ steps dt init
        else backwardEuler p xsTotal (.iso scatter) fission velocity ⟨1, fun _ => ext⟩ ⟨1, fun _ => bnd⟩ steps dt init)
        = .ok out ∧
      ∀ j < steps, stepFactor second c dt ^ (if second then j else j + 1)
          * scalarSquare p velocity (fun i g => out j i g - quadrature p steady i g)
        ≤ (if second then 3 else 1) * vdot p velocity (fun i n g => init i n g - steady i n g)
          (fun i n g => init i n g - steady i n g) := by
  have hok := hp.whole hc
  obtain ⟨out, psi, h1, h2, h3, h4⟩ := timed_downscatter second p xsTotal scatter fission velocity ⟨1, fun _ => ext⟩
    ⟨1, fun _ => bnd⟩ steps dt init hok hG (Or.inl rfl) (Or.inl rfl) hdown
  have hw := hp.weighted hG
  have hdt := hp.timed.dt.le
  have hf : 0 ≤ stepFactor second c dt := by
    unfold stepFactor; split_ifs <;> positivity
  have hS : FullyImplicit second p xsTotal (fun m g g' => scatter m g g' + fissionMatrix fission m g g') velocity
      ⟨1, fun _ => ext⟩ ⟨1, fun _ => bnd⟩ dt steps (fun _ => steady) := by
    intro j _
    refine implicit_congr hst (fun _ _ _ _ => rfl) ?_
    funext i n g
    unfold timeRate
    split_ifs
    · rw [show (3 / 2 : K) * steady i n g - 2 * steady i n g + 1 / 2 * steady i n g = 0 by ring, zero_div, zero_div]
    · simp
  refine ⟨out, h1, fun j hj => (mul_le_mul_of_nonneg_left
    (scalarSquare_sub_le hw hp.norm (h4 j hj) (fun _ _ _ _ => rfl)) (pow_nonneg hf _)).trans ?_⟩
  subst h2
  exact C206_decay second hc hp hG h3 hS j hj

/-! ## A concrete case -/

/-- Two groups, one cell, total cross section 1, transfer `1/2` from group 0 to 1: absorption rate `1/2`. -/
theorem exFlat_absorbs : Absorbs (exFlat K) (fun _ _ => 1)
    (fun m g g' => exFlatXs K m g g' + fissionMatrix (.matrix fun _ _ _ => 0) m g g') (fun _ => 1) (1 / 2) (1 / 2) where
  timed := ⟨fun g hg => ⟨(exFlat_timed.ok g hg).slab, (exFlat_timed.ok g hg).nonzero, fun i hi =>
    ⟨((exFlat_timed.ok g hg).phys i hi).1, by norm_num⟩⟩, exFlat_timed.angles, exFlat_timed.velocity, exFlat_timed.dt⟩
  weights := exFlat_tame.weights
  norm := exFlat_tame.norm
  even := EvenReflection.vacuum _ _ _
  dissipative := Dissipative.of_sums fun i _ g hg => by
    have hg : g < 2 := hg
    show ∑ g' ∈ range 2, |exFlatXs K ((exFlat K).mm i) g g' + 0| + ∑ g' ∈ range 2, |exFlatXs K ((exFlat K).mm i) g' g + 0|
      ≤ 2 * (1 - 1 / 2 / 1)
    simp only [exFlatXs, sum_range_succ, sum_range_zero]
    interval_cases g <;> norm_num [abs_of_pos]

/-- Two runs, starting from 1 and from an arbitrary flux: factors `3/2` and `1 + 1/19` per step. -/
example (second : Bool) (steps : ℕ) (init : ℕ → ℕ → ℕ → ℚ) := C206_drivers second (exFlat ℚ) (fun _ _ => 1)
  (exFlatXs ℚ) (.matrix fun _ _ _ => 0) (fun _ => 1) ⟨1, fun _ => ⟨1, 1, fun _ _ _ => 1⟩⟩
  ⟨1, fun _ => ⟨1, 1, fun _ _ _ => 1⟩⟩ steps (1 / 2) (1 / 2) (fun _ _ _ => 1) init (by norm_num) exFlat_absorbs
  (by show 0 < 2; omega) (Or.inl rfl) (Or.inl rfl) exFlat_down

example : stepFactor (K := ℚ) false (1 / 2) (1 / 2) = 3 / 2 ∧ stepFactor (K := ℚ) true (1 / 2) (1 / 2) = 20 / 19 := by
  norm_num [stepFactor]

/-- The steady state 1 of the source `1`, `1/2` with inflow 1. -/
example (second : Bool) (steps : ℕ) (init : ℕ → ℕ → ℕ → ℚ) := C206_steady second (exFlat ℚ) (fun _ _ => 1)
  (exFlatXs ℚ) (.matrix fun _ _ _ => 0) (fun _ => 1) ⟨1, 2, fun _ _ g => 0 + 1 - (if g = 1 then 1 / 2 else 0)⟩
  ⟨1, 1, fun _ _ _ => 1⟩ steps (1 / 2) (1 / 2) init (fun _ _ _ => 1) (by norm_num) exFlat_absorbs
  (by show 0 < 2; omega) exFlat_down (exFlat_transport 1 0)

end Discrete1.Props
