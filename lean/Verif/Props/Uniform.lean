import Verif.Props.Decay

/-!
# C209: in an absorbing medium the errors of time stepping do not pile up

Against any solution of the semi-discrete equation, the error of `backward_euler` and `bdf2` at every step is bounded by
the decayed initial error plus a constant that does not depend on the number of steps: (truncation error + what the inner
iterations left open) / absorption rate.  All scattering and fission, iterations stopped anywhere, every mesh and step.
-/

set_option linter.unusedSectionVars false
set_option linter.unusedSimpArgs false

namespace Discrete1.Props

open Finset Discrete1.Spec Discrete1.Slab Discrete1.Tools Discrete1.MultiGroup Discrete1.Drivers

variable {K : Type} [Field K] [LinearOrder K] [IsStrictOrderedRing K]

/-- What the inner iterations left open: the transfer source of the flux they returned minus the one of the angular flux
of the final sweep, times the velocity. -/
def openSource (p : Problem K) (xs : ℕ → ℕ → ℕ → K) (velocity : ℕ → K) (phi : ℕ → ℕ → K) (psi : ℕ → ℕ → ℕ → K)
    (i _n g : ℕ) : K :=
  velocity g * ∑ g' ∈ range p.groups, xs (p.mm i) g g' * (phi i g' - quadrature p psi i g')

/-- `implicit_diff` with unfinished iterations. -/
theorem inexact_diff {p : Problem K} {sigma : ℕ → ℕ → K} {xs : ℕ → ℕ → ℕ → K} {velocity : ℕ → K} {dt : K}
    (hok : TimedOk p sigma velocity dt) {ext bnd : Arr3 K} {phi : ℕ → ℕ → K} {r psi E D : ℕ → ℕ → ℕ → K}
    (h : ImplicitStep p sigma xs phi (fun i n g => r i n g / (velocity g * dt)) ext bnd psi)
    (hE : TransportAt p sigma xs velocity ext bnd E D) (rE : ℕ → ℕ → ℕ → K) :
    ImplicitStep p sigma xs (quadrature p fun i n g => psi i n g - E i n g)
      (fun i n g => (r i n g - rE i n g) / (velocity g * dt))
      (fullArr p fun i n g => (D i n g - rE i n g / dt + openSource p xs velocity phi psi i n g) / velocity g) zeroBoundary
      (fun i n g => psi i n g - E i n g) := by
  obtain ⟨e, he⟩ := h
  obtain ⟨e', he'⟩ := hE
  refine ⟨fun g n i => e g n i - e' g n i, fun g hg => ⟨fun n hn i hi => ?_, fun n hn i hi => ?_, fun n hn => ?_⟩⟩
  · beta_reduce
    rw [(he g hg).1 n hn i hi, (he' g hg).1 n hn i hi]; ring
  · rw [show sourceAt (fullArr p fun i n g => (D i n g - rE i n g / dt + openSource p xs velocity phi psi i n g)
      / velocity g) i n g = (D i n g - rE i n g / dt + openSource p xs velocity phi psi i n g) / velocity g from
      sourceAt_full _ hn hg]
    have hv := (hok.velocity g hg).ne'
    have hq : ∑ g' ∈ range p.groups, xs (p.mm i) g g' * quadrature p (fun i n g => psi i n g - E i n g) i g'
          + openSource p xs velocity phi psi i n g / velocity g
        = ∑ g' ∈ range p.groups, xs (p.mm i) g g' * phi i g'
          - ∑ g' ∈ range p.groups, xs (p.mm i) g g' * quadrature p E i g' := by
      unfold openSource
      rw [mul_div_cancel_left₀ _ hv, ← sum_add_distrib, ← sum_sub_distrib]
      refine sum_congr rfl fun g' _ => ?_
      have : quadrature p (fun i n g => psi i n g - E i n g) i g' = quadrature p psi i g' - quadrature p E i g' := by
        unfold quadrature
        rw [← sum_sub_distrib]
        exact sum_congr rfl fun _ _ => by ring
      rw [this]; ring
    have a := (he g hg).2.1 n hn i hi
    have b := (he' g hg).2.1 n hn i hi
    have hdt := hok.dt.ne'
    have e1 : rE i n g / dt / velocity g = rE i n g / (velocity g * dt) := by rw [div_div, mul_comm]
    beta_reduce at a b ⊢
    rw [add_div, sub_div, sub_div, e1]
    linear_combination a - b - hq
  · have a := (he g hg).2.2 n hn
    have b := (he' g hg).2.2 n hn
    simp only [inflow, outflow, sourceAt, zeroBoundary] at a b ⊢
    split_ifs at a b ⊢ <;> linear_combination a - b

/-- Angular fluxes `psi` of a run whose `j`-th step used the flux `phi j` in the transfer source. -/
def InexactRun (second : Bool) (p : Problem K) (sigma : ℕ → ℕ → K) (xs : ℕ → ℕ → ℕ → K) (velocity : ℕ → K)
    (external boundary : TimeArr K) (dt : K) (steps : ℕ) (phi : ℕ → ℕ → ℕ → K) (psi : ℕ → ℕ → ℕ → ℕ → K) : Prop :=
  ∀ j < steps, ImplicitStep p sigma xs (phi j) (timeRate second j psi (psi (j + 1)) velocity dt)
    (entry external j) (entry boundary j) (psi (j + 1))

/-- The defect of step `j`: truncation error of `E` (derivative minus difference quotient) plus open source. -/
def stepDefect (second : Bool) (p : Problem K) (xs : ℕ → ℕ → ℕ → K) (velocity : ℕ → K) (dt : K)
    (phi : ℕ → ℕ → ℕ → K) (psi E D : ℕ → ℕ → ℕ → ℕ → K) (j i n g : ℕ) : K :=
  D (j + 1) i n g - timeDiff second j E i n g / dt + openSource p xs velocity (phi j) (psi (j + 1)) i n g

/-- Energy of one step of the error. -/
theorem error_energy {second : Bool} {p : Problem K} {sigma : ℕ → ℕ → K} {xs : ℕ → ℕ → ℕ → K} {velocity : ℕ → K}
    {external boundary : TimeArr K} {dt c : K} {steps : ℕ} (hc : 0 ≤ c)
    (hp : Absorbs p sigma xs velocity dt c) (hG : 0 < p.groups) {phi : ℕ → ℕ → ℕ → K} {psi E D : ℕ → ℕ → ℕ → ℕ → K}
    (h : InexactRun second p sigma xs velocity external boundary dt steps phi psi) (j : ℕ) (hj : j < steps)
    (hE : TransportAt p sigma xs velocity (entry external j) (entry boundary j) (E (j + 1)) (D (j + 1))) :
    vdot p velocity (fun i n g => timeDiff second j (fun j i n g => psi j i n g - E j i n g) i n g)
        (fun i n g => psi (j + 1) i n g - E (j + 1) i n g)
      + c * dt * vdot p velocity (fun i n g => psi (j + 1) i n g - E (j + 1) i n g)
        (fun i n g => psi (j + 1) i n g - E (j + 1) i n g)
      ≤ dt * vdot p velocity (stepDefect second p xs velocity dt phi psi E D j)
        (fun i n g => psi (j + 1) i n g - E (j + 1) i n g) := by
  have hstep : ImplicitStep p sigma xs (phi j) (fun i n g => timeDiff second j psi i n g / (velocity g * dt))
      (entry external j) (entry boundary j) (psi (j + 1)) := by
    refine implicit_congr (h j hj) (fun _ _ _ _ => rfl) ?_
    funext i n g
    unfold timeRate timeDiff
    rfl
  have key := inexact_diff (hp.whole hc) hstep hE (timeDiff second j E)
  exact absorbing_energy hp hG
    (rho := fun i n g => timeDiff second j (fun j i n g => psi j i n g - E j i n g) i n g)
    (s := stepDefect second p xs velocity dt phi psi E D j)
    (implicit_congr key (fun _ _ _ _ => rfl) (by
      funext i n g
      congr 1
      unfold timeDiff
      split_ifs <;> ring))

/-- C209 (backward Euler): with `A = 1 + c dt`, the root mean square error after `j` steps is at most `R / A^j + T / c`,
where `R` bounds the initial error and `T` the defects: bounded uniformly in the number of steps. -/
theorem C209_backward_euler {p : Problem K} {sigma : ℕ → ℕ → K} {xs : ℕ → ℕ → ℕ → K} {velocity : ℕ → K}
    {external boundary : TimeArr K} {dt c : K} {steps : ℕ} (hc : 0 < c)
    (hp : Absorbs p sigma xs velocity dt c) (hG : 0 < p.groups) {phi : ℕ → ℕ → ℕ → K} {psi E D : ℕ → ℕ → ℕ → ℕ → K}
    {R T : K} (hR : 0 ≤ R) (hT : 0 ≤ T)
    (h : InexactRun false p sigma xs velocity external boundary dt steps phi psi)
    (hE : ∀ j < steps, TransportAt p sigma xs velocity (entry external j) (entry boundary j) (E (j + 1)) (D (j + 1)))
    (h0 : vdot p velocity (fun i n g => psi 0 i n g - E 0 i n g) (fun i n g => psi 0 i n g - E 0 i n g) ≤ R ^ 2)
    (ht : ∀ j < steps, vdot p velocity (stepDefect false p xs velocity dt phi psi E D j)
      (stepDefect false p xs velocity dt phi psi E D j) ≤ T ^ 2) (j : ℕ) (hj : j ≤ steps) :
    vdot p velocity (fun i n g => psi j i n g - E j i n g) (fun i n g => psi j i n g - E j i n g)
      ≤ (R / (1 + c * dt) ^ j + T / c) ^ 2 := by
  have hw := hp.weighted hG
  have hdt : 0 < dt := hp.timed.dt
  have hA : 0 < 1 + c * dt := by positivity
  -- the sharp bound
  have main : ∀ k ≤ steps, vdot p velocity (fun i n g => psi k i n g - E k i n g) (fun i n g => psi k i n g - E k i n g)
      ≤ (R / (1 + c * dt) ^ k + T / c * (1 - 1 / (1 + c * dt) ^ k)) ^ 2 := by
    intro k
    induction k with
    | zero => intro _; simpa using h0
    | succ k ih =>
      intro hk
      have hle : 1 / (1 + c * dt) ^ k ≤ 1 := by
        rw [div_le_one (pow_pos hA k)]
        exact one_le_pow₀ (by nlinarith [mul_pos hc hdt])
      have hB : 0 ≤ R / (1 + c * dt) ^ k + T / c * (1 - 1 / (1 + c * dt) ^ k) :=
        add_nonneg (by positivity) (mul_nonneg (by positivity) (by linarith))
      have key := error_energy hc.le hp hG h k hk (hE k hk)
      set u : ℕ → ℕ → ℕ → K := fun i n g => psi (k + 1) i n g - E (k + 1) i n g with hu
      set o : ℕ → ℕ → ℕ → K := fun i n g => psi k i n g - E k i n g with ho
      set s := stepDefect false p xs velocity dt phi psi E D k with hs
      have e1 : vdot p velocity (fun i n g => timeDiff false k (fun j i n g => psi j i n g - E j i n g) i n g) u
          = vdot p velocity u u - vdot p velocity o u := by
        simp only [vdot_eq]
        rw [← sum_sub_distrib]
        refine sum_congr rfl fun x _ => ?_
        simp only [timeDiff, Bool.false_eq_true, false_and, if_false, hu, ho]
        ring
      have e2 : vdot p velocity (fun i n g => o i n g + dt * s i n g) u
          = vdot p velocity o u + dt * vdot p velocity s u := by
        simp only [vdot_eq]
        rw [mul_sum, ← sum_add_distrib]
        exact sum_congr rfl fun x _ => by ring
      have h1 : (1 + c * dt) * vdot p velocity u u ≤ vdot p velocity (fun i n g => o i n g + dt * s i n g) u := by
        rw [e2]; linarith
      have h2 : vdot p velocity (fun i n g => o i n g + dt * s i n g) (fun i n g => o i n g + dt * s i n g)
          ≤ (R / (1 + c * dt) ^ k + T / c * (1 - 1 / (1 + c * dt) ^ k) + dt * T) ^ 2 := by
        refine vdot_minkowski hw hB (by positivity) (ih (by omega)) ?_
        rw [vdot_smul, mul_pow]
        exact mul_le_mul_of_nonneg_left (ht k hk) (sq_nonneg _)
      have h3 := vdot_cauchy hw (fun i n g => o i n g + dt * s i n g) u
      have hX := vdot_self_nonneg hw u
      -- A X <= y, y^2 <= B^2 X
      have h4 : (1 + c * dt) ^ 2 * vdot p velocity u u
          ≤ (R / (1 + c * dt) ^ k + T / c * (1 - 1 / (1 + c * dt) ^ k) + dt * T) ^ 2 := by
        rcases hX.eq_or_lt with hz | hpos
        · rw [← hz, mul_zero]; exact sq_nonneg _
        · have h5 := pow_le_pow_left₀ (mul_nonneg hA.le hX) h1 2
          have h6 : vdot p velocity u u * ((1 + c * dt) ^ 2 * vdot p velocity u u)
              ≤ vdot p velocity u u * (R / (1 + c * dt) ^ k + T / c * (1 - 1 / (1 + c * dt) ^ k) + dt * T) ^ 2 := by
            calc vdot p velocity u u * ((1 + c * dt) ^ 2 * vdot p velocity u u)
                = ((1 + c * dt) * vdot p velocity u u) ^ 2 := by ring
              _ ≤ _ := h5.trans h3
              _ ≤ (R / (1 + c * dt) ^ k + T / c * (1 - 1 / (1 + c * dt) ^ k) + dt * T) ^ 2 * vdot p velocity u u :=
                  mul_le_mul_of_nonneg_right h2 hX
              _ = _ := by ring
          exact le_of_mul_le_mul_left h6 hpos
      have e3 : R / (1 + c * dt) ^ k + T / c * (1 - 1 / (1 + c * dt) ^ k) + dt * T
          = (1 + c * dt) * (R / (1 + c * dt) ^ (k + 1) + T / c * (1 - 1 / (1 + c * dt) ^ (k + 1))) := by
        have := hA.ne'
        rw [pow_succ]
        field_simp
        ring
      rw [e3, mul_pow] at h4
      exact le_of_mul_le_mul_left h4 (by positivity)
  have hle : 0 ≤ 1 / (1 + c * dt) ^ j := by positivity
  have hle1 : 1 / (1 + c * dt) ^ j ≤ 1 := by
    rw [div_le_one (pow_pos hA j)]
    exact one_le_pow₀ (by nlinarith [mul_pos hc hdt])
  refine (main j hj).trans (pow_le_pow_left₀ ?_ ?_ 2)
  · exact add_nonneg (by positivity) (mul_nonneg (by positivity) (by linarith))
  · have : T / c * (1 - 1 / (1 + c * dt) ^ j) ≤ T / c := mul_le_of_le_one_right (by positivity) (by linarith)
    linarith

/-- The quantity that BDF2 contracts in the presence of defects. -/
def errorEnergy (p : Problem K) (velocity : ℕ → K) (c dt : K) (new old : ℕ → ℕ → ℕ → K) : K :=
  bdfEnergy p velocity new old + c * dt * vdot p velocity new new

theorem errorEnergy_le {p : Problem K} {velocity : ℕ → K} (hw : Weighted p velocity) {c dt : K} (hc : 0 ≤ c)
    (hdt : 0 ≤ dt) (new old : ℕ → ℕ → ℕ → K) :
    errorEnergy p velocity c dt new old
      ≤ (9 + c * dt) * (vdot p velocity new new + vdot p velocity old old) := by
  have h := dampedEnergy_le hw (c := c / 2) (by positivity) hdt new old
  unfold dampedEnergy at h
  unfold errorEnergy
  rw [show 2 * (c / 2) * dt = c * dt by ring] at h
  exact h

/-- Work of a defect. -/
theorem defect_work {p : Problem K} {velocity : ℕ → K} (hw : Weighted p velocity) {c T : K} (hc : 0 < c)
    {s u : ℕ → ℕ → ℕ → K} (hs : vdot p velocity s s ≤ T ^ 2) :
    2 * vdot p velocity s u ≤ T ^ 2 / c + c * vdot p velocity u u := by
  have e : vdot p velocity (fun i n g => s i n g - c * u i n g) (fun i n g => s i n g - c * u i n g)
      = vdot p velocity s s - 2 * c * vdot p velocity s u + c ^ 2 * vdot p velocity u u := by
    simp only [vdot_eq]
    rw [mul_sum, mul_sum, ← sum_sub_distrib, ← sum_add_distrib]
    exact sum_congr rfl fun x _ => by ring
  have h1 := vdot_self_nonneg hw fun i n g => s i n g - c * u i n g
  rw [e] at h1
  have h2 : 2 * c * vdot p velocity s u ≤ T ^ 2 + c ^ 2 * vdot p velocity u u := by linarith
  have h3 : c * (2 * vdot p velocity s u) ≤ c * (T ^ 2 / c + c * vdot p velocity u u) := by
    calc c * (2 * vdot p velocity s u) = 2 * c * vdot p velocity s u := by ring
      _ ≤ _ := h2
      _ = _ := by field_simp
  exact le_of_mul_le_mul_left h3 hc

/-- C209 (BDF2): with `B = 1 + c dt / (9 + c dt)`, the mean square error of step `j + 1` is at most
`(2 R + 3 dt T1)^2 / B^j + 2 (9 + c dt) T^2 / c^2`: `R` bounds the initial error, `T1` the defect of the first step,
`T` the others. -/
theorem C209_bdf2 {p : Problem K} {sigma : ℕ → ℕ → K} {xs : ℕ → ℕ → ℕ → K} {velocity : ℕ → K}
    {external boundary : TimeArr K} {dt c : K} {steps : ℕ} (hc : 0 < c)
    (hp : Absorbs p sigma xs velocity dt c) (hG : 0 < p.groups) {phi : ℕ → ℕ → ℕ → K} {psi E D : ℕ → ℕ → ℕ → ℕ → K}
    {R T1 T : K} (hR : 0 ≤ R) (hT1 : 0 ≤ T1)
    (h : InexactRun true p sigma xs velocity external boundary dt steps phi psi)
    (hE : ∀ j < steps, TransportAt p sigma xs velocity (entry external j) (entry boundary j) (E (j + 1)) (D (j + 1)))
    (h0 : vdot p velocity (fun i n g => psi 0 i n g - E 0 i n g) (fun i n g => psi 0 i n g - E 0 i n g) ≤ R ^ 2)
    (ht1 : 0 < steps → vdot p velocity (stepDefect true p xs velocity dt phi psi E D 0)
      (stepDefect true p xs velocity dt phi psi E D 0) ≤ T1 ^ 2)
    (ht : ∀ j, 0 < j → j < steps → vdot p velocity (stepDefect true p xs velocity dt phi psi E D j)
      (stepDefect true p xs velocity dt phi psi E D j) ≤ T ^ 2) (j : ℕ) (hj : j < steps) :
    vdot p velocity (fun i n g => psi (j + 1) i n g - E (j + 1) i n g) (fun i n g => psi (j + 1) i n g - E (j + 1) i n g)
      ≤ (2 * R + 3 * dt * T1) ^ 2 / (1 + c * dt / (9 + c * dt)) ^ j + 2 * (9 + c * dt) * T ^ 2 / c ^ 2 := by
  have hw := hp.weighted hG
  have hdt : 0 < dt := hp.timed.dt
  have hcd : 0 < c * dt := mul_pos hc hdt
  have hB : 0 < 1 + c * dt / (9 + c * dt) := by positivity
  have main : ∀ k < steps, errorEnergy p velocity c dt (fun i n g => psi (k + 1) i n g - E (k + 1) i n g)
        (fun i n g => psi k i n g - E k i n g)
      ≤ (2 * R + 3 * dt * T1) ^ 2 / (1 + c * dt / (9 + c * dt)) ^ k + 2 * (9 + c * dt) * T ^ 2 / c ^ 2 := by
    intro k
    induction k with
    | zero =>
      intro hk
      have key := error_energy hc.le hp hG h 0 hk (hE 0 hk)
      simp only [zero_add] at key ⊢
      have e : 6 * vdot p velocity (fun i n g => timeDiff true 0 (fun j i n g => psi j i n g - E j i n g) i n g)
            (fun i n g => psi 1 i n g - E 1 i n g)
          = bdfEnergy p velocity (fun i n g => psi 1 i n g - E 1 i n g) (fun i n g => psi 0 i n g - E 0 i n g)
            - 2 * vdot p velocity (fun i n g => psi 0 i n g - E 0 i n g) (fun i n g => psi 0 i n g - E 0 i n g)
            + vdot p velocity (fun i n g => timeDiff true 0 (fun j i n g => psi j i n g - E j i n g) i n g)
              (fun i n g => timeDiff true 0 (fun j i n g => psi j i n g - E j i n g) i n g) := by
        unfold bdfEnergy
        simp only [vdot_eq]
        rw [mul_sum, mul_sum, ← sum_add_distrib, ← sum_sub_distrib, ← sum_add_distrib]
        refine sum_congr rfl fun x _ => ?_
        simp only [timeDiff, ne_eq, not_true_eq_false, and_false, if_false]
        ring
      have h1 := vdot_self_nonneg hw fun i n g => timeDiff true 0 (fun j i n g => psi j i n g - E j i n g) i n g
      have h2 := vdot_self_nonneg hw fun i n g => psi 0 i n g - E 0 i n g
      have h3 : 0 ≤ c * dt * vdot p velocity (fun i n g => psi 1 i n g - E 1 i n g)
          (fun i n g => psi 1 i n g - E 1 i n g) := mul_nonneg hcd.le (vdot_self_nonneg hw _)
      have h4 : 0 ≤ 2 * (9 + c * dt) * T ^ 2 / c ^ 2 := by positivity
      have hdt1 : 0 ≤ dt * T1 := mul_nonneg hdt.le hT1
      have h5 := euler_energy_step hw hdt.le hR hT1 (old := fun i n g => psi 0 i n g - E 0 i n g)
        (new := fun i n g => psi 1 i n g - E 1 i n g) (s := stepDefect true p xs velocity dt phi psi E D 0) (by
          have e6 : vdot p velocity (fun i n g => timeDiff true 0 (fun j i n g => psi j i n g - E j i n g) i n g)
              (fun i n g => psi 1 i n g - E 1 i n g)
              = vdot p velocity (fun i n g => (psi 1 i n g - E 1 i n g) - (psi 0 i n g - E 0 i n g))
              (fun i n g => psi 1 i n g - E 1 i n g) := by
            congr 1
          rw [e6] at key
          linarith) h0 (ht1 hk)
      have h6 : vdot p velocity (stepDefect true p xs velocity dt phi psi E D 0) (fun i n g => psi 1 i n g - E 1 i n g)
          ≤ T1 * (R + dt * T1) := by
        refine le_of_abs_le (abs_le_of_sq_le_sq ?_ (mul_nonneg hT1 (add_nonneg hR hdt1)))
        rw [mul_pow]
        exact (vdot_cauchy hw _ _).trans (mul_le_mul (ht1 hk) h5 (vdot_self_nonneg hw _) (sq_nonneg T1))
      have h7 := mul_le_mul_of_nonneg_left h6 hdt.le
      have h8 : 2 * R ^ 2 + 6 * (dt * (T1 * (R + dt * T1))) ≤ (2 * R + 3 * dt * T1) ^ 2 := by
        have e7 : (2 * R + 3 * dt * T1) ^ 2 = 2 * R ^ 2 + 6 * (dt * (T1 * (R + dt * T1)))
            + (2 * R ^ 2 + 6 * (R * (dt * T1)) + 3 * (dt * T1) ^ 2) := by ring
        have := mul_nonneg hR hdt1
        rw [e7]
        nlinarith [sq_nonneg R, sq_nonneg (dt * T1)]
      unfold errorEnergy
      rw [pow_zero, div_one]
      linarith
    | succ k ih =>
      intro hk
      have key := error_energy hc.le hp hG h (k + 1) hk (hE (k + 1) hk)
      have hwk := defect_work hw hc (ht (k + 1) (Nat.succ_pos k) hk)
        (u := fun i n g => psi (k + 1 + 1) i n g - E (k + 1 + 1) i n g)
      have hle := errorEnergy_le hw hc.le hdt.le (fun i n g => psi (k + 1 + 1) i n g - E (k + 1 + 1) i n g)
        (fun i n g => psi (k + 1) i n g - E (k + 1) i n g)
      have e : 4 * vdot p velocity (fun i n g => timeDiff true (k + 1) (fun j i n g => psi j i n g - E j i n g) i n g)
            (fun i n g => psi (k + 1 + 1) i n g - E (k + 1 + 1) i n g)
          = bdfEnergy p velocity (fun i n g => psi (k + 1 + 1) i n g - E (k + 1 + 1) i n g)
              (fun i n g => psi (k + 1) i n g - E (k + 1) i n g)
            - bdfEnergy p velocity (fun i n g => psi (k + 1) i n g - E (k + 1) i n g)
              (fun i n g => psi k i n g - E k i n g)
            + vdot p velocity
              (fun i n g => (psi (k + 1 + 1) i n g - E (k + 1 + 1) i n g) - 2 * (psi (k + 1) i n g - E (k + 1) i n g)
                + (psi k i n g - E k i n g))
              (fun i n g => (psi (k + 1 + 1) i n g - E (k + 1 + 1) i n g) - 2 * (psi (k + 1) i n g - E (k + 1) i n g)
                + (psi k i n g - E k i n g)) := by
        unfold bdfEnergy
        simp only [vdot_eq]
        rw [mul_sum, ← sum_add_distrib, ← sum_add_distrib, ← sum_sub_distrib, ← sum_add_distrib]
        refine sum_congr rfl fun x _ => ?_
        simp only [timeDiff, ne_eq, Nat.add_eq_zero_iff, one_ne_zero, and_false, not_false_eq_true, and_self, if_true,
          Nat.add_sub_cancel]
        ring
      have h0 := vdot_self_nonneg hw fun i n g => (psi (k + 1 + 1) i n g - E (k + 1 + 1) i n g)
        - 2 * (psi (k + 1) i n g - E (k + 1) i n g) + (psi k i n g - E k i n g)
      -- B F_{k+1} <= F_k + 2 dt T^2 / c
      have h2 : c * dt / (9 + c * dt) * errorEnergy p velocity c dt
            (fun i n g => psi (k + 1 + 1) i n g - E (k + 1 + 1) i n g) (fun i n g => psi (k + 1) i n g - E (k + 1) i n g)
          ≤ c * dt * (vdot p velocity (fun i n g => psi (k + 1 + 1) i n g - E (k + 1 + 1) i n g)
              (fun i n g => psi (k + 1 + 1) i n g - E (k + 1 + 1) i n g)
            + vdot p velocity (fun i n g => psi (k + 1) i n g - E (k + 1) i n g)
              (fun i n g => psi (k + 1) i n g - E (k + 1) i n g)) := by
        refine (mul_le_mul_of_nonneg_left hle (by positivity)).trans (le_of_eq ?_)
        field_simp
      have h5 := mul_le_mul_of_nonneg_left hwk hdt.le
      have h6 : (1 + c * dt / (9 + c * dt)) * errorEnergy p velocity c dt
            (fun i n g => psi (k + 1 + 1) i n g - E (k + 1 + 1) i n g) (fun i n g => psi (k + 1) i n g - E (k + 1) i n g)
          ≤ errorEnergy p velocity c dt (fun i n g => psi (k + 1) i n g - E (k + 1) i n g)
              (fun i n g => psi k i n g - E k i n g) + 2 * (dt * (T ^ 2 / c)) := by
        rw [add_mul, one_mul]
        refine (add_le_add_right h2 _).trans ?_
        unfold errorEnergy
        nlinarith
      have h7 := h6.trans (add_le_add_left (ih (by omega)) _)
      have e8 : (2 * R + 3 * dt * T1) ^ 2 / (1 + c * dt / (9 + c * dt)) ^ k + 2 * (9 + c * dt) * T ^ 2 / c ^ 2
            + 2 * (dt * (T ^ 2 / c))
          = (1 + c * dt / (9 + c * dt)) * ((2 * R + 3 * dt * T1) ^ 2 / (1 + c * dt / (9 + c * dt)) ^ (k + 1)
              + 2 * (9 + c * dt) * T ^ 2 / c ^ 2) := by
        have h9 : (9 : K) + c * dt ≠ 0 := by positivity
        have hB' := hB.ne'
        rw [mul_add (1 + c * dt / (9 + c * dt)) _ _, pow_succ (1 + c * dt / (9 + c * dt)) k]
        have a1 : (1 + c * dt / (9 + c * dt)) * ((2 * R + 3 * dt * T1) ^ 2
              / ((1 + c * dt / (9 + c * dt)) ^ k * (1 + c * dt / (9 + c * dt))))
            = (2 * R + 3 * dt * T1) ^ 2 / (1 + c * dt / (9 + c * dt)) ^ k := by
          rw [mul_comm ((1 + c * dt / (9 + c * dt)) ^ k), ← mul_div_assoc, mul_div_mul_left _ _ hB']
        rw [a1, add_assoc]
        congr 1
        field_simp
      rw [e8] at h7
      exact le_of_mul_le_mul_left h7 hB
  refine le_trans ?_ (main j hj)
  unfold errorEnergy bdfEnergy
  have h1 := vdot_self_nonneg hw fun i n g =>
    2 * (psi (j + 1) i n g - E (j + 1) i n g) - (psi j i n g - E j i n g)
  have h3 : 0 ≤ c * dt * vdot p velocity (fun i n g => psi (j + 1) i n g - E (j + 1) i n g)
    (fun i n g => psi (j + 1) i n g - E (j + 1) i n g) := mul_nonneg hcd.le (vdot_self_nonneg hw _)
  linarith

/-! ## The drivers -/

/-- C209 (`timed1d.backward_euler`, any scattering and fission, inner and outer iterations stopped anywhere). -/
theorem C209_backward_euler_driver (p : Problem K) (xsTotal : ℕ → ℕ → K) (scatter : ℕ → ℕ → ℕ → K)
    (fission : Fission K) (velocity : ℕ → K) (external boundary : TimeArr K) (steps : ℕ) (dt c : K)
    (init : ℕ → ℕ → ℕ → K) (hc : 0 < c)
    (hp : Absorbs p xsTotal (fun m g g' => scatter m g g' + fissionMatrix fission m g g') velocity dt c)
    (hG : 0 < p.groups) (hext : Covers external steps) (hbnd : Covers boundary steps) :
    ∃ (out : ℕ → ℕ → ℕ → K) (psi : ℕ → ℕ → ℕ → ℕ → K),
      backwardEuler p xsTotal (.iso scatter) fission velocity external boundary steps dt init = .ok out ∧
      psi 0 = init ∧
      InexactRun false p xsTotal (fun m g g' => scatter m g g' + fissionMatrix fission m g g') velocity external
        boundary dt steps out psi ∧
      ∀ (E D : ℕ → ℕ → ℕ → ℕ → K) (R T : K), 0 ≤ R → 0 ≤ T →
        (∀ j < steps, TransportAt p xsTotal (fun m g g' => scatter m g g' + fissionMatrix fission m g g') velocity
          (entry external j) (entry boundary j) (E (j + 1)) (D (j + 1))) →
        vdot p velocity (fun i n g => init i n g - E 0 i n g) (fun i n g => init i n g - E 0 i n g) ≤ R ^ 2 →
        (∀ j < steps, vdot p velocity
          (stepDefect false p (fun m g g' => scatter m g g' + fissionMatrix fission m g g') velocity dt out psi E D j)
          (stepDefect false p (fun m g g' => scatter m g g' + fissionMatrix fission m g g') velocity dt out psi E D j)
          ≤ T ^ 2) →
        ∀ j ≤ steps, vdot p velocity (fun i n g => psi j i n g - E j i n g) (fun i n g => psi j i n g - E j i n g)
          ≤ (R / (1 + c * dt) ^ j + T / c) ^ 2 := by
  obtain ⟨out, psi, h1, h2, h3, -, -⟩ := timed_steps false p xsTotal scatter fission velocity external boundary
    steps dt init (hp.whole hc.le) hG hext hbnd
  refine ⟨out, psi, by simpa using h1, h2, h3, fun E D R T hR hT hE h0 ht j hj => ?_⟩
  subst h2
  exact C209_backward_euler hc hp hG hR hT h3 hE h0 ht j hj

/-- C209 (`timed1d.bdf2`, any scattering and fission, inner and outer iterations stopped anywhere). -/
theorem C209_bdf2_driver (p : Problem K) (xsTotal : ℕ → ℕ → K) (scatter : ℕ → ℕ → ℕ → K)
    (fission : Fission K) (velocity : ℕ → K) (external boundary : TimeArr K) (steps : ℕ) (dt c : K)
    (init : ℕ → ℕ → ℕ → K) (hc : 0 < c)
    (hp : Absorbs p xsTotal (fun m g g' => scatter m g g' + fissionMatrix fission m g g') velocity dt c)
    (hG : 0 < p.groups) (hext : Covers external steps) (hbnd : Covers boundary steps) :
    ∃ (out : ℕ → ℕ → ℕ → K) (psi : ℕ → ℕ → ℕ → ℕ → K),
      bdf2 p xsTotal (.iso scatter) fission velocity external boundary steps dt init = .ok out ∧
      psi 0 = init ∧
      InexactRun true p xsTotal (fun m g g' => scatter m g g' + fissionMatrix fission m g g') velocity external
        boundary dt steps out psi ∧
      ∀ (E D : ℕ → ℕ → ℕ → ℕ → K) (R T1 T : K), 0 ≤ R → 0 ≤ T1 →
        (∀ j < steps, TransportAt p xsTotal (fun m g g' => scatter m g g' + fissionMatrix fission m g g') velocity
          (entry external j) (entry boundary j) (E (j + 1)) (D (j + 1))) →
        vdot p velocity (fun i n g => init i n g - E 0 i n g) (fun i n g => init i n g - E 0 i n g) ≤ R ^ 2 →
        (0 < steps → vdot p velocity
          (stepDefect true p (fun m g g' => scatter m g g' + fissionMatrix fission m g g') velocity dt out psi E D 0)
          (stepDefect true p (fun m g g' => scatter m g g' + fissionMatrix fission m g g') velocity dt out psi E D 0)
          ≤ T1 ^ 2) →
        (∀ j, 0 < j → j < steps → vdot p velocity
          (stepDefect true p (fun m g g' => scatter m g g' + fissionMatrix fission m g g') velocity dt out psi E D j)
          (stepDefect true p (fun m g g' => scatter m g g' + fissionMatrix fission m g g') velocity dt out psi E D j)
          ≤ T ^ 2) →
        ∀ j < steps, vdot p velocity (fun i n g => psi (j + 1) i n g - E (j + 1) i n g)
            (fun i n g => psi (j + 1) i n g - E (j + 1) i n g)
          ≤ (2 * R + 3 * dt * T1) ^ 2 / (1 + c * dt / (9 + c * dt)) ^ j + 2 * (9 + c * dt) * T ^ 2 / c ^ 2 := by
  obtain ⟨out, psi, h1, h2, h3, -, -⟩ := timed_steps true p xsTotal scatter fission velocity external boundary
    steps dt init (hp.whole hc.le) hG hext hbnd
  refine ⟨out, psi, by simpa using h1, h2, h3, fun E D R T1 T hR hT1 hE h0 ht1 ht j hj => ?_⟩
  subst h2
  exact C209_bdf2 hc hp hG hR hT1 h3 hE h0 ht1 ht j hj

/-- A run whose iterations have finished leaves nothing open. -/
theorem openSource_zero (p : Problem K) (xs : ℕ → ℕ → ℕ → K) (velocity : ℕ → K) (psi : ℕ → ℕ → ℕ → K) :
    openSource p xs velocity (quadrature p psi) psi = fun _ _ _ => 0 := by
  funext i n g
  simp [openSource]

/-- C209 (accuracy of `backward_euler`): with steps solved exactly the error is at most `(L dt / 2) / c`, however many
steps are taken. -/
theorem C209_first_order (p : Problem ℝ) (xsTotal : ℕ → ℕ → ℝ) (scatter : ℕ → ℕ → ℕ → ℝ)
    (fission : Fission ℝ) (velocity : ℕ → ℝ) (external boundary : TimeArr ℝ) (steps : ℕ) (dt c : ℝ) (hc : 0 < c)
    (hp : Absorbs p xsTotal (fun m g g' => scatter m g g' + fissionMatrix fission m g g') velocity dt c)
    (hG : 0 < p.groups) (hext : Covers external steps) (hbnd : Covers boundary steps)
    (hdown : ∀ m g g', g ≤ g' → scatter m g g' + fissionMatrix fission m g g' = 0)
    (F F' : ℝ → ℕ → ℕ → ℕ → ℝ) (L : ℝ) (hL : 0 ≤ L)
    (hF : ∀ t, 0 ≤ t → t ≤ (steps : ℝ) * dt → ∀ i n g, HasDerivAt (fun s => F s i n g) (F' t i n g) t)
    (hF' : ∀ s t, 0 ≤ s → s ≤ t → t ≤ (steps : ℝ) * dt → ∀ i n g, |F' t i n g - F' s i n g| ≤ L * (t - s))
    (hE : ∀ j < steps, TransportAt p xsTotal (fun m g g' => scatter m g g' + fissionMatrix fission m g g')
      velocity (entry external j) (entry boundary j) (F (((j : ℝ) + 1) * dt)) (F' (((j : ℝ) + 1) * dt))) :
    ∃ out : ℕ → ℕ → ℕ → ℝ,
      backwardEuler p xsTotal (.iso scatter) fission velocity external boundary steps dt (F 0) = .ok out ∧
      ∀ j < steps, scalarSquare p velocity (fun i g => out j i g - quadrature p (F (((j : ℝ) + 1) * dt)) i g)
        ≤ (L * dt / 2 / c) ^ 2 * phaseVolume p velocity := by
  have hok := hp.whole hc.le
  have hw := hp.weighted hG
  have hdt : 0 < dt := hp.timed.dt
  have hV : 0 ≤ phaseVolume p velocity := vdot_self_nonneg hw _
  obtain ⟨out, psi, h1, h2, h3, h4⟩ := timed_downscatter false p xsTotal scatter fission velocity external boundary
    steps dt (F 0) hok hG hext hbnd hdown
  refine ⟨out, by simpa using h1, fun j hj => (scalarSquare_sub_le hw hp.norm (h4 j hj)
    fun _ _ _ _ => rfl).trans ?_⟩
  have key := C209_backward_euler hc hp hG (phi := fun j => quadrature p (psi (j + 1))) (psi := psi)
    (E := fun j => F ((j : ℝ) * dt)) (D := fun j => F' ((j : ℝ) * dt)) (R := 0)
    (T := L * dt / 2 * Real.sqrt (phaseVolume p velocity)) le_rfl
    (mul_nonneg (by positivity) (Real.sqrt_nonneg _)) h3 (fun j hj => by simpa using hE j hj)
    (by
      rw [h2, vdot_eq]
      simp) (fun j hj => by
      rw [mul_pow, Real.sq_sqrt hV]
      refine vdot_le_volume hw fun i hi n hn g hg => ?_
      have hj' : (j : ℝ) + 1 ≤ steps := by exact_mod_cast hj
      have hj0 : (0 : ℝ) ≤ j := Nat.cast_nonneg j
      have htop : ((j : ℝ) + 1) * dt ≤ (steps : ℝ) * dt := mul_le_mul_of_nonneg_right hj' hdt.le
      have hpos : (0 : ℝ) ≤ (j : ℝ) * dt := mul_nonneg hj0 hdt.le
      have tr := euler_truncation (F := fun s => F s i n g) (F' := fun s => F' s i n g) (L := L)
        (a := ((j : ℝ) + 1) * dt) hdt
        (fun t ht1 ht2 => hF t (by nlinarith) (ht2.trans htop) i n g)
        (fun t ht1 ht2 => hF' t _ (by nlinarith) ht2 htop i n g)
      have e : ((j : ℝ) + 1) * dt - dt = (j : ℝ) * dt := by ring
      rw [e] at tr
      unfold stepDefect timeDiff
      rw [openSource_zero]
      simpa using tr) (j + 1) hj
  push_cast at key
  refine key.trans (le_of_eq ?_)
  rw [zero_div, zero_add, div_pow, mul_pow, Real.sq_sqrt hV, div_pow]
  ring

/-- C209 (accuracy of `bdf2`): with steps solved exactly the error is of second order, uniformly in the number of steps;
the contribution of the first step decays. -/
theorem C209_second_order (p : Problem ℝ) (xsTotal : ℕ → ℕ → ℝ) (scatter : ℕ → ℕ → ℕ → ℝ)
    (fission : Fission ℝ) (velocity : ℕ → ℝ) (external boundary : TimeArr ℝ) (steps : ℕ) (dt c : ℝ) (hc : 0 < c)
    (hp : Absorbs p xsTotal (fun m g g' => scatter m g g' + fissionMatrix fission m g g') velocity dt c)
    (hG : 0 < p.groups) (hext : Covers external steps) (hbnd : Covers boundary steps)
    (hdown : ∀ m g g', g ≤ g' → scatter m g g' + fissionMatrix fission m g g' = 0)
    (F F' F'' : ℝ → ℕ → ℕ → ℕ → ℝ) (M L : ℝ) (hM : 0 ≤ M)
    (hF : ∀ t, 0 ≤ t → t ≤ (steps : ℝ) * dt → ∀ i n g, HasDerivAt (fun s => F s i n g) (F' t i n g) t)
    (hF' : ∀ t, 0 ≤ t → t ≤ (steps : ℝ) * dt → ∀ i n g, HasDerivAt (fun s => F' s i n g) (F'' t i n g) t)
    (hFM : ∀ s t, 0 ≤ s → s ≤ t → t ≤ dt → ∀ i n g, |F' t i n g - F' s i n g| ≤ M * (t - s))
    (hF'' : ∀ s t, 0 ≤ s → s ≤ t → t ≤ (steps : ℝ) * dt → ∀ i n g, |F'' t i n g - F'' s i n g| ≤ L * (t - s))
    (hE : ∀ j < steps, TransportAt p xsTotal (fun m g g' => scatter m g g' + fissionMatrix fission m g g')
      velocity (entry external j) (entry boundary j) (F (((j : ℝ) + 1) * dt)) (F' (((j : ℝ) + 1) * dt))) :
    ∃ out : ℕ → ℕ → ℕ → ℝ,
      bdf2 p xsTotal (.iso scatter) fission velocity external boundary steps dt (F 0) = .ok out ∧
      ∀ j < steps, scalarSquare p velocity (fun i g => out j i g - quadrature p (F (((j : ℝ) + 1) * dt)) i g)
        ≤ ((3 / 2 * M) ^ 2 / (1 + c * dt / (9 + c * dt)) ^ j + 2 * (9 + c * dt) * L ^ 2 / c ^ 2) * (dt ^ 2) ^ 2
          * phaseVolume p velocity := by
  have hok := hp.whole hc.le
  have hw := hp.weighted hG
  have hdt : 0 < dt := hp.timed.dt
  have hV : 0 ≤ phaseVolume p velocity := vdot_self_nonneg hw _
  obtain ⟨out, psi, h1, h2, h3, h4⟩ := timed_downscatter true p xsTotal scatter fission velocity external boundary
    steps dt (F 0) hok hG hext hbnd hdown
  refine ⟨out, by simpa using h1, fun j hj => (scalarSquare_sub_le hw hp.norm (h4 j hj)
    fun _ _ _ _ => rfl).trans ?_⟩
  have key := C209_bdf2 hc hp hG (phi := fun j => quadrature p (psi (j + 1))) (psi := psi)
    (E := fun j => F ((j : ℝ) * dt)) (D := fun j => F' ((j : ℝ) * dt)) (R := 0)
    (T1 := M * dt / 2 * Real.sqrt (phaseVolume p velocity))
    (T := L * dt ^ 2 * Real.sqrt (phaseVolume p velocity)) le_rfl
    (mul_nonneg (by positivity) (Real.sqrt_nonneg _)) h3
    (fun j hj => by simpa using hE j hj)
    (by
      rw [h2, vdot_eq]
      simp)
    (fun h0 => by
      rw [mul_pow, Real.sq_sqrt hV]
      refine vdot_le_volume hw fun i hi n hn g hg => ?_
      have hs : (1 : ℝ) ≤ steps := by exact_mod_cast h0
      have htop : dt ≤ (steps : ℝ) * dt := by nlinarith
      have tr := euler_truncation (F := fun s => F s i n g) (F' := fun s => F' s i n g) (L := M) (a := dt) hdt
        (fun t ht1 ht2 => hF t (by linarith) (ht2.trans htop) i n g)
        (fun t ht1 ht2 => hFM t _ (by linarith) ht2 le_rfl i n g)
      rw [sub_self] at tr
      unfold stepDefect timeDiff
      rw [openSource_zero]
      simpa using tr)
    (fun j hj0' hj => by
      obtain ⟨j, rfl⟩ : ∃ k, j = k + 1 := ⟨j - 1, by omega⟩
      rw [mul_pow, Real.sq_sqrt hV]
      refine vdot_le_volume hw fun i hi n hn g hg => ?_
      have hj' : (j : ℝ) + 2 ≤ steps := by exact_mod_cast hj
      have hj0 : (0 : ℝ) ≤ j := Nat.cast_nonneg j
      have htop : ((j : ℝ) + 2) * dt ≤ (steps : ℝ) * dt := mul_le_mul_of_nonneg_right hj' hdt.le
      have hpos : (0 : ℝ) ≤ (j : ℝ) * dt := mul_nonneg hj0 hdt.le
      have tr := bdf2_truncation (F := fun s => F s i n g) (F' := fun s => F' s i n g) (F'' := fun s => F'' s i n g)
        (L := L) (a := ((j : ℝ) + 2) * dt) hdt
        (fun t ht1 ht2 => hF t (by nlinarith) (ht2.trans htop) i n g)
        (fun t ht1 ht2 => hF' t (by nlinarith) (ht2.trans htop) i n g)
        (fun t ht1 ht2 => by rw [abs_sub_comm]; exact hF'' t _ (by nlinarith) ht2 htop i n g)
      have e1 : ((j : ℝ) + 2) * dt - dt = ((j : ℝ) + 1) * dt := by ring
      have e2 : ((j : ℝ) + 2) * dt - 2 * dt = (j : ℝ) * dt := by ring
      rw [e1, e2] at tr
      have e3 : (((j + 1 + 1 : ℕ) : ℝ)) = (j : ℝ) + 2 := by push_cast; ring
      unfold stepDefect timeDiff
      rw [openSource_zero]
      simp only [ne_eq, Nat.add_eq_zero_iff, one_ne_zero, and_false, not_false_eq_true, and_self, if_true,
        Nat.add_sub_cancel, add_zero]
      rw [e3, Nat.cast_add_one]
      exact tr) j hj
  push_cast at key
  refine key.trans (le_of_eq ?_)
  rw [mul_zero, zero_add, show (3 * dt * (M * dt / 2 * Real.sqrt (phaseVolume p velocity))) ^ 2
    = (3 / 2 * M) ^ 2 * (dt ^ 2) ^ 2 * phaseVolume p velocity by rw [← mul_assoc, mul_pow, Real.sq_sqrt hV]; ring,
    mul_pow (L * dt ^ 2), Real.sq_sqrt hV]
  ring

/-! ## A concrete case -/

/-- Self-scatter and up-scatter `1/4` each (no step is solved exactly): absorption rate `1/2`. -/
theorem exScatter_absorbs : Absorbs (exFlat K) (fun _ _ => 1)
    (fun m g g' => (fun _ _ _ => (1 / 4 : K)) m g g' + fissionMatrix (.matrix fun _ _ _ => 0) m g g') (fun _ => 1) (1 / 2)
    (1 / 2) where
  timed := exFlat_absorbs.timed
  weights := exFlat_tame.weights
  norm := exFlat_tame.norm
  even := EvenReflection.vacuum _ _ _
  dissipative := Dissipative.of_sums fun i _ g _ => by
    show ∑ g' ∈ range 2, |(1 / 4 : K) + 0| + ∑ g' ∈ range 2, |(1 / 4 : K) + 0| ≤ 2 * (1 - 1 / 2 / 1)
    simp only [sum_range_succ, sum_range_zero]
    norm_num [abs_of_pos]

example (steps : ℕ) (init : ℕ → ℕ → ℕ → ℚ) := C209_backward_euler_driver (exFlat ℚ) (fun _ _ => 1)
  (fun _ _ _ => 1 / 4) (.matrix fun _ _ _ => 0) (fun _ => 1) ⟨1, fun _ => ⟨1, 1, fun _ _ _ => 1⟩⟩
  ⟨1, fun _ => ⟨1, 1, fun _ _ _ => 1⟩⟩ steps (1 / 2) (1 / 2) init (by norm_num) exScatter_absorbs
  (by show 0 < 2; omega) (Or.inl rfl) (Or.inl rfl)

example (steps : ℕ) (init : ℕ → ℕ → ℕ → ℚ) := C209_bdf2_driver (exFlat ℚ) (fun _ _ => 1)
  (fun _ _ _ => 1 / 4) (.matrix fun _ _ _ => 0) (fun _ => 1) ⟨1, fun _ => ⟨1, 1, fun _ _ _ => 1⟩⟩
  ⟨1, fun _ => ⟨1, 1, fun _ _ _ => 1⟩⟩ steps (1 / 2) (1 / 2) init (by norm_num) exScatter_absorbs
  (by show 0 < 2; omega) (Or.inl rfl) (Or.inl rfl)

/-- The field `1 + t^2`, three steps of length `1/2`. -/
example := C209_first_order (exFlat ℝ) (fun _ _ => 1) (exFlatXs ℝ) (.matrix fun _ _ _ => 0)
  (fun _ => 1) ⟨3, fun j => ⟨1, 2, fun _ _ g => 2 * (((j : ℝ) + 1) * (1 / 2)) + (1 + (((j : ℝ) + 1) * (1 / 2)) ^ 2)
    - (if g = 1 then (1 + (((j : ℝ) + 1) * (1 / 2)) ^ 2) / 2 else 0)⟩⟩
  ⟨3, fun j => ⟨1, 1, fun _ _ _ => 1 + (((j : ℝ) + 1) * (1 / 2)) ^ 2⟩⟩ 3 (1 / 2) (1 / 2) (by norm_num) exFlat_absorbs
  (by show 0 < 2; omega) (Or.inr le_rfl) (Or.inr le_rfl) exFlat_down
  (fun t _ _ _ => 1 + t ^ 2) (fun t _ _ _ => 2 * t) 2 (by norm_num)
  (fun t _ _ _ _ _ => by simpa using ((hasDerivAt_id t).pow 2).const_add 1)
  (fun s t _ h _ _ _ _ => by rw [← mul_sub, abs_mul, abs_of_pos (by norm_num : (0 : ℝ) < 2),
    abs_of_nonneg (by linarith)])
  (fun j _ => exFlat_transport _ _)

/-- The same field with BDF2: the second derivative is constant, only the first step contributes, and it decays. -/
example := C209_second_order (exFlat ℝ) (fun _ _ => 1) (exFlatXs ℝ) (.matrix fun _ _ _ => 0)
  (fun _ => 1) ⟨3, fun j => ⟨1, 2, fun _ _ g => 2 * (((j : ℝ) + 1) * (1 / 2)) + (1 + (((j : ℝ) + 1) * (1 / 2)) ^ 2)
    - (if g = 1 then (1 + (((j : ℝ) + 1) * (1 / 2)) ^ 2) / 2 else 0)⟩⟩
  ⟨3, fun j => ⟨1, 1, fun _ _ _ => 1 + (((j : ℝ) + 1) * (1 / 2)) ^ 2⟩⟩ 3 (1 / 2) (1 / 2) (by norm_num) exFlat_absorbs
  (by show 0 < 2; omega) (Or.inr le_rfl) (Or.inr le_rfl) exFlat_down
  (fun t _ _ _ => 1 + t ^ 2) (fun t _ _ _ => 2 * t) (fun _ _ _ _ => 2) 2 0 (by norm_num)
  (fun t _ _ _ _ _ => by simpa using ((hasDerivAt_id t).pow 2).const_add 1)
  (fun t _ _ _ _ _ => by simpa using (hasDerivAt_id t).const_mul 2)
  (fun s t _ h _ _ _ _ => by rw [← mul_sub, abs_mul, abs_of_pos (by norm_num : (0 : ℝ) < 2),
    abs_of_nonneg (by linarith)])
  (fun s t _ h _ _ _ _ => by simp)
  (fun j _ => exFlat_transport _ _)

end Discrete1.Props
