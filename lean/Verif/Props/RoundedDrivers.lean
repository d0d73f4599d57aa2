import Verif.Model.RoundedDrivers
import Verif.Props.Rounding
import Verif.Props.Stability
import Verif.Props.Perron

/-!
# The drivers in rounded arithmetic (C182-C184)
-/

set_option linter.unusedSectionVars false
set_option linter.unusedSimpArgs false

namespace Discrete1.Props

open Finset Discrete1.Spec Discrete1.Slab Discrete1.Tools Discrete1.MultiGroup Discrete1.Drivers Discrete1.Critical

variable {K : Type} [Field K] [LinearOrder K] [IsStrictOrderedRing K]

/-! ## The rounded drivers without rounding are the exact drivers -/

theorem accumR_id (n : ℕ) (f : ℕ → K) : Rounded.accumR id n f = accum n f := rfl

theorem rounded_matSum_id (G : ℕ) (xs : ℕ → ℕ → K) : Rounded.matSum id G xs = matSum G xs := by
  unfold Rounded.matSum matSum
  simp only [id, accum_eq_sum]
  have : ∀ og acc, loop G (fun ig acc => acc + xs og ig) acc = acc + ∑ ig ∈ range G, xs og ig :=
    fun og acc => loop_add_eq_sum _ _ _
  simp only [this]
  rw [loop_add_eq_sum, zero_add]

theorem rounded_fissionSource_id (G : ℕ) (mm : ℕ → ℕ) (fission : Fission K) (flux : ℕ → ℕ → K) (keff : K) :
    Rounded.fissionSource id G mm fission flux keff = fissionSource G mm fission flux keff := by
  cases fission with
  | matrix xs =>
    unfold Rounded.fissionSource fissionSource Rounded.fissionMatProd fissionMatProd
    simp only [rounded_matSum_id]
    rfl
  | vector chi nu => rfl

theorem rounded_updateKeff_id (N G : ℕ) (mm : ℕ → ℕ) (fission : Fission K) (flux old : ℕ → ℕ → K) (keff : K) :
    Rounded.updateKeff id N G mm fission flux old keff = updateKeff N G mm fission flux old keff := by
  cases fission with
  | matrix xs =>
    unfold Rounded.updateKeff updateKeff updateKeffMat Rounded.rateMat rateMat
    simp only [rounded_matSum_id]
    rfl
  | vector chi nu => rfl

theorem rounded_powerStep_id (p : Problem K) (norm : (ℕ → ℕ → K) → K) (xsTotal : ℕ → ℕ → K)
    (xs : ℕ → ℕ → ℕ → K) (fission : Fission K) (hslab : p.geometry = 1) :
    Rounded.powerStep id p norm xsTotal xs fission = powerStep p norm xsTotal (.iso xs) fission := by
  funext s
  unfold Rounded.powerStep powerStep
  rw [rounded_fissionSource_id, C175_exact_arithmetic _ _ _ _ _ _ hslab]
  cases sourceIteration p xsTotal (.iso xs) (fissionSource p.groups p.mm fission s.flux s.keff) zeroBoundary s.flux with
  | error e => rfl
  | ok flux => simp only [rounded_updateKeff_id]; rfl

/-- C183, the two models agree: with the identity for `rnd` the rounded power iteration on a slab is the power
iteration the other theorems are about. -/
theorem C183_exact_arithmetic (p : Problem K) (norm : (ℕ → ℕ → K) → K) (conv : (ℕ → ℕ → K) → (ℕ → ℕ → K) → Bool)
    (xsTotal : ℕ → ℕ → K) (xs : ℕ → ℕ → ℕ → K) (fission : Fission K) (random : ℕ → ℕ → K) (hslab : p.geometry = 1) :
    Rounded.powerIteration id p norm conv xsTotal xs fission random
      = powerIteration p norm conv xsTotal (.iso xs) fission random := by
  unfold Rounded.powerIteration powerIteration
  rw [rounded_powerStep_id _ _ _ _ _ hslab]
  rfl

theorem rounded_transferMatrix_id (xs : ℕ → ℕ → ℕ → K) (fission : Fission K) :
    transferMatrix (.iso xs) fission = .iso (Rounded.transferMatrix id xs fission) := by
  cases fission <;> rfl

theorem rounded_knownSourceAngular_id (p : Problem K) (xsTotal : ℕ → ℕ → K) (q : ℕ → ℕ → ℕ → K) (boundary : Arr3 K)
    (hslab : p.geometry = 1) (hA : 1 < p.angles) :
    knownSourceAngular p xsTotal (fullArr p q) boundary false
      = .ok (Rounded.knownSourceAngular id p xsTotal (fullArr p q) boundary) := by
  unfold knownSourceAngular Rounded.knownSourceAngular
  rw [if_pos hslab]
  congr 1
  funext ii nn gg
  unfold knownSourceSn
  have h1 : ¬ (fullArr p q).angles = 1 := by show ¬ p.angles = 1; omega
  have h2 : 1 < (fullArr p q).angles := hA
  rw [show knownStep p.cells p.angles (fullArr p q).angles (fun m => xsTotal m gg)
      ((fullArr p q).group (bidx (fullArr p q).groups gg)) (boundary.group (bidx boundary.groups gg)) p.mm p.dx
      p.angleX p.angleW p.bcL p.bcR false
    = Rounded.knownStep id p.cells p.angles (fun m => xsTotal m gg)
      ((fullArr p q).group (bidx (fullArr p q).groups gg)) (boundary.group (bidx boundary.groups gg)) p.mm p.dx
      p.angleX p.bcL p.bcR from by
    funext n s
    unfold knownStep Rounded.knownStep
    simp only [h1, h2, and_false, and_true, if_false]
    rfl]

/-- C182, the two models agree: with the identity for `rnd` the rounded backward Euler integrator is the one the
other theorems are about. -/
theorem C182_exact_arithmetic (p : Problem K) (xsTotal : ℕ → ℕ → K) (xs : ℕ → ℕ → ℕ → K) (fission : Fission K)
    (velocity : ℕ → K) (external boundary : TimeArr K) (steps : ℕ) (dt : K) (init : ℕ → ℕ → ℕ → K)
    (hslab : p.geometry = 1) (hA : 1 < p.angles) :
    Rounded.backwardEuler id p xsTotal xs fission velocity external boundary steps dt init
      = backwardEuler p xsTotal (.iso xs) fission velocity external boundary steps dt init := by
  unfold Rounded.backwardEuler backwardEuler
  have : Rounded.beStep id p xsTotal (Rounded.transferMatrix id xs fission) velocity external boundary dt
      = beStep p xsTotal (transferMatrix (.iso xs) fission) velocity external boundary dt := by
    funext step s
    unfold Rounded.beStep beStep timedSolve
    rw [rounded_transferMatrix_id]
    cases external.get step with
    | error e => rfl
    | ok ext =>
      cases boundary.get step with
      | error e => rfl
      | ok bnd =>
        simp only [C175_exact_arithmetic _ _ _ _ _ _ hslab]
        change (match sourceIteration p (xsStar xsTotal 1 velocity dt) (.iso (Rounded.transferMatrix id xs fission))
          (fullArr p (qStar1 ext velocity dt s.psi)) bnd s.fluxOld with
          | .error e => _
          | .ok flux => _) = _
        cases sourceIteration p (xsStar xsTotal 1 velocity dt) (.iso (Rounded.transferMatrix id xs fission))
          (fullArr p (qStar1 ext velocity dt s.psi)) bnd s.fluxOld with
        | error e => rfl
        | ok flux =>
          simp only [rounded_knownSourceAngular_id _ _ _ _ hslab hA]
          rfl
  rw [this]
  rfl

/-! ## C182: backward Euler keeps the sign -/

theorem accumR_nonneg {rnd : K → K} (hr : IsRounding rnd) {n : ℕ} {f : ℕ → K} (h : ∀ i < n, 0 ≤ f i) :
    0 ≤ Rounded.accumR rnd n f :=
  loop_induction (fun _ (a : K) => 0 ≤ a) _ _ _ (le_refl _) fun i hi _ ha => hr.nonneg (add_nonneg ha (h i hi))

theorem rounded_knownSource_nonneg {rnd : K → K} (hr : IsRounding rnd) (p : Problem K) (xsTotal : ℕ → ℕ → K)
    (source boundary : Arr3 K) {g : ℕ} (hok : SlabOk p xsTotal g)
    (hfine : ∀ n < p.angles, FineFor p.cells (p.angleX n) p.dx (fun i => xsTotal (p.mm i) g))
    (hq : ∀ n < p.angles, ∀ i < p.cells, 0 ≤ sourceAt source i n g)
    (hb : ∀ n < p.angles, ∀ s < 2, 0 ≤ sourceAt boundary s n g) (i n : ℕ) :
    0 ≤ Rounded.knownSourceAngular rnd p xsTotal source boundary i n g := by
  unfold Rounded.knownSourceAngular
  have refl : ∀ (r : ℕ → K) (e : K) (n : ℕ), (∀ m, 0 ≤ r m) → 0 ≤ e →
      ∀ m, 0 ≤ reflectorCorrector p.angles r p.angleX e n p.bcL p.bcR m := by
    intro r e n h0 he m
    unfold reflectorCorrector
    split
    · rw [setAt_apply]; split
      · exact he
      · exact h0 m
    · exact h0 m
  refine (loop_induction (fun _ (s : AngleState K (ℕ → ℕ → K)) => (∀ j k, 0 ≤ s.acc j k) ∧ (∀ m, 0 ≤ s.reflector m))
    p.angles _ ⟨fun _ _ => 0, fun _ => 0, 0⟩ ⟨fun _ _ => le_refl _, fun _ => le_refl _⟩ fun n hn s hs => ?_).1 i n
  have hz : ∀ i < p.cells, (0 : K) ≤ (fun _ : ℕ => (0 : K)) (p.mm i) * (fun _ : ℕ => (0 : K)) i := fun i _ => by simp
  rcases lt_or_gt_of_ne (hok.nonzero n hn) with hneg | hpos
  · have hin : 0 ≤ rnd (s.reflector n + (boundary.group (bidx boundary.groups g)).val 1
        (bidx (boundary.group (bidx boundary.groups g)).angles n)) :=
      hr.nonneg (add_nonneg (hs.2 n) (hb n hn 1 (by omega)))
    obtain ⟨ha, hb'⟩ := (rounded_dir_nonneg (w := 1) (flux := fun ii => s.acc ii n) (fluxOld := fun _ => 0)
      (xsTotal := fun m => xsTotal m g) (xsScatter := fun _ => 0) (off := fun _ => 0)
      (ext := fun ii => (source.group (bidx source.groups g)).val ii (bidx (source.group (bidx source.groups g)).angles n))
      hr hok.phys (hfine n hn) hz (fun i hi => hq n hn i hi)
      (fun _ _ => le_refl _) zero_le_one (fun j => hs.1 j n) hin).2 hneg
    unfold Rounded.knownStep
    simp only [if_neg (not_lt.mpr hneg.le), if_pos hneg]
    refine ⟨fun j k => ?_, refl _ _ _ hs.2 ha⟩
    split
    · exact hb' j
    · exact hs.1 j k
  · have hin : 0 ≤ rnd (s.reflector n + (boundary.group (bidx boundary.groups g)).val 0
        (bidx (boundary.group (bidx boundary.groups g)).angles n)) :=
      hr.nonneg (add_nonneg (hs.2 n) (hb n hn 0 (by omega)))
    obtain ⟨ha, hb'⟩ := (rounded_dir_nonneg (w := 1) (flux := fun ii => s.acc ii n) (fluxOld := fun _ => 0)
      (xsTotal := fun m => xsTotal m g) (xsScatter := fun _ => 0) (off := fun _ => 0)
      (ext := fun ii => (source.group (bidx source.groups g)).val ii (bidx (source.group (bidx source.groups g)).angles n))
      hr hok.phys (hfine n hn) hz (fun i hi => hq n hn i hi)
      (fun _ _ => le_refl _) zero_le_one (fun j => hs.1 j n) hin).1 hpos
    unfold Rounded.knownStep
    simp only [if_pos hpos]
    refine ⟨fun j k => ?_, refl _ _ _ hs.2 ha⟩
    split
    · exact hb' j
    · exact hs.1 j k

/-- C182: in rounded arithmetic, whatever the (monotone) rounding and whatever the convergence tests, backward Euler
never produces a negative flux: with non-negative data, on a mesh that is fine for the cross section
`sigma + 1/(v dt)` *as the computer rounds it*, the scalar flux of every step is non-negative. -/
theorem C182_rounded_backward_euler_nonneg {rnd : K → K} (hr : IsRounding rnd) (p : Problem K) (xsTotal : ℕ → ℕ → K)
    (xs : ℕ → ℕ → ℕ → K) (fission : Fission K) (velocity : ℕ → K) (external boundary : TimeArr K) (steps : ℕ) (dt : K)
    (init : ℕ → ℕ → ℕ → K) (hok : TimedOk p xsTotal velocity dt)
    (hext : Covers external steps) (hbnd : Covers boundary steps)
    (hfine : ∀ g < p.groups, ∀ n < p.angles, FineFor p.cells (p.angleX n) p.dx
      (fun i => rnd (xsTotal (p.mm i) g + rnd (1 / rnd (velocity g * dt)))))
    (hw : ∀ n < p.angles, 0 ≤ p.angleW n)
    (hxs : ∀ i < p.cells, ∀ g < p.groups, ∀ g' < p.groups, 0 ≤ xs (p.mm i) g g' ∧ 0 ≤ fissionMatrix fission (p.mm i) g g')
    (hqe : ∀ j < steps, ∀ i < p.cells, ∀ n < p.angles, ∀ g < p.groups, 0 ≤ sourceAt (entry external j) i n g)
    (hbe : ∀ j < steps, ∀ s < 2, ∀ n < p.angles, ∀ g < p.groups, 0 ≤ sourceAt (entry boundary j) s n g)
    (hinit : ∀ i < p.cells, ∀ n < p.angles, ∀ g < p.groups, 0 ≤ init i n g) :
    ∃ out, Rounded.backwardEuler rnd p xsTotal xs fission velocity external boundary steps dt init = .ok out ∧
      ∀ j < steps, ∀ i < p.cells, ∀ g < p.groups, 0 ≤ out j i g := by
  have hrate : ∀ g < p.groups, 0 ≤ Rounded.timeRate rnd velocity dt g := fun g hg =>
    hr.nonneg (div_nonneg zero_le_one (hr.nonneg (mul_pos (hok.velocity g hg) hok.dt).le))
  have hokV : ∀ g < p.groups, SlabOk p (Rounded.xsStar rnd xsTotal velocity dt) g := fun g hg =>
    ⟨(hok.ok g hg).slab, (hok.ok g hg).nonzero, fun i hi => ⟨((hok.ok g hg).phys i hi).1,
      hr.nonneg (add_nonneg ((hok.ok g hg).phys i hi).2 (hrate g hg))⟩⟩
  have hX : ∀ i < p.cells, ∀ g < p.groups, ∀ g' < p.groups, 0 ≤ Rounded.transferMatrix rnd xs fission (p.mm i) g g' := by
    intro i hi g hg g' hg'
    obtain ⟨h1, h2⟩ := hxs i hi g hg g' hg'
    cases fission with
    | matrix f => exact hr.nonneg (add_nonneg h1 h2)
    | vector chi nu => exact hr.nonneg (add_nonneg h1 (hr.nonneg h2))
  obtain ⟨s, h1, _, _, h4⟩ := loopE_inv (fun n (s : BEState K) =>
      (∀ i < p.cells, ∀ g < p.groups, 0 ≤ s.fluxOld i g) ∧
      (∀ i < p.cells, ∀ n < p.angles, ∀ g < p.groups, 0 ≤ s.psi i n g) ∧
      ∀ j < n, ∀ i < p.cells, ∀ g < p.groups, 0 ≤ s.out j i g) steps
    (Rounded.beStep rnd p xsTotal (Rounded.transferMatrix rnd xs fission) velocity external boundary dt)
    ⟨Rounded.scalarFlux rnd p init, init, fun _ _ _ => 0⟩
    ⟨fun i hi g hg => accumR_nonneg hr fun n hn => hr.nonneg (mul_nonneg (hinit i hi n hn g hg) (hw n hn)), hinit,
      fun j hj => absurd hj (Nat.not_lt_zero _)⟩ (fun j hj s hs => by
      obtain ⟨a1, a2, a3⟩ := hs
      have hq : ∀ i < p.cells, ∀ n < p.angles, ∀ g < p.groups,
          0 ≤ Rounded.qStar1 rnd (entry external j) velocity dt s.psi i n g := fun i hi n hn g hg =>
        hr.nonneg (add_nonneg (hqe j hj i hi n hn g hg) (hr.nonneg (mul_nonneg (hrate g hg) (a2 i hi n hn g hg))))
      obtain ⟨flux, f1, f2⟩ := C175_rounded_nonneg hr p (Rounded.xsStar rnd xsTotal velocity dt)
        (Rounded.transferMatrix rnd xs fission) (fullArr p (Rounded.qStar1 rnd (entry external j) velocity dt s.psi))
        (entry boundary j) s.fluxOld hokV hfine (fun g hg => ⟨hw, fun n hn i hi => by
            simp only [fullArr, Arr3.group, bidx_full _ _ hn, bidx_full _ _ hg]
            exact hq i hi n hn g hg,
          fun n hn _ => hbe j hj 0 (by omega) n hn g hg, fun n hn _ => hbe j hj 1 (by omega) n hn g hg⟩) hX a1
      refine ⟨⟨flux, Rounded.knownSourceAngular rnd p (Rounded.xsStar rnd xsTotal velocity dt)
        (fullArr p (Rounded.timeRightSide rnd p.groups (Rounded.qStar1 rnd (entry external j) velocity dt s.psi) flux
          (Rounded.transferMatrix rnd xs fission) p.mm)) (entry boundary j), Function.update s.out j flux⟩,
        ?_, f2, ?_, ?_⟩
      · unfold Rounded.beStep
        rw [get_ok hext hj, get_ok hbnd hj]
        simp only [f1]
      · intro i _ n _ g hg
        refine rounded_knownSource_nonneg hr p _ _ _ (hokV g hg) (hfine g hg) (fun n hn i hi => ?_)
          (fun n hn s hs => hbe j hj s hs n hn g hg) i n
        have e1 : (if p.angles = 1 then 0 else n) = n := bidx_full _ _ hn
        have e2 : (if p.groups = 1 then 0 else g) = g := bidx_full _ _ hg
        unfold sourceAt fullArr
        simp only [e1, e2]
        exact hr.nonneg (add_nonneg (hq i hi n hn g hg) (accumR_nonneg hr fun g' hg' =>
          hr.nonneg (mul_nonneg (f2 i hi g' hg') (hX i hi g hg g' hg'))))
      · intro k hk i hi g hg
        by_cases hkj : k = j
        · subst hkj; simp only [Function.update_self]; exact f2 i hi g hg
        · simp only [Function.update_of_ne hkj]; exact a3 k (by omega) i hi g hg)
  refine ⟨s.out, ?_, h4⟩
  unfold Rounded.backwardEuler
  rw [h1]
  rfl

/-! ### Examples -/

-- C182: the fine mesh of C16 in arithmetic with 53 bits, three time steps, fission in both groups
example := C182_rounded_backward_euler_nonneg (toNearest_rounding (b := 53) (by norm_num)) exFine exTotal
  (fun m g g' => (m + g + g' : ℕ) / 10) (.vector (fun _ g => if g = 0 then 1 else 0) (fun m g => (m + g : ℕ)))
  (fun g => 1000 * ((g : ℚ) + 1)) exExternal exBoundary 3 (1 / 10) (fun i n g => (i + n + g : ℕ)) exTimedFast
  (Or.inr (le_refl _)) (Or.inl rfl)
  (fun g hg n hn i hi => by
    have hg : g < 2 := hg
    have h1 := exFine_mu n hn
    have h2 : 0 ≤ exTotal (exFine.mm i) g ∧ exTotal (exFine.mm i) g ≤ 3 := by
      have hm : exFine.mm i ≤ 1 := by
        show (if i = 1 then 1 else 0) ≤ 1
        split <;> omega
      have hm' : ((exFine.mm i : ℕ) : ℚ) ≤ 1 := by exact_mod_cast hm
      have hg' : ((g : ℕ) : ℚ) ≤ 1 := by exact_mod_cast (by omega : g ≤ 1)
      unfold exTotal
      exact ⟨by positivity, by linarith⟩
    have hv : (100 : ℚ) ≤ 1000 * ((g : ℚ) + 1) * (1 / 10) := by
      have : (0 : ℚ) ≤ g := Nat.cast_nonneg g
      linarith
    have e1 := abs_le.mp (toNearest_error 53 (1000 * ((g : ℚ) + 1) * (1 / 10)))
    rw [abs_of_nonneg (by linarith : (0 : ℚ) ≤ 1000 * ((g : ℚ) + 1) * (1 / 10))] at e1
    have e2 : 50 ≤ toNearest 53 (1000 * ((g : ℚ) + 1) * (1 / 10)) := by
      have := e1.1
      norm_num at this
      linarith
    have e3 : 1 / toNearest 53 (1000 * ((g : ℚ) + 1) * (1 / 10)) ≤ 1 / 50 :=
      one_div_le_one_div_of_le (by norm_num) e2
    have e4 : 0 ≤ 1 / toNearest 53 (1000 * ((g : ℚ) + 1) * (1 / 10)) := by positivity
    have e5 := abs_le.mp (toNearest_error 53 (1 / toNearest 53 (1000 * ((g : ℚ) + 1) * (1 / 10))))
    rw [abs_of_nonneg e4] at e5
    have e6 : toNearest 53 (1 / toNearest 53 (1000 * ((g : ℚ) + 1) * (1 / 10))) ≤ 1 / 25 := by
      have := e5.2
      norm_num at this ⊢
      norm_num at e3
      linarith
    have e7 : 0 ≤ toNearest 53 (1 / toNearest 53 (1000 * ((g : ℚ) + 1) * (1 / 10))) :=
      (toNearest_rounding (b := 53) (by norm_num)).nonneg e4
    obtain ⟨y, hy⟩ : ∃ y, y = exTotal (exFine.mm i) g
        + toNearest 53 (1 / toNearest 53 (1000 * ((g : ℚ) + 1) * (1 / 10))) := ⟨_, rfl⟩
    have hy0 : 0 ≤ y := by rw [hy]; linarith [h2.1]
    have hy4 : y ≤ 76 / 25 := by rw [hy]; linarith [h2.2]
    have e8 := (abs_le.mp (toNearest_error 53 y)).2
    rw [abs_of_nonneg hy0] at e8
    show toNearest 53 (exTotal (exFine.mm i) g
        + toNearest 53 (1 / toNearest 53 (1000 * ((g : ℚ) + 1) * (1 / 10)))) * (1 / 16) ≤ _
    rw [← hy]
    norm_num at e8
    linarith)
  (fun n _ => by show (0 : ℚ) ≤ 1 / 4; norm_num)
  (fun i _ g _ g' _ => ⟨by positivity, by simp only [fissionMatrix]; split_ifs <;> positivity⟩)
  (fun j _ i _ n _ g _ => by simp only [sourceAt, entry, exExternal]; positivity)
  (fun j _ s _ n _ g _ => by simp only [sourceAt, entry, exBoundary]; positivity)
  (fun i _ n _ g _ => by positivity)

end Discrete1.Props
