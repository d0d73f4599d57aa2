import Verif.Model.Dispatch
import Verif.Props.OneMoment
import Mathlib.Tactic.IntervalCases

/-!
# C72, C77, C78: dispatch and anisotropic scattering
-/

set_option linter.unusedSectionVars false
set_option linter.unusedSimpArgs false

namespace Discrete1.Props

open Finset Discrete1.Tools Discrete1.Spec Discrete1.Slab Discrete1.MultiGroup Discrete1.Dispatch

variable {K : Type*} [Field K] [LinearOrder K] [IsStrictOrderedRing K]

/-! ## C72 -/

/-- C72 (the three branches that work): for a one-group problem `discrete_ordinates` returns exactly the
flux that one group step of the multigroup solver stores, for isotropic slabs and spheres and for
anisotropic spheres. -/
theorem C72_dispatch_partial (p : Problem K) (xsTotal : ℕ → K) (xsI : ℕ → K) (L : ℕ) (xsA : ℕ → ℕ → K)
    (ext bnd : Arr2 K) (fluxOld : ℕ → K) (P PW : ℕ → ℕ → K) (hG : p.groups = 1) :
    (p.geometry = 1 ∨ p.geometry = 2 →
      discreteOrdinates p.cells p.angles p.convIn p.pi fluxOld xsTotal (.iso xsI) (fun _ => 0) ext bnd
        p.mm p.dx p.angleX p.angleW p.bcL p.bcR p.geometry false P PW
      = (oneSweepIso p (fun m _ => xsTotal m) (fun m _ _ => xsI m) ⟨ext.angles, 1, fun i n _ => ext.val i n⟩
          ⟨bnd.angles, 1, fun i n _ => bnd.val i n⟩ (fun i _ => fluxOld i)).map
          fun f => some fun i => f i 0) ∧
    (p.geometry = 2 →
      discreteOrdinates p.cells p.angles p.convIn p.pi fluxOld xsTotal
        (.aniso L fun ii l => xsA (p.mm ii) l) (fun _ => 0) ext bnd
        p.mm p.dx p.angleX p.angleW p.bcL p.bcR p.geometry false P PW
      = (oneSweepAniso p L (fun m _ => xsTotal m) (fun m _ _ l => xsA m l)
          ⟨ext.angles, 1, fun i n _ => ext.val i n⟩
          ⟨bnd.angles, 1, fun i n _ => bnd.val i n⟩ P PW (fun i _ => fluxOld i)).map
          fun f => some fun i => f i 0) := by
  have hoff : ∀ (flux old : ℕ → ℕ → K) (xs : ℕ → ℕ → ℕ → K),
      offScatter 1 flux old p.mm xs 0 = fun _ => 0 := by
    intro flux old xs; funext i; simp [offScatter]
  refine ⟨?_, ?_⟩
  · rintro (h | h)
    · unfold discreteOrdinates oneSweepIso
      rw [h, hG, loopE_succ]
      simp only [loopE_zero]
      unfold groupStepIso
      simp only [h, if_true, hG, hoff, Arr3.group, bidx]
      generalize Slab.isotropicSn p.cells p.angles p.convIn _ _ _ _ _ _ _ _ _ _ _ _ _ = x
      cases x with
      | error e => rfl
      | ok f => simp [Except.map, putCol]
    · unfold discreteOrdinates oneSweepIso
      rw [h, hG, loopE_succ]
      simp only [loopE_zero]
      unfold groupStepIso
      simp only [h, if_true, hG, hoff, Arr3.group, bidx, OfNat.ofNat_ne_one, if_false]
      generalize Sphere.isotropicSn p.cells p.angles p.convIn _ _ _ _ _ _ _ _ _ _ _ _ = x
      cases x with
      | error e => rfl
      | ok f => simp [Except.map, putCol]
  · intro h
    unfold discreteOrdinates oneSweepAniso
    rw [h, hG, loopE_succ]
    simp only [loopE_zero]
    unfold groupStepAniso
    simp only [h, if_true, hG, hoff, Arr3.group, bidx, OfNat.ofNat_ne_one, if_false]
    generalize Sphere.anisotropicSn p.cells p.angles L p.convIn _ _ _ _ _ _ _ _ _ _ _ _ _ _ _ = x
    cases x with
    | error e => rfl
    | ok f => simp [Except.map, putCol]

/-- C72 (violation): `discrete_ordinates` with anisotropic scattering in a slab raises ValueError for
every input: the Legendre tables and the boundary/edge flags are passed in each other's positions. -/
theorem C72_violation_aniso_slab (cells angles : ℕ) (conv : (ℕ → K) → (ℕ → K) → Bool) (pi : K)
    (fluxOld xsTotal : ℕ → K) (L : ℕ) (xs : ℕ → ℕ → K) (off : ℕ → K) (external boundary : Arr2 K)
    (mm : ℕ → ℕ) (dx angleX angleW : ℕ → K) (bcL bcR : Bool) (edges : Bool) (P PW : ℕ → ℕ → K) :
    discreteOrdinates cells angles conv pi fluxOld xsTotal (.aniso L xs) off external boundary mm dx
      angleX angleW bcL bcR 1 edges P PW = .error .valueError := rfl

/-! ## C77: anisotropic within-group scattering -/

/-- The discrete equation with Legendre-expanded within-group scattering: `moments g i l` are the flux
moments `sum_n w_n P_l(mu_n) psi`, the self-scattering source in direction `n` is
`sum_l (2l+1) xs_l phi_l P_l(mu_n)`, other groups contribute through their zeroth moment. -/
structure SolvesAnisotropic (p : Problem K) (L : ℕ) (xsTotal : ℕ → ℕ → K) (xs : ℕ → ℕ → ℕ → ℕ → K)
    (external boundary : Arr3 K) (P : ℕ → ℕ → K) (phi : ℕ → ℕ → K) (psi : ℕ → ℕ → ℕ → K) : Prop where
  scalar : ∀ g < p.groups, ∀ i < p.cells, phi i g = scalarCenter p.angles p.angleW (psi g) i
  balance : ∀ g < p.groups, AllBalanced p.cells p.angles p.angleX p.dx (fun i => xsTotal (p.mm i) g)
    (fun n i => (∑ l ∈ range L, (2 * (l : K) + 1) * xs (p.mm i) g g l
        * scalarCenter p.angles (fun m => p.angleW m * P l m) (psi g) i * P l n)
      + (∑ og ∈ (range p.groups).erase g, xs (p.mm i) g og 0 * phi i og)
      + external.val i (bidx external.angles n) (bidx external.groups g)) (psi g)
  inflow : ∀ g < p.groups, SweptInflow p.cells p.angles p.angleX p.bcL p.bcR
    (fun n => boundary.val 0 (bidx boundary.angles n) (bidx boundary.groups g))
    (fun n => boundary.val 1 (bidx boundary.angles n) (bidx boundary.groups g)) (psi g)

/-- C77: fluxes and moments that no within-group anisotropic sweep changes, in any group, solve the
discrete transport equation with Legendre-expanded within-group scattering. -/
theorem C77_fixed_point_solves (p : Problem K) (L : ℕ) (xsTotal : ℕ → ℕ → K) (xs : ℕ → ℕ → ℕ → ℕ → K)
    (external boundary : Arr3 K) (P : ℕ → ℕ → K) (phi : ℕ → ℕ → K) (mom : ℕ → ℕ → ℕ → K)
    (hok : ∀ g < p.groups, SlabOk p xsTotal g)
    (hfix : ∀ g < p.groups, ∃ f m, anisotropicSweep p.cells p.angles L (fun m => xsTotal m g)
      (fun ii l => xs (p.mm ii) g g l * (2 * (l : K) + 1))
      (offScatter p.groups phi phi p.mm (fun m o i => xs m o i 0) g)
      (external.group (bidx external.groups g)) (boundary.group (bidx boundary.groups g)) p.mm p.dx
      p.angleX p.angleW p.bcL p.bcR false P (fun l n => p.angleW n * P l n)
      (fun i => phi i g, fun i l => mom i l g) = .ok (f, m) ∧
      (∀ i < p.cells, f i = phi i g) ∧ ∀ i < p.cells, ∀ l < L, m i l = mom i l g) :
    ∃ psi, SolvesAnisotropic p L xsTotal xs external boundary P phi psi ∧
      ∀ g < p.groups, ∀ i < p.cells, ∀ l < L,
        mom i l g = scalarCenter p.angles (fun n => p.angleW n * P l n) (psi g) i := by
  have h : ∀ g, g < p.groups → ∃ psi : ℕ → ℕ → K,
      (∀ i < p.cells, phi i g = scalarCenter p.angles p.angleW psi i) ∧
      (∀ i < p.cells, ∀ l < L,
        mom i l g = scalarCenter p.angles (fun n => p.angleW n * P l n) psi i) ∧
      AllBalanced p.cells p.angles p.angleX p.dx (fun i => xsTotal (p.mm i) g)
        (fun n i => (∑ l ∈ range L, (2 * (l : K) + 1) * xs (p.mm i) g g l * mom i l g * P l n)
          + (∑ og ∈ (range p.groups).erase g, xs (p.mm i) g og 0 * phi i og)
          + external.val i (bidx external.angles n) (bidx external.groups g)) psi ∧
      SweptInflow p.cells p.angles p.angleX p.bcL p.bcR
        (fun n => boundary.val 0 (bidx boundary.angles n) (bidx boundary.groups g))
        (fun n => boundary.val 1 (bidx boundary.angles n) (bidx boundary.groups g)) psi := by
    intro g hg
    obtain ⟨f, m, hrun, hf, hm⟩ := hfix g hg
    obtain ⟨f', m', psi, h1, h2, h3, h4, h5⟩ := anisotropicSweep_spec (N := p.cells) (A := p.angles)
      (L := L) (fun m => xsTotal m g) (fun ii l => xs (p.mm ii) g g l * (2 * (l : K) + 1))
      (offScatter p.groups phi phi p.mm (fun m o i => xs m o i 0) g)
      (external.group (bidx external.groups g)) (boundary.group (bidx boundary.groups g)) p.mm p.dx
      p.angleX p.angleW p.bcL p.bcR false P (fun l n => p.angleW n * P l n)
      (fun i => phi i g, fun i l => mom i l g) (hok g hg).nonzero (hok g hg).phys
    rw [h1] at hrun
    cases hrun
    refine ⟨psi, fun i hi => ?_, fun i hi l hl => ?_, fun n hn i hi => ?_, h3⟩
    · rw [← hf i hi, h4 i]; simp [hi]
    · rw [← hm i hi l hl, h5 i hi l]
    · have := h2 n hn i hi
      simp only [Arr3.group] at this ⊢
      rw [this, offScatter_eq _ _ _ _ _ hg]
      simp only [ite_self]
      have e : ∑ l ∈ range L, xs (p.mm i) g g l * (2 * (l : K) + 1) * mom i l g * P l n
          = ∑ l ∈ range L, (2 * (l : K) + 1) * xs (p.mm i) g g l * mom i l g * P l n :=
        sum_congr rfl fun l _ => by ring
      rw [e]; ring
  choose psi h1 h2 h3 h4 using h
  refine ⟨fun g => if hg : g < p.groups then psi g hg else fun _ _ => 0, ⟨?_, ?_, ?_⟩, ?_⟩
  · intro g hg; simp only [hg, dif_pos]; exact h1 g hg
  · intro g hg n hn i hi
    have := h3 g hg n hn i hi
    simp only [hg, dif_pos] at this ⊢
    rw [this]
    congr 2
    exact sum_congr rfl fun l hl => by rw [h2 g hg i hi l (mem_range.mp hl)]
  · intro g hg; simp only [hg, dif_pos]; exact h4 g hg
  · intro g hg; simp only [hg, dif_pos]; exact h2 g hg

/-- Non-vacuity of C77: a uniform medium with forward-peaked within-group scattering (moments 1/2, 1/4)
and matching inflow; the flat flux 1 with zero current is a fixed point. -/
def exAniso : Problem ℚ :=
  { cells := 1, groups := 1, angles := 2, mm := fun _ => 0, dx := fun _ => 1,
    angleX := fun n => if n = 0 then -1 / 2 else 1 / 2, angleW := fun _ => 1 / 2, bcL := false,
    bcR := false, geometry := 1, pi := 3, convIn := fun _ _ => false, convOut := fun _ _ => false }

example : ∃ psi, SolvesAnisotropic exAniso 2 (fun _ _ => 1) (fun _ _ _ l => if l = 0 then 1 / 2 else 1 / 4)
    ⟨1, 1, fun _ _ _ => 1 / 2⟩ ⟨1, 1, fun _ _ _ => 1⟩ (fun l n => legendre (exAniso.angleX n) l)
    (fun _ _ => 1) psi := by
  have hne : ∀ n < exAniso.angles, exAniso.angleX n ≠ 0 := fun n hn => by
    simp only [exAniso]; split_ifs <;> norm_num
  have hphys : Physical exAniso.cells exAniso.dx (fun i => (fun _ : ℕ => (1 : ℚ)) (exAniso.mm i)) :=
    fun i _ => by norm_num [exAniso]
  obtain ⟨psi, h, _⟩ := C77_fixed_point_solves exAniso 2 (fun _ _ => 1)
    (fun _ _ _ l => if l = 0 then 1 / 2 else 1 / 4) ⟨1, 1, fun _ _ _ => 1 / 2⟩ ⟨1, 1, fun _ _ _ => 1⟩
    (fun l n => legendre (exAniso.angleX n) l) (fun _ _ => 1) (fun _ l _ => if l = 0 then 1 else 0)
    (fun g _ => ⟨rfl, hne, hphys⟩)
    (fun g hg => by
      obtain ⟨f, m, psi, h1, h2, h3, h4, h5⟩ := anisotropicSweep_spec (N := exAniso.cells)
        (A := exAniso.angles) (L := 2) (fun _ => (1 : ℚ))
        (fun _ l => (if l = 0 then 1 / 2 else 1 / 4) * (2 * (l : ℚ) + 1))
        (offScatter exAniso.groups (fun _ _ => 1) (fun _ _ => 1) exAniso.mm
          (fun _ _ _ => (if (0 : ℕ) = 0 then 1 / 2 else 1 / 4)) g)
        (Arr3.group ⟨1, 1, fun _ _ _ => 1 / 2⟩ (bidx 1 g)) (Arr3.group ⟨1, 1, fun _ _ _ => 1⟩ (bidx 1 g))
        exAniso.mm exAniso.dx
        exAniso.angleX exAniso.angleW exAniso.bcL exAniso.bcR false
        (fun l n => legendre (exAniso.angleX n) l)
        (fun l n => exAniso.angleW n * legendre (exAniso.angleX n) l)
        (fun _ => 1, fun _ l => if l = 0 then 1 else 0) hne hphys
      have hg0 : g = 0 := by simp [exAniso] at hg; exact hg
      subst hg0
      have hone : ∀ n < exAniso.angles, ∀ i ≤ exAniso.cells, psi n i = 1 :=
        swept_unique (psi' := fun _ _ => 1) hne hphys h2
          (fun n hn i hi => by
            norm_num [exAniso, sum_range_succ, legendre, offScatter, accum, loop, Arr3.group])
          h3 (fun n hn => by
            simp [exAniso, inflow, leavesReflecting, Arr3.group])
      have a0 := hone 0 (by simp [exAniso]) 0 (by simp [exAniso])
      have a1 := hone 0 (by simp [exAniso]) 1 (by simp [exAniso])
      have b0 := hone 1 (by simp [exAniso]) 0 (by simp [exAniso])
      have b1 := hone 1 (by simp [exAniso]) 1 (by simp [exAniso])
      refine ⟨f, m, h1, fun i hi => ?_, fun i hi l hl => ?_⟩
      · rw [h4 i]
        have hi0 : i = 0 := by simp [exAniso] at hi; exact hi
        subst hi0
        norm_num [exAniso, scalarCenter, sum_range_succ, a0, a1, b0, b1]
      · rw [h5 i hi l]
        have hi0 : i = 0 := by simp [exAniso] at hi; exact hi
        subst hi0
        interval_cases l <;>
        norm_num [exAniso, scalarCenter, sum_range_succ, a0, a1, b0, b1, legendre])
  exact ⟨psi, h⟩

/-! ## C78: anisotropic transfer between groups -/

/-- C78 (violation): the Legendre moments `l >= 1` of the transfer between *different* groups never
influence the result: any two scattering arrays that agree on the zeroth moment and on the within-group
moments give the same flux, whatever the other entries are. -/
theorem C78_violation_offdiagonal_moments_ignored (p : Problem K) (L : ℕ) (xsTotal : ℕ → ℕ → K)
    (xs xs' : ℕ → ℕ → ℕ → ℕ → K) (external boundary : Arr3 K) (fluxOld : ℕ → ℕ → K)
    (h0 : ∀ m o i, xs m o i 0 = xs' m o i 0) (hd : ∀ m g l, xs m g g l = xs' m g g l) :
    sourceIteration p xsTotal (.aniso L xs) external boundary fluxOld
      = sourceIteration p xsTotal (.aniso L xs') external boundary fluxOld := by
  have e0 : (fun m o i => xs m o i 0) = fun m o i => xs' m o i 0 := by
    funext m o i; exact h0 m o i
  have hg : ∀ (P PW : ℕ → ℕ → K) (old : ℕ → ℕ → K),
      groupStepAniso p L xsTotal xs external boundary P PW old
        = groupStepAniso p L xsTotal xs' external boundary P PW old := by
    intro P PW old
    funext g flux
    unfold groupStepAniso
    simp only [e0, hd]
  have hs : ∀ (P PW : ℕ → ℕ → K), oneSweepAniso p L xsTotal xs external boundary P PW
      = oneSweepAniso p L xsTotal xs' external boundary P PW := by
    intro P PW
    funext old
    unfold oneSweepAniso
    rw [hg]
  unfold sourceIteration
  simp only
  unfold sourceIterationAniso
  rw [hs]

/-- Two different arrays of the kind C78 quantifies over. -/
example : ∃ xs xs' : ℕ → ℕ → ℕ → ℕ → ℚ, (∀ m o i, xs m o i 0 = xs' m o i 0) ∧
    (∀ m g l, xs m g g l = xs' m g g l) ∧ xs 0 0 1 1 ≠ xs' 0 0 1 1 :=
  ⟨fun _ _ _ _ => 0, fun _ o i l => if o ≠ i ∧ l = 1 then 1 else 0, fun _ _ _ => by simp,
    fun _ _ _ => by simp, by simp⟩

end Discrete1.Props
