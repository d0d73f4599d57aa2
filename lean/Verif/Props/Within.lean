import Verif.Props.Slab
import Verif.Lemmas.Positivity

/-!
# C15 - C19, C74 (one group): properties of the within-group slab iteration
-/

set_option linter.unusedSectionVars false
set_option linter.unusedSimpArgs false

namespace Discrete1.Props

open Finset Discrete1.Tools Discrete1.Spec Discrete1.Slab Discrete1.MultiGroup

variable {K : Type*} [Field K] [LinearOrder K] [IsStrictOrderedRing K]

/-! ## C15: zero ordinates -/

theorem sphere_angleLoop_error (cells angles : ℕ) (pi : K) (xsTotal : ℕ → K) (q : ℕ → ℕ → K)
    (inR : ℕ → K) (mm : ℕ → ℕ) (dx angleX angleW : ℕ → K) (edges : Bool) (PW : ℕ → ℕ → K)
    (bwd : Sphere.DirInput K → K → (ℕ → K) → (ℕ → K) → Sphere.DirState K) (half0 : ℕ → K)
    (n : ℕ) (hn : n < angles) (h0 : angleX n = 0) :
    Sphere.angleLoop cells angles pi xsTotal q inR mm dx angleX angleW edges PW bwd half0
      = .error .discontinuity := by
  unfold Sphere.angleLoop
  apply loopE_error _ _ _ _ _ n hn
  · intro s; simp [h0]
  · intro i _ s e' h
    simp only at h
    split at h
    · cases h
    · split at h
      · cases h
      · cases h; rfl

/-- C15: every within-group solver (slab and sphere; isotropic, anisotropic, prescribed scattering
source) raises `Discontinuity at 0` when handed a zero ordinate, whatever the other inputs. -/
theorem C15_sweeps_raise (N A L : ℕ) (conv : (ℕ → K) → (ℕ → K) → Bool) (pi : K)
    (xsTotal xsScatter off self0 source : ℕ → K) (xsW : ℕ → ℕ → K) (external boundary : Arr2 K)
    (mm : ℕ → ℕ) (dx mu w : ℕ → K) (bcL bcR edges : Bool) (P PW : ℕ → ℕ → K) (fluxOld : ℕ → K)
    (n : ℕ) (hn : n < A) (h0 : mu n = 0) :
    Slab.isotropicSn N A conv xsTotal xsScatter off external boundary mm dx mu w bcL bcR edges fluxOld
      = .error .discontinuity ∧
    Slab.anisotropicSn N A L conv xsTotal xsW off external boundary mm dx mu w bcL bcR edges P PW
      fluxOld = .error .discontinuity ∧
    Slab.scatterSourceSn N A xsTotal source external boundary mm dx mu w bcL bcR
      = .error .discontinuity ∧
    Sphere.isotropicSn N A conv pi xsTotal xsScatter off external boundary mm dx mu w edges fluxOld
      = .error .discontinuity ∧
    Sphere.anisotropicSn N A L conv pi xsTotal self0 xsW off external boundary mm dx mu w edges P PW
      fluxOld = .error .discontinuity ∧
    Sphere.scatterSourceSn N A pi xsTotal source external boundary mm dx mu w
      = .error .discontinuity := by
  refine ⟨?_, ?_, ?_, ?_, ?_, ?_⟩
  · refine iterateE_error _ _ _ (fun a => ?_) _ _
    unfold Slab.isotropicSweep
    simp only
    rw [angleLoop_error _ _ _ _ _ _ _ _ _ n hn h0]; rfl
  · unfold Slab.anisotropicSn
    rw [iterateE_error _ _ .discontinuity]
    · rfl
    · intro a
      unfold Slab.anisotropicSweep
      simp only
      rw [angleLoop_error _ _ _ _ _ _ _ _ _ n hn h0]; rfl
  · unfold Slab.scatterSourceSn
    simp only
    rw [angleLoop_error _ _ _ _ _ _ _ _ _ n hn h0]; rfl
  · refine iterateE_error _ _ _ (fun a => ?_) _ _
    unfold Sphere.isotropicSweep
    simp only
    rw [sphere_angleLoop_error _ _ _ _ _ _ _ _ _ _ _ _ _ _ n hn h0]; rfl
  · unfold Sphere.anisotropicSn
    rw [iterateE_error _ _ .discontinuity]
    · rfl
    · intro a
      unfold Sphere.anisotropicSweep
      simp only
      rw [sphere_angleLoop_error _ _ _ _ _ _ _ _ _ _ _ _ _ _ n hn h0]; rfl
  · unfold Sphere.scatterSourceSn
    simp only
    rw [sphere_angleLoop_error _ _ _ _ _ _ _ _ _ _ _ _ _ _ n hn h0]; rfl

theorem groupLoop_error {σ : Type*} (G : ℕ) (hG : 0 < G) (f : ℕ → σ → Except PyErr σ) (s : σ)
    (e : PyErr) (h : ∀ i s, f i s = .error e) : loopE G f s = .error e := by
  induction G with
  | zero => omega
  | succ G ih =>
    rw [loopE_succ]
    cases G with
    | zero => simpa using h 0 s
    | succ G => rw [ih (by omega)]

/-- C15 at the multigroup API, the proved part: source iteration (slab or sphere, isotropic or
anisotropic) never returns a flux for a quadrature containing a zero ordinate.
Missing from the full claim: the known-source functions, see `C15_violation_known_source`. -/
theorem C15_source_iteration_raises_partial (p : Problem K) (xsTotal : ℕ → ℕ → K)
    (xsScatter : Scatter K) (external boundary : Arr3 K) (fluxOld : ℕ → ℕ → K)
    (hgeo : p.geometry = 1 ∨ p.geometry = 2) (hG : 0 < p.groups)
    (n : ℕ) (hn : n < p.angles) (h0 : p.angleX n = 0) :
    sourceIteration p xsTotal xsScatter external boundary fluxOld = .error .discontinuity := by
  cases xsScatter with
  | iso xs =>
    refine iterateE_error _ _ _ (fun a => groupLoop_error _ hG _ _ _ fun g f => ?_) _ _
    unfold groupStepIso
    rcases hgeo with h | h
    · simp only [h, if_true]
      unfold Slab.isotropicSn
      rw [iterateE_error _ _ .discontinuity]
      · rfl
      · intro b
        unfold Slab.isotropicSweep
        simp only
        rw [angleLoop_error _ _ _ _ _ _ _ _ _ n hn h0]; rfl
    · simp only [h, if_true, OfNat.ofNat_ne_one, if_false]
      unfold Sphere.isotropicSn
      rw [iterateE_error _ _ .discontinuity]
      · rfl
      · intro b
        unfold Sphere.isotropicSweep
        simp only
        rw [sphere_angleLoop_error _ _ _ _ _ _ _ _ _ _ _ _ _ _ n hn h0]; rfl
  | aniso L xs =>
    refine iterateE_error _ _ _ (fun a => groupLoop_error _ hG _ _ _ fun g f => ?_) _ _
    unfold groupStepAniso
    rcases hgeo with h | h
    · simp only [h, if_true]
      unfold Slab.anisotropicSn
      rw [iterateE_error _ _ .discontinuity]
      · rfl
      · intro b
        unfold Slab.anisotropicSweep
        simp only
        rw [angleLoop_error _ _ _ _ _ _ _ _ _ n hn h0]; rfl
    · simp only [h, if_true, OfNat.ofNat_ne_one, if_false]
      unfold Sphere.anisotropicSn
      rw [iterateE_error _ _ .discontinuity]
      · rfl
      · intro b
        unfold Sphere.anisotropicSweep
        simp only
        rw [sphere_angleLoop_error _ _ _ _ _ _ _ _ _ _ _ _ _ _ n hn h0]; rfl

-- a three-angle quadrature with middle ordinate zero, two groups
example : sourceIteration { exProblem with angles := 3, angleX := fun n => (n : ℚ) - 1 } exTotal
    (.iso fun _ _ _ => 1) ⟨1, 1, fun _ _ _ => 1⟩ ⟨1, 1, fun _ _ _ => 0⟩ (fun _ _ => 0)
    = .error .discontinuity :=
  C15_source_iteration_raises_partial _ _ _ _ _ _ (Or.inl rfl) (by decide) 1 (by decide) (by norm_num)

theorem knownStep_zero (cells angles xdim : ℕ) (xsTotal : ℕ → K) (source boundary : Arr2 K)
    (mm : ℕ → ℕ) (dx mu w : ℕ → K) (bcL bcR edges : Bool) (n m : ℕ) (hx : 1 < xdim)
    (h0 : mu n = 0) (s : AngleState K (ℕ → ℕ → K)) (i : ℕ) (hz : s.acc i n = 0) :
    (knownStep cells angles xdim xsTotal source boundary mm dx mu w bcL bcR edges m s).acc i n = 0 := by
  unfold knownStep
  have hx1 : xdim ≠ 1 := by omega
  simp only [hx1, and_false, if_false]
  by_cases hm : n = m
  · subst hm
    simp only [h0, lt_irrefl, false_and, if_false]
    exact hz
  · split
    · simp only [hm, if_false]; exact hz
    · split
      · simp only [hm, if_false]; exact hz
      · exact hz

/-- C15 (violation): `known_source_angular` with a zero ordinate does not raise: it returns a flux whose
column for that direction is zero in every cell, whatever the source is (the transport equation would
require `source / sigma`). -/
theorem C15_violation_known_source (p : Problem K) (xsTotal : ℕ → ℕ → K) (source boundary : Arr3 K)
    (edges : Bool) (hgeo : p.geometry = 1) (hs : 1 < source.angles)
    (n : ℕ) (h0 : p.angleX n = 0) :
    ∃ f, knownSourceAngular p xsTotal source boundary edges = .ok f ∧ ∀ i g, f i n g = 0 := by
  refine ⟨_, by unfold knownSourceAngular; rw [if_pos hgeo], fun i g => ?_⟩
  unfold knownSourceSn
  exact loop_induction (fun _ (s : AngleState K (ℕ → ℕ → K)) => s.acc i n = 0) _ _ _ rfl
    (fun m _ s hz => knownStep_zero _ _ _ _ _ _ _ _ _ _ _ _ _ n m hs h0 s i hz)

/-! ## C16: positivity -/

/-- Non-negative data of a within-group problem. -/
structure NonnegData (N A : ℕ) (mu : ℕ → K) (w : ℕ → K) (external boundary : Arr2 K) : Prop where
  weights : ∀ n < A, 0 ≤ w n
  ext : ∀ n < A, ∀ i < N, 0 ≤ external.val i (bidx external.angles n)
  left : ∀ n < A, 0 < mu n → 0 ≤ boundary.val 0 (bidx boundary.angles n)
  right : ∀ n < A, mu n < 0 → 0 ≤ boundary.val 1 (bidx boundary.angles n)

/-- C16: one sweep of the slab, centers or edges. -/
theorem C16_sweep_nonneg {N A : ℕ} (xsTotal xsScatter off : ℕ → K) (external boundary : Arr2 K)
    (mm : ℕ → ℕ) (dx mu w : ℕ → K) (bcL bcR edges : Bool) (fluxOld : ℕ → K)
    (hne : ∀ n < A, mu n ≠ 0) (hphys : Physical N dx (fun i => xsTotal (mm i)))
    (hfine : ∀ n < A, FineFor N (mu n) dx (fun i => xsTotal (mm i)))
    (hdata : NonnegData N A mu w external boundary)
    (hsc : ∀ i < N, 0 ≤ xsScatter (mm i)) (hoff : ∀ i < N, 0 ≤ off i)
    (hold : ∀ i < N, 0 ≤ fluxOld i) :
    ∃ flux, isotropicSweep N A xsTotal xsScatter off external boundary mm dx mu w bcL bcR edges
      fluxOld = .ok flux ∧ ∀ i, 0 ≤ flux i := by
  obtain ⟨flux, psi, h1, h2, h3, h4⟩ := isotropicSweep_spec (N := N) xsTotal xsScatter off external
    boundary mm dx mu w bcL bcR edges fluxOld hne hphys
  have hpos := swept_nonneg hne hphys hfine h2 h3
    (fun n hn i hi => add_nonneg (add_nonneg (mul_nonneg (hsc i hi) (hold i hi)) (hdata.ext n hn i hi))
      (hoff i hi)) hdata.left hdata.right
  refine ⟨flux, h1, fun i => ?_⟩
  rw [h4 i]
  cases edges
  · by_cases hi : i < N
    · simp only [Bool.false_eq_true, if_false, if_pos hi]
      exact scalarCenter_nonneg hdata.weights (fun n hn => hpos n hn i hi.le)
        (fun n hn => hpos n hn (i + 1) hi)
    · simp [hi]
  · by_cases hi : i ≤ N
    · simp only [if_true, if_pos hi]
      exact scalarEdge_nonneg hdata.weights (fun n hn => hpos n hn i hi)
    · simp [hi]

/-- C16: the within-group iteration, from any non-negative start, with any stopping criterion. -/
theorem C16_within_group_nonneg {N A : ℕ} (conv : (ℕ → K) → (ℕ → K) → Bool)
    (xsTotal xsScatter off : ℕ → K) (external boundary : Arr2 K)
    (mm : ℕ → ℕ) (dx mu w : ℕ → K) (bcL bcR : Bool) (fluxOld : ℕ → K)
    (hne : ∀ n < A, mu n ≠ 0) (hphys : Physical N dx (fun i => xsTotal (mm i)))
    (hfine : ∀ n < A, FineFor N (mu n) dx (fun i => xsTotal (mm i)))
    (hdata : NonnegData N A mu w external boundary)
    (hsc : ∀ i < N, 0 ≤ xsScatter (mm i)) (hoff : ∀ i < N, 0 ≤ off i)
    (hold : ∀ i < N, 0 ≤ fluxOld i) :
    ∃ flux, isotropicSn N A conv xsTotal xsScatter off external boundary mm dx mu w bcL bcR false
      fluxOld = .ok flux ∧ ∀ i < N, 0 ≤ flux i := by
  obtain ⟨x, k, _, _, _, hP, he, _⟩ := iterateE_spec (isotropicSweep N A xsTotal xsScatter off external
    boundary mm dx mu w bcL bcR false) conv (fun f => ∀ i < N, 0 ≤ f i)
    (fun a ha => by
      obtain ⟨f, h1, h2⟩ := C16_sweep_nonneg (N := N) xsTotal xsScatter off external boundary mm dx mu w
        bcL bcR false a hne hphys hfine hdata hsc hoff ha
      exact ⟨f, h1, fun i _ => h2 i⟩) 99 fluxOld hold
  exact ⟨x (k + 1), he, hP _ (le_refl _)⟩

/-- C16 at the API: the multigroup source iteration on a slab with non-negative cross sections,
sources, boundary data and initial flux, on a mesh with `sigma dx ≤ 2 |mu|`, returns a non-negative
flux. -/
theorem C16_source_iteration_nonneg (p : Problem K) (xsTotal : ℕ → ℕ → K)
    (xs : ℕ → ℕ → ℕ → K) (external boundary : Arr3 K) (fluxOld : ℕ → ℕ → K)
    (hok : ∀ g < p.groups, SlabOk p xsTotal g) (hslab : p.geometry = 1)
    (hfine : ∀ g < p.groups, ∀ n < p.angles,
      FineFor p.cells (p.angleX n) p.dx (fun i => xsTotal (p.mm i) g))
    (hdata : ∀ g < p.groups, NonnegData p.cells p.angles p.angleX p.angleW
      (external.group (bidx external.groups g)) (boundary.group (bidx boundary.groups g)))
    (hxs : ∀ i < p.cells, ∀ g < p.groups, ∀ g' < p.groups, 0 ≤ xs (p.mm i) g g')
    (hold : ∀ i < p.cells, ∀ g < p.groups, 0 ≤ fluxOld i g) :
    ∃ flux, sourceIteration p xsTotal (.iso xs) external boundary fluxOld = .ok flux ∧
      ∀ i < p.cells, ∀ g < p.groups, 0 ≤ flux i g := by
  obtain ⟨x, k, _, _, _, hP, he, _⟩ := iterateE_spec (oneSweepIso p xsTotal xs external boundary)
    p.convOut (fun f => ∀ i < p.cells, ∀ g < p.groups, 0 ≤ f i g) (fun old hold => by
      obtain ⟨f, h1, h2⟩ := loopE_inv (fun _ (f : ℕ → ℕ → K) => ∀ i < p.cells, ∀ g < p.groups, 0 ≤ f i g)
        p.groups (groupStepIso p xsTotal xs external boundary old) (fun _ _ => 0)
        (fun _ _ _ _ => le_refl _) (fun g hg f hf => by
          have hoff : ∀ i < p.cells, 0 ≤ offScatter p.groups f old p.mm xs g i := by
            intro i hi
            unfold offScatter
            simp only
            rw [loop_add_eq_sum, loop_add_eq_sum]
            refine add_nonneg (add_nonneg (le_refl _) (sum_nonneg fun j hj => ?_))
              (sum_nonneg fun j hj => ?_)
            · have := mem_range.mp hj
              exact mul_nonneg (hxs i hi g hg j (by omega)) (hf i hi j (by omega))
            · have := mem_range.mp hj
              exact mul_nonneg (hxs i hi g hg _ (by omega)) (hold i hi _ (by omega))
          obtain ⟨new, h1, h2⟩ := C16_within_group_nonneg (N := p.cells) (A := p.angles) p.convIn
            (fun m => xsTotal m g) (fun m => xs m g g) (offScatter p.groups f old p.mm xs g)
            (external.group (bidx external.groups g)) (boundary.group (bidx boundary.groups g)) p.mm
            p.dx p.angleX p.angleW p.bcL p.bcR (fun i => old i g) (hok g hg).nonzero (hok g hg).phys
            (hfine g hg) (hdata g hg) (fun i hi => hxs i hi g hg g hg) hoff
            (fun i hi => hold i hi g hg)
          refine ⟨putCol f g new, ?_, ?_⟩
          · unfold groupStepIso
            simp only [hslab, if_true]
            rw [h1]; rfl
          · intro i hi g' hg'
            unfold putCol
            split
            · exact h2 i hi
            · exact hf i hi g' hg')
      exact ⟨f, h1, h2⟩) 99 fluxOld hold
  exact ⟨x (k + 1), he, hP _ (le_refl _)⟩

/-- C16 for known-source calculations: all angular and scalar outputs are non-negative. -/
theorem C16_known_source_nonneg (p : Problem K) (xsTotal : ℕ → ℕ → K) (source boundary : Arr3 K)
    (g : ℕ) (hok : SlabOk p xsTotal g) (hA : 1 < p.angles) (hs : source.angles = p.angles)
    (hfine : ∀ n < p.angles, FineFor p.cells (p.angleX n) p.dx (fun i => xsTotal (p.mm i) g))
    (hdata : NonnegData p.cells p.angles p.angleX p.angleW
      (source.group (bidx source.groups g)) (boundary.group (bidx boundary.groups g)))
    (edges : Bool) :
    (∃ f, knownSourceAngular p xsTotal source boundary edges = .ok f ∧
      ∀ n < p.angles, ∀ i < p.cells + (if edges then 1 else 0), 0 ≤ f i n g) ∧
    (∃ f, knownSourceScalar p xsTotal source boundary edges = .ok f ∧
      ∀ i < p.cells + (if edges then 1 else 0), 0 ≤ f i g) := by
  obtain ⟨psi, hpsi⟩ := C08_known_source_exists p xsTotal source boundary g hok
  have hpos := swept_nonneg hok.nonzero hok.phys hfine hpsi.1 hpsi.2 hdata.ext hdata.left hdata.right
  obtain ⟨⟨s, hs1, hs2⟩, ⟨t, ht1, ht2⟩, hang⟩ := C08_known_source p xsTotal source boundary g hok psi hpsi
  obtain ⟨⟨a, ha1, ha2⟩, ⟨b, hb1, hb2⟩⟩ := hang hA hs
  cases edges
  · refine ⟨⟨a, ha1, fun n hn i hi => ?_⟩, ⟨s, hs1, fun i hi => ?_⟩⟩
    · have hi : i < p.cells := by simpa using hi
      rw [ha2 n hn i hi]
      have h0 := hpos n hn i hi.le
      have h1 := hpos n hn (i + 1) hi
      linarith
    · have hi : i < p.cells := by simpa using hi
      rw [hs2 i hi]
      exact scalarCenter_nonneg hdata.weights (fun n hn => hpos n hn i hi.le)
        (fun n hn => hpos n hn (i + 1) hi)
  · refine ⟨⟨b, hb1, fun n hn i hi => ?_⟩, ⟨t, ht1, fun i hi => ?_⟩⟩
    · have hi : i ≤ p.cells := by simp at hi; omega
      rw [hb2 n hn i hi]; exact hpos n hn i hi
    · have hi : i ≤ p.cells := by simp at hi; omega
      rw [ht2 i hi]
      exact scalarEdge_nonneg hdata.weights (fun n hn => hpos n hn i hi)

/-- A fine-mesh, non-negative, two-group variant of the example problem. -/
def exFine : Problem ℚ := { exProblem with dx := fun _ => 1 / 16 }

theorem exFineOk (g : ℕ) : SlabOk exFine exTotal g :=
  ⟨rfl, (exOk g).nonzero, fun i hi => ⟨by show (0 : ℚ) < 1 / 16; norm_num, ((exOk g).phys i hi).2⟩⟩

theorem exFine_mu (n : ℕ) (hn : n < 4) : 1 / 4 ≤ |exFine.angleX n| := by
  rcases n with _ | _ | _ | _ | n
  · show (1 : ℚ) / 4 ≤ |(-3 / 4)|; norm_num [abs]
  · show (1 : ℚ) / 4 ≤ |(-1 / 4)|; norm_num [abs]
  · show (1 : ℚ) / 4 ≤ |(1 / 4)|; norm_num [abs]
  · show (1 : ℚ) / 4 ≤ |(3 / 4)|; norm_num [abs]
  · omega

theorem exFineFor (g : ℕ) (hg : g < 2) (n : ℕ) (hn : n < 4) :
    FineFor 3 (exFine.angleX n) exFine.dx (fun i => exTotal (exFine.mm i) g) := by
  intro i _
  have h1 := exFine_mu n hn
  have h2 : exTotal (exFine.mm i) g ≤ 3 := by
    have hm : exFine.mm i ≤ 1 := by
      show (if i = 1 then 1 else 0) ≤ 1
      split <;> omega
    have hm' : ((exFine.mm i : ℕ) : ℚ) ≤ 1 := by exact_mod_cast hm
    have hg' : ((g : ℕ) : ℚ) ≤ 1 := by exact_mod_cast (by omega : g ≤ 1)
    unfold exTotal
    linarith
  show exTotal (exFine.mm i) g * (1 / 16) ≤ _
  linarith

example : ∃ flux, sourceIteration exFine exTotal (.iso fun _ g g' => if g' ≤ g then 1 / 2 else 0)
    ⟨1, 1, fun _ _ _ => 1⟩ ⟨1, 1, fun s _ _ => (s : ℚ)⟩ (fun _ _ => 1) = .ok flux ∧
    ∀ i < 3, ∀ g < 2, 0 ≤ flux i g :=
  C16_source_iteration_nonneg exFine exTotal _ _ _ _ (fun g _ => exFineOk g) rfl
    (fun g hg n hn => exFineFor g hg n hn)
    (fun g _ => ⟨fun n _ => by show (0 : ℚ) ≤ 1 / 4; norm_num,
      fun n _ i _ => by simp [Arr3.group], fun n _ _ => by simp [Arr3.group],
      fun n _ _ => by simp [Arr3.group]⟩)
    (fun i _ g _ g' _ => by split <;> norm_num) (fun i _ g _ => by norm_num)

/-- The fine-mesh condition cannot be dropped: with `sigma dx = 4 |mu|` a non-negative problem has a
negative edge flux. -/
theorem C16_condition_needed : ∃ psi : ℕ → ℚ, CellBalance 1 (1 / 2) (fun _ => 1) (fun _ => 2)
    (fun _ => 0) psi ∧ psi 0 = 1 ∧ psi 1 < 0 :=
  ⟨fun i => if i = 0 then 1 else -1 / 3, by
    intro i hi
    have : i = 0 := by omega
    subst this; norm_num, by simp, by norm_num⟩

/-! ## C17: damping -/

/-- C17: two solutions of the same cell equations (same source, different inflow): the difference never
grows from one edge to the next in the direction of flight, so it is bounded by the inflow difference
at every edge. -/
theorem C17_damping {N : ℕ} {mu : K} {dx sigma q psi psi' : ℕ → K} (hphys : Physical N dx sigma)
    (hmu : mu ≠ 0) (h : CellBalance N mu dx sigma q psi) (h' : CellBalance N mu dx sigma q psi') :
    (0 < mu → ∀ i < N, |psi (i + 1) - psi' (i + 1)| ≤ |psi i - psi' i|) ∧
    (mu < 0 → ∀ i < N, |psi i - psi' i| ≤ |psi (i + 1) - psi' (i + 1)|) ∧
    ∀ i ≤ N, |psi i - psi' i| ≤ |inflow N mu psi - inflow N mu psi'| := by
  have hd := cellBalance_sub h h'
  have cell := fun i (hi : i < N) => damping_cell (a := psi i - psi' i) (b := psi (i + 1) - psi' (i + 1))
    hmu (hphys i hi).1 (hphys i hi).2 (by have := hd i hi; simp only [sub_self] at this; exact this)
  refine ⟨fun hp i hi => (cell i hi).1 hp, fun hn i hi => (cell i hi).2 hn, ?_⟩
  unfold inflow
  rcases lt_or_gt_of_ne hmu with hn | hp
  · simp only [if_neg (not_lt.mpr hn.le)]
    have key : ∀ k ≤ N, |psi (N - k) - psi' (N - k)| ≤ |psi N - psi' N| := by
      intro k
      induction k with
      | zero => intro _; simp
      | succ k ih =>
        intro hk
        have := (cell (N - (k + 1)) (by omega)).2 hn
        rw [show N - (k + 1) + 1 = N - k by omega] at this
        exact this.trans (ih (by omega))
    intro i hi
    have := key (N - i) (by omega)
    rwa [show N - (N - i) = i by omega] at this
  · simp only [if_pos hp]
    intro i
    induction i with
    | zero => intro _; exact le_refl _
    | succ i ih => intro hi; exact ((cell i (by omega)).1 hp).trans (ih (by omega))

/-- C17 for the code: two forward sweeps that differ in the inflow only end with fluxes at the far face
that differ by at most as much, and every cell entry differs by at most the weight times that. -/
theorem C17_forward_sweep (N : ℕ) (flux fluxOld xsTotal xsScatter off external : ℕ → K) (e e' : K)
    (mm : ℕ → ℕ) (dx : ℕ → K) (mu w : K) (hmu : 0 < mu) (hw : 0 ≤ w)
    (hphys : Physical N dx (fun i => xsTotal (mm i))) :
    let r := forwardIso N flux fluxOld xsTotal xsScatter off external e mm dx mu w false
    let r' := forwardIso N flux fluxOld xsTotal xsScatter off external e' mm dx mu w false
    |r.2 - r'.2| ≤ |e - e'| ∧ ∀ i < N, |r.1 i - r'.1 i| ≤ w * |e - e'| := by
  intro r r'
  obtain ⟨psi, h0, hb, _, f, hf, hc, _⟩ := C08_forward_iso N flux fluxOld xsTotal xsScatter off external
    e mm dx mu w false hmu hphys
  obtain ⟨psi', h0', hb', _, f', hf', hc', _⟩ := C08_forward_iso N flux fluxOld xsTotal xsScatter off
    external e' mm dx mu w false hmu hphys
  obtain ⟨_, _, hd⟩ := C17_damping hphys hmu.ne' hb hb'
  simp only [inflow, if_pos hmu, h0, h0'] at hd
  refine ⟨?_, fun i hi => ?_⟩
  · simp only [r, r', hf, hf']; exact hd N (le_refl _)
  · simp only [r, r', hf, hf']
    rw [(hc rfl).1 i hi, (hc' rfl).1 i hi]
    have a := abs_le.mp (hd i hi.le)
    have b := abs_le.mp (hd (i + 1) hi)
    have : flux i + w * ((psi i + psi (i + 1)) / 2) - (flux i + w * ((psi' i + psi' (i + 1)) / 2))
        = w * ((psi i - psi' i + (psi (i + 1) - psi' (i + 1))) / 2) := by ring
    rw [this, abs_mul, abs_of_nonneg hw]
    refine mul_le_mul_of_nonneg_left ?_ hw
    rw [abs_le]; constructor <;> linarith [a.1, a.2, b.1, b.2]

/-! ## C18: the iteration stops and reports the last sweep -/

/-- C18 (isotropic): there is a finite sequence of iterates starting at the caller's guess, each the
sweep of the previous one; between 1 and 100 sweeps are made; the result is the last one; stopping
before the 100th happens exactly when the criterion holds for the last two iterates. -/
theorem C18_within_group_stops {N A : ℕ} (conv : (ℕ → K) → (ℕ → K) → Bool)
    (xsTotal xsScatter off : ℕ → K) (external boundary : Arr2 K)
    (mm : ℕ → ℕ) (dx mu w : ℕ → K) (bcL bcR edges : Bool) (fluxOld : ℕ → K)
    (hne : ∀ n < A, mu n ≠ 0) (hphys : Physical N dx (fun i => xsTotal (mm i))) :
    ∃ (x : ℕ → ℕ → K) (sweeps : ℕ), 1 ≤ sweeps ∧ sweeps ≤ 100 ∧ x 0 = fluxOld ∧
      (∀ j < sweeps, isotropicSweep N A xsTotal xsScatter off external boundary mm dx mu w bcL bcR
        edges (x j) = .ok (x (j + 1))) ∧
      isotropicSn N A conv xsTotal xsScatter off external boundary mm dx mu w bcL bcR edges fluxOld
        = .ok (x sweeps) ∧
      (sweeps < 100 → conv (x sweeps) (x (sweeps - 1)) = true) ∧
      (∀ j, 1 ≤ j → j < sweeps → conv (x j) (x (j - 1)) = false) := by
  obtain ⟨x, k, hk, hx0, hstep, _, he, hconv, hno⟩ := iterateE_spec (isotropicSweep N A xsTotal xsScatter
    off external boundary mm dx mu w bcL bcR edges) conv (fun _ => True) (fun a _ => by
      obtain ⟨f, _, h, _⟩ := isotropicSweep_spec (N := N) xsTotal xsScatter off external boundary mm dx
        mu w bcL bcR edges a hne hphys
      exact ⟨f, h, trivial⟩) 99 fluxOld trivial
  refine ⟨x, k + 1, by omega, by omega, hx0, fun j hj => hstep j (by omega), he,
    fun h => hconv (by omega), fun j h1 h2 => ?_⟩
  obtain ⟨j, rfl⟩ : ∃ i, j = i + 1 := ⟨j - 1, by omega⟩
  exact hno j (by omega)

/-- C18 (anisotropic): the same for the pair (scalar flux, flux moments). -/
theorem C18_within_group_stops_aniso {N A L : ℕ} (conv : (ℕ → K) → (ℕ → K) → Bool)
    (xsTotal : ℕ → K) (xsW : ℕ → ℕ → K) (off : ℕ → K) (external boundary : Arr2 K)
    (mm : ℕ → ℕ) (dx mu w : ℕ → K) (bcL bcR edges : Bool) (P PW : ℕ → ℕ → K) (fluxOld : ℕ → K)
    (hne : ∀ n < A, mu n ≠ 0) (hphys : Physical N dx (fun i => xsTotal (mm i))) :
    ∃ (x : ℕ → (ℕ → K) × (ℕ → ℕ → K)) (sweeps : ℕ), 1 ≤ sweeps ∧ sweeps ≤ 100 ∧
      x 0 = (fluxOld, fun ii l => if l = 0 then fluxOld ii else 0) ∧
      (∀ j < sweeps, anisotropicSweep N A L xsTotal xsW off external boundary mm dx mu w bcL bcR
        edges P PW (x j) = .ok (x (j + 1))) ∧
      anisotropicSn N A L conv xsTotal xsW off external boundary mm dx mu w bcL bcR edges P PW fluxOld
        = .ok (x sweeps).1 ∧
      (sweeps < 100 → conv (x sweeps).1 (x (sweeps - 1)).1 = true) ∧
      (∀ j, 1 ≤ j → j < sweeps → conv (x j).1 (x (j - 1)).1 = false) := by
  obtain ⟨x, k, hk, hx0, hstep, _, he, hconv, hno⟩ := iterateE_spec (anisotropicSweep N A L xsTotal xsW
    off external boundary mm dx mu w bcL bcR edges P PW) (fun new old => conv new.1 old.1)
    (fun _ => True) (fun a _ => by
      obtain ⟨f, m, _, h, _⟩ := anisotropicSweep_spec (N := N) (L := L) xsTotal xsW off external boundary
        mm dx mu w bcL bcR edges P PW a hne hphys
      exact ⟨_, h, trivial⟩) 99 (fluxOld, fun ii l => if l = 0 then fluxOld ii else 0) trivial
  refine ⟨x, k + 1, by omega, by omega, hx0, fun j hj => hstep j (by omega), ?_,
    fun h => hconv (by omega), fun j h1 h2 => ?_⟩
  · unfold anisotropicSn; rw [he]; rfl
  · obtain ⟨j, rfl⟩ : ∃ i, j = i + 1 := ⟨j - 1, by omega⟩
    exact hno j (by omega)

/-! ## C19: what a converged flux satisfies -/

/-- C19: a flux that one more sweep leaves unchanged solves the one-group discrete transport equation
with its own scattering source. -/
theorem C19_fixed_point_solves {N A : ℕ} (xsTotal xsScatter off : ℕ → K) (external boundary : Arr2 K)
    (mm : ℕ → ℕ) (dx mu w : ℕ → K) (bcL bcR : Bool) (flux : ℕ → K)
    (hne : ∀ n < A, mu n ≠ 0) (hphys : Physical N dx (fun i => xsTotal (mm i)))
    (hfix : ∃ f, isotropicSweep N A xsTotal xsScatter off external boundary mm dx mu w bcL bcR false flux
      = .ok f ∧ ∀ i < N, f i = flux i) :
    ∃ psi, (∀ i < N, flux i = scalarCenter A w psi i) ∧
      AllBalanced N A mu dx (fun i => xsTotal (mm i))
        (fun n i => xsScatter (mm i) * flux i + external.val i (bidx external.angles n) + off i) psi ∧
      SweptInflow N A mu bcL bcR (fun n => boundary.val 0 (bidx boundary.angles n))
        (fun n => boundary.val 1 (bidx boundary.angles n)) psi := by
  obtain ⟨f, psi, h1, h2, h3, h4⟩ := isotropicSweep_spec (N := N) xsTotal xsScatter off external
    boundary mm dx mu w bcL bcR false flux hne hphys
  obtain ⟨f', hf', hfe⟩ := hfix
  rw [h1] at hf'
  cases hf'
  refine ⟨psi, fun i hi => ?_, h2, h3⟩
  rw [← hfe i hi, h4 i]; simp [hi]

/-- C19, quantitative, without assuming a fixed point: the flux *returned* by the within-group
iteration is the quadrature sum of angular fluxes that balance every cell up to a residual
`xs_s (previous - returned)`; and if the iteration stopped before its limit with the code's criterion
`norm((new - old)/new/cells) < tol`, that residual is at most `xs_s * cells * tol * |flux|`. -/
theorem C19_returned_flux_residual {N A : ℕ} (tol : K) (htol : 0 ≤ tol)
    (xsTotal xsScatter off : ℕ → K) (external boundary : Arr2 K)
    (mm : ℕ → ℕ) (dx mu w : ℕ → K) (bcL bcR : Bool) (fluxOld : ℕ → K)
    (hne : ∀ n < A, mu n ≠ 0) (hphys : Physical N dx (fun i => xsTotal (mm i))) :
    ∃ (x : ℕ → ℕ → K) (psi : ℕ → ℕ → K) (sweeps : ℕ),
      Run (isotropicSweep N A xsTotal xsScatter off external boundary mm dx mu w bcL bcR false)
        (fluxConverged N tol) 100 fluxOld x sweeps ∧
      isotropicSn N A (fluxConverged N tol) xsTotal xsScatter off external boundary mm dx mu w bcL bcR
        false fluxOld = .ok (x sweeps) ∧
      (∀ i < N, x sweeps i = scalarCenter A w psi i) ∧
      AllBalanced N A mu dx (fun i => xsTotal (mm i))
        (fun n i => xsScatter (mm i) * x sweeps i + external.val i (bidx external.angles n) + off i
          + xsScatter (mm i) * (x (sweeps - 1) i - x sweeps i)) psi ∧
      SweptInflow N A mu bcL bcR (fun n => boundary.val 0 (bidx boundary.angles n))
        (fun n => boundary.val 1 (bidx boundary.angles n)) psi ∧
      (sweeps < 100 → ∀ i < N, |x (sweeps - 1) i - x sweeps i| ≤ (N : K) * tol * |x sweeps i|) := by
  obtain ⟨x, s, hs1, hs2, hx0, hstep, he, hconv, hno⟩ := C18_within_group_stops (N := N) (A := A)
    (fluxConverged N tol) xsTotal xsScatter off external boundary mm dx mu w bcL bcR false fluxOld hne
    hphys
  obtain ⟨f, psi, h1, h2, h3, h4⟩ := isotropicSweep_spec (N := N) xsTotal xsScatter off external
    boundary mm dx mu w bcL bcR false (x (s - 1)) hne hphys
  have hf : f = x s := by
    have := hstep (s - 1) (by omega)
    rw [h1, show s - 1 + 1 = s by omega] at this
    exact Except.ok.inj this
  refine ⟨x, psi, s, ⟨hx0, hs1, hs2, hstep, hconv, hno⟩, he, fun i hi => ?_, ?_, h3, fun hlt i hi => ?_⟩
  · rw [← hf, h4 i]; simp [hi]
  · intro n hn i hi
    have := h2 n hn i hi
    simp only at this ⊢
    rw [this]; ring
  · have hc := hconv hlt
    unfold fluxConverged at hc
    rw [Bool.and_eq_true, decide_eq_true_eq, decide_eq_true_eq] at hc
    obtain ⟨hz, hsum⟩ := hc
    rw [accum_eq_sum] at hsum
    have hN : (0 : K) < N := by exact_mod_cast (by omega : 0 < N)
    have hle : ((x s i - x (s - 1) i) / x s i / (N : K)) ^ 2 ≤ tol ^ 2 :=
      (single_le_sum (f := fun i => ((x s i - x (s - 1) i) / x s i / (N : K)) ^ 2)
        (fun j _ => sq_nonneg _) (mem_range.mpr hi)).trans hsum.le
    have habs := abs_le_of_sq_le_sq hle htol
    have hxz := hz i hi
    have e : |x (s - 1) i - x s i| = |(x s i - x (s - 1) i) / x s i / (N : K)| * ((N : K) * |x s i|) := by
      rw [abs_div, abs_div, abs_of_pos hN, abs_sub_comm]
      have : |x s i| ≠ 0 := abs_ne_zero.mpr hxz
      field_simp
    rw [e]
    calc |(x s i - x (s - 1) i) / x s i / (N : K)| * ((N : K) * |x s i|)
        ≤ tol * ((N : K) * |x s i|) := mul_le_mul_of_nonneg_right
          habs (mul_nonneg hN.le (abs_nonneg _))
      _ = (N : K) * tol * |x s i| := by ring

/-! ## C74: convergence of the within-group iteration -/

/-- C74: one sweep is a contraction in the maximum norm: on a fine mesh with weights summing to one and
`xs_s ≤ c sigma_t`, two previous iterates that differ by at most `M` in every cell give new fluxes that
differ by at most `c M`. -/
theorem C74_sweep_contracts {N A : ℕ} (xsTotal xsScatter off : ℕ → K) (external boundary : Arr2 K)
    (mm : ℕ → ℕ) (dx mu w : ℕ → K) (bcL bcR : Bool) (c M : K) (hc : 0 ≤ c) (hM : 0 ≤ M)
    (hne : ∀ n < A, mu n ≠ 0) (hphys : Physical N dx (fun i => xsTotal (mm i)))
    (hfine : ∀ n < A, FineFor N (mu n) dx (fun i => xsTotal (mm i)))
    (hw : ∀ n < A, 0 ≤ w n) (hsum : ∑ n ∈ range A, w n = 1)
    (hsc : ∀ i < N, 0 ≤ xsScatter (mm i) ∧ xsScatter (mm i) ≤ c * xsTotal (mm i))
    (old old' new new' : ℕ → K) (hold : ∀ i < N, |old i - old' i| ≤ M)
    (h : isotropicSweep N A xsTotal xsScatter off external boundary mm dx mu w bcL bcR false old
      = .ok new)
    (h' : isotropicSweep N A xsTotal xsScatter off external boundary mm dx mu w bcL bcR false old'
      = .ok new') :
    ∀ i < N, |new i - new' i| ≤ c * M := by
  obtain ⟨f, psi, h1, h2, h3, h4⟩ := isotropicSweep_spec (N := N) xsTotal xsScatter off external
    boundary mm dx mu w bcL bcR false old hne hphys
  obtain ⟨f', psi', k1, k2, k3, k4⟩ := isotropicSweep_spec (N := N) xsTotal xsScatter off external
    boundary mm dx mu w bcL bcR false old' hne hphys
  rw [h1] at h; cases h
  rw [k1] at h'; cases h'
  have hd := swept_abs_diff_le hne hphys hfine (mul_nonneg hc hM) h2 k2 h3 k3 (fun n hn i hi => by
    have e : xsScatter (mm i) * old i + external.val i (bidx external.angles n) + off i
        - (xsScatter (mm i) * old' i + external.val i (bidx external.angles n) + off i)
        = xsScatter (mm i) * (old i - old' i) := by ring
    rw [e, abs_mul, abs_of_nonneg (hsc i hi).1]
    calc xsScatter (mm i) * |old i - old' i| ≤ (c * xsTotal (mm i)) * M :=
          mul_le_mul (hsc i hi).2 (hold i hi) (abs_nonneg _)
            (mul_nonneg hc (hphys i hi).2)
      _ = xsTotal (mm i) * (c * M) := by ring)
  intro i hi
  rw [h4 i, k4 i]
  simp only [Bool.false_eq_true, if_false, if_pos hi]
  exact scalarCenter_abs_diff_le hw hsum (fun n hn => hd n hn i hi.le) (fun n hn => hd n hn (i + 1) hi)

/-- C74: therefore the error of the iterates against a solution of the one-group problem shrinks at
least by the factor `c` per sweep: the flux returned after `s` sweeps is within `c^s M` of it. -/
theorem C74_within_group_converges {N A : ℕ} (conv : (ℕ → K) → (ℕ → K) → Bool)
    (xsTotal xsScatter off : ℕ → K) (external boundary : Arr2 K)
    (mm : ℕ → ℕ) (dx mu w : ℕ → K) (bcL bcR : Bool) (c M : K) (hc : 0 ≤ c) (hM : 0 ≤ M)
    (hne : ∀ n < A, mu n ≠ 0) (hphys : Physical N dx (fun i => xsTotal (mm i)))
    (hfine : ∀ n < A, FineFor N (mu n) dx (fun i => xsTotal (mm i)))
    (hw : ∀ n < A, 0 ≤ w n) (hsum : ∑ n ∈ range A, w n = 1)
    (hsc : ∀ i < N, 0 ≤ xsScatter (mm i) ∧ xsScatter (mm i) ≤ c * xsTotal (mm i))
    (fluxOld exact : ℕ → K) (psi : ℕ → ℕ → K)
    (hex : ∀ i < N, exact i = scalarCenter A w psi i)
    (hbal : AllBalanced N A mu dx (fun i => xsTotal (mm i))
      (fun n i => xsScatter (mm i) * exact i + external.val i (bidx external.angles n) + off i) psi)
    (hin : SweptInflow N A mu bcL bcR (fun n => boundary.val 0 (bidx boundary.angles n))
      (fun n => boundary.val 1 (bidx boundary.angles n)) psi)
    (hstart : ∀ i < N, |fluxOld i - exact i| ≤ M) :
    ∃ flux sweeps, 1 ≤ sweeps ∧ sweeps ≤ 100 ∧
      isotropicSn N A conv xsTotal xsScatter off external boundary mm dx mu w bcL bcR false fluxOld
        = .ok flux ∧
      (∀ i < N, |flux i - exact i| ≤ c ^ sweeps * M) ∧
      (sweeps < 100 → ∃ prev, conv flux prev = true) := by
  obtain ⟨x, s, hs1, hs2, hx0, hstep, he, hconv, _⟩ := C18_within_group_stops (N := N) (A := A)
    conv xsTotal xsScatter off external boundary mm dx mu w bcL bcR false fluxOld hne hphys
  obtain ⟨f, phi, h1, h2, h3, h4⟩ := isotropicSweep_spec (N := N) xsTotal xsScatter off external
    boundary mm dx mu w bcL bcR false exact hne hphys
  have hu := swept_unique hne hphys h2 hbal h3 hin
  have hf : ∀ i < N, f i = exact i := by
    intro i hi
    rw [h4 i, hex i hi]
    simp only [Bool.false_eq_true, if_false, if_pos hi]
    exact sum_congr rfl fun n hn => by
      rw [hu n (mem_range.mp hn) i hi.le, hu n (mem_range.mp hn) (i + 1) hi]
  have key : ∀ j ≤ s, ∀ i < N, |x j i - exact i| ≤ c ^ j * M := by
    intro j
    induction j with
    | zero => intro _ i hi; rw [hx0, pow_zero, one_mul]; exact hstart i hi
    | succ j ih =>
      intro hj i hi
      have := C74_sweep_contracts (N := N) xsTotal xsScatter off external boundary mm dx mu w bcL bcR c
        (c ^ j * M) hc (mul_nonneg (pow_nonneg hc j) hM) hne hphys hfine hw hsum hsc (x j) exact
        (x (j + 1)) f (ih (by omega)) (hstep j (by omega)) h1 i hi
      rw [hf i hi] at this
      rw [pow_succ, mul_comm (c ^ j) c, mul_assoc]
      exact this
  exact ⟨x s, s, hs1, hs2, he, key s (le_refl _), fun h => ⟨_, hconv h⟩⟩

/-- C74: and there is at most one solution when `c < 1` (so "the" converged flux is meaningful). -/
theorem C74_solution_unique {N A : ℕ} (xsTotal xsScatter off : ℕ → K) (external boundary : Arr2 K)
    (mm : ℕ → ℕ) (dx mu w : ℕ → K) (bcL bcR : Bool) (c : K) (hc : 0 ≤ c) (hc1 : c < 1)
    (hne : ∀ n < A, mu n ≠ 0) (hphys : Physical N dx (fun i => xsTotal (mm i)))
    (hfine : ∀ n < A, FineFor N (mu n) dx (fun i => xsTotal (mm i)))
    (hw : ∀ n < A, 0 ≤ w n) (hsum : ∑ n ∈ range A, w n = 1)
    (hsc : ∀ i < N, 0 ≤ xsScatter (mm i) ∧ xsScatter (mm i) ≤ c * xsTotal (mm i))
    (f f' : ℕ → K)
    (h : ∃ g, isotropicSweep N A xsTotal xsScatter off external boundary mm dx mu w bcL bcR false f
      = .ok g ∧ ∀ i < N, g i = f i)
    (h' : ∃ g, isotropicSweep N A xsTotal xsScatter off external boundary mm dx mu w bcL bcR false f'
      = .ok g ∧ ∀ i < N, g i = f' i) : ∀ i < N, f i = f' i := by
  obtain ⟨g, hg, hgf⟩ := h
  obtain ⟨g', hg', hgf'⟩ := h'
  intro i hi
  -- the largest difference
  obtain ⟨m, hm, hmax⟩ := (range N).exists_max_image (fun j => |f j - f' j|) ⟨i, mem_range.mpr hi⟩
  have hb := C74_sweep_contracts (N := N) xsTotal xsScatter off external boundary mm dx mu w bcL bcR c
    |f m - f' m| hc (abs_nonneg _) hne hphys hfine hw hsum hsc f f' g g'
    (fun j hj => hmax j (mem_range.mpr hj)) hg hg' m (mem_range.mp hm)
  rw [hgf m (mem_range.mp hm), hgf' m (mem_range.mp hm)] at hb
  have h0 : |f m - f' m| ≤ 0 := by
    by_contra hpos
    push Not at hpos
    nlinarith
  have := (hmax i (mem_range.mpr hi)).trans h0
  exact sub_eq_zero.mp (abs_nonpos_iff.mp this)

-- the hypotheses of C74 are met by the fine example (group 0, scattering ratio at most 1/2)
example (old old' new new' : ℕ → ℚ) (external boundary : Arr2 ℚ)
    (hold : ∀ i < 3, |old i - old' i| ≤ 7)
    (h : isotropicSweep 3 4 (fun m => exTotal m 0) (fun _ => 1 / 2) (fun _ => 0) external boundary
      exFine.mm exFine.dx exFine.angleX exFine.angleW true false false old = .ok new)
    (h' : isotropicSweep 3 4 (fun m => exTotal m 0) (fun _ => 1 / 2) (fun _ => 0) external boundary
      exFine.mm exFine.dx exFine.angleX exFine.angleW true false false old' = .ok new') :
    ∀ i < 3, |new i - new' i| ≤ 1 / 2 * 7 :=
  C74_sweep_contracts (fun m => exTotal m 0) (fun _ => 1 / 2) (fun _ => 0) external boundary
    exFine.mm exFine.dx exFine.angleX exFine.angleW true false (1 / 2) 7 (by norm_num) (by norm_num)
    (exFineOk 0).nonzero (exFineOk 0).phys (fun n hn => exFineFor 0 (by omega) n hn)
    (fun n _ => by show (0 : ℚ) ≤ 1 / 4; norm_num)
    (by show ∑ n ∈ range 4, (1 / 4 : ℚ) = 1; norm_num)
    (fun i _ => ⟨by norm_num, by
      have : (0 : ℚ) ≤ (exFine.mm i : ℕ) := by positivity
      unfold exTotal; push_cast; linarith⟩) old old' new new' hold h h'

end Discrete1.Props
