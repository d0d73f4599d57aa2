import Verif.Props.Timed

/-!
# C96, C97, C98, C99: bounds and balances of the drivers

C96: maximum principle of source iteration; C97: backward Euler preserves positivity; C98: backward Euler
is bounded for all time; C99: particle balance of every time step.
-/

set_option linter.unusedSectionVars false
set_option linter.unusedSimpArgs false

namespace Discrete1.Props

open Finset Discrete1.Spec Discrete1.Slab Discrete1.Tools Discrete1.MultiGroup Discrete1.Drivers

variable {K : Type*} [Field K] [LinearOrder K] [IsStrictOrderedRing K]

/-! ## Maximum principle of one sweep -/

/-- Boundary sources of size at most `M`; directions that are fed by reflection have none. -/
def InflowWithin (A : ℕ) (mu : ℕ → K) (reflL reflR : Bool) (bL bR : ℕ → K) (M : K) : Prop :=
  ∀ n < A, |if 0 < mu n then bL n else bR n| ≤
    if A - 1 - n < n ∧ leavesReflecting reflL reflR (mu (A - 1 - n)) then 0 else M

theorem swept_le {N A : ℕ} {mu : ℕ → K} {dx sigma : ℕ → K} {q psi : ℕ → ℕ → K} {bcL bcR : Bool}
    {bL bR : ℕ → K} {M : K} (hM : 0 ≤ M) (hne : ∀ n < A, mu n ≠ 0) (hphys : Physical N dx sigma)
    (hfine : ∀ n < A, FineFor N (mu n) dx sigma) (h : AllBalanced N A mu dx sigma q psi)
    (hin : SweptInflow N A mu bcL bcR bL bR psi)
    (hq : ∀ n < A, ∀ i < N, q n i ≤ sigma i * M)
    (hb : ∀ n < A, (if 0 < mu n then bL n else bR n) ≤
      if A - 1 - n < n ∧ leavesReflecting bcL bcR (mu (A - 1 - n)) then 0 else M) :
    ∀ n < A, ∀ i ≤ N, psi n i ≤ M := by
  intro n
  induction n using Nat.strong_induction_on with
  | _ n ih =>
    intro hn i hi
    have hbal := cellBalance_const_sub M (h n hn)
    have := balance_nonneg hphys (hne n hn) (hfine n hn) hbal
      (fun i hi => by have := hq n hn i hi; linarith) ?_ i hi
    · linarith
    have e : inflow N (mu n) (fun i => M - psi n i) = M - inflow N (mu n) (psi n) := by
      unfold inflow; split <;> rfl
    rw [e, hin n hn]
    have hbn := hb n hn
    by_cases hcc : A - 1 - n < n ∧ leavesReflecting bcL bcR (mu (A - 1 - n))
    · rw [if_pos hcc] at hbn ⊢
      have hN := ih _ hcc.1 (by omega) N (le_refl _)
      have h0 := ih _ hcc.1 (by omega) 0 (Nat.zero_le _)
      have : outflow N (mu (A - 1 - n)) (psi (A - 1 - n)) ≤ M := by
        unfold outflow; split <;> assumption
      linarith
    · rw [if_neg hcc] at hbn ⊢
      linarith

theorem allBalanced_neg {N A : ℕ} {mu : ℕ → K} {dx sigma : ℕ → K} {q psi : ℕ → ℕ → K}
    (h : AllBalanced N A mu dx sigma q psi) :
    AllBalanced N A mu dx sigma (fun n i => -q n i) (fun n i => -psi n i) := by
  intro n hn i hi
  have := h n hn i hi
  simp only
  rw [← this]; ring

theorem sweptInflow_neg {N A : ℕ} {mu : ℕ → K} {psi : ℕ → ℕ → K} {bcL bcR : Bool}
    {bL bR : ℕ → K} (h : SweptInflow N A mu bcL bcR bL bR psi) :
    SweptInflow N A mu bcL bcR (fun n => -bL n) (fun n => -bR n) (fun n i => -psi n i) := by
  intro n hn
  have := h n hn
  have e1 : inflow N (mu n) (fun i => -psi n i) = -inflow N (mu n) (psi n) := by
    unfold inflow; split <;> rfl
  have e2 : outflow N (mu (A - 1 - n)) (fun i => -psi (A - 1 - n) i)
      = -outflow N (mu (A - 1 - n)) (psi (A - 1 - n)) := by unfold outflow; split <;> rfl
  rw [e1, this, e2]
  split <;> split <;> ring

/-- A sweep is bounded by `M` when the source is bounded by `sigma M`. -/
theorem swept_abs_le {N A : ℕ} {mu : ℕ → K} {dx sigma : ℕ → K} {q psi : ℕ → ℕ → K} {bcL bcR : Bool}
    {bL bR : ℕ → K} {M : K} (hM : 0 ≤ M) (hne : ∀ n < A, mu n ≠ 0) (hphys : Physical N dx sigma)
    (hfine : ∀ n < A, FineFor N (mu n) dx sigma) (h : AllBalanced N A mu dx sigma q psi)
    (hin : SweptInflow N A mu bcL bcR bL bR psi)
    (hq : ∀ n < A, ∀ i < N, |q n i| ≤ sigma i * M) (hb : InflowWithin A mu bcL bcR bL bR M) :
    ∀ n < A, ∀ i ≤ N, |psi n i| ≤ M := by
  intro n hn i hi
  rw [abs_le]
  constructor
  · have := swept_le hM hne hphys hfine (allBalanced_neg h) (sweptInflow_neg hin)
      (fun n hn i hi => by have := (abs_le.mp (hq n hn i hi)).1; linarith)
      (fun n hn => by
        have := (abs_le.mp (hb n hn)).1
        by_cases hp : 0 < mu n
        · simp only [hp, if_true] at this ⊢; linarith
        · simp only [hp, if_false] at this ⊢; linarith) n hn i hi
    linarith
  · exact swept_le hM hne hphys hfine h hin (fun n hn i hi => (abs_le.mp (hq n hn i hi)).2)
      (fun n hn => (abs_le.mp (hb n hn)).2) n hn i hi

theorem scalarCenter_abs_le {A : ℕ} {w : ℕ → K} {psi : ℕ → ℕ → K} {i : ℕ} {M : K}
    (hw : ∀ n < A, 0 ≤ w n) (hsum : ∑ n ∈ range A, w n = 1)
    (h0 : ∀ n < A, |psi n i| ≤ M) (h1 : ∀ n < A, |psi n (i + 1)| ≤ M) :
    |scalarCenter A w psi i| ≤ M := by
  have := scalarCenter_abs_diff_le (psi' := fun _ _ => 0) hw hsum
    (fun n hn => by simpa using h0 n hn) (fun n hn => by simpa using h1 n hn)
  simpa [scalarCenter] using this

/-! ## C96 -/

/-- The constant `M` dominates the sources: external source plus the scattering of a flux of size `M` is
at most what collisions remove from a flux of size `M`. -/
def Dominates (p : Problem K) (sigma : ℕ → ℕ → K) (xs : ℕ → ℕ → ℕ → K) (ext : Arr3 K) (M : K) : Prop :=
  ∀ i < p.cells, ∀ g < p.groups, ∀ n < p.angles,
    |sourceAt ext i n g| + (∑ g' ∈ range p.groups, xs (p.mm i) g g') * M ≤ sigma (p.mm i) g * M

/-- Fine mesh, normalised non-negative weights, non-negative transfer cross sections. -/
structure Tame (p : Problem K) (sigma : ℕ → ℕ → K) (xs : ℕ → ℕ → ℕ → K) : Prop where
  ok : ∀ g < p.groups, SlabOk p sigma g
  fine : ∀ g < p.groups, ∀ n < p.angles,
    FineFor p.cells (p.angleX n) p.dx (fun i => sigma (p.mm i) g)
  weights : ∀ n < p.angles, 0 ≤ p.angleW n
  norm : ∑ n ∈ range p.angles, p.angleW n = 1
  nonneg : ∀ i < p.cells, ∀ g < p.groups, ∀ g' < p.groups, 0 ≤ xs (p.mm i) g g'

/-- Size of the multigroup source of a group. -/
theorem source_abs_le {p : Problem K} {sigma : ℕ → ℕ → K} {xs : ℕ → ℕ → ℕ → K} {ext : Arr3 K} {M : K}
    (ht : Tame p sigma xs) (hd : Dominates p sigma xs ext M) {i g n : ℕ} (hi : i < p.cells)
    (hg : g < p.groups) (hn : n < p.angles) (f : ℕ → K) (hf : ∀ g' < p.groups, |f g'| ≤ M) :
    |∑ g' ∈ range p.groups, xs (p.mm i) g g' * f g' + sourceAt ext i n g| ≤ sigma (p.mm i) g * M := by
  refine (abs_add_le _ _).trans ?_
  have h1 : |∑ g' ∈ range p.groups, xs (p.mm i) g g' * f g'|
      ≤ (∑ g' ∈ range p.groups, xs (p.mm i) g g') * M := by
    refine (abs_sum_le_sum_abs _ _).trans ?_
    rw [sum_mul]
    refine sum_le_sum fun g' hg' => ?_
    have hg' := mem_range.mp hg'
    rw [abs_mul, abs_of_nonneg (ht.nonneg i hi g hg g' hg')]
    exact mul_le_mul_of_nonneg_left (hf g' hg') (ht.nonneg i hi g hg g' hg')
  have := hd i hi g hg n hn
  linarith

/-- C96: discrete maximum principle at the API.  If `M` dominates the sources and bounds the boundary
data and the initial guess, then `source_iteration` returns a flux of size at most `M` in every cell and
group - whatever the convergence criterion does, i.e. after any number of iterations. -/
theorem C96_maximum_principle (p : Problem K) (xsTotal : ℕ → ℕ → K) (xs : ℕ → ℕ → ℕ → K)
    (external boundary : Arr3 K) (fluxOld : ℕ → ℕ → K) (M : K) (hM : 0 ≤ M)
    (ht : Tame p xsTotal xs) (hd : Dominates p xsTotal xs external M)
    (hb : ∀ g < p.groups, InflowWithin p.angles p.angleX p.bcL p.bcR (fun n => sourceAt boundary 0 n g)
      (fun n => sourceAt boundary 1 n g) M)
    (hold : ∀ i < p.cells, ∀ g < p.groups, |fluxOld i g| ≤ M) :
    ∃ flux, sourceIteration p xsTotal (.iso xs) external boundary fluxOld = .ok flux ∧
      ∀ i < p.cells, ∀ g < p.groups, |flux i g| ≤ M := by
  obtain ⟨x, k, _, _, _, hP, he, _⟩ := iterateE_spec (oneSweepIso p xsTotal xs external boundary)
    p.convOut (fun f => ∀ i < p.cells, ∀ g < p.groups, |f i g| ≤ M) (fun old hold => by
      obtain ⟨f, h1, h2⟩ := loopE_inv (fun _ (f : ℕ → ℕ → K) => ∀ i < p.cells, ∀ g < p.groups, |f i g| ≤ M)
        p.groups (groupStepIso p xsTotal xs external boundary old) (fun _ _ => 0)
        (fun _ _ _ _ => by simpa using hM) (fun g hg f hf => by
          obtain ⟨y, k, _, _, _, hP, he, _⟩ := iterateE_spec (isotropicSweep p.cells p.angles
            (fun m => xsTotal m g) (fun m => xs m g g) (offScatter p.groups f old p.mm xs g)
            (external.group (bidx external.groups g)) (boundary.group (bidx boundary.groups g)) p.mm
            p.dx p.angleX p.angleW p.bcL p.bcR false) p.convIn (fun h => ∀ i < p.cells, |h i| ≤ M)
            (fun a ha => by
              obtain ⟨r, psi, hr, hbal, hin, hfill⟩ := isotropicSweep_spec (N := p.cells) (A := p.angles)
                (fun m => xsTotal m g) (fun m => xs m g g) (offScatter p.groups f old p.mm xs g)
                (external.group (bidx external.groups g)) (boundary.group (bidx boundary.groups g)) p.mm
                p.dx p.angleX p.angleW p.bcL p.bcR false a (ht.ok g hg).nonzero (ht.ok g hg).phys
              refine ⟨r, hr, fun i hi => ?_⟩
              have hpsi := swept_abs_le hM (ht.ok g hg).nonzero (ht.ok g hg).phys (ht.fine g hg) hbal hin
                (fun n hn i hi => ?_) (hb g hg)
              · have := hfill i
                simp only [Bool.false_eq_true, if_false, hi, if_true] at this
                rw [this]
                exact scalarCenter_abs_le ht.weights ht.norm (fun n hn => hpsi n hn i hi.le)
                  (fun n hn => hpsi n hn (i + 1) hi)
              · have := source_abs_le ht hd hi hg hn
                  (fun g' => if g' = g then a i else if g' < g then f i g' else old i g')
                  (fun g' hg' => by
                    split
                    · exact ha i hi
                    · split
                      · exact hf i hi g' hg'
                      · exact hold i hi g' hg')
                refine le_of_eq_of_le (congrArg abs ?_) this
                rw [offScatter_eq _ _ _ _ _ hg, ← add_sum_erase _ _ (mem_range.mpr hg)]
                simp only [if_true, Arr3.group, sourceAt, bidx]
                have : ∑ x ∈ (range p.groups).erase g, xs (p.mm i) g x *
                      (if x = g then a i else if x < g then f i x else old i x)
                    = ∑ og ∈ (range p.groups).erase g, xs (p.mm i) g og *
                      (if og < g then f i og else old i og) :=
                  sum_congr rfl fun og hog => by rw [if_neg (mem_erase.mp hog).1]
                rw [this]; exact add_right_comm _ _ _) 99 (fun i => old i g) (fun i hi => hold i hi g hg)
          refine ⟨putCol f g (y (k + 1)), ?_, ?_⟩
          · unfold groupStepIso
            simp only [(ht.ok g hg).slab, if_true]
            unfold isotropicSn
            rw [he]; rfl
          · intro i hi g' hg'
            unfold putCol
            split
            · exact hP _ (le_refl _) i hi
            · exact hf i hi g' hg')
      exact ⟨f, h1, h2⟩) 99 fluxOld hold
  exact ⟨x (k + 1), he, hP _ (le_refl _)⟩

theorem exTame : Tame exFine exTotal (fun _ g g' => if g' ≤ g then 1 / 4 else 0) where
  ok := fun g _ => exFineOk g
  fine := fun g hg n hn => exFineFor g hg n hn
  weights := fun n _ => by show (0 : ℚ) ≤ 1 / 4; norm_num
  norm := by
    show ∑ n ∈ range 4, (1 / 4 : ℚ) = 1
    norm_num [sum_range_succ]
  nonneg := fun i _ g _ g' _ => by split <;> norm_num

theorem exDominates : Dominates exFine exTotal (fun _ g g' => if g' ≤ g then 1 / 4 else 0)
    ⟨1, 1, fun _ _ _ => -1 / 2⟩ 2 := by
  intro i _ g hg n _
  have hg : g < 2 := hg
  have hs : (1 : ℚ) + g ≤ exTotal (exFine.mm i) g := by
    unfold exTotal
    have : (0 : ℚ) ≤ (exFine.mm i : ℕ) := Nat.cast_nonneg _
    linarith
  have hx : ∑ g' ∈ range exFine.groups, (if g' ≤ g then 1 / 4 else 0 : ℚ) ≤ 1 / 2 := by
    show ∑ g' ∈ range 2, (if g' ≤ g then 1 / 4 else 0 : ℚ) ≤ 1 / 2
    rw [sum_range_succ, sum_range_succ, sum_range_zero]
    split <;> split <;> norm_num
  have hg' : (0 : ℚ) ≤ g := Nat.cast_nonneg _
  have : |sourceAt (⟨1, 1, fun _ _ _ => -1 / 2⟩ : Arr3 ℚ) i n g| = 1 / 2 := by
    simp only [sourceAt]; norm_num [abs_of_neg]
  rw [this]
  nlinarith

theorem exInflow (M : ℚ) (hM : 0 ≤ M) (b : ℚ) (hb : |b| ≤ M) (g : ℕ) :
    InflowWithin exFine.angles exFine.angleX exFine.bcL exFine.bcR
      (fun n => sourceAt (⟨1, 1, fun s _ _ => if s = 0 then 0 else b⟩ : Arr3 ℚ) 0 n g)
      (fun n => sourceAt (⟨1, 1, fun s _ _ => if s = 0 then 0 else b⟩ : Arr3 ℚ) 1 n g) M := by
  intro n hn
  have hn : n < 4 := hn
  rcases n with _ | _ | _ | _ | n
  · have : ¬ (0 : ℚ) < -3 / 4 := by norm_num
    simpa [sourceAt, exFine, exProblem, leavesReflecting, this] using hb
  · have : ¬ (0 : ℚ) < -1 / 4 := by norm_num
    simpa [sourceAt, exFine, exProblem, leavesReflecting, this] using hb
  · simp [sourceAt, exFine, exProblem, leavesReflecting]
    split <;> simp [hM]
  · simp [sourceAt, exFine, exProblem, leavesReflecting]
    split <;> simp [hM]
  · omega

example : ∃ flux, sourceIteration exFine exTotal (.iso fun _ g g' => if g' ≤ g then 1 / 4 else 0)
    ⟨1, 1, fun _ _ _ => -1 / 2⟩ ⟨1, 1, fun s _ _ => if s = 0 then 0 else -2⟩ (fun _ _ => 1) = .ok flux ∧
    ∀ i < 3, ∀ g < 2, |flux i g| ≤ 2 :=
  C96_maximum_principle exFine exTotal _ _ _ _ 2 (by norm_num) exTame exDominates
    (fun g _ => exInflow 2 (by norm_num) (-2) (by norm_num [abs_of_neg]) g)
    (fun i _ g _ => by norm_num)

/-! ## C97, C98: backward Euler -/

theorem sourceAt_full {A G : ℕ} (f : ℕ → ℕ → ℕ → K) {i n g : ℕ} (hn : n < A) (hg : g < G) :
    sourceAt (⟨A, G, f⟩ : Arr3 K) i n g = f i n g := by
  have e1 := bidx_full _ _ hn
  have e2 := bidx_full _ _ hg
  simp only [bidx] at e1 e2
  unfold sourceAt
  simp only [e1, e2]

/-- The implicit Euler equations as a sweep with total `sigma + 1/(v dt)`. -/
theorem implicit_balanced {p : Problem K} {sigma : ℕ → ℕ → K} {xs : ℕ → ℕ → ℕ → K} {phi : ℕ → ℕ → K}
    {velocity : ℕ → K} {dt : K} {old psi : ℕ → ℕ → ℕ → K} {ext bnd : Arr3 K}
    (h : ImplicitStep p sigma xs phi (fun i n g => (psi i n g - old i n g) / (velocity g * dt)) ext bnd psi) :
    ∃ e : ℕ → ℕ → ℕ → K, ∀ g < p.groups,
      (∀ n < p.angles, ∀ i < p.cells, psi i n g = (e g n i + e g n (i + 1)) / 2) ∧
      AllBalanced p.cells p.angles p.angleX p.dx
        (fun i => sigma (p.mm i) g + 1 / (velocity g * dt))
        (fun n i => ∑ g' ∈ range p.groups, xs (p.mm i) g g' * phi i g'
          + (sourceAt ext i n g + old i n g / (velocity g * dt))) (e g) ∧
      SweptInflow p.cells p.angles p.angleX p.bcL p.bcR (fun n => sourceAt bnd 0 n g)
        (fun n => sourceAt bnd 1 n g) (e g) := by
  obtain ⟨e, he⟩ := h
  refine ⟨e, fun g hg => ⟨(he g hg).1, fun n hn i hi => ?_, (he g hg).2.2⟩⟩
  have h1 := (he g hg).2.1 n hn i hi
  rw [← (he g hg).1 n hn i hi]
  linear_combination h1

/-- Non-negative data of a time-dependent slab problem on a fine mesh. -/
structure NonnegTimed (p : Problem K) (sigma : ℕ → ℕ → K) (xs : ℕ → ℕ → ℕ → K) (velocity : ℕ → K) (dt : K)
    (external boundary : TimeArr K) (steps : ℕ) (init : ℕ → ℕ → ℕ → K) : Prop where
  fine : ∀ g < p.groups, ∀ n < p.angles,
    FineFor p.cells (p.angleX n) p.dx (fun i => sigma (p.mm i) g + 1 / (velocity g * dt))
  weights : ∀ n < p.angles, 0 ≤ p.angleW n
  xs : ∀ i < p.cells, ∀ g < p.groups, ∀ g' < p.groups, 0 ≤ xs (p.mm i) g g'
  ext : ∀ j < steps, ∀ i < p.cells, ∀ n < p.angles, ∀ g < p.groups, 0 ≤ sourceAt (entry external j) i n g
  bnd : ∀ j < steps, ∀ s < 2, ∀ n < p.angles, ∀ g < p.groups, 0 ≤ sourceAt (entry boundary j) s n g
  init : ∀ i < p.cells, ∀ n < p.angles, ∀ g < p.groups, 0 ≤ init i n g

/-- C97: backward Euler on a mesh with `(sigma + 1/(v dt)) dx ≤ 2 |mu|` keeps a non-negative flux
non-negative, at every step, in every cell, direction and group. -/
theorem C97_backward_euler_nonneg (p : Problem K) (xsTotal : ℕ → ℕ → K) (scatter : ℕ → ℕ → ℕ → K)
    (fission : Fission K) (velocity : ℕ → K) (external boundary : TimeArr K) (steps : ℕ) (dt : K)
    (init : ℕ → ℕ → ℕ → K) (hok : TimedOk p xsTotal velocity dt) (hG : 0 < p.groups)
    (hext : Covers external steps) (hbnd : Covers boundary steps)
    (hdata : NonnegTimed p xsTotal (fun m g g' => scatter m g g' + fissionMatrix fission m g g') velocity dt
      external boundary steps init) :
    ∃ out, backwardEuler p xsTotal (.iso scatter) fission velocity external boundary steps dt init
        = .ok out ∧ ∀ j < steps, ∀ i < p.cells, ∀ g < p.groups, 0 ≤ out j i g := by
  obtain ⟨out, psi, hrun, hinit, hstep, hsi, _⟩ := C32_backward_euler p xsTotal scatter fission velocity
    external boundary steps dt init hok hG hext hbnd
  set xs : ℕ → ℕ → ℕ → K := fun m g g' => scatter m g g' + fissionMatrix fission m g g' with hxs
  refine ⟨out, hrun, ?_⟩
  have hokV : ∀ g < p.groups, SlabOk p (fun m g => xsTotal m g + 1 / (velocity g * dt)) g :=
    fun g hg => xsStar_ok hok (zero_le_one (α := K)) g hg
  have hv : ∀ g < p.groups, 0 ≤ velocity g * dt := fun g hg => (mul_pos (hok.velocity g hg) hok.dt).le
  have key : ∀ j ≤ steps, (∀ i < p.cells, ∀ n < p.angles, ∀ g < p.groups, 0 ≤ psi j i n g) ∧
      (0 < j → ∀ i < p.cells, ∀ g < p.groups, 0 ≤ out (j - 1) i g) := by
    intro j
    induction j with
    | zero => intro _; exact ⟨by rw [hinit]; exact hdata.init, fun h => absurd h (lt_irrefl 0)⟩
    | succ j ih =>
      intro hj
      have hj : j < steps := hj
      obtain ⟨hpsi, hprev⟩ := ih hj.le
      have hq : ∀ n < p.angles, ∀ i < p.cells, ∀ g < p.groups,
          0 ≤ sourceAt (entry external j) i n g + psi j i n g / (velocity g * dt) :=
        fun n hn i hi g hg => add_nonneg (hdata.ext j hj i hi n hn g hg)
          (div_nonneg (hpsi i hi n hn g hg) (hv g hg))
      obtain ⟨flux, hf, hfn⟩ := C16_source_iteration_nonneg p
        (fun m g => xsTotal m g + 1 / (velocity g * dt)) xs
        ⟨p.angles, p.groups, fun i n g => sourceAt (entry external j) i n g
            + psi j i n g / (velocity g * dt)⟩ (entry boundary j)
        (if j = 0 then quadrature p init else out (j - 1)) hokV (hokV 0 hG).slab hdata.fine
        (fun g hg => ⟨hdata.weights, fun n hn i hi => by
            simp only [Arr3.group, bidx_full _ _ hn, bidx_full _ _ hg]; exact hq n hn i hi g hg,
          fun n hn _ => hdata.bnd j hj 0 (by norm_num) n hn g hg,
          fun n hn _ => hdata.bnd j hj 1 (by norm_num) n hn g hg⟩) hdata.xs
        (fun i hi g hg => by
          split
          · exact sum_nonneg fun n hn => mul_nonneg (hdata.weights n (mem_range.mp hn))
              (hdata.init i hi n (mem_range.mp hn) g hg)
          · exact hprev (by omega) i hi g hg)
      have hout : ∀ i < p.cells, ∀ g < p.groups, 0 ≤ out j i g := by
        have := Except.ok.inj (hf.symm.trans (hsi j hj))
        rw [← this]; exact hfn
      refine ⟨fun i hi n hn g hg => ?_, fun _ => by simpa using hout⟩
      obtain ⟨e, he⟩ := implicit_balanced (hstep j hj)
      have hpos := swept_nonneg (hokV g hg).nonzero (hokV g hg).phys (hdata.fine g hg) (he g hg).2.1
        (he g hg).2.2 (fun n hn i hi => add_nonneg
          (sum_nonneg fun g' hg' => mul_nonneg (hdata.xs i hi g hg g' (mem_range.mp hg'))
            (hout i hi g' (mem_range.mp hg'))) (hq n hn i hi g hg))
        (fun n hn _ => hdata.bnd j hj 0 (by norm_num) n hn g hg)
        (fun n hn _ => hdata.bnd j hj 1 (by norm_num) n hn g hg)
      rw [(he g hg).1 n hn i hi]
      have h0 := hpos n hn i hi.le
      have h1 := hpos n hn (i + 1) hi
      linarith
  intro j hj i hi g hg
  have := (key (j + 1) hj).2 (Nat.succ_pos _) i hi g hg
  simpa using this

/-- C98: backward Euler is bounded uniformly in time.  If `M` dominates the external sources of all steps
(in particular: no external source and a sub-critical medium) and bounds the boundary data and the initial
angular flux, the flux stays below `M` for any number of steps of any length that keeps the mesh fine. -/
theorem C98_backward_euler_bounded (p : Problem K) (xsTotal : ℕ → ℕ → K) (scatter : ℕ → ℕ → ℕ → K)
    (fission : Fission K) (velocity : ℕ → K) (external boundary : TimeArr K) (steps : ℕ) (dt : K)
    (init : ℕ → ℕ → ℕ → K) (M : K) (hM : 0 ≤ M) (hok : TimedOk p xsTotal velocity dt) (hG : 0 < p.groups)
    (hext : Covers external steps) (hbnd : Covers boundary steps)
    (ht : Tame p (fun m g => xsTotal m g + 1 / (velocity g * dt))
      (fun m g g' => scatter m g g' + fissionMatrix fission m g g'))
    (hd : ∀ j < steps, Dominates p xsTotal (fun m g g' => scatter m g g' + fissionMatrix fission m g g')
      (entry external j) M)
    (hb : ∀ j < steps, ∀ g < p.groups, InflowWithin p.angles p.angleX p.bcL p.bcR
      (fun n => sourceAt (entry boundary j) 0 n g) (fun n => sourceAt (entry boundary j) 1 n g) M)
    (hinit : ∀ i < p.cells, ∀ n < p.angles, ∀ g < p.groups, |init i n g| ≤ M) :
    ∃ out, backwardEuler p xsTotal (.iso scatter) fission velocity external boundary steps dt init
        = .ok out ∧ ∀ j < steps, ∀ i < p.cells, ∀ g < p.groups, |out j i g| ≤ M := by
  obtain ⟨out, psi, hrun, hpsi0, hstep, hsi, _⟩ := C32_backward_euler p xsTotal scatter fission velocity
    external boundary steps dt init hok hG hext hbnd
  set xs : ℕ → ℕ → ℕ → K := fun m g g' => scatter m g g' + fissionMatrix fission m g g' with hxs
  refine ⟨out, hrun, ?_⟩
  have hv : ∀ g < p.groups, 0 < velocity g * dt := fun g hg => mul_pos (hok.velocity g hg) hok.dt
  have key : ∀ j ≤ steps, (∀ i < p.cells, ∀ n < p.angles, ∀ g < p.groups, |psi j i n g| ≤ M) ∧
      (0 < j → ∀ i < p.cells, ∀ g < p.groups, |out (j - 1) i g| ≤ M) := by
    intro j
    induction j with
    | zero => intro _; exact ⟨by rw [hpsi0]; exact hinit, fun h => absurd h (lt_irrefl 0)⟩
    | succ j ih =>
      intro hj
      have hj : j < steps := hj
      obtain ⟨hpsi, hprev⟩ := ih hj.le
      have hd' : Dominates p (fun m g => xsTotal m g + 1 / (velocity g * dt)) xs
          ⟨p.angles, p.groups, fun i n g => sourceAt (entry external j) i n g
            + psi j i n g / (velocity g * dt)⟩ M := by
        intro i hi g hg n hn
        have h1 := hd j hj i hi g hg n hn
        have hA : sourceAt (⟨p.angles, p.groups, fun i n g => sourceAt (entry external j) i n g
            + psi j i n g / (velocity g * dt)⟩ : Arr3 K) i n g
            = sourceAt (entry external j) i n g + psi j i n g / (velocity g * dt) :=
          sourceAt_full _ hn hg
        rw [hA]
        have h2 : |psi j i n g / (velocity g * dt)| ≤ 1 / (velocity g * dt) * M := by
          rw [abs_div, abs_of_pos (hv g hg), div_eq_mul_inv, mul_comm, one_div]
          exact mul_le_mul_of_nonneg_left (hpsi i hi n hn g hg) (inv_nonneg.mpr (hv g hg).le)
        have h3 := abs_add_le (sourceAt (entry external j) i n g) (psi j i n g / (velocity g * dt))
        have h4 : (xsTotal (p.mm i) g + 1 / (velocity g * dt)) * M
            = xsTotal (p.mm i) g * M + 1 / (velocity g * dt) * M := by ring
        simp only
        rw [h4]
        linarith
      obtain ⟨flux, hf, hfn⟩ := C96_maximum_principle p
        (fun m g => xsTotal m g + 1 / (velocity g * dt)) xs
        ⟨p.angles, p.groups, fun i n g => sourceAt (entry external j) i n g
            + psi j i n g / (velocity g * dt)⟩ (entry boundary j)
        (if j = 0 then quadrature p init else out (j - 1)) M hM ht hd' (hb j hj)
        (fun i hi g hg => by
          split
          · unfold quadrature
            refine (abs_sum_le_sum_abs _ _).trans ?_
            calc ∑ n ∈ range p.angles, |p.angleW n * init i n g|
                ≤ ∑ n ∈ range p.angles, p.angleW n * M := sum_le_sum fun n hn => by
                  have hn := mem_range.mp hn
                  rw [abs_mul, abs_of_nonneg (ht.weights n hn)]
                  exact mul_le_mul_of_nonneg_left (hinit i hi n hn g hg) (ht.weights n hn)
              _ = M := by rw [← sum_mul, ht.norm, one_mul]
          · exact hprev (by omega) i hi g hg)
      have hout : ∀ i < p.cells, ∀ g < p.groups, |out j i g| ≤ M := by
        have := Except.ok.inj (hf.symm.trans (hsi j hj))
        rw [← this]; exact hfn
      refine ⟨fun i hi n hn g hg => ?_, fun _ => by simpa using hout⟩
      obtain ⟨e, he⟩ := implicit_balanced (hstep j hj)
      have hbd := swept_abs_le hM (ht.ok g hg).nonzero (ht.ok g hg).phys (ht.fine g hg) (he g hg).2.1
        (he g hg).2.2 (fun n hn i hi => by
          have := source_abs_le ht hd' hi hg hn (fun g' => out j i g') (fun g' hg' => hout i hi g' hg')
          rw [sourceAt_full _ hn hg] at this
          exact this) (hb j hj g hg)
      rw [(he g hg).1 n hn i hi]
      have h0 := abs_le.mp (hbd n hn i hi.le)
      have h1 := abs_le.mp (hbd n hn (i + 1) hi)
      rw [abs_le]
      constructor <;> linarith [h0.1, h0.2, h1.1, h1.2]
  intro j hj i hi g hg
  have := (key (j + 1) hj).2 (Nat.succ_pos _) i hi g hg
  simpa using this

theorem exSlow : TimedOk exFine exTotal (fun g => (g : ℚ) + 1) (1 / 4) :=
  ⟨fun g _ => exFineOk g, by show 1 < 4; omega, fun g _ => by positivity, by norm_num⟩

theorem exSlowFine (g : ℕ) (hg : g < 2) (n : ℕ) (hn : n < 4) :
    FineFor 3 (exFine.angleX n) exFine.dx
      (fun i => exTotal (exFine.mm i) g + 1 / (((g : ℚ) + 1) * (1 / 4))) := by
  intro i _
  have h1 := exFine_mu n hn
  have h2 : exTotal (exFine.mm i) g ≤ 3 := by
    have hm : exFine.mm i ≤ 1 := by
      show (if i = 1 then 1 else 0) ≤ 1
      split <;> omega
    have hm' : ((exFine.mm i : ℕ) : ℚ) ≤ 1 := by exact_mod_cast hm
    have hg' : ((g : ℕ) : ℚ) ≤ 1 := by exact_mod_cast (by omega : g ≤ 1)
    unfold exTotal
    linarith
  have h3 : 1 / (((g : ℚ) + 1) * (1 / 4)) ≤ 4 := by
    rw [div_le_iff₀ (by positivity)]
    have : (0 : ℚ) ≤ g := Nat.cast_nonneg _
    linarith
  show (exTotal (exFine.mm i) g + 1 / (((g : ℚ) + 1) * (1 / 4))) * (1 / 16) ≤ _
  linarith

example : ∃ out, backwardEuler exFine exTotal (.iso fun _ _ _ => 1 / 4) (.matrix fun _ _ _ => 1 / 8)
    (fun g => (g : ℚ) + 1) ⟨1, fun _ => ⟨1, 1, fun _ _ _ => 1⟩⟩ ⟨1, fun _ => ⟨1, 1, fun s _ _ => (s : ℚ)⟩⟩ 7
    (1 / 4) (fun i _ _ => (i : ℚ)) = .ok out ∧ ∀ j < 7, ∀ i < 3, ∀ g < 2, 0 ≤ out j i g :=
  C97_backward_euler_nonneg exFine exTotal _ _ _ _ _ 7 _ _ exSlow (by show 0 < 2; omega) (Or.inl rfl)
    (Or.inl rfl)
    { fine := fun g hg n hn => exSlowFine g hg n hn
      weights := fun n _ => by show (0 : ℚ) ≤ 1 / 4; norm_num
      xs := fun i _ g _ g' _ => by simp only [fissionMatrix]; norm_num
      ext := fun j _ i _ n _ g _ => by simp [sourceAt, entry]
      bnd := fun j _ s _ n _ g _ => by simp [sourceAt, entry]
      init := fun i _ n _ g _ => Nat.cast_nonneg _ }

example : ∃ out, backwardEuler exFine exTotal (.iso fun _ g g' => if g' ≤ g then 1 / 4 else 0)
    (.matrix fun _ _ _ => 0)
    (fun g => (g : ℚ) + 1) ⟨1, fun _ => ⟨1, 1, fun _ _ _ => -1 / 2⟩⟩
    ⟨1, fun _ => ⟨1, 1, fun s _ _ => if s = 0 then 0 else -2⟩⟩ 1000
    (1 / 4) (fun i _ _ => if i = 0 then 2 else -2) = .ok out ∧
    ∀ j < 1000, ∀ i < 3, ∀ g < 2, |out j i g| ≤ 2 := by
  have hx : (fun m g g' => (fun (_ : ℕ) (g g' : ℕ) => if g' ≤ g then (1 / 4 : ℚ) else 0) m g g'
      + fissionMatrix (.matrix fun _ _ _ => 0) m g g') = fun _ g g' => if g' ≤ g then 1 / 4 else 0 := by
    funext m g g'; simp [fissionMatrix]
  refine C98_backward_euler_bounded exFine exTotal _ _ _ _ _ 1000 _ _ 2 (by norm_num) exSlow
    (by show 0 < 2; omega) (Or.inl rfl) (Or.inl rfl) ?_ ?_ ?_ ?_
  · rw [hx]
    exact ⟨fun g hg => xsStar_ok exSlow (zero_le_one (α := ℚ)) g hg, fun g hg n hn => exSlowFine g hg n hn,
      exTame.weights, exTame.norm, exTame.nonneg⟩
  · intro j _
    rw [hx]
    exact exDominates
  · intro j _ g _
    exact exInflow 2 (by norm_num) (-2) (by norm_num [abs_of_neg]) g
  · intro i _ n _ g _
    split <;> norm_num [abs_of_neg]

/-! ## C99 -/

/-- Particle balance of an implicit step, group by group: rate of change, net leakage through the faces
and collisions balance scattering, fission and external sources. -/
theorem implicit_step_balance {p : Problem K} {sigma : ℕ → ℕ → K} {xs : ℕ → ℕ → ℕ → K} {phi : ℕ → ℕ → K}
    {rate psi : ℕ → ℕ → ℕ → K} {ext bnd : Arr3 K} (hdx : ∀ i < p.cells, p.dx i ≠ 0)
    (hw : ∑ n ∈ range p.angles, p.angleW n = 1) (h : ImplicitStep p sigma xs phi rate ext bnd psi) :
    ∃ e : ℕ → ℕ → ℕ → K, ∀ g < p.groups,
      (∀ n < p.angles, ∀ i < p.cells, psi i n g = (e g n i + e g n (i + 1)) / 2) ∧
      SweptInflow p.cells p.angles p.angleX p.bcL p.bcR (fun n => sourceAt bnd 0 n g)
        (fun n => sourceAt bnd 1 n g) (e g) ∧
      (∑ i ∈ range p.cells, p.dx i * quadrature p rate i g)
        + (∑ n ∈ range p.angles, p.angleW n * p.angleX n * (e g n p.cells - e g n 0))
        + ∑ i ∈ range p.cells, p.dx i * (sigma (p.mm i) g * quadrature p psi i g)
      = ∑ i ∈ range p.cells, p.dx i * (∑ g' ∈ range p.groups, xs (p.mm i) g g' * phi i g')
        + ∑ i ∈ range p.cells, p.dx i * ∑ n ∈ range p.angles, p.angleW n * sourceAt ext i n g := by
  obtain ⟨e, he⟩ := h
  refine ⟨e, fun g hg => ⟨(he g hg).1, (he g hg).2.2, ?_⟩⟩
  have hcell : ∀ n < p.angles, ∀ i < p.cells,
      p.dx i * (p.angleW n * rate i n g) + p.angleW n * p.angleX n * (e g n (i + 1) - e g n i)
        + p.dx i * (sigma (p.mm i) g * (p.angleW n * psi i n g))
      = p.dx i * (p.angleW n * ∑ g' ∈ range p.groups, xs (p.mm i) g g' * phi i g')
        + p.dx i * (p.angleW n * sourceAt ext i n g) := by
    intro n hn i hi
    have h1 := (he g hg).2.1 n hn i hi
    have h2 := hdx i hi
    have h3 : p.angleX n * (e g n (i + 1) - e g n i) / p.dx i * p.dx i
        = p.angleX n * (e g n (i + 1) - e g n i) := div_mul_cancel₀ _ h2
    linear_combination (p.dx i * p.angleW n) * h1 - p.angleW n * h3
  have htot := sum_congr (s₁ := range p.angles) rfl fun n hn =>
    sum_congr (s₁ := range p.cells) rfl fun i hi => hcell n (mem_range.mp hn) i (mem_range.mp hi)
  simp only [sum_add_distrib] at htot
  have e1 : ∑ i ∈ range p.cells, p.dx i * quadrature p rate i g
      = ∑ n ∈ range p.angles, ∑ i ∈ range p.cells, p.dx i * (p.angleW n * rate i n g) := by
    rw [sum_comm]; exact sum_congr rfl fun i _ => by unfold quadrature; rw [mul_sum]
  have e2 : ∑ n ∈ range p.angles, p.angleW n * p.angleX n * (e g n p.cells - e g n 0)
      = ∑ n ∈ range p.angles, ∑ i ∈ range p.cells,
        p.angleW n * p.angleX n * (e g n (i + 1) - e g n i) :=
    sum_congr rfl fun n _ => by rw [← mul_sum, sum_range_sub (fun i => e g n i)]
  have e3 : ∑ i ∈ range p.cells, p.dx i * (sigma (p.mm i) g * quadrature p psi i g)
      = ∑ n ∈ range p.angles, ∑ i ∈ range p.cells,
        p.dx i * (sigma (p.mm i) g * (p.angleW n * psi i n g)) := by
    rw [sum_comm]; exact sum_congr rfl fun i _ => by unfold quadrature; rw [mul_sum, mul_sum]
  have e4 : ∑ i ∈ range p.cells, p.dx i * (∑ g' ∈ range p.groups, xs (p.mm i) g g' * phi i g')
      = ∑ n ∈ range p.angles, ∑ i ∈ range p.cells,
        p.dx i * (p.angleW n * ∑ g' ∈ range p.groups, xs (p.mm i) g g' * phi i g') := by
    rw [sum_comm]
    refine sum_congr rfl fun i _ => ?_
    rw [← mul_sum, ← sum_mul, hw, one_mul]
  have e5 : ∑ i ∈ range p.cells, p.dx i * ∑ n ∈ range p.angles, p.angleW n * sourceAt ext i n g
      = ∑ n ∈ range p.angles, ∑ i ∈ range p.cells, p.dx i * (p.angleW n * sourceAt ext i n g) := by
    rw [sum_comm]; exact sum_congr rfl fun i _ => by rw [mul_sum]
  rw [e1, e2, e3, e4, e5]
  exact htot

/-- Particles of group `g` in the slab: `sum_i dx_i phi_i / v_g`. -/
def inventory (p : Problem K) (velocity : ℕ → K) (psi : ℕ → ℕ → ℕ → K) (g : ℕ) : K :=
  ∑ i ∈ range p.cells, p.dx i * (quadrature p psi i g / velocity g)

/-- Net leakage of group `g` through both faces, from the edge fluxes `e`. -/
def netLeakage (p : Problem K) (e : ℕ → ℕ → ℕ → K) (g : ℕ) : K :=
  ∑ n ∈ range p.angles, p.angleW n * p.angleX n * (e g n p.cells - e g n 0)

/-- Collision rate of group `g`. -/
def collisions (p : Problem K) (sigma : ℕ → ℕ → K) (psi : ℕ → ℕ → ℕ → K) (g : ℕ) : K :=
  ∑ i ∈ range p.cells, p.dx i * (sigma (p.mm i) g * quadrature p psi i g)

/-- Particles produced in group `g` by scattering and fission of the scalar flux `phi`, plus the external
source. -/
def stepProduction (p : Problem K) (xs : ℕ → ℕ → ℕ → K) (ext : Arr3 K) (phi : ℕ → ℕ → K) (g : ℕ) : K :=
  ∑ i ∈ range p.cells, p.dx i * (∑ g' ∈ range p.groups, xs (p.mm i) g g' * phi i g')
    + ∑ i ∈ range p.cells, p.dx i * ∑ n ∈ range p.angles, p.angleW n * sourceAt ext i n g

/-- `e` are edge fluxes of the cell averages `psi`, entering as `bnd` prescribes. -/
def EdgesOf (p : Problem K) (bnd : Arr3 K) (psi e : ℕ → ℕ → ℕ → K) : Prop :=
  ∀ g < p.groups, (∀ n < p.angles, ∀ i < p.cells, psi i n g = (e g n i + e g n (i + 1)) / 2) ∧
    SweptInflow p.cells p.angles p.angleX p.bcL p.bcR (fun n => sourceAt bnd 0 n g)
      (fun n => sourceAt bnd 1 n g) (e g)

theorem quadrature_lin (p : Problem K) (a b c : K) (x y z : ℕ → ℕ → ℕ → K) (d : ℕ → K) (i g : ℕ) :
    quadrature p (fun i n g => (a * x i n g + b * y i n g + c * z i n g) / d g) i g
      = (a * quadrature p x i g + b * quadrature p y i g + c * quadrature p z i g) / d g := by
  unfold quadrature
  rw [mul_sum, mul_sum, mul_sum, ← sum_add_distrib, ← sum_add_distrib, sum_div]
  exact sum_congr rfl fun n _ => by ring

theorem rate_inventory (p : Problem K) (velocity : ℕ → K) (dt a b c : K) (x y z : ℕ → ℕ → ℕ → K) (g : ℕ)
    (hv : velocity g ≠ 0) (hdt : dt ≠ 0) :
    ∑ i ∈ range p.cells, p.dx i *
        quadrature p (fun i n g => (a * x i n g + b * y i n g + c * z i n g) / (velocity g * dt)) i g
      = (a * inventory p velocity x g + b * inventory p velocity y g + c * inventory p velocity z g) / dt := by
  unfold inventory
  rw [mul_sum, mul_sum, mul_sum, ← sum_add_distrib, ← sum_add_distrib, sum_div]
  refine sum_congr rfl fun i _ => ?_
  rw [quadrature_lin p a b c x y z (fun g => velocity g * dt)]
  field_simp

/-- C99 for backward Euler: in every step and every group the change of the number of particles in the
slab per time step, plus the net leakage, plus the collisions, equals scattering, fission (of the returned
scalar flux of the step) and external production - exactly, for any number of steps and iterations. -/
theorem C99_backward_euler_balance (p : Problem K) (xsTotal : ℕ → ℕ → K) (scatter : ℕ → ℕ → ℕ → K)
    (fission : Fission K) (velocity : ℕ → K) (external boundary : TimeArr K) (steps : ℕ) (dt : K)
    (init : ℕ → ℕ → ℕ → K) (hok : TimedOk p xsTotal velocity dt) (hG : 0 < p.groups)
    (hext : Covers external steps) (hbnd : Covers boundary steps)
    (hw : ∑ n ∈ range p.angles, p.angleW n = 1) :
    ∃ (out : ℕ → ℕ → ℕ → K) (psi e : ℕ → ℕ → ℕ → ℕ → K),
      backwardEuler p xsTotal (.iso scatter) fission velocity external boundary steps dt init
        = .ok out ∧ psi 0 = init ∧
      ∀ j < steps, ImplicitStep p xsTotal
          (fun m g g' => scatter m g g' + fissionMatrix fission m g g') (out j)
          (fun i n g => (psi (j + 1) i n g - psi j i n g) / (velocity g * dt))
          (entry external j) (entry boundary j) (psi (j + 1)) ∧
        EdgesOf p (entry boundary j) (psi (j + 1)) (e j) ∧ ∀ g < p.groups,
        (inventory p velocity (psi (j + 1)) g - inventory p velocity (psi j) g) / dt
            + netLeakage p (e j) g + collisions p xsTotal (psi (j + 1)) g
          = stepProduction p (fun m g g' => scatter m g g' + fissionMatrix fission m g g') (entry external j)
              (out j) g := by
  obtain ⟨out, psi, hrun, h0, hstep, _, _⟩ := C32_backward_euler p xsTotal scatter fission velocity
    external boundary steps dt init hok hG hext hbnd
  have hdx : ∀ i < p.cells, p.dx i ≠ 0 := fun i hi => ((hok.ok 0 hG).phys i hi).1.ne'
  have := fun j (hj : j < steps) => implicit_step_balance hdx hw (hstep j hj)
  choose e he using this
  refine ⟨out, psi, fun j => if hj : j < steps then e j hj else fun _ _ _ => 0, hrun, h0, fun j hj => ?_⟩
  simp only [hj, dif_pos]
  refine ⟨hstep j hj, fun g hg => ⟨(he j hj g hg).1, (he j hj g hg).2.1⟩, fun g hg => ?_⟩
  have h1 := (he j hj g hg).2.2
  have h2 := rate_inventory p velocity dt 1 (-1) 0 (psi (j + 1)) (psi j) (psi j) g
    (hok.velocity g hg).ne' hok.dt.ne'
  have h3 : (fun i n g => (1 * psi (j + 1) i n g + -1 * psi j i n g + 0 * psi j i n g) / (velocity g * dt))
      = fun i n g => (psi (j + 1) i n g - psi j i n g) / (velocity g * dt) := by
    funext i n g; ring
  rw [h3] at h2
  rw [h2] at h1
  unfold netLeakage collisions stepProduction
  rw [← h1]; ring

/-- C99 for BDF2: the first step as for backward Euler, later steps with the second-order difference of
the particle numbers. -/
theorem C99_bdf2_balance (p : Problem K) (xsTotal : ℕ → ℕ → K) (scatter : ℕ → ℕ → ℕ → K)
    (fission : Fission K) (velocity : ℕ → K) (external boundary : TimeArr K) (steps : ℕ) (dt : K)
    (init : ℕ → ℕ → ℕ → K) (hok : TimedOk p xsTotal velocity dt) (hG : 0 < p.groups)
    (hext : Covers external steps) (hbnd : Covers boundary steps)
    (hw : ∑ n ∈ range p.angles, p.angleW n = 1) :
    ∃ (out : ℕ → ℕ → ℕ → K) (psi e : ℕ → ℕ → ℕ → ℕ → K),
      bdf2 p xsTotal (.iso scatter) fission velocity external boundary steps dt init
        = .ok out ∧ psi 0 = init ∧
      ∀ j < steps, ImplicitStep p xsTotal
          (fun m g g' => scatter m g g' + fissionMatrix fission m g g') (out j)
          (fun i n g => (if j = 0 then psi 1 i n g - psi 0 i n g
            else 3 / 2 * psi (j + 1) i n g - 2 * psi j i n g + 1 / 2 * psi (j - 1) i n g)
              / (velocity g * dt))
          (entry external j) (entry boundary j) (psi (j + 1)) ∧
        EdgesOf p (entry boundary j) (psi (j + 1)) (e j) ∧ ∀ g < p.groups,
        (if j = 0 then inventory p velocity (psi 1) g - inventory p velocity (psi 0) g
          else 3 / 2 * inventory p velocity (psi (j + 1)) g - 2 * inventory p velocity (psi j) g
            + 1 / 2 * inventory p velocity (psi (j - 1)) g) / dt
            + netLeakage p (e j) g + collisions p xsTotal (psi (j + 1)) g
          = stepProduction p (fun m g g' => scatter m g g' + fissionMatrix fission m g g') (entry external j)
              (out j) g := by
  obtain ⟨out, psi, hrun, h0, hstep, _, _⟩ := C33_bdf2 p xsTotal scatter fission velocity
    external boundary steps dt init hok hG hext hbnd
  have hdx : ∀ i < p.cells, p.dx i ≠ 0 := fun i hi => ((hok.ok 0 hG).phys i hi).1.ne'
  have := fun j (hj : j < steps) => implicit_step_balance hdx hw (hstep j hj)
  choose e he using this
  refine ⟨out, psi, fun j => if hj : j < steps then e j hj else fun _ _ _ => 0, hrun, h0, fun j hj => ?_⟩
  simp only [hj, dif_pos]
  refine ⟨hstep j hj, fun g hg => ⟨(he j hj g hg).1, (he j hj g hg).2.1⟩, fun g hg => ?_⟩
  have h1 := (he j hj g hg).2.2
  by_cases hj0 : j = 0
  · subst hj0
    have h2 := rate_inventory p velocity dt 1 (-1) 0 (psi 1) (psi 0) (psi 0) g
      (hok.velocity g hg).ne' hok.dt.ne'
    have h3 : (fun i n g => (1 * psi 1 i n g + -1 * psi 0 i n g + 0 * psi 0 i n g) / (velocity g * dt))
        = fun i n g => (if 0 = 0 then psi 1 i n g - psi 0 i n g else 3 / 2 * psi (0 + 1) i n g
          - 2 * psi 0 i n g + 1 / 2 * psi (0 - 1) i n g) / (velocity g * dt) := by
      funext i n g; rw [if_pos rfl]; ring
    rw [h3] at h2
    rw [h2] at h1
    unfold netLeakage collisions stepProduction
    rw [← h1, if_pos rfl]; ring
  · have h2 := rate_inventory p velocity dt (3 / 2) (-2) (1 / 2) (psi (j + 1)) (psi j) (psi (j - 1)) g
      (hok.velocity g hg).ne' hok.dt.ne'
    have h3 : (fun i n g => (3 / 2 * psi (j + 1) i n g + -2 * psi j i n g + 1 / 2 * psi (j - 1) i n g)
          / (velocity g * dt))
        = fun i n g => (if j = 0 then psi 1 i n g - psi 0 i n g else 3 / 2 * psi (j + 1) i n g
          - 2 * psi j i n g + 1 / 2 * psi (j - 1) i n g) / (velocity g * dt) := by
      funext i n g; rw [if_neg hj0]; ring
    rw [h3] at h2
    rw [h2] at h1
    unfold netLeakage collisions stepProduction
    rw [← h1, if_neg hj0]; ring

example : ∃ out, backwardEuler exProblem exTotal (.iso fun _ _ _ => 1 / 4) (.matrix fun _ _ _ => 1 / 8)
    (fun g => (g : ℚ) + 1) exExternal exBoundary 3 (1 / 10) (fun i _ _ => (i : ℚ)) = .ok out := by
  obtain ⟨out, _, _, h, _⟩ := C99_backward_euler_balance exProblem exTotal (fun _ _ _ => 1 / 4)
    (.matrix fun _ _ _ => 1 / 8) (fun g => (g : ℚ) + 1) exExternal exBoundary 3 (1 / 10)
    (fun i _ _ => (i : ℚ)) exTimed (by show 0 < 2; omega) (Or.inr (le_refl _)) (Or.inl rfl)
    (by show ∑ n ∈ range 4, (1 / 4 : ℚ) = 1; norm_num [sum_range_succ])
  exact ⟨out, h⟩

example : ∃ out, bdf2 exProblem exTotal (.iso fun _ _ _ => 1 / 4) (.matrix fun _ _ _ => 1 / 8)
    (fun g => (g : ℚ) + 1) exExternal exBoundary 3 (1 / 10) (fun i _ _ => (i : ℚ)) = .ok out := by
  obtain ⟨out, _, _, h, _⟩ := C99_bdf2_balance exProblem exTotal (fun _ _ _ => 1 / 4)
    (.matrix fun _ _ _ => 1 / 8) (fun g => (g : ℚ) + 1) exExternal exBoundary 3 (1 / 10)
    (fun i _ _ => (i : ℚ)) exTimed (by show 0 < 2; omega) (Or.inr (le_refl _)) (Or.inl rfl)
    (by show ∑ n ∈ range 4, (1 / 4 : ℚ) = 1; norm_num [sum_range_succ])
  exact ⟨out, h⟩

end Discrete1.Props
