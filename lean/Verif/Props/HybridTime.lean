import Verif.Props.Timed
import Verif.Props.Hybrid

/-!
# C36, C37, C40 (hybrid time integrators)
-/

set_option linter.unusedSectionVars false
set_option linter.unusedSimpArgs false

namespace Discrete1.Props

open Finset Discrete1.Tools Discrete1.Spec Discrete1.Slab Discrete1.MultiGroup Discrete1.Drivers

variable {K : Type*} [Field K] [LinearOrder K] [IsStrictOrderedRing K]

/-! ## C40 -/

/-- The coarse transfer matrix and total of `coarsen_materials`, in one place. -/
theorem C40_cross_sections (xsTotal : ℕ → ℕ → K) (xs : ℕ → ℕ → ℕ → K) (edges : ℕ → K) (e : ℕ → ℕ)
    (star : ℕ → K) (gg mat : ℕ) :
    some (varScatterC xs (Hybrid.diff edges) (Hybrid.diffIdx edges e) e gg mat)
      = ((Hybrid.coarsenMaterials xsTotal (some xs) none edges e).2.1).map (fun m => m mat gg gg) ∧
    varTotalC xsTotal star (Hybrid.diff edges) (Hybrid.diffIdx edges e) e gg mat
      = (Hybrid.coarsenMaterials xsTotal (some xs) none edges e).1 mat gg + star gg :=
  ⟨rfl, rfl⟩

theorem varOffScatter_eq (groupsC : ℕ) (flux old : ℕ → ℕ → K) (mm : ℕ → ℕ) (xs : ℕ → ℕ → ℕ → K)
    (edges : ℕ → K) (e : ℕ → ℕ) {gg : ℕ} (hg : gg < groupsC) (m : ℕ → ℕ → ℕ → K)
    (hm : Hybrid.xsMatrixCoarsen (some xs) edges e = some m) :
    varOffScatter groupsC flux old mm xs (Hybrid.diff edges) (Hybrid.diffIdx edges e) e gg
      = offScatter groupsC flux old mm m gg := by
  have hm : (fun mat a b => (∑ og ∈ Ico (e a) (e (a + 1)), ∑ ig ∈ Ico (e b) (e (b + 1)),
      xs mat og ig * Hybrid.diff edges ig) / Hybrid.diffIdx edges e b) = m := Option.some.inj hm
  funext i
  rw [offScatter_eq _ _ _ _ _ hg]
  unfold varOffScatter variableOffScatter
  have key : ∀ n, loop n (fun og acc =>
      let s := ∑ r ∈ range (e (gg + 1) - e gg), ∑ ig ∈ Ico (e og) (e (og + 1)),
        xs (mm i) (e gg + r) ig * Hybrid.diff edges ig
      if og < gg then acc + s * (flux i og / Hybrid.diffIdx edges e og)
      else if gg < og then acc + s * (old i og / Hybrid.diffIdx edges e og)
      else acc) 0 = ∑ og ∈ (range n).erase gg, m (mm i) gg og * (if og < gg then flux i og else old i og) := by
    intro n
    induction n with
    | zero => simp
    | succ n ih =>
      rw [loop_succ, ih]
      have hs : ∑ r ∈ range (e (gg + 1) - e gg), ∑ ig ∈ Ico (e n) (e (n + 1)),
          xs (mm i) (e gg + r) ig * Hybrid.diff edges ig
          = ∑ og ∈ Ico (e gg) (e (gg + 1)), ∑ ig ∈ Ico (e n) (e (n + 1)),
            xs (mm i) og ig * Hybrid.diff edges ig := by
        rw [sum_Ico_eq_sum_range]
      simp only
      rw [hs, ← hm]
      by_cases hn : n = gg
      · subst hn
        rw [if_neg (lt_irrefl _), if_neg (lt_irrefl _)]
        congr 1
        ext x; simp only [mem_erase, mem_range]; omega
      · have : (range (n + 1)).erase gg = insert n ((range n).erase gg) := by
          ext x; simp only [mem_erase, mem_range, mem_insert]; omega
        rw [this, sum_insert (by simp)]
        by_cases h1 : n < gg
        · rw [if_pos h1, if_pos h1]; ring
        · rw [if_neg h1, if_pos (by omega), if_neg h1]; ring
  exact key groupsC

/-- C40: `variable_source_iteration` with on-the-fly coarsening is, exactly and for every input and every
geometry, `source_iteration` on the materials of `coarsen_materials` (plus the star coefficient): every
group step, hence every iterate and the result, is identical. -/
theorem C40_variable_source_iteration (p : Problem K) (xsTotal : ℕ → ℕ → K) (star : ℕ → K)
    (xs m : ℕ → ℕ → ℕ → K) (external boundary : Arr3 K) (edges : ℕ → K) (e : ℕ → ℕ) (guess : ℕ → ℕ → K)
    (hm : (Hybrid.coarsenMaterials xsTotal (some xs) none edges e).2.1 = some m) :
    variableSourceIteration p xsTotal star xs external boundary (Hybrid.diffIdx edges e)
        (Hybrid.diff edges) e guess
      = sourceIteration p
        (fun mat g => (Hybrid.coarsenMaterials xsTotal (some xs) none edges e).1 mat g + star g)
        (.iso m) external boundary guess := by
  unfold variableSourceIteration sourceIteration sourceIterationIso
  simp only
  congr 1
  funext old
  unfold oneSweepIso
  refine loopE_congr _ _ _ _ fun gg hg flux => ?_
  unfold varGroupStep groupStepIso
  simp only
  rw [varOffScatter_eq p.groups flux old p.mm xs edges e hg m hm]
  have hm' : (fun mat a b => (∑ og ∈ Ico (e a) (e (a + 1)), ∑ ig ∈ Ico (e b) (e (b + 1)),
      xs mat og ig * Hybrid.diff edges ig) / Hybrid.diffIdx edges e b) = m := Option.some.inj hm
  have h1 : varScatterC xs (Hybrid.diff edges) (Hybrid.diffIdx edges e) e gg = fun mat => m mat gg gg := by
    rw [← hm']; rfl
  rw [h1]
  rfl

/-! ## Hybrid steps -/

/-- Difference quotient of the step from `psi j` to `new`: first order, or second order from step 1 on. -/
def timeRate (second : Bool) (j : ℕ) (psi : ℕ → ℕ → ℕ → ℕ → K) (new : ℕ → ℕ → ℕ → K) (velocity : ℕ → K)
    (dt : K) : ℕ → ℕ → ℕ → K := fun i n g =>
  (if second = true ∧ j ≠ 0 then 3 / 2 * new i n g - 2 * psi j i n g + 1 / 2 * psi (j - 1) i n g
    else new i n g - psi j i n g) / (velocity g * dt)

/-- Coefficient of the new flux in the difference quotient. -/
def timeCoef (K : Type*) [Field K] (second : Bool) (j : ℕ) : K := if second = true ∧ j ≠ 0 then 3 / 2 else 1

theorem timeCoef_nonneg (second : Bool) (j : ℕ) : (0 : K) ≤ timeCoef K second j := by
  unfold timeCoef; split <;> norm_num

/-- `S` is the collided source produced by the uncollided flux `u`: scattering and fission of the
quadrature sum of `u`, collected into the coarse groups. -/
def CollidedSource (p pC : Problem K) (xs : ℕ → ℕ → ℕ → K) (coarse : ℕ → ℕ) (u : ℕ → ℕ → ℕ → K)
    (S : Arr3 K) : Prop :=
  S.angles = 1 ∧ S.groups = pC.groups ∧ ∀ i < p.cells, ∀ c, S.val i 0 c
    = ∑ g ∈ (range p.groups).filter (fun g => coarse g = c),
        ∑ g' ∈ range p.groups, xs (p.mm i) g g' * quadrature p u i g'

/-- `KnownSolution` for a full-shape source as `StepData` without scattering. -/
theorem stepData_of_known {p : Problem K} {xsV : ℕ → ℕ → K} {q : ℕ → ℕ → ℕ → K} {bnd : Arr3 K}
    {e : ℕ → ℕ → ℕ → K} (h : ∀ g < p.groups, KnownSolution p xsV (fullArr p q) bnd g (e g)) :
    StepData p xsV (fun _ _ _ => 0) q bnd (fun _ _ => 0)
      (fun i n g => (e g n i + e g n (i + 1)) / 2) := by
  refine ⟨e, fun g hg => ⟨fun _ _ _ _ => rfl, fun n hn i hi => ?_, (h g hg).2⟩⟩
  have := (h g hg).1 n hn i hi
  simp only [fullArr, bidx_full _ _ hn, bidx_full _ _ hg] at this
  simp only [zero_mul, sum_const_zero, add_zero]
  exact this

theorem quadrature_mean (p : Problem K) (e : ℕ → ℕ → ℕ → K) (i g : ℕ) :
    quadrature p (fun i n g => (e g n i + e g n (i + 1)) / 2) i g
      = scalarCenter p.angles p.angleW (e g) i := rfl

/-- The last solve of a hybrid step. -/
theorem hybridLast_spec {p : Problem K} {xsV : ℕ → ℕ → K} {xs : ℕ → ℕ → ℕ → K}
    {q : ℕ → ℕ → ℕ → K} {bnd : Arr3 K} (fluxU fluxC : ℕ → ℕ → K) (coarse : ℕ → ℕ) (factor : ℕ → K)
    (hok : ∀ g < p.groups, SlabOk p xsV g) (hA : 1 < p.angles) (hG : 0 < p.groups) :
    ∃ psi, knownSourceAngular p xsV (fullArr p (hybridSourceTotal p.cells p.angles p.groups fluxU fluxC xs q
        p.mm coarse factor).2) bnd false = .ok psi ∧
      StepData p xsV xs q bnd (fun i g => fluxU i g + fluxC i (coarse g) * factor g) psi := by
  obtain ⟨psi, e, h1, h2, h3⟩ := knownAngular_spec p xsV (hybridSourceTotal p.cells p.angles p.groups fluxU
    fluxC xs q p.mm coarse factor).2 bnd hok hA hG
  refine ⟨psi, h1, e, fun g hg => ⟨h3 g hg, fun n hn i hi => ?_, (h2 g hg).2⟩⟩
  have hb := (h2 g hg).1 n hn i hi
  simp only [fullArr, bidx_full _ _ hn, bidx_full _ _ hg] at hb
  rw [hybridSourceTotal_apply] at hb
  simp only [hi, hn, hg, and_self, if_true] at hb
  rw [h3 g hg n hn i hi, hb]

/-- One step of `hybrid1d`. -/
theorem hybridStep_spec (second : Bool) (p pC : Problem K) (xsTotal xsTotalC : ℕ → ℕ → K)
    (xs xsC : ℕ → ℕ → ℕ → K) (velocity velocityC : ℕ → K) (external boundary : TimeArr K)
    (coarse : ℕ → ℕ) (factor : ℕ → K) (dt : K) (steps j : ℕ) (s : HybState K)
    (hok : TimedOk p xsTotal velocity dt) (hG : 0 < p.groups)
    (hokC : ∀ c < pC.groups, SlabOk pC xsTotalC c) (hvC : ∀ c < pC.groups, 0 < velocityC c)
    (hext : Covers external steps) (hbnd : Covers boundary steps) (hj : j < steps)
    (hnum : s.num = timeCoef K second j) :
    ∃ s' u phiC S, hybridStep second p pC xsTotal xsTotalC (.iso xs) (.iso xsC) velocity velocityC external
        boundary coarse factor dt j s = .ok s' ∧
      s'.psi2 = s.psi1 ∧ s'.num = timeCoef K second (j + 1) ∧
      s'.out = Function.update s.out j (scalarFlux p s'.psi1) ∧
      StepData p (xsStar xsTotal (timeCoef K second j) velocity dt) (fun _ _ _ => 0)
        (if second = true ∧ j ≠ 0 then qStar2 (entry external j) velocity dt s.psi1 s.psi2
          else qStar1 (entry external j) velocity dt s.psi1) (entry boundary j) (fun _ _ => 0) u ∧
      CollidedSource p pC xs coarse u S ∧
      sourceIteration pC (xsStar xsTotalC (timeCoef K second j) velocityC dt) (.iso xsC) S zeroBoundary
        (fun _ _ => 0) = .ok phiC ∧
      StepData p (xsStar xsTotal (timeCoef K second j) velocity dt) xs
        (if second = true ∧ j ≠ 0 then qStar2 (entry external j) velocity dt s.psi1 s.psi2
          else qStar1 (entry external j) velocity dt s.psi1) (entry boundary j)
        (fun i g => quadrature p u i g + phiC i (coarse g) * factor g) s'.psi1 := by
  have hokV := xsStar_ok hok (timeCoef_nonneg (K := K) second j)
  have hokVC : ∀ c < pC.groups, SlabOk pC (xsStar xsTotalC (timeCoef K second j) velocityC dt) c :=
    fun g hg => ⟨(hokC g hg).slab, (hokC g hg).nonzero, fun i hi => ⟨((hokC g hg).phys i hi).1,
      add_nonneg ((hokC g hg).phys i hi).2
        (div_nonneg (timeCoef_nonneg second j) (mul_pos (hvC g hg) hok.dt).le)⟩⟩
  set q := (if second = true ∧ j ≠ 0 then qStar2 (entry external j) velocity dt s.psi1 s.psi2
      else qStar1 (entry external j) velocity dt s.psi1) with hq
  obtain ⟨fluxU, eU, h1, h2, h3⟩ := knownScalar_spec p _ q (entry boundary j) hokV hG
  obtain ⟨x, k, _, _, _, _, h4, _⟩ := C21_source_iteration_stops pC _ xsC
    ⟨1, pC.groups, fun i _ c => hybridSourceCollided p.groups fluxU xs p.mm coarse i c⟩ zeroBoundary
    (fun _ _ => 0) hokVC
  obtain ⟨psi, h5, h6⟩ := hybridLast_spec (q := q) (bnd := entry boundary j) (xs := xs) fluxU (x k) coarse
    factor hokV hok.angles hG
  refine ⟨⟨psi, s.psi1, if second = true ∧ j = 0 then 3 / 2 else s.num,
    Function.update s.out j (scalarFlux p psi)⟩, _, x k, _, ?_, rfl, ?_, rfl, stepData_of_known h2,
    ⟨rfl, rfl, ?_⟩, h4, ?_⟩
  · unfold hybridStep
    rw [get_ok hext hj, get_ok hbnd hj]
    simp only
    rw [← hq, hnum]
    unfold hybridMethod
    rw [h1]
    simp only
    rw [h4]
    simp only
    rw [h5]
  · simp only [hnum, timeCoef]
    by_cases hs : second = true
    · by_cases hj0 : j = 0
      · simp [hs, hj0]
      · simp [hs, hj0]
    · simp [hs]
  · intro i hi c
    show hybridSourceCollided p.groups fluxU xs p.mm coarse i c = _
    rw [C38_group]
    refine sum_congr rfl fun g _ => sum_congr rfl fun g' hg' => ?_
    rw [h3 g' (mem_range.mp hg') i hi, quadrature_mean]
  · obtain ⟨e, he⟩ := h6
    refine ⟨e, fun g hg => ⟨(he g hg).1, fun n hn i hi => ?_, (he g hg).2.2⟩⟩
    rw [(he g hg).2.1 n hn i hi]
    congr 1
    refine sum_congr rfl fun g' hg' => ?_
    beta_reduce
    rw [h3 g' (mem_range.mp hg') i hi, quadrature_mean]

/-- The rate identity shared by all integrators. -/
theorem rate_identity {second : Bool} {j : ℕ} {p : Problem K} {xsTotal : ℕ → ℕ → K} {velocity : ℕ → K}
    {dt : K} (hok : TimedOk p xsTotal velocity dt) (ext : Arr3 K) (psi : ℕ → ℕ → ℕ → ℕ → K)
    (psi2 new : ℕ → ℕ → ℕ → K) (h2 : j ≠ 0 → psi2 = psi (j - 1)) :
    ∀ i < p.cells, ∀ n < p.angles, ∀ g < p.groups,
      xsStar xsTotal (timeCoef K second j) velocity dt (p.mm i) g * new i n g
          - (if second = true ∧ j ≠ 0 then qStar2 ext velocity dt (psi j) psi2
            else qStar1 ext velocity dt (psi j)) i n g
        = timeRate second j psi new velocity dt i n g + xsTotal (p.mm i) g * new i n g
          - sourceAt ext i n g := by
  intro i _ n _ g hg
  have hv := (hok.velocity g hg).ne'
  have hd := hok.dt.ne'
  unfold xsStar timeCoef timeRate
  by_cases hc : second = true ∧ j ≠ 0
  · simp only [if_pos hc, h2 hc.2]
    simp only [qStar2, sourceAt, bidx]
    field_simp
    ring
  · simp only [if_neg hc]
    simp only [qStar1, sourceAt, bidx]
    field_simp
    ring

/-- C36 for `hybrid1d.backward_euler` (`second = false`) and `hybrid1d.bdf2` (`second = true`): the run
succeeds; in every step, with exactly the time discretisation of `timed1d`,
* the uncollided flux `u j` solves the step without scattering,
* the collided flux `phiC j` is source iteration's answer on the coarse problem (coarse total plus
  `timeCoef / (v dt)`), driven by the scattering of `u j`,
* the final angular flux solves the step with the scattering source of uncollided + prolonged collided,
* the returned scalar flux is its quadrature sum. -/
theorem C36_hybrid_steps (second : Bool) (p pC : Problem K) (xsTotal xsTotalC : ℕ → ℕ → K)
    (scatter scatterC : ℕ → ℕ → ℕ → K) (fission fissionC : Fission K) (velocity velocityC : ℕ → K)
    (external boundary : TimeArr K) (coarse : ℕ → ℕ) (factor : ℕ → K) (steps : ℕ) (dt : K)
    (init : ℕ → ℕ → ℕ → K) (hok : TimedOk p xsTotal velocity dt) (hG : 0 < p.groups)
    (hokC : ∀ c < pC.groups, SlabOk pC xsTotalC c) (hvC : ∀ c < pC.groups, 0 < velocityC c)
    (hext : Covers external steps) (hbnd : Covers boundary steps) :
    ∃ (out : ℕ → ℕ → ℕ → K) (psi u : ℕ → ℕ → ℕ → ℕ → K) (phiC : ℕ → ℕ → ℕ → K) (S : ℕ → Arr3 K),
      hybridRun second p pC xsTotal xsTotalC (.iso scatter) (.iso scatterC) fission fissionC velocity
        velocityC external boundary coarse factor steps dt init = .ok out ∧ psi 0 = init ∧
      ∀ j < steps,
        ImplicitStep p xsTotal (fun _ _ _ => 0) (fun _ _ => 0) (timeRate second j psi (u j) velocity dt)
          (entry external j) (entry boundary j) (u j) ∧
        CollidedSource p pC (fun m g g' => scatter m g g' + fissionMatrix fission m g g') coarse (u j) (S j) ∧
        sourceIteration pC (fun m c => xsTotalC m c + timeCoef K second j / (velocityC c * dt))
          (.iso fun m g g' => scatterC m g g' + fissionMatrix fissionC m g g') (S j)
          ⟨1, 1, fun _ _ _ => 0⟩ (fun _ _ => 0) = .ok (phiC j) ∧
        ImplicitStep p xsTotal (fun m g g' => scatter m g g' + fissionMatrix fission m g g')
          (fun i g => quadrature p (u j) i g + phiC j i (coarse g) * factor g)
          (timeRate second j psi (psi (j + 1)) velocity dt) (entry external j) (entry boundary j)
          (psi (j + 1)) ∧
        ∀ i g, out j i g = quadrature p (psi (j + 1)) i g := by
  set xs : ℕ → ℕ → ℕ → K := fun m g g' => scatter m g g' + fissionMatrix fission m g g' with hxs
  set xsC : ℕ → ℕ → ℕ → K := fun m g g' => scatterC m g g' + fissionMatrix fissionC m g g' with hxsC
  obtain ⟨x, hx0, hstep, hP, hrun⟩ := loopE_trace (fun j (s : HybState K) => s.num = timeCoef K second j) steps
    (hybridStep second p pC xsTotal xsTotalC (.iso xs) (.iso xsC) velocity velocityC external boundary coarse
      factor dt) ⟨init, fun _ _ _ => 0, 1, fun _ _ _ => 0⟩ (by simp [timeCoef]) (fun j hj s hs => by
      obtain ⟨s', _, _, _, h1, _, h3, _⟩ := hybridStep_spec second p pC xsTotal xsTotalC xs xsC velocity velocityC
        external boundary coarse factor dt steps j s hok hG hokC hvC hext hbnd hj hs
      exact ⟨s', h1, h3⟩)
  have hspec := fun j (hj : j < steps) => hybridStep_spec second p pC xsTotal xsTotalC xs xsC velocity velocityC
    external boundary coarse factor dt steps j (x j) hok hG hokC hvC hext hbnd hj (hP j hj.le)
  have hspec' : ∀ j < steps, ∃ u phiC S, (x (j + 1)).psi2 = (x j).psi1 ∧
      (x (j + 1)).out = Function.update (x j).out j (scalarFlux p (x (j + 1)).psi1) ∧
      StepData p (xsStar xsTotal (timeCoef K second j) velocity dt) (fun _ _ _ => 0)
        (if second = true ∧ j ≠ 0 then qStar2 (entry external j) velocity dt (x j).psi1 (x j).psi2
          else qStar1 (entry external j) velocity dt (x j).psi1) (entry boundary j) (fun _ _ => 0) u ∧
      CollidedSource p pC xs coarse u S ∧
      sourceIteration pC (xsStar xsTotalC (timeCoef K second j) velocityC dt) (.iso xsC) S zeroBoundary
        (fun _ _ => 0) = .ok phiC ∧
      StepData p (xsStar xsTotal (timeCoef K second j) velocity dt) xs
        (if second = true ∧ j ≠ 0 then qStar2 (entry external j) velocity dt (x j).psi1 (x j).psi2
          else qStar1 (entry external j) velocity dt (x j).psi1) (entry boundary j)
        (fun i g => quadrature p u i g + phiC i (coarse g) * factor g) (x (j + 1)).psi1 := by
    intro j hj
    obtain ⟨s', u, phiC, S, h1, h2, _, h4, h5, h6, h7, h8⟩ := hspec j hj
    rw [hstep j hj] at h1
    have : x (j + 1) = s' := Except.ok.inj h1
    subst this
    exact ⟨u, phiC, S, h2, h4, h5, h6, h7, h8⟩
  haveI : Inhabited (Arr3 K) := ⟨⟨1, 1, fun _ _ _ => 0⟩⟩
  choose! u phiC S hspec' using hspec'
  have hout := trace_out HybState.out (fun j => scalarFlux p (x (j + 1)).psi1) x steps
    fun j hj => (hspec' j hj).2.1
  have hpsi2 : ∀ j < steps, j ≠ 0 → (x j).psi2 = (x (j - 1)).psi1 := fun j hj hj0 => by
    have := (hspec' (j - 1) (by omega)).1
    rwa [show j - 1 + 1 = j by omega] at this
  refine ⟨(x steps).out, fun j => (x j).psi1, u, phiC, S, ?_, by simp only [hx0], fun j hj => ?_⟩
  · unfold hybridRun
    rw [transfer_iso, transfer_iso, hrun]; rfl
  · obtain ⟨_, _, h5, h6, h7, h8⟩ := hspec' j hj
    refine ⟨h5.implicit ?_, h6, h7, h8.implicit ?_, fun i g => ?_⟩
    · exact rate_identity (j := j) hok (entry external j) (fun j => (x j).psi1) (x j).psi2 (u j) (hpsi2 j hj)
    · exact rate_identity (j := j) hok (entry external j) (fun j => (x j).psi1) (x j).psi2 (x (j + 1)).psi1
        (hpsi2 j hj)
    · rw [hout j hj, scalarFlux_eq]

/-- C36: the star coefficients of `vhybrid1d` reproduce `timed1d`'s `q*` and effective total cross
section: `4/3 * (3/2)/(v dt) = 2/(v dt)` and `1/3 * (3/2)/(v dt) = 1/(2 v dt)`. -/
theorem C36_star_coefficients (second : Bool) (j : ℕ) (ext : Arr3 K) (velocity : ℕ → K) (dt : K)
    (xsTotal : ℕ → ℕ → K) (psi1 psi2 : ℕ → ℕ → ℕ → K) (star : ℕ → K)
    (hs : star = fun g => timeCoef K second j / (velocity g * dt)) :
    (fun m g => xsTotal m g + star g) = xsStar xsTotal (timeCoef K second j) velocity dt ∧
    (if second = true ∧ j ≠ 0 then fun i n g =>
        ext.val i (bidx ext.angles n) (bidx ext.groups g) + 4 / 3 * star g * psi1 i n g
          - 1 / 3 * star g * psi2 i n g
      else fun i n g => ext.val i (bidx ext.angles n) (bidx ext.groups g) + star g * psi1 i n g)
      = if second = true ∧ j ≠ 0 then qStar2 ext velocity dt psi1 psi2 else qStar1 ext velocity dt psi1 := by
  subst hs
  refine ⟨rfl, ?_⟩
  unfold timeCoef
  by_cases hc : second = true ∧ j ≠ 0
  · simp only [if_pos hc]
    funext i n g
    unfold qStar2
    ring
  · simp only [if_neg hc]
    rfl

/-- One step of `vhybrid1d`. -/
theorem vhybridStep_spec (second : Bool) (p : Problem K) (grid : ℕ → Collided K) (xsTotal : ℕ → ℕ → K)
    (xs : ℕ → ℕ → ℕ → K) (velocity : ℕ → K) (external boundary : TimeArr K) (dt : K) (steps j : ℕ)
    (s : VHybState K) (hok : TimedOk p xsTotal velocity dt) (hG : 0 < p.groups)
    (hokC : ∀ c < (grid j).pC.groups,
      SlabOk (grid j).pC (Hybrid.xsVectorCoarsen xsTotal (grid j).edges (grid j).e) c)
    (hvC : ∀ c < (grid j).pC.groups, 0 < Hybrid.coarsenVelocity velocity (grid j).e c)
    (hext : Covers external steps) (hbnd : Covers boundary steps) (hj : j < steps)
    (hstar : s.starU = fun g => timeCoef K second j / (velocity g * dt)) :
    ∃ s' u phiC S guess m, vhybridStep second p grid xsTotal xs velocity external boundary dt j s = .ok s' ∧
      s'.psi2 = s.psi1 ∧ s'.starU = (fun g => timeCoef K second (j + 1) / (velocity g * dt)) ∧
      s'.out = Function.update s.out j (scalarFlux p s'.psi1) ∧
      StepData p (xsStar xsTotal (timeCoef K second j) velocity dt) (fun _ _ _ => 0)
        (if second = true ∧ j ≠ 0 then qStar2 (entry external j) velocity dt s.psi1 s.psi2
          else qStar1 (entry external j) velocity dt s.psi1) (entry boundary j) (fun _ _ => 0) u ∧
      CollidedSource p (grid j).pC xs (grid j).coarseIdx u S ∧
      Hybrid.xsMatrixCoarsen (some xs) (grid j).edges (grid j).e = some m ∧
      sourceIteration (grid j).pC (xsStar (Hybrid.xsVectorCoarsen xsTotal (grid j).edges (grid j).e)
          (timeCoef K second j) (Hybrid.coarsenVelocity velocity (grid j).e) dt) (.iso m) S zeroBoundary
        guess = .ok phiC ∧
      (∀ i < p.cells, ∀ c < (grid j).pC.groups, (grid j).e (c + 1) ≤ p.groups →
        guess i c = ∑ g ∈ Ico ((grid j).e c) ((grid j).e (c + 1)), quadrature p u i g) ∧
      StepData p (xsStar xsTotal (timeCoef K second j) velocity dt) xs
        (if second = true ∧ j ≠ 0 then qStar2 (entry external j) velocity dt s.psi1 s.psi2
          else qStar1 (entry external j) velocity dt s.psi1) (entry boundary j)
        (fun i g => quadrature p u i g + phiC i ((grid j).coarseIdx g) * (grid j).factor g) s'.psi1 := by
  have hokV := xsStar_ok hok (timeCoef_nonneg (K := K) second j)
  have hokVC : ∀ c < (grid j).pC.groups, SlabOk (grid j).pC
      (xsStar (Hybrid.xsVectorCoarsen xsTotal (grid j).edges (grid j).e)
          (timeCoef K second j) (Hybrid.coarsenVelocity velocity (grid j).e) dt) c :=
    fun g hg => ⟨(hokC g hg).slab, (hokC g hg).nonzero, fun i hi => ⟨((hokC g hg).phys i hi).1,
      add_nonneg ((hokC g hg).phys i hi).2
        (div_nonneg (timeCoef_nonneg second j) (mul_pos (hvC g hg) hok.dt).le)⟩⟩
  obtain ⟨hs1, hs2⟩ := C36_star_coefficients second j (entry external j) velocity dt xsTotal s.psi1 s.psi2
    s.starU hstar
  set q := (if second = true ∧ j ≠ 0 then qStar2 (entry external j) velocity dt s.psi1 s.psi2
      else qStar1 (entry external j) velocity dt s.psi1) with hq
  obtain ⟨fluxU, eU, h1, h2, h3⟩ := knownScalar_spec p _ q (entry boundary j) hokV hG
  obtain ⟨m, hm⟩ : ∃ m, Hybrid.xsMatrixCoarsen (some xs) (grid j).edges (grid j).e = some m := ⟨_, rfl⟩
  obtain ⟨x, k, _, _, _, _, h4, _⟩ := C21_source_iteration_stops (grid j).pC _ m
    ⟨1, (grid j).pC.groups, fun i _ c => hybridSourceCollided p.groups fluxU xs p.mm (grid j).coarseIdx i c⟩
    zeroBoundary (coarsenFlux (grid j).e fluxU) hokVC
  obtain ⟨psi, h5, h6⟩ := hybridLast_spec (q := q) (bnd := entry boundary j) (xs := xs) fluxU (x k)
    (grid j).coarseIdx (grid j).factor hokV hok.angles hG
  have hC40 := C40_variable_source_iteration (grid j).pC xsTotal
    (fun c => timeCoef K second j / (Hybrid.coarsenVelocity velocity (grid j).e c * dt)) xs m
    ⟨1, (grid j).pC.groups, fun i _ c => hybridSourceCollided p.groups fluxU xs p.mm (grid j).coarseIdx i c⟩
    zeroBoundary (grid j).edges (grid j).e (coarsenFlux (grid j).e fluxU) hm
  refine ⟨⟨psi, s.psi1, if second = true ∧ j = 0 then fun g => (3 / 2) / (velocity g * dt) else s.starU,
    Function.update s.out j (scalarFlux p psi)⟩, _, x k, _, coarsenFlux (grid j).e fluxU, m, ?_, rfl, ?_, rfl,
    stepData_of_known h2, ⟨rfl, rfl, ?_⟩, hm, h4, ?_, ?_⟩
  · unfold vhybridStep
    rw [get_ok hext hj, get_ok hbnd hj]
    simp only
    rw [hs2, hs1]
    unfold variableHybridMethod
    rw [hs1, h1]
    simp only
    have hstarC : (fun k => (if second = true ∧ j ≠ 0 then (3 / 2 : K) else 1)
        / (Hybrid.coarsenVelocity velocity (grid j).e k * dt))
        = fun c => timeCoef K second j / (Hybrid.coarsenVelocity velocity (grid j).e c * dt) := rfl
    rw [hstarC, hC40]
    have : (fun mat g => (Hybrid.coarsenMaterials xsTotal (some xs) none (grid j).edges (grid j).e).1 mat g
        + timeCoef K second j / (Hybrid.coarsenVelocity velocity (grid j).e g * dt))
        = xsStar (Hybrid.xsVectorCoarsen xsTotal (grid j).edges (grid j).e)
          (timeCoef K second j) (Hybrid.coarsenVelocity velocity (grid j).e) dt := rfl
    rw [this, h4]
    simp only
    rw [h5]
  · simp only [hstar, timeCoef]
    by_cases hs : second = true
    · by_cases hj0 : j = 0
      · simp [hs, hj0]
      · simp [hs, hj0]
    · simp [hs]
  · intro i hi c
    show hybridSourceCollided p.groups fluxU xs p.mm (grid j).coarseIdx i c = _
    rw [C38_group]
    refine sum_congr rfl fun g _ => sum_congr rfl fun g' hg' => ?_
    rw [h3 g' (mem_range.mp hg') i hi, quadrature_mean]
  · intro i hi c hc hle
    unfold coarsenFlux
    refine sum_congr rfl fun g hg => ?_
    rw [h3 g (lt_of_lt_of_le (mem_Ico.mp hg).2 hle) i hi, quadrature_mean]
  · obtain ⟨e, he⟩ := h6
    refine ⟨e, fun g hg => ⟨(he g hg).1, fun n hn i hi => ?_, (he g hg).2.2⟩⟩
    rw [(he g hg).2.1 n hn i hi]
    congr 1
    refine sum_congr rfl fun g' hg' => ?_
    beta_reduce
    rw [h3 g' (mem_range.mp hg') i hi, quadrature_mean]

/-- C36 for `vhybrid1d.backward_euler` / `vhybrid1d.bdf2`: every step uses exactly the time
discretisation of `timed1d` (the same difference quotients), the collided problem is source iteration on
the materials of `coarsen_materials` for that step's collided grid with time term
`timeCoef / (coarse velocity * dt)`, started from the coarsened uncollided flux. -/
theorem C36_vhybrid_steps (second : Bool) (p : Problem K) (grid : ℕ → Collided K) (xsTotal : ℕ → ℕ → K)
    (scatter fission : ℕ → ℕ → ℕ → K) (velocity : ℕ → K) (external boundary : TimeArr K) (steps : ℕ) (dt : K)
    (init : ℕ → ℕ → ℕ → K) (hok : TimedOk p xsTotal velocity dt) (hG : 0 < p.groups)
    (hokC : ∀ j < steps, ∀ c < (grid j).pC.groups,
      SlabOk (grid j).pC (Hybrid.xsVectorCoarsen xsTotal (grid j).edges (grid j).e) c)
    (hvC : ∀ j < steps, ∀ c < (grid j).pC.groups, 0 < Hybrid.coarsenVelocity velocity (grid j).e c)
    (hext : Covers external steps) (hbnd : Covers boundary steps) :
    ∃ (out : ℕ → ℕ → ℕ → K) (psi u : ℕ → ℕ → ℕ → ℕ → K) (phiC guess : ℕ → ℕ → ℕ → K) (S : ℕ → Arr3 K)
      (m : ℕ → ℕ → ℕ → ℕ → K),
      vhybridRun second p grid xsTotal scatter fission velocity external boundary steps dt init = .ok out ∧
      psi 0 = init ∧
      ∀ j < steps,
        ImplicitStep p xsTotal (fun _ _ _ => 0) (fun _ _ => 0) (timeRate second j psi (u j) velocity dt)
          (entry external j) (entry boundary j) (u j) ∧
        CollidedSource p (grid j).pC (fun m g g' => scatter m g g' + fission m g g') (grid j).coarseIdx (u j)
          (S j) ∧
        (Hybrid.coarsenMaterials xsTotal (some fun m g g' => scatter m g g' + fission m g g') none
          (grid j).edges (grid j).e).2.1 = some (m j) ∧
        sourceIteration (grid j).pC (fun mat c =>
            (Hybrid.coarsenMaterials xsTotal none none (grid j).edges (grid j).e).1 mat c
              + timeCoef K second j / (Hybrid.coarsenVelocity velocity (grid j).e c * dt))
          (.iso (m j)) (S j) ⟨1, 1, fun _ _ _ => 0⟩ (guess j) = .ok (phiC j) ∧
        ImplicitStep p xsTotal (fun m g g' => scatter m g g' + fission m g g')
          (fun i g => quadrature p (u j) i g + phiC j i ((grid j).coarseIdx g) * (grid j).factor g)
          (timeRate second j psi (psi (j + 1)) velocity dt) (entry external j) (entry boundary j)
          (psi (j + 1)) ∧
        (∀ i g, out j i g = quadrature p (psi (j + 1)) i g) ∧
        ∀ i < p.cells, ∀ c < (grid j).pC.groups, (grid j).e (c + 1) ≤ p.groups →
          guess j i c = ∑ g ∈ Ico ((grid j).e c) ((grid j).e (c + 1)), quadrature p (u j) i g := by
  set xs : ℕ → ℕ → ℕ → K := fun m g g' => scatter m g g' + fission m g g' with hxs
  obtain ⟨x, hx0, hstep, hP, hrun⟩ := loopE_trace
    (fun j (s : VHybState K) => s.starU = fun g => timeCoef K second j / (velocity g * dt)) steps
    (vhybridStep second p grid xsTotal xs velocity external boundary dt)
    ⟨init, fun _ _ _ => 0, fun g => 1 / (velocity g * dt), fun _ _ _ => 0⟩ (by simp [timeCoef])
    (fun j hj s hs => by
      obtain ⟨s', _, _, _, _, _, h1, _, h3, _⟩ := vhybridStep_spec second p grid xsTotal xs velocity external
        boundary dt steps j s hok hG (hokC j hj) (hvC j hj) hext hbnd hj hs
      exact ⟨s', h1, h3⟩)
  have hspec' : ∀ j < steps, ∃ u phiC S guess m, (x (j + 1)).psi2 = (x j).psi1 ∧
      (x (j + 1)).out = Function.update (x j).out j (scalarFlux p (x (j + 1)).psi1) ∧
      StepData p (xsStar xsTotal (timeCoef K second j) velocity dt) (fun _ _ _ => 0)
        (if second = true ∧ j ≠ 0 then qStar2 (entry external j) velocity dt (x j).psi1 (x j).psi2
          else qStar1 (entry external j) velocity dt (x j).psi1) (entry boundary j) (fun _ _ => 0) u ∧
      CollidedSource p (grid j).pC xs (grid j).coarseIdx u S ∧
      Hybrid.xsMatrixCoarsen (some xs) (grid j).edges (grid j).e = some m ∧
      sourceIteration (grid j).pC (xsStar (Hybrid.xsVectorCoarsen xsTotal (grid j).edges (grid j).e)
          (timeCoef K second j) (Hybrid.coarsenVelocity velocity (grid j).e) dt) (.iso m) S zeroBoundary
        guess = .ok phiC ∧
      StepData p (xsStar xsTotal (timeCoef K second j) velocity dt) xs
        (if second = true ∧ j ≠ 0 then qStar2 (entry external j) velocity dt (x j).psi1 (x j).psi2
          else qStar1 (entry external j) velocity dt (x j).psi1) (entry boundary j)
        (fun i g => quadrature p u i g + phiC i ((grid j).coarseIdx g) * (grid j).factor g)
        (x (j + 1)).psi1 ∧
      ∀ i < p.cells, ∀ c < (grid j).pC.groups, (grid j).e (c + 1) ≤ p.groups →
        guess i c = ∑ g ∈ Ico ((grid j).e c) ((grid j).e (c + 1)), quadrature p u i g := by
    intro j hj
    obtain ⟨s', u, phiC, S, guess, m, h1, h2, _, h4, h5, h6, h7, h8, h10, h9⟩ := vhybridStep_spec second p grid
      xsTotal xs velocity external boundary dt steps j (x j) hok hG (hokC j hj) (hvC j hj) hext hbnd hj
      (hP j hj.le)
    rw [hstep j hj] at h1
    have : x (j + 1) = s' := Except.ok.inj h1
    subst this
    exact ⟨u, phiC, S, guess, m, h2, h4, h5, h6, h7, h8, h9, h10⟩
  haveI : Inhabited (Arr3 K) := ⟨⟨1, 1, fun _ _ _ => 0⟩⟩
  choose! u phiC S guess m hspec' using hspec'
  have hout := trace_out VHybState.out (fun j => scalarFlux p (x (j + 1)).psi1) x steps
    fun j hj => (hspec' j hj).2.1
  have hpsi2 : ∀ j < steps, j ≠ 0 → (x j).psi2 = (x (j - 1)).psi1 := fun j hj hj0 => by
    have := (hspec' (j - 1) (by omega)).1
    rwa [show j - 1 + 1 = j by omega] at this
  refine ⟨(x steps).out, fun j => (x j).psi1, u, phiC, guess, S, m, ?_, by simp only [hx0], fun j hj => ?_⟩
  · unfold vhybridRun
    rw [hrun]; rfl
  · obtain ⟨_, _, h5, h6, h7, h8, h9, h10⟩ := hspec' j hj
    refine ⟨h5.implicit ?_, h6, h7, h8, h9.implicit ?_, fun i g => ?_, h10⟩
    · exact rate_identity (j := j) hok (entry external j) (fun j => (x j).psi1) (x j).psi2 (u j) (hpsi2 j hj)
    · exact rate_identity (j := j) hok (entry external j) (fun j => (x j).psi1) (x j).psi2 (x (j + 1)).psi1
        (hpsi2 j hj)
    · rw [hout j hj, scalarFlux_eq]

/-! ## C37 -/

theorem sweptInflow_add {N A : ℕ} {mu : ℕ → K} {bcL bcR : Bool} {bL bR bL' bR' : ℕ → K}
    {psi psi' : ℕ → ℕ → K} (h : SweptInflow N A mu bcL bcR bL bR psi)
    (h' : SweptInflow N A mu bcL bcR bL' bR' psi') :
    SweptInflow N A mu bcL bcR (fun n => bL n + bL' n) (fun n => bR n + bR' n)
      (fun n i => psi n i + psi' n i) := by
  intro n hn
  have a := h n hn
  have b := h' n hn
  simp only [inflow, outflow] at a b ⊢
  split_ifs at a b ⊢ <;> linear_combination a + b

/-- Superposition: the uncollided solution (no scattering) plus the solution driven by its scattering is
the solution of the full problem. -/
theorem superposition {p : Problem K} {xsV : ℕ → ℕ → K} {xs : ℕ → ℕ → ℕ → K} {q u : ℕ → ℕ → ℕ → K}
    {bnd S : Arr3 K} {phiC : ℕ → ℕ → K} {eC : ℕ → ℕ → ℕ → K}
    (hu : StepData p xsV (fun _ _ _ => 0) q bnd (fun _ _ => 0) u)
    (hS : ∀ i < p.cells, ∀ n < p.angles, ∀ g < p.groups, S.val i (bidx S.angles n) (bidx S.groups g)
      = ∑ g' ∈ range p.groups, xs (p.mm i) g g' * quadrature p u i g')
    (hC : SolvesMultigroup p xsV xs S ⟨1, 1, fun _ _ _ => 0⟩ phiC eC) :
    ∃ e, SolvesMultigroup p xsV xs (fullArr p q) bnd (fun i g => quadrature p u i g + phiC i g) e := by
  obtain ⟨eU, he⟩ := hu
  refine ⟨fun g n i => eU g n i + eC g n i, fun g hg i hi => ?_, fun g hg n hn i hi => ?_, fun g hg => ?_⟩
  · rw [hC.scalar g hg i hi]
    unfold quadrature scalarCenter
    rw [← sum_add_distrib]
    refine sum_congr rfl fun n hn => ?_
    rw [(he g hg).1 n (mem_range.mp hn) i hi]; ring
  · have h1 := (he g hg).2.1 n hn i hi
    have h2 := hC.balance g hg n hn i hi
    rw [(he g hg).1 n hn i hi] at h1
    simp only at h2
    rw [hS i hi n hn g hg] at h2
    simp only [zero_mul, sum_const_zero, add_zero] at h1
    simp only [fullArr, bidx_full _ _ hn, bidx_full _ _ hg, mul_add, sum_add_distrib]
    linear_combination h1 + h2
  · have := sweptInflow_add (he g hg).2.2 (hC.inflow g hg)
    simp only [add_zero] at this
    exact this

/-- On a contractive problem (`c < 1`) the multigroup equations have at most one solution. -/
theorem C74_unique (p : Problem K) (xsTotal : ℕ → ℕ → K) (xs : ℕ → ℕ → ℕ → K)
    (external boundary : Arr3 K) (c : K) (hc : 0 ≤ c) (hc1 : c < 1) (hcon : Contractive p xsTotal xs c)
    (phi phi' : ℕ → ℕ → K) (e e' : ℕ → ℕ → ℕ → K)
    (h : SolvesMultigroup p xsTotal xs external boundary phi e)
    (h' : SolvesMultigroup p xsTotal xs external boundary phi' e') :
    (∀ i < p.cells, ∀ g < p.groups, phi i g = phi' i g) ∧
    ∀ g < p.groups, ∀ n < p.angles, ∀ i ≤ p.cells, e g n i = e' g n i := by
  have hphi : ∀ i < p.cells, ∀ g < p.groups, phi i g = phi' i g := by
    intro i hi g hg
    obtain ⟨m, hm, hmax⟩ := (range p.cells ×ˢ range p.groups).exists_max_image
      (fun a => |phi a.1 a.2 - phi' a.1 a.2|) ⟨(i, g), by simp [hi, hg]⟩
    set M := |phi m.1 m.2 - phi' m.1 m.2| with hM
    have hb : ∀ i < p.cells, ∀ g < p.groups, |phi i g - phi' i g| ≤ M := fun i hi g hg =>
      hmax (i, g) (by simp [hi, hg])
    obtain ⟨new, h1, h2⟩ := C74_outer_sweep_contracts p xsTotal xs external boundary c M hc hc1.le
      (abs_nonneg _) hcon phi' e' h' phi hb
    obtain ⟨new', h3, h4⟩ := oneSweep_steady p xsTotal xs external boundary hcon.ok phi e h phi
      (fun _ _ _ _ => rfl)
    rw [h1] at h3
    have : new = new' := Except.ok.inj h3
    subst this
    have hm' := mem_product.mp hm
    have h5 := h2 m.1 (mem_range.mp hm'.1) m.2 (mem_range.mp hm'.2)
    rw [h4 m.1 (mem_range.mp hm'.1) m.2 (mem_range.mp hm'.2), ← hM] at h5
    have hM0 : 0 ≤ M := abs_nonneg _
    have : M ≤ 0 := by
      by_contra hpos
      push Not at hpos
      nlinarith
    exact sub_eq_zero.mp (abs_nonpos_iff.mp ((hb i hi g hg).trans this))
  refine ⟨hphi, fun g hg => ?_⟩
  exact swept_unique (hcon.ok g hg).nonzero (hcon.ok g hg).phys (h.balance g hg)
    ((solves_congr_flux h' hphi).balance g hg) (h.inflow g hg) (h'.inflow g hg)

/-- A fully implicit sequence: every step solves the time-dependent transport equation with the scattering
source of its *own* quadrature sum. -/
def FullyImplicit (second : Bool) (p : Problem K) (xsTotal : ℕ → ℕ → K) (xs : ℕ → ℕ → ℕ → K)
    (velocity : ℕ → K) (external boundary : TimeArr K) (dt : K) (steps : ℕ)
    (psi : ℕ → ℕ → ℕ → ℕ → K) : Prop :=
  ∀ j < steps, ImplicitStep p xsTotal xs (quadrature p (psi (j + 1)))
    (timeRate second j psi (psi (j + 1)) velocity dt) (entry external j) (entry boundary j) (psi (j + 1))

/-- An implicit step as a solution of multigroup equations. -/
theorem implicit_solves {second : Bool} {p : Problem K} {xsTotal : ℕ → ℕ → K} {xs : ℕ → ℕ → ℕ → K}
    {velocity : ℕ → K} {dt : K} (hok : TimedOk p xsTotal velocity dt) {ext bnd : Arr3 K} {j : ℕ}
    {psi : ℕ → ℕ → ℕ → ℕ → K} {phi : ℕ → ℕ → K} {new : ℕ → ℕ → ℕ → K}
    (hphi : ∀ i < p.cells, ∀ g < p.groups, phi i g = quadrature p new i g)
    (h : ImplicitStep p xsTotal xs phi (timeRate second j psi new velocity dt) ext bnd new) :
    ∃ e, SolvesMultigroup p (xsStar xsTotal (timeCoef K second j) velocity dt) xs
      (fullArr p (if second = true ∧ j ≠ 0 then qStar2 ext velocity dt (psi j) (psi (j - 1))
            else qStar1 ext velocity dt (psi j))) bnd phi e ∧
      ∀ g < p.groups, ∀ n < p.angles, ∀ i < p.cells, new i n g = (e g n i + e g n (i + 1)) / 2 := by
  obtain ⟨e, he⟩ := h
  refine ⟨e, ⟨fun g hg i hi => ?_, fun g hg n hn i hi => ?_, fun g hg => (he g hg).2.2⟩,
    fun g hg => (he g hg).1⟩
  · rw [hphi i hi g hg]
    unfold quadrature scalarCenter
    exact sum_congr rfl fun n hn => by rw [(he g hg).1 n (mem_range.mp hn) i hi]
  · have h1 := (he g hg).2.1 n hn i hi
    have h2 := rate_identity (second := second) (j := j) hok ext psi (psi (j - 1)) new (fun _ => rfl) i hi n hn g hg
    simp only [fullArr, bidx_full _ _ hn, bidx_full _ _ hg]
    rw [← (he g hg).1 n hn i hi]
    linear_combination h1 + h2

/-- C37: a fully implicit sequence is determined by its start, on contractive problems. -/
theorem C37_fully_implicit_unique (second : Bool) (p : Problem K) (xsTotal : ℕ → ℕ → K)
    (xs : ℕ → ℕ → ℕ → K) (velocity : ℕ → K) (external boundary : TimeArr K) (dt c : K) (hc : 0 ≤ c)
    (hc1 : c < 1) (steps : ℕ) (hok : TimedOk p xsTotal velocity dt)
    (hcon : ∀ j < steps, Contractive p
      (fun m g => xsTotal m g + timeCoef K second j / (velocity g * dt)) xs c)
    (psi psi' : ℕ → ℕ → ℕ → ℕ → K)
    (h0 : ∀ i < p.cells, ∀ n < p.angles, ∀ g < p.groups, psi 0 i n g = psi' 0 i n g)
    (h : FullyImplicit second p xsTotal xs velocity external boundary dt steps psi)
    (h' : FullyImplicit second p xsTotal xs velocity external boundary dt steps psi') :
    ∀ j ≤ steps, ∀ i < p.cells, ∀ n < p.angles, ∀ g < p.groups, psi j i n g = psi' j i n g := by
  intro j
  induction j using Nat.strong_induction_on with
  | _ j ih =>
    intro hj i hi n hn g hg
    rcases Nat.eq_zero_or_pos j with rfl | hpos
    · exact h0 i hi n hn g hg
    · obtain ⟨j, rfl⟩ : ∃ k, j = k + 1 := ⟨j - 1, by omega⟩
      obtain ⟨e, he, hm⟩ := implicit_solves hok (fun _ _ _ _ => rfl) (h j (by omega))
      obtain ⟨e', he', hm'⟩ := implicit_solves hok (fun _ _ _ _ => rfl) (h' j (by omega))
      have hq := solves_congr (ext' := fullArr p (if second = true ∧ j ≠ 0 then
          qStar2 (entry external j) velocity dt (psi j) (psi (j - 1))
            else qStar1 (entry external j) velocity dt (psi j))) he' (fun i hi n hn g hg => by
        simp only [fullArr, bidx_full _ _ hn, bidx_full _ _ hg]
        by_cases hs : second = true ∧ j ≠ 0
        · simp only [if_pos hs, qStar2]
          rw [ih j (by omega) (by omega) i hi n hn g hg, ih (j - 1) (by omega) (by omega) i hi n hn g hg]
        · simp only [if_neg hs, qStar1]
          rw [ih j (by omega) (by omega) i hi n hn g hg])
      have hu := (C74_unique p _ xs _ _ c hc hc1 (hcon j (by omega)) _ _ _ _ he hq).2 g hg n hn
      rw [hm g hg n hn i hi, hm' g hg n hn i hi, hu i hi.le, hu (i + 1) hi]

/-- C37, monolithic side: a `timed1d` step whose returned scalar flux is the quadrature sum of its angular
flux (which C32/C33 show follows when the inner iteration is solved) is fully implicit. -/
theorem implicit_congr {p : Problem K} {xsTotal : ℕ → ℕ → K} {xs : ℕ → ℕ → ℕ → K} {phi phi' : ℕ → ℕ → K}
    {rate rate' : ℕ → ℕ → ℕ → K} {ext bnd : Arr3 K} {psi : ℕ → ℕ → ℕ → K}
    (h : ImplicitStep p xsTotal xs phi rate ext bnd psi)
    (hphi : ∀ i < p.cells, ∀ g < p.groups, phi' i g = phi i g) (hr : rate' = rate) :
    ImplicitStep p xsTotal xs phi' rate' ext bnd psi := by
  subst hr
  obtain ⟨e, he⟩ := h
  refine ⟨e, fun g hg => ⟨(he g hg).1, fun n hn i hi => ?_, (he g hg).2.2⟩⟩
  rw [(he g hg).2.1 n hn i hi]
  congr 1
  exact sum_congr rfl fun g' hg' => by rw [hphi i hi g' (mem_range.mp hg')]

/-- C37, hybrid side: with equal grids (`coarse` the identity, `factor` one on the groups of the problem),
a hybrid step whose collided iteration is solved is fully implicit. -/
theorem C37_hybrid_fully_implicit (second : Bool) (p : Problem K) (xsTotal : ℕ → ℕ → K)
    (scatter : ℕ → ℕ → ℕ → K) (fission : Fission K) (velocity : ℕ → K)
    (external boundary : TimeArr K) (coarse : ℕ → ℕ) (factor : ℕ → K) (steps : ℕ) (dt : K)
    (init : ℕ → ℕ → ℕ → K) (hok : TimedOk p xsTotal velocity dt) (hG : 0 < p.groups)
    (hid : ∀ g < p.groups, coarse g = g ∧ factor g = 1)
    (hext : Covers external steps) (hbnd : Covers boundary steps) :
    ∃ (out : ℕ → ℕ → ℕ → K) (psi : ℕ → ℕ → ℕ → ℕ → K) (phiC : ℕ → ℕ → ℕ → K) (S : ℕ → Arr3 K),
      hybridRun second p p xsTotal xsTotal (.iso scatter) (.iso scatter) fission fission velocity
        velocity external boundary coarse factor steps dt init = .ok out ∧ psi 0 = init ∧
      (∀ j < steps, ∀ i g, out j i g = quadrature p (psi (j + 1)) i g) ∧
      (∀ j < steps, sourceIteration p (fun m c => xsTotal m c + timeCoef K second j / (velocity c * dt))
          (.iso fun m g g' => scatter m g g' + fissionMatrix fission m g g') (S j)
          ⟨1, 1, fun _ _ _ => 0⟩ (fun _ _ => 0) = .ok (phiC j)) ∧
      ((∀ j < steps, ∃ e, SolvesMultigroup p
          (fun m c => xsTotal m c + timeCoef K second j / (velocity c * dt))
          (fun m g g' => scatter m g g' + fissionMatrix fission m g g') (S j) ⟨1, 1, fun _ _ _ => 0⟩
          (phiC j) e) →
        FullyImplicit second p xsTotal (fun m g g' => scatter m g g' + fissionMatrix fission m g g')
          velocity external boundary dt steps psi) := by
  obtain ⟨out, psi, u, phiC, S, h1, h2, h3⟩ := C36_hybrid_steps second p p xsTotal xsTotal scatter scatter
    fission fission velocity velocity external boundary coarse factor steps dt init hok hG hok.ok hok.velocity
    hext hbnd
  refine ⟨out, psi, phiC, S, h1, h2, fun j hj => (h3 j hj).2.2.2.2, fun j hj => (h3 j hj).2.2.1,
    fun hsol j hj => ?_⟩
  obtain ⟨k1, k2, _, k4, _⟩ := h3 j hj
  obtain ⟨eC, heC⟩ := hsol j hj
  set xs : ℕ → ℕ → ℕ → K := fun m g g' => scatter m g g' + fissionMatrix fission m g g' with hxs
  set q := (if second = true ∧ j ≠ 0 then qStar2 (entry external j) velocity dt (psi j) (psi (j - 1))
    else qStar1 (entry external j) velocity dt (psi j)) with hq
  have toStep : ∀ {ys : ℕ → ℕ → ℕ → K} {phi : ℕ → ℕ → K} {new : ℕ → ℕ → ℕ → K},
      ImplicitStep p xsTotal ys phi (timeRate second j psi new velocity dt) (entry external j)
        (entry boundary j) new →
      StepData p (xsStar xsTotal (timeCoef K second j) velocity dt) ys q (entry boundary j) phi new := by
    rintro ys phi new ⟨e, he⟩
    refine ⟨e, fun g hg => ⟨(he g hg).1, fun n hn i hi => ?_, (he g hg).2.2⟩⟩
    have h1 := (he g hg).2.1 n hn i hi
    have h2 := rate_identity (second := second) (j := j) hok (entry external j) psi (psi (j - 1)) new
      (fun _ => rfl) i hi n hn g hg
    rw [← hq] at h2
    linear_combination h1 + h2
  obtain ⟨e, he⟩ := superposition (toStep k1) (fun i hi n hn g hg => by
    obtain ⟨a, b, c⟩ := k2
    rw [a, b, bidx_full _ _ hg]
    have : bidx 1 n = 0 := by simp [bidx]
    rw [this, c i hi g]
    have hf : (range p.groups).filter (fun g' => coarse g' = g) = {g} := by
      ext x
      simp only [mem_filter, mem_range, mem_singleton]
      constructor
      · rintro ⟨hx, he⟩; rw [(hid x hx).1] at he; exact he
      · rintro rfl; exact ⟨hg, (hid x hg).1⟩
    rw [hf, sum_singleton]) heC
  have hphi : ∀ i < p.cells, ∀ g < p.groups,
      quadrature p (u j) i g + phiC j i (coarse g) * factor g = quadrature p (u j) i g + phiC j i g :=
    fun i _ g hg => by rw [(hid g hg).1, (hid g hg).2, mul_one]
  have hokV := xsStar_ok hok (timeCoef_nonneg (K := K) second j)
  have hsd := toStep (implicit_congr k4 (phi' := fun i g => quadrature p (u j) i g + phiC j i g)
    (fun i hi g hg => (hphi i hi g hg).symm) rfl)
  have hfin := hsd.scalar hokV he
  exact implicit_congr k4 (fun i hi g hg => by rw [hphi i hi g hg]; exact (hfin i hi g hg).symm) rfl

/-- Both `timed1d` drivers at once: the run, its angular fluxes, its inner iterations. -/
theorem timed_run_steps (second : Bool) (p : Problem K) (xsTotal : ℕ → ℕ → K)
    (scatter : ℕ → ℕ → ℕ → K) (fission : Fission K) (velocity : ℕ → K)
    (external boundary : TimeArr K) (steps : ℕ) (dt : K)
    (init : ℕ → ℕ → ℕ → K) (hok : TimedOk p xsTotal velocity dt) (hG : 0 < p.groups)
    (hext : Covers external steps) (hbnd : Covers boundary steps) :
    ∃ (outT : ℕ → ℕ → ℕ → K) (psiT : ℕ → ℕ → ℕ → ℕ → K),
      (if second then bdf2 p xsTotal (.iso scatter) fission velocity external boundary steps dt init
        else backwardEuler p xsTotal (.iso scatter) fission velocity external boundary steps dt init)
        = .ok outT ∧ psiT 0 = init ∧
      (∀ j < steps, ImplicitStep p xsTotal
        (fun m g g' => scatter m g g' + fissionMatrix fission m g g') (outT j)
        (timeRate second j psiT (psiT (j + 1)) velocity dt)
        (entry external j) (entry boundary j) (psiT (j + 1))) ∧
      (∀ j < steps, sourceIteration p (fun m c => xsTotal m c + timeCoef K second j / (velocity c * dt))
          (.iso fun m g g' => scatter m g g' + fissionMatrix fission m g g')
          ⟨p.angles, p.groups, fun i n g => sourceAt (entry external j) i n g
            + (if second = true ∧ j ≠ 0 then 2 * psiT j i n g - 1 / 2 * psiT (j - 1) i n g
              else psiT j i n g) / (velocity g * dt)⟩ (entry boundary j)
          (if j = 0 then quadrature p init else outT (j - 1)) = .ok (outT j)) ∧
      (∀ j < steps, (∃ e, SolvesMultigroup p
            (fun m c => xsTotal m c + timeCoef K second j / (velocity c * dt))
            (fun m g g' => scatter m g g' + fissionMatrix fission m g g')
            ⟨p.angles, p.groups, fun i n g => sourceAt (entry external j) i n g
              + (if second = true ∧ j ≠ 0 then 2 * psiT j i n g - 1 / 2 * psiT (j - 1) i n g
                else psiT j i n g) / (velocity g * dt)⟩ (entry boundary j) (outT j) e) →
        ∀ i < p.cells, ∀ g < p.groups, outT j i g = quadrature p (psiT (j + 1)) i g) := by
  cases second with
  | false =>
    obtain ⟨o, ps, a, b, d, r, f⟩ := C32_backward_euler p xsTotal scatter fission velocity external boundary
      steps dt init hok hG hext hbnd
    refine ⟨o, ps, by simpa using a, b, fun j hj => implicit_congr (d j hj) (fun _ _ _ _ => rfl) ?_,
      fun j hj => by simpa [timeCoef] using r j hj, fun j hj he => f j hj ?_⟩
    · funext i n g; simp [timeRate]
    · simpa [timeCoef] using he
  | true =>
    obtain ⟨o, ps, a, b, d, r, f⟩ := C33_bdf2 p xsTotal scatter fission velocity external boundary
      steps dt init hok hG hext hbnd
    refine ⟨o, ps, by simpa using a, b, fun j hj => implicit_congr (d j hj) (fun _ _ _ _ => rfl) ?_,
      fun j hj => ?_, fun j hj he => f j hj ?_⟩
    · funext i n g
      by_cases hj0 : j = 0
      · subst hj0; simp [timeRate]
      · simp [timeRate, hj0]
    · by_cases hj0 : j = 0
      · subst hj0; simpa [timeCoef] using r 0 hj
      · simpa [timeCoef, hj0] using r j hj
    · by_cases hj0 : j = 0
      · subst hj0; simpa [timeCoef] using he
      · simpa [timeCoef, hj0] using he

/-- C37: on equal grids the hybrid integrators and `timed1d` return the same scalar fluxes in every step,
if every collided and every monolithic source iteration is solved to its fixed point and the problem is
contractive (so that the fixed point is unique).  First and second order. -/
theorem C37_equal_grids (second : Bool) (p : Problem K) (xsTotal : ℕ → ℕ → K)
    (scatter : ℕ → ℕ → ℕ → K) (fission : Fission K) (velocity : ℕ → K)
    (external boundary : TimeArr K) (coarse : ℕ → ℕ) (factor : ℕ → K) (steps : ℕ) (dt c : K) (hc : 0 ≤ c)
    (hc1 : c < 1) (init : ℕ → ℕ → ℕ → K) (hok : TimedOk p xsTotal velocity dt) (hG : 0 < p.groups)
    (hid : ∀ g < p.groups, coarse g = g ∧ factor g = 1)
    (hext : Covers external steps) (hbnd : Covers boundary steps)
    (hcon : ∀ j < steps, Contractive p
      (fun m g => xsTotal m g + timeCoef K second j / (velocity g * dt))
      (fun m g g' => scatter m g g' + fissionMatrix fission m g g') c) :
    ∃ (outH outT : ℕ → ℕ → ℕ → K) (psiT : ℕ → ℕ → ℕ → ℕ → K) (phiC : ℕ → ℕ → ℕ → K) (S : ℕ → Arr3 K),
      hybridRun second p p xsTotal xsTotal (.iso scatter) (.iso scatter) fission fission velocity
        velocity external boundary coarse factor steps dt init = .ok outH ∧
      (if second then bdf2 p xsTotal (.iso scatter) fission velocity external boundary steps dt init
        else backwardEuler p xsTotal (.iso scatter) fission velocity external boundary steps dt init)
        = .ok outT ∧ psiT 0 = init ∧
      (∀ j < steps, sourceIteration p (fun m c => xsTotal m c + timeCoef K second j / (velocity c * dt))
          (.iso fun m g g' => scatter m g g' + fissionMatrix fission m g g') (S j)
          ⟨1, 1, fun _ _ _ => 0⟩ (fun _ _ => 0) = .ok (phiC j)) ∧
      (∀ j < steps, sourceIteration p (fun m c => xsTotal m c + timeCoef K second j / (velocity c * dt))
          (.iso fun m g g' => scatter m g g' + fissionMatrix fission m g g')
          ⟨p.angles, p.groups, fun i n g => sourceAt (entry external j) i n g
            + (if second = true ∧ j ≠ 0 then 2 * psiT j i n g - 1 / 2 * psiT (j - 1) i n g
              else psiT j i n g) / (velocity g * dt)⟩ (entry boundary j)
          (if j = 0 then quadrature p init else outT (j - 1)) = .ok (outT j)) ∧
      ((∀ j < steps,
          (∃ e, SolvesMultigroup p
            (fun m c => xsTotal m c + timeCoef K second j / (velocity c * dt))
            (fun m g g' => scatter m g g' + fissionMatrix fission m g g') (S j) ⟨1, 1, fun _ _ _ => 0⟩
            (phiC j) e) ∧
          (∃ e, SolvesMultigroup p
            (fun m c => xsTotal m c + timeCoef K second j / (velocity c * dt))
            (fun m g g' => scatter m g g' + fissionMatrix fission m g g')
            ⟨p.angles, p.groups, fun i n g => sourceAt (entry external j) i n g
              + (if second = true ∧ j ≠ 0 then 2 * psiT j i n g - 1 / 2 * psiT (j - 1) i n g
                else psiT j i n g) / (velocity g * dt)⟩ (entry boundary j) (outT j) e)) →
        ∀ j < steps, ∀ i < p.cells, ∀ g < p.groups, outH j i g = outT j i g) := by
  obtain ⟨outH, psiH, phiC, S, h1, h2, h3, h4, h5⟩ := C37_hybrid_fully_implicit second p xsTotal scatter fission
    velocity external boundary coarse factor steps dt init hok hG hid hext hbnd
  have hT := timed_run_steps second p xsTotal scatter fission velocity external boundary steps dt init hok hG hext hbnd
  obtain ⟨outT, psiT, t1, t2, t3, t5, t4⟩ := hT
  refine ⟨outH, outT, psiT, phiC, S, h1, t1, t2, h4, t5, fun hsol j hj i hi g hg => ?_⟩
  have hFH := h5 fun j hj => (hsol j hj).1
  have hFT : FullyImplicit second p xsTotal (fun m g g' => scatter m g g' + fissionMatrix fission m g g')
      velocity external boundary dt steps psiT := fun j hj =>
    implicit_congr (t3 j hj) (fun i hi g hg => (t4 j hj (hsol j hj).2 i hi g hg).symm) rfl
  have hu := C37_fully_implicit_unique second p xsTotal _ velocity external boundary dt c hc hc1 steps hok hcon
    psiH psiT (fun i _ n _ g _ => by rw [h2, t2]) hFH hFT (j + 1) (by omega) i hi
  rw [h3 j hj i g, t4 j hj (hsol j hj).2 i hi g hg]
  unfold quadrature
  exact sum_congr rfl fun n hn => by rw [hu n (mem_range.mp hn) g hg]

/-! ## Non-vacuity: problems without self- and up-scatter are solved exactly -/

/-- Problems without self- and up-scatter are solved exactly (only the groups of the problem matter). -/
theorem downscatter_exact (p : Problem K) (xsTotal : ℕ → ℕ → K) (xs : ℕ → ℕ → ℕ → K)
    (external boundary : Arr3 K) (guess : ℕ → ℕ → K) (hok : ∀ g < p.groups, SlabOk p xsTotal g)
    (hdown : ∀ m g g', g ≤ g' → g' < p.groups → xs m g g' = 0) :
    ∃ phi psi, sourceIteration p xsTotal (.iso xs) external boundary guess = .ok phi ∧
      SolvesMultigroup p xsTotal xs external boundary phi psi := by
  obtain ⟨x, k, hk, _, _, hstep, h, _⟩ := C21_source_iteration_stops p xsTotal xs external boundary guess hok
  obtain ⟨new, h1, h2, _⟩ := oneSweepIso_spec p xsTotal xs external boundary (x (k - 1)) hok
  have hnew : new = x k := by
    have := hstep (k - 1) (by omega)
    rw [h1, show k - 1 + 1 = k by omega] at this
    exact Except.ok.inj this
  subst hnew
  choose! prev psi s h2 using h2
  refine ⟨x k, psi, h, fun g hg => (h2 g hg).2.2.1, fun g hg n hn i hi => ?_, fun g hg => (h2 g hg).2.2.2.2.1⟩
  rw [(h2 g hg).2.2.2.1 n hn i hi]
  simp only
  rw [hdown _ g g le_rfl hg, ← add_sum_erase _ _ (mem_range.mpr hg), hdown _ g g le_rfl hg, zero_mul, zero_mul,
    zero_add, zero_add, add_comm]
  congr 1
  refine sum_congr rfl fun og hog => ?_
  by_cases hlt : og < g
  · rw [if_pos hlt]
  · rw [hdown _ g og (by omega) (mem_range.mp (mem_of_mem_erase hog)), zero_mul, zero_mul]

/-- C22: if no group scatters into itself or into a lower-numbered group, source iteration returns the
exact solution of the multigroup equations, whatever the guess and the tolerances. -/
theorem C22_downscatter_exact (p : Problem K) (xsTotal : ℕ → ℕ → K) (xs : ℕ → ℕ → ℕ → K)
    (external boundary : Arr3 K) (guess : ℕ → ℕ → K) (hok : ∀ g < p.groups, SlabOk p xsTotal g)
    (hdown : ∀ m g g', g ≤ g' → xs m g g' = 0) :
    ∃ phi psi, sourceIteration p xsTotal (.iso xs) external boundary guess = .ok phi ∧
      SolvesMultigroup p xsTotal xs external boundary phi psi :=
  downscatter_exact p xsTotal xs external boundary guess hok fun m g g' h _ => hdown m g g' h

/-- C37 without any hypothesis on the inner iterations: for down-scatter problems the hybrid integrators on
equal grids return exactly what `timed1d` returns. -/
theorem C37_equal_grids_downscatter (second : Bool) (p : Problem K) (xsTotal : ℕ → ℕ → K)
    (scatter : ℕ → ℕ → ℕ → K) (fission : Fission K) (velocity : ℕ → K)
    (external boundary : TimeArr K) (coarse : ℕ → ℕ) (factor : ℕ → K) (steps : ℕ) (dt c : K) (hc : 0 ≤ c)
    (hc1 : c < 1) (init : ℕ → ℕ → ℕ → K) (hok : TimedOk p xsTotal velocity dt) (hG : 0 < p.groups)
    (hid : ∀ g < p.groups, coarse g = g ∧ factor g = 1)
    (hext : Covers external steps) (hbnd : Covers boundary steps)
    (hcon : ∀ j < steps, Contractive p
      (fun m g => xsTotal m g + timeCoef K second j / (velocity g * dt))
      (fun m g g' => scatter m g g' + fissionMatrix fission m g g') c)
    (hdown : ∀ m g g', g ≤ g' → scatter m g g' + fissionMatrix fission m g g' = 0) :
    ∃ outH outT : ℕ → ℕ → ℕ → K,
      hybridRun second p p xsTotal xsTotal (.iso scatter) (.iso scatter) fission fission velocity
        velocity external boundary coarse factor steps dt init = .ok outH ∧
      (if second then bdf2 p xsTotal (.iso scatter) fission velocity external boundary steps dt init
        else backwardEuler p xsTotal (.iso scatter) fission velocity external boundary steps dt init)
        = .ok outT ∧
      ∀ j < steps, ∀ i < p.cells, ∀ g < p.groups, outH j i g = outT j i g := by
  obtain ⟨outH, outT, psiT, phiC, S, h1, h2, _, h4, h5, h6⟩ := C37_equal_grids second p xsTotal scatter fission
    velocity external boundary coarse factor steps dt c hc hc1 init hok hG hid hext hbnd hcon
  refine ⟨outH, outT, h1, h2, h6 fun j hj => ?_⟩
  have hokV : ∀ g < p.groups, SlabOk p
      (fun m c => xsTotal m c + timeCoef K second j / (velocity c * dt)) g :=
    xsStar_ok hok (timeCoef_nonneg (K := K) second j)
  constructor
  · obtain ⟨phi, e, k1, k2⟩ := C22_downscatter_exact p _ _ (S j) ⟨1, 1, fun _ _ _ => 0⟩ (fun _ _ => 0) hokV hdown
    rw [h4 j hj] at k1
    rw [Except.ok.inj k1]
    exact ⟨e, k2⟩
  · obtain ⟨phi, e, k1, k2⟩ := C22_downscatter_exact p _ _
      ⟨p.angles, p.groups, fun i n g => sourceAt (entry external j) i n g
            + (if second = true ∧ j ≠ 0 then 2 * psiT j i n g - 1 / 2 * psiT (j - 1) i n g
              else psiT j i n g) / (velocity g * dt)⟩ (entry boundary j)
          (if j = 0 then quadrature p init else outT (j - 1)) hokV hdown
    rw [h5 j hj] at k1
    rw [Except.ok.inj k1]
    exact ⟨e, k2⟩

/-! Examples -/

/-- The collided problem: one group, two ordinates, on the same mesh. -/
def exCoarse : Problem ℚ := { exProblem with groups := 1, angles := 2, angleX := fun n => if n = 0 then -1/2 else 1/2,
                                             angleW := fun _ => 1 / 2 }

theorem exCoarseOk (xsTotal : ℕ → ℕ → ℚ) (c : ℕ) (h : ∀ m, 0 ≤ xsTotal m c) : SlabOk exCoarse xsTotal c where
  slab := rfl
  nonzero := by
    intro n _
    show (if n = 0 then (-1/2 : ℚ) else 1/2) ≠ 0
    split <;> norm_num
  phys := fun i hi => ⟨((exOk 0).phys i hi).1, h _⟩

example (second : Bool) := C36_hybrid_steps second exProblem exCoarse exTotal (fun _ _ => 2)
  (fun m g g' => (m + g + g' : ℕ) / 10) (fun _ _ _ => 1 / 5)
  (.vector (fun _ g => if g = 0 then 1 else 0) (fun m g => (m + g : ℕ)))
  (.matrix fun _ _ _ => 1) (fun g => (g : ℚ) + 1) (fun _ => 3 / 2) exExternal exBoundary (fun _ => 0)
  (fun _ => 1 / 2) 3 (1 / 10) (fun i n g => (i + n + g : ℕ)) exTimed (by show 0 < 2; omega)
  (fun c _ => exCoarseOk _ c fun _ => by norm_num) (fun _ _ => by norm_num) (Or.inr (le_refl _)) (Or.inl rfl)

/-- Two fine groups `(0, 1), (1, 3)` collapsed into one. -/
def exGrid : Collided ℚ := ⟨exCoarse, fun _ => 0, fun g => if g = 0 then 1 / 3 else 2 / 3, fun c => 2 * c,
  fun g => if g = 0 then 0 else if g = 1 then 1 else 3⟩

example (second : Bool) := C36_vhybrid_steps second exProblem (fun _ => exGrid) exTotal
  (fun m g g' => (m + g + g' : ℕ) / 10) (fun _ g _ => if g = 0 then 1 else 0)
  (fun g => (g : ℚ) + 1) exExternal exBoundary 3 (1 / 10) (fun i n g => (i + n + g : ℕ)) exTimed
  (by show 0 < 2; omega)
  (fun j _ c hc => exCoarseOk _ c fun m => by
    have hc : c < 1 := hc
    obtain rfl : c = 0 := by omega
    show (0 : ℚ) ≤ (∑ g ∈ Ico 0 2, exTotal m g * Hybrid.diff exGrid.edges g) / _
    simp only [sum_Ico_eq_sum_range, sum_range_succ, sum_range_zero, Hybrid.diff, Hybrid.diffIdx, exGrid, exTotal]
    norm_num
    positivity)
  (fun j _ c hc => by
    have hc : c < 1 := hc
    obtain rfl : c = 0 := by omega
    show (0 : ℚ) < (∑ g ∈ Ico (0 : ℕ) 2, ((g : ℚ) + 1)) / _
    simp [sum_Ico_eq_sum_range, sum_range_succ, exGrid]
    norm_num) (Or.inr (le_refl _)) (Or.inl rfl)

theorem exTimedFast : TimedOk exFine exTotal (fun g => 1000 * ((g : ℚ) + 1)) (1 / 10) :=
  ⟨fun g _ => exFineOk g, by show 1 < 4; omega, fun g _ => by positivity, by norm_num⟩

/-- Down-scatter from group 0 to group 1 only, on the fine mesh, in time: C37 applies. -/
theorem exDownscatter (second : Bool) (j : ℕ) : Contractive exFine
    (fun m g => exTotal m g + timeCoef ℚ second j / ((1000 * ((g : ℚ) + 1)) * (1 / 10)))
    (fun m g g' => (fun _ g g' => if g' < g then (1 / 4 : ℚ) else 0) m g g'
      + fissionMatrix (.vector (fun _ g => if g = 1 then 1 else 0) (fun _ g => if g = 0 then 1 / 4 else 0)) m g g')
    (1 / 2) := by
  have hcoef : timeCoef ℚ second j ≤ 3 / 2 := by unfold timeCoef; split <;> norm_num
  have hcoef0 : 0 ≤ timeCoef ℚ second j := timeCoef_nonneg second j
  have hterm : ∀ g : ℕ, 0 ≤ timeCoef ℚ second j / ((1000 * ((g : ℚ) + 1)) * (1 / 10)) ∧
      timeCoef ℚ second j / ((1000 * ((g : ℚ) + 1)) * (1 / 10)) ≤ 1 := by
    intro g
    refine ⟨by positivity, ?_⟩
    rw [div_le_one (by positivity)]
    have : (0 : ℚ) ≤ (g : ℚ) := by positivity
    nlinarith
  refine ⟨xsStar_ok exTimedFast hcoef0, fun g hg n hn i hi => ?_, fun n _ => ?_, ?_, ?_, ?_⟩
  · have h1 := exFine_mu n hn
    have hb : ∀ i, exTotal (exFine.mm i) g ≤ 3 := by
      intro i
      have hm : exFine.mm i ≤ 1 := by
        show (if i = 1 then 1 else 0) ≤ 1
        split <;> omega
      have hm' : ((exFine.mm i : ℕ) : ℚ) ≤ 1 := by exact_mod_cast hm
      have hg' : ((g : ℕ) : ℚ) ≤ 1 := by
        have : g < 2 := hg
        exact_mod_cast (by omega : g ≤ 1)
      unfold exTotal
      linarith
    have := hb i
    have := (hterm g).2
    show (_ + _) * (1 / 16 : ℚ) ≤ _
    linarith
  · show (0 : ℚ) ≤ 1 / 4; norm_num
  · show ∑ n ∈ range 4, (1 / 4 : ℚ) = 1; norm_num
  · intro i _ g _ g' _
    simp only [fissionMatrix]
    split_ifs <;> norm_num
  · intro i _ g hg
    have hg : g < 2 := hg
    have h1 : (1 : ℚ) ≤ exTotal (exFine.mm i) g := by
      unfold exTotal
      have : (0 : ℚ) ≤ (exFine.mm i : ℚ) := by positivity
      have : (0 : ℚ) ≤ (g : ℚ) := by positivity
      linarith
    have h2 := (hterm g).1
    show ∑ g' ∈ range 2, _ ≤ _
    rw [sum_range_succ, sum_range_one]
    simp only [fissionMatrix]
    split_ifs <;> first | contradiction | omega | (norm_num; linarith)

example (second : Bool) := C37_equal_grids_downscatter second exFine exTotal
  (fun _ g g' => if g' < g then (1 / 4 : ℚ) else 0)
  (.vector (fun _ g => if g = 1 then 1 else 0) (fun _ g => if g = 0 then 1 / 4 else 0)) _
  exExternal exBoundary id (fun _ => 1) 3 _ (1 / 2) (by norm_num) (by norm_num)
  (fun i n g => (i + n + g : ℕ)) exTimedFast (by show 0 < 2; omega) (fun _ _ => ⟨rfl, rfl⟩)
  (Or.inr (le_refl _)) (Or.inl rfl) (fun j _ => exDownscatter second j)
  (fun m g g' h => by
    simp only [fissionMatrix, if_neg (show ¬ g' < g by omega)]
    by_cases h1 : g = 1
    · subst h1; simp [show g' ≠ 0 by omega]
    · simp [h1])

example := C40_variable_source_iteration exCoarse exTotal (fun _ => 1 / 10) (fun m g g' => (m + g + g' : ℕ) / 10)
  _ ⟨1, 1, fun i _ _ => i⟩ ⟨1, 1, fun _ _ _ => 0⟩
  (fun g => if g = 0 then 0 else if g = 1 then 1 else 3) (fun c => if c = 0 then 0 else 2) (fun _ _ => 0) rfl

end Discrete1.Props
