import Verif.Props.EnergyTime
import Verif.Props.HybridTime
import Mathlib.Algebra.Order.Chebyshev
import Mathlib.Analysis.SpecialFunctions.Exp

/-!
# C173, C174: accuracy of the hybrid time integrators on coarse collided grids

C173: `hybrid1d.backward_euler` and `hybrid1d.bdf2` converge with the first power of the time step to the solution
of the fine-group transport equation, for every coarse energy grid and every coarse quadrature, on every mesh.
C174: on a coarse grid `hybrid1d.bdf2` is not second order.
-/

set_option linter.unusedSectionVars false
set_option linter.unusedSimpArgs false

namespace Discrete1.Props

open Finset Discrete1.Spec Discrete1.Slab Discrete1.Tools Discrete1.MultiGroup Discrete1.Drivers

variable {K : Type} [Field K] [LinearOrder K] [IsStrictOrderedRing K]

/-! ## Mean squares of one group -/

/-- `∫ f_g^2`: sum over the cells with their widths. -/
def groupSquare (p : Problem K) (f : ℕ → ℕ → K) (g : ℕ) : K := ∑ i ∈ range p.cells, p.dx i * f i g ^ 2

theorem groupSquare_nonneg {p : Problem K} (hdx : ∀ i < p.cells, 0 ≤ p.dx i) (f : ℕ → ℕ → K) (g : ℕ) :
    0 ≤ groupSquare p f g :=
  sum_nonneg fun i hi => mul_nonneg (hdx i (mem_range.mp hi)) (sq_nonneg _)

theorem scalarSquare_eq (p : Problem K) (velocity : ℕ → K) (f : ℕ → ℕ → K) :
    scalarSquare p velocity f = ∑ g ∈ range p.groups, 1 / velocity g * groupSquare p f g := rfl

theorem scalarSquare_nonneg {p : Problem K} {velocity : ℕ → K} (hw : Weighted p velocity) (f : ℕ → ℕ → K) :
    0 ≤ scalarSquare p velocity f := by
  rw [scalarSquare_eq]
  exact sum_nonneg fun g hg => mul_nonneg (one_div_pos.mpr (hw.velocity g (mem_range.mp hg))).le
    (groupSquare_nonneg (fun i hi => (hw.widths i hi).le) f g)

/-- A field that does not depend on direction. -/
theorem vdot_isotropic {p : Problem K} {velocity : ℕ → K} (hsum : ∑ n ∈ range p.angles, p.angleW n = 1)
    (f : ℕ → ℕ → K) : vdot p velocity (fun i _ g => f i g) (fun i _ g => f i g) = scalarSquare p velocity f := by
  unfold vdot scalarSquare
  refine sum_congr rfl fun g _ => congrArg _ ?_
  rw [← sum_mul, hsum, one_mul]
  exact sum_congr rfl fun i _ => by ring

theorem total_square_le {p : Problem K} {velocity : ℕ → K} (hw : Weighted p velocity) {V : K}
    (hV : ∀ g < p.groups, velocity g ≤ V) (f : ℕ → ℕ → K) :
    ∑ g ∈ range p.groups, groupSquare p f g ≤ V * scalarSquare p velocity f := by
  rw [scalarSquare_eq, mul_sum]
  refine sum_le_sum fun g hg => ?_
  have hg := mem_range.mp hg
  have h0 := groupSquare_nonneg (fun i hi => (hw.widths i hi).le) f g
  have hv := hw.velocity g hg
  calc groupSquare p f g = velocity g * (1 / velocity g * groupSquare p f g) := by field_simp
    _ ≤ V * (1 / velocity g * groupSquare p f g) :=
      mul_le_mul_of_nonneg_right (hV g hg) (mul_nonneg (one_div_pos.mpr hv).le h0)

/-- The scattering source of one group in one cell. -/
theorem scatter_sq_le {p : Problem K} {xs : ℕ → ℕ → ℕ → K} {X : K}
    (hX : ∀ i < p.cells, ∀ g < p.groups, ∀ g' < p.groups, |xs (p.mm i) g g'| ≤ X) (f : ℕ → ℕ → K) {i : ℕ}
    (hi : i < p.cells) {g : ℕ} (hg : g < p.groups) :
    (∑ g' ∈ range p.groups, xs (p.mm i) g g' * f i g') ^ 2
      ≤ X ^ 2 * ((p.groups : K) * ∑ g' ∈ range p.groups, f i g' ^ 2) := by
  have h1 := sq_sum_le_card_mul_sum_sq (s := range p.groups) (f := fun g' => xs (p.mm i) g g' * f i g')
  rw [card_range] at h1
  refine h1.trans ?_
  rw [mul_left_comm, mul_sum (s := range p.groups) (a := X ^ 2)]
  refine mul_le_mul_of_nonneg_left (sum_le_sum fun g' hg' => ?_) (Nat.cast_nonneg _)
  rw [mul_pow]
  refine mul_le_mul_of_nonneg_right ?_ (sq_nonneg _)
  rw [← sq_abs]
  exact pow_le_pow_left₀ (abs_nonneg _) (hX i hi g hg g' (mem_range.mp hg')) 2

theorem scatter_group_le {p : Problem K} {velocity : ℕ → K} (hw : Weighted p velocity) {xs : ℕ → ℕ → ℕ → K} {X V : K}
    (hX : ∀ i < p.cells, ∀ g < p.groups, ∀ g' < p.groups, |xs (p.mm i) g g'| ≤ X)
    (hV : ∀ g < p.groups, velocity g ≤ V) (f : ℕ → ℕ → K) {g : ℕ} (hg : g < p.groups) :
    groupSquare p (fun i g => ∑ g' ∈ range p.groups, xs (p.mm i) g g' * f i g') g
      ≤ X ^ 2 * ((p.groups : K) * (V * scalarSquare p velocity f)) := by
  have h2 : ∑ i ∈ range p.cells, p.dx i * (X ^ 2 * ((p.groups : K) * ∑ g' ∈ range p.groups, f i g' ^ 2))
      = X ^ 2 * ((p.groups : K) * ∑ g ∈ range p.groups, groupSquare p f g) := by
    unfold groupSquare
    rw [sum_comm, mul_sum, mul_sum]
    refine sum_congr rfl fun i _ => ?_
    rw [← mul_sum]
    ring
  refine (sum_le_sum fun i hi => mul_le_mul_of_nonneg_left (scatter_sq_le hX f (mem_range.mp hi) hg)
    (hw.widths i (mem_range.mp hi)).le).trans (h2.trans_le ?_)
  exact mul_le_mul_of_nonneg_left (mul_le_mul_of_nonneg_left (total_square_le hw hV f) (Nat.cast_nonneg _))
    (sq_nonneg _)

/-- Scattering and fission, as a rate of change of the angular flux. -/
theorem scatter_square {p : Problem K} {velocity : ℕ → K} (hw : Weighted p velocity)
    (hsum : ∑ n ∈ range p.angles, p.angleW n = 1) {xs : ℕ → ℕ → ℕ → K} {X V : K}
    (hX : ∀ i < p.cells, ∀ g < p.groups, ∀ g' < p.groups, |xs (p.mm i) g g'| ≤ X)
    (hV : ∀ g < p.groups, velocity g ≤ V) (f : ℕ → ℕ → K) :
    vdot p velocity (fun i _ g => velocity g * ∑ g' ∈ range p.groups, xs (p.mm i) g g' * f i g')
        (fun i _ g => velocity g * ∑ g' ∈ range p.groups, xs (p.mm i) g g' * f i g')
      ≤ (X * (p.groups : K) * V) ^ 2 * scalarSquare p velocity f := by
  rw [vdot_isotropic hsum (fun i g => velocity g * ∑ g' ∈ range p.groups, xs (p.mm i) g g' * f i g'), scalarSquare_eq]
  have hN := scalarSquare_nonneg hw f
  calc _ ≤ ∑ g ∈ range p.groups, V * (X ^ 2 * ((p.groups : K) * (V * scalarSquare p velocity f))) := by
        refine sum_le_sum fun g hg => ?_
        have hg := mem_range.mp hg
        have hv := hw.velocity g hg
        have e : 1 / velocity g * groupSquare p (fun i g => velocity g * ∑ g' ∈ range p.groups,
              xs (p.mm i) g g' * f i g') g
            = velocity g * groupSquare p (fun i g => ∑ g' ∈ range p.groups, xs (p.mm i) g g' * f i g') g := by
          unfold groupSquare
          rw [mul_sum, mul_sum]
          exact sum_congr rfl fun i _ => by field_simp
        rw [e]
        exact mul_le_mul (hV g hg) (scatter_group_le hw hX hV f hg)
          (groupSquare_nonneg (fun i hi => (hw.widths i hi).le) _ _) (hv.le.trans (hV g hg))
    _ = _ := by
        rw [sum_const, card_range, nsmul_eq_mul]
        ring

/-! ## The collided solve -/

/-- What the collided (coarse) problem needs: physical data, normalised non-negative quadrature, mirror directions of
equal weight at reflecting boundaries, and a time step below the scattering time. -/
structure CoarseBounds (pC : Problem K) (sigmaC : ℕ → ℕ → K) (xsC : ℕ → ℕ → ℕ → K) (velocityC : ℕ → K)
    (XC VC dt : K) : Prop where
  ok : ∀ c < pC.groups, SlabOk pC sigmaC c
  weights : ∀ n < pC.angles, 0 ≤ pC.angleW n
  norm : ∑ n ∈ range pC.angles, pC.angleW n = 1
  even : EvenReflection pC.angles pC.angleX pC.angleW pC.bcL pC.bcR
  velocity : ∀ c < pC.groups, 0 < velocityC c
  fastest : ∀ c < pC.groups, velocityC c ≤ VC
  transfer : ∀ i < pC.cells, ∀ c < pC.groups, ∀ c' < pC.groups, |xsC (pC.mm i) c c'| ≤ XC
  transferNonneg : 0 ≤ XC
  speed : 0 < VC
  step : 0 < dt
  small : dt * (VC * XC * (pC.groups : K)) ≤ 1 / 2

theorem CoarseBounds.star {pC : Problem K} {sigmaC : ℕ → ℕ → K} {xsC : ℕ → ℕ → ℕ → K} {velocityC : ℕ → K}
    {XC VC dt : K} (h : CoarseBounds pC sigmaC xsC velocityC XC VC dt) {kappa : K} (hk : 1 ≤ kappa) {i c : ℕ}
    (hi : i < pC.cells) (hc : c < pC.groups) :
    1 ≤ VC * dt * (sigmaC (pC.mm i) c + kappa / (velocityC c * dt)) := by
  have hv := h.velocity c hc
  have hd := h.step
  have h1 : 1 / (VC * dt) ≤ kappa / (velocityC c * dt) :=
    div_le_div₀ (by linarith) hk (mul_pos hv hd) (mul_le_mul_of_nonneg_right (h.fastest c hc) hd.le)
  have h2 : 1 / (VC * dt) ≤ sigmaC (pC.mm i) c + kappa / (velocityC c * dt) :=
    h1.trans (le_add_of_nonneg_left ((h.ok c hc).phys i hi).2)
  have h3 := mul_le_mul_of_nonneg_left h2 (mul_pos h.speed hd).le
  rwa [mul_one_div_cancel (mul_pos h.speed hd).ne'] at h3

theorem CoarseBounds.damped {pC : Problem K} {sigmaC : ℕ → ℕ → K} {xsC : ℕ → ℕ → ℕ → K} {velocityC : ℕ → K}
    {XC VC dt : K} (h : CoarseBounds pC sigmaC xsC velocityC XC VC dt) {kappa : K} (hk : 1 ≤ kappa) :
    Damped pC (fun m c => sigmaC m c + kappa / (velocityC c * dt)) xsC (fun _ _ => dt * (VC * XC)) (1 / 2) where
  ok := fun c hc => ⟨(h.ok c hc).slab, (h.ok c hc).nonzero, fun i hi => ⟨((h.ok c hc).phys i hi).1,
    add_nonneg ((h.ok c hc).phys i hi).2
      (div_nonneg (by linarith) (mul_pos (h.velocity c hc) h.step).le)⟩⟩
  weights := h.weights
  norm := h.norm
  even := h.even
  ratio := fun _ _ _ _ => mul_nonneg h.step.le (mul_nonneg h.speed.le h.transferNonneg)
  coupling := fun i hi c hc c' hc' => by
    have h1 := h.star hk hi hc
    have h2 := h.star hk hi hc'
    have h3 : xsC (pC.mm i) c c' ^ 2 ≤ XC ^ 2 := by
      rw [← sq_abs]
      exact pow_le_pow_left₀ (abs_nonneg _) (h.transfer i hi c hc c' hc') 2
    have h4 := mul_le_mul h1 h2 zero_le_one (by linarith)
    have h5 := mul_le_mul_of_nonneg_left h4 (sq_nonneg XC)
    calc _ ≤ XC ^ 2 * (1 * 1) := by linarith
      _ ≤ _ := h5
      _ = _ := by ring
  rows := fun c _ => by
    rw [sum_const, card_range, nsmul_eq_mul]
    calc _ = dt * (VC * XC * (pC.groups : K)) := by ring
      _ ≤ _ := h.small

theorem young {s f q : K} (hs : 0 < s) : q * f ≤ s * f ^ 2 / 8 + 2 * (q ^ 2 / s) := by
  have h : 0 ≤ (s * f - 4 * q) ^ 2 / (8 * s) := by positivity
  have e : (s * f - 4 * q) ^ 2 / (8 * s) = s * f ^ 2 / 8 + 2 * (q ^ 2 / s) - q * f := by field_simp; ring
  linarith

/-- The collided flux computed by source iteration (from the guess zero, however many sweeps it takes, converged or
not) is of the order of the time step times its source. -/
theorem coarse_bound {pC : Problem K} {sigmaC : ℕ → ℕ → K} {xsC : ℕ → ℕ → ℕ → K} {velocityC : ℕ → K}
    {XC VC dt : K} (h : CoarseBounds pC sigmaC xsC velocityC XC VC dt) {kappa : K} (hk : 1 ≤ kappa) {S : Arr3 K}
    {phiC : ℕ → ℕ → K}
    (hrun : sourceIteration pC (fun m c => sigmaC m c + kappa / (velocityC c * dt)) (.iso xsC) S zeroBoundary
      (fun _ _ => 0) = .ok phiC)
    (hiso : S.angles = 1) (hgr : S.groups = pC.groups) {B : K} (hB : 0 ≤ B)
    (hS : ∀ c < pC.groups, groupSquare pC (fun i c => S.val i 0 c) c ≤ B) :
    ∀ c < pC.groups, groupSquare pC phiC c ≤ 32 * (VC * dt) ^ 2 * B := by
  obtain ⟨sg, hsg⟩ : ∃ sg : ℕ → ℕ → K, sg = fun m c => sigmaC m c + kappa / (velocityC c * dt) := ⟨_, rfl⟩
  have hd := h.damped hk
  rw [← hsg] at hrun hd
  have hstar : ∀ i < pC.cells, ∀ c < pC.groups, 1 ≤ VC * dt * sg (pC.mm i) c := fun i hi c hc => by
    rw [hsg]; exact h.star hk hi hc
  have hVd : 0 < VC * dt := mul_pos h.speed h.step
  have hpos : ∀ i < pC.cells, ∀ c < pC.groups, 0 < sg (pC.mm i) c := fun i hi c hc => by
    by_contra hneg
    push Not at hneg
    have := mul_nonpos_of_nonneg_of_nonpos hVd.le hneg
    linarith [hstar i hi c hc]
  obtain ⟨phi, e, hsol, _, hconv⟩ := C146_source_iteration_finds_solution pC sg xsC S zeroBoundary
    (fun _ _ => dt * (VC * XC)) (1 / 2) (by norm_num) (by norm_num) hd
  intro c hc
  -- the exact collided flux
  have hphi : ∀ c < pC.groups, scalarEnergy pC (fun i => sg (pC.mm i) c) (fun i => phi i c) ≤ 8 * (VC * dt * B) := by
    obtain ⟨m, hm, hmax⟩ := (range pC.groups).exists_max_image
      (fun c => scalarEnergy pC (fun i => sg (pC.mm i) c) (fun i => phi i c)) ⟨c, mem_range.mpr hc⟩
    have hm := mem_range.mp hm
    obtain ⟨M, hM⟩ : ∃ M, M = scalarEnergy pC (fun i => sg (pC.mm i) m) (fun i => phi i m) := ⟨_, rfl⟩
    have hM0 : 0 ≤ M := hM ▸ scalarEnergy_nonneg (hd.ok m hm).phys _
    suffices hle : M ≤ 8 * (VC * dt * B) from fun c hc => (hmax c (mem_range.mpr hc)).trans (hM ▸ hle)
    have h1 := swept_energy hd.weights hd.even (hd.ok m hm).nonzero (hd.ok m hm).phys (hsol.balance m hm)
      (hsol.inflow m hm) (fun n _ _ _ => by simp [zeroBoundary])
    have h2 := scalar_energy_le (e := e m) hd.weights hd.norm (hd.ok m hm).phys
    have h3 : ∑ n ∈ range pC.angles, pC.angleW n * (|pC.angleX n| / 2 * (if 0 < pC.angleX n then
        (zeroBoundary : Arr3 K).val 0 (bidx (zeroBoundary : Arr3 K).angles n) (bidx (zeroBoundary : Arr3 K).groups m)
        else (zeroBoundary : Arr3 K).val 1 (bidx (zeroBoundary : Arr3 K).angles n)
          (bidx (zeroBoundary : Arr3 K).groups m)) ^ 2) = 0 :=
      sum_eq_zero fun n _ => by simp [zeroBoundary]
    rw [h3, add_zero] at h1
    have hval : ∀ i n, S.val i (bidx S.angles n) (bidx S.groups m) = S.val i 0 m := by
      intro i n
      rw [hiso, hgr, bidx_full _ _ hm]
      congr 1
    have h4 : ∑ n ∈ range pC.angles, pC.angleW n * ∑ i ∈ range pC.cells, pC.dx i *
          ((∑ og ∈ range pC.groups, xsC (pC.mm i) m og * phi i og
            + S.val i (bidx S.angles n) (bidx S.groups m)) * ((e m n i + e m n (i + 1)) / 2))
        = ∑ i ∈ range pC.cells, pC.dx i * ((∑ og ∈ range pC.groups, xsC (pC.mm i) m og * phi i og) * phi i m)
          + ∑ i ∈ range pC.cells, pC.dx i * (S.val i 0 m * phi i m) := by
      simp only [hval]
      rw [isotropic_work (s := fun i => ∑ og ∈ range pC.groups, xsC (pC.mm i) m og * phi i og + S.val i 0 m),
        ← sum_add_distrib]
      refine sum_congr rfl fun i hi => ?_
      rw [hsol.scalar m hm i (mem_range.mp hi)]
      ring
    have h5 := work_le (by norm_num) hM0 hd hm phi (fun i => phi i m)
      (fun c' hc' => (hmax c' (mem_range.mpr hc')).trans hM.ge)
    rw [← hM] at h5
    have h6 : ∑ i ∈ range pC.cells, pC.dx i * (S.val i 0 m * phi i m) ≤ M / 8 + 2 * (VC * dt * B) := by
      have h7 : ∑ i ∈ range pC.cells, pC.dx i * (S.val i 0 m * phi i m)
          ≤ ∑ i ∈ range pC.cells, pC.dx i * (sg (pC.mm i) m * phi i m ^ 2) / 8
            + ∑ i ∈ range pC.cells, 2 * (VC * dt) * (pC.dx i * S.val i 0 m ^ 2) := by
        rw [← sum_add_distrib]
        refine sum_le_sum fun i hi => ?_
        have hi := mem_range.mp hi
        have hs := hpos i hi m hm
        have hdx := ((hd.ok m hm).phys i hi).1
        have hy := mul_le_mul_of_nonneg_left (young (f := phi i m) (q := S.val i 0 m) hs) hdx.le
        have hq : S.val i 0 m ^ 2 / sg (pC.mm i) m ≤ VC * dt * S.val i 0 m ^ 2 := by
          rw [div_le_iff₀ hs]
          nlinarith [mul_le_mul_of_nonneg_left (hstar i hi m hm) (sq_nonneg (S.val i 0 m))]
        have hq' := mul_le_mul_of_nonneg_left hq hdx.le
        linarith
      rw [← sum_div, ← mul_sum] at h7
      have h8 := mul_le_mul_of_nonneg_left (hS m hm) (mul_pos two_pos hVd).le
      unfold groupSquare at h8
      rw [hM]
      unfold scalarEnergy
      linarith
    have h9 : M ≤ ∑ n ∈ range pC.angles, pC.angleW n * ∑ i ∈ range pC.cells, pC.dx i *
          ((∑ og ∈ range pC.groups, xsC (pC.mm i) m og * phi i og
            + S.val i (bidx S.angles n) (bidx S.groups m)) * ((e m n i + e m n (i + 1)) / 2)) := by
      refine le_trans ?_ h1
      refine le_of_eq_of_le ?_ h2
      rw [hM]
      exact scalarEnergy_congr fun i hi => hsol.scalar m hm i hi
    rw [h4] at h9
    norm_num at h5
    linarith
  have hB' : 0 ≤ 8 * (VC * dt * B) := by positivity
  obtain ⟨flux, s, _, _, h1, h2, _⟩ := hconv (fun _ _ => 0) (8 * (VC * dt * B)) hB' fun c hc => by
    refine le_of_eq_of_le ?_ (hphi c hc)
    unfold scalarEnergy
    exact sum_congr rfl fun i _ => by ring
  rw [hrun] at h1
  obtain rfl := Except.ok.inj h1
  have h3 : scalarEnergy pC (fun i => sg (pC.mm i) c) (fun i => phiC i c - phi i c) ≤ 8 * (VC * dt * B) := by
    refine (h2 c hc).trans ?_
    have : ((1 / 2 : K) ^ s) ^ 2 ≤ 1 := pow_le_one₀ (by positivity) (pow_le_one₀ (by norm_num) (by norm_num))
    nlinarith
  have h4 : groupSquare pC phiC c ≤ VC * dt * (2 * scalarEnergy pC (fun i => sg (pC.mm i) c) (fun i => phiC i c - phi i c)
      + 2 * scalarEnergy pC (fun i => sg (pC.mm i) c) (fun i => phi i c)) := by
    unfold groupSquare scalarEnergy
    rw [mul_sum, mul_sum, ← sum_add_distrib, mul_sum]
    refine sum_le_sum fun i hi => ?_
    have hi := mem_range.mp hi
    have hdx := ((hd.ok c hc).phys i hi).1
    have hs := hstar i hi c hc
    have a1 : phiC i c ^ 2 ≤ 2 * (phiC i c - phi i c) ^ 2 + 2 * phi i c ^ 2 := by
      nlinarith [sq_nonneg (phiC i c - 2 * phi i c)]
    have a2 : 0 ≤ 2 * (phiC i c - phi i c) ^ 2 + 2 * phi i c ^ 2 := by positivity
    have a3 := mul_le_mul_of_nonneg_right hs a2
    have a4 := mul_le_mul_of_nonneg_left (a1.trans (by linarith : 2 * (phiC i c - phi i c) ^ 2 + 2 * phi i c ^ 2
      ≤ VC * dt * sg (pC.mm i) c * (2 * (phiC i c - phi i c) ^ 2 + 2 * phi i c ^ 2))) hdx.le
    refine a4.trans (le_of_eq ?_)
    ring
  calc _ ≤ _ := h4
    _ ≤ VC * dt * (2 * (8 * (VC * dt * B)) + 2 * (8 * (VC * dt * B))) :=
        mul_le_mul_of_nonneg_left (by linarith [hphi c hc]) hVd.le
    _ = _ := by ring

/-! ## One hybrid step -/

/-- Bounds on the data of a hybrid problem: `X` on the transfer cross sections (scattering plus fission) of the fine
problem, `V` the highest velocity, `r^2` the spread of the velocities; the coarse problem has the same cells; every
fine group belongs to a coarse group, with a share of at most one. -/
structure HybridBounds (p pC : Problem K) (sigma sigmaC : ℕ → ℕ → K) (xs xsC : ℕ → ℕ → ℕ → K)
    (velocity velocityC : ℕ → K) (coarse : ℕ → ℕ) (factor : ℕ → K) (dt X V r XC VC : K) : Prop where
  timed : TimedOk p sigma velocity dt
  groups : 0 < p.groups
  weights : ∀ n < p.angles, 0 ≤ p.angleW n
  norm : ∑ n ∈ range p.angles, p.angleW n = 1
  even : EvenReflection p.angles p.angleX p.angleW p.bcL p.bcR
  transfer : ∀ i < p.cells, ∀ g < p.groups, ∀ g' < p.groups, |xs (p.mm i) g g'| ≤ X
  transferNonneg : 0 ≤ X
  fastest : ∀ g < p.groups, velocity g ≤ V
  spread : ∀ g < p.groups, V ≤ r ^ 2 * velocity g
  ratio : 0 ≤ r
  collided : CoarseBounds pC sigmaC xsC velocityC XC VC dt
  cells : pC.cells = p.cells
  widths : ∀ i < p.cells, pC.dx i = p.dx i
  member : ∀ g < p.groups, coarse g < pC.groups
  share : ∀ g < p.groups, |factor g| ≤ 1

section Step

variable {p pC : Problem K} {sigma sigmaC : ℕ → ℕ → K} {xs xsC : ℕ → ℕ → ℕ → K}
  {velocity velocityC : ℕ → K} {coarse : ℕ → ℕ} {factor : ℕ → K} {dt X V r XC VC : K}

theorem HybridBounds.weighted (h : HybridBounds p pC sigma sigmaC xs xsC velocity velocityC coarse factor dt X V r XC VC) :
    Weighted p velocity :=
  ⟨h.weights, fun i hi => ((h.timed.ok 0 h.groups).phys i hi).1, h.timed.velocity⟩

/-- The prolonged collided flux is of the order of the time step times the uncollided flux. -/
theorem collided_square (h : HybridBounds p pC sigma sigmaC xs xsC velocity velocityC coarse factor dt X V r XC VC)
    {kappa : K} (hk : 1 ≤ kappa) {u : ℕ → ℕ → ℕ → K} {S : Arr3 K} {phiC : ℕ → ℕ → K}
    (hS : CollidedSource p pC xs coarse u S)
    (hrun : sourceIteration pC (fun m c => sigmaC m c + kappa / (velocityC c * dt)) (.iso xsC) S zeroBoundary
      (fun _ _ => 0) = .ok phiC) :
    scalarSquare p velocity (fun i g => phiC i (coarse g) * factor g)
      ≤ (6 * (p.groups : K) ^ 2 * r * X * VC * dt) ^ 2 * scalarSquare p velocity (quadrature p u) := by
  have hw := h.weighted
  obtain ⟨N, hN⟩ : ∃ N, N = scalarSquare p velocity (quadrature p u) := ⟨_, rfl⟩
  have hN0 : 0 ≤ N := hN ▸ scalarSquare_nonneg hw _
  obtain ⟨G, hG⟩ : ∃ G : K, G = (p.groups : K) := ⟨_, rfl⟩
  have hG0 : 0 ≤ G := hG ▸ Nat.cast_nonneg _
  have hV0 : 0 ≤ V := (h.timed.velocity 0 h.groups).le.trans (h.fastest 0 h.groups)
  have hsq : ∀ (f : ℕ → ℕ → K) (c : ℕ), groupSquare pC f c = groupSquare p f c := fun f c => by
    unfold groupSquare
    rw [h.cells]
    exact sum_congr rfl fun i hi => by rw [h.widths i (mem_range.mp hi)]
  have hsrc : ∀ c < pC.groups, groupSquare pC (fun i c => S.val i 0 c) c ≤ G * (G * (X ^ 2 * (G * (V * N)))) := by
    intro c _
    rw [hsq]
    calc groupSquare p (fun i c => S.val i 0 c) c
        ≤ ∑ i ∈ range p.cells, p.dx i * (G * ∑ g ∈ range p.groups,
            (∑ g' ∈ range p.groups, xs (p.mm i) g g' * quadrature p u i g') ^ 2) := by
          refine sum_le_sum fun i hi => mul_le_mul_of_nonneg_left ?_ (hw.widths i (mem_range.mp hi)).le
          beta_reduce
          rw [hS.2.2 i (mem_range.mp hi) c]
          refine sq_sum_le_card_mul_sum_sq.trans ?_
          have hcard : ((#((range p.groups).filter fun g => coarse g = c) : ℕ) : K) ≤ G := by
            rw [hG]
            have := card_filter_le (range p.groups) (fun g => coarse g = c)
            rw [card_range] at this
            exact_mod_cast this
          refine mul_le_mul hcard (sum_le_sum_of_subset_of_nonneg (filter_subset _ _) fun _ _ _ => sq_nonneg _)
            (sum_nonneg fun _ _ => sq_nonneg _) hG0
      _ = G * ∑ g ∈ range p.groups,
            groupSquare p (fun i g => ∑ g' ∈ range p.groups, xs (p.mm i) g g' * quadrature p u i g') g := by
          unfold groupSquare
          rw [sum_comm, mul_sum]
          refine sum_congr rfl fun i _ => ?_
          rw [← mul_sum]
          ring
      _ ≤ G * ∑ g ∈ range p.groups, X ^ 2 * (G * (V * N)) := by
          refine mul_le_mul_of_nonneg_left (sum_le_sum fun g hg => ?_) hG0
          rw [hN, hG]
          exact scatter_group_le hw h.transfer h.fastest _ (mem_range.mp hg)
      _ = _ := by rw [sum_const, card_range, nsmul_eq_mul, ← hG]
  have hB : 0 ≤ G * (G * (X ^ 2 * (G * (V * N)))) := by positivity
  have hphi := coarse_bound h.collided hk hrun hS.1 hS.2.1 hB hsrc
  rw [scalarSquare_eq, ← hN]
  calc _ ≤ ∑ g ∈ range p.groups, 32 * G ^ 3 * r ^ 2 * X ^ 2 * (VC * dt) ^ 2 * N := by
        refine sum_le_sum fun g hg => ?_
        have hg := mem_range.mp hg
        have hv := h.timed.velocity g hg
        have h1 : groupSquare p (fun i g => phiC i (coarse g) * factor g) g ≤ groupSquare p phiC (coarse g) := by
          refine sum_le_sum fun i hi => mul_le_mul_of_nonneg_left ?_ (hw.widths i (mem_range.mp hi)).le
          rw [mul_pow]
          have : factor g ^ 2 ≤ 1 := by
            rw [← sq_abs]; exact pow_le_one₀ (abs_nonneg _) (h.share g hg)
          nlinarith [sq_nonneg (phiC i (coarse g))]
        have h2 := hphi (coarse g) (h.member g hg)
        rw [hsq] at h2
        rw [one_div, inv_mul_le_iff₀ hv]
        refine (h1.trans h2).trans ?_
        have h3 := mul_le_mul_of_nonneg_left (h.spread g hg)
          (by positivity : 0 ≤ 32 * G ^ 3 * X ^ 2 * (VC * dt) ^ 2 * N)
        calc _ = 32 * G ^ 3 * X ^ 2 * (VC * dt) ^ 2 * N * V := by ring
          _ ≤ _ := h3
          _ = _ := by ring
    _ = 32 * (G ^ 2 * r * X * VC * dt) ^ 2 * N := by
        rw [sum_const, card_range, nsmul_eq_mul, ← hG]; ring
    _ ≤ _ := by
        rw [← hG]
        have : 0 ≤ (G ^ 2 * r * X * VC * dt) ^ 2 * N := mul_nonneg (sq_nonneg _) hN0
        calc _ ≤ 36 * ((G ^ 2 * r * X * VC * dt) ^ 2 * N) := by linarith
          _ = _ := by ring

/-- Numerator of the difference quotient of a step from `e j` to `new`. -/
def stepDiff (second : Bool) (j : ℕ) (e : ℕ → ℕ → ℕ → ℕ → K) (new : ℕ → ℕ → ℕ → K) (i n g : ℕ) : K :=
  if second = true ∧ j ≠ 0 then 3 / 2 * new i n g - 2 * e j i n g + 1 / 2 * e (j - 1) i n g
    else new i n g - e j i n g

/-- A step with any isotropic source `q`, against a solution of the semi-discrete equation: the difference satisfies
a step without scattering; all sources together are `s / v`. -/
theorem step_diff (hok : TimedOk p sigma velocity dt) {ext bnd : Arr3 K} {ys : ℕ → ℕ → ℕ → K} {phi : ℕ → ℕ → K}
    {r psi E D rE : ℕ → ℕ → ℕ → K}
    (h : ImplicitStep p sigma ys phi (fun i n g => r i n g / (velocity g * dt)) ext bnd psi)
    (hE : TransportAt p sigma xs velocity ext bnd E D) :
    ImplicitStep p sigma (fun _ _ _ => 0) (quadrature p fun i n g => psi i n g - E i n g)
      (fun i n g => (r i n g - rE i n g) / (velocity g * dt))
      (fullArr p fun i n g => ((D i n g - rE i n g / dt)
        + velocity g * (∑ g' ∈ range p.groups, ys (p.mm i) g g' * phi i g'
          - ∑ g' ∈ range p.groups, xs (p.mm i) g g' * quadrature p E i g')) / velocity g) zeroBoundary
      (fun i n g => psi i n g - E i n g) := by
  obtain ⟨e, he⟩ := h
  obtain ⟨e', he'⟩ := hE
  refine ⟨fun g n i => e g n i - e' g n i, fun g hg => ⟨fun n hn i hi => ?_, fun n hn i hi => ?_, fun n hn => ?_⟩⟩
  · beta_reduce
    rw [(he g hg).1 n hn i hi, (he' g hg).1 n hn i hi]; ring
  · rw [show sourceAt (fullArr p fun i n g => ((D i n g - rE i n g / dt)
        + velocity g * (∑ g' ∈ range p.groups, ys (p.mm i) g g' * phi i g'
          - ∑ g' ∈ range p.groups, xs (p.mm i) g g' * quadrature p E i g')) / velocity g) i n g
      = ((D i n g - rE i n g / dt) + velocity g * (∑ g' ∈ range p.groups, ys (p.mm i) g g' * phi i g'
          - ∑ g' ∈ range p.groups, xs (p.mm i) g g' * quadrature p E i g')) / velocity g from sourceAt_full _ hn hg]
    have a := (he g hg).2.1 n hn i hi
    have b := (he' g hg).2.1 n hn i hi
    have hv := (hok.velocity g hg).ne'
    have hdt := hok.dt.ne'
    have e1 : rE i n g / dt / velocity g = rE i n g / (velocity g * dt) := by rw [div_div, mul_comm]
    beta_reduce at a b ⊢
    rw [add_div, mul_div_cancel_left₀ _ hv, sub_div, sub_div, e1]
    simp only [zero_mul, sum_const_zero, zero_add]
    linear_combination a - b
  · have a := (he g hg).2.2 n hn
    have b := (he' g hg).2.2 n hn
    simp only [inflow, outflow, sourceAt, zeroBoundary] at a b ⊢
    split_ifs at a b ⊢ <;> linear_combination a - b

/-- Amplification constant of the scheme in the energy estimate. -/
def gain (K : Type) [Field K] (second : Bool) : K := if second = true then 4 else 1

theorem gain_ge_one (second : Bool) : (1 : K) ≤ gain K second := by
  unfold gain; split <;> norm_num

/-- Errors up to step `j` are within `rho`. -/
def WithinError (p : Problem K) (velocity : ℕ → K) (second : Bool) (j : ℕ) (rho : K) (e : ℕ → ℕ → ℕ → ℕ → K) : Prop :=
  0 ≤ rho ∧ vdot p velocity (e j) (e j) ≤ rho ^ 2 ∧
    (second = true → j ≠ 0 → bdfEnergy p velocity (e j) (e (j - 1)) ≤ rho ^ 2) ∧
    (j = 0 → ∃ R, 0 ≤ R ∧ gain K second * R ≤ rho ∧ vdot p velocity (e 0) (e 0) ≤ R ^ 2)

theorem growth_step (hw : Weighted p velocity) {second : Bool} {j : ℕ} {rho T : K} {e : ℕ → ℕ → ℕ → ℕ → K}
    {new s : ℕ → ℕ → ℕ → K} (hdt : 0 ≤ dt) (hT : 0 ≤ T) (hwi : WithinError p velocity second j rho e)
    (h : vdot p velocity (stepDiff second j e new) new ≤ dt * vdot p velocity s new)
    (hs : vdot p velocity s s ≤ T ^ 2) :
    vdot p velocity new new ≤ (rho + gain K second * dt * T) ^ 2 ∧
      (e (j + 1) = new → WithinError p velocity second (j + 1) (rho + gain K second * dt * T) e) := by
  obtain ⟨hr, h1, h2, h3⟩ := hwi
  have hT' : 0 ≤ dt * T := mul_nonneg hdt hT
  have hg1 := gain_ge_one (K := K) second
  have hpos : 0 ≤ rho + gain K second * dt * T := by
    rw [mul_assoc]; exact add_nonneg hr (mul_nonneg (by linarith) hT')
  have hle : rho + dt * T ≤ rho + gain K second * dt * T := by
    rw [mul_assoc]; nlinarith
  by_cases hc : second = true ∧ j ≠ 0
  · have hgr := bdf_energy_growth hw hdt hr hT (older := e (j - 1)) (old := e j) (new := new) (s := s)
      (le_of_eq_of_le (congrArg₂ _ (by funext i n g; simp only [stepDiff, if_pos hc]) rfl) h) (h2 hc.1 hc.2) hs
    have hgain : gain K second = 4 := by rw [gain, if_pos hc.1]
    have hv : vdot p velocity new new ≤ (rho + gain K second * dt * T) ^ 2 := by
      rw [hgain]
      exact (le_add_of_nonneg_right (vdot_self_nonneg hw _)).trans hgr
    refine ⟨hv, fun he => ⟨hpos, he ▸ hv, fun _ _ => ?_, fun h0 => absurd h0 (by omega)⟩⟩
    rw [he, Nat.add_sub_cancel, hgain]
    exact hgr
  · have hd : stepDiff second j e new = fun i n g => new i n g - e j i n g := by
      funext i n g; simp only [stepDiff, if_neg hc]
    rw [hd] at h
    have hv0 := euler_energy_step hw hdt hr hT h h1 hs
    have hv : vdot p velocity new new ≤ (rho + gain K second * dt * T) ^ 2 :=
      hv0.trans (pow_le_pow_left₀ (add_nonneg hr hT') hle 2)
    refine ⟨hv, fun he => ⟨hpos, he ▸ hv, fun hsec _ => ?_, fun h0 => absurd h0 (by omega)⟩⟩
    obtain rfl : j = 0 := by
      by_contra h0
      exact hc ⟨hsec, h0⟩
    obtain ⟨R, hR, hRr, hR0⟩ := h3 rfl
    have hgain : gain K second = 4 := by rw [gain, if_pos hsec]
    rw [hgain] at hRr ⊢
    rw [he, Nat.add_sub_cancel]
    have k1 := euler_energy_step hw hdt hR hT h hR0 hs
    have k2 : vdot p velocity (fun i n g => 2 * new i n g) (fun i n g => 2 * new i n g) ≤ (2 * (R + dt * T)) ^ 2 := by
      rw [vdot_smul (2 : K), mul_pow]
      exact mul_le_mul_of_nonneg_left k1 (by norm_num)
    have k3 : vdot p velocity (fun i n g => -1 * e 0 i n g) (fun i n g => -1 * e 0 i n g) ≤ R ^ 2 := by
      rw [vdot_smul (-1 : K)]
      simpa using hR0
    have hB : (0 : K) ≤ 2 * (R + dt * T) := by positivity
    have k4 := vdot_minkowski hw hB hR k2 k3
    have ee : vdot p velocity (fun i n g => 2 * new i n g + -1 * e 0 i n g) (fun i n g => 2 * new i n g + -1 * e 0 i n g)
        = vdot p velocity (fun i n g => 2 * new i n g - e 0 i n g) (fun i n g => 2 * new i n g - e 0 i n g) :=
      vdot_congr (fun _ _ _ _ _ _ => by ring) (fun _ _ _ _ _ _ => by ring)
    rw [ee] at k4
    unfold bdfEnergy
    have hRT : 0 ≤ 4 * R + 4 * dt * T := by nlinarith
    have hmono : (4 * R + 4 * dt * T) ^ 2 ≤ (rho + 4 * dt * T) ^ 2 := pow_le_pow_left₀ hRT (by linarith) 2
    refine ((add_le_add k1 k4).trans ?_).trans hmono
    nlinarith [mul_nonneg hR hR, mul_nonneg hR hT', mul_nonneg hT' hT']

theorem scalar_minkowski (hw : Weighted p velocity) (hsum : ∑ n ∈ range p.angles, p.angleW n = 1) {a b : ℕ → ℕ → K}
    {R T : K} (hR : 0 ≤ R) (hT : 0 ≤ T) (ha : scalarSquare p velocity a ≤ R ^ 2)
    (hb : scalarSquare p velocity b ≤ T ^ 2) :
    scalarSquare p velocity (fun i g => a i g + b i g) ≤ (R + T) ^ 2 := by
  rw [← vdot_isotropic hsum] at ha hb ⊢
  exact vdot_minkowski hw hR hT ha hb

/-- One step of a hybrid integrator: `rho` bounds the errors so far, `F` the solution, `T` the truncation error. -/
theorem hybrid_step_error
    (h : HybridBounds p pC sigma sigmaC xs xsC velocity velocityC coarse factor dt X V r XC VC)
    {second : Bool} {j : ℕ} {psi E : ℕ → ℕ → ℕ → ℕ → K} {u D : ℕ → ℕ → ℕ → K} {phiC : ℕ → ℕ → K} {S ext bnd : Arr3 K}
    (hu : ImplicitStep p sigma (fun _ _ _ => 0) (fun _ _ => 0) (timeRate second j psi u velocity dt) ext bnd u)
    (hS : CollidedSource p pC xs coarse u S)
    (hrun : sourceIteration pC (fun m c => sigmaC m c + timeCoef K second j / (velocityC c * dt)) (.iso xsC) S zeroBoundary
      (fun _ _ => 0) = .ok phiC)
    (hnew : ImplicitStep p sigma xs (fun i g => quadrature p u i g + phiC i (coarse g) * factor g)
      (timeRate second j psi (psi (j + 1)) velocity dt) ext bnd (psi (j + 1)))
    (hE : TransportAt p sigma xs velocity ext bnd (E (j + 1)) D)
    {rho F T : K} (hF : 0 ≤ F) (hT : 0 ≤ T)
    (hrho : WithinError p velocity second j rho fun j i n g => psi j i n g - E j i n g)
    (hFb : scalarSquare p velocity (quadrature p (E (j + 1))) ≤ F ^ 2)
    (hTb : vdot p velocity (fun i n g => D i n g - stepDiff second j E (E (j + 1)) i n g / dt)
      (fun i n g => D i n g - stepDiff second j E (E (j + 1)) i n g / dt) ≤ T ^ 2)
    {A B W : K} (hA : A = X * (p.groups : K) * V) (hB : B = 6 * (p.groups : K) ^ 2 * r * X * VC)
    (hW : W = rho + gain K second * dt * (T + A * F)) :
    WithinError p velocity second (j + 1) (rho + gain K second * dt * (T + A * (W + B * dt * (F + W))))
      fun j i n g => psi j i n g - E j i n g := by
  have hw := h.weighted
  have hdt := h.timed.dt
  have hV0 : 0 ≤ V := (h.timed.velocity 0 h.groups).le.trans (h.fastest 0 h.groups)
  have hA0 : 0 ≤ A := hA ▸ mul_nonneg (mul_nonneg h.transferNonneg (Nat.cast_nonneg _)) hV0
  have hB0 : 0 ≤ B := by
    rw [hB]
    exact mul_nonneg (mul_nonneg (mul_nonneg (by positivity) h.ratio) h.transferNonneg) h.collided.speed.le
  have hrho0 := hrho.1
  have hg := gain_ge_one (K := K) second
  have hW0 : 0 ≤ W := by
    rw [hW]
    exact add_nonneg hrho0 (mul_nonneg (mul_nonneg (by linarith) hdt.le) (add_nonneg hT (mul_nonneg hA0 hF)))
  have hzero : Dissipative p sigma (fun _ _ _ => 0) := fun i hi f => by
    simp only [zero_mul, sum_const_zero]
    exact sum_nonneg fun g hg => mul_nonneg ((h.timed.ok g (mem_range.mp hg)).phys i hi).2 (sq_nonneg _)
  have hdiff : ∀ new : ℕ → ℕ → ℕ → K, (fun i n g => stepDiff second j psi new i n g - stepDiff second j E (E (j + 1)) i n g)
      = stepDiff second j (fun j i n g => psi j i n g - E j i n g) (fun i n g => new i n g - E (j + 1) i n g) := by
    intro new
    funext i n g
    unfold stepDiff
    split_ifs <;> ring
  -- the uncollided flux
  have hu1 := step_diff h.timed (xs := xs) (r := stepDiff second j psi u) (rE := stepDiff second j E (E (j + 1))) hu hE
  have hu2 := implicit_energy h.timed hw h.norm h.even hzero
    (rho := fun i n g => stepDiff second j psi u i n g - stepDiff second j E (E (j + 1)) i n g) hu1
  rw [hdiff] at hu2
  have hsu : vdot p velocity (fun i n g => (D i n g - stepDiff second j E (E (j + 1)) i n g / dt)
        + velocity g * (∑ g' ∈ range p.groups, (0 : K) * 0
          - ∑ g' ∈ range p.groups, xs (p.mm i) g g' * quadrature p (E (j + 1)) i g'))
      (fun i n g => (D i n g - stepDiff second j E (E (j + 1)) i n g / dt)
        + velocity g * (∑ g' ∈ range p.groups, (0 : K) * 0
          - ∑ g' ∈ range p.groups, xs (p.mm i) g g' * quadrature p (E (j + 1)) i g')) ≤ (T + A * F) ^ 2 := by
    refine vdot_minkowski hw hT (mul_nonneg hA0 hF) hTb ?_
    have e1 : vdot p velocity (fun i n g => velocity g * (∑ g' ∈ range p.groups, (0 : K) * 0
          - ∑ g' ∈ range p.groups, xs (p.mm i) g g' * quadrature p (E (j + 1)) i g'))
        (fun i n g => velocity g * (∑ g' ∈ range p.groups, (0 : K) * 0
          - ∑ g' ∈ range p.groups, xs (p.mm i) g g' * quadrature p (E (j + 1)) i g'))
        = vdot p velocity (fun i _ g => velocity g * ∑ g' ∈ range p.groups, xs (p.mm i) g g' * quadrature p (E (j + 1)) i g')
          (fun i _ g => velocity g * ∑ g' ∈ range p.groups, xs (p.mm i) g g' * quadrature p (E (j + 1)) i g') := by
      rw [vdot_eq, vdot_eq]
      refine sum_congr rfl fun x _ => ?_
      simp only [zero_mul, sum_const_zero]
      ring
    rw [e1]
    refine (scatter_square hw h.norm h.transfer h.fastest _).trans ?_
    rw [← hA, mul_pow]
    exact mul_le_mul_of_nonneg_left hFb (sq_nonneg _)
  have hu3 := (growth_step hw hdt.le (add_nonneg hT (mul_nonneg hA0 hF)) hrho hu2 hsu).1
  rw [← hW] at hu3
  -- the scalar fluxes
  have hf1 : scalarSquare p velocity (fun i g => quadrature p u i g - quadrature p (E (j + 1)) i g) ≤ W ^ 2 :=
    (scalarSquare_sub_le hw h.norm (fun _ _ _ _ => rfl) (fun _ _ _ _ => rfl)).trans hu3
  have hf2 : scalarSquare p velocity (quadrature p u) ≤ (F + W) ^ 2 := by
    refine le_of_eq_of_le (scalarSquare_congr fun i _ g _ => ?_) (scalar_minkowski hw h.norm hF hW0 hFb hf1)
    ring
  have hkappa : (1 : K) ≤ timeCoef K second j := by
    unfold timeCoef; split <;> norm_num
  have hf3 : scalarSquare p velocity (fun i g => phiC i (coarse g) * factor g) ≤ (B * dt * (F + W)) ^ 2 := by
    refine (collided_square h hkappa hS hrun).trans ?_
    rw [mul_pow (B * dt), hB]
    exact mul_le_mul_of_nonneg_left hf2 (sq_nonneg _)
  have hFW : 0 ≤ B * dt * (F + W) := mul_nonneg (mul_nonneg hB0 hdt.le) (add_nonneg hF hW0)
  have hf4 := scalar_minkowski hw h.norm hW0 hFW hf1 hf3
  -- the new flux
  have hn1 := step_diff h.timed (xs := xs) (r := stepDiff second j psi (psi (j + 1)))
    (rE := stepDiff second j E (E (j + 1))) hnew hE
  have hn2 := implicit_energy h.timed hw h.norm h.even hzero
    (rho := fun i n g => stepDiff second j psi (psi (j + 1)) i n g - stepDiff second j E (E (j + 1)) i n g) hn1
  rw [hdiff] at hn2
  have hAf : 0 ≤ A * (W + B * dt * (F + W)) := mul_nonneg hA0 (add_nonneg hW0 hFW)
  refine (growth_step hw hdt.le (add_nonneg hT hAf) hrho hn2 ?_).2 rfl
  refine vdot_minkowski hw hT hAf hTb ?_
  have e1 : vdot p velocity (fun i n g => velocity g * (∑ g' ∈ range p.groups, xs (p.mm i) g g' *
          (quadrature p u i g' + phiC i (coarse g') * factor g')
          - ∑ g' ∈ range p.groups, xs (p.mm i) g g' * quadrature p (E (j + 1)) i g'))
        (fun i n g => velocity g * (∑ g' ∈ range p.groups, xs (p.mm i) g g' *
          (quadrature p u i g' + phiC i (coarse g') * factor g')
          - ∑ g' ∈ range p.groups, xs (p.mm i) g g' * quadrature p (E (j + 1)) i g'))
      = vdot p velocity (fun i _ g => velocity g * ∑ g' ∈ range p.groups, xs (p.mm i) g g' *
          (quadrature p u i g' - quadrature p (E (j + 1)) i g' + phiC i (coarse g') * factor g'))
        (fun i _ g => velocity g * ∑ g' ∈ range p.groups, xs (p.mm i) g g' *
          (quadrature p u i g' - quadrature p (E (j + 1)) i g' + phiC i (coarse g') * factor g')) := by
    have e2 : ∀ i g, ∑ g' ∈ range p.groups, xs (p.mm i) g g' * (quadrature p u i g' + phiC i (coarse g') * factor g')
          - ∑ g' ∈ range p.groups, xs (p.mm i) g g' * quadrature p (E (j + 1)) i g'
        = ∑ g' ∈ range p.groups, xs (p.mm i) g g' *
          (quadrature p u i g' - quadrature p (E (j + 1)) i g' + phiC i (coarse g') * factor g') := by
      intro i g
      rw [← sum_sub_distrib]
      exact sum_congr rfl fun g' _ => by ring
    simp only [e2]
  rw [e1]
  refine (scatter_square hw h.norm h.transfer h.fastest _).trans ?_
  rw [← hA, mul_pow A]
  exact mul_le_mul_of_nonneg_left hf4 (sq_nonneg _)

end Step

/-! ## C173: the drivers -/

/-- C173: `hybrid1d.backward_euler` (`second = false`) and `hybrid1d.bdf2` (`second = true`) on any coarse grid, against
any sequence `E` that satisfies the fine-group transport equation at every step with time derivative `D`.  `R` bounds
the initial error, `F` the scalar flux of the solution, `T` the truncation error of the difference quotient.  The
collided problem need not be converged, nor resemble the fine one. -/
theorem C173_error_bound (second : Bool) (p pC : Problem K) (xsTotal xsTotalC : ℕ → ℕ → K)
    (scatter scatterC : ℕ → ℕ → ℕ → K) (fission fissionC : Fission K) (velocity velocityC : ℕ → K)
    (external boundary : TimeArr K) (coarse : ℕ → ℕ) (factor : ℕ → K) (steps : ℕ) (dt : K)
    (init : ℕ → ℕ → ℕ → K) {X V r XC VC : K}
    (h : HybridBounds p pC xsTotal xsTotalC (fun m g g' => scatter m g g' + fissionMatrix fission m g g')
      (fun m g g' => scatterC m g g' + fissionMatrix fissionC m g g') velocity velocityC coarse factor dt X V r XC VC)
    (hext : Covers external steps) (hbnd : Covers boundary steps)
    (E D : ℕ → ℕ → ℕ → ℕ → K)
    (hE : ∀ j < steps, TransportAt p xsTotal (fun m g g' => scatter m g g' + fissionMatrix fission m g g')
      velocity (entry external j) (entry boundary j) (E (j + 1)) (D (j + 1)))
    {R F T : K} (hR : 0 ≤ R) (hF : 0 ≤ F) (hT : 0 ≤ T)
    (h0 : vdot p velocity (fun i n g => init i n g - E 0 i n g) (fun i n g => init i n g - E 0 i n g) ≤ R ^ 2)
    (hFb : ∀ j < steps, scalarSquare p velocity (quadrature p (E (j + 1))) ≤ F ^ 2)
    (hTb : ∀ j < steps, vdot p velocity (fun i n g => D (j + 1) i n g - timeDiff second j E i n g / dt)
      (fun i n g => D (j + 1) i n g - timeDiff second j E i n g / dt) ≤ T ^ 2)
    {A B m L Q : K} (hA : A = X * (p.groups : K) * V) (hB : B = 6 * (p.groups : K) ^ 2 * r * X * VC)
    (hm : m = if second = true then 4 else 1) (hL : L = m * A * (1 + B * dt))
    (hQ : Q = m * (T + A * (m * dt * (T + A * F) * (1 + B * dt) + B * dt * F))) :
    ∃ out : ℕ → ℕ → ℕ → K,
      hybridRun second p pC xsTotal xsTotalC (.iso scatter) (.iso scatterC) fission fissionC velocity
        velocityC external boundary coarse factor steps dt init = .ok out ∧
      ∀ j < steps, scalarSquare p velocity (fun i g => out j i g - quadrature p (E (j + 1)) i g)
        ≤ ((1 + L * dt) ^ (j + 1) * (m * R + ((j : K) + 1) * dt * Q)) ^ 2 := by
  obtain ⟨out, psi, u, phiC, S, h1, h2, h3⟩ := C36_hybrid_steps second p pC xsTotal xsTotalC scatter scatterC fission
    fissionC velocity velocityC external boundary coarse factor steps dt init h.timed h.groups h.collided.ok
    h.collided.velocity hext hbnd
  have hw := h.weighted
  have hdt := h.timed.dt.le
  have hm' : gain K second = m := hm ▸ rfl
  have hm1 : 1 ≤ m := hm' ▸ gain_ge_one second
  have hV0 : 0 ≤ V := (h.timed.velocity 0 h.groups).le.trans (h.fastest 0 h.groups)
  have hA0 : 0 ≤ A := hA ▸ mul_nonneg (mul_nonneg h.transferNonneg (Nat.cast_nonneg _)) hV0
  have hB0 : 0 ≤ B := by
    rw [hB]
    exact mul_nonneg (mul_nonneg (mul_nonneg (by positivity) h.ratio) h.transferNonneg) h.collided.speed.le
  have hm0 : 0 ≤ m := by linarith
  have hL0 : 0 ≤ L := by rw [hL]; positivity
  have hQ0 : 0 ≤ Q := by rw [hQ]; positivity
  have key : ∀ j, j ≤ steps → ∃ rho ≤ (1 + L * dt) ^ j * (m * R + (j : K) * dt * Q),
      WithinError p velocity second j rho fun j i n g => psi j i n g - E j i n g := by
    intro j
    induction j with
    | zero =>
      intro _
      refine ⟨m * R, by simp, mul_nonneg hm0 hR, ?_, fun _ hj => absurd rfl hj, fun _ => ⟨R, hR, by rw [hm'], ?_⟩⟩
      · beta_reduce
        rw [h2]
        exact h0.trans (pow_le_pow_left₀ hR (le_mul_of_one_le_left hR hm1) 2)
      · beta_reduce
        rw [h2]; exact h0
    | succ j ih =>
      intro hj
      obtain ⟨rho, hle, hwi⟩ := ih (by omega)
      obtain ⟨k1, k2, k3, k4, _⟩ := h3 j hj
      refine ⟨_, ?_, hybrid_step_error h k1 k2 k3 k4 (hE j hj) hF hT hwi (hFb j hj) (hTb j hj) hA hB rfl⟩
      rw [hm']
      have hone : 1 ≤ 1 + L * dt := by nlinarith [mul_nonneg hL0 hdt]
      have e : rho + m * dt * (T + A * (rho + m * dt * (T + A * F) + B * dt * (F + (rho + m * dt * (T + A * F)))))
          = (1 + L * dt) * rho + dt * Q := by rw [hL, hQ]; ring
      rw [e]
      have h5 : dt * Q ≤ (1 + L * dt) ^ (j + 1) * (dt * Q) :=
        le_mul_of_one_le_left (mul_nonneg hdt hQ0) (one_le_pow₀ hone)
      have h6 := mul_le_mul_of_nonneg_left hle (by linarith : 0 ≤ 1 + L * dt)
      push_cast
      calc _ ≤ (1 + L * dt) * ((1 + L * dt) ^ j * (m * R + (j : K) * dt * Q)) + (1 + L * dt) ^ (j + 1) * (dt * Q) := by
            linarith
        _ = _ := by ring
  refine ⟨out, h1, fun j hj => ?_⟩
  obtain ⟨rho, hle, hwi⟩ := key (j + 1) hj
  refine ((scalarSquare_sub_le hw h.norm (fun i _ g _ => (h3 j hj).2.2.2.2 i g) (fun _ _ _ _ => rfl)).trans hwi.2.1).trans ?_
  have := pow_le_pow_left₀ hwi.1 hle 2
  push_cast at this
  exact this

/-- Either difference quotient is first-order accurate when the derivative is Lipschitz. -/
theorem quotient_truncation (second : Bool) {F F' : ℝ → ℕ → ℕ → ℕ → ℝ} {L dt : ℝ} (hdt : 0 < dt) (hL : 0 ≤ L)
    {steps j : ℕ} (hj : j < steps)
    (hF : ∀ t, 0 ≤ t → t ≤ (steps : ℝ) * dt → ∀ i n g, HasDerivAt (fun s => F s i n g) (F' t i n g) t)
    (hF' : ∀ s t, 0 ≤ s → s ≤ t → t ≤ (steps : ℝ) * dt → ∀ i n g, |F' t i n g - F' s i n g| ≤ L * (t - s))
    (i n g : ℕ) :
    |F' (((j : ℝ) + 1) * dt) i n g - timeDiff second j (fun j => F ((j : ℝ) * dt)) i n g / dt| ≤ 2 * L * dt := by
  have hj' : (j : ℝ) + 1 ≤ steps := by exact_mod_cast hj
  have hj0 : (0 : ℝ) ≤ j := Nat.cast_nonneg j
  have htop : ((j : ℝ) + 1) * dt ≤ (steps : ℝ) * dt := mul_le_mul_of_nonneg_right hj' hdt.le
  have tr : ∀ h : ℝ, 0 < h → h ≤ ((j : ℝ) + 1) * dt →
      |F' (((j : ℝ) + 1) * dt) i n g - (F (((j : ℝ) + 1) * dt) i n g - F (((j : ℝ) + 1) * dt - h) i n g) / h|
        ≤ L * h / 2 := fun h hh hle =>
    euler_truncation (F := fun s => F s i n g) (F' := fun s => F' s i n g) (L := L) (a := ((j : ℝ) + 1) * dt) hh
      (fun t ht1 ht2 => hF t (by linarith) (ht2.trans htop) i n g)
      (fun t ht1 ht2 => hF' t _ (by linarith) ht2 htop i n g)
  have h1 := tr dt hdt (by nlinarith)
  rw [show ((j : ℝ) + 1) * dt - dt = (j : ℝ) * dt by ring] at h1
  have hLd : 0 ≤ L * dt := mul_nonneg hL hdt.le
  unfold timeDiff
  split_ifs with hc
  · obtain ⟨k, rfl⟩ : ∃ k, j = k + 1 := ⟨j - 1, by omega⟩
    have hk0 : (0 : ℝ) ≤ k := Nat.cast_nonneg k
    have h2 := tr (2 * dt) (by linarith) (by push_cast; nlinarith)
    push_cast at h1 h2 ⊢
    rw [show ((k : ℝ) + 1 + 1) * dt - 2 * dt = (k : ℝ) * dt by ring] at h2
    have e : F' (((k : ℝ) + 1 + 1) * dt) i n g - (3 / 2 * F (((k : ℝ) + 1 + 1) * dt) i n g
          - 2 * F (((k : ℝ) + 1) * dt) i n g + 1 / 2 * F ((k : ℝ) * dt) i n g) / dt
        = 2 * (F' (((k : ℝ) + 1 + 1) * dt) i n g - (F (((k : ℝ) + 1 + 1) * dt) i n g - F (((k : ℝ) + 1) * dt) i n g) / dt)
          - (F' (((k : ℝ) + 1 + 1) * dt) i n g - (F (((k : ℝ) + 1 + 1) * dt) i n g - F ((k : ℝ) * dt) i n g) / (2 * dt)) := by
      field_simp
      ring
    rw [e]
    rw [abs_le] at h1 h2 ⊢
    constructor <;> linarith [h1.1, h1.2, h2.1, h2.2]
  · push_cast
    refine h1.trans (by linarith)

/-- C173: first order in the time step.  `sol` is a solution of the fine-group semi-discrete transport equation,
bounded by `N`, with a time derivative of Lipschitz constant `L`; the run starts from `sol 0`.  At time `t = (j+1) dt`
the mean square error of the scalar flux is at most `(e^(Λ t) t C dt)^2` times the volume of phase space.  The
constants do not depend on the mesh, the coarse quadrature, the number of steps, or the coarse cross sections (beyond
`dt` being below the coarse scattering time). -/
theorem C173_first_order (second : Bool) (p pC : Problem ℝ) (xsTotal xsTotalC : ℕ → ℕ → ℝ)
    (scatter scatterC : ℕ → ℕ → ℕ → ℝ) (fission fissionC : Fission ℝ) (velocity velocityC : ℕ → ℝ)
    (external boundary : TimeArr ℝ) (coarse : ℕ → ℕ) (factor : ℕ → ℝ) (steps : ℕ) (dt : ℝ) {X V r XC VC : ℝ}
    (h : HybridBounds p pC xsTotal xsTotalC (fun m g g' => scatter m g g' + fissionMatrix fission m g g')
      (fun m g g' => scatterC m g g' + fissionMatrix fissionC m g g') velocity velocityC coarse factor dt X V r XC VC)
    (hext : Covers external steps) (hbnd : Covers boundary steps)
    (sol sol' : ℝ → ℕ → ℕ → ℕ → ℝ) (L N : ℝ) (hL : 0 ≤ L) (hN : 0 ≤ N)
    (hF : ∀ t, 0 ≤ t → t ≤ (steps : ℝ) * dt → ∀ i n g, HasDerivAt (fun s => sol s i n g) (sol' t i n g) t)
    (hF' : ∀ s t, 0 ≤ s → s ≤ t → t ≤ (steps : ℝ) * dt → ∀ i n g, |sol' t i n g - sol' s i n g| ≤ L * (t - s))
    (hb : ∀ t, 0 ≤ t → t ≤ (steps : ℝ) * dt → ∀ i n g, |sol t i n g| ≤ N)
    (hE : ∀ j < steps, TransportAt p xsTotal (fun m g g' => scatter m g g' + fissionMatrix fission m g g')
      velocity (entry external j) (entry boundary j) (sol (((j : ℝ) + 1) * dt)) (sol' (((j : ℝ) + 1) * dt)))
    {A B m Lam C : ℝ} (hA : A = X * (p.groups : ℝ) * V) (hB : B = 6 * (p.groups : ℝ) ^ 2 * r * X * VC)
    (hm : m = if second = true then 4 else 1) (hLam : Lam = m * A * (1 + B * dt))
    (hC : C = m * (2 * L + A * (m * (2 * L * dt + A * N) * (1 + B * dt) + B * N))) :
    ∃ out : ℕ → ℕ → ℕ → ℝ,
      hybridRun second p pC xsTotal xsTotalC (.iso scatter) (.iso scatterC) fission fissionC velocity
        velocityC external boundary coarse factor steps dt (sol 0) = .ok out ∧
      ∀ j < steps, scalarSquare p velocity (fun i g => out j i g - quadrature p (sol (((j : ℝ) + 1) * dt)) i g)
        ≤ (Real.exp (Lam * (((j : ℝ) + 1) * dt)) * (((j : ℝ) + 1) * dt * (C * dt))) ^ 2 * phaseVolume p velocity := by
  have hw := h.weighted
  have hdt := h.timed.dt
  have hV : 0 ≤ phaseVolume p velocity := vdot_self_nonneg hw _
  obtain ⟨s, hs⟩ : ∃ s, s = Real.sqrt (phaseVolume p velocity) := ⟨_, rfl⟩
  have hs0 : 0 ≤ s := hs ▸ Real.sqrt_nonneg _
  have hs2 : s ^ 2 = phaseVolume p velocity := by rw [hs, Real.sq_sqrt hV]
  have htop : ∀ j < steps, ((j : ℝ) + 1) * dt ≤ (steps : ℝ) * dt := fun j hj =>
    mul_le_mul_of_nonneg_right (by exact_mod_cast hj) hdt.le
  have hnn : ∀ j : ℕ, (0 : ℝ) ≤ ((j : ℝ) + 1) * dt := fun j => by positivity
  obtain ⟨out, h1, h2⟩ := C173_error_bound second p pC xsTotal xsTotalC scatter scatterC fission fissionC velocity
    velocityC external boundary coarse factor steps dt (sol 0) h hext hbnd (fun j => sol ((j : ℝ) * dt))
    (fun j => sol' ((j : ℝ) * dt)) (fun j hj => by simpa using hE j hj) (R := 0) (F := N * s) (T := 2 * L * dt * s)
    le_rfl (mul_nonneg hN hs0) (by positivity)
    (by
      rw [vdot_eq]
      simp)
    (fun j hj => by
      refine (scalarSquare_le hw h.norm _).trans ?_
      rw [mul_pow, hs2]
      refine vdot_le_volume hw fun i _ n _ g _ => ?_
      push_cast
      exact hb _ (hnn j) (htop j hj) i n g)
    (fun j hj => by
      rw [mul_pow, hs2]
      refine vdot_le_volume hw fun i _ n _ g _ => ?_
      have := quotient_truncation second hdt hL hj hF hF' i n g
      push_cast
      exact this) hA hB hm hLam rfl
  refine ⟨out, h1, fun j hj => ?_⟩
  have h3 := h2 j hj
  push_cast at h3
  refine h3.trans ?_
  have hV0 : 0 ≤ V := (h.timed.velocity 0 h.groups).le.trans (h.fastest 0 h.groups)
  have hA0 : 0 ≤ A := hA ▸ mul_nonneg (mul_nonneg h.transferNonneg (Nat.cast_nonneg _)) hV0
  have hB0 : 0 ≤ B := by
    rw [hB]
    exact mul_nonneg (mul_nonneg (mul_nonneg (by positivity) h.ratio) h.transferNonneg) h.collided.speed.le
  have hm0 : 0 ≤ m := by rw [hm]; split <;> norm_num
  have hLam0 : 0 ≤ Lam := by rw [hLam]; positivity
  have hC0 : 0 ≤ C := by rw [hC]; positivity
  have hexp : (1 + Lam * dt) ^ (j + 1) ≤ Real.exp (Lam * (((j : ℝ) + 1) * dt)) := by
    have e : Lam * (((j : ℝ) + 1) * dt) = ((j + 1 : ℕ) : ℝ) * (Lam * dt) := by push_cast; ring
    rw [e, Real.exp_nat_mul]
    refine pow_le_pow_left₀ (by positivity) ?_ _
    linarith [Real.add_one_le_exp (Lam * dt)]
  rw [← hs2, ← mul_pow]
  refine pow_le_pow_left₀ (by positivity) ?_ 2
  calc _ = (1 + Lam * dt) ^ (j + 1) * (((j : ℝ) + 1) * dt * (C * dt) * s) := by
        rw [hC]; ring
    _ ≤ Real.exp (Lam * (((j : ℝ) + 1) * dt)) * (((j : ℝ) + 1) * dt * (C * dt) * s) :=
        mul_le_mul_of_nonneg_right hexp (by positivity)
    _ = _ := by ring

end Discrete1.Props
