import Verif.Props.HybridTime
import Verif.Props.Stability

/-!
# C152-C154: sign and balance of the hybrid and BDF2 time steps

C152: the hybrid backward Euler drivers keep a non-negative flux non-negative; C153: the BDF2 drivers do not;
C154: particle balance of hybrid steps.
-/

set_option linter.unusedSectionVars false
set_option linter.unusedSimpArgs false

namespace Discrete1.Props

open Finset Discrete1.Spec Discrete1.Slab Discrete1.Tools Discrete1.MultiGroup Discrete1.Drivers

variable {K : Type*} [Field K] [LinearOrder K] [IsStrictOrderedRing K]

/-! ## C152 -/

/-- A collided problem with non-negative data on a fine mesh, on the cells of `p`: `sigmaC` is its total cross
section including the time term. -/
structure NonnegCollided (p pC : Problem K) (sigmaC : ℕ → ℕ → K) (xsC : ℕ → ℕ → ℕ → K) (coarse : ℕ → ℕ)
    (factor : ℕ → K) : Prop where
  cells : pC.cells = p.cells
  ok : ∀ c < pC.groups, SlabOk pC sigmaC c
  slab : pC.geometry = 1
  fine : ∀ c < pC.groups, ∀ n < pC.angles, FineFor pC.cells (pC.angleX n) pC.dx (fun i => sigmaC (pC.mm i) c)
  weights : ∀ n < pC.angles, 0 ≤ pC.angleW n
  xs : ∀ i < pC.cells, ∀ c < pC.groups, ∀ c' < pC.groups, 0 ≤ xsC (pC.mm i) c c'
  coarse : ∀ g < p.groups, coarse g < pC.groups
  factor : ∀ g < p.groups, 0 ≤ factor g

/-- One hybrid step (uncollided, collided, final solve) keeps a non-negative flux non-negative. -/
theorem hybrid_step_nonneg {p pC : Problem K} {xsTotal sigmaC : ℕ → ℕ → K} {xs xsC : ℕ → ℕ → ℕ → K}
    {velocity : ℕ → K} {dt : K} {old u new : ℕ → ℕ → ℕ → K} {phiC guess : ℕ → ℕ → K} {S ext bnd : Arr3 K}
    {coarse : ℕ → ℕ} {factor : ℕ → K} (hok : TimedOk p xsTotal velocity dt)
    (hfine : ∀ g < p.groups, ∀ n < p.angles,
      FineFor p.cells (p.angleX n) p.dx (fun i => xsTotal (p.mm i) g + 1 / (velocity g * dt)))
    (hw : ∀ n < p.angles, 0 ≤ p.angleW n)
    (hxs : ∀ i < p.cells, ∀ g < p.groups, ∀ g' < p.groups, 0 ≤ xs (p.mm i) g g')
    (hext : ∀ i < p.cells, ∀ n < p.angles, ∀ g < p.groups, 0 ≤ sourceAt ext i n g)
    (hbnd : ∀ s < 2, ∀ n < p.angles, ∀ g < p.groups, 0 ≤ sourceAt bnd s n g)
    (hold : ∀ i < p.cells, ∀ n < p.angles, ∀ g < p.groups, 0 ≤ old i n g)
    (hC : NonnegCollided p pC sigmaC xsC coarse factor)
    (hguess : (∀ i < p.cells, ∀ g < p.groups, 0 ≤ quadrature p u i g) →
      ∀ i < p.cells, ∀ c < pC.groups, 0 ≤ guess i c)
    (h1 : ImplicitStep p xsTotal (fun _ _ _ => 0) (fun _ _ => 0)
      (fun i n g => (u i n g - old i n g) / (velocity g * dt)) ext bnd u)
    (h2 : CollidedSource p pC xs coarse u S)
    (h3 : sourceIteration pC sigmaC (.iso xsC) S ⟨1, 1, fun _ _ _ => 0⟩ guess = .ok phiC)
    (h4 : ImplicitStep p xsTotal xs (fun i g => quadrature p u i g + phiC i (coarse g) * factor g)
      (fun i n g => (new i n g - old i n g) / (velocity g * dt)) ext bnd new) :
    (∀ i < p.cells, ∀ n < p.angles, ∀ g < p.groups, 0 ≤ u i n g) ∧
    (∀ i < p.cells, ∀ c < pC.groups, 0 ≤ phiC i c) ∧
    ∀ i < p.cells, ∀ n < p.angles, ∀ g < p.groups, 0 ≤ new i n g := by
  have hokV : ∀ g < p.groups, SlabOk p (fun m g => xsTotal m g + 1 / (velocity g * dt)) g :=
    fun g hg => xsStar_ok hok (zero_le_one (α := K)) g hg
  have hv : ∀ g < p.groups, 0 ≤ velocity g * dt := fun g hg => (mul_pos (hok.velocity g hg) hok.dt).le
  -- the fine solves
  have solve : ∀ {x : ℕ → ℕ → ℕ → K} {xs' : ℕ → ℕ → ℕ → K} {phi : ℕ → ℕ → K},
      (∀ i < p.cells, ∀ g < p.groups, 0 ≤ ∑ g' ∈ range p.groups, xs' (p.mm i) g g' * phi i g') →
      ImplicitStep p xsTotal xs' phi (fun i n g => (x i n g - old i n g) / (velocity g * dt)) ext bnd x →
      ∀ i < p.cells, ∀ n < p.angles, ∀ g < p.groups, 0 ≤ x i n g := by
    intro x xs' phi hsrc h i hi n hn g hg
    obtain ⟨e, he⟩ := implicit_balanced h
    have hpos := swept_nonneg (hokV g hg).nonzero (hokV g hg).phys (hfine g hg) (he g hg).2.1
      (he g hg).2.2 (fun n hn i hi => add_nonneg (hsrc i hi g hg) (add_nonneg (hext i hi n hn g hg)
        (div_nonneg (hold i hi n hn g hg) (hv g hg))))
      (fun n hn _ => hbnd 0 (by norm_num) n hn g hg) (fun n hn _ => hbnd 1 (by norm_num) n hn g hg)
    rw [(he g hg).1 n hn i hi]
    have h0 := hpos n hn i hi.le
    have h1 := hpos n hn (i + 1) hi
    linarith
  have hu := solve (fun i _ g _ => le_of_eq (by simp)) h1
  have hq : ∀ i < p.cells, ∀ g < p.groups, 0 ≤ quadrature p u i g := fun i hi g hg =>
    sum_nonneg fun n hn => mul_nonneg (hw n (mem_range.mp hn)) (hu i hi n (mem_range.mp hn) g hg)
  -- the collided solve
  obtain ⟨hS1, hS2, hS3⟩ := h2
  have hSn : ∀ i < p.cells, ∀ c, 0 ≤ S.val i 0 c := fun i hi c => by
    rw [hS3 i hi c]
    refine sum_nonneg fun g hg => sum_nonneg fun g' hg' => ?_
    have hg := mem_range.mp (mem_filter.mp hg).1
    have hg' := mem_range.mp hg'
    exact mul_nonneg (hxs i hi g hg g' hg') (hq i hi g' hg')
  obtain ⟨flux, hf, hfn⟩ := C16_source_iteration_nonneg pC sigmaC xsC S ⟨1, 1, fun _ _ _ => 0⟩ guess hC.ok
    hC.slab hC.fine (fun c hc => ⟨hC.weights, fun n hn i hi => by
        have e : bidx S.angles n = 0 := by rw [hS1]; simp [bidx]
        show 0 ≤ S.val i (bidx S.angles n) (bidx S.groups c)
        rw [e]
        exact hSn i (hC.cells ▸ hi) _, fun _ _ _ => le_refl _, fun _ _ _ => le_refl _⟩) hC.xs
    (fun i hi c hc => hguess hq i (hC.cells ▸ hi) c hc)
  have hphi : ∀ i < p.cells, ∀ c < pC.groups, 0 ≤ phiC i c := by
    have := Except.ok.inj (hf.symm.trans h3)
    rw [← this, ← hC.cells]; exact hfn
  refine ⟨hu, hphi, solve (fun i hi g hg => sum_nonneg fun g' hg' => ?_) h4⟩
  have hg' := mem_range.mp hg'
  exact mul_nonneg (hxs i hi g hg g' hg') (add_nonneg (hq i hi g' hg')
    (mul_nonneg (hphi i hi _ (hC.coarse g' hg')) (hC.factor g' hg')))

/-- C152 for `hybrid1d.backward_euler`: with non-negative data, prolongation factors and initial flux, on a mesh
that is fine for the fine and for the collided problem, the returned flux is non-negative in every step, cell and
group, whatever the grids are and however early the collided iteration stops. -/
theorem C152_hybrid_backward_euler_nonneg (p pC : Problem K) (xsTotal xsTotalC : ℕ → ℕ → K)
    (scatter scatterC : ℕ → ℕ → ℕ → K) (fission fissionC : Fission K) (velocity velocityC : ℕ → K)
    (external boundary : TimeArr K) (coarse : ℕ → ℕ) (factor : ℕ → K) (steps : ℕ) (dt : K)
    (init : ℕ → ℕ → ℕ → K) (hok : TimedOk p xsTotal velocity dt) (hG : 0 < p.groups)
    (hokC : ∀ c < pC.groups, SlabOk pC xsTotalC c) (hvC : ∀ c < pC.groups, 0 < velocityC c)
    (hext : Covers external steps) (hbnd : Covers boundary steps)
    (hdata : NonnegTimed p xsTotal (fun m g g' => scatter m g g' + fissionMatrix fission m g g') velocity dt
      external boundary steps init)
    (hC : NonnegCollided p pC (fun m c => xsTotalC m c + 1 / (velocityC c * dt))
      (fun m g g' => scatterC m g g' + fissionMatrix fissionC m g g') coarse factor) :
    ∃ out, hybridRun false p pC xsTotal xsTotalC (.iso scatter) (.iso scatterC) fission fissionC velocity
        velocityC external boundary coarse factor steps dt init = .ok out ∧
      ∀ j < steps, ∀ i < p.cells, ∀ g < p.groups, 0 ≤ out j i g := by
  obtain ⟨out, psi, u, phiC, S, hrun, h0, hstep⟩ := C36_hybrid_steps false p pC xsTotal xsTotalC scatter scatterC
    fission fissionC velocity velocityC external boundary coarse factor steps dt init hok hG hokC hvC hext hbnd
  refine ⟨out, hrun, ?_⟩
  have hrate : ∀ j (x : ℕ → ℕ → ℕ → K), timeRate false j psi x velocity dt
      = fun i n g => (x i n g - psi j i n g) / (velocity g * dt) := fun j x => by
    unfold timeRate; simp
  have key : ∀ j ≤ steps, ∀ i < p.cells, ∀ n < p.angles, ∀ g < p.groups, 0 ≤ psi j i n g := by
    intro j
    induction j with
    | zero => intro _; rw [h0]; exact hdata.init
    | succ j ih =>
      intro hj
      have hj : j < steps := hj
      obtain ⟨k1, k2, k3, k4, _⟩ := hstep j hj
      rw [hrate] at k1 k4
      have hc : timeCoef K false j = 1 := by simp [timeCoef]
      rw [hc] at k3
      exact (hybrid_step_nonneg hok hdata.fine hdata.weights hdata.xs (hdata.ext j hj) (hdata.bnd j hj)
        (ih hj.le) hC (fun _ _ _ _ _ => le_refl _) k1 k2 k3 k4).2.2
  intro j hj i hi g hg
  rw [(hstep j hj).2.2.2.2 i g]
  exact sum_nonneg fun n hn => mul_nonneg (hdata.weights n (mem_range.mp hn))
    (key (j + 1) hj i hi n (mem_range.mp hn) g hg)

/-- C152 for `vhybrid1d.backward_euler`: the same for any sequence of collided grids, with the collapsed cross
sections and speeds of each step. -/
theorem C152_vhybrid_backward_euler_nonneg (p : Problem K) (grid : ℕ → Collided K) (xsTotal : ℕ → ℕ → K)
    (scatter fission : ℕ → ℕ → ℕ → K) (velocity : ℕ → K) (external boundary : TimeArr K) (steps : ℕ) (dt : K)
    (init : ℕ → ℕ → ℕ → K) (hok : TimedOk p xsTotal velocity dt) (hG : 0 < p.groups)
    (hokC : ∀ j < steps, ∀ c < (grid j).pC.groups,
      SlabOk (grid j).pC (Hybrid.xsVectorCoarsen xsTotal (grid j).edges (grid j).e) c)
    (hvC : ∀ j < steps, ∀ c < (grid j).pC.groups, 0 < Hybrid.coarsenVelocity velocity (grid j).e c)
    (hin : ∀ j < steps, ∀ c < (grid j).pC.groups, (grid j).e (c + 1) ≤ p.groups)
    (hext : Covers external steps) (hbnd : Covers boundary steps)
    (hdata : NonnegTimed p xsTotal (fun m g g' => scatter m g g' + fission m g g') velocity dt
      external boundary steps init)
    (hC : ∀ j < steps, ∀ m, (Hybrid.coarsenMaterials xsTotal (some fun m g g' => scatter m g g' + fission m g g')
        none (grid j).edges (grid j).e).2.1 = some m →
      NonnegCollided p (grid j).pC (fun mat c =>
        (Hybrid.coarsenMaterials xsTotal none none (grid j).edges (grid j).e).1 mat c
          + 1 / (Hybrid.coarsenVelocity velocity (grid j).e c * dt)) m (grid j).coarseIdx (grid j).factor) :
    ∃ out, vhybridRun false p grid xsTotal scatter fission velocity external boundary steps dt init = .ok out ∧
      ∀ j < steps, ∀ i < p.cells, ∀ g < p.groups, 0 ≤ out j i g := by
  obtain ⟨out, psi, u, phiC, guess, S, m, hrun, h0, hstep⟩ := C36_vhybrid_steps false p grid xsTotal scatter
    fission velocity external boundary steps dt init hok hG hokC hvC hext hbnd
  refine ⟨out, hrun, ?_⟩
  have hrate : ∀ j (x : ℕ → ℕ → ℕ → K), timeRate false j psi x velocity dt
      = fun i n g => (x i n g - psi j i n g) / (velocity g * dt) := fun j x => by
    unfold timeRate; simp
  have key : ∀ j ≤ steps, ∀ i < p.cells, ∀ n < p.angles, ∀ g < p.groups, 0 ≤ psi j i n g := by
    intro j
    induction j with
    | zero => intro _; rw [h0]; exact hdata.init
    | succ j ih =>
      intro hj
      have hj : j < steps := hj
      obtain ⟨k1, k2, km, k3, k4, _, kg⟩ := hstep j hj
      rw [hrate] at k1 k4
      have hc : timeCoef K false j = 1 := by simp [timeCoef]
      rw [hc] at k3
      refine (hybrid_step_nonneg hok hdata.fine hdata.weights hdata.xs (hdata.ext j hj) (hdata.bnd j hj)
        (ih hj.le) (hC j hj _ km) (fun hq i hi c hc => ?_) k1 k2 k3 k4).2.2
      rw [kg i hi c hc (hin j hj c hc)]
      exact sum_nonneg fun g hg => hq i hi g (lt_of_lt_of_le (mem_Ico.mp hg).2 (hin j hj c hc))
  intro j hj i hi g hg
  rw [(hstep j hj).2.2.2.2.2.1 i g]
  exact sum_nonneg fun n hn => mul_nonneg (hdata.weights n (mem_range.mp hn))
    (key (j + 1) hj i hi n (mem_range.mp hn) g hg)

/-! ## C153 -/

/-- A one-cell slab between vacua without scattering, fission or sources, full of particles at the start; every
direction leaves the cell so fast, or is absorbed so strongly, that `(sigma + 2 |mu| / dx) v dt > 3`. -/
structure FastDecay (p : Problem K) (xsTotal : ℕ → ℕ → K) (velocity : ℕ → K) (dt : K)
    (external boundary : TimeArr K) : Prop where
  cells : p.cells = 1
  left : p.bcL = false
  right : p.bcR = false
  weights : ∀ n < p.angles, 0 < p.angleW n
  ext : ∀ j n g, sourceAt (entry external j) 0 n g = 0
  bnd : ∀ j s n g, sourceAt (entry boundary j) s n g = 0
  fast : ∀ n < p.angles, ∀ g < p.groups,
    3 < (xsTotal (p.mm 0) g + 2 * |p.angleX n| / p.dx 0) * (velocity g * dt)

/-- An implicit step of such a problem is a number per direction. -/
theorem oneCell_step {p : Problem K} {xsTotal : ℕ → ℕ → K} {velocity : ℕ → K} {dt : K}
    {external boundary : TimeArr K} (hd : FastDecay p xsTotal velocity dt external boundary)
    {j : ℕ} {xs : ℕ → ℕ → ℕ → K} {phi : ℕ → ℕ → K} {rate psi : ℕ → ℕ → ℕ → K}
    (hxs : ∀ g g', xs (p.mm 0) g g' = 0)
    (h : ImplicitStep p xsTotal xs phi rate (entry external j) (entry boundary j) psi) :
    ∀ n < p.angles, ∀ g < p.groups,
      rate 0 n g + (xsTotal (p.mm 0) g + 2 * |p.angleX n| / p.dx 0) * psi 0 n g = 0 := by
  intro n hn g hg
  obtain ⟨e, he⟩ := h
  obtain ⟨h1, h2, h3⟩ := he g hg
  have h0 : 0 < p.cells := by rw [hd.cells]; omega
  have a1 := h1 n hn 0 h0
  have a2 := h2 n hn 0 h0
  have a3 := h3 n hn
  simp only [hxs, zero_mul, sum_const_zero, zero_add, hd.ext, hd.bnd, hd.left, hd.right, hd.cells] at a1 a2 a3
  have hr : ¬ (p.angles - 1 - n < n ∧ leavesReflecting false false (p.angleX (p.angles - 1 - n))) := by
    rintro ⟨-, hl⟩
    simp [leavesReflecting] at hl
  rw [if_neg hr] at a3
  rcases le_or_gt (p.angleX n) 0 with hm | hm
  · have hi : e g n 1 = 0 := by
      have : inflow 1 (p.angleX n) (e g n) = e g n 1 := by unfold inflow; rw [if_neg (not_lt.mpr hm)]
      rw [← this, a3]; simp
    have hp : e g n 0 = 2 * psi 0 n g := by rw [a1, hi]; ring
    rw [hi, hp] at a2
    rw [abs_of_nonpos hm]
    linear_combination a2
  · have hi : e g n 0 = 0 := by
      have : inflow 1 (p.angleX n) (e g n) = e g n 0 := by unfold inflow; rw [if_pos hm]
      rw [← this, a3]; simp
    have hp : e g n 1 = 2 * psi 0 n g := by rw [a1, hi]; ring
    rw [hi, hp] at a2
    rw [abs_of_pos hm]
    linear_combination a2

/-- Two BDF2 steps of such a problem (the first one backward Euler) end below zero. -/
theorem bdf2_negative {p : Problem K} {xsTotal : ℕ → ℕ → K} {velocity : ℕ → K} {dt : K}
    {external boundary : TimeArr K} (hd : FastDecay p xsTotal velocity dt external boundary)
    (hok : TimedOk p xsTotal velocity dt) {psi : ℕ → ℕ → ℕ → ℕ → K} {xs : ℕ → ℕ → ℕ → K}
    (hxs : ∀ g g', xs (p.mm 0) g g' = 0) (h0 : ∀ n < p.angles, ∀ g < p.groups, psi 0 0 n g = 1)
    {phi0 phi1 : ℕ → ℕ → K}
    (h1 : ImplicitStep p xsTotal xs phi0 (timeRate true 0 psi (psi 1) velocity dt) (entry external 0)
      (entry boundary 0) (psi 1))
    (h2 : ImplicitStep p xsTotal xs phi1 (timeRate true 1 psi (psi 2) velocity dt) (entry external 1)
      (entry boundary 1) (psi 2)) :
    ∀ g < p.groups, 0 < quadrature p (psi 1) 0 g ∧ quadrature p (psi 2) 0 g < 0 := by
  intro g hg
  have hv : 0 < velocity g * dt := mul_pos (hok.velocity g hg) hok.dt
  have key : ∀ n < p.angles, 0 < psi 1 0 n g ∧ psi 2 0 n g < 0 := by
    intro n hn
    have a1 := oneCell_step hd hxs h1 n hn g hg
    have a2 := oneCell_step hd hxs h2 n hn g hg
    have hf := hd.fast n hn g hg
    simp only [timeRate, h0 n hn g hg] at a1 a2
    norm_num at a1 a2
    set s := xsTotal (p.mm 0) g + 2 * |p.angleX n| / p.dx 0
    set t := velocity g * dt
    have b1 : psi 1 0 n g * (1 + s * t) = 1 := by
      field_simp at a1
      linear_combination a1
    have b2 : psi 2 0 n g * (3 / 2 + s * t) = 2 * psi 1 0 n g - 1 / 2 := by
      rw [div_add' _ _ _ hv.ne', div_eq_zero_iff] at a2
      rcases a2 with h | h
      · linear_combination h
      · exact absurd h hv.ne'
    have c1 : 0 < psi 1 0 n g := by
      by_contra hc
      have := mul_nonpos_of_nonpos_of_nonneg (not_lt.mp hc) (by linarith : 0 ≤ 1 + s * t)
      linarith
    have c2 : psi 1 0 n g < 1 / 4 := by
      by_contra hc
      have := mul_le_mul_of_nonneg_right (not_lt.mp hc) (by linarith : 0 ≤ 1 + s * t)
      linarith
    refine ⟨c1, ?_⟩
    by_contra hc
    have := mul_nonneg (not_lt.mp hc) (by linarith : 0 ≤ 3 / 2 + s * t)
    linarith
  have hA : (range p.angles).Nonempty := ⟨0, mem_range.mpr (by have := hok.angles; omega)⟩
  refine ⟨sum_pos (fun n hn => mul_pos (hd.weights n (mem_range.mp hn)) (key n (mem_range.mp hn)).1) hA, ?_⟩
  have : 0 < ∑ n ∈ range p.angles, -(p.angleW n * psi 2 0 n g) := sum_pos (fun n hn => by
    have := mul_neg_of_pos_of_neg (hd.weights n (mem_range.mp hn)) (key n (mem_range.mp hn)).2
    linarith) hA
  rw [sum_neg_distrib] at this
  unfold quadrature
  linarith

/-- C153, violated by `timed1d.bdf2`: a one-cell absorber full of particles, nothing coming in; after the second
step the scalar flux is negative in every group.  (No mesh condition helps: refining the cell makes the decay
faster.) -/
theorem C153_violation_bdf2 (p : Problem K) (xsTotal : ℕ → ℕ → K) (velocity : ℕ → K)
    (external boundary : TimeArr K) (steps : ℕ) (dt : K) (hok : TimedOk p xsTotal velocity dt)
    (hG : 0 < p.groups) (hs : 2 ≤ steps) (hext : Covers external steps) (hbnd : Covers boundary steps)
    (hd : FastDecay p xsTotal velocity dt external boundary) :
    ∃ out, bdf2 p xsTotal (.iso fun _ _ _ => 0) (.matrix fun _ _ _ => 0) velocity external boundary steps dt
        (fun _ _ _ => 1) = .ok out ∧ ∀ g < p.groups, 0 < out 0 0 g ∧ out 1 0 g < 0 := by
  obtain ⟨out, psi, hrun, h0, hstep, hsi, hsol⟩ := C33_bdf2 p xsTotal (fun _ _ _ => 0) (.matrix fun _ _ _ => 0)
    velocity external boundary steps dt (fun _ _ _ => 1) hok hG hext hbnd
  refine ⟨out, hrun, fun g hg => ?_⟩
  have hc : 0 < p.cells := by rw [hd.cells]; omega
  have hnum : ∀ j : ℕ, (0 : K) ≤ if j = 0 then 1 else 3 / 2 := fun j => by split <;> norm_num
  have ho : ∀ j < steps, out j 0 g = quadrature p (psi (j + 1)) 0 g := fun j hj => by
    obtain ⟨f, e, k1, k2⟩ := C22_downscatter_exact p _
      (fun m g g' => (fun _ _ _ => (0 : K)) m g g' + fissionMatrix (.matrix fun _ _ _ => (0 : K)) m g g')
      ⟨p.angles, p.groups, fun i n g => sourceAt (entry external j) i n g
            + (if j = 0 then psi 0 i n g else 2 * psi j i n g - 1 / 2 * psi (j - 1) i n g)
              / (velocity g * dt)⟩ (entry boundary j)
      (if j = 0 then quadrature p (fun _ _ _ => 1) else out (j - 1)) (xsStar_ok hok (hnum j))
      (fun m g g' _ => by simp [fissionMatrix])
    have k3 := hsi j hj
    have : f = out j := Except.ok.inj (k1.symm.trans k3)
    subst this
    exact hsol j hj ⟨e, k2⟩ 0 hc g hg
  rw [ho 0 (by omega), ho 1 (by omega)]
  exact bdf2_negative hd hok (fun g g' => by simp [fissionMatrix]) (fun n _ g _ => by rw [h0])
    (hstep 0 (by omega)) (hstep 1 (by omega)) g hg

/-- C153, violated by `hybrid1d.bdf2` in the same way, whatever the collided grid. -/
theorem C153_violation_hybrid_bdf2 (p pC : Problem K) (xsTotal xsTotalC : ℕ → ℕ → K)
    (scatterC : ℕ → ℕ → ℕ → K) (fissionC : Fission K) (velocity velocityC : ℕ → K)
    (external boundary : TimeArr K) (coarse : ℕ → ℕ) (factor : ℕ → K) (steps : ℕ) (dt : K)
    (hok : TimedOk p xsTotal velocity dt) (hG : 0 < p.groups)
    (hokC : ∀ c < pC.groups, SlabOk pC xsTotalC c) (hvC : ∀ c < pC.groups, 0 < velocityC c)
    (hs : 2 ≤ steps) (hext : Covers external steps) (hbnd : Covers boundary steps)
    (hd : FastDecay p xsTotal velocity dt external boundary) :
    ∃ out, hybridRun true p pC xsTotal xsTotalC (.iso fun _ _ _ => 0) (.iso scatterC) (.matrix fun _ _ _ => 0)
        fissionC velocity velocityC external boundary coarse factor steps dt (fun _ _ _ => 1) = .ok out ∧
      ∀ g < p.groups, 0 < out 0 0 g ∧ out 1 0 g < 0 := by
  obtain ⟨out, psi, u, phiC, S, hrun, h0, hstep⟩ := C36_hybrid_steps true p pC xsTotal xsTotalC (fun _ _ _ => 0)
    scatterC (.matrix fun _ _ _ => 0) fissionC velocity velocityC external boundary coarse factor steps dt
    (fun _ _ _ => 1) hok hG hokC hvC hext hbnd
  refine ⟨out, hrun, fun g hg => ?_⟩
  rw [(hstep 0 (by omega)).2.2.2.2, (hstep 1 (by omega)).2.2.2.2]
  exact bdf2_negative hd hok (fun g g' => by simp [fissionMatrix]) (fun n _ g _ => by rw [h0])
    (hstep 0 (by omega)).2.2.2.1 (hstep 1 (by omega)).2.2.2.1 g hg

/-- C153, the part that holds: the first step of `timed1d.bdf2` is a backward Euler step and keeps the sign. -/
theorem C153_first_step_partial (p : Problem K) (xsTotal : ℕ → ℕ → K) (scatter : ℕ → ℕ → ℕ → K)
    (fission : Fission K) (velocity : ℕ → K) (external boundary : TimeArr K) (steps : ℕ) (dt : K)
    (init : ℕ → ℕ → ℕ → K) (hok : TimedOk p xsTotal velocity dt) (hG : 0 < p.groups) (hs : 0 < steps)
    (hext : Covers external steps) (hbnd : Covers boundary steps)
    (hdata : NonnegTimed p xsTotal (fun m g g' => scatter m g g' + fissionMatrix fission m g g') velocity dt
      external boundary 1 init) :
    ∃ out, bdf2 p xsTotal (.iso scatter) fission velocity external boundary steps dt init = .ok out ∧
      ∀ i < p.cells, ∀ g < p.groups, 0 ≤ out 0 i g := by
  obtain ⟨out, psi, hrun, h0, _, hsi, _⟩ := C33_bdf2 p xsTotal scatter fission velocity external boundary steps dt
    init hok hG hext hbnd
  obtain ⟨outE, psiE, hrunE, h0E, _, hsiE, _⟩ := C32_backward_euler p xsTotal scatter fission velocity external
    boundary 1 dt init hok hG (hext.imp_right fun h => by omega) (hbnd.imp_right fun h => by omega)
  obtain ⟨outE', hrunE', hpos⟩ := C97_backward_euler_nonneg p xsTotal scatter fission velocity external
    boundary 1 dt init hok hG (hext.imp_right fun h => by omega) (hbnd.imp_right fun h => by omega) hdata
  have : outE = outE' := Except.ok.inj (hrunE.symm.trans hrunE')
  subst this
  have e : out 0 = outE 0 := by
    have a := hsi 0 hs
    have b := hsiE 0 (by omega)
    simp only [if_true, h0, h0E] at a b
    exact Except.ok.inj (a.symm.trans b)
  exact ⟨out, hrun, by rw [e]; exact hpos 0 (by omega)⟩

/-! ## C154 -/

/-- Change of the number of particles per time step: first order, or second order from step 1 on. -/
def inventoryRate (second : Bool) (j : ℕ) (p : Problem K) (velocity : ℕ → K) (dt : K)
    (psi : ℕ → ℕ → ℕ → ℕ → K) (g : ℕ) : K :=
  (if second = true ∧ j ≠ 0 then 3 / 2 * inventory p velocity (psi (j + 1)) g - 2 * inventory p velocity (psi j) g
      + 1 / 2 * inventory p velocity (psi (j - 1)) g
    else inventory p velocity (psi (j + 1)) g - inventory p velocity (psi j) g) / dt

theorem timeRate_inventory (second : Bool) (j : ℕ) (p : Problem K) (velocity : ℕ → K) (dt : K)
    (psi : ℕ → ℕ → ℕ → ℕ → K) (g : ℕ) (hv : velocity g ≠ 0) (hdt : dt ≠ 0) :
    ∑ i ∈ range p.cells, p.dx i * quadrature p (timeRate second j psi (psi (j + 1)) velocity dt) i g
      = inventoryRate second j p velocity dt psi g := by
  unfold inventoryRate
  by_cases h : second = true ∧ j ≠ 0
  · have h2 := rate_inventory p velocity dt (3 / 2) (-2) (1 / 2) (psi (j + 1)) (psi j) (psi (j - 1)) g hv hdt
    have h3 : (fun i n g => (3 / 2 * psi (j + 1) i n g + -2 * psi j i n g + 1 / 2 * psi (j - 1) i n g)
          / (velocity g * dt)) = timeRate second j psi (psi (j + 1)) velocity dt := by
      funext i n g; unfold timeRate; rw [if_pos h]; ring
    rw [h3] at h2
    rw [h2, if_pos h]; ring
  · have h2 := rate_inventory p velocity dt 1 (-1) 0 (psi (j + 1)) (psi j) (psi j) g hv hdt
    have h3 : (fun i n g => (1 * psi (j + 1) i n g + -1 * psi j i n g + 0 * psi j i n g)
          / (velocity g * dt)) = timeRate second j psi (psi (j + 1)) velocity dt := by
      funext i n g; unfold timeRate; rw [if_neg h]; ring
    rw [h3] at h2
    rw [h2, if_neg h]; ring

/-- Particles that scattering and fission of the combined flux produce in group `g` beyond those of the returned
flux. -/
def productionDefect (p : Problem K) (xs : ℕ → ℕ → ℕ → K) (combined returned : ℕ → ℕ → K) (g : ℕ) : K :=
  ∑ i ∈ range p.cells, p.dx i * ∑ g' ∈ range p.groups, xs (p.mm i) g g' * (combined i g' - returned i g')

theorem step_balance_defect {second : Bool} {j : ℕ} {p : Problem K} {xsTotal : ℕ → ℕ → K} {velocity : ℕ → K}
    {dt : K} (hok : TimedOk p xsTotal velocity dt) (hG : 0 < p.groups)
    (hw : ∑ n ∈ range p.angles, p.angleW n = 1) {xs : ℕ → ℕ → ℕ → K} {phi : ℕ → ℕ → K} {ext bnd : Arr3 K}
    {psi : ℕ → ℕ → ℕ → ℕ → K}
    (h : ImplicitStep p xsTotal xs phi (timeRate second j psi (psi (j + 1)) velocity dt) ext bnd (psi (j + 1))) :
    ∃ e, EdgesOf p bnd (psi (j + 1)) e ∧ ∀ g < p.groups,
      inventoryRate second j p velocity dt psi g + netLeakage p e g + collisions p xsTotal (psi (j + 1)) g
        = stepProduction p xs ext (quadrature p (psi (j + 1))) g
          + productionDefect p xs phi (quadrature p (psi (j + 1))) g := by
  have hdx : ∀ i < p.cells, p.dx i ≠ 0 := fun i hi => ((hok.ok 0 hG).phys i hi).1.ne'
  obtain ⟨e, he⟩ := implicit_step_balance hdx hw h
  refine ⟨e, fun g hg => ⟨(he g hg).1, (he g hg).2.1⟩, fun g hg => ?_⟩
  have h1 := (he g hg).2.2
  rw [timeRate_inventory second j p velocity dt psi g (hok.velocity g hg).ne' hok.dt.ne'] at h1
  have h2 : productionDefect p xs phi (quadrature p (psi (j + 1))) g
      = ∑ i ∈ range p.cells, p.dx i * (∑ g' ∈ range p.groups, xs (p.mm i) g g' * phi i g')
        - ∑ i ∈ range p.cells, p.dx i * (∑ g' ∈ range p.groups, xs (p.mm i) g g'
            * quadrature p (psi (j + 1)) i g') := by
    unfold productionDefect
    rw [← sum_sub_distrib]
    refine sum_congr rfl fun i _ => ?_
    rw [← mul_sub, ← sum_sub_distrib]
    exact congrArg _ (sum_congr rfl fun g' _ => by ring)
  rw [h2]
  unfold netLeakage collisions stepProduction
  linear_combination h1

/-- C154 for the steps of `hybrid1d`: change of the particle number, leakage and collisions of the returned flux
balance the external source and the production of the *combined* flux (uncollided plus prolonged collided).  The
full property has the returned flux there; the difference is the production of the two fluxes' difference. -/
theorem C154_hybrid_balance_partial (second : Bool) (p pC : Problem K) (xsTotal xsTotalC : ℕ → ℕ → K)
    (scatter scatterC : ℕ → ℕ → ℕ → K) (fission fissionC : Fission K) (velocity velocityC : ℕ → K)
    (external boundary : TimeArr K) (coarse : ℕ → ℕ) (factor : ℕ → K) (steps : ℕ) (dt : K)
    (init : ℕ → ℕ → ℕ → K) (hok : TimedOk p xsTotal velocity dt) (hG : 0 < p.groups)
    (hw : ∑ n ∈ range p.angles, p.angleW n = 1)
    (hokC : ∀ c < pC.groups, SlabOk pC xsTotalC c) (hvC : ∀ c < pC.groups, 0 < velocityC c)
    (hext : Covers external steps) (hbnd : Covers boundary steps) :
    ∃ (out : ℕ → ℕ → ℕ → K) (psi u e : ℕ → ℕ → ℕ → ℕ → K) (phiC : ℕ → ℕ → ℕ → K) (S : ℕ → Arr3 K),
      hybridRun second p pC xsTotal xsTotalC (.iso scatter) (.iso scatterC) fission fissionC velocity
        velocityC external boundary coarse factor steps dt init = .ok out ∧ psi 0 = init ∧
      ∀ j < steps, EdgesOf p (entry boundary j) (psi (j + 1)) (e j) ∧
        (∀ i g, out j i g = quadrature p (psi (j + 1)) i g) ∧
        ImplicitStep p xsTotal (fun _ _ _ => 0) (fun _ _ => 0) (timeRate second j psi (u j) velocity dt)
          (entry external j) (entry boundary j) (u j) ∧
        CollidedSource p pC (fun m g g' => scatter m g g' + fissionMatrix fission m g g') coarse (u j) (S j) ∧
        sourceIteration pC (fun m c => xsTotalC m c + timeCoef K second j / (velocityC c * dt))
          (.iso fun m g g' => scatterC m g g' + fissionMatrix fissionC m g g') (S j)
          ⟨1, 1, fun _ _ _ => 0⟩ (fun _ _ => 0) = .ok (phiC j) ∧
        ∀ g < p.groups, inventoryRate second j p velocity dt psi g + netLeakage p (e j) g
            + collisions p xsTotal (psi (j + 1)) g
          = stepProduction p (fun m g g' => scatter m g g' + fissionMatrix fission m g g') (entry external j)
              (quadrature p (psi (j + 1))) g
            + productionDefect p (fun m g g' => scatter m g g' + fissionMatrix fission m g g')
              (fun i g => quadrature p (u j) i g + phiC j i (coarse g) * factor g)
              (quadrature p (psi (j + 1))) g := by
  obtain ⟨out, psi, u, phiC, S, hrun, h0, hstep⟩ := C36_hybrid_steps second p pC xsTotal xsTotalC scatter scatterC
    fission fissionC velocity velocityC external boundary coarse factor steps dt init hok hG hokC hvC hext hbnd
  have hb := fun j (hj : j < steps) => step_balance_defect hok hG hw (hstep j hj).2.2.2.1
  choose! e he using hb
  exact ⟨out, psi, u, e, phiC, S, hrun, h0, fun j hj => ⟨(he j hj).1, (hstep j hj).2.2.2.2, (hstep j hj).1,
    (hstep j hj).2.1, (hstep j hj).2.2.1, (he j hj).2⟩⟩

/-- C154 where it holds: on equal grids, with every collided iteration solved, the hybrid drivers conserve
particles exactly. -/
theorem C154_equal_grids (second : Bool) (p : Problem K) (xsTotal : ℕ → ℕ → K)
    (scatter : ℕ → ℕ → ℕ → K) (fission : Fission K) (velocity : ℕ → K)
    (external boundary : TimeArr K) (coarse : ℕ → ℕ) (factor : ℕ → K) (steps : ℕ) (dt : K)
    (init : ℕ → ℕ → ℕ → K) (hok : TimedOk p xsTotal velocity dt) (hG : 0 < p.groups)
    (hw : ∑ n ∈ range p.angles, p.angleW n = 1)
    (hid : ∀ g < p.groups, coarse g = g ∧ factor g = 1)
    (hext : Covers external steps) (hbnd : Covers boundary steps)
    (hdown : ∀ m g g', g ≤ g' → scatter m g g' + fissionMatrix fission m g g' = 0) :
    ∃ (out : ℕ → ℕ → ℕ → K) (psi e : ℕ → ℕ → ℕ → ℕ → K),
      hybridRun second p p xsTotal xsTotal (.iso scatter) (.iso scatter) fission fission velocity
        velocity external boundary coarse factor steps dt init = .ok out ∧ psi 0 = init ∧
      ∀ j < steps, EdgesOf p (entry boundary j) (psi (j + 1)) (e j) ∧
        (∀ i g, out j i g = quadrature p (psi (j + 1)) i g) ∧
        ∀ g < p.groups, inventoryRate second j p velocity dt psi g + netLeakage p (e j) g
            + collisions p xsTotal (psi (j + 1)) g
          = stepProduction p (fun m g g' => scatter m g g' + fissionMatrix fission m g g') (entry external j)
              (quadrature p (psi (j + 1))) g := by
  obtain ⟨out, psi, phiC, S, hrun, h0, ho, hsi, himp⟩ := C37_hybrid_fully_implicit second p xsTotal scatter
    fission velocity external boundary coarse factor steps dt init hok hG hid hext hbnd
  have hF := himp fun j hj => by
    obtain ⟨phi, e, k1, k2⟩ := C22_downscatter_exact p _ _ (S j) ⟨1, 1, fun _ _ _ => 0⟩ (fun _ _ => 0)
      (xsStar_ok hok (timeCoef_nonneg (K := K) second j)) hdown
    have := Except.ok.inj (k1.symm.trans (hsi j hj))
    subst this
    exact ⟨e, k2⟩
  have hb := fun j (hj : j < steps) => step_balance_defect hok hG hw (hF j hj)
  choose! e he using hb
  refine ⟨out, psi, e, hrun, h0, fun j hj => ⟨(he j hj).1, ho j hj, fun g hg => ?_⟩⟩
  rw [(he j hj).2 g hg]
  simp [productionDefect]

/-! ## Examples -/

/-- One cell of width 1 between vacua, directions ±1/2, two groups. -/
def exCell : Problem ℚ where
  cells := 1
  groups := 2
  angles := 2
  mm := fun _ => 0
  dx := fun _ => 1
  angleX := fun n => if n = 0 then -1/2 else 1/2
  angleW := fun _ => 1/2
  bcL := false
  bcR := false
  geometry := 1
  pi := 3
  convIn := fun _ _ => true
  convOut := fun _ _ => true

/-- Both groups, of equal width, collapsed into one. -/
def exCellC : Problem ℚ := { exCell with groups := 1 }

/-- Totals 1 and 2; the collapsed total is their mean. -/
def exCellTotal : ℕ → ℕ → ℚ := fun _ g => if g = 0 then 1 else 2

/-- Half a particle of group 0 goes on into group 1; collapsed: a quarter. -/
def exCellScatter : ℕ → ℕ → ℕ → ℚ := fun _ g g' => if g' = 0 ∧ g = 1 then 1 / 2 else 0

/-- C154, violated: one hybrid backward Euler step with the two groups of `exCell` collapsed into one, a unit
source, nothing there at the start.  No angular flux with the returned scalar flux, and no edge fluxes of it,
balance: the returned flux of group 1 is 33/112, a conservative one would be 7/24. -/
theorem C154_violation_coarse :
    ∃ out, hybridRun false exCell exCellC exCellTotal (fun _ _ => 3 / 2) (.iso exCellScatter)
        (.iso fun _ _ _ => 1 / 4) (.matrix fun _ _ _ => 0) (.matrix fun _ _ _ => 0) (fun _ => 1) (fun _ => 1)
        ⟨1, fun _ => ⟨1, 1, fun _ _ _ => 1⟩⟩ ⟨1, fun _ => ⟨1, 1, fun _ _ _ => 0⟩⟩ (fun _ => 0) (fun _ => 1 / 2)
        1 1 (fun _ _ _ => 0) = .ok out ∧
      ¬ ∃ psi e, EdgesOf exCell ⟨1, 1, fun _ _ _ => 0⟩ psi e ∧
        (∀ i < 1, ∀ g < 2, quadrature exCell psi i g = out 0 i g) ∧ ∀ g < 2,
          (inventory exCell (fun _ => 1) psi g - inventory exCell (fun _ => 1) (fun _ _ _ => 0) g) / 1
            + netLeakage exCell e g + collisions exCell exCellTotal psi g
          = stepProduction exCell exCellScatter ⟨1, 1, fun _ _ _ => 1⟩ (out 0) g := by
  have hval : ((hybridRun false exCell exCellC exCellTotal (fun _ _ => 3 / 2) (.iso exCellScatter)
        (.iso fun _ _ _ => 1 / 4) (.matrix fun _ _ _ => 0) (.matrix fun _ _ _ => 0) (fun _ => 1) (fun _ => 1)
        ⟨1, fun _ => ⟨1, 1, fun _ _ _ => 1⟩⟩ ⟨1, fun _ => ⟨1, 1, fun _ _ _ => 0⟩⟩ (fun _ => 0) (fun _ => 1 / 2)
        1 1 (fun _ _ _ => 0)).toOption.map fun o => (o 0 0 0, o 0 0 1)) = some (1 / 3, 33 / 112) := by
    decide +kernel
  generalize hybridRun false exCell exCellC exCellTotal (fun _ _ => 3 / 2) (.iso exCellScatter)
        (.iso fun _ _ _ => 1 / 4) (.matrix fun _ _ _ => 0) (.matrix fun _ _ _ => 0) (fun _ => 1) (fun _ => 1)
        ⟨1, fun _ => ⟨1, 1, fun _ _ _ => 1⟩⟩ ⟨1, fun _ => ⟨1, 1, fun _ _ _ => 0⟩⟩ (fun _ => 0) (fun _ => 1 / 2)
        1 1 (fun _ _ _ => 0) = r at hval
  cases r with
  | error _ => simp [Except.toOption] at hval
  | ok out =>
    refine ⟨out, rfl, ?_⟩
    simp only [Except.toOption, Option.map_some, Option.some.injEq, Prod.mk.injEq] at hval
    rintro ⟨psi, e, he, hq, hb⟩
    have hb1 := hb 1 (by omega)
    have hq1 := hq 0 (by omega) 1 (by omega)
    obtain ⟨h1, h2⟩ := he 1 (by show 1 < 2; omega)
    have a0 := h1 0 (by show 0 < 2; omega) 0 (by show 0 < 1; omega)
    have a1 := h1 1 (by show 1 < 2; omega) 0 (by show 0 < 1; omega)
    have b0 := h2 0 (by show 0 < 2; omega)
    have b1 := h2 1 (by show 1 < 2; omega)
    have hm : ¬ (0 : ℚ) < -1 / 2 := by norm_num
    have hm2 : (0 : ℚ) < 1 / 2 := by norm_num
    simp [exCell, inflow, leavesReflecting, hm, sourceAt] at b0 b1
    rw [b0] at a0
    rw [b1] at a1
    simp [inventory, netLeakage, collisions, stepProduction, quadrature, exCell, sum_range_succ, exCellTotal,
      exCellScatter, sourceAt] at hb1 hq1
    rw [b0, b1] at hb1
    rw [hval.2] at hq1
    rw [hval.1] at hb1
    norm_num at a0 a1 hb1 hq1
    linarith

theorem exCellOk (g : ℕ) : SlabOk exCell exCellTotal g where
  slab := rfl
  nonzero := fun n _ => by show (if n = 0 then (-1/2 : ℚ) else 1/2) ≠ 0; split <;> norm_num
  phys := fun i _ => ⟨by show (0 : ℚ) < 1; norm_num, by
    show (0 : ℚ) ≤ if g = 0 then 1 else 2
    split <;> norm_num⟩

theorem exCellCOk (c : ℕ) : SlabOk exCellC (fun _ _ => 3 / 2) c where
  slab := rfl
  nonzero := (exCellOk 0).nonzero
  phys := fun i _ => ⟨by show (0 : ℚ) < 1; norm_num, by norm_num⟩

theorem exCellTimed (v dt : ℚ) (hv : 0 < v) (hd : 0 < dt) : TimedOk exCell exCellTotal (fun _ => v) dt :=
  ⟨fun g _ => exCellOk g, by show 1 < 2; omega, fun _ _ => hv, hd⟩

/-- C153: speed 1, time step 2; `(1 + 1) 2 = 4 > 3`. -/
theorem exFastDecay : FastDecay exCell exCellTotal (fun _ => 1) 2 ⟨1, fun _ => ⟨1, 1, fun _ _ _ => 0⟩⟩
    ⟨1, fun _ => ⟨1, 1, fun _ _ _ => 0⟩⟩ where
  cells := rfl
  left := rfl
  right := rfl
  weights := fun _ _ => by show (0 : ℚ) < 1 / 2; norm_num
  ext := fun _ _ _ => rfl
  bnd := fun _ _ _ _ => rfl
  fast := fun n _ g _ => by
    have h1 : |exCell.angleX n| = 1 / 2 := by
      show |if n = 0 then (-1/2 : ℚ) else 1/2| = 1 / 2
      split <;> norm_num [abs]
    have h2 : (1 : ℚ) ≤ exCellTotal (exCell.mm 0) g := by
      show (1 : ℚ) ≤ if g = 0 then 1 else 2
      split <;> norm_num
    rw [h1]
    show (3 : ℚ) < (_ + 2 * (1 / 2) / 1) * (1 * 2)
    linarith

example := C153_violation_bdf2 exCell exCellTotal (fun _ => 1) _ _ 2 2 (exCellTimed 1 2 (by norm_num) (by norm_num))
  (by show 0 < 2; omega) le_rfl (Or.inl rfl) (Or.inl rfl) exFastDecay

example := C153_violation_hybrid_bdf2 exCell exCellC exCellTotal (fun _ _ => 3 / 2) (fun _ _ _ => 1 / 4)
  (.matrix fun _ _ _ => 0) (fun _ => 1) (fun _ => 1) _ _ (fun _ => 0) (fun _ => 1 / 2) 2 2
  (exCellTimed 1 2 (by norm_num) (by norm_num)) (by show 0 < 2; omega) (fun c _ => exCellCOk c)
  (fun _ _ => by norm_num) le_rfl (Or.inl rfl) (Or.inl rfl) exFastDecay

/-- One cell of width 1/8: fine for a time step of 1. -/
def exThin : Problem ℚ := { exCell with dx := fun _ => 1 / 8 }

theorem exThin_fine (g n : ℕ) (s : ℚ) (hs : s ≤ 3) : FineFor exThin.cells (exThin.angleX n) exThin.dx (fun _ => s) := by
  intro i _
  have h1 : |exThin.angleX n| = 1 / 2 := by
    show |if n = 0 then (-1/2 : ℚ) else 1/2| = 1 / 2
    split <;> norm_num [abs]
  rw [h1]
  show s * (1 / 8) ≤ 2 * (1 / 2)
  linarith

theorem exThinTimed : TimedOk exThin exCellTotal (fun _ => 1) 1 :=
  ⟨fun g _ => ⟨rfl, (exCellOk g).nonzero, fun _ _ => ⟨by show (0 : ℚ) < 1 / 8; norm_num, ((exCellOk g).phys 0
    (by show 0 < 1; omega)).2⟩⟩, by show 1 < 2; omega, fun _ _ => by norm_num, by norm_num⟩

theorem exThinData (xs : ℕ → ℕ → ℕ → ℚ) (h : ∀ m g g', 0 ≤ xs m g g') (steps : ℕ) :
    NonnegTimed exThin exCellTotal xs (fun _ => 1) 1 ⟨1, fun _ => ⟨1, 1, fun i _ _ => i + 1⟩⟩
      ⟨1, fun _ => ⟨1, 1, fun _ _ _ => 2⟩⟩ steps (fun i n g => (i + n + g : ℕ)) where
  fine := fun g _ n _ => exThin_fine g n _ (by
    show (if g = 0 then (1 : ℚ) else 2) + 1 / (1 * 1) ≤ 3
    split <;> norm_num)
  weights := fun _ _ => by show (0 : ℚ) ≤ 1 / 2; norm_num
  xs := fun _ _ _ _ _ _ => h _ _ _
  ext := fun _ _ i _ _ _ _ _ => by show (0 : ℚ) ≤ i + 1; positivity
  bnd := fun _ _ _ _ _ _ _ _ => by show (0 : ℚ) ≤ 2; norm_num
  init := fun _ _ _ _ _ _ => Nat.cast_nonneg _

theorem exCellScatter_nonneg (m g g' : ℕ) : 0 ≤ exCellScatter m g g' := by
  unfold exCellScatter; split <;> norm_num

/-- C152 with the two groups collapsed into one. -/
example := C152_hybrid_backward_euler_nonneg exThin { exThin with groups := 1 } exCellTotal (fun _ _ => 3 / 2)
  exCellScatter (fun _ _ _ => 1 / 4) (.matrix fun _ _ _ => 1) (.matrix fun _ _ _ => 1) (fun _ => 1) (fun _ => 1)
  _ _ (fun _ => 0) (fun _ => 1 / 2) 5 1 _ exThinTimed (by show 0 < 2; omega)
  (fun c _ => ⟨rfl, (exCellOk c).nonzero, fun _ _ => ⟨by show (0 : ℚ) < 1 / 8; norm_num, by norm_num⟩⟩)
  (fun _ _ => by norm_num) (Or.inl rfl) (Or.inl rfl)
  (exThinData _ (fun m g g' => add_nonneg (exCellScatter_nonneg m g g') (by norm_num [fissionMatrix])) 5)
  ⟨rfl, fun c _ => ⟨rfl, (exCellOk c).nonzero, fun _ _ => ⟨by show (0 : ℚ) < 1 / 8; norm_num, by norm_num⟩⟩, rfl,
    fun c _ n _ => exThin_fine c n _ (by norm_num), fun _ _ => by show (0 : ℚ) ≤ 1 / 2; norm_num,
    fun _ _ _ _ _ _ => by norm_num [fissionMatrix], fun _ _ => by show 0 < 1; omega, fun _ _ => by norm_num⟩

/-- The collided grid of both groups, widths one each. -/
def exThinGrid : Collided ℚ := ⟨{ exThin with groups := 1 }, fun _ => 0, fun _ => 1 / 2, fun c => 2 * c, fun g => g⟩

theorem exThin_total (m : ℕ) : Hybrid.xsVectorCoarsen exCellTotal exThinGrid.edges exThinGrid.e m 0 = 3 / 2 := by
  show (∑ g ∈ Ico 0 2, exCellTotal m g * Hybrid.diff exThinGrid.edges g) / _ = _
  simp only [sum_Ico_eq_sum_range, sum_range_succ, sum_range_zero, Hybrid.diff, Hybrid.diffIdx, exThinGrid,
    exCellTotal]
  norm_num

theorem exThin_speed : Hybrid.coarsenVelocity (fun _ => (1 : ℚ)) exThinGrid.e 0 = 1 := by
  show (∑ g ∈ Ico (0 : ℕ) 2, (1 : ℚ)) / _ = 1
  simp [exThinGrid]

example := C152_vhybrid_backward_euler_nonneg exThin (fun _ => exThinGrid) exCellTotal exCellScatter
  (fun _ _ _ => 0) (fun _ => 1) _ _ 5 1 _ exThinTimed (by show 0 < 2; omega)
  (fun j _ c hc => by
    have hc : c < 1 := hc
    obtain rfl : c = 0 := by omega
    exact ⟨rfl, (exCellOk 0).nonzero, fun _ _ => ⟨by show (0 : ℚ) < 1 / 8; norm_num, by
      show (0 : ℚ) ≤ Hybrid.xsVectorCoarsen exCellTotal exThinGrid.edges exThinGrid.e _ 0
      rw [exThin_total]; norm_num⟩⟩)
  (fun j _ c hc => by
    have hc : c < 1 := hc
    obtain rfl : c = 0 := by omega
    rw [exThin_speed]; norm_num)
  (fun j _ c hc => by
    have hc : c < 1 := hc
    obtain rfl : c = 0 := by omega
    exact le_refl 2)
  (Or.inl rfl) (Or.inl rfl)
  (exThinData _ (fun m g g' => add_nonneg (exCellScatter_nonneg m g g') le_rfl) 5)
  (fun j _ m hm => by
    have hm' : (fun mat a b => (∑ og ∈ Ico (exThinGrid.e a) (exThinGrid.e (a + 1)),
        ∑ ig ∈ Ico (exThinGrid.e b) (exThinGrid.e (b + 1)), (exCellScatter mat og ig + 0)
          * Hybrid.diff exThinGrid.edges ig) / Hybrid.diffIdx exThinGrid.edges exThinGrid.e b) = m :=
      Option.some.inj hm
    have htot : ∀ mat, ∀ c < 1, (Hybrid.coarsenMaterials exCellTotal none none exThinGrid.edges exThinGrid.e).1 mat c
        + 1 / (Hybrid.coarsenVelocity (fun _ => (1 : ℚ)) exThinGrid.e c * 1) = 5 / 2 := by
      intro mat c hc
      obtain rfl : c = 0 := by omega
      rw [exThin_speed]
      show Hybrid.xsVectorCoarsen exCellTotal exThinGrid.edges exThinGrid.e mat 0 + _ = _
      rw [exThin_total]; norm_num
    refine ⟨rfl, fun c hc => ⟨rfl, (exCellOk c).nonzero, fun _ _ => ⟨by show (0 : ℚ) < 1 / 8; norm_num, ?_⟩⟩, rfl,
      fun c hc n _ => ?_, fun _ _ => by show (0 : ℚ) ≤ 1 / 2; norm_num, fun i _ c _ c' _ => ?_,
      fun _ _ => by show 0 < 1; omega, fun _ _ => by show (0 : ℚ) ≤ 1 / 2; norm_num⟩
    · show 0 ≤ (Hybrid.coarsenMaterials exCellTotal none none exThinGrid.edges exThinGrid.e).1 _ c + _
      rw [htot _ c hc]; norm_num
    · simp only [htot _ c hc]
      exact exThin_fine c n _ (by norm_num)
    · rw [← hm']
      have hw : ∀ x, Hybrid.diff exThinGrid.edges x = 1 := fun x => by
        show ((x + 1 : ℕ) : ℚ) - x = 1
        push_cast; ring
      refine div_nonneg (sum_nonneg fun og _ => sum_nonneg fun ig _ => ?_) ?_
      · rw [hw, mul_one, add_zero]; exact exCellScatter_nonneg _ _ _
      · show (0 : ℚ) ≤ ((2 * (c' + 1) : ℕ) : ℚ) - ((2 * c' : ℕ) : ℚ)
        push_cast; linarith)

example := C153_first_step_partial exThin exCellTotal exCellScatter (.matrix fun _ _ _ => 1) (fun _ => 1) _ _ 5 1 _
  exThinTimed (by show 0 < 2; omega) (by omega) (Or.inl rfl) (Or.inl rfl)
  (exThinData _ (fun m g g' => add_nonneg (exCellScatter_nonneg m g g') (by norm_num [fissionMatrix])) 1)

theorem exCell_norm : ∑ n ∈ range exCell.angles, exCell.angleW n = 1 := by
  show ∑ n ∈ range 2, (1 / 2 : ℚ) = 1
  norm_num

example (second : Bool) := C154_hybrid_balance_partial second exCell exCellC exCellTotal (fun _ _ => 3 / 2)
  exCellScatter (fun _ _ _ => 1 / 4) (.matrix fun _ _ _ => 1) (.matrix fun _ _ _ => 1) (fun _ => 1) (fun _ => 1)
  ⟨1, fun _ => ⟨1, 1, fun _ _ _ => 1⟩⟩ ⟨1, fun _ => ⟨1, 1, fun _ _ _ => 0⟩⟩ (fun _ => 0) (fun _ => 1 / 2) 4 1
  (fun i n g => (i + n + g : ℕ)) (exCellTimed 1 1 (by norm_num) (by norm_num)) (by show 0 < 2; omega) exCell_norm
  (fun c _ => exCellCOk c) (fun _ _ => by norm_num) (Or.inl rfl) (Or.inl rfl)

example (second : Bool) := C154_equal_grids second exCell exCellTotal exCellScatter (.matrix fun _ _ _ => 0)
  (fun _ => 1) ⟨1, fun _ => ⟨1, 1, fun _ _ _ => 1⟩⟩ ⟨1, fun _ => ⟨1, 1, fun _ _ _ => 0⟩⟩ id (fun _ => 1) 4 1
  (fun i n g => (i + n + g : ℕ)) (exCellTimed 1 1 (by norm_num) (by norm_num)) (by show 0 < 2; omega) exCell_norm
  (fun _ _ => ⟨rfl, rfl⟩) (Or.inl rfl) (Or.inl rfl)
  (fun m g g' h => by
    show exCellScatter m g g' + 0 = 0
    unfold exCellScatter
    rw [if_neg (by omega), add_zero])

end Discrete1.Props
