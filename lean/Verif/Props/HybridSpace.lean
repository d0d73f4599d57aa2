import Verif.Props.HybridOrder
import Verif.Props.SpaceTime

/-!
# C213: the hybrid drivers converge to the solution of the transport equation in space and time

Against a solution of the time-dependent discrete-ordinates equations that is discretised neither in space nor in time.
On every coarse collided grid both hybrid integrators are accurate to `O(dt + dx^2)`; when the collided grid is the fine
one, `bdf2` is accurate to `O(dt^2 + dx^2)`, and in an absorbing medium the constants do not grow with the final time.
-/

set_option linter.unusedSectionVars false
set_option linter.unusedSimpArgs false

namespace Discrete1.Props

open Finset Discrete1.Spec Discrete1.Slab Discrete1.Tools Discrete1.MultiGroup Discrete1.Drivers

/-- The difference quotient of the edge means against their rate of change. -/
theorem quotient_defect {p : Problem ℝ} {x : ℕ → ℝ} {sigma : ℕ → ℕ → ℝ} {xs : ℕ → ℕ → ℕ → ℝ} {velocity : ℕ → ℝ}
    {external boundary : TimeArr ℝ} {dt : ℝ} {steps : ℕ} {Q : ℝ → ℕ → ℕ → ℕ → ℝ → ℝ}
    {u ut : ℝ → ℕ → ℕ → ℝ → ℝ} {u1 : ℝ → ℕ → ℕ → ℕ → ℝ → ℝ} {d zeta zeta' S : ℝ} (second : Bool)
    (h : SmoothSolution p x sigma xs velocity external boundary dt steps Q u ut u1 d zeta zeta' S)
    (hok : TimedOk p sigma velocity dt) (hw : ∀ n < p.angles, 0 ≤ p.angleW n)
    (hsum : ∑ n ∈ range p.angles, p.angleW n = 1) {L : ℝ} (hL0 : 0 ≤ L)
    (hL : ∀ g < p.groups, ∀ n < p.angles, ∀ i ≤ p.cells, ∀ s t, 0 ≤ s → s ≤ t → t ≤ (steps : ℝ) * dt →
      |ut t g n (x i) - ut s g n (x i)| ≤ L * (t - s))
    {j : ℕ} (hj : j < steps) {i n g : ℕ} (hi : i < p.cells) (hn : n < p.angles) (hg : g < p.groups) :
    |edgeRate p x sigma xs velocity external dt u (j + 1) i n g - timeDiff second j (edgeField x dt u) i n g / dt|
      ≤ 2 * L * dt + (zeta' + S * zeta) * d ^ 2 / 12 := by
  have tr := quotient_truncation second (F := fun s _ _ _ => edgeMean x (u s) i n g)
    (F' := fun s _ _ _ => edgeMean x (ut s) i n g) hok.dt hL0 hj
    (fun t h0 h1 _ _ _ => edge_hasDeriv h hi hn hg h0 h1)
    (fun s t h0 hst h1 _ _ _ => edge_lipschitz (hL g hg n hn i hi.le s t h0 hst h1)
      (hL g hg n hn (i + 1) hi s t h0 hst h1)) 0 0 0
  have near := edgeRate_near h hok hw hsum hj hi hn hg
  have e : timeDiff second j (fun j (_ _ _ : ℕ) => edgeMean x (u ((j : ℝ) * dt)) i n g) 0 0 0
      = timeDiff second j (edgeField x dt u) i n g := rfl
  rw [e] at tr
  rw [abs_le] at *
  constructor <;> linarith [tr.1, tr.2, near.1, near.2]

/-- C213: `hybrid1d.backward_euler` (`second = false`) and `hybrid1d.bdf2` (`second = true`) on any coarse grid.  `u` is a
solution of the continuous fine-group equations, bounded by `N` at the mesh points, with a time derivative of Lipschitz
constant `L` there; the run starts within `r` of its cell averages.  The collided cross sections, its quadrature and the
number of iterations spent on it do not matter. -/
theorem C213_any_coarse_grid (second : Bool) (p pC : Problem ℝ) (x : ℕ → ℝ) (xsTotal xsTotalC : ℕ → ℕ → ℝ)
    (scatter scatterC : ℕ → ℕ → ℕ → ℝ) (fission fissionC : Fission ℝ) (velocity velocityC : ℕ → ℝ)
    (external boundary : TimeArr ℝ) (coarse : ℕ → ℕ) (factor : ℕ → ℝ) (steps : ℕ) (dt : ℝ)
    (init : ℕ → ℕ → ℕ → ℝ) {X V R XC VC : ℝ}
    (hb : HybridBounds p pC xsTotal xsTotalC (fun m g g' => scatter m g g' + fissionMatrix fission m g g')
      (fun m g g' => scatterC m g g' + fissionMatrix fissionC m g g') velocity velocityC coarse factor dt X V R XC VC)
    (hext : Covers external steps) (hbnd : Covers boundary steps)
    {Q : ℝ → ℕ → ℕ → ℕ → ℝ → ℝ} {u ut : ℝ → ℕ → ℕ → ℝ → ℝ} {u1 : ℝ → ℕ → ℕ → ℕ → ℝ → ℝ} {d zeta zeta' S : ℝ}
    (h : SmoothSolution p x xsTotal (fun m g g' => scatter m g g' + fissionMatrix fission m g g') velocity
      external boundary dt steps Q u ut u1 d zeta zeta' S) (hS0 : 0 ≤ S)
    (r L N : ℝ) (hr0 : 0 ≤ r) (hL0 : 0 ≤ L) (hN0 : 0 ≤ N)
    (hr : ∀ i < p.cells, ∀ n < p.angles, ∀ g < p.groups, |init i n g - cellMean p x (u 0) i n g| ≤ r)
    (hL : ∀ g < p.groups, ∀ n < p.angles, ∀ i ≤ p.cells, ∀ s t, 0 ≤ s → s ≤ t → t ≤ (steps : ℝ) * dt →
      |ut t g n (x i) - ut s g n (x i)| ≤ L * (t - s))
    (hN : ∀ g < p.groups, ∀ n < p.angles, ∀ i ≤ p.cells, ∀ t, 0 ≤ t → t ≤ (steps : ℝ) * dt → |u t g n (x i)| ≤ N)
    {A B m Lam T C : ℝ} (hA : A = X * (p.groups : ℝ) * V) (hB : B = 6 * (p.groups : ℝ) ^ 2 * R * X * VC)
    (hm : m = if second = true then 4 else 1) (hLam : Lam = m * A * (1 + B * dt))
    (hT : T = 2 * L * dt + (zeta' + S * zeta) * d ^ 2 / 12)
    (hC : C = m * (T + A * (m * dt * (T + A * N) * (1 + B * dt) + B * dt * N))) :
    ∃ out : ℕ → ℕ → ℕ → ℝ,
      hybridRun second p pC xsTotal xsTotalC (.iso scatter) (.iso scatterC) fission fissionC velocity
        velocityC external boundary coarse factor steps dt init = .ok out ∧
      ∀ j < steps, scalarSquare p velocity
          (fun i g => out j i g - quadrature p (cellMean p x (u (((j : ℝ) + 1) * dt))) i g)
        ≤ (Real.exp (Lam * (((j : ℝ) + 1) * dt)) * (m * (r + zeta * d ^ 2 / 12) + ((j : ℝ) + 1) * dt * C)
          + zeta * d ^ 2 / 12) ^ 2 * phaseVolume p velocity := by
  have hw := hb.weighted
  have hdt := hb.timed.dt
  have hV : 0 ≤ phaseVolume p velocity := vdot_self_nonneg hw _
  have hz := h.zeta_nonneg
  have hz' := h.zeta'_nonneg
  obtain ⟨s, hs⟩ : ∃ s, s = Real.sqrt (phaseVolume p velocity) := ⟨_, rfl⟩
  have hs0 : 0 ≤ s := hs ▸ Real.sqrt_nonneg _
  have hs2 : s ^ 2 = phaseVolume p velocity := by rw [hs, Real.sq_sqrt hV]
  have hT0 : 0 ≤ T := by rw [hT]; positivity
  have htop : ∀ j < steps, ((j : ℝ) + 1) * dt ≤ (steps : ℝ) * dt := fun j hj =>
    mul_le_mul_of_nonneg_right (by exact_mod_cast hj) hdt.le
  have hnn : ∀ j : ℕ, (0 : ℝ) ≤ ((j : ℝ) + 1) * dt := fun j => by positivity
  rcases Nat.eq_zero_or_pos steps with h0 | h0
  · subst h0
    obtain ⟨out, h1, -⟩ := C173_error_bound second p pC xsTotal xsTotalC scatter scatterC fission fissionC velocity
      velocityC external boundary coarse factor 0 dt init hb hext hbnd (fun _ => init) (fun _ => init)
      (fun j hj => absurd hj (Nat.not_lt_zero _)) (R := 0) (F := 0) (T := 0) le_rfl le_rfl le_rfl
      (by rw [vdot_eq]; simp) (fun j hj => absurd hj (Nat.not_lt_zero _)) (fun j hj => absurd hj (Nat.not_lt_zero _))
      hA hB hm hLam rfl
    exact ⟨out, h1, fun j hj => absurd hj (Nat.not_lt_zero _)⟩
  have hmesh := (h.solves.pde 0 h0).mesh
  obtain ⟨out, h1, h2⟩ := C173_error_bound second p pC xsTotal xsTotalC scatter scatterC fission fissionC velocity
    velocityC external boundary coarse factor steps dt init hb hext hbnd (edgeField x dt u)
    (edgeRate p x xsTotal (fun m g g' => scatter m g g' + fissionMatrix fission m g g') velocity external dt u)
    (fun j hj => edgeField_transport h hb.timed.velocity j hj) (R := (r + zeta * d ^ 2 / 12) * s) (F := N * s)
    (T := T * s) (by positivity) (mul_nonneg hN0 hs0) (mul_nonneg hT0 hs0)
    (by
      rw [mul_pow, hs2]
      exact start_error h hw hmesh hr)
    (fun j hj => by
      refine (scalarSquare_le hw hb.norm _).trans ?_
      rw [mul_pow, hs2]
      refine vdot_le_volume hw fun i hi n hn g hg => ?_
      unfold edgeField edgeMean
      push_cast
      have a := hN g hg n hn i hi.le _ (hnn j) (htop j hj)
      have b := hN g hg n hn (i + 1) hi _ (hnn j) (htop j hj)
      rw [abs_le] at *
      constructor <;> linarith [a.1, a.2, b.1, b.2])
    (fun j hj => by
      rw [mul_pow, hs2]
      refine vdot_le_volume hw fun i hi n hn g hg => ?_
      rw [hT]
      exact quotient_defect second h hb.timed hb.weights hb.norm hL0 hL hj hi hn hg) hA hB hm hLam rfl
  refine ⟨out, h1, fun j hj => ?_⟩
  have hV0 : 0 ≤ V := (hb.timed.velocity 0 hb.groups).le.trans (hb.fastest 0 hb.groups)
  have hA0 : 0 ≤ A := hA ▸ mul_nonneg (mul_nonneg hb.transferNonneg (Nat.cast_nonneg _)) hV0
  have hB0 : 0 ≤ B := by
    rw [hB]
    exact mul_nonneg (mul_nonneg (mul_nonneg (by positivity) hb.ratio) hb.transferNonneg) hb.collided.speed.le
  have hm0 : 0 ≤ m := by rw [hm]; split <;> norm_num
  have hLam0 : 0 ≤ Lam := by rw [hLam]; positivity
  have hC0 : 0 ≤ C := by rw [hC]; positivity
  have hexp : (1 + Lam * dt) ^ (j + 1) ≤ Real.exp (Lam * (((j : ℝ) + 1) * dt)) := by
    have e : Lam * (((j : ℝ) + 1) * dt) = ((j + 1 : ℕ) : ℝ) * (Lam * dt) := by push_cast; ring
    rw [e, Real.exp_nat_mul]
    refine pow_le_pow_left₀ (by positivity) ?_ _
    linarith [Real.add_one_le_exp (Lam * dt)]
  have hG0 : 0 ≤ m * (r + zeta * d ^ 2 / 12) + ((j : ℝ) + 1) * dt * C := by positivity
  have h3 : scalarSquare p velocity (fun i g => out j i g - quadrature p (edgeField x dt u (j + 1)) i g)
      ≤ (Real.exp (Lam * (((j : ℝ) + 1) * dt)) * (m * (r + zeta * d ^ 2 / 12) + ((j : ℝ) + 1) * dt * C) * s) ^ 2 := by
    refine (h2 j hj).trans (pow_le_pow_left₀ (by positivity) ?_ 2)
    calc _ = (1 + Lam * dt) ^ (j + 1) * ((m * (r + zeta * d ^ 2 / 12) + ((j : ℝ) + 1) * dt * C) * s) := by
          rw [hC]; ring
      _ ≤ Real.exp (Lam * (((j : ℝ) + 1) * dt)) * ((m * (r + zeta * d ^ 2 / 12) + ((j : ℝ) + 1) * dt * C) * s) :=
          mul_le_mul_of_nonneg_right hexp (by positivity)
      _ = _ := by ring
  have h4 : scalarSquare p velocity (fun i g => quadrature p (edgeField x dt u (j + 1)) i g
        - quadrature p (cellMean p x (u (((j : ℝ) + 1) * dt))) i g) ≤ (zeta * d ^ 2 / 12 * s) ^ 2 := by
    refine (scalarSquare_sub_le hw hb.norm (fun _ _ _ _ => rfl) (fun _ _ _ _ => rfl)).trans ?_
    rw [mul_pow, hs2]
    refine vdot_le_volume hw fun i hi n hn g hg => ?_
    unfold edgeField
    rw [Nat.cast_add_one, abs_sub_comm]
    exact mean_deviation hmesh (fun i hi => ⟨hw.widths i hi, h.widths i hi⟩) hz (h.space j hj) hi hn hg
  have h5 := scalar_minkowski hw hb.norm (by positivity) (by positivity) h3 h4
  have e : (fun i g => out j i g - quadrature p (edgeField x dt u (j + 1)) i g
      + (quadrature p (edgeField x dt u (j + 1)) i g - quadrature p (cellMean p x (u (((j : ℝ) + 1) * dt))) i g))
      = fun i g => out j i g - quadrature p (cellMean p x (u (((j : ℝ) + 1) * dt))) i g := by
    funext i g; ring
  rw [e, ← add_mul, mul_pow, hs2] at h5
  exact h5

/-- C213 (`hybrid1d.backward_euler`, collided grid equal to the fine one, absorbing medium): constants that do not depend on
the number of steps. -/
theorem C213_equal_grids_backward_euler (p : Problem ℝ) (x : ℕ → ℝ) (xsTotal : ℕ → ℕ → ℝ)
    (scatter : ℕ → ℕ → ℕ → ℝ) (fission : Fission ℝ) (velocity : ℕ → ℝ) (external boundary : TimeArr ℝ)
    (coarse : ℕ → ℕ) (factor : ℕ → ℝ) (steps : ℕ) (dt c : ℝ) (init : ℕ → ℕ → ℕ → ℝ) (hc : 0 < c)
    (hp : Absorbs p xsTotal (fun m g g' => scatter m g g' + fissionMatrix fission m g g') velocity dt c)
    (hG : 0 < p.groups) (hid : ∀ g < p.groups, coarse g = g ∧ factor g = 1)
    (hext : Covers external steps) (hbnd : Covers boundary steps)
    (hdown : ∀ m g g', g ≤ g' → scatter m g g' + fissionMatrix fission m g g' = 0)
    {Q : ℝ → ℕ → ℕ → ℕ → ℝ → ℝ} {u ut : ℝ → ℕ → ℕ → ℝ → ℝ} {u1 : ℝ → ℕ → ℕ → ℕ → ℝ → ℝ} {d zeta zeta' S : ℝ}
    (h : SmoothSolution p x xsTotal (fun m g g' => scatter m g g' + fissionMatrix fission m g g') velocity
      external boundary dt steps Q u ut u1 d zeta zeta' S)
    (r : ℝ) (hr0 : 0 ≤ r)
    (hr : ∀ i < p.cells, ∀ n < p.angles, ∀ g < p.groups, |init i n g - cellMean p x (u 0) i n g| ≤ r)
    (L : ℝ) (hL0 : 0 ≤ L)
    (hL : ∀ g < p.groups, ∀ n < p.angles, ∀ i ≤ p.cells, ∀ s t, 0 ≤ s → s ≤ t → t ≤ (steps : ℝ) * dt →
      |ut t g n (x i) - ut s g n (x i)| ≤ L * (t - s)) :
    ∃ out : ℕ → ℕ → ℕ → ℝ,
      hybridRun false p p xsTotal xsTotal (.iso scatter) (.iso scatter) fission fission velocity velocity
        external boundary coarse factor steps dt init = .ok out ∧
      ∀ j < steps, scalarSquare p velocity
          (fun i g => out j i g - quadrature p (cellMean p x (u (((j : ℝ) + 1) * dt))) i g)
        ≤ ((r + zeta * d ^ 2 / 12) / (1 + c * dt) ^ (j + 1)
          + (L * dt / 2 + (zeta' + S * zeta) * d ^ 2 / 12) / c + zeta * d ^ 2 / 12) ^ 2 * phaseVolume p velocity := by
  obtain ⟨out, psi, h1, h2, h3, h4⟩ := hybrid_downscatter false p xsTotal scatter fission velocity external boundary
    coarse factor steps dt init (hp.whole hc.le) hG hid hext hbnd hdown
  subst h2
  refine ⟨out, h1, fun j hj => (scalarSquare_sub_le (hp.weighted hG) hp.norm (h4 j hj)
    fun _ _ _ _ => rfl).trans ?_⟩
  have key := euler_angular hc hp hG h hr0 hL0 le_rfl hL (phi := fun j => quadrature p (psi (j + 1))) hr h3
    (fun j _ i _ n _ g _ => by rw [openSource_zero]; simp) j hj
  simpa only [add_zero] using key

/-- C213 (`hybrid1d.bdf2`, collided grid equal to the fine one, absorbing medium): second order in both steps. -/
theorem C213_equal_grids_bdf2 (p : Problem ℝ) (x : ℕ → ℝ) (xsTotal : ℕ → ℕ → ℝ)
    (scatter : ℕ → ℕ → ℕ → ℝ) (fission : Fission ℝ) (velocity : ℕ → ℝ) (external boundary : TimeArr ℝ)
    (coarse : ℕ → ℕ) (factor : ℕ → ℝ) (steps : ℕ) (dt c : ℝ) (init : ℕ → ℕ → ℕ → ℝ) (hc : 0 < c)
    (hp : Absorbs p xsTotal (fun m g g' => scatter m g g' + fissionMatrix fission m g g') velocity dt c)
    (hG : 0 < p.groups) (hid : ∀ g < p.groups, coarse g = g ∧ factor g = 1)
    (hext : Covers external steps) (hbnd : Covers boundary steps)
    (hdown : ∀ m g g', g ≤ g' → scatter m g g' + fissionMatrix fission m g g' = 0)
    {Q : ℝ → ℕ → ℕ → ℕ → ℝ → ℝ} {u ut : ℝ → ℕ → ℕ → ℝ → ℝ} {u1 : ℝ → ℕ → ℕ → ℕ → ℝ → ℝ} {d zeta zeta' S : ℝ}
    (h : SmoothSolution p x xsTotal (fun m g g' => scatter m g g' + fissionMatrix fission m g g') velocity
      external boundary dt steps Q u ut u1 d zeta zeta' S)
    (r : ℝ) (hr0 : 0 ≤ r)
    (hr : ∀ i < p.cells, ∀ n < p.angles, ∀ g < p.groups, |init i n g - cellMean p x (u 0) i n g| ≤ r)
    (utt : ℝ → ℕ → ℕ → ℝ → ℝ) (M L : ℝ) (hM0 : 0 ≤ M)
    (hM : ∀ g < p.groups, ∀ n < p.angles, ∀ i ≤ p.cells, ∀ s t, 0 ≤ s → s ≤ t → t ≤ dt →
      |ut t g n (x i) - ut s g n (x i)| ≤ M * (t - s))
    (htt : ∀ g < p.groups, ∀ n < p.angles, ∀ i ≤ p.cells, ∀ t, 0 ≤ t → t ≤ (steps : ℝ) * dt →
      HasDerivAt (fun s => ut s g n (x i)) (utt t g n (x i)) t)
    (hL : ∀ g < p.groups, ∀ n < p.angles, ∀ i ≤ p.cells, ∀ s t, 0 ≤ s → s ≤ t → t ≤ (steps : ℝ) * dt →
      |utt t g n (x i) - utt s g n (x i)| ≤ L * (t - s)) :
    ∃ out : ℕ → ℕ → ℕ → ℝ,
      hybridRun true p p xsTotal xsTotal (.iso scatter) (.iso scatter) fission fission velocity velocity
        external boundary coarse factor steps dt init = .ok out ∧
      ∀ j < steps, scalarSquare p velocity
          (fun i g => out j i g - quadrature p (cellMean p x (u (((j : ℝ) + 1) * dt))) i g)
        ≤ (2 * ((2 * (r + zeta * d ^ 2 / 12) + 3 * dt * (M * dt / 2 + (zeta' + S * zeta) * d ^ 2 / 12)) ^ 2
              / (1 + c * dt / (9 + c * dt)) ^ j
            + 2 * (9 + c * dt) * (L * dt ^ 2 + (zeta' + S * zeta) * d ^ 2 / 12) ^ 2 / c ^ 2)
          + 2 * (zeta * d ^ 2 / 12) ^ 2) * phaseVolume p velocity := by
  obtain ⟨out, psi, h1, h2, h3, h4⟩ := hybrid_downscatter true p xsTotal scatter fission velocity external boundary
    coarse factor steps dt init (hp.whole hc.le) hG hid hext hbnd hdown
  subst h2
  refine ⟨out, h1, fun j hj => (scalarSquare_sub_le (hp.weighted hG) hp.norm (h4 j hj)
    fun _ _ _ _ => rfl).trans ?_⟩
  have key := bdf2_angular hc hp hG h (L := L) hr0 hM0 le_rfl hM htt hL (phi := fun j => quadrature p (psi (j + 1))) hr h3
    (fun j _ i _ n _ g _ => by rw [openSource_zero]; simp) j hj
  simpa only [add_zero] using key

/-! ## Examples -/

/-- One collided group on the mesh of `exFlat`. -/
noncomputable def exFlatCoarse : Problem ℝ := { exFlat ℝ with groups := 1 }

theorem exFlat_hybrid : HybridBounds (exFlat ℝ) exFlatCoarse (fun _ _ => 1) (fun _ _ => 1)
    (fun m g g' => exFlatXs ℝ m g g' + fissionMatrix (.matrix fun _ _ _ => 0) m g g')
    (fun m g g' => (fun _ _ _ => (1 / 4 : ℝ)) m g g' + fissionMatrix (.matrix fun _ _ _ => 0) m g g') (fun _ => 1)
    (fun _ => 1) (fun _ => 0) (fun _ => 1 / 2) (1 / 2) (1 / 2) 1 1 (1 / 4) 1 where
  timed := exFlat_timed
  groups := by show 0 < 2; omega
  weights := exFlat_tame.weights
  norm := exFlat_tame.norm
  even := EvenReflection.vacuum _ _ _
  transfer := fun i _ g _ g' _ => by
    show |exFlatXs ℝ 0 g g' + 0| ≤ 1 / 2
    unfold exFlatXs
    split_ifs <;> norm_num [abs_of_pos]
  transferNonneg := by norm_num
  fastest := fun _ _ => le_rfl
  spread := fun _ _ => by norm_num
  ratio := zero_le_one
  collided :=
    { ok := fun c _ => ⟨rfl, (exFlat_ok (K := ℝ) c).nonzero, (exFlat_ok (K := ℝ) c).phys⟩
      weights := exFlat_tame.weights
      norm := exFlat_tame.norm
      even := EvenReflection.vacuum _ _ _
      velocity := fun _ _ => one_pos
      fastest := fun _ _ => le_rfl
      transfer := fun i _ c _ c' _ => by
        show |(1 / 4 : ℝ) + 0| ≤ 1 / 4
        norm_num [abs_of_pos]
      transferNonneg := by norm_num
      speed := one_pos
      step := by norm_num
      small := by show (1 / 2 : ℝ) * (1 * (1 / 4) * ((1 : ℕ) : ℝ)) ≤ 1 / 2; norm_num }
  cells := rfl
  widths := fun _ _ => rfl
  member := fun _ _ => by show 0 < 1; omega
  share := fun _ _ => by norm_num [abs_of_pos]

theorem exEvolving_bounded : ∀ g < (exFlat ℝ).groups, ∀ n < (exFlat ℝ).angles, ∀ i ≤ (exFlat ℝ).cells,
    ∀ t, 0 ≤ t → t ≤ ((3 : ℕ) : ℝ) * (1 / 2) → |exEvolving t g n ((i : ℝ) / 10)| ≤ 1 := by
  intro g _ n _ i hi t h0 h1
  have hi : i ≤ 2 := hi
  have hi' : (i : ℝ) ≤ 2 := by exact_mod_cast hi
  have hi0 : (0 : ℝ) ≤ i := Nat.cast_nonneg i
  push_cast at h1
  unfold exEvolving
  rw [abs_of_nonneg (by positivity)]
  have a : 1 + t ^ 2 ≤ 13 / 4 := by nlinarith
  have b : ((i : ℝ) / 10) ^ 2 ≤ 1 / 25 := by nlinarith
  nlinarith [mul_le_mul a b (by positivity) (by norm_num)]

/-- Two fine groups, one collided group. -/
example (second : Bool) := C213_any_coarse_grid second (exFlat ℝ) exFlatCoarse (fun i => (i : ℝ) / 10) (fun _ _ => 1)
  (fun _ _ => 1) (exFlatXs ℝ) (fun _ _ _ => 1 / 4) (.matrix fun _ _ _ => 0) (.matrix fun _ _ _ => 0) (fun _ => 1)
  (fun _ => 1) exEvolvingExternal exEvolvingBoundary (fun _ => 0) (fun _ => 1 / 2) 3 (1 / 2)
  (cellMean (exFlat ℝ) (fun i => (i : ℝ) / 10) (exEvolving 0)) exFlat_hybrid (Or.inr le_rfl) (Or.inr le_rfl)
  exEvolving_smooth (by norm_num) 0 1 1 le_rfl zero_le_one zero_le_one (fun _ _ _ _ _ _ => by simp) exEvolving_lipschitz
  exEvolving_bounded rfl rfl rfl rfl rfl rfl

example := C213_equal_grids_backward_euler (exFlat ℝ) (fun i => (i : ℝ) / 10) (fun _ _ => 1) (exFlatXs ℝ)
  (.matrix fun _ _ _ => 0) (fun _ => 1) exEvolvingExternal exEvolvingBoundary id (fun _ => 1) 3 (1 / 2) (1 / 2)
  (cellMean (exFlat ℝ) (fun i => (i : ℝ) / 10) (exEvolving 0)) (by norm_num) exFlat_absorbs (by show 0 < 2; omega)
  (fun _ _ => ⟨rfl, rfl⟩) (Or.inr le_rfl) (Or.inr le_rfl) exFlat_down exEvolving_smooth 0 le_rfl
  (fun _ _ _ _ _ _ => by simp) 1 zero_le_one exEvolving_lipschitz

example := C213_equal_grids_bdf2 (exFlat ℝ) (fun i => (i : ℝ) / 10) (fun _ _ => 1) (exFlatXs ℝ)
  (.matrix fun _ _ _ => 0) (fun _ => 1) exEvolvingExternal exEvolvingBoundary id (fun _ => 1) 3 (1 / 2) (1 / 2)
  (cellMean (exFlat ℝ) (fun i => (i : ℝ) / 10) (exEvolving 0)) (by norm_num) exFlat_absorbs (by show 0 < 2; omega)
  (fun _ _ => ⟨rfl, rfl⟩) (Or.inr le_rfl) (Or.inr le_rfl) exFlat_down exEvolving_smooth 0 le_rfl
  (fun _ _ _ _ _ _ => by simp) (fun _ _ _ y => 2 * y ^ 2) 1 0 zero_le_one exEvolving_lipschitz exEvolving_second
  (fun _ _ _ _ _ _ _ _ _ _ _ => by simp)

end Discrete1.Props
