import Verif.Model.ZeroD
import Verif.Spec.ZeroD
import Verif.Props.MultiGroup
import Mathlib.LinearAlgebra.FiniteDimensional.Lemmas
import Mathlib.Analysis.Real.Sqrt
import Mathlib.Tactic.FieldSimp

/-!
# C71: the infinite-medium solvers
-/

set_option linter.unusedSectionVars false
set_option linter.unusedSimpArgs false

namespace Discrete1.Props

open Finset Discrete1.Tools Discrete1.Spec Discrete1.ZeroD

section Generic

variable {K : Type*} [Field K] [LinearOrder K] [IsStrictOrderedRing K]

/-- The external source averaged over the ordinates (singleton axes are broadcast). -/
def meanSource (p : Medium K) (ext : Source0 K) (g : ℕ) : K :=
  ∑ n ∈ range p.angles, p.angleW n *
    ext.val (if ext.rows = 1 then 0 else n) (if ext.cols = 1 then 0 else g)

theorem sweepIso_eq (p : Medium K) (hw : ∑ n ∈ range p.angles, p.angleW n = 1) (sigma xs off : K)
    (ext : Source0 K) (g : ℕ) (old : K) :
    sweepIso p sigma xs off ext.rows (fun n => ext.val n (bidx ext.cols g)) old
      = (xs * old + meanSource p ext g + off) / sigma := by
  unfold sweepIso meanSource
  rw [loop_add_eq_sum, zero_add, ← sum_div]
  congr 1
  have : ∀ n, (xs * old + ext.val (bidx ext.rows n) (bidx ext.cols g) + off) * p.angleW n
      = (xs * old + off) * p.angleW n
        + p.angleW n * ext.val (if ext.rows = 1 then 0 else n) (if ext.cols = 1 then 0 else g) := by
    intro n; simp only [bidx]; ring
  simp only [this]
  rw [sum_add_distrib, ← mul_sum, hw]; ring

/-- The group loop: the returned flux of group `g` is the inner solution with the fluxes of the groups
before it already updated. -/
theorem outerIso_spec (p : Medium K) (xs : ℕ → ℕ → K) (ext : Source0 K) (old : ℕ → K) (g : ℕ)
    (hg : g < p.groups) :
    outerIso p xs ext old g = discreteOrdinatesIso p (p.xsTotal g) (xs g g)
      (∑ og ∈ (range p.groups).erase g, xs g og * (if og < g then outerIso p xs ext old og else old og))
      ext.rows (fun n => ext.val n (bidx ext.cols g)) (old g) := by
  have key : ∀ n, (∀ k, n ≤ k → loop n (groupIso p xs ext old) (fun _ => 0) k = 0) ∧
      ∀ m, n ≤ m → ∀ k < n, loop m (groupIso p xs ext old) (fun _ => 0) k
        = loop n (groupIso p xs ext old) (fun _ => 0) k := by
    intro n
    constructor
    · induction n with
      | zero => intro k _; rfl
      | succ n ih =>
        intro k hk
        show groupIso p xs ext old n _ k = 0
        unfold groupIso
        rw [setAt_of_ne _ _ (by omega)]
        exact ih k (by omega)
    · intro m hm k hk
      induction m with
      | zero => have : n = 0 := by omega
                subst this; rfl
      | succ m ih =>
        rcases Nat.lt_or_ge m n with h | h
        · have : m + 1 = n := by omega
          rw [this]
        · show groupIso p xs ext old m _ k = _
          unfold groupIso
          rw [setAt_of_ne _ _ (by omega)]
          exact ih h
  have h1 : outerIso p xs ext old g = loop (g + 1) (groupIso p xs ext old) (fun _ => 0) g :=
    (key (g + 1)).2 p.groups hg g (by omega)
  rw [h1]
  show groupIso p xs ext old g _ g = _
  unfold groupIso
  rw [setAt_self, C20_off_scatter_0d _ _ _ _ _ hg]
  congr 1
  refine sum_congr rfl fun og hog => ?_
  split_ifs with h
  · have h2 : outerIso p xs ext old og = loop g (groupIso p xs ext old) (fun _ => 0) og :=
      (key g).2 p.groups hg.le og h
    rw [h2]; rfl
  · rfl

/-- C71: the inner and the outer iteration of the infinite-medium solver make between 1 and 100 passes
and return the last iterate, stopping early only if the test held, for every outcome of the tests. -/
theorem C71_iterations_bounded (p : Medium K) (xs : ℕ → ℕ → K) (ext : Source0 K) (old : ℕ → K)
    (sigma s off x : K) (rows : ℕ) (q : ℕ → K) :
    (∃ n, 1 ≤ n ∧ n ≤ 100 ∧ sourceIteration p (.iso xs) ext old = (outerIso p xs ext)^[n] old ∧
      (n < 100 → p.convOut ((outerIso p xs ext)^[n] old) ((outerIso p xs ext)^[n - 1] old) = true) ∧
      ∀ j, 1 ≤ j → j < n → p.convOut ((outerIso p xs ext)^[j] old) ((outerIso p xs ext)^[j - 1] old) = false) ∧
    ∃ n, 1 ≤ n ∧ n ≤ 100 ∧
      discreteOrdinatesIso p sigma s off rows q x = (sweepIso p sigma s off rows q)^[n] x ∧
      (n < 100 → p.convIn ((sweepIso p sigma s off rows q)^[n] x)
        ((sweepIso p sigma s off rows q)^[n - 1] x) = true) ∧
      ∀ j, 1 ≤ j → j < n → p.convIn ((sweepIso p sigma s off rows q)^[j] x)
        ((sweepIso p sigma s off rows q)^[j - 1] x) = false := by
  constructor
  · obtain ⟨k, hk, he, hc, hno⟩ := iterate_spec (outerIso p xs ext) p.convOut 99 old
    refine ⟨k + 1, by omega, by omega, he, fun h => hc (by omega), fun j h1 h2 => ?_⟩
    obtain ⟨j, rfl⟩ : ∃ i, j = i + 1 := ⟨j - 1, by omega⟩
    exact hno j (by omega)
  · obtain ⟨k, hk, he, hc, hno⟩ := iterate_spec (sweepIso p sigma s off rows q) p.convIn 99 x
    refine ⟨k + 1, by omega, by omega, he, fun h => hc (by omega), fun j h1 h2 => ?_⟩
    obtain ⟨j, rfl⟩ : ∃ i, j = i + 1 := ⟨j - 1, by omega⟩
    exact hno j (by omega)

/-- A monotone map some power of which fixes `x` fixes `x`. -/
theorem fixed_of_iterate_fixed (f : K → K) (hf : Monotone f) (x : K) (n : ℕ) (h : f^[n + 1] x = x) :
    f x = x := by
  rcases lt_trichotomy (f x) x with hlt | heq | hgt
  · have : f^[n + 1] x ≤ f x := by
      clear h
      induction n with
      | zero => simp
      | succ n ih =>
        rw [Function.iterate_succ_apply']
        exact (hf ih).trans (hf hlt.le)
    rw [h] at this; exact absurd hlt (not_lt.mpr this)
  · exact heq
  · have : f x ≤ f^[n + 1] x := by
      clear h
      induction n with
      | zero => simp
      | succ n ih =>
        rw [Function.iterate_succ_apply']
        exact (hf hgt.le).trans (hf ih)
    rw [h] at this; exact absurd hgt (not_lt.mpr this)

/-- C71: a flux that an outer pass leaves unchanged, however many inner passes it made in each group and
whether or not those converged, satisfies the infinite-medium balance. -/
theorem C71_fixed_point_balances (p : Medium K) (xs : ℕ → ℕ → K) (ext : Source0 K) (phi : ℕ → K)
    (hw : ∑ n ∈ range p.angles, p.angleW n = 1) (hpos : ∀ g < p.groups, 0 < p.xsTotal g)
    (hself : ∀ g < p.groups, 0 ≤ xs g g)
    (hfix : ∀ g < p.groups, outerIso p xs ext phi g = phi g) :
    InfiniteMedium p.groups p.xsTotal xs (meanSource p ext) phi := by
  intro g hg
  have h1 := outerIso_spec p xs ext phi g hg
  rw [hfix g hg] at h1
  set off := ∑ og ∈ (range p.groups).erase g,
    xs g og * (if og < g then outerIso p xs ext phi og else phi og) with hoff
  have hoff' : off = ∑ og ∈ (range p.groups).erase g, xs g og * phi og := by
    refine sum_congr rfl fun og hog => ?_
    rw [hfix og (mem_range.mp (mem_erase.mp hog).2), ite_self]
  obtain ⟨k, _, he, _, _⟩ := iterate_spec (sweepIso p (p.xsTotal g) (xs g g) off ext.rows
    (fun n => ext.val n (bidx ext.cols g))) p.convIn 99 (phi g)
  rw [discreteOrdinatesIso, he] at h1
  have h2 := fixed_of_iterate_fixed _ (fun a b hab => by
    rw [sweepIso_eq p hw, sweepIso_eq p hw]
    have := mul_le_mul_of_nonneg_left hab (hself g hg)
    exact div_le_div_of_nonneg_right (by linarith) (hpos g hg).le) _ _ h1.symm
  rw [sweepIso_eq p hw, div_eq_iff (hpos g hg).ne'] at h2
  rw [← add_sum_erase _ _ (mem_range.mpr hg), ← hoff']
  linarith

/-- C71 (converse): a flux in balance is left unchanged by every call of the solver. -/
theorem C71_balance_is_fixed (p : Medium K) (xs : ℕ → ℕ → K) (ext : Source0 K) (phi : ℕ → K)
    (hw : ∑ n ∈ range p.angles, p.angleW n = 1) (hpos : ∀ g < p.groups, 0 < p.xsTotal g)
    (h : InfiniteMedium p.groups p.xsTotal xs (meanSource p ext) phi) (old : ℕ → K)
    (hold : ∀ g < p.groups, old g = phi g) :
    ∀ g < p.groups, sourceIteration p (.iso xs) ext old g = phi g := by
  have h1 : ∀ old : ℕ → K, (∀ g < p.groups, old g = phi g) →
      ∀ g < p.groups, outerIso p xs ext old g = phi g := by
    intro old hold g
    induction g using Nat.strong_induction_on with
    | _ g ih =>
      intro hg
      rw [outerIso_spec p xs ext old g hg]
      have e : ∑ og ∈ (range p.groups).erase g,
          xs g og * (if og < g then outerIso p xs ext old og else old og)
          = ∑ og ∈ (range p.groups).erase g, xs g og * phi og := by
        refine sum_congr rfl fun og hog => ?_
        have ho := mem_range.mp (mem_erase.mp hog).2
        split_ifs with hlt
        · rw [ih og hlt ho]
        · rw [hold og ho]
      rw [e, hold g hg]
      obtain ⟨k, _, he, _, _⟩ := iterate_spec (sweepIso p (p.xsTotal g) (xs g g)
        (∑ og ∈ (range p.groups).erase g, xs g og * phi og) ext.rows
        (fun n => ext.val n (bidx ext.cols g))) p.convIn 99 (phi g)
      rw [discreteOrdinatesIso, he]
      apply Function.iterate_fixed
      rw [sweepIso_eq p hw, div_eq_iff (hpos g hg).ne']
      have := h g hg
      rw [← add_sum_erase _ _ (mem_range.mpr hg)] at this
      linarith
  obtain ⟨⟨n, ha, hb, he, hd⟩, _⟩ := C71_iterations_bounded p xs ext old 0 0 0 0 0 (fun _ => 0)
  rw [he]
  clear he ha hb hd
  induction n with
  | zero => exact hold
  | succ n ih => rw [Function.iterate_succ_apply']; exact h1 _ ih

/-- One outer pass contracts the distance to the solution by `c`, whatever the inner tests did. -/
theorem outerIso_contracts (p : Medium K) (xs : ℕ → ℕ → K) (ext : Source0 K) (c M : K) (hc1 : c ≤ 1)
    (hM : 0 ≤ M) (hw : ∑ n ∈ range p.angles, p.angleW n = 1)
    (hsub : Subcritical0 p.groups p.xsTotal xs c) (phi : ℕ → K)
    (h : InfiniteMedium p.groups p.xsTotal xs (meanSource p ext) phi) (old : ℕ → K)
    (hold : ∀ g < p.groups, |old g - phi g| ≤ M) :
    ∀ g < p.groups, |outerIso p xs ext old g - phi g| ≤ c * M := by
  have hcM : c * M ≤ M := by nlinarith
  intro g
  induction g using Nat.strong_induction_on with
  | _ g ih =>
    intro hg
    rw [outerIso_spec p xs ext old g hg]
    have hs := hsub.pos g hg
    set off := ∑ og ∈ (range p.groups).erase g,
      xs g og * (if og < g then outerIso p xs ext old og else old og) with hoff
    have hd : |off - ∑ og ∈ (range p.groups).erase g, xs g og * phi og|
        ≤ ∑ og ∈ (range p.groups).erase g, xs g og * M := by
      rw [hoff, ← sum_sub_distrib]
      refine (abs_sum_le_sum_abs _ _).trans (sum_le_sum fun og hog => ?_)
      have ho := mem_range.mp (mem_erase.mp hog).2
      rw [← mul_sub, abs_mul, abs_of_nonneg (hsub.nonneg g hg og ho)]
      refine mul_le_mul_of_nonneg_left ?_ (hsub.nonneg g hg og ho)
      split_ifs with hlt
      · exact (ih og hlt ho).trans hcM
      · exact hold og ho
    have hstep : ∀ x, |x - phi g| ≤ M →
        |sweepIso p (p.xsTotal g) (xs g g) off ext.rows (fun n => ext.val n (bidx ext.cols g)) x - phi g|
          ≤ c * M := by
      intro x hx
      rw [sweepIso_eq p hw]
      have hb := h g hg
      rw [← add_sum_erase _ _ (mem_range.mpr hg)] at hb
      have e : (xs g g * x + meanSource p ext g + off) / p.xsTotal g - phi g
          = (xs g g * (x - phi g) + (off - ∑ og ∈ (range p.groups).erase g, xs g og * phi og))
            / p.xsTotal g := by
        rw [div_sub' hs.ne']
        congr 1
        linarith
      rw [e, abs_div, abs_of_pos hs, div_le_iff₀ hs]
      refine (abs_add_le _ _).trans ?_
      rw [abs_mul, abs_of_nonneg (hsub.nonneg g hg g hg)]
      have h1 := mul_le_mul_of_nonneg_left hx (hsub.nonneg g hg g hg)
      have h2 := hsub.le g hg
      rw [← add_sum_erase _ _ (mem_range.mpr hg)] at h2
      rw [← sum_mul] at hd
      have h3 := mul_le_mul_of_nonneg_right h2 hM
      nlinarith
    obtain ⟨k, ha, he, hb, hd⟩ := iterate_spec (sweepIso p (p.xsTotal g) (xs g g) off ext.rows
      (fun n => ext.val n (bidx ext.cols g))) p.convIn 99 (old g)
    rw [discreteOrdinatesIso, he]
    clear he ha hb hd
    induction k with
    | zero => exact hstep _ (hold g hg)
    | succ k ihk => rw [Function.iterate_succ_apply']; exact hstep _ (ihk.trans hcM)

/-- C71: in a subcritical medium the balance has exactly one solution, and the solver's error shrinks by
the factor `c` with every outer pass, for every start and every outcome of the tests. -/
theorem C71_finds_the_solution (p : Medium K) (xs : ℕ → ℕ → K) (ext : Source0 K) (c : K) (hc : 0 ≤ c)
    (hc1 : c < 1) (hw : ∑ n ∈ range p.angles, p.angleW n = 1)
    (hsub : Subcritical0 p.groups p.xsTotal xs c) :
    ∃ phi, InfiniteMedium p.groups p.xsTotal xs (meanSource p ext) phi ∧
      (∀ phi', InfiniteMedium p.groups p.xsTotal xs (meanSource p ext) phi' →
        ∀ g < p.groups, phi' g = phi g) ∧
      ∀ (old : ℕ → K) (M : K), 0 ≤ M → (∀ g < p.groups, |old g - phi g| ≤ M) →
        ∃ n, 1 ≤ n ∧ n ≤ 100 ∧ (n < 100 → p.convOut ((outerIso p xs ext)^[n] old)
            ((outerIso p xs ext)^[n - 1] old) = true) ∧
          ∀ g < p.groups, |sourceIteration p (.iso xs) ext old g - phi g| ≤ c ^ n * M := by
  -- the homogeneous equation only has the zero solution
  have hzero : ∀ x : ℕ → K, (∀ g < p.groups, p.xsTotal g * x g = ∑ g' ∈ range p.groups, xs g g' * x g') →
      ∀ g < p.groups, x g = 0 := by
    intro x hx g hg
    obtain ⟨m, hm, hmax⟩ := (range p.groups).exists_max_image (fun a => |x a|) ⟨g, mem_range.mpr hg⟩
    have hm' := mem_range.mp hm
    have h1 : p.xsTotal m * |x m| ≤ c * p.xsTotal m * |x m| := by
      rw [← abs_of_pos (hsub.pos m hm'), ← abs_mul, hx m hm', abs_of_pos (hsub.pos m hm')]
      refine (abs_sum_le_sum_abs _ _).trans ?_
      have : ∑ g' ∈ range p.groups, |xs m g' * x g'| ≤ (∑ g' ∈ range p.groups, xs m g') * |x m| := by
        rw [sum_mul]
        refine sum_le_sum fun g' hg' => ?_
        rw [abs_mul, abs_of_nonneg (hsub.nonneg m hm' g' (mem_range.mp hg'))]
        exact mul_le_mul_of_nonneg_left (hmax g' hg') (hsub.nonneg m hm' g' (mem_range.mp hg'))
      exact this.trans (mul_le_mul_of_nonneg_right (hsub.le m hm') (abs_nonneg _))
    have h2 : |x m| = 0 := by
      by_contra hne
      have hpos : 0 < |x m| := lt_of_le_of_ne (abs_nonneg _) (Ne.symm hne)
      have hs := hsub.pos m hm'
      have : 0 < (1 - c) * (p.xsTotal m * |x m|) := by
        have := mul_pos hs hpos
        exact mul_pos (by linarith) this
      nlinarith
    have := hmax g (mem_range.mpr hg)
    rw [h2] at this
    exact abs_nonpos_iff.mp this
  -- existence by finite dimension
  let T : (Fin p.groups → K) →ₗ[K] (Fin p.groups → K) :=
    { toFun := fun x g => p.xsTotal g * x g - ∑ g' : Fin p.groups, xs g g' * x g'
      map_add' := fun x y => by
        funext g; simp only [Pi.add_apply, mul_add, sum_add_distrib]; ring
      map_smul' := fun a x => by
        funext g; simp only [Pi.smul_apply, smul_eq_mul, RingHom.id_apply, mul_sub, mul_sum]
        congr 1
        · ring
        · exact sum_congr rfl fun _ _ => by ring }
  have hinj : Function.Injective T := by
    rw [← LinearMap.ker_eq_bot, LinearMap.ker_eq_bot']
    intro x hx
    funext g
    have := hzero (fun i => if hi : i < p.groups then x ⟨i, hi⟩ else 0) (fun i hi => by
      have h1 := congrFun hx ⟨i, hi⟩
      simp only [T, LinearMap.coe_mk, AddHom.coe_mk, Pi.zero_apply] at h1
      rw [sub_eq_zero] at h1
      simp only [hi, dif_pos]
      rw [h1, ← Fin.sum_univ_eq_sum_range (fun g' => xs i g' * if hi : g' < p.groups then x ⟨g', hi⟩ else 0)]
      exact sum_congr rfl fun g' _ => by simp) g.1 g.2
    simpa using this
  obtain ⟨y, hy⟩ := LinearMap.surjective_of_injective hinj (fun g => meanSource p ext g)
  have hsol : InfiniteMedium p.groups p.xsTotal xs (meanSource p ext)
      (fun i => if hi : i < p.groups then y ⟨i, hi⟩ else 0) := by
    intro g hg
    have h1 := congrFun hy ⟨g, hg⟩
    simp only [T, LinearMap.coe_mk, AddHom.coe_mk] at h1
    simp only [hg, dif_pos]
    rw [← Fin.sum_univ_eq_sum_range (fun g' => xs g g' * if hi : g' < p.groups then y ⟨g', hi⟩ else 0)]
    rw [← h1]
    simp
  refine ⟨_, hsol, fun phi' h' g hg => ?_, fun old M hM hold => ?_⟩
  · have := hzero (fun i => phi' i - if hi : i < p.groups then y ⟨i, hi⟩ else 0) (fun i hi => by
      simp only [mul_sub, sum_sub_distrib]
      rw [h' i hi, hsol i hi]; ring) g hg
    exact sub_eq_zero.mp this
  · obtain ⟨⟨n, h1, h2, he, h3, -⟩, _⟩ := C71_iterations_bounded p xs ext old 0 0 0 0 0 (fun _ => 0)
    refine ⟨n, h1, h2, h3, ?_⟩
    rw [he]
    clear he h1 h2 h3
    induction n with
    | zero => simpa using hold
    | succ n ih =>
      rw [Function.iterate_succ_apply', pow_succ', mul_assoc]
      exact outerIso_contracts p xs ext c _ hc1.le (mul_nonneg (pow_nonneg hc n) hM) hw hsub _ hsol _ ih

/-- C71: in a subcritical medium a flux that a call of the solver returns unchanged is in balance. -/
theorem C71_call_fixed_point (p : Medium K) (xs : ℕ → ℕ → K) (ext : Source0 K) (c : K) (hc : 0 ≤ c)
    (hc1 : c < 1) (hw : ∑ n ∈ range p.angles, p.angleW n = 1)
    (hsub : Subcritical0 p.groups p.xsTotal xs c) (phi : ℕ → K)
    (hfix : ∀ g < p.groups, sourceIteration p (.iso xs) ext phi g = phi g) :
    InfiniteMedium p.groups p.xsTotal xs (meanSource p ext) phi := by
  obtain ⟨sol, hsol, _, hconv⟩ := C71_finds_the_solution p xs ext c hc hc1 hw hsub
  have heq : ∀ g < p.groups, phi g = sol g := by
    intro g hg
    obtain ⟨m, hm, hmax⟩ := (range p.groups).exists_max_image (fun a => |phi a - sol a|)
      ⟨g, mem_range.mpr hg⟩
    have hm' := mem_range.mp hm
    obtain ⟨n, hn, _, _, hb⟩ := hconv phi |phi m - sol m| (abs_nonneg _)
      (fun g hg => hmax g (mem_range.mpr hg))
    have h1 := hb m hm'
    rw [hfix m hm'] at h1
    have hcn : c ^ n ≤ c := by
      calc c ^ n ≤ c ^ 1 := pow_le_pow_of_le_one hc hc1.le hn
        _ = c := pow_one c
    have h2 := mul_le_mul_of_nonneg_right hcn (abs_nonneg (phi m - sol m))
    have h3 : |phi m - sol m| ≤ 0 := by
      by_contra hpos
      push Not at hpos
      nlinarith
    have := (hmax g (mem_range.mpr hg)).trans h3
    linarith [abs_nonpos_iff.mp this]
  intro g hg
  rw [heq g hg, sum_congr rfl fun g' hg' => by rw [heq g' (mem_range.mp hg')]]
  exact hsol g hg

/-! ### Anisotropic scattering -/

/-- The quadrature integrates products of the first `L` Legendre polynomials exactly (true of the
normalised Gauss-Legendre rule for `L <= angles`). -/
def DiscretelyOrthogonal (p : Medium K) (L : ℕ) : Prop :=
  ∀ l < L, ∀ k < L, ∑ n ∈ range p.angles, p.angleW n * legendre (p.angleX n) l * legendre (p.angleX n) k
    = if l = k then 1 / (2 * (l : K) + 1) else 0

/-- C71: in an infinite medium anisotropic scattering makes no difference: with a quadrature for which
the Legendre polynomials are orthogonal, the anisotropic solver returns exactly what the isotropic one
returns for the zeroth moment, for any external source and any outcome of the tests. -/
theorem C71_anisotropy_irrelevant (p : Medium K) (L : ℕ) (hL : 0 < L) (xs : ℕ → ℕ → ℕ → K)
    (ext : Source0 K) (old : ℕ → K) (horth : DiscretelyOrthogonal p L)  :
    sourceIteration p (.aniso L xs) ext old = sourceIteration p (.iso fun o i => xs o i 0) ext old := by
  have hw : ∑ n ∈ range p.angles, p.angleW n = 1 := by
    have := horth 0 hL 0 hL
    simpa [legendre] using this
  -- one pass
  have hsweep : ∀ (sigma : K) (x : ℕ → K) (off : K) (g : ℕ) (s : K × (ℕ → K)), s.2 0 = s.1 →
      (sweepAniso p L sigma (fun l => x l * (2 * (l : K) + 1)) off ext.rows
          (fun n => ext.val n (bidx ext.cols g)) (fun l n => legendre (p.angleX n) l)
          (fun l n => p.angleW n * legendre (p.angleX n) l) s).1
        = sweepIso p sigma (x 0) off ext.rows (fun n => ext.val n (bidx ext.cols g)) s.1 ∧
      (sweepAniso p L sigma (fun l => x l * (2 * (l : K) + 1)) off ext.rows
          (fun n => ext.val n (bidx ext.cols g)) (fun l n => legendre (p.angleX n) l)
          (fun l n => p.angleW n * legendre (p.angleX n) l) s).2 0
        = (sweepAniso p L sigma (fun l => x l * (2 * (l : K) + 1)) off ext.rows
          (fun n => ext.val n (bidx ext.cols g)) (fun l n => legendre (p.angleX n) l)
          (fun l n => p.angleW n * legendre (p.angleX n) l) s).1 := by
    intro sigma x off g s hs
    set ang : ℕ → K := fun nn => (accum L (fun l => x l * (2 * (l : K) + 1) * s.2 l
      * legendre (p.angleX nn) l) + ext.val (bidx ext.rows nn) (bidx ext.cols g) + off) / sigma with hang
    have hloop : ∀ m, (loop m (fun nn (t : K × (ℕ → K)) =>
        (t.1 + ang nn * p.angleW nn, fun l => t.2 l + ang nn * (p.angleW nn * legendre (p.angleX nn) l)))
        (0, fun _ => 0)) = (∑ n ∈ range m, ang n * p.angleW n,
          fun l => ∑ n ∈ range m, ang n * (p.angleW n * legendre (p.angleX n) l)) := by
      intro m
      induction m with
      | zero => simp [loop]
      | succ m ih => simp only [loop, ih, sum_range_succ]
    have e : sweepAniso p L sigma (fun l => x l * (2 * (l : K) + 1)) off ext.rows
          (fun n => ext.val n (bidx ext.cols g)) (fun l n => legendre (p.angleX n) l)
          (fun l n => p.angleW n * legendre (p.angleX n) l) s = _ := hloop p.angles
    rw [e]
    refine ⟨?_, by simp [legendre]⟩
    show ∑ n ∈ range p.angles, ang n * p.angleW n = _
    rw [sweepIso_eq p hw]
    have hsum : ∑ n ∈ range p.angles, p.angleW n * accum L (fun l => x l * (2 * (l : K) + 1) * s.2 l
        * legendre (p.angleX n) l) = x 0 * s.1 := by
      simp only [accum_eq_sum, mul_sum]
      rw [sum_comm]
      have : ∀ l ∈ range L, ∑ n ∈ range p.angles, p.angleW n * (x l * (2 * (l : K) + 1) * s.2 l
          * legendre (p.angleX n) l) = if l = 0 then x 0 * s.1 else 0 := by
        intro l hl
        have h1 := horth l (mem_range.mp hl) 0 hL
        simp only [legendre, mul_one] at h1
        have : ∑ n ∈ range p.angles, p.angleW n * (x l * (2 * (l : K) + 1) * s.2 l
          * legendre (p.angleX n) l) = x l * (2 * (l : K) + 1) * s.2 l
            * ∑ n ∈ range p.angles, p.angleW n * legendre (p.angleX n) l := by
          rw [mul_sum]; exact sum_congr rfl fun _ _ => by ring
        rw [this, h1]
        split_ifs with h0
        · subst h0; simp [hs]
        · simp
      rw [sum_congr rfl this, sum_ite_eq' ]
      simp [hL]
    have e2 : ∀ n, ang n * p.angleW n = (p.angleW n * accum L (fun l => x l * (2 * (l : K) + 1) * s.2 l
        * legendre (p.angleX n) l) + p.angleW n * ext.val (if ext.rows = 1 then 0 else n)
          (if ext.cols = 1 then 0 else g) + off * p.angleW n) / sigma := by
      intro n; simp only [hang, bidx]; ring
    simp only [e2]
    rw [← sum_div, sum_add_distrib, sum_add_distrib, hsum, ← mul_sum, hw, mul_one]
    rfl
  -- the inner iteration
  have hinner : ∀ (sigma : K) (x : ℕ → K) (off : K) (g : ℕ) (n : ℕ) (s : K × (ℕ → K)), s.2 0 = s.1 →
      (iterate (sweepAniso p L sigma (fun l => x l * (2 * (l : K) + 1)) off ext.rows
          (fun n => ext.val n (bidx ext.cols g)) (fun l n => legendre (p.angleX n) l)
          (fun l n => p.angleW n * legendre (p.angleX n) l)) (fun a b => p.convIn a.1 b.1) n s).1
      = iterate (sweepIso p sigma (x 0) off ext.rows (fun n => ext.val n (bidx ext.cols g))) p.convIn n
          s.1 := by
    intro sigma x off g n
    induction n with
    | zero => intro s hs; exact (hsweep sigma x off g s hs).1
    | succ n ih =>
      intro s hs
      obtain ⟨h1, h2⟩ := hsweep sigma x off g s hs
      unfold iterate
      simp only [← h1]
      split_ifs with hc
      · rfl
      · exact ih _ h2
  have hgroup : ∀ (old : ℕ → K), groupAniso p L xs ext (fun l n => legendre (p.angleX n) l)
      (fun l n => p.angleW n * legendre (p.angleX n) l) old = groupIso p (fun o i => xs o i 0) ext old := by
    intro old
    funext gg flux
    unfold groupAniso groupIso discreteOrdinatesAniso discreteOrdinatesIso
    rw [hinner (p.xsTotal gg) (fun l => xs gg gg l) _ gg 99 _ (by simp)]
  have houter : outerAniso p L xs ext (fun l n => legendre (p.angleX n) l)
      (fun l n => p.angleW n * legendre (p.angleX n) l) = outerIso p (fun o i => xs o i 0) ext := by
    funext old
    unfold outerAniso outerIso
    rw [hgroup]
  show sourceIterationAniso _ _ _ _ _ _ _ = sourceIterationIso _ _ _ _
  unfold sourceIterationAniso sourceIterationIso
  rw [houter]

/-! ### Power iteration -/

/-- The fission matrix of either form of the data: `F[g, g'] = chi_g nusigf_g'`. -/
def fissionMatrix0 : Fission0 K → ℕ → ℕ → K
  | .matrix xs => xs
  | .vector chi nu => fun o i => chi o * nu i

/-- Total fission production of a flux. -/
def production0 (G : ℕ) (F : ℕ → ℕ → K) (phi : ℕ → K) : K :=
  ∑ g ∈ range G, ∑ g' ∈ range G, F g g' * phi g'

theorem updateKeff0_eq (G : ℕ) (f : Fission0 K) (flux old : ℕ → K) (keff : K) :
    updateKeff0 G f flux old keff
      = production0 G (fissionMatrix0 f) flux * keff / production0 G (fissionMatrix0 f) old := by
  have h1 : ∀ (xs : ℕ → ℕ → K) (x : ℕ → K), rateMat0d G x xs = production0 G xs x := by
    intro xs x
    have : ∀ n, loop n (fun og rate => loop G (fun ig rate => rate + x ig * xs og ig) rate) (0 : K)
        = ∑ g ∈ range n, ∑ g' ∈ range G, xs g g' * x g' := by
      intro n
      induction n with
      | zero => rfl
      | succ n ih =>
        show loop G _ (loop n _ _) = _
        rw [ih, loop_add_eq_sum, sum_range_succ]
        congr 1
        exact sum_congr rfl fun _ _ => mul_comm _ _
    exact this G
  have h2 : ∀ (chi nu x : ℕ → K), rateVec0d G x chi nu = production0 G (fun o i => chi o * nu i) x := by
    intro chi nu x
    have : ∀ n, loop n (fun og rate => loop G (fun ig rate => rate + x ig * chi og * nu ig) rate) (0 : K)
        = ∑ g ∈ range n, ∑ g' ∈ range G, chi g * nu g' * x g' := by
      intro n
      induction n with
      | zero => rfl
      | succ n ih =>
        show loop G _ (loop n _ _) = _
        rw [ih, loop_add_eq_sum, sum_range_succ]
        congr 1
        exact sum_congr rfl fun _ _ => by ring
    exact this G
  cases f with
  | matrix xs => simp only [updateKeff0, updateKeffMat0d, h1, fissionMatrix0]
  | vector chi nu => simp only [updateKeff0, updateKeffVec0d, h2, fissionMatrix0]

theorem fissionSource0_mean (p : Medium K) (f : Fission0 K) (flux : ℕ → K) (keff : K)
    (hw : ∑ n ∈ range p.angles, p.angleW n = 1) (g : ℕ) (hg : g < p.groups) :
    meanSource p (fissionSource0 p.groups f flux keff) g
      = (∑ g' ∈ range p.groups, fissionMatrix0 f g g' * flux g') / keff := by
  have hidx : (if p.groups = 1 then 0 else g) = g := by split_ifs with h <;> omega
  cases f with
  | matrix xs =>
    simp only [meanSource, fissionSource0, if_true, hidx, ← sum_mul, hw, one_mul, fissionMatSource0d,
      accum_eq_sum, fissionMatrix0]
    congr 1
    exact sum_congr rfl fun _ _ => mul_comm _ _
  | vector chi nu =>
    simp only [meanSource, fissionSource0, if_true, hidx, ← sum_mul, hw, one_mul, fissionVecSource0d,
      accum_eq_sum, fissionMatrix0]
    congr 1
    exact sum_congr rfl fun _ _ => by ring

theorem powerLoop0_spec (step : K0State K → K0State K) (conv : (ℕ → K) → (ℕ → K) → Bool) :
    ∀ fuel count s, fuel + count = 100 → ∃ n, 1 ≤ n ∧ n ≤ fuel + 1 ∧
      powerLoop0 step conv fuel count s = (step^[n] s, count + n) ∧
      (n < fuel + 1 → conv (step^[n] s).flux (step^[n - 1] s).flux = true) ∧
      ∀ j, 1 ≤ j → j < n → conv (step^[j] s).flux (step^[j - 1] s).flux = false := by
  intro fuel
  induction fuel with
  | zero =>
    intro count s _
    exact ⟨1, le_refl _, le_refl _, rfl, fun h => absurd h (lt_irrefl _), fun j h1 h2 => by omega⟩
  | succ fuel ih =>
    intro count s hf
    by_cases hc : conv (step s).flux s.flux = true
    · refine ⟨1, le_refl _, by omega, ?_, fun _ => by simpa using hc, fun j h1 h2 => by omega⟩
      simp [powerLoop0, hc]
    · obtain ⟨n, h1, h2, h3, h4, h5⟩ := ih (count + 1) (step s) (by omega)
      have hc' : conv (step s).flux s.flux = false := by simpa using hc
      refine ⟨n + 1, by omega, by omega, ?_, fun h => ?_, fun j hj1 hj2 => ?_⟩
      · unfold powerLoop0
        simp only [hc', Bool.false_eq_true, false_or, if_neg (show ¬ 100 ≤ count by omega), h3,
          Function.iterate_succ_apply]
        congr 1; omega
      · have := h4 (by omega)
        rw [Nat.add_sub_cancel, Function.iterate_succ_apply]
        obtain ⟨m, rfl⟩ : ∃ m, n = m + 1 := ⟨n - 1, by omega⟩
        rw [Function.iterate_succ_apply (f := step) (n := m)]
        simpa using this
      · rcases j with _ | _ | j
        · omega
        · simpa using hc'
        · have := h5 (j + 1) (by omega) (by omega)
          rw [Nat.add_sub_cancel] at this ⊢
          rw [Function.iterate_succ_apply, Function.iterate_succ_apply (f := step) (n := j)]
          exact this

/-- C71: `critical0d.power_iteration` performs between 1 and 101 passes (the counter is tested before it
is increased), returns the state after the last, and stops at the first pass where the test holds. -/
theorem C71_power_iteration_stops (p : Medium K) (norm : (ℕ → K) → K)
    (conv : (ℕ → K) → (ℕ → K) → Bool) (xs : Scatter0 K) (f : Fission0 K) (random : ℕ → K) :
    ∃ n, 1 ≤ n ∧ n ≤ 101 ∧
      powerIteration0 p norm conv xs f random
        = ((powerStep0 p norm xs f)^[n] ⟨fun g => random g / |norm random|, norm random⟩, n) ∧
      (n < 101 → conv ((powerStep0 p norm xs f)^[n] ⟨fun g => random g / |norm random|, norm random⟩).flux
        ((powerStep0 p norm xs f)^[n - 1] ⟨fun g => random g / |norm random|, norm random⟩).flux = true) ∧
      ∀ j, 1 ≤ j → j < n →
        conv ((powerStep0 p norm xs f)^[j] ⟨fun g => random g / |norm random|, norm random⟩).flux
        ((powerStep0 p norm xs f)^[j - 1] ⟨fun g => random g / |norm random|, norm random⟩).flux = false := by
  obtain ⟨n, h1, h2, h3, h4, h5⟩ := powerLoop0_spec (powerStep0 p norm xs f) conv 100 0
    ⟨fun g => random g / |norm random|, norm random⟩ rfl
  refine ⟨n, h1, h2, ?_, h4, h5⟩
  rw [powerIteration0, h3, Nat.zero_add]

/-- C71 (the limit is attained): if the test never holds, 101 passes are made. -/
theorem C71_power_iteration_limit (p : Medium K) (norm : (ℕ → K) → K) (xs : Scatter0 K) (f : Fission0 K)
    (random : ℕ → K) : (powerIteration0 p norm (fun _ _ => false) xs f random).2 = 101 := by
  obtain ⟨n, h1, h2, h3, h4, _⟩ := C71_power_iteration_stops p norm (fun _ _ => false) xs f random
  rw [h3]
  by_contra hne
  exact absurd (h4 (by simp only at hne; omega)) (by simp)

/-- C71: a flux and multiplication factor that a pass of the power iteration leaves unchanged are an
infinite-medium eigenpair (subcritical scattering, nonzero production). -/
theorem C71_fixed_point_is_eigenpair (p : Medium K) (norm : (ℕ → K) → K) (xs : ℕ → ℕ → K)
    (f : Fission0 K) (c : K) (hc : 0 ≤ c) (hc1 : c < 1)
    (hw : ∑ n ∈ range p.angles, p.angleW n = 1) (hsub : Subcritical0 p.groups p.xsTotal xs c)
    (s : K0State K) (hk : s.keff ≠ 0) (hprod : production0 p.groups (fissionMatrix0 f) s.flux ≠ 0)
    (hflux : ∀ g < p.groups, (powerStep0 p norm (.iso xs) f s).flux g = s.flux g)
    (hkeff : (powerStep0 p norm (.iso xs) f s).keff = s.keff) :
    InfiniteEigenpair p.groups p.xsTotal xs (fissionMatrix0 f) s.flux s.keff := by
  set flux := sourceIteration p (.iso xs) (fissionSource0 p.groups f s.flux s.keff) s.flux with hdef
  have hflux' : ∀ g < p.groups, flux g / norm flux = s.flux g := hflux
  have hkeff' : updateKeff0 p.groups f flux s.flux s.keff = s.keff := hkeff
  rw [updateKeff0_eq, div_eq_iff hprod, mul_comm, mul_right_inj' hk] at hkeff'
  have hn : norm flux ≠ 0 := by
    intro h0
    apply hprod
    unfold production0
    refine sum_eq_zero fun g _ => sum_eq_zero fun g' hg' => ?_
    rw [← hflux' g' (mem_range.mp hg'), h0, div_zero, mul_zero]
  have hscale : ∀ g < p.groups, flux g = norm flux * s.flux g := fun g hg => by
    rw [← hflux' g hg]; field_simp
  have hone : norm flux = 1 := by
    have : production0 p.groups (fissionMatrix0 f) flux
        = norm flux * production0 p.groups (fissionMatrix0 f) s.flux := by
      unfold production0
      rw [mul_sum]
      refine sum_congr rfl fun g _ => ?_
      rw [mul_sum]
      exact sum_congr rfl fun g' hg' => by rw [hscale g' (mem_range.mp hg')]; ring
    rw [this] at hkeff'
    exact mul_right_cancel₀ hprod (by rw [hkeff', one_mul])
  have hfix : ∀ g < p.groups, flux g = s.flux g := fun g hg => by rw [hscale g hg, hone, one_mul]
  have := C71_call_fixed_point p xs _ c hc hc1 hw hsub s.flux hfix
  intro g hg
  rw [this g hg, fissionSource0_mean p f _ _ hw g hg]

/-- C71 (converse): a normalised eigenpair is left unchanged by a pass. -/
theorem C71_eigenpair_is_fixed (p : Medium K) (norm : (ℕ → K) → K) (xs : ℕ → ℕ → K) (f : Fission0 K)
    (hw : ∑ n ∈ range p.angles, p.angleW n = 1) (hpos : ∀ g < p.groups, 0 < p.xsTotal g) (s : K0State K)
    (hnorm : ∀ x : ℕ → K, (∀ g < p.groups, x g = s.flux g) → norm x = 1)
    (hprod : production0 p.groups (fissionMatrix0 f) s.flux ≠ 0)
    (h : InfiniteEigenpair p.groups p.xsTotal xs (fissionMatrix0 f) s.flux s.keff) :
    (∀ g < p.groups, (powerStep0 p norm (.iso xs) f s).flux g = s.flux g) ∧
      (powerStep0 p norm (.iso xs) f s).keff = s.keff := by
  have hfix := C71_balance_is_fixed p xs (fissionSource0 p.groups f s.flux s.keff) s.flux hw hpos
    (fun g hg => by rw [h g hg, fissionSource0_mean p f _ _ hw g hg]) s.flux (fun _ _ => rfl)
  constructor
  · intro g hg
    show _ / norm _ = _
    rw [hnorm _ hfix, div_one, hfix g hg]
  · show updateKeff0 _ _ _ _ _ = _
    rw [updateKeff0_eq]
    have : production0 p.groups (fissionMatrix0 f)
        (sourceIteration p (.iso xs) (fissionSource0 p.groups f s.flux s.keff) s.flux)
        = production0 p.groups (fissionMatrix0 f) s.flux :=
      sum_congr rfl fun g _ => sum_congr rfl fun g' hg' => by rw [hfix g' (mem_range.mp hg')]
    rw [this, mul_comm, mul_div_assoc, div_self hprod, mul_one]

end Generic

/-! ### Non-vacuity: a two-group medium -/

/-- Two groups, two ordinates, total cross sections 1 and 2. -/
def exMedium : Medium ℚ :=
  { groups := 2, angles := 2, angleX := fun n => if n = 0 then -1 / 2 else 1 / 2, angleW := fun _ => 1 / 2,
    xsTotal := fun g => if g = 0 then 1 else 2, convIn := fun _ _ => false, convOut := fun _ _ => false }

/-- Down-scattering 1/4 from group 0 to group 1, self-scattering 1/4 and 1/2. -/
def exXs0 : ℕ → ℕ → ℚ := fun o i => if o = 0 ∧ i = 0 then 1 / 4 else if o = 1 ∧ i = 0 then 1 / 4
  else if o = 1 ∧ i = 1 then 1 / 2 else 0

theorem exMedium_weights : ∑ n ∈ range exMedium.angles, exMedium.angleW n = 1 := by
  norm_num [exMedium, sum_range_succ]

theorem exMedium_subcritical : Subcritical0 exMedium.groups exMedium.xsTotal exXs0 (1 / 2) where
  pos := fun g _ => by simp only [exMedium]; split_ifs <;> norm_num
  nonneg := fun g _ g' _ => by unfold exXs0; split_ifs <;> norm_num
  le := by
    intro g hg
    simp only [exMedium] at hg ⊢
    interval_cases g <;> norm_num [exXs0, sum_range_succ]

/-- The eigenpair of the medium with fission neutrons born in group 0 from both groups. -/
example : InfiniteEigenpair 2 exMedium.xsTotal exXs0
    (fissionMatrix0 (.vector (fun g => if g = 0 then 1 else 0) fun _ => 9 / 14))
    (fun g => if g = 0 then 6 else 1) 1 := by
  intro g hg
  interval_cases g <;> norm_num [exMedium, exXs0, fissionMatrix0, sum_range_succ]

example : ∃ phi, InfiniteMedium 2 exMedium.xsTotal exXs0 (meanSource exMedium ⟨1, 1, fun _ _ => 3⟩) phi ∧
    phi 0 = 4 ∧ phi 1 = 8 / 3 := by
  refine ⟨fun g => if g = 0 then 4 else 8 / 3, fun g hg => ?_, by norm_num, by norm_num⟩
  interval_cases g <;> norm_num [exMedium, exXs0, meanSource, sum_range_succ]

/-- The two-point Gauss rule makes the first two Legendre polynomials orthogonal. -/
noncomputable def exGauss : Medium ℝ :=
  { groups := 1, angles := 2, angleX := fun n => if n = 0 then -(1 / √3) else 1 / √3,
    angleW := fun _ => 1 / 2, xsTotal := fun _ => 1, convIn := fun _ _ => false,
    convOut := fun _ _ => false }

example : DiscretelyOrthogonal exGauss 2 := by
  have h3 : (√3 : ℝ)⁻¹ * (√3)⁻¹ = 1 / 3 := by
    rw [← mul_inv, Real.mul_self_sqrt (by norm_num)]; norm_num
  intro l hl k hk
  simp only [exGauss]
  interval_cases l <;> interval_cases k <;>
    norm_num [sum_range_succ, legendre] <;> linarith

end Discrete1.Props
