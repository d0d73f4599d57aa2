import Verif.Props.ZeroD

/-!
# The infinite-medium power iteration: C195 (positivity), C196 (k-infinity bounds), C197 (one fission
spectrum), C198 (bracketing)
-/

set_option linter.unusedSectionVars false
set_option linter.unusedSimpArgs false

namespace Discrete1.Props

open Finset Discrete1.Tools Discrete1.Spec Discrete1.ZeroD

section Generic

variable {K : Type*} [Field K] [LinearOrder K] [IsStrictOrderedRing K]

/-! ## Comparison: sub- and supersolutions -/

/-- Whatever property of single group fluxes one inner pass establishes, the outer pass establishes. -/
theorem outerIso_inv (p : Medium K) (xs : ℕ → ℕ → K) (ext : Source0 K) (old : ℕ → K)
    (hw : ∑ n ∈ range p.angles, p.angleW n = 1) (I : ℕ → K → Prop)
    (hold : ∀ g < p.groups, I g (old g))
    (hstep : ∀ g < p.groups, ∀ phi : ℕ → K, (∀ g' < p.groups, I g' (phi g')) →
      I g ((∑ g' ∈ range p.groups, xs g g' * phi g' + meanSource p ext g) / p.xsTotal g)) :
    ∀ g < p.groups, I g (outerIso p xs ext old g) := by
  intro g
  induction g using Nat.strong_induction_on with
  | _ g ih =>
    intro hg
    rw [outerIso_spec p xs ext old g hg]
    have hsweep : ∀ x, I g x → I g (sweepIso p (p.xsTotal g) (xs g g)
        (∑ og ∈ (range p.groups).erase g,
          xs g og * (if og < g then outerIso p xs ext old og else old og)) ext.rows
        (fun n => ext.val n (bidx ext.cols g)) x) := by
      intro x hx
      have h := hstep g hg (fun og => if og = g then x else
        if og < g then outerIso p xs ext old og else old og) (fun og ho => by
          by_cases h1 : og = g
          · subst h1; simpa using hx
          · simp only [if_neg h1]
            split_ifs with h2
            · exact ih og h2 ho
            · exact hold og ho)
      rw [sweepIso_eq p hw]
      rw [← add_sum_erase _ _ (mem_range.mpr hg)] at h
      simp only [if_true] at h
      rw [sum_congr rfl (g := fun og => xs g og *
        (if og < g then outerIso p xs ext old og else old og)) (fun og hog => by
          rw [if_neg (mem_erase.mp hog).1])] at h
      have e : xs g g * x + meanSource p ext g + ∑ og ∈ (range p.groups).erase g,
          xs g og * (if og < g then outerIso p xs ext old og else old og)
          = xs g g * x + ∑ og ∈ (range p.groups).erase g,
          xs g og * (if og < g then outerIso p xs ext old og else old og) + meanSource p ext g := by ring
      rw [e]; exact h
    obtain ⟨k, -, he, -, -⟩ := iterate_spec (sweepIso p (p.xsTotal g) (xs g g)
      (∑ og ∈ (range p.groups).erase g,
          xs g og * (if og < g then outerIso p xs ext old og else old og)) ext.rows
      (fun n => ext.val n (bidx ext.cols g))) p.convIn 99 (old g)
    rw [discreteOrdinatesIso, he]
    clear he
    induction k with
    | zero => exact hsweep _ (hold g hg)
    | succ k ihk => rw [Function.iterate_succ_apply']; exact hsweep _ ihk

/-- The same for a whole call of the solver. -/
theorem sourceIteration0_inv (p : Medium K) (xs : ℕ → ℕ → K) (ext : Source0 K) (old : ℕ → K)
    (hw : ∑ n ∈ range p.angles, p.angleW n = 1) (I : ℕ → K → Prop)
    (hold : ∀ g < p.groups, I g (old g))
    (hstep : ∀ g < p.groups, ∀ phi : ℕ → K, (∀ g' < p.groups, I g' (phi g')) →
      I g ((∑ g' ∈ range p.groups, xs g g' * phi g' + meanSource p ext g) / p.xsTotal g)) :
    ∀ g < p.groups, I g (sourceIteration p (.iso xs) ext old g) := by
  obtain ⟨⟨n, ha, hb, he, hd⟩, _⟩ := C71_iterations_bounded p xs ext old 0 0 0 0 0 (fun _ => 0)
  rw [he]
  clear he ha hb hd
  induction n with
  | zero => exact hold
  | succ n ih => rw [Function.iterate_succ_apply']; exact outerIso_inv p xs ext _ hw I ih hstep

/-- A start above a subsolution stays above it. -/
theorem above_subsolution (p : Medium K) (xs : ℕ → ℕ → K) (ext : Source0 K) (old y : ℕ → K)
    (hw : ∑ n ∈ range p.angles, p.angleW n = 1) (hpos : ∀ g < p.groups, 0 < p.xsTotal g)
    (hxs : ∀ g < p.groups, ∀ g' < p.groups, 0 ≤ xs g g')
    (hy : ∀ g < p.groups, p.xsTotal g * y g
      ≤ ∑ g' ∈ range p.groups, xs g g' * y g' + meanSource p ext g)
    (hold : ∀ g < p.groups, y g ≤ old g) :
    ∀ g < p.groups, y g ≤ sourceIteration p (.iso xs) ext old g := by
  refine sourceIteration0_inv p xs ext old hw (fun g x => y g ≤ x) hold fun g hg phi hphi => ?_
  rw [le_div_iff₀ (hpos g hg), mul_comm]
  refine (hy g hg).trans (add_le_add ?_ le_rfl)
  exact sum_le_sum fun g' hg' => mul_le_mul_of_nonneg_left (hphi g' (mem_range.mp hg'))
    (hxs g hg g' (mem_range.mp hg'))

/-- A start below a supersolution stays below it. -/
theorem below_supersolution (p : Medium K) (xs : ℕ → ℕ → K) (ext : Source0 K) (old y : ℕ → K)
    (hw : ∑ n ∈ range p.angles, p.angleW n = 1) (hpos : ∀ g < p.groups, 0 < p.xsTotal g)
    (hxs : ∀ g < p.groups, ∀ g' < p.groups, 0 ≤ xs g g')
    (hy : ∀ g < p.groups, ∑ g' ∈ range p.groups, xs g g' * y g' + meanSource p ext g
      ≤ p.xsTotal g * y g)
    (hold : ∀ g < p.groups, old g ≤ y g) :
    ∀ g < p.groups, sourceIteration p (.iso xs) ext old g ≤ y g := by
  refine sourceIteration0_inv p xs ext old hw (fun g x => x ≤ y g) hold fun g hg phi hphi => ?_
  rw [div_le_iff₀ (hpos g hg), mul_comm (y g)]
  refine le_trans (add_le_add ?_ le_rfl) (hy g hg)
  exact sum_le_sum fun g' hg' => mul_le_mul_of_nonneg_left (hphi g' (mem_range.mp hg'))
    (hxs g hg g' (mem_range.mp hg'))

/-! ## C195: positivity -/

/-- Non-negative data in which every group is fed by some group, by scattering or by fission, and some
fission happens. -/
structure Fed0 (p : Medium K) (xs F : ℕ → ℕ → K) : Prop where
  weights : ∑ n ∈ range p.angles, p.angleW n = 1
  pos : ∀ g < p.groups, 0 < p.xsTotal g
  scatter : ∀ g < p.groups, ∀ g' < p.groups, 0 ≤ xs g g'
  fission : ∀ g < p.groups, ∀ g' < p.groups, 0 ≤ F g g'
  fed : ∀ g < p.groups, ∃ g' < p.groups, 0 < xs g g' ∨ 0 < F g g'
  fissile : ∃ g < p.groups, ∃ g' < p.groups, 0 < F g g'

theorem production0_pos (G : ℕ) (F : ℕ → ℕ → K) (phi : ℕ → K) (hF : ∀ g < G, ∀ g' < G, 0 ≤ F g g')
    (hf : ∃ g < G, ∃ g' < G, 0 < F g g') (hphi : ∀ g < G, 0 < phi g) : 0 < production0 G F phi := by
  obtain ⟨g, hg, g', hg', h⟩ := hf
  unfold production0
  refine sum_pos' (fun a ha => sum_nonneg fun b hb => mul_nonneg (hF a (mem_range.mp ha) b (mem_range.mp hb))
    (hphi b (mem_range.mp hb)).le) ⟨g, mem_range.mpr hg, ?_⟩
  exact sum_pos' (fun b hb => mul_nonneg (hF g hg b (mem_range.mp hb)) (hphi b (mem_range.mp hb)).le)
    ⟨g', mem_range.mpr hg', mul_pos h (hphi g' hg')⟩

/-- C195: one pass of the power iteration keeps flux and multiplication factor strictly positive, whatever
the convergence tests of the inner solver say. -/
theorem C195_pass_positive (p : Medium K) (norm : (ℕ → K) → K) (xs : ℕ → ℕ → K) (f : Fission0 K)
    (h : Fed0 p xs (fissionMatrix0 f))
    (hnorm : ∀ x : ℕ → K, (∀ g < p.groups, 0 < x g) → 0 < norm x) (s : K0State K)
    (hflux : ∀ g < p.groups, 0 < s.flux g) (hk : 0 < s.keff) :
    (∀ g < p.groups, 0 < (powerStep0 p norm (.iso xs) f s).flux g) ∧
      0 < (powerStep0 p norm (.iso xs) f s).keff := by
  have hpos : ∀ g < p.groups, 0 < sourceIteration p (.iso xs) (fissionSource0 p.groups f s.flux s.keff)
      s.flux g := by
    refine sourceIteration0_inv p xs _ s.flux h.weights (fun _ x => 0 < x) hflux fun g hg phi hphi => ?_
    refine div_pos ?_ (h.pos g hg)
    rw [fissionSource0_mean p f _ _ h.weights g hg]
    have hs : 0 ≤ ∑ g' ∈ range p.groups, xs g g' * phi g' := sum_nonneg fun b hb =>
      mul_nonneg (h.scatter g hg b (mem_range.mp hb)) (hphi b (mem_range.mp hb)).le
    have hq : 0 ≤ ∑ g' ∈ range p.groups, fissionMatrix0 f g g' * s.flux g' := sum_nonneg fun b hb =>
      mul_nonneg (h.fission g hg b (mem_range.mp hb)) (hflux b (mem_range.mp hb)).le
    obtain ⟨g', hg', hx | hx⟩ := h.fed g hg
    · refine add_pos_of_pos_of_nonneg ?_ (div_nonneg hq hk.le)
      exact sum_pos' (fun b hb => mul_nonneg (h.scatter g hg b (mem_range.mp hb))
        (hphi b (mem_range.mp hb)).le) ⟨g', mem_range.mpr hg', mul_pos hx (hphi g' hg')⟩
    · refine add_pos_of_nonneg_of_pos hs (div_pos ?_ hk)
      exact sum_pos' (fun b hb => mul_nonneg (h.fission g hg b (mem_range.mp hb))
        (hflux b (mem_range.mp hb)).le) ⟨g', mem_range.mpr hg', mul_pos hx (hflux g' hg')⟩
  constructor
  · intro g hg
    exact div_pos (hpos g hg) (hnorm _ hpos)
  · show 0 < updateKeff0 _ _ _ _ _
    rw [updateKeff0_eq]
    exact div_pos (mul_pos (production0_pos _ _ _ h.fission h.fissile hpos) hk)
      (production0_pos _ _ _ h.fission h.fissile hflux)

/-- A property of states that every pass preserves holds of the returned state. -/
theorem powerIteration0_inv (p : Medium K) (norm : (ℕ → K) → K) (conv : (ℕ → K) → (ℕ → K) → Bool)
    (xs : Scatter0 K) (f : Fission0 K) (random : ℕ → K) (I J : K0State K → Prop)
    (h0 : I ⟨fun g => random g / |norm random|, norm random⟩)
    (hI : ∀ s, I s → I (powerStep0 p norm xs f s)) (hJ : ∀ s, I s → J (powerStep0 p norm xs f s)) :
    J (powerIteration0 p norm conv xs f random).1 := by
  obtain ⟨n, h1, -, he, -, -⟩ := C71_power_iteration_stops p norm conv xs f random
  rw [he]
  obtain ⟨m, rfl⟩ : ∃ m, n = m + 1 := ⟨n - 1, by omega⟩
  have : ∀ m, I ((powerStep0 p norm xs f)^[m] ⟨fun g => random g / |norm random|, norm random⟩) := by
    intro m
    induction m with
    | zero => exact h0
    | succ m ih => rw [Function.iterate_succ_apply']; exact hI _ ih
  show J ((powerStep0 p norm xs f)^[m + 1] _)
  rw [Function.iterate_succ_apply']
  exact hJ _ (this m)

/-- C195: started from a positive random flux, `critical0d.power_iteration` returns a flux that is positive in
every group and a positive multiplication factor - so it never divides by zero - whatever its tests say. -/
theorem C195_power_iteration_positive (p : Medium K) (norm : (ℕ → K) → K)
    (conv : (ℕ → K) → (ℕ → K) → Bool) (xs : ℕ → ℕ → K) (f : Fission0 K)
    (h : Fed0 p xs (fissionMatrix0 f))
    (hnorm : ∀ x : ℕ → K, (∀ g < p.groups, 0 < x g) → 0 < norm x) (random : ℕ → K)
    (hr : ∀ g < p.groups, 0 < random g) :
    (∀ g < p.groups, 0 < (powerIteration0 p norm conv (.iso xs) f random).1.flux g) ∧
      0 < (powerIteration0 p norm conv (.iso xs) f random).1.keff := by
  refine powerIteration0_inv p norm conv (.iso xs) f random
    (fun s => (∀ g < p.groups, 0 < s.flux g) ∧ 0 < s.keff)
    (fun s => (∀ g < p.groups, 0 < s.flux g) ∧ 0 < s.keff) ⟨fun g hg => ?_, hnorm _ hr⟩
    (fun s hs => C195_pass_positive p norm xs f h hnorm s hs.1 hs.2)
    (fun s hs => C195_pass_positive p norm xs f h hnorm s hs.1 hs.2)
  exact div_pos (hr g hg) (abs_pos.mpr (hnorm _ hr).ne')

/-! ## C196: bounds by the ratios of fission yield to absorption -/

/-- The absorption of a group: its total cross section less everything scattered out of it. -/
def absorption0 (G : ℕ) (sigma : ℕ → K) (xs : ℕ → ℕ → K) (g : ℕ) : K :=
  sigma g - ∑ o ∈ range G, xs o g

/-- The fission yield of a group. -/
def yield0 (G : ℕ) (F : ℕ → ℕ → K) (g : ℕ) : K := ∑ o ∈ range G, F o g

theorem production0_yield (G : ℕ) (F : ℕ → ℕ → K) (phi : ℕ → K) :
    production0 G F phi = ∑ g ∈ range G, yield0 G F g * phi g := by
  unfold production0 yield0
  rw [sum_comm]
  exact sum_congr rfl fun g _ => by rw [sum_mul]

/-- Neutron balance of the whole medium. -/
theorem balance0_total (G : ℕ) (sigma : ℕ → K) (xs : ℕ → ℕ → K) (phi : ℕ → K) :
    ∑ g ∈ range G, (sigma g * phi g - ∑ g' ∈ range G, xs g g' * phi g')
      = ∑ g ∈ range G, absorption0 G sigma xs g * phi g := by
  rw [sum_sub_distrib, sum_comm, ← sum_sub_distrib]
  refine sum_congr rfl fun g _ => ?_
  unfold absorption0
  rw [sub_mul, sum_mul]

/-- C196: a pass whose inner solution balances up to a fraction `eps` of the absorption gives a multiplication
factor between the smallest and the largest ratio of fission yield to absorption over the groups (up to
`1 ± eps`), whatever the flux and factor before the pass. -/
theorem C196_keff_bounds (p : Medium K) (norm : (ℕ → K) → K) (xs : ℕ → ℕ → K) (f : Fission0 K)
    (s : K0State K) (lo hi eps : K) (heps : 0 ≤ eps) (heps1 : eps < 1) (hlo : 0 ≤ lo)
    (habs : ∀ g < p.groups, 0 < absorption0 p.groups p.xsTotal xs g)
    (hmin : ∀ g < p.groups, lo * absorption0 p.groups p.xsTotal xs g ≤ yield0 p.groups (fissionMatrix0 f) g)
    (hmax : ∀ g < p.groups, yield0 p.groups (fissionMatrix0 f) g ≤ hi * absorption0 p.groups p.xsTotal xs g)
    (hk : 0 < s.keff) (hprod : 0 < production0 p.groups (fissionMatrix0 f) s.flux) (flux : ℕ → K)
    (hflux : ∀ g < p.groups,
      sourceIteration p (.iso xs) (fissionSource0 p.groups f s.flux s.keff) s.flux g = flux g)
    (hnn : ∀ g < p.groups, 0 ≤ flux g)
    (hres : ∀ g < p.groups, |p.xsTotal g * flux g - ∑ g' ∈ range p.groups, xs g g' * flux g'
      - (∑ g' ∈ range p.groups, fissionMatrix0 f g g' * s.flux g') / s.keff|
        ≤ eps * (absorption0 p.groups p.xsTotal xs g * flux g)) :
    lo * (1 - eps) ≤ (powerStep0 p norm (.iso xs) f s).keff ∧
      (powerStep0 p norm (.iso xs) f s).keff * (1 - eps) ≤ hi := by
  have hP : production0 p.groups (fissionMatrix0 f)
      (sourceIteration p (.iso xs) (fissionSource0 p.groups f s.flux s.keff) s.flux)
      = ∑ g ∈ range p.groups, yield0 p.groups (fissionMatrix0 f) g * flux g := by
    rw [production0_yield]
    exact sum_congr rfl fun g hg => by rw [hflux g (mem_range.mp hg)]
  obtain ⟨Q, hQ⟩ : ∃ Q, Q = production0 p.groups (fissionMatrix0 f) s.flux / s.keff := ⟨_, rfl⟩
  have hQpos : 0 < Q := hQ ▸ div_pos hprod hk
  have hkeff : (powerStep0 p norm (.iso xs) f s).keff
      = (∑ g ∈ range p.groups, yield0 p.groups (fissionMatrix0 f) g * flux g) / Q := by
    show updateKeff0 _ _ _ _ _ = _
    rw [updateKeff0_eq, hP, hQ, div_div_eq_mul_div]
  obtain ⟨A, hA⟩ : ∃ A, A = ∑ g ∈ range p.groups, absorption0 p.groups p.xsTotal xs g * flux g := ⟨_, rfl⟩
  obtain ⟨Y, hY⟩ : ∃ Y, Y = ∑ g ∈ range p.groups, yield0 p.groups (fissionMatrix0 f) g * flux g := ⟨_, rfl⟩
  have hdiff : |A - Q| ≤ eps * A := by
    have e : A - Q = ∑ g ∈ range p.groups, (p.xsTotal g * flux g - ∑ g' ∈ range p.groups, xs g g' * flux g'
      - (∑ g' ∈ range p.groups, fissionMatrix0 f g g' * s.flux g') / s.keff) := by
      rw [sum_sub_distrib, balance0_total, ← sum_div, hA, hQ]; rfl
    rw [e, hA, mul_sum]
    exact (abs_sum_le_sum_abs _ _).trans (sum_le_sum fun g hg => hres g (mem_range.mp hg))
  have h1 : lo * A ≤ Y := by
    rw [hA, hY, mul_sum]
    refine sum_le_sum fun g hg => ?_
    have := mul_le_mul_of_nonneg_right (hmin g (mem_range.mp hg)) (hnn g (mem_range.mp hg))
    linarith
  have h2 : Y ≤ hi * A := by
    rw [hA, hY, mul_sum]
    refine sum_le_sum fun g hg => ?_
    have := mul_le_mul_of_nonneg_right (hmax g (mem_range.mp hg)) (hnn g (mem_range.mp hg))
    linarith
  obtain ⟨hl, hr⟩ := abs_le.mp hdiff
  have hA0 : 0 ≤ A := by
    rw [hA]; exact sum_nonneg fun g hg => mul_nonneg (habs g (mem_range.mp hg)).le (hnn g (mem_range.mp hg))
  have hApos : 0 < A := by nlinarith
  have hhi : 0 ≤ hi := by
    by_contra hneg
    have : lo * A ≤ hi * A := h1.trans h2
    have := le_of_mul_le_mul_right this hApos
    exact hneg (hlo.trans this)
  rw [hkeff, ← hY]
  constructor
  · rw [le_div_iff₀ hQpos]
    have h3 : (1 - eps) * Q ≤ A := by nlinarith
    have := mul_le_mul_of_nonneg_left h3 hlo
    linarith
  · rw [div_mul_eq_mul_div, div_le_iff₀ hQpos]
    have h3 : Y * (1 - eps) ≤ hi * A * (1 - eps) := mul_le_mul_of_nonneg_right h2 (by linarith)
    have h4 := mul_le_mul_of_nonneg_left (show (1 - eps) * A ≤ Q by linarith) hhi
    linarith

/-- C196: the multiplication factor of every infinite-medium eigenpair with non-negative flux lies between those
ratios. -/
theorem C196_eigenvalue_bounds (G : ℕ) (sigma : ℕ → K) (xs F : ℕ → ℕ → K) (phi : ℕ → K) (k lo hi : K)
    (hk : 0 < k) (h : InfiniteEigenpair G sigma xs F phi k) (hphi : ∀ g < G, 0 ≤ phi g)
    (hprod : 0 < production0 G F phi)
    (hmin : ∀ g < G, lo * absorption0 G sigma xs g ≤ yield0 G F g)
    (hmax : ∀ g < G, yield0 G F g ≤ hi * absorption0 G sigma xs g) : lo ≤ k ∧ k ≤ hi := by
  have hbal : ∑ g ∈ range G, absorption0 G sigma xs g * phi g = production0 G F phi / k := by
    rw [← balance0_total, production0, sum_div]
    exact sum_congr rfl fun g hg => by rw [h g (mem_range.mp hg)]; ring
  obtain ⟨A, hA⟩ : ∃ A, A = ∑ g ∈ range G, absorption0 G sigma xs g * phi g := ⟨_, rfl⟩
  rw [← hA] at hbal
  have hApos : 0 < A := by rw [hbal]; exact div_pos hprod hk
  have hY : production0 G F phi = k * A := by rw [hbal]; field_simp
  rw [production0_yield] at hY
  constructor
  · refine le_of_mul_le_mul_right ?_ hApos
    rw [← hY, hA, mul_sum]
    refine sum_le_sum fun g hg => ?_
    have := mul_le_mul_of_nonneg_right (hmin g (mem_range.mp hg)) (hphi g (mem_range.mp hg))
    linarith
  · refine le_of_mul_le_mul_right ?_ hApos
    rw [← hY, hA, mul_sum]
    refine sum_le_sum fun g hg => ?_
    have := mul_le_mul_of_nonneg_right (hmax g (mem_range.mp hg)) (hphi g (mem_range.mp hg))
    linarith

/-! ## C197: one fission spectrum -/

/-- `psi` is the flux one fission neutron of spectrum `chi` causes, `kInf` the neutrons it yields. -/
structure FissionGeneration (G : ℕ) (sigma : ℕ → K) (xs : ℕ → ℕ → K) (chi nu psi : ℕ → K) (kInf : K) :
    Prop where
  solves : InfiniteMedium G sigma xs chi psi
  yield : kInf = ∑ g ∈ range G, nu g * psi g

theorem infinite_smul (G : ℕ) (sigma : ℕ → K) (xs : ℕ → ℕ → K) (q psi : ℕ → K) (t : K)
    (h : InfiniteMedium G sigma xs q psi) :
    InfiniteMedium G sigma xs (fun g => t * q g) (fun g => t * psi g) := by
  intro g hg
  have := h g hg
  have e : ∑ g' ∈ range G, xs g g' * (t * psi g') = t * ∑ g' ∈ range G, xs g g' * psi g' := by
    rw [mul_sum]; exact sum_congr rfl fun _ _ => by ring
  rw [e]
  linear_combination t * this

/-- Two solutions of the balance of a subcritical medium agree. -/
theorem infinite_unique (G : ℕ) (sigma : ℕ → K) (xs : ℕ → ℕ → K) (q : ℕ → K) (c : K) (hc : 0 ≤ c)
    (hc1 : c < 1) (hsub : Subcritical0 G sigma xs c) (x y : ℕ → K)
    (hx : InfiniteMedium G sigma xs q x) (hy : InfiniteMedium G sigma xs q y) : ∀ g < G, x g = y g := by
  let p : Medium K := ⟨G, 1, fun _ => 0, fun _ => 1, sigma, fun _ _ => false, fun _ _ => false⟩
  have hm : ∀ g < G, meanSource p ⟨1, G, fun _ g => q g⟩ g = q g := by
    intro g hg
    have : (if G = 1 then 0 else g) = g := by split_ifs with h <;> omega
    simp [meanSource, p, this]
  obtain ⟨sol, -, hu, -⟩ := C71_finds_the_solution p xs ⟨1, G, fun _ g => q g⟩ c hc hc1 (by simp [p]) hsub
  intro g hg
  rw [hu x (fun g hg => by rw [hm g hg]; exact hx g hg) g hg,
    hu y (fun g hg => by rw [hm g hg]; exact hy g hg) g hg]

/-- C197: with a single fission spectrum the infinite-medium eigenvalue problem has, for fluxes that cause fission,
exactly one multiplication factor - the neutrons one fission neutron yields - and one flux up to scale. -/
theorem C197_unique_eigenpair (G : ℕ) (sigma : ℕ → K) (xs : ℕ → ℕ → K) (chi nu psi : ℕ → K) (kInf c : K)
    (hc : 0 ≤ c) (hc1 : c < 1) (hsub : Subcritical0 G sigma xs c)
    (h : FissionGeneration G sigma xs chi nu psi kInf) (hkInf : kInf ≠ 0) :
    InfiniteEigenpair G sigma xs (fun o i => chi o * nu i) psi kInf ∧
      ∀ (phi : ℕ → K) (k : K), k ≠ 0 → ∑ g ∈ range G, nu g * phi g ≠ 0 →
        InfiniteEigenpair G sigma xs (fun o i => chi o * nu i) phi k →
        k = kInf ∧ ∃ t, ∀ g < G, phi g = t * psi g := by
  have hF : ∀ (x : ℕ → K) (g : ℕ), ∑ g' ∈ range G, chi g * nu g' * x g'
      = chi g * ∑ g' ∈ range G, nu g' * x g' := fun x g => by
    rw [mul_sum]; exact sum_congr rfl fun _ _ => by ring
  constructor
  · intro g hg
    rw [hF, ← h.yield, mul_div_assoc, div_self hkInf, mul_one]
    exact h.solves g hg
  · intro phi k hk hN hphi
    obtain ⟨N, hNe⟩ : ∃ N, N = ∑ g ∈ range G, nu g * phi g := ⟨_, rfl⟩
    rw [← hNe] at hN
    have hu := infinite_unique G sigma xs (fun g => N / k * chi g) c hc hc1 hsub phi
      (fun g => N / k * psi g) (fun g hg => by rw [hphi g hg, hF, ← hNe]; ring)
      (infinite_smul G sigma xs chi psi (N / k) h.solves)
    refine ⟨?_, N / k, hu⟩
    have h1 : N = N / k * kInf := by
      conv_lhs => rw [hNe]
      rw [h.yield, mul_sum]
      exact sum_congr rfl fun g hg => by rw [hu g (mem_range.mp hg)]; ring
    have h2 : N * k = N * kInf := by
      conv_lhs => rw [h1]
      field_simp
    exact mul_left_cancel₀ hN h2

/-- C197: a pass from *any* flux and factor gives the exact factor up to the relative error `eta` of the inner
solution of that pass: there is no convergence over the passes to wait for. -/
theorem C197_keff_after_any_pass (p : Medium K) (norm : (ℕ → K) → K) (xs : ℕ → ℕ → K) (chi nu psi : ℕ → K)
    (kInf eta : K) (h : FissionGeneration p.groups p.xsTotal xs chi nu psi kInf)
    (hnu : ∀ g < p.groups, 0 ≤ nu g) (hpsi : ∀ g < p.groups, 0 ≤ psi g)
    (hchi : ∑ g ∈ range p.groups, chi g ≠ 0) (s : K0State K) (hk : 0 < s.keff)
    (hN : 0 < ∑ g ∈ range p.groups, nu g * s.flux g)
    (hin : ∀ x : ℕ → K, InfiniteMedium p.groups p.xsTotal xs (fun g =>
        (∑ g' ∈ range p.groups, chi g * nu g' * s.flux g') / s.keff) x → (∀ g < p.groups, 0 ≤ x g) →
      ∀ g < p.groups, |sourceIteration p (.iso xs)
        (fissionSource0 p.groups (.vector chi nu) s.flux s.keff) s.flux g - x g| ≤ eta * x g) :
    |(powerStep0 p norm (.iso xs) (.vector chi nu) s).keff - kInf| ≤ eta * kInf := by
  obtain ⟨N, hNe⟩ : ∃ N, N = ∑ g ∈ range p.groups, nu g * s.flux g := ⟨_, rfl⟩
  rw [← hNe] at hN
  obtain ⟨flux, hfl⟩ : ∃ flux, flux = sourceIteration p (.iso xs)
    (fissionSource0 p.groups (.vector chi nu) s.flux s.keff) s.flux := ⟨_, rfl⟩
  have hF : ∀ (x : ℕ → K) (g : ℕ), ∑ g' ∈ range p.groups, chi g * nu g' * x g'
      = chi g * ∑ g' ∈ range p.groups, nu g' * x g' := fun x g => by
    rw [mul_sum]; exact sum_congr rfl fun _ _ => by ring
  have hx := hin (fun g => N / s.keff * psi g) (fun g hg => by
    have := infinite_smul p.groups p.xsTotal xs chi psi (N / s.keff) h.solves g hg
    beta_reduce at this ⊢
    rw [this, hF, ← hNe]; ring)
    (fun g hg => mul_nonneg (div_nonneg hN.le hk.le) (hpsi g hg))
  rw [← hfl] at hx
  have hprod : ∀ x : ℕ → K, production0 p.groups (fissionMatrix0 (.vector chi nu)) x
      = (∑ g ∈ range p.groups, chi g) * ∑ g ∈ range p.groups, nu g * x g := by
    intro x
    rw [sum_mul]
    exact sum_congr rfl fun g _ => hF x g
  have hkeff : (powerStep0 p norm (.iso xs) (.vector chi nu) s).keff
      = (∑ g ∈ range p.groups, nu g * flux g) * s.keff / N := by
    have e0 : (powerStep0 p norm (.iso xs) (.vector chi nu) s).keff
      = updateKeff0 p.groups (.vector chi nu) (sourceIteration p (.iso xs)
        (fissionSource0 p.groups (.vector chi nu) s.flux s.keff) s.flux) s.flux s.keff := rfl
    rw [e0, updateKeff0_eq, ← hfl, hprod, hprod, ← hNe, mul_assoc, mul_div_mul_left _ _ hchi]
  have e : (powerStep0 p norm (.iso xs) (.vector chi nu) s).keff - kInf
      = (∑ g ∈ range p.groups, nu g * (flux g - N / s.keff * psi g)) * (s.keff / N) := by
    have e1 : ∑ g ∈ range p.groups, nu g * (flux g - N / s.keff * psi g)
        = ∑ g ∈ range p.groups, nu g * flux g - N / s.keff * kInf := by
      rw [h.yield, mul_sum, ← sum_sub_distrib]
      exact sum_congr rfl fun _ _ => by ring
    rw [hkeff, e1]
    field_simp
  rw [e, abs_mul, abs_of_pos (div_pos hk hN)]
  have hsum : |∑ g ∈ range p.groups, nu g * (flux g - N / s.keff * psi g)| ≤ eta * (N / s.keff * kInf) := by
    refine (abs_sum_le_sum_abs _ _).trans ?_
    rw [h.yield, mul_sum, mul_sum]
    refine sum_le_sum fun g hg => ?_
    rw [abs_mul, abs_of_nonneg (hnu g (mem_range.mp hg))]
    have := mul_le_mul_of_nonneg_left (hx g (mem_range.mp hg)) (hnu g (mem_range.mp hg))
    linarith
  have := mul_le_mul_of_nonneg_right hsum (div_pos hk hN).le
  refine this.trans (le_of_eq ?_)
  field_simp

/-- In a medium without up-scattering and within-group scattering the solver is exact. -/
theorem downscatter0_exact (p : Medium K) (xs : ℕ → ℕ → K) (ext : Source0 K) (old : ℕ → K)
    (hw : ∑ n ∈ range p.angles, p.angleW n = 1) (hpos : ∀ g < p.groups, 0 < p.xsTotal g)
    (hdown : ∀ g < p.groups, ∀ g' < p.groups, g ≤ g' → xs g g' = 0) :
    InfiniteMedium p.groups p.xsTotal xs (meanSource p ext) (sourceIteration p (.iso xs) ext old) := by
  have key : ∀ old : ℕ → K, InfiniteMedium p.groups p.xsTotal xs (meanSource p ext) (outerIso p xs ext old) := by
    intro old g hg
    have hs := outerIso_spec p xs ext old g hg
    have hoff : ∑ og ∈ (range p.groups).erase g,
        xs g og * (if og < g then outerIso p xs ext old og else old og)
        = ∑ g' ∈ range p.groups, xs g g' * outerIso p xs ext old g' := by
      rw [← add_sum_erase _ _ (mem_range.mpr hg), hdown g hg g hg le_rfl, zero_mul, zero_add]
      refine sum_congr rfl fun og hog => ?_
      split_ifs with hlt
      · rfl
      · rw [hdown g hg og (mem_range.mp (mem_erase.mp hog).2) (not_lt.mp hlt), zero_mul, zero_mul]
    rw [hoff] at hs
    obtain ⟨k, -, he, -, -⟩ := iterate_spec (sweepIso p (p.xsTotal g) (xs g g)
      (∑ g' ∈ range p.groups, xs g g' * outerIso p xs ext old g') ext.rows
      (fun n => ext.val n (bidx ext.cols g))) p.convIn 99 (old g)
    rw [discreteOrdinatesIso, he, Function.iterate_succ_apply', sweepIso_eq p hw,
      hdown g hg g hg le_rfl, zero_mul, zero_add, eq_div_iff (hpos g hg).ne'] at hs
    linarith
  obtain ⟨⟨n, h1, -, he, -⟩, _⟩ := C71_iterations_bounded p xs ext old 0 0 0 0 0 (fun _ => 0)
  rw [he]
  obtain ⟨m, rfl⟩ : ∃ m, n = m + 1 := ⟨n - 1, by omega⟩
  rw [Function.iterate_succ_apply']
  exact key _

/-- C197: if moreover the inner solver is exact (as it is without up- and within-group scattering), the state after
every pass - the first included - is the normalised flux of one fission neutron with the exact multiplication
factor, whatever the random start. -/
theorem C197_exact_after_one_pass (p : Medium K) (norm : (ℕ → K) → K) (conv : (ℕ → K) → (ℕ → K) → Bool)
    (xs : ℕ → ℕ → K) (chi nu psi : ℕ → K) (kInf c : K) (hc : 0 ≤ c) (hc1 : c < 1)
    (hw : ∑ n ∈ range p.angles, p.angleW n = 1)
    (hsub : Subcritical0 p.groups p.xsTotal xs c)
    (hdown : ∀ g < p.groups, ∀ g' < p.groups, g ≤ g' → xs g g' = 0)
    (h : FissionGeneration p.groups p.xsTotal xs chi nu psi kInf) (hkInf : 0 < kInf)
    (hchi : ∑ g ∈ range p.groups, chi g ≠ 0)
    (hnorm : ∀ (x y : ℕ → K) (t : K), 0 < t → (∀ g < p.groups, x g = t * y g) → norm x = t * norm y)
    (hpsi : 0 < norm psi) (random : ℕ → K) (hr : 0 < norm random)
    (hrN : 0 < ∑ g ∈ range p.groups, nu g * random g) :
    (∀ g < p.groups, (powerIteration0 p norm conv (.iso xs) (.vector chi nu) random).1.flux g
        = psi g / norm psi) ∧
      (powerIteration0 p norm conv (.iso xs) (.vector chi nu) random).1.keff = kInf := by
  have hF : ∀ (x : ℕ → K) (g : ℕ), ∑ g' ∈ range p.groups, chi g * nu g' * x g'
      = chi g * ∑ g' ∈ range p.groups, nu g' * x g' := fun x g => by
    rw [mul_sum]; exact sum_congr rfl fun _ _ => by ring
  have hprod : ∀ x : ℕ → K, production0 p.groups (fissionMatrix0 (.vector chi nu)) x
      = (∑ g ∈ range p.groups, chi g) * ∑ g ∈ range p.groups, nu g * x g := by
    intro x
    rw [sum_mul]
    exact sum_congr rfl fun g _ => hF x g
  have hstep : ∀ s : K0State K, 0 < s.keff ∧ 0 < ∑ g ∈ range p.groups, nu g * s.flux g →
      (∀ g < p.groups, (powerStep0 p norm (.iso xs) (.vector chi nu) s).flux g = psi g / norm psi) ∧
      (powerStep0 p norm (.iso xs) (.vector chi nu) s).keff = kInf := by
    rintro s ⟨hk, hN⟩
    obtain ⟨N, hNe⟩ : ∃ N, N = ∑ g ∈ range p.groups, nu g * s.flux g := ⟨_, rfl⟩
    rw [← hNe] at hN
    obtain ⟨flux, hfl⟩ : ∃ flux, flux = sourceIteration p (.iso xs)
      (fissionSource0 p.groups (.vector chi nu) s.flux s.keff) s.flux := ⟨_, rfl⟩
    have hsol : InfiniteMedium p.groups p.xsTotal xs (fun g => N / s.keff * chi g) flux := by
      intro g hg
      rw [hfl, downscatter0_exact p xs (fissionSource0 p.groups (.vector chi nu) s.flux s.keff) s.flux hw
        hsub.pos hdown g hg, fissionSource0_mean p _ _ _ hw g hg]
      have : (∑ g' ∈ range p.groups, fissionMatrix0 (.vector chi nu) g g' * s.flux g') / s.keff
          = N / s.keff * chi g := by
        rw [show ∑ g' ∈ range p.groups, fissionMatrix0 (.vector chi nu) g g' * s.flux g' = _ from hF s.flux g,
          ← hNe]; ring
      rw [this]
    have hflux := infinite_unique _ _ _ _ c hc hc1 hsub flux (fun g => N / s.keff * psi g) hsol
      (infinite_smul p.groups p.xsTotal xs chi psi (N / s.keff) h.solves)
    have ht : 0 < N / s.keff := div_pos hN hk
    constructor
    · intro g hg
      show sourceIteration p (.iso xs) (fissionSource0 p.groups (.vector chi nu) s.flux s.keff) s.flux g
        / norm (sourceIteration p (.iso xs) (fissionSource0 p.groups (.vector chi nu) s.flux s.keff) s.flux) = _
      rw [← hfl, hnorm flux psi _ ht hflux, hflux g hg, mul_div_mul_left _ _ ht.ne']
    · have e0 : (powerStep0 p norm (.iso xs) (.vector chi nu) s).keff
        = updateKeff0 p.groups (.vector chi nu) (sourceIteration p (.iso xs)
          (fissionSource0 p.groups (.vector chi nu) s.flux s.keff) s.flux) s.flux s.keff := rfl
      rw [e0, updateKeff0_eq, ← hfl, hprod, hprod, ← hNe, mul_assoc, mul_div_mul_left _ _ hchi]
      have : ∑ g ∈ range p.groups, nu g * flux g = N / s.keff * kInf := by
        rw [h.yield, mul_sum]
        exact sum_congr rfl fun g hg => by rw [hflux g (mem_range.mp hg)]; ring
      rw [this]
      field_simp
  refine powerIteration0_inv p norm conv (.iso xs) (.vector chi nu) random
    (fun s => 0 < s.keff ∧ 0 < ∑ g ∈ range p.groups, nu g * s.flux g)
    (fun s => (∀ g < p.groups, s.flux g = psi g / norm psi) ∧ s.keff = kInf) ⟨hr, ?_⟩ ?_ hstep
  · have e : ∑ g ∈ range p.groups, nu g * (random g / |norm random|)
        = (∑ g ∈ range p.groups, nu g * random g) / |norm random| := by
      rw [sum_div]; exact sum_congr rfl fun _ _ => by ring
    show 0 < ∑ g ∈ range p.groups, nu g * (random g / |norm random|)
    rw [e]
    exact div_pos hrN (abs_pos.mpr hr.ne')
  · intro s hs
    obtain ⟨h1, h2⟩ := hstep s hs
    rw [h2]
    refine ⟨hkInf, ?_⟩
    have e : ∑ g ∈ range p.groups, nu g * (powerStep0 p norm (.iso xs) (.vector chi nu) s).flux g
        = kInf / norm psi := by
      rw [h.yield, sum_div]
      exact sum_congr rfl fun g hg => by rw [h1 g (mem_range.mp hg)]; ring
    rw [e]
    exact div_pos hkInf hpsi

/-- C71: if the solver stopped early, and its test bounds every group's change by `tau` times the new flux, the
returned flux is within `c tau M / (1 - c)` of the solution, `M` the largest returned flux, whatever the start. -/
theorem C71_accuracy_when_converged (p : Medium K) (xs : ℕ → ℕ → K) (ext : Source0 K) (c tau : K)
    (hc1 : c < 1) (hw : ∑ n ∈ range p.angles, p.angleW n = 1)
    (hsub : Subcritical0 p.groups p.xsTotal xs c) (htau : 0 ≤ tau)
    (htest : ∀ a b : ℕ → K, p.convOut a b = true → ∀ g < p.groups, |a g - b g| ≤ tau * |a g|)
    (phi : ℕ → K) (h : InfiniteMedium p.groups p.xsTotal xs (meanSource p ext) phi) (old : ℕ → K) :
    ∃ n, 1 ≤ n ∧ n ≤ 100 ∧ sourceIteration p (.iso xs) ext old = (outerIso p xs ext)^[n] old ∧
      (∀ j, 1 ≤ j → j < n → p.convOut ((outerIso p xs ext)^[j] old) ((outerIso p xs ext)^[j - 1] old) = false) ∧
      (n < 100 → ∀ M, (∀ g < p.groups, |sourceIteration p (.iso xs) ext old g| ≤ M) →
        ∀ g < p.groups, (1 - c) * |sourceIteration p (.iso xs) ext old g - phi g| ≤ c * (tau * M)) := by
  obtain ⟨⟨n, hn, hn2, he0, hc0, hno⟩, _⟩ := C71_iterations_bounded p xs ext old 0 0 0 0 0 (fun _ => 0)
  refine ⟨n, hn, hn2, he0, hno, fun hlt M hM g hg => ?_⟩
  have hc2 := hc0 hlt
  have he := he0
  obtain ⟨m, rfl⟩ : ∃ m, n = m + 1 := ⟨n - 1, by omega⟩
  obtain ⟨y, hy⟩ : ∃ y, y = (outerIso p xs ext)^[m] old := ⟨_, rfl⟩
  rw [Nat.add_sub_cancel, ← hy, ← he] at hc2
  rw [Function.iterate_succ_apply', ← hy] at he
  obtain ⟨x, hx⟩ : ∃ x, x = sourceIteration p (.iso xs) ext old := ⟨_, rfl⟩
  rw [← hx] at hc2 he hM ⊢
  obtain ⟨j, hj, hmax⟩ := (range p.groups).exists_max_image (fun g => |x g - phi g|) ⟨g, mem_range.mpr hg⟩
  have hstep : ∀ i < p.groups, |y i - phi i| ≤ tau * M + |x j - phi j| := by
    intro i hi
    have h1 := htest x y hc2 i hi
    have h2 := mul_le_mul_of_nonneg_left (hM i hi) htau
    have h3 := hmax i (mem_range.mpr hi)
    have h4 : |y i - phi i| ≤ |x i - y i| + |x i - phi i| := by
      have := abs_sub_abs_le_abs_sub (y i - phi i) (x i - phi i)
      have e : y i - phi i - (x i - phi i) = -(x i - y i) := by ring
      rw [e, abs_neg] at this
      linarith
    beta_reduce at h3
    linarith
  have hM0 : 0 ≤ M := (abs_nonneg _).trans (hM g hg)
  have h1 := outerIso_contracts p xs ext c (tau * M + |x j - phi j|) hc1.le
    (add_nonneg (mul_nonneg htau hM0) (abs_nonneg _)) hw hsub phi h y hstep j (mem_range.mp hj)
  rw [← he] at h1
  have h2 := hmax g (mem_range.mpr hg)
  beta_reduce at h2
  have h3 := mul_le_mul_of_nonneg_left h2 (sub_nonneg.mpr hc1.le)
  linarith

/-! ## C198: bracketing by a positive eigenpair -/

theorem production0_mono (G : ℕ) (F : ℕ → ℕ → K) (x y : ℕ → K) (hF : ∀ g < G, ∀ g' < G, 0 ≤ F g g')
    (h : ∀ g < G, x g ≤ y g) : production0 G F x ≤ production0 G F y :=
  sum_le_sum fun g hg => sum_le_sum fun g' hg' => mul_le_mul_of_nonneg_left (h g' (mem_range.mp hg'))
    (hF g (mem_range.mp hg) g' (mem_range.mp hg'))

theorem production0_smul (G : ℕ) (F : ℕ → ℕ → K) (x : ℕ → K) (t : K) :
    production0 G F (fun g => t * x g) = t * production0 G F x := by
  unfold production0
  rw [mul_sum]
  refine sum_congr rfl fun g _ => ?_
  rw [mul_sum]
  exact sum_congr rfl fun _ _ => by ring

/-- C198: a start between `a psi` and `b psi`, for a positive eigenpair `(psi, k)`, leads to a flux between
`min(1, k/keff) a psi` and `max(1, k/keff) b psi` and to a factor between `min(keff, k) a/b` and `max(keff, k) b/a` -
whatever the inner solver's tests say, converged or not. -/
theorem C198_pass_bracketed (p : Medium K) (norm : (ℕ → K) → K) (xs : ℕ → ℕ → K) (f : Fission0 K)
    (hw : ∑ n ∈ range p.angles, p.angleW n = 1) (hpos : ∀ g < p.groups, 0 < p.xsTotal g)
    (hxs : ∀ g < p.groups, ∀ g' < p.groups, 0 ≤ xs g g')
    (hF : ∀ g < p.groups, ∀ g' < p.groups, 0 ≤ fissionMatrix0 f g g') (psi : ℕ → K) (k a b : K)
    (hk : 0 < k) (h : InfiniteEigenpair p.groups p.xsTotal xs (fissionMatrix0 f) psi k)
    (hpsi : ∀ g < p.groups, 0 ≤ psi g) (hprod : 0 < production0 p.groups (fissionMatrix0 f) psi)
    (ha : 0 < a) (s : K0State K) (hkeff : 0 < s.keff) (hlo : ∀ g < p.groups, a * psi g ≤ s.flux g)
    (hhi : ∀ g < p.groups, s.flux g ≤ b * psi g) :
    (∀ g < p.groups, min 1 (k / s.keff) * a * psi g
        ≤ sourceIteration p (.iso xs) (fissionSource0 p.groups f s.flux s.keff) s.flux g ∧
      sourceIteration p (.iso xs) (fissionSource0 p.groups f s.flux s.keff) s.flux g
        ≤ max 1 (k / s.keff) * b * psi g) ∧
      min s.keff k * (a / b) ≤ (powerStep0 p norm (.iso xs) f s).keff ∧
      (powerStep0 p norm (.iso xs) f s).keff ≤ max s.keff k * (b / a) := by
  obtain ⟨E, hE⟩ : ∃ E : ℕ → K, ∀ g, E g = ∑ g' ∈ range p.groups, fissionMatrix0 f g g' * psi g' :=
    ⟨fun g => ∑ g' ∈ range p.groups, fissionMatrix0 f g g' * psi g', fun _ => rfl⟩
  have hE0 : ∀ g < p.groups, 0 ≤ E g := fun g hg => by
    rw [hE]; exact sum_nonneg fun b hb => mul_nonneg (hF g hg b (mem_range.mp hb)) (hpsi b (mem_range.mp hb))
  have hsm : ∀ (t : K) (A : ℕ → ℕ → K) (g : ℕ), ∑ g' ∈ range p.groups, A g g' * (t * psi g')
      = t * ∑ g' ∈ range p.groups, A g g' * psi g' := fun t A g => by
    rw [mul_sum]; exact sum_congr rfl fun _ _ => by ring
  have hPa : a * production0 p.groups (fissionMatrix0 f) psi ≤ production0 p.groups (fissionMatrix0 f) s.flux := by
    rw [← production0_smul]; exact production0_mono _ _ _ _ hF hlo
  have hPb : production0 p.groups (fissionMatrix0 f) s.flux ≤ b * production0 p.groups (fissionMatrix0 f) psi := by
    rw [← production0_smul]; exact production0_mono _ _ _ _ hF hhi
  have hab : a ≤ b := le_of_mul_le_mul_right (hPa.trans hPb) hprod
  have hb : 0 < b := ha.trans_le hab
  obtain ⟨r, hr⟩ : ∃ r, r = k / s.keff := ⟨_, rfl⟩
  have hr0 : 0 < r := hr ▸ div_pos hk hkeff
  have hrk : r * s.keff = k := by rw [hr]; field_simp
  have hlow : ∀ g < p.groups, min 1 r * a * psi g
      ≤ sourceIteration p (.iso xs) (fissionSource0 p.groups f s.flux s.keff) s.flux g := by
    refine above_subsolution p xs _ s.flux (fun g => min 1 r * a * psi g) hw hpos hxs (fun g hg => ?_)
      (fun g hg => ?_)
    · rw [fissionSource0_mean p f _ _ hw g hg, hsm]
      have h1 := h g hg
      rw [← hE] at h1
      have h2 : a * E g ≤ ∑ g' ∈ range p.groups, fissionMatrix0 f g g' * s.flux g' := by
        rw [hE, ← hsm]
        exact sum_le_sum fun g' hg' => mul_le_mul_of_nonneg_left (hlo g' (mem_range.mp hg'))
          (hF g hg g' (mem_range.mp hg'))
      have h3 : min 1 r * a * (E g / k) ≤ a * E g / s.keff := by
        have : a * E g / s.keff = r * a * (E g / k) := by rw [← hrk]; field_simp
        rw [this]
        exact mul_le_mul_of_nonneg_right (mul_le_mul_of_nonneg_right (min_le_right _ _) ha.le)
          (div_nonneg (hE0 g hg) hk.le)
      have h4 := div_le_div_of_nonneg_right h2 hkeff.le
      have h5 : p.xsTotal g * (min 1 r * a * psi g)
          = min 1 r * a * ∑ g' ∈ range p.groups, xs g g' * psi g' + min 1 r * a * (E g / k) := by
        linear_combination min 1 r * a * h1
      linarith
    · refine le_trans ?_ (hlo g hg)
      have := mul_le_mul_of_nonneg_right (min_le_left 1 r) (mul_nonneg ha.le (hpsi g hg))
      linarith
  have hupp : ∀ g < p.groups, sourceIteration p (.iso xs) (fissionSource0 p.groups f s.flux s.keff) s.flux g
      ≤ max 1 r * b * psi g := by
    refine below_supersolution p xs _ s.flux (fun g => max 1 r * b * psi g) hw hpos hxs (fun g hg => ?_)
      (fun g hg => ?_)
    · rw [fissionSource0_mean p f _ _ hw g hg, hsm]
      have h1 := h g hg
      rw [← hE] at h1
      have h2 : ∑ g' ∈ range p.groups, fissionMatrix0 f g g' * s.flux g' ≤ b * E g := by
        rw [hE, ← hsm]
        exact sum_le_sum fun g' hg' => mul_le_mul_of_nonneg_left (hhi g' (mem_range.mp hg'))
          (hF g hg g' (mem_range.mp hg'))
      have h3 : b * E g / s.keff ≤ max 1 r * b * (E g / k) := by
        have : b * E g / s.keff = r * b * (E g / k) := by rw [← hrk]; field_simp
        rw [this]
        exact mul_le_mul_of_nonneg_right (mul_le_mul_of_nonneg_right (le_max_right _ _) hb.le)
          (div_nonneg (hE0 g hg) hk.le)
      have h4 := div_le_div_of_nonneg_right h2 hkeff.le
      have h5 : p.xsTotal g * (max 1 r * b * psi g)
          = max 1 r * b * ∑ g' ∈ range p.groups, xs g g' * psi g' + max 1 r * b * (E g / k) := by
        linear_combination max 1 r * b * h1
      linarith
    · refine (hhi g hg).trans ?_
      have := mul_le_mul_of_nonneg_right (le_max_left 1 r) (mul_nonneg hb.le (hpsi g hg))
      linarith
  have hPold : 0 < production0 p.groups (fissionMatrix0 f) s.flux := (mul_pos ha hprod).trans_le hPa
  have hstep : (powerStep0 p norm (.iso xs) f s).keff = production0 p.groups (fissionMatrix0 f)
      (sourceIteration p (.iso xs) (fissionSource0 p.groups f s.flux s.keff) s.flux) * s.keff
      / production0 p.groups (fissionMatrix0 f) s.flux := updateKeff0_eq _ _ _ _ _
  rw [← hr]
  refine ⟨fun g hg => ⟨hlow g hg, hupp g hg⟩, ?_, ?_⟩
  · have h1 : min 1 r * a * production0 p.groups (fissionMatrix0 f) psi ≤ production0 p.groups (fissionMatrix0 f)
        (sourceIteration p (.iso xs) (fissionSource0 p.groups f s.flux s.keff) s.flux) := by
      rw [← production0_smul]; exact production0_mono _ _ _ _ hF hlow
    have hm : min s.keff k = min 1 r * s.keff := by rw [min_mul_of_nonneg _ _ hkeff.le, one_mul, hrk]
    rw [hstep, le_div_iff₀ hPold, hm]
    have h2 : min 1 r * s.keff * (a / b) * production0 p.groups (fissionMatrix0 f) s.flux
        ≤ min 1 r * s.keff * (a / b) * (b * production0 p.groups (fissionMatrix0 f) psi) :=
      mul_le_mul_of_nonneg_left hPb (mul_nonneg (mul_nonneg (le_min zero_le_one hr0.le) hkeff.le)
        (div_pos ha hb).le)
    have h3 : min 1 r * s.keff * (a / b) * (b * production0 p.groups (fissionMatrix0 f) psi)
        = min 1 r * a * production0 p.groups (fissionMatrix0 f) psi * s.keff := by field_simp
    rw [h3] at h2
    exact h2.trans (mul_le_mul_of_nonneg_right h1 hkeff.le)
  · have h1 : production0 p.groups (fissionMatrix0 f)
        (sourceIteration p (.iso xs) (fissionSource0 p.groups f s.flux s.keff) s.flux)
        ≤ max 1 r * b * production0 p.groups (fissionMatrix0 f) psi := by
      rw [← production0_smul]; exact production0_mono _ _ _ _ hF hupp
    have hm : max s.keff k = max 1 r * s.keff := by rw [max_mul_of_nonneg _ _ hkeff.le, one_mul, hrk]
    rw [hstep, div_le_iff₀ hPold, hm]
    have h2 : max 1 r * s.keff * (b / a) * (a * production0 p.groups (fissionMatrix0 f) psi)
        ≤ max 1 r * s.keff * (b / a) * production0 p.groups (fissionMatrix0 f) s.flux :=
      mul_le_mul_of_nonneg_left hPa (mul_nonneg (mul_nonneg (zero_le_one.trans (le_max_left _ _)) hkeff.le)
        (div_pos hb ha).le)
    have h3 : max 1 r * s.keff * (b / a) * (a * production0 p.groups (fissionMatrix0 f) psi)
        = max 1 r * b * production0 p.groups (fissionMatrix0 f) psi * s.keff := by field_simp
    rw [h3] at h2
    exact (mul_le_mul_of_nonneg_right h1 hkeff.le).trans h2

/-- C198: if the inner solver is exact, the bracket `b / a` never widens, and the returned factor lies within it
around the true one, whatever the random start, the tests and the number of passes. -/
theorem C198_power_iteration_bracketed (p : Medium K) (norm : (ℕ → K) → K) (conv : (ℕ → K) → (ℕ → K) → Bool)
    (xs : ℕ → ℕ → K) (f : Fission0 K) (c : K) (hc1 : c < 1)
    (hw : ∑ n ∈ range p.angles, p.angleW n = 1) (hsub : Subcritical0 p.groups p.xsTotal xs c)
    (hF : ∀ g < p.groups, ∀ g' < p.groups, 0 ≤ fissionMatrix0 f g g')
    (hex : ∀ s : K0State K, InfiniteMedium p.groups p.xsTotal xs
      (meanSource p (fissionSource0 p.groups f s.flux s.keff))
      (sourceIteration p (.iso xs) (fissionSource0 p.groups f s.flux s.keff) s.flux))
    (hnorm : ∀ x : ℕ → K, (∀ g < p.groups, 0 < x g) → 0 < norm x) (psi : ℕ → K) (k a b : K)
    (hk : 0 < k) (h : InfiniteEigenpair p.groups p.xsTotal xs (fissionMatrix0 f) psi k)
    (hpsi : ∀ g < p.groups, 0 < psi g) (hprod : 0 < production0 p.groups (fissionMatrix0 f) psi)
    (ha : 0 < a) (random : ℕ → K) (hlo : ∀ g < p.groups, a * psi g ≤ random g)
    (hhi : ∀ g < p.groups, random g ≤ b * psi g) :
    k * (a / b) ≤ (powerIteration0 p norm conv (.iso xs) f random).1.keff ∧
      (powerIteration0 p norm conv (.iso xs) f random).1.keff ≤ k * (b / a) ∧
      ∃ t, 0 < t ∧ ∀ g < p.groups, t * a * psi g ≤ (powerIteration0 p norm conv (.iso xs) f random).1.flux g ∧
        (powerIteration0 p norm conv (.iso xs) f random).1.flux g ≤ t * b * psi g := by
  have hmono : ∀ (q q' x y : ℕ → K), InfiniteMedium p.groups p.xsTotal xs q x →
      InfiniteMedium p.groups p.xsTotal xs q' y → (∀ g < p.groups, q g ≤ q' g) →
      ∀ g < p.groups, x g ≤ y g := by
    intro q q' x y hx hy hq
    by_contra hcon
    push Not at hcon
    obtain ⟨g0, hg0, hlt0⟩ := hcon
    obtain ⟨m, hm, hmax⟩ := (range p.groups).exists_max_image (fun g => x g - y g) ⟨g0, mem_range.mpr hg0⟩
    have hm' := mem_range.mp hm
    have hd : 0 < x m - y m := lt_of_lt_of_le (sub_pos.mpr hlt0) (hmax g0 (mem_range.mpr hg0))
    have e : p.xsTotal m * (x m - y m) = ∑ g' ∈ range p.groups, xs m g' * (x g' - y g') + (q m - q' m) := by
      simp only [mul_sub, sum_sub_distrib]
      rw [hx m hm', hy m hm']; ring
    have h1 : ∑ g' ∈ range p.groups, xs m g' * (x g' - y g') ≤ (∑ g' ∈ range p.groups, xs m g') * (x m - y m) := by
      rw [sum_mul]
      exact sum_le_sum fun g' hg' => mul_le_mul_of_nonneg_left (hmax g' hg')
        (hsub.nonneg m hm' g' (mem_range.mp hg'))
    have h2 := mul_le_mul_of_nonneg_right (hsub.le m hm') hd.le
    have h3 := mul_pos (mul_pos (sub_pos.mpr hc1) (hsub.pos m hm')) hd
    have h4 := hq m hm'
    nlinarith
  have hsm : ∀ (t : K) (g : ℕ), ∑ g' ∈ range p.groups, fissionMatrix0 f g g' * (t * psi g')
      = t * ∑ g' ∈ range p.groups, fissionMatrix0 f g g' * psi g' := fun t g => by
    rw [mul_sum]; exact sum_congr rfl fun _ _ => by ring
  by_cases hG : p.groups = 0
  · exfalso; simp [production0, hG] at hprod
  have h0 : 0 < p.groups := Nat.pos_of_ne_zero hG
  have hab : a ≤ b := le_of_mul_le_mul_right ((hlo 0 h0).trans (hhi 0 h0)) (hpsi 0 h0)
  have hb : 0 < b := ha.trans_le hab
  have hstep : ∀ s : K0State K, (0 < s.keff ∧ ∃ t, 0 < t ∧ ∀ g < p.groups, t * a * psi g ≤ s.flux g ∧
      s.flux g ≤ t * b * psi g) →
      (k * (a / b) ≤ (powerStep0 p norm (.iso xs) f s).keff ∧
        (powerStep0 p norm (.iso xs) f s).keff ≤ k * (b / a) ∧
      ∃ t, 0 < t ∧ ∀ g < p.groups, t * a * psi g ≤ (powerStep0 p norm (.iso xs) f s).flux g ∧
        (powerStep0 p norm (.iso xs) f s).flux g ≤ t * b * psi g) := by
    rintro s ⟨hkeff, t, ht, hfl⟩
    obtain ⟨flux, hflux⟩ : ∃ flux, flux = sourceIteration p (.iso xs) (fissionSource0 p.groups f s.flux s.keff)
      s.flux := ⟨_, rfl⟩
    have hsol := hex s
    rw [← hflux] at hsol
    obtain ⟨r, hr⟩ : ∃ r, r = k / s.keff := ⟨_, rfl⟩
    have hr0 : 0 < r := hr ▸ div_pos hk hkeff
    have hrk : r * s.keff = k := by rw [hr]; field_simp
    have hscaled : ∀ u : K, InfiniteMedium p.groups p.xsTotal xs
        (fun g => u * ((∑ g' ∈ range p.groups, fissionMatrix0 f g g' * psi g') / k)) (fun g => u * psi g) :=
      fun u => infinite_smul _ _ _ _ _ u h
    have hlow : ∀ g < p.groups, r * t * a * psi g ≤ flux g := by
      refine hmono _ _ _ _ (hscaled (r * t * a)) hsol fun g hg => ?_
      rw [fissionSource0_mean p f _ _ hw g hg]
      have h2 : t * a * ∑ g' ∈ range p.groups, fissionMatrix0 f g g' * psi g'
          ≤ ∑ g' ∈ range p.groups, fissionMatrix0 f g g' * s.flux g' := by
        rw [← hsm]
        exact sum_le_sum fun g' hg' => mul_le_mul_of_nonneg_left (hfl g' (mem_range.mp hg')).1
          (hF g hg g' (mem_range.mp hg'))
      have h4 := div_le_div_of_nonneg_right h2 hkeff.le
      refine le_trans (le_of_eq ?_) h4
      rw [← hrk]; field_simp
    have hupp : ∀ g < p.groups, flux g ≤ r * t * b * psi g := by
      refine hmono _ _ _ _ hsol (hscaled (r * t * b)) fun g hg => ?_
      rw [fissionSource0_mean p f _ _ hw g hg]
      have h2 : ∑ g' ∈ range p.groups, fissionMatrix0 f g g' * s.flux g'
          ≤ t * b * ∑ g' ∈ range p.groups, fissionMatrix0 f g g' * psi g' := by
        rw [← hsm]
        exact sum_le_sum fun g' hg' => mul_le_mul_of_nonneg_left (hfl g' (mem_range.mp hg')).2
          (hF g hg g' (mem_range.mp hg'))
      have h4 := div_le_div_of_nonneg_right h2 hkeff.le
      refine le_trans h4 (le_of_eq ?_)
      rw [← hrk]; field_simp
    have hPa : t * a * production0 p.groups (fissionMatrix0 f) psi
        ≤ production0 p.groups (fissionMatrix0 f) s.flux := by
      rw [← production0_smul]; exact production0_mono _ _ _ _ hF fun g hg => (hfl g hg).1
    have hPb : production0 p.groups (fissionMatrix0 f) s.flux
        ≤ t * b * production0 p.groups (fissionMatrix0 f) psi := by
      rw [← production0_smul]; exact production0_mono _ _ _ _ hF fun g hg => (hfl g hg).2
    have hQa : r * t * a * production0 p.groups (fissionMatrix0 f) psi
        ≤ production0 p.groups (fissionMatrix0 f) flux := by
      rw [← production0_smul]; exact production0_mono _ _ _ _ hF hlow
    have hQb : production0 p.groups (fissionMatrix0 f) flux
        ≤ r * t * b * production0 p.groups (fissionMatrix0 f) psi := by
      rw [← production0_smul]; exact production0_mono _ _ _ _ hF hupp
    have hPold : 0 < production0 p.groups (fissionMatrix0 f) s.flux :=
      (mul_pos (mul_pos ht ha) hprod).trans_le hPa
    have hkk : (powerStep0 p norm (.iso xs) f s).keff = production0 p.groups (fissionMatrix0 f) flux * s.keff
        / production0 p.groups (fissionMatrix0 f) s.flux := by
      rw [hflux]; exact updateKeff0_eq _ _ _ _ _
    refine ⟨?_, ?_, ?_⟩
    · rw [hkk, le_div_iff₀ hPold]
      have h1 := mul_le_mul_of_nonneg_left hPb (mul_nonneg hk.le (div_pos ha hb).le)
      have h2 : k * (a / b) * (t * b * production0 p.groups (fissionMatrix0 f) psi)
          = r * t * a * production0 p.groups (fissionMatrix0 f) psi * s.keff := by rw [← hrk]; field_simp
      rw [h2] at h1
      exact h1.trans (mul_le_mul_of_nonneg_right hQa hkeff.le)
    · rw [hkk, div_le_iff₀ hPold]
      have h1 := mul_le_mul_of_nonneg_left hPa (mul_nonneg hk.le (div_pos hb ha).le)
      have h2 : k * (b / a) * (t * a * production0 p.groups (fissionMatrix0 f) psi)
          = r * t * b * production0 p.groups (fissionMatrix0 f) psi * s.keff := by rw [← hrk]; field_simp
      rw [h2] at h1
      exact (mul_le_mul_of_nonneg_right hQb hkeff.le).trans h1
    · have hfp : ∀ g < p.groups, 0 < flux g := fun g hg =>
        (mul_pos (mul_pos (mul_pos hr0 ht) ha) (hpsi g hg)).trans_le (hlow g hg)
      have hn := hnorm flux hfp
      refine ⟨r * t / norm flux, div_pos (mul_pos hr0 ht) hn, fun g hg => ?_⟩
      have e0 : (powerStep0 p norm (.iso xs) f s).flux g = flux g / norm flux := by rw [hflux]; rfl
      rw [e0]
      constructor
      · rw [le_div_iff₀ hn]
        refine le_trans (le_of_eq ?_) (hlow g hg)
        field_simp
      · rw [div_le_iff₀ hn]
        refine (hupp g hg).trans (le_of_eq ?_)
        field_simp
  have hr0 : ∀ g < p.groups, 0 < random g := fun g hg => (mul_pos ha (hpsi g hg)).trans_le (hlo g hg)
  have hnr := hnorm random hr0
  refine powerIteration0_inv p norm conv (.iso xs) f random
    (fun s => 0 < s.keff ∧ ∃ t, 0 < t ∧ ∀ g < p.groups, t * a * psi g ≤ s.flux g ∧ s.flux g ≤ t * b * psi g)
    (fun s => k * (a / b) ≤ s.keff ∧ s.keff ≤ k * (b / a) ∧ ∃ t, 0 < t ∧ ∀ g < p.groups,
      t * a * psi g ≤ s.flux g ∧ s.flux g ≤ t * b * psi g) ⟨hnr, 1 / |norm random|, ?_, ?_⟩ ?_ hstep
  · exact div_pos one_pos (abs_pos.mpr hnr.ne')
  · intro g hg
    have hpos := abs_pos.mpr hnr.ne'
    constructor
    · show _ ≤ random g / |norm random|
      rw [le_div_iff₀ hpos]
      refine le_trans (le_of_eq ?_) (hlo g hg)
      field_simp
    · show random g / |norm random| ≤ _
      rw [div_le_iff₀ hpos]
      refine (hhi g hg).trans (le_of_eq ?_)
      field_simp
  · intro s hs
    obtain ⟨h1, _, h3⟩ := hstep s hs
    exact ⟨(mul_pos hk (div_pos ha hb)).trans_le h1, h3⟩

end Generic

/-! ## Non-vacuity -/

/-- Down-scattering only: 1/4 from group 0 to group 1. -/
def exDown0 : ℕ → ℕ → ℚ := fun o i => if o = 1 ∧ i = 0 then 1 / 4 else 0

/-- All fission neutrons are born in group 0; both groups fission. -/
def exChi0 : ℕ → ℚ := fun g => if g = 0 then 1 else 0

theorem exDown0_subcritical : Subcritical0 exMedium.groups exMedium.xsTotal exDown0 (1 / 2) where
  pos := fun g _ => by simp only [exMedium]; split_ifs <;> norm_num
  nonneg := fun g _ g' _ => by unfold exDown0; split_ifs <;> norm_num
  le := by
    intro g hg
    simp only [exMedium] at hg ⊢
    interval_cases g <;> norm_num [exDown0, sum_range_succ]

theorem exDown0_generation : FissionGeneration 2 exMedium.xsTotal exDown0 exChi0 (fun _ => 3)
    (fun g => if g = 0 then 1 else 1 / 8) (27 / 8) where
  solves := by intro g hg; interval_cases g <;> norm_num [exMedium, exDown0, exChi0, sum_range_succ]
  yield := by norm_num [sum_range_succ]

/-- The sum of the group fluxes as the norm of non-negative fluxes. -/
def exNorm0 : (ℕ → ℚ) → ℚ := fun x => x 0 + x 1

theorem exFed0 : Fed0 exMedium exXs0 (fissionMatrix0 (.vector exChi0 fun _ => 3)) where
  weights := exMedium_weights
  pos := exMedium_subcritical.pos
  scatter := exMedium_subcritical.nonneg
  fission := fun g _ g' _ => by simp only [fissionMatrix0, exChi0]; split_ifs <;> norm_num
  fed := by
    intro g hg
    refine ⟨0, by norm_num [exMedium], ?_⟩
    simp only [exMedium] at hg
    interval_cases g <;> norm_num [exXs0]
  fissile := ⟨0, by norm_num [exMedium], 0, by norm_num [exMedium], by norm_num [fissionMatrix0, exChi0]⟩

theorem exNorm0_pos (x : ℕ → ℚ) (h : ∀ g < exMedium.groups, 0 < x g) : 0 < exNorm0 x :=
  add_pos (h 0 (by norm_num [exMedium])) (h 1 (by norm_num [exMedium]))

example := C195_power_iteration_positive exMedium exNorm0 (fun _ _ => false) exXs0
  (.vector exChi0 fun _ => 3) exFed0 exNorm0_pos (fun g => if g = 0 then 1 / 3 else 1 / 2)
  (fun g _ => by split_ifs <;> norm_num)

example := C197_exact_after_one_pass exMedium exNorm0 (fun _ _ => false) exDown0 exChi0 (fun _ => 3)
  (fun g => if g = 0 then 1 else 1 / 8) (27 / 8) (1 / 2) (by norm_num) (by norm_num) exMedium_weights
  exDown0_subcritical (fun g hg g' hg' h => by
    unfold exDown0; rw [if_neg]; rintro ⟨rfl, rfl⟩; omega) exDown0_generation (by norm_num)
  (by norm_num [exMedium, exChi0, sum_range_succ])
  (fun x y t _ h => by
    unfold exNorm0; rw [h 0 (by norm_num [exMedium]), h 1 (by norm_num [exMedium])]; ring)
  (by norm_num [exNorm0]) (fun g => if g = 0 then 1 / 3 else 1 / 2) (by norm_num [exNorm0])
  (by norm_num [exMedium, sum_range_succ])

/-- The relative-error hypothesis of C197 is met with `eta = 0` by the exact solver. -/
example : |(powerStep0 exMedium exNorm0 (.iso exDown0) (.vector exChi0 fun _ => 3)
    ⟨fun g => if g = 0 then 1 / 3 else 1 / 2, 1⟩).keff - 27 / 8| ≤ 0 * (27 / 8 : ℚ) := by
  refine C197_keff_after_any_pass exMedium exNorm0 exDown0 exChi0 (fun _ => 3)
    (fun g => if g = 0 then 1 else 1 / 8) (27 / 8) 0 exDown0_generation (fun _ _ => by norm_num)
    (fun g _ => by split_ifs <;> norm_num) (by norm_num [exMedium, exChi0, sum_range_succ]) _ (by norm_num)
    (by norm_num [exMedium, sum_range_succ]) fun x hx _ g hg => ?_
  have hd := downscatter0_exact exMedium exDown0 (fissionSource0 exMedium.groups (.vector exChi0 fun _ => 3)
    (fun g => if g = 0 then 1 / 3 else 1 / 2) 1) (fun g => if g = 0 then 1 / 3 else 1 / 2) exMedium_weights
    exDown0_subcritical.pos (fun g hg g' hg' h => by
      unfold exDown0; rw [if_neg]; rintro ⟨rfl, rfl⟩; omega)
  have := infinite_unique _ _ _ _ (1 / 2 : ℚ) (by norm_num) (by norm_num) exDown0_subcritical _ _ hd
    (fun g hg => by
      rw [fissionSource0_mean exMedium _ _ _ exMedium_weights g hg]; exact hx g hg) g hg
  rw [this]; simp

/-- A test that accepts changes below a hundredth of the new flux. -/
def exTestedMedium : Medium ℚ :=
  { exMedium with
    convIn := fun a b => decide (abs (a - b) ≤ 1 / 1000 * abs a)
    convOut := fun a b =>
      (decide (abs (a 0 - b 0) ≤ 1 / 100 * abs (a 0)) && decide (abs (a 1 - b 1) ≤ 1 / 100 * abs (a 1))) }

example := C71_accuracy_when_converged exTestedMedium exXs0 ⟨1, 1, fun _ _ => 3⟩ (1 / 2) (1 / 100)
    (by norm_num) exMedium_weights exMedium_subcritical (by norm_num) (fun a b hab g hg => by
      simp only [exTestedMedium, Bool.and_eq_true, decide_eq_true_eq] at hab
      have hg2 : g < 2 := hg
      interval_cases g
      · exact hab.1
      · exact hab.2)
    (fun g => if g = 0 then 4 else 8 / 3) (fun g hg => by
      have hg2 : g < 2 := hg
      interval_cases g <;> norm_num [exTestedMedium, exMedium, exXs0, meanSource, sum_range_succ]) (fun _ => 1)

/-- The test does stop this iteration early (after 3 passes at most). -/
example : exTestedMedium.convOut ((outerIso exTestedMedium exXs0 ⟨1, 1, fun _ _ => 3⟩)^[3] fun _ => 1)
    ((outerIso exTestedMedium exXs0 ⟨1, 1, fun _ _ => 3⟩)^[2] fun _ => 1) = true := by decide +kernel

example := C197_unique_eigenpair 2 exMedium.xsTotal exDown0 exChi0 (fun _ => 3)
  (fun g => if g = 0 then 1 else 1 / 8) (27 / 8) (1 / 2) (by norm_num) (by norm_num) exDown0_subcritical
  exDown0_generation (by norm_num)

/-- `a = (3/4, 2)`, `nu = (3, 3)`: the factor 27/8 lies between 3/2 and 4. -/
example : (3 / 2 : ℚ) ≤ 27 / 8 ∧ (27 / 8 : ℚ) ≤ 4 :=
  C196_eigenvalue_bounds 2 exMedium.xsTotal exDown0 (fun o _ => exChi0 o * 3)
    (fun g => if g = 0 then 1 else 1 / 8) (27 / 8) (3 / 2) 4 (by norm_num)
    (fun g hg => by interval_cases g <;> norm_num [exMedium, exDown0, exChi0, sum_range_succ])
    (fun g _ => by split_ifs <;> norm_num)
    (by norm_num [production0, exChi0, sum_range_succ])
    (fun g hg => by interval_cases g <;> norm_num [absorption0, yield0, exMedium, exDown0, exChi0, sum_range_succ])
    (fun g hg => by interval_cases g <;> norm_num [absorption0, yield0, exMedium, exDown0, exChi0, sum_range_succ])

/-- The pass from `(1/3, 1/2)` with factor 1 solves the inner problem exactly: flux `(5/2, 5/16)`. -/
example : (3 / 2 : ℚ) * (1 - 0) ≤ (powerStep0 exMedium exNorm0 (.iso exDown0) (.vector exChi0 fun _ => 3)
      ⟨fun g => if g = 0 then 1 / 3 else 1 / 2, 1⟩).keff ∧
    (powerStep0 exMedium exNorm0 (.iso exDown0) (.vector exChi0 fun _ => 3)
      ⟨fun g => if g = 0 then 1 / 3 else 1 / 2, 1⟩).keff * (1 - 0) ≤ 4 := by
  have hd := downscatter0_exact exMedium exDown0 (fissionSource0 exMedium.groups (.vector exChi0 fun _ => 3)
    (fun g => if g = 0 then 1 / 3 else 1 / 2) 1) (fun g => if g = 0 then 1 / 3 else 1 / 2) exMedium_weights
    exDown0_subcritical.pos (fun g hg g' hg' h => by
      unfold exDown0; rw [if_neg]; rintro ⟨rfl, rfl⟩; omega)
  have hu := infinite_unique _ _ _ _ (1 / 2 : ℚ) (by norm_num) (by norm_num) exDown0_subcritical _
    (fun g => if g = 0 then 5 / 2 else 5 / 16) hd (fun g hg => by
      rw [fissionSource0_mean exMedium _ _ _ exMedium_weights g hg]
      simp only [exMedium] at hg
      interval_cases g <;> norm_num [exMedium, exDown0, exChi0, sum_range_succ, fissionMatrix0])
  refine C196_keff_bounds exMedium exNorm0 exDown0 (.vector exChi0 fun _ => 3) _ (3 / 2) 4 0 le_rfl (by norm_num)
    (by norm_num) (fun g hg => ?_) (fun g hg => ?_) (fun g hg => ?_) (by norm_num)
    (by norm_num [production0, fissionMatrix0, exMedium, exChi0, sum_range_succ])
    (fun g => if g = 0 then 5 / 2 else 5 / 16) hu (fun g hg => by split_ifs <;> norm_num) (fun g hg => ?_)
  all_goals
    simp only [exMedium] at hg
    interval_cases g <;>
      norm_num [absorption0, yield0, fissionMatrix0, exMedium, exDown0, exChi0, sum_range_succ]

example := C198_power_iteration_bracketed exMedium exNorm0 (fun _ _ => false) exDown0 (.vector exChi0 fun _ => 3)
  (1 / 2) (by norm_num) exMedium_weights exDown0_subcritical exFed0.fission
  (fun s => downscatter0_exact exMedium exDown0 _ _ exMedium_weights exDown0_subcritical.pos
    (fun g hg g' hg' h => by unfold exDown0; rw [if_neg]; rintro ⟨rfl, rfl⟩; omega)) exNorm0_pos
  (fun g => if g = 0 then 1 else 1 / 8) (27 / 8) (1 / 3) 4 (by norm_num)
  (C197_unique_eigenpair 2 exMedium.xsTotal exDown0 exChi0 (fun _ => 3)
    (fun g => if g = 0 then 1 else 1 / 8) (27 / 8) (1 / 2) (by norm_num) (by norm_num) exDown0_subcritical
    exDown0_generation (by norm_num)).1 (fun g _ => by split_ifs <;> norm_num)
  (by norm_num [production0, fissionMatrix0, exMedium, exChi0, sum_range_succ]) (by norm_num)
  (fun g => if g = 0 then 1 / 3 else 1 / 2)
  (fun g _ => by by_cases h : g = 0 <;> norm_num [h]) (fun g _ => by by_cases h : g = 0 <;> norm_num [h])

/-- With within-group scattering the eigenpair `(6, 1)`, `k = 1` of C71's example brackets a pass. -/
example := C198_pass_bracketed exMedium exNorm0 exXs0 (.vector exChi0 fun _ => 9 / 14) exMedium_weights
  exMedium_subcritical.pos exMedium_subcritical.nonneg
  (fun g _ g' _ => by simp only [fissionMatrix0, exChi0]; split_ifs <;> norm_num)
  (fun g => if g = 0 then 6 else 1) 1 (1 / 18) (1 / 2) one_pos
  (fun g hg => by
    simp only [exMedium] at hg
    interval_cases g <;> norm_num [exMedium, exXs0, fissionMatrix0, exChi0, sum_range_succ])
  (fun g _ => by split_ifs <;> norm_num)
  (by norm_num [production0, fissionMatrix0, exMedium, exChi0, sum_range_succ]) (by norm_num)
  ⟨fun g => if g = 0 then 1 / 3 else 1 / 2, 1 / 2⟩ (by norm_num)
  (fun g _ => by by_cases h : g = 0 <;> norm_num [h]) (fun g _ => by by_cases h : g = 0 <;> norm_num [h])

end Discrete1.Props
