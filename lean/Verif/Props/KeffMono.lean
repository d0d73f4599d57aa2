import Verif.Props.Eigen
import Verif.Props.Existence

/-!
# C165-C167: keff against changed data, sub-slabs, keff of a part of a slab
-/

set_option linter.unusedSectionVars false
set_option linter.unusedSimpArgs false

namespace Discrete1.Props

open Finset Discrete1.Spec Discrete1.Slab Discrete1.Tools Discrete1.MultiGroup Discrete1.Drivers Discrete1.Critical

variable {K : Type} [Field K] [LinearOrder K] [IsStrictOrderedRing K]

/-- The multiplication factor of a flux `phi'` that is positive and satisfies the equations of the problem with extra
sources `extra >= 0` and extra incoming fluxes `bnd >= 0` is at least `|k|` for every eigenpair. -/
theorem supersolution_dominates (p : Problem K) (sigma : ℕ → ℕ → K) (xs F : ℕ → ℕ → ℕ → K) (c : K) (hc1 : c < 1)
    (hcon : Contractive p sigma xs c) (hF : EmissionNonneg p F) (phi phi' : ℕ → ℕ → K) (k k' : K)
    (psi psi' : ℕ → ℕ → ℕ → K) (hk : k ≠ 0) (hk' : 0 < k') (h : KEigenpair p sigma xs F phi k psi)
    (extra : ℕ → ℕ → ℕ → K) (bnd : Arr3 K)
    (hextra : ∀ i < p.cells, ∀ n < p.angles, ∀ g < p.groups, 0 ≤ extra i n g)
    (hbL : ∀ n < p.angles, ∀ g < p.groups, 0 < p.angleX n → 0 ≤ sourceAt bnd 0 n g)
    (hbR : ∀ n < p.angles, ∀ g < p.groups, p.angleX n < 0 → 0 ≤ sourceAt bnd 1 n g)
    (h' : SolvesMultigroup p sigma xs ⟨p.angles, p.groups, fun i n g =>
      (∑ g' ∈ range p.groups, F (p.mm i) g g' * phi' i g') / k' + extra i n g⟩ bnd phi' psi')
    (hpos : ∀ i < p.cells, ∀ g < p.groups, 0 < phi' i g)
    (hne : ∃ i < p.cells, ∃ g < p.groups, phi i g ≠ 0) : |k| ≤ k' := by
  obtain ⟨i0, hi0, g0, hg0, hne⟩ := hne
  obtain ⟨m, hm, hmax⟩ := (range p.cells ×ˢ range p.groups).exists_max_image
    (fun a => |phi a.1 a.2| / phi' a.1 a.2) ⟨(i0, g0), by simp [hi0, hg0]⟩
  set t := |phi m.1 m.2| / phi' m.1 m.2 with htdef
  have hm1 := mem_range.mp (mem_product.mp hm).1
  have hm2 := mem_range.mp (mem_product.mp hm).2
  have hb : ∀ i < p.cells, ∀ g < p.groups, |phi i g| ≤ t * phi' i g := fun i hi g hg => by
    have := hmax (i, g) (by simp [hi, hg])
    exact (div_le_iff₀ (hpos i hi g hg)).mp this
  have ht : 0 < t := by
    have h1 := hb i0 hi0 g0 hg0
    have h2 := abs_pos.mpr hne
    by_contra hcon
    push Not at hcon
    have := mul_nonpos_of_nonpos_of_nonneg hcon (hpos i0 hi0 g0 hg0).le
    linarith
  -- the multiple `t k' phi'` as a solution
  have hs' : SolvesMultigroup p sigma xs ⟨p.angles, p.groups, fun i n g =>
      t * (∑ g' ∈ range p.groups, F (p.mm i) g g' * phi' i g') + t * k' * extra i n g⟩
      ⟨bnd.angles, bnd.groups, fun s n g => t * k' * bnd.val s n g⟩
      (fun i g => t * k' * phi' i g) (fun g n i => t * k' * psi' g n i) := by
    refine ⟨fun g hg i hi => ?_, fun g hg n hn i hi => ?_, fun g hg n hn => ?_⟩
    · rw [h'.scalar g hg i hi]
      unfold scalarCenter
      rw [mul_sum]
      exact sum_congr rfl fun n _ => by ring
    · have e := h'.balance g hg n hn i hi
      simp only [bidx_full _ _ hg, bidx_full _ _ hn] at e ⊢
      have e3 : ∑ og ∈ range p.groups, xs (p.mm i) g og * (t * k' * phi' i og)
          = t * k' * ∑ og ∈ range p.groups, xs (p.mm i) g og * phi' i og := by
        rw [mul_sum]; exact sum_congr rfl fun _ _ => by ring
      rw [e3]
      have e4 : t * k' * ((∑ g' ∈ range p.groups, F (p.mm i) g g' * phi' i g') / k')
          = t * ∑ g' ∈ range p.groups, F (p.mm i) g g' * phi' i g' := by field_simp
      linear_combination t * k' * e + e4
    · have e := h'.inflow g hg n hn
      simp only [inflow, outflow] at e ⊢
      split_ifs at e ⊢ <;> linear_combination t * k' * e
  have htk : 0 ≤ t * k' := (mul_pos ht hk').le
  have hnn : ∀ i < p.cells, ∀ g < p.groups, 0 ≤ t * k' * phi' i g := fun i hi g hg =>
    mul_nonneg htk (hpos i hi g hg).le
  have src : ∀ i n g, n < p.angles → g < p.groups → sourceAt (⟨p.angles, p.groups, fun i n g =>
      t * (∑ g' ∈ range p.groups, F (p.mm i) g g' * phi' i g') + t * k' * extra i n g⟩ : Arr3 K) i n g
      = t * (∑ g' ∈ range p.groups, F (p.mm i) g g' * phi' i g') + t * k' * extra i n g := by
    intro i n g hn hg
    have e1 : (if p.groups = 1 then 0 else g) = g := bidx_full _ _ hg
    have e2 : (if p.angles = 1 then 0 else n) = n := bidx_full _ _ hn
    simp only [sourceAt, e1, e2]
  have src' : ∀ r i n g, g < p.groups → sourceAt (⟨1, p.groups, fun i _ g => r * ∑ g' ∈ range p.groups, F (p.mm i) g g' * phi i g'⟩ : Arr3 K) i n g
      = r * ∑ g' ∈ range p.groups, F (p.mm i) g g' * phi i g' := by
    intro r i n g hg
    have e1 : (if p.groups = 1 then 0 else g) = g := bidx_full _ _ hg
    simp only [sourceAt, e1]
  have cmp : ∀ r : K, (∀ i < p.cells, ∀ g < p.groups, r * phi i g ≤ t * phi' i g) →
      ∀ i < p.cells, ∀ g < p.groups, r * k * phi i g ≤ t * k' * phi' i g := by
    intro r hr
    refine (C116_more_data_more_flux p sigma xs xs _ _ zeroBoundary _ c hc1 _ _ _ _ hcon
      ⟨fun _ _ _ _ _ _ => le_rfl, fun i hi n hn g hg => ?_, fun n hn g hg hp => ?_,
        fun n hn g hg hp => ?_⟩ (eigen_scaled hk h r) hs' hnn).1
    · rw [src i n g hn hg, src' r i n g hg]
      have e : r * ∑ g' ∈ range p.groups, F (p.mm i) g g' * phi i g'
          ≤ t * ∑ g' ∈ range p.groups, F (p.mm i) g g' * phi' i g' := by
        rw [mul_sum, mul_sum]
        refine sum_le_sum fun g' hg' => ?_
        have := mul_le_mul_of_nonneg_left (hr i hi g' (mem_range.mp hg')) (hF i hi g hg g' (mem_range.mp hg'))
        linarith [mul_comm r (F (p.mm i) g g' * phi i g')]
      have := mul_nonneg htk (hextra i hi n hn g hg)
      linarith
    · exact mul_nonneg htk (hbL n hn g hg hp)
    · exact mul_nonneg htk (hbR n hn g hg hp)
  have h1 := cmp 1 (fun i hi g hg => by rw [one_mul]; exact (le_abs_self _).trans (hb i hi g hg)) m.1 hm1 m.2 hm2
  have h2 := cmp (-1) (fun i hi g hg => by rw [neg_one_mul]; exact (neg_le_abs _).trans (hb i hi g hg)) m.1 hm1 m.2 hm2
  have heq : |phi m.1 m.2| = t * phi' m.1 m.2 := by
    rw [htdef, div_mul_cancel₀ _ (hpos m.1 hm1 m.2 hm2).ne']
  have habs : |k| * |phi m.1 m.2| ≤ k' * (t * phi' m.1 m.2) := by
    rw [← abs_mul]
    exact abs_le.mpr ⟨by linarith, by linarith⟩
  rw [← heq] at habs
  have hp : 0 < |phi m.1 m.2| := by rw [heq]; exact mul_pos ht (hpos m.1 hm1 m.2 hm2)
  exact le_of_mul_le_mul_right habs hp

/-- C165: `keff` is monotone in the data.  If scattering and fission of the second slab are nowhere smaller and its
total cross sections nowhere larger than those of the first, its multiplication factor (with a positive flux) is at
least that of the first. -/
theorem C165_keff_monotone (p : Problem K) (sigma sigma' : ℕ → ℕ → K) (xs xs' F F' : ℕ → ℕ → ℕ → K) (c : K)
    (hc1 : c < 1) (hcon : Contractive p sigma xs c) (ht' : Tame p sigma' xs') (hF : EmissionNonneg p F)
    (hxs : ∀ i < p.cells, ∀ g < p.groups, ∀ g' < p.groups, xs (p.mm i) g g' ≤ xs' (p.mm i) g g')
    (hFF : ∀ i < p.cells, ∀ g < p.groups, ∀ g' < p.groups, F (p.mm i) g g' ≤ F' (p.mm i) g g')
    (hsig : ∀ i < p.cells, ∀ g < p.groups, sigma' (p.mm i) g ≤ sigma (p.mm i) g)
    (phi phi' : ℕ → ℕ → K) (k k' : K) (psi psi' : ℕ → ℕ → ℕ → K) (hk : k ≠ 0) (hk' : 0 < k')
    (h : KEigenpair p sigma xs F phi k psi) (h' : KEigenpair p sigma' xs' F' phi' k' psi')
    (hpos : ∀ i < p.cells, ∀ g < p.groups, 0 < phi' i g)
    (hne : ∃ i < p.cells, ∃ g < p.groups, phi i g ≠ 0) : |k| ≤ k' := by
  have hF' : EmissionNonneg p F' := fun i hi g hg g' hg' => (hF i hi g hg g' hg').trans (hFF i hi g hg g' hg')
  have hpsi := eigen_angular_nonneg ht' hF' hk' (fun i hi g hg => (hpos i hi g hg).le) h'
  refine supersolution_dominates p sigma xs F c hc1 hcon hF phi phi' k k' psi psi' hk hk' h
    (fun i n g => (∑ g' ∈ range p.groups, (xs' (p.mm i) g g' - xs (p.mm i) g g') * phi' i g')
      + (∑ g' ∈ range p.groups, (F' (p.mm i) g g' - F (p.mm i) g g') * phi' i g') / k'
      + (sigma (p.mm i) g - sigma' (p.mm i) g) * ((psi' g n i + psi' g n (i + 1)) / 2)) zeroBoundary
    (fun i hi n hn g hg => ?_) (fun _ _ _ _ _ => le_rfl) (fun _ _ _ _ _ => le_rfl) ?_ hpos hne
  · refine add_nonneg (add_nonneg (sum_nonneg fun g' hg' => ?_) (div_nonneg (sum_nonneg fun g' hg' => ?_) hk'.le)) ?_
    · exact mul_nonneg (sub_nonneg.mpr (hxs i hi g hg g' (mem_range.mp hg'))) (hpos i hi g' (mem_range.mp hg')).le
    · exact mul_nonneg (sub_nonneg.mpr (hFF i hi g hg g' (mem_range.mp hg'))) (hpos i hi g' (mem_range.mp hg')).le
    · refine mul_nonneg (sub_nonneg.mpr (hsig i hi g hg)) (div_nonneg (add_nonneg ?_ ?_) (by norm_num))
      · exact hpsi g hg n hn i hi.le
      · exact hpsi g hg n hn (i + 1) hi
  · refine ⟨h'.scalar, fun g hg n hn i hi => ?_, h'.inflow⟩
    have e := h'.balance g hg n hn i hi
    simp only [bidx_full _ _ hg, bidx_full _ _ hn]
    simp only [sub_mul, sum_sub_distrib]
    linear_combination e

/-! ## C166: sub-slabs -/

/-- The cells `a, ..., a + n - 1` of a slab as a problem of their own (no reflecting faces). -/
def subSlab (p : Problem K) (a n : ℕ) : Problem K :=
  { p with cells := n, mm := fun i => p.mm (a + i), dx := fun i => p.dx (a + i), bcL := false, bcR := false }

/-- C166: the restriction of a solution to a part of the slab solves the problem of that part, with the angular fluxes
at its two ends as boundary source - wherever the cuts are and whatever the faces of the full slab are. -/
theorem C166_substructure (p : Problem K) (xsTotal : ℕ → ℕ → K) (xs : ℕ → ℕ → ℕ → K) (external boundary : Arr3 K)
    (phi : ℕ → ℕ → K) (psi : ℕ → ℕ → ℕ → K) (a n : ℕ) (hn : a + n ≤ p.cells)
    (h : SolvesMultigroup p xsTotal xs external boundary phi psi) :
    SolvesMultigroup (subSlab p a n) xsTotal xs ⟨external.angles, external.groups, fun i => external.val (a + i)⟩
      ⟨p.angles, p.groups, fun s m g => if s = 0 then psi g m a else psi g m (a + n)⟩ (fun i => phi (a + i))
      (fun g m i => psi g m (a + i)) := by
  refine ⟨fun g hg i hi => ?_, fun g hg m hm i hi => ?_, fun g hg m hm => ?_⟩
  · have hi : i < n := hi
    exact h.scalar g hg (a + i) (by omega)
  · have hi : i < n := hi
    exact h.balance g hg m hm (a + i) (by omega)
  · have hg : g < p.groups := hg
    have hm : m < p.angles := hm
    simp only [bidx_full _ _ hg, bidx_full _ _ hm]
    show inflow n (p.angleX m) (fun i => psi g m (a + i)) = _
    have hno : ¬ ((subSlab p a n).angles - 1 - m < m ∧ leavesReflecting (subSlab p a n).bcL (subSlab p a n).bcR
        ((subSlab p a n).angleX ((subSlab p a n).angles - 1 - m))) := by
      rintro ⟨_, hc | hc⟩ <;> exact absurd hc.2 (by simp [subSlab])
    rw [if_neg hno, add_zero]
    rfl

/-- C166: `source_iteration` on a part of the slab, fed with the exact angular fluxes at the cuts, converges to the
solution of the whole there. -/
theorem C166_source_iteration (p : Problem K) (xsTotal : ℕ → ℕ → K) (xs : ℕ → ℕ → ℕ → K) (external boundary : Arr3 K)
    (phi : ℕ → ℕ → K) (psi : ℕ → ℕ → ℕ → K) (a n : ℕ) (hn : a + n ≤ p.cells)
    (h : SolvesMultigroup p xsTotal xs external boundary phi psi) (c M : K) (hc : 0 ≤ c) (hc1 : c < 1) (hM : 0 ≤ M)
    (hcon : Contractive p xsTotal xs c) (guess : ℕ → ℕ → K)
    (hg : ∀ i < n, ∀ g < p.groups, |guess i g - phi (a + i) g| ≤ M) :
    ∃ flux sweeps, 1 ≤ sweeps ∧ sweeps ≤ 100 ∧
      sourceIteration (subSlab p a n) xsTotal (.iso xs)
        ⟨external.angles, external.groups, fun i => external.val (a + i)⟩
        ⟨p.angles, p.groups, fun s m g => if s = 0 then psi g m a else psi g m (a + n)⟩ guess = .ok flux ∧
      (∀ i < n, ∀ g < p.groups, |flux i g - phi (a + i) g| ≤ c ^ sweeps * M) ∧
      (sweeps < 100 → ∃ prev, p.convOut flux prev = true) := by
  have hcon' : Contractive (subSlab p a n) xsTotal xs c :=
    { ok := fun g hg => ⟨(hcon.ok g hg).slab, (hcon.ok g hg).nonzero, fun i (hi : i < n) =>
        (hcon.ok g hg).phys (a + i) (by omega)⟩
      fine := fun g hg m hm i (hi : i < n) => hcon.fine g hg m hm (a + i) (by omega)
      weights := hcon.weights
      norm := hcon.norm
      nonneg := fun i (hi : i < n) => hcon.nonneg (a + i) (by omega)
      rows := fun i (hi : i < n) => hcon.rows (a + i) (by omega) }
  exact C74_source_iteration_converges (subSlab p a n) xsTotal xs _ _ c M hc hc1.le hM hcon' _ _
    (C166_substructure p xsTotal xs external boundary phi psi a n hn h) guess hg

/-- C167: cutting a piece out of a slab (the rest replaced by vacuum) never raises the multiplication factor: every
eigenvalue of the piece is at most that of the whole. -/
theorem C167_part_has_smaller_keff (p : Problem K) (sigma : ℕ → ℕ → K) (xs F : ℕ → ℕ → ℕ → K) (c : K) (hc1 : c < 1)
    (hcon : Contractive p sigma xs c) (hF : EmissionNonneg p F) (a n : ℕ) (hn : a + n ≤ p.cells)
    (phi phi' : ℕ → ℕ → K) (k k' : K) (psi psi' : ℕ → ℕ → ℕ → K) (hk : k ≠ 0) (hk' : 0 < k')
    (h : KEigenpair (subSlab p a n) sigma xs F phi k psi) (h' : KEigenpair p sigma xs F phi' k' psi')
    (hpos : ∀ i < p.cells, ∀ g < p.groups, 0 < phi' i g)
    (hne : ∃ i < n, ∃ g < p.groups, phi i g ≠ 0) : |k| ≤ k' := by
  have hcon' : Contractive (subSlab p a n) sigma xs c :=
    { ok := fun g hg => ⟨(hcon.ok g hg).slab, (hcon.ok g hg).nonzero, fun i (hi : i < n) =>
        (hcon.ok g hg).phys (a + i) (by omega)⟩
      fine := fun g hg m hm i (hi : i < n) => hcon.fine g hg m hm (a + i) (by omega)
      weights := hcon.weights
      norm := hcon.norm
      nonneg := fun i (hi : i < n) => hcon.nonneg (a + i) (by omega)
      rows := fun i (hi : i < n) => hcon.rows (a + i) (by omega) }
  have ht : Tame p sigma xs := ⟨hcon.ok, hcon.fine, hcon.weights, hcon.norm, hcon.nonneg⟩
  have hpsi := eigen_angular_nonneg ht hF hk' (fun i hi g hg => (hpos i hi g hg).le) h'
  have hb : ∀ s, ∀ m < p.angles, ∀ g < p.groups, 0 ≤ sourceAt (⟨p.angles, p.groups, fun s m g =>
      if s = 0 then psi' g m a else psi' g m (a + n)⟩ : Arr3 K) s m g := by
    intro s m hm g hg
    have e1 : (if p.groups = 1 then 0 else g) = g := bidx_full _ _ hg
    have e2 : (if p.angles = 1 then 0 else m) = m := bidx_full _ _ hm
    simp only [sourceAt, e1, e2]
    split_ifs
    · exact hpsi g hg m hm a (by omega)
    · exact hpsi g hg m hm (a + n) hn
  refine supersolution_dominates (subSlab p a n) sigma xs F c hc1 hcon'
    (fun i (hi : i < n) => hF (a + i) (by omega)) phi (fun i => phi' (a + i)) k k' psi
    (fun g m i => psi' g m (a + i)) hk hk' h (fun _ _ _ => 0)
    ⟨p.angles, p.groups, fun s m g => if s = 0 then psi' g m a else psi' g m (a + n)⟩
    (fun _ _ _ _ _ _ => le_rfl) (fun m hm g hg _ => hb 0 m hm g hg) (fun m hm g hg _ => hb 1 m hm g hg) ?_
    (fun i (hi : i < n) => hpos (a + i) (by omega)) hne
  have hs : SolvesMultigroup p sigma xs ⟨p.angles, p.groups, fun i _ g =>
      (∑ g' ∈ range p.groups, F (p.mm i) g g' * phi' i g') / k'⟩ zeroBoundary phi' psi' := by
    refine ⟨h'.scalar, fun g hg m hm i hi => ?_, h'.inflow⟩
    have e := h'.balance g hg m hm i hi
    simp only [bidx_full _ _ hg]
    exact e
  have := C166_substructure p sigma xs _ _ phi' psi' a n hn hs
  refine ⟨this.scalar, fun g hg m hm i hi => ?_, this.inflow⟩
  have e := this.balance g hg m hm i hi
  simp only [add_zero]
  exact e

/-! ### Examples -/

-- C165: the example slab with twice as many fission neutrons has factor 2 >= 1
example : |(1 : ℚ)| ≤ 2 :=
  C165_keff_monotone exCrit (fun _ _ => 1) (fun _ _ => 1) exCritDown exCritDown exCritFission
    (fun m g g' => 2 * exCritFission m g g') (1 / 2) (by norm_num) exCritDownContractive exCritTame exCritFission_nonneg
    (fun _ _ _ _ _ _ => le_rfl) (fun _ _ g _ g' _ => by simp only [exCritFission]; split_ifs <;> norm_num)
    (fun _ _ _ _ => le_rfl) (fun _ _ => 1) (fun _ _ => 1) 1 2 _ _ (by norm_num) (by norm_num) exCritDownPair
    (show KEigenpair exCrit (fun _ _ => 1) exCritDown (fun m g g' => 2 * exCritFission m g g') (fun _ _ => 1) 2
      (fun _ n i => if n = 0 then (if i = 0 then 2 else 0) else if i = 0 then 0 else 2) from
      ⟨exCritDownPair.scalar, fun g hg n hn i hi => by
        rw [exCritDownPair.balance g hg n hn i hi]
        simp only [mul_assoc, ← mul_sum]
        ring, exCritDownPair.inflow⟩)
    (fun _ _ _ _ => by norm_num) ⟨0, by norm_num [exCrit], 0, by norm_num [exCrit], by norm_num⟩

-- C166: the last two cells of the example slab with the reflecting left face
example (external boundary : Arr3 ℚ) (phi : ℕ → ℕ → ℚ) (psi : ℕ → ℕ → ℕ → ℚ)
    (h : SolvesMultigroup exProblem exTotal (fun m g _ => exTotal m g / 4) external boundary phi psi) :=
  C166_substructure exProblem exTotal _ external boundary phi psi 1 2 (by decide) h

/-- Two cells of a fissile absorber, one group, bare. -/
def exBare : Problem ℚ where
  cells := 2
  groups := 1
  angles := 2
  mm := fun _ => 0
  dx := fun _ => 1
  angleX := fun n => if n = 0 then -1 else 1
  angleW := fun _ => 1 / 2
  bcL := false
  bcR := false
  geometry := 1
  pi := 3
  convIn := fun _ _ => false
  convOut := fun _ _ => false

theorem exBareContractive : Contractive exBare (fun _ _ => 1) (fun _ _ _ => 0) (1 / 2) where
  ok := fun g _ => ⟨rfl, fun n _ => by simp only [exBare]; split_ifs <;> norm_num, fun i _ => by simp [exBare]⟩
  fine := fun g _ n _ i _ => by simp only [exBare]; split_ifs <;> norm_num
  weights := fun n _ => by norm_num [exBare]
  norm := by norm_num [exBare]
  nonneg := fun _ _ _ _ _ _ => le_rfl
  rows := fun _ _ _ _ => by norm_num [exBare]

/-- The whole has `keff = 1`. -/
theorem exBarePair : KEigenpair exBare (fun _ _ => 1) (fun _ _ _ => 0) (fun _ _ _ => 9 / 5) (fun _ _ => 1) 1
    (fun _ n i => if n = 0 then (match i with | 0 => 8 / 5 | 1 => 6 / 5 | _ => 0)
      else (match i with | 0 => 0 | 1 => 6 / 5 | _ => 8 / 5)) where
  scalar := fun g _ i hi => by
    have hi : i < 2 := hi
    have h : i = 0 ∨ i = 1 := by omega
    rcases h with rfl | rfl <;> norm_num [exBare, sum_range_succ]
  balance := fun g _ n hn i hi => by
    have hi : i < 2 := hi
    have hn : n < 2 := hn
    have h : i = 0 ∨ i = 1 := by omega
    have h2 : n = 0 ∨ n = 1 := by omega
    rcases h with rfl | rfl <;> rcases h2 with rfl | rfl <;> norm_num [exBare, sum_range_succ]
  inflow := fun g _ n hn => by
    have hn : n < 2 := hn
    have h2 : n = 0 ∨ n = 1 := by omega
    rcases h2 with rfl | rfl <;> simp [exBare, inflow, leavesReflecting]

/-- Its right half has `keff = 3/5`. -/
theorem exBareHalf : KEigenpair (subSlab exBare 1 1) (fun _ _ => 1) (fun _ _ _ => 0) (fun _ _ _ => 9 / 5) (fun _ _ => 1)
    (3 / 5) (fun _ n i => if n = 0 then (if i = 0 then 2 else 0) else if i = 0 then 0 else 2) where
  scalar := fun g _ i hi => by
    have hi : i < 1 := hi
    have h : i = 0 := by omega
    subst h
    norm_num [exBare, subSlab, sum_range_succ]
  balance := fun g _ n hn i hi => by
    have hi : i < 1 := hi
    have h : i = 0 := by omega
    subst h
    have hn : n < 2 := hn
    have h2 : n = 0 ∨ n = 1 := by omega
    rcases h2 with rfl | rfl <;> norm_num [exBare, subSlab, sum_range_succ]
  inflow := fun g _ n hn => by
    have hn : n < 2 := hn
    have h2 : n = 0 ∨ n = 1 := by omega
    rcases h2 with rfl | rfl <;> simp [exBare, subSlab, inflow, leavesReflecting]

-- C166: the right half of the bare slab, fed through the cut
example (phi : ℕ → ℕ → ℚ) (psi : ℕ → ℕ → ℕ → ℚ)
    (h : SolvesMultigroup exBare (fun _ _ => 1) (fun _ _ _ => 0) ⟨1, 1, fun _ _ _ => 1⟩ zeroBoundary phi psi) :=
  C166_source_iteration exBare (fun _ _ => 1) _ _ _ phi psi 1 1 (by decide) h (1 / 2) 3 (by norm_num) (by norm_num)
    (by norm_num) exBareContractive (fun i g => phi (1 + i) g) (fun i _ g _ => by norm_num)

-- C167
example : |(3 / 5 : ℚ)| ≤ 1 :=
  C167_part_has_smaller_keff exBare (fun _ _ => 1) (fun _ _ _ => 0) (fun _ _ _ => 9 / 5) (1 / 2) (by norm_num)
    exBareContractive (fun _ _ _ _ _ _ => by norm_num) 1 1 (by decide) _ _ (3 / 5) 1 _ _ (by norm_num) (by norm_num)
    exBareHalf exBarePair (fun _ _ _ _ => by norm_num) ⟨0, by decide, 0, by decide, by norm_num⟩

end Discrete1.Props
