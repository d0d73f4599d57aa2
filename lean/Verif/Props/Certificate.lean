import Verif.Props.FirstFlight
import Verif.Props.Energy
import Verif.Props.Existence

/-!
# C220: the stopping test of a run that starts from zero bounds its relative error
-/

set_option linter.unusedSectionVars false
set_option linter.unusedSimpArgs false

namespace Discrete1.Props

open Finset Discrete1.Spec Discrete1.Slab Discrete1.Tools Discrete1.MultiGroup Discrete1.Drivers Discrete1.Critical

variable {K : Type} [Field K] [LinearOrder K] [IsStrictOrderedRing K]

/-- What the flux `f` emits into group `g` of cell `i`. -/
def scatterInto (p : Problem K) (xs : ℕ → ℕ → ℕ → K) (f : ℕ → ℕ → K) (i g : ℕ) : K :=
  ∑ og ∈ range p.groups, xs (p.mm i) g og * f i og

/-- Group `g` of `f` answers a source that is at most what `f` emits, and at most the incoming flux. -/
def Sub (p : Problem K) (sigma : ℕ → ℕ → K) (xs : ℕ → ℕ → ℕ → K) (ext bnd : Arr3 K) (f : ℕ → ℕ → K) (g : ℕ) : Prop :=
  ∃ (S psi : ℕ → ℕ → K) (bL bR : ℕ → K),
    AllBalanced p.cells p.angles p.angleX p.dx (fun i => sigma (p.mm i) g) S psi ∧
    SweptInflow p.cells p.angles p.angleX p.bcL p.bcR bL bR psi ∧
    (∀ i < p.cells, f i g = scalarCenter p.angles p.angleW psi i) ∧
    (∀ n < p.angles, bL n ≤ sourceAt bnd 0 n g ∧ bR n ≤ sourceAt bnd 1 n g) ∧
    ∀ n < p.angles, ∀ i < p.cells, S n i ≤ scatterInto p xs f i g + sourceAt ext i n g

/-- Group `g` of `f` answers a source between what `old` and what `f` emit. -/
def Fed (p : Problem K) (sigma : ℕ → ℕ → K) (xs : ℕ → ℕ → ℕ → K) (ext bnd : Arr3 K) (old f : ℕ → ℕ → K) (g : ℕ) : Prop :=
  ∃ S psi : ℕ → ℕ → K,
    AllBalanced p.cells p.angles p.angleX p.dx (fun i => sigma (p.mm i) g) S psi ∧
    SweptInflow p.cells p.angles p.angleX p.bcL p.bcR (fun n => sourceAt bnd 0 n g) (fun n => sourceAt bnd 1 n g) psi ∧
    (∀ i < p.cells, f i g = scalarCenter p.angles p.angleW psi i) ∧
    ∀ n < p.angles, ∀ i < p.cells, scatterInto p xs old i g + sourceAt ext i n g ≤ S n i ∧
      S n i ≤ scatterInto p xs f i g + sourceAt ext i n g

/-- One group of one outer sweep raises a flux that is below its answer. -/
theorem groupStep_grow (p : Problem K) (sigma : ℕ → ℕ → K) (xs : ℕ → ℕ → ℕ → K) (ext bnd : Arr3 K)
    (g : ℕ) (hg : g < p.groups) (hok : SlabOk p sigma g)
    (hfine : ∀ n < p.angles, FineFor p.cells (p.angleX n) p.dx (fun i => sigma (p.mm i) g))
    (hw : ∀ n < p.angles, 0 ≤ p.angleW n)
    (hxs : ∀ i < p.cells, ∀ g' < p.groups, 0 ≤ xs (p.mm i) g g')
    (old flux : ℕ → ℕ → K) (hsub : Sub p sigma xs ext bnd old g)
    (hflux : ∀ i < p.cells, ∀ g' < g, old i g' ≤ flux i g') :
    ∃ new, groupStepIso p sigma xs ext bnd old g flux = .ok new ∧
      (∀ i g', g' ≠ g → new i g' = flux i g') ∧ (∀ i < p.cells, old i g ≤ new i g) ∧
      ∃ S psi : ℕ → ℕ → K,
        AllBalanced p.cells p.angles p.angleX p.dx (fun i => sigma (p.mm i) g) S psi ∧
        SweptInflow p.cells p.angles p.angleX p.bcL p.bcR (fun n => sourceAt bnd 0 n g) (fun n => sourceAt bnd 1 n g)
          psi ∧
        (∀ i < p.cells, new i g = scalarCenter p.angles p.angleW psi i) ∧
        ∀ n < p.angles, ∀ i < p.cells, scatterInto p xs old i g + sourceAt ext i n g ≤ S n i ∧
          S n i ≤ scatterInto p xs (fun i og => if og ≤ g then new i og else old i og) i g + sourceAt ext i n g := by
  obtain ⟨off, hoff⟩ : ∃ off, off = offScatter p.groups flux old p.mm xs g := ⟨_, rfl⟩
  have offv : ∀ i, off i = ∑ og ∈ (range p.groups).erase g, xs (p.mm i) g og * (if og < g then flux i og else old i og) :=
    fun i => by rw [hoff, offScatter_eq _ _ _ _ _ hg]
  obtain ⟨x, s, hs1, hs2, hx0, hstep, he, _, _⟩ := C18_within_group_stops (N := p.cells)
    (A := p.angles) p.convIn (fun m => sigma m g) (fun m => xs m g g)
    off (ext.group (bidx ext.groups g))
    (bnd.group (bidx bnd.groups g)) p.mm p.dx p.angleX p.angleW p.bcL p.bcR false
    (fun i => old i g) hok.nonzero hok.phys
  -- what the pass from `x j` uses as source
  obtain ⟨q, hq⟩ : ∃ q : ℕ → ℕ → ℕ → K, q = fun j n i => xs (p.mm i) g g * x j i + sourceAt ext i n g + off i := ⟨_, rfl⟩
  have pass : ∀ j < s, ∃ psi, AllBalanced p.cells p.angles p.angleX p.dx (fun i => sigma (p.mm i) g) (q j) psi ∧
      SweptInflow p.cells p.angles p.angleX p.bcL p.bcR (fun n => sourceAt bnd 0 n g) (fun n => sourceAt bnd 1 n g) psi ∧
      ∀ i < p.cells, x (j + 1) i = scalarCenter p.angles p.angleW psi i := by
    intro j hj
    obtain ⟨f, e, h1, h2, h3, h4⟩ := isotropicSweep_spec (N := p.cells) (A := p.angles)
      (fun m => sigma m g) (fun m => xs m g g) off (ext.group (bidx ext.groups g))
      (bnd.group (bidx bnd.groups g)) p.mm p.dx p.angleX p.angleW p.bcL p.bcR false (x j) hok.nonzero hok.phys
    have hf : f = x (j + 1) := by
      have := hstep j hj
      rw [h1] at this
      exact Except.ok.inj this
    subst hf
    refine ⟨e, by rw [hq]; exact h2, h3, fun i hi => ?_⟩
    rw [h4 i]
    simp only [Bool.false_eq_true, if_false, if_pos hi]
  have hown : ∀ i < p.cells, 0 ≤ xs (p.mm i) g g := fun i hi => hxs i hi g hg
  -- the old flux emits at most the first source
  have split : ∀ f i, scatterInto p xs f i g
      = xs (p.mm i) g g * f i g + ∑ og ∈ (range p.groups).erase g, xs (p.mm i) g og * f i og := fun f i =>
    (add_sum_erase (range p.groups) (fun og => xs (p.mm i) g og * f i og) (mem_range.mpr hg)).symm
  have first : ∀ n, ∀ i < p.cells, scatterInto p xs old i g + sourceAt ext i n g ≤ q 0 n i := by
    intro n i hi
    rw [hq, split]
    beta_reduce
    rw [hx0, offv]
    have : ∑ og ∈ (range p.groups).erase g, xs (p.mm i) g og * old i og
        ≤ ∑ og ∈ (range p.groups).erase g, xs (p.mm i) g og * (if og < g then flux i og else old i og) := by
      refine sum_le_sum fun og hog => mul_le_mul_of_nonneg_left ?_
        (hxs i hi og (mem_range.mp (mem_of_mem_erase hog)))
      split
      · next h => exact hflux i hi og h
      · exact le_rfl
    linarith
  have grow : ∀ j < s, ∀ i < p.cells, x j i ≤ x (j + 1) i := by
    intro j
    induction j with
    | zero =>
      intro hj i hi
      obtain ⟨S, psi, bL, bR, h1, h2, h3, h4, h5⟩ := hsub
      obtain ⟨psi', k1, k2, k3⟩ := pass 0 hj
      rw [k3 i hi, hx0]
      beta_reduce
      rw [h3 i hi]
      exact Direction.below.swept hok.nonzero hok.phys hfine hw h1 k1 h2 k2
        (fun n hn i hi => (h5 n hn i hi).trans (first n i hi)) (fun n hn _ => (h4 n hn).1) (fun n hn _ => (h4 n hn).2) hi
    | succ j ih =>
      intro hj i hi
      obtain ⟨psi, h1, h2, h3⟩ := pass j (by omega)
      obtain ⟨psi', k1, k2, k3⟩ := pass (j + 1) hj
      rw [k3 i hi, h3 i hi]
      refine Direction.below.swept hok.nonzero hok.phys hfine hw h1 k1 h2 k2
        (fun n hn i hi => ?_) (fun n hn _ => le_rfl) (fun n hn _ => le_rfl) hi
      have := mul_le_mul_of_nonneg_left (ih (by omega) i hi) (hown i hi)
      rw [hq]; beta_reduce
      linarith
  have above : ∀ j ≤ s, ∀ i < p.cells, old i g ≤ x j i := by
    intro j
    induction j with
    | zero => intro _ i _; rw [hx0]
    | succ j ih => intro hj i hi; exact (ih (by omega) i hi).trans (grow j (by omega) i hi)
  obtain ⟨r, rfl⟩ : ∃ r, s = r + 1 := ⟨s - 1, by omega⟩
  obtain ⟨psi, h1, h2, h3⟩ := pass r (by omega)
  have col : ∀ i, putCol flux g (x (r + 1)) i g = x (r + 1) i := fun i => by simp [putCol]
  refine ⟨putCol flux g (x (r + 1)), ?_, fun i g' hg' => by simp [putCol, hg'], fun i hi => ?_, q r, psi, h1, h2,
    fun i hi => by rw [col]; exact h3 i hi, fun n hn i hi => ⟨?_, ?_⟩⟩
  · unfold groupStepIso
    simp only [hok.slab, if_true]
    rw [← hoff, he]; rfl
  · rw [col]; exact above _ le_rfl i hi
  · have := mul_le_mul_of_nonneg_left (above r (by omega) i hi) (hown i hi)
    have f := first n i hi
    rw [hq] at f ⊢
    beta_reduce at f ⊢
    rw [hx0] at f
    linarith
  · rw [split]
    simp only [le_refl, if_true]
    rw [col, hq]
    beta_reduce
    have := mul_le_mul_of_nonneg_left (grow r (by omega) i hi) (hown i hi)
    rw [offv]
    have e : ∑ og ∈ (range p.groups).erase g, xs (p.mm i) g og * (if og < g then flux i og else old i og)
        = ∑ og ∈ (range p.groups).erase g,
          xs (p.mm i) g og * (if og ≤ g then putCol flux g (x (r + 1)) i og else old i og) := by
      refine sum_congr rfl fun og hog => ?_
      have hne : og ≠ g := (mem_erase.mp hog).1
      by_cases h : og < g
      · rw [if_pos h, if_pos h.le]; simp [putCol, hne]
      · rw [if_neg h, if_neg (by omega)]
    rw [e]
    linarith

/-- One outer sweep raises a flux that is below its answer, and the result is again below its answer. -/
theorem sweep_grow (p : Problem K) (sigma : ℕ → ℕ → K) (xs : ℕ → ℕ → ℕ → K) (ext bnd : Arr3 K)
    (hok : ∀ g < p.groups, SlabOk p sigma g)
    (hfine : ∀ g < p.groups, ∀ n < p.angles, FineFor p.cells (p.angleX n) p.dx (fun i => sigma (p.mm i) g))
    (hw : ∀ n < p.angles, 0 ≤ p.angleW n)
    (hxs : ∀ i < p.cells, ∀ g < p.groups, ∀ g' < p.groups, 0 ≤ xs (p.mm i) g g')
    (old : ℕ → ℕ → K) (hsub : ∀ g < p.groups, Sub p sigma xs ext bnd old g) :
    ∃ new, oneSweepIso p sigma xs ext bnd old = .ok new ∧
      (∀ i < p.cells, ∀ g < p.groups, old i g ≤ new i g) ∧ ∀ g < p.groups, Fed p sigma xs ext bnd old new g := by
  obtain ⟨f, h1, h2⟩ := loopE_inv (fun k (f : ℕ → ℕ → K) => ∀ g < k, (∀ i < p.cells, old i g ≤ f i g) ∧
      ∃ S psi : ℕ → ℕ → K,
        AllBalanced p.cells p.angles p.angleX p.dx (fun i => sigma (p.mm i) g) S psi ∧
        SweptInflow p.cells p.angles p.angleX p.bcL p.bcR (fun n => sourceAt bnd 0 n g) (fun n => sourceAt bnd 1 n g)
          psi ∧
        (∀ i < p.cells, f i g = scalarCenter p.angles p.angleW psi i) ∧
        ∀ n < p.angles, ∀ i < p.cells, scatterInto p xs old i g + sourceAt ext i n g ≤ S n i ∧
          S n i ≤ scatterInto p xs (fun i og => if og ≤ g then f i og else old i og) i g + sourceAt ext i n g)
    p.groups (groupStepIso p sigma xs ext bnd old) (fun _ _ => 0) (fun _ h => absurd h (Nat.not_lt_zero _))
    (fun g hg f hf => by
      obtain ⟨new, k1, k2, k3, k4⟩ := groupStep_grow p sigma xs ext bnd g hg (hok g hg) (hfine g hg) hw
        (fun i hi => hxs i hi g hg) old f (hsub g hg) (fun i hi g' hg' => (hf g' hg').1 i hi)
      refine ⟨new, k1, fun g' hg' => ?_⟩
      by_cases h : g' = g
      · subst h; exact ⟨k3, k4⟩
      · have hlt : g' < g := by omega
        obtain ⟨a, S, psi, b1, b2, b3, b4⟩ := hf g' hlt
        refine ⟨fun i hi => by rw [k2 i g' h]; exact a i hi, S, psi, b1, b2, fun i hi => by rw [k2 i g' h]; exact b3 i hi,
          fun n hn i hi => ⟨(b4 n hn i hi).1, (b4 n hn i hi).2.trans (le_of_eq ?_)⟩⟩
        congr 1
        unfold scatterInto
        refine sum_congr rfl fun og _ => ?_
        beta_reduce
        by_cases ho : og ≤ g'
        · rw [if_pos ho, if_pos ho, k2 i og (by omega)]
        · rw [if_neg ho, if_neg ho])
  refine ⟨f, h1, fun i hi g hg => (h2 g hg).1 i hi, fun g hg => ?_⟩
  obtain ⟨-, S, psi, b1, b2, b3, b4⟩ := h2 g hg
  refine ⟨S, psi, b1, b2, b3, fun n hn i hi => ⟨(b4 n hn i hi).1, (b4 n hn i hi).2.trans ?_⟩⟩
  refine add_le_add (sum_le_sum fun og hog => mul_le_mul_of_nonneg_left ?_ (hxs i hi g hg og (mem_range.mp hog))) le_rfl
  beta_reduce
  split
  · exact le_rfl
  · exact (h2 og (mem_range.mp hog)).1 i hi

theorem Fed.sub {p : Problem K} {sigma : ℕ → ℕ → K} {xs : ℕ → ℕ → ℕ → K} {ext bnd : Arr3 K} {old f : ℕ → ℕ → K} {g : ℕ}
    (h : Fed p sigma xs ext bnd old f g) : Sub p sigma xs ext bnd f g := by
  obtain ⟨S, psi, b1, b2, b3, b4⟩ := h
  exact ⟨S, psi, _, _, b1, b2, b3, fun n _ => ⟨le_rfl, le_rfl⟩, fun n hn i hi => (b4 n hn i hi).2⟩

/-- The zero flux is below its answer when nothing is negative. -/
theorem zero_sub (p : Problem K) (sigma : ℕ → ℕ → K) (xs : ℕ → ℕ → ℕ → K) (ext bnd : Arr3 K)
    (hext : ∀ i < p.cells, ∀ n < p.angles, ∀ g < p.groups, 0 ≤ sourceAt ext i n g)
    (hbnd : ∀ s < 2, ∀ n < p.angles, ∀ g < p.groups, 0 ≤ sourceAt bnd s n g) :
    ∀ g < p.groups, Sub p sigma xs ext bnd (fun _ _ => 0) g := by
  intro g hg
  refine ⟨fun _ _ => 0, fun _ _ => 0, fun _ => 0, fun _ => 0, fun n _ i _ => by simp, fun n _ => ?_, fun i _ => ?_,
    fun n hn => ⟨hbnd 0 (by omega) n hn g hg, hbnd 1 (by omega) n hn g hg⟩, fun n hn i hi => ?_⟩
  · simp only [inflow, outflow]
    split_ifs <;> simp
  · simp [scalarCenter]
  · simp [scatterInto]; exact hext i hi n hn g hg

theorem fed_solves {p : Problem K} {sigma : ℕ → ℕ → K} {xs : ℕ → ℕ → ℕ → K} {ext bnd : Arr3 K} {old f : ℕ → ℕ → K}
    (h : ∀ g < p.groups, Fed p sigma xs ext bnd old f g) :
    ∃ (E : Arr3 K) (psi : ℕ → ℕ → ℕ → K), SolvesMultigroup p sigma (fun _ _ _ => 0) E bnd f psi ∧
      ∀ i < p.cells, ∀ n < p.angles, ∀ g < p.groups, scatterInto p xs old i g + sourceAt ext i n g ≤ sourceAt E i n g := by
  unfold Fed at h
  choose! S psi h1 h2 h3 h4 using h
  refine ⟨⟨p.angles, p.groups, fun i n g => S g n i⟩, psi, ⟨h3, fun g hg n hn i hi => ?_, h2⟩, fun i hi n hn g hg => ?_⟩
  · have := h1 g hg n hn i hi
    simp only [zero_mul, sum_const_zero, zero_add]
    rw [bidx_full _ _ hn, bidx_full _ _ hg]
    exact this
  · have := (h4 g hg n hn i hi).1
    simp only [sourceAt, ← bidx.eq_1] at this ⊢
    rw [bidx_full _ _ hn, bidx_full _ _ hg]
    exact this

/-- Mixtures of answers of purely absorbing problems. -/
theorem absorbing_mix {p : Problem K} {sigma : ℕ → ℕ → K} {E1 E2 bnd : Arr3 K} {a b : ℕ → ℕ → K}
    {pa pb : ℕ → ℕ → ℕ → K} (M : K) (ha : SolvesMultigroup p sigma (fun _ _ _ => 0) E1 bnd a pa)
    (hb : SolvesMultigroup p sigma (fun _ _ _ => 0) E2 bnd b pb) :
    SolvesMultigroup p sigma (fun _ _ _ => 0)
      ⟨p.angles, p.groups, fun i n g => M * sourceAt E1 i n g + (1 - M) * sourceAt E2 i n g⟩ bnd
      (fun i g => M * a i g + (1 - M) * b i g) (fun g n i => M * pa g n i + (1 - M) * pb g n i) := by
  refine ⟨fun g hg i hi => ?_, fun g hg n hn i hi => ?_, fun g hg n hn => ?_⟩
  · beta_reduce
    rw [ha.scalar g hg i hi, hb.scalar g hg i hi]
    unfold scalarCenter
    rw [mul_sum, mul_sum, ← sum_add_distrib]
    exact sum_congr rfl fun _ _ => by ring
  · have h1 := ha.balance g hg n hn i hi
    have h2 := hb.balance g hg n hn i hi
    beta_reduce at h1 h2 ⊢
    simp only [zero_mul, sum_const_zero, zero_add] at h1 h2 ⊢
    rw [bidx_full _ _ hn, bidx_full _ _ hg]
    simp only [sourceAt, ← bidx.eq_1]
    linear_combination M * h1 + (1 - M) * h2
  · have := sweptInflow_add (sweptInflow_smul M (ha.inflow g hg)) (sweptInflow_smul (1 - M) (hb.inflow g hg)) n hn
    beta_reduce at this ⊢
    rw [this]
    split_ifs <;> ring

/-- Only the zero flux keeps itself up without a source when some positive flux answers more than it emits. -/
theorem hom_nonpos {p : Problem K} {sigma : ℕ → ℕ → K} {xs : ℕ → ℕ → ℕ → K} {ext bnd E : Arr3 K}
    {u w h : ℕ → ℕ → K} {pu pw ph : ℕ → ℕ → ℕ → K} (ht : Tame p sigma xs) (hN : 0 < p.cells) (hG : 0 < p.groups)
    (hus : SolvesMultigroup p sigma (fun _ _ _ => 0) ext bnd u pu)
    (hu0 : ∀ i < p.cells, ∀ g < p.groups, 0 < u i g) (hw0 : ∀ i < p.cells, ∀ g < p.groups, 0 < w i g)
    (hws : SolvesMultigroup p sigma (fun _ _ _ => 0) E bnd w pw)
    (hE : ∀ i < p.cells, ∀ n < p.angles, ∀ g < p.groups, scatterInto p xs w i g + sourceAt ext i n g ≤ sourceAt E i n g)
    (hh : SolvesMultigroup p sigma xs ⟨1, 1, fun _ _ _ => 0⟩ zeroBoundary h ph) :
    ∀ i < p.cells, ∀ g < p.groups, h i g ≤ 0 := by
  obtain ⟨i0, hi0, g0, hg0, hmax⟩ := max_ratio (a := h) hN hG hw0
  obtain ⟨t, ht'⟩ : ∃ t, t = h i0 g0 / w i0 g0 := ⟨_, rfl⟩
  rw [← ht'] at hmax
  have e : t * w i0 g0 = h i0 g0 := by rw [ht']; field_simp [(hw0 i0 hi0 g0 hg0).ne']
  have hsum : SolvesMultigroup p sigma (fun _ _ _ => 0) (emitted p xs ext h) bnd (fun i g => h i g + u i g)
      (fun g n i => ph g n i + pu g n i) := by
    refine ⟨fun g hg i hi => ?_, fun g hg n hn i hi => ?_, fun g hg n hn => ?_⟩
    · beta_reduce
      rw [hh.scalar g hg i hi, hus.scalar g hg i hi]
      unfold scalarCenter
      rw [← sum_add_distrib]
      exact sum_congr rfl fun _ _ => by ring
    · have h1 := hh.balance g hg n hn i hi
      have h2 := hus.balance g hg n hn i hi
      have h3 := sourceAt_emitted p xs ext h (i := i) hn hg
      simp only [sourceAt, ← bidx.eq_1] at h3
      beta_reduce at h1 h2 ⊢
      simp only [zero_mul, sum_const_zero, zero_add] at h1 h2 ⊢
      rw [h3]
      linear_combination h1 + h2
    · have := sweptInflow_add (hh.inflow g hg) (hus.inflow g hg) n hn
      simp only [zeroBoundary, zero_add] at this ⊢
      exact this
  have key : t ≤ 0 := by
    by_contra hlt
    have hlt := not_le.mp hlt
    have c := absorbing_combo (M := t) ht.ok ht.fine ht.weights hws hus hsum (fun i hi n hn g hg => by
      rw [sourceAt_emitted p xs ext h hn hg]
      have k1 := mul_le_mul_of_nonneg_left (hE i hi n hn g hg) hlt.le
      have k2 : ∑ og ∈ range p.groups, xs (p.mm i) g og * h i og ≤ t * scatterInto p xs w i g := by
        unfold scatterInto
        rw [mul_sum]
        refine sum_le_sum fun og hog => ?_
        have hog := mem_range.mp hog
        have := mul_le_mul_of_nonneg_left (hmax i hi og hog) (ht.nonneg i hi g hg og hog)
        linarith
      linarith) i0 hi0 g0 hg0
    beta_reduce at c
    have := mul_pos hlt (hu0 i0 hi0 g0 hg0)
    linarith
  intro i hi g hg
  exact (hmax i hi g hg).trans (mul_nonpos_of_nonpos_of_nonneg key (hw0 i hi g hg).le)

/-- Multiples of the difference of two solutions are homogeneous solutions. -/
theorem hom_diff {p : Problem K} {sigma : ℕ → ℕ → K} {xs : ℕ → ℕ → ℕ → K} {ext bnd : Arr3 K} {a b : ℕ → ℕ → K}
    {pa pb : ℕ → ℕ → ℕ → K} (c : K) (ha : SolvesMultigroup p sigma xs ext bnd a pa)
    (hb : SolvesMultigroup p sigma xs ext bnd b pb) :
    SolvesMultigroup p sigma xs ⟨1, 1, fun _ _ _ => 0⟩ zeroBoundary (fun i g => c * a i g + -c * b i g)
      (fun g n i => c * pa g n i + -c * pb g n i) := by
  refine ⟨fun g hg i hi => ?_, fun g hg n hn i hi => ?_, fun g hg n hn => ?_⟩
  · beta_reduce
    rw [ha.scalar g hg i hi, hb.scalar g hg i hi]
    unfold scalarCenter
    rw [mul_sum, mul_sum, ← sum_add_distrib]
    exact sum_congr rfl fun _ _ => by ring
  · have h1 := ha.balance g hg n hn i hi
    have h2 := hb.balance g hg n hn i hi
    beta_reduce at h1 h2 ⊢
    have e : ∑ og ∈ range p.groups, xs (p.mm i) g og * (c * a i og + -c * b i og)
        = c * ∑ og ∈ range p.groups, xs (p.mm i) g og * a i og
          - c * ∑ og ∈ range p.groups, xs (p.mm i) g og * b i og := by
      rw [mul_sum, mul_sum, ← sum_sub_distrib]
      exact sum_congr rfl fun _ _ => by ring
    rw [e]
    linear_combination c * h1 - c * h2
  · have := sweptInflow_add (sweptInflow_smul c (ha.inflow g hg)) (sweptInflow_smul (-c) (hb.inflow g hg)) n hn
    beta_reduce at this ⊢
    rw [this]
    simp only [inflow, zeroBoundary]
    split_ifs <;> ring

/-- A positive flux that answers more than it emits makes the problem uniquely solvable, with a non-negative
solution. -/
theorem solvable_of_super {p : Problem K} {sigma : ℕ → ℕ → K} {xs : ℕ → ℕ → ℕ → K} {ext bnd E : Arr3 K}
    {u w : ℕ → ℕ → K} {pu pw : ℕ → ℕ → ℕ → K} (ht : Tame p sigma xs) (hN : 0 < p.cells) (hG : 0 < p.groups)
    (hus : SolvesMultigroup p sigma (fun _ _ _ => 0) ext bnd u pu)
    (hu0 : ∀ i < p.cells, ∀ g < p.groups, 0 < u i g) (hw0 : ∀ i < p.cells, ∀ g < p.groups, 0 < w i g)
    (hws : SolvesMultigroup p sigma (fun _ _ _ => 0) E bnd w pw)
    (hE : ∀ i < p.cells, ∀ n < p.angles, ∀ g < p.groups, scatterInto p xs w i g + sourceAt ext i n g ≤ sourceAt E i n g) :
    ∃ phi psi, SolvesMultigroup p sigma xs ext bnd phi psi ∧ (∀ i < p.cells, ∀ g < p.groups, 0 ≤ phi i g) ∧
      ∀ phi' psi', SolvesMultigroup p sigma xs ext bnd phi' psi' → ∀ i < p.cells, ∀ g < p.groups, phi' i g = phi i g := by
  have hom0 : ∀ h ph, SolvesMultigroup p sigma xs ⟨1, 1, fun _ _ _ => 0⟩ zeroBoundary h ph →
      ∀ i < p.cells, ∀ g < p.groups, h i g = 0 := by
    intro h ph hh i hi g hg
    refine le_antisymm (hom_nonpos ht hN hG hus hu0 hw0 hws hE hh i hi g hg) ?_
    have z : SolvesMultigroup p sigma xs ⟨1, 1, fun _ _ _ => 0⟩ zeroBoundary (fun i g => -1 * h i g + - -1 * 0)
        (fun g n i => -1 * ph g n i + - -1 * 0) := hom_diff (a := h) (pa := ph) (-1) hh
      ⟨fun _ _ _ _ => by simp [scalarCenter], fun _ _ _ _ _ _ => by simp, fun _ _ _ _ => by
        simp [inflow, outflow, zeroBoundary]⟩
    have := hom_nonpos ht hN hG hus hu0 hw0 hws hE z i hi g hg
    linarith
  obtain ⟨phi, psi, hs⟩ := solves_exists_of_unique p sigma xs ext bnd ht.ok hom0
  refine ⟨phi, psi, hs, ?_, fun phi' psi' hs' i hi g hg => ?_⟩
  · obtain ⟨i0, hi0, g0, hg0, hmax⟩ := max_ratio (a := fun i g => -phi i g) hN hG hw0
    obtain ⟨t, h⟩ : ∃ t, t = -phi i0 g0 / w i0 g0 := ⟨_, rfl⟩
    beta_reduce at hmax
    rw [← h] at hmax
    have e : t * w i0 g0 = -phi i0 g0 := by rw [h]; field_simp [(hw0 i0 hi0 g0 hg0).ne']
    have key : t ≤ 0 := by
      by_contra hlt
      have hlt := not_le.mp hlt
      have hp : 0 < 1 + t := by linarith
      obtain ⟨M, hM⟩ : ∃ M, M = t / (1 + t) := ⟨_, rfl⟩
      have m1 : (1 + t) * M = t := by rw [hM]; field_simp
      have c := absorbing_combo (M := M) ht.ok ht.fine ht.weights hws (solves_emitted hs) hus (fun i hi n hn g hg => by
        rw [sourceAt_emitted p xs ext phi hn hg]
        have k1 := mul_le_mul_of_nonneg_left (hE i hi n hn g hg) hlt.le
        have k2 : 0 ≤ ∑ og ∈ range p.groups, xs (p.mm i) g og * phi i og + t * scatterInto p xs w i g := by
          unfold scatterInto
          rw [mul_sum, ← sum_add_distrib]
          refine sum_nonneg fun og hog => ?_
          have hog := mem_range.mp hog
          have := mul_le_mul_of_nonneg_left (hmax i hi og hog) (ht.nonneg i hi g hg og hog)
          linarith
        refine le_of_mul_le_mul_left ?_ hp
        rw [mul_add, ← mul_assoc, ← mul_assoc, show (1 + t) * (1 - M) = 1 by linarith, m1]
        linarith) i0 hi0 g0 hg0
      have c2 := mul_le_mul_of_nonneg_left c hp.le
      rw [mul_add, ← mul_assoc, ← mul_assoc, show (1 + t) * (1 - M) = 1 by linarith, m1] at c2
      have := mul_pos hp (hu0 i0 hi0 g0 hg0)
      linarith
    intro i hi g hg
    have h1 := hmax i hi g hg
    have h2 := mul_nonpos_of_nonpos_of_nonneg key (hw0 i hi g hg).le
    linarith
  · have := hom0 _ _ (hom_diff 1 hs' hs) i hi g hg
    linarith

/-- C220: a run of `source_iteration` from the zero flux, with nothing negative in the data, never lowers the flux
from one pass to the next and stays below the solution; and when its stopping test (tolerance `tol`) stops it, the
solution is at most `(1 - N tol)/(1 - R N tol)` times the returned flux, where `R` bounds the ratio of the returned
flux to the uncollided flux that `source_iteration` returns with scattering switched off. -/
theorem C220_certified_flux (p : Problem K) (xsTotal : ℕ → ℕ → K) (xs : ℕ → ℕ → ℕ → K) (ext bnd : Arr3 K)
    (guess u phi : ℕ → ℕ → K) (psi : ℕ → ℕ → ℕ → K) (tol : K) (htol : 0 ≤ tol) (ht : Tame p xsTotal xs)
    (hN : 0 < p.cells) (hG : 0 < p.groups)
    (hconv : p.convOut = fluxConverged2 p.cells p.groups tol)
    (hext : ∀ i < p.cells, ∀ n < p.angles, ∀ g < p.groups, 0 ≤ sourceAt ext i n g)
    (hbnd : ∀ s < 2, ∀ n < p.angles, ∀ g < p.groups, 0 ≤ sourceAt bnd s n g)
    (hu : sourceIteration p xsTotal (.iso fun _ _ _ => 0) ext bnd guess = .ok u)
    (hu0 : ∀ i < p.cells, ∀ g < p.groups, 0 < u i g)
    (hsol : SolvesMultigroup p xsTotal xs ext bnd phi psi) (hpos : ∀ i < p.cells, ∀ g < p.groups, 0 ≤ phi i g) :
    ∃ (x : ℕ → ℕ → ℕ → K) (n : ℕ), Run (oneSweepIso p xsTotal xs ext bnd) p.convOut 100 (fun _ _ => 0) x n ∧
      sourceIteration p xsTotal (.iso xs) ext bnd (fun _ _ => 0) = .ok (x n) ∧
      (∀ j < n, ∀ i < p.cells, ∀ g < p.groups, x j i g ≤ x (j + 1) i g) ∧
      (∀ i < p.cells, ∀ g < p.groups, x n i g ≤ phi i g) ∧
      (n < 100 → ∀ R, (∀ i < p.cells, ∀ g < p.groups, x n i g ≤ R * u i g) → R * (p.cells * tol) < 1 →
        ∀ i < p.cells, ∀ g < p.groups,
          phi i g ≤ (1 - p.cells * tol) / (1 - R * (p.cells * tol)) * x n i g) := by
  obtain ⟨x, n, hrun, -, he⟩ := iterateE_run (oneSweepIso p xsTotal xs ext bnd) p.convOut
    (fun f => ∀ g < p.groups, Sub p xsTotal xs ext bnd f g) (fun old hold => by
      obtain ⟨new, h1, h2, h3⟩ := sweep_grow p xsTotal xs ext bnd ht.ok ht.fine ht.weights ht.nonneg old hold
      exact ⟨new, h1, fun g hg => (h3 g hg).sub⟩) 99 (fun _ _ => 0) (zero_sub p xsTotal xs ext bnd hext hbnd)
  have he' : sourceIteration p xsTotal (.iso xs) ext bnd (fun _ _ => 0) = .ok (x n) := he
  have subs : ∀ j ≤ n, ∀ g < p.groups, Sub p xsTotal xs ext bnd (x j) g := by
    intro j
    induction j with
    | zero => intro _; rw [hrun.start]; exact zero_sub p xsTotal xs ext bnd hext hbnd
    | succ j ih =>
      intro hj
      obtain ⟨new, h1, h2, h3⟩ := sweep_grow p xsTotal xs ext bnd ht.ok ht.fine ht.weights ht.nonneg (x j) (ih (by omega))
      rw [hrun.steps j (by omega)] at h1
      cases h1
      exact fun g hg => (h3 g hg).sub
  have steps : ∀ j < n, (∀ i < p.cells, ∀ g < p.groups, x j i g ≤ x (j + 1) i g) ∧
      ∀ g < p.groups, Fed p xsTotal xs ext bnd (x j) (x (j + 1)) g := by
    intro j hj
    obtain ⟨new, h1, h2, h3⟩ := sweep_grow p xsTotal xs ext bnd ht.ok ht.fine ht.weights ht.nonneg (x j)
      (subs j (by omega))
    rw [hrun.steps j hj] at h1
    cases h1
    exact ⟨h2, h3⟩
  have nonneg : ∀ j ≤ n, ∀ i < p.cells, ∀ g < p.groups, 0 ≤ x j i g := by
    intro j
    induction j with
    | zero => intro _ i _ g _; rw [hrun.start]
    | succ j ih => intro hj i hi g hg; exact (ih (by omega) i hi g hg).trans ((steps j (by omega)).1 i hi g hg)
  refine ⟨x, n, hrun, he', fun j hj => (steps j hj).1, ?_, ?_⟩
  · obtain ⟨out, h1, h2⟩ := C115_from_below p xsTotal xs xs ext ext bnd bnd phi psi (fun _ _ => 0) ht
      (AtMost.refl p xs ext bnd) hsol hpos hpos
    rw [he'] at h1
    cases h1
    exact h2
  intro hlt R hR hcost
  obtain ⟨u', pu, hu', hus⟩ := C22_downscatter_exact p xsTotal (fun _ _ _ => 0) ext bnd guess ht.ok fun _ _ _ _ => rfl
  obtain rfl : u = u' := by rw [hu] at hu'; exact Except.ok.inj hu'
  obtain ⟨m, rfl⟩ : ∃ m, n = m + 1 := ⟨n - 1, by have := hrun.pos; omega⟩
  obtain ⟨f, hf⟩ : ∃ f, f = x (m + 1) := ⟨_, rfl⟩
  obtain ⟨old, hold⟩ : ∃ old, old = x m := ⟨_, rfl⟩
  obtain ⟨τ, hτ⟩ : ∃ τ, τ = (p.cells : K) * tol := ⟨_, rfl⟩
  have hτ0 : 0 ≤ τ := by rw [hτ]; positivity
  have hfed := (steps m (by omega)).2
  have stop := hrun.stopped hlt
  rw [hconv, show m + 1 - 1 = m from rfl] at stop
  have rel := converged2_rel htol stop
  have old0 := nonneg m (by omega)
  have f0 := nonneg (m + 1) le_rfl
  rw [← hτ] at rel hcost ⊢
  rw [← hf] at rel hfed f0 hR ⊢
  rw [← hold] at rel hfed old0
  have close : ∀ i < p.cells, ∀ g < p.groups, (1 - τ) * f i g ≤ old i g := by
    intro i hi g hg
    have h1 := rel i hi g hg
    rw [← mul_pow] at h1
    have h2 := abs_le_of_sq_le_sq h1 (mul_nonneg hτ0 (f0 i hi g hg))
    linarith [(abs_le.mp h2).1]
  obtain ⟨E, pf, hE, hEl⟩ := fed_solves hfed
  have hfu : ∀ i < p.cells, ∀ g < p.groups, u i g ≤ f i g := fun i hi g hg => by
    have := absorbing_combo (M := 1) ht.ok ht.fine ht.weights hE hus hus (fun i hi n hn g hg => by
      have h1 := hEl i hi n hn g hg
      have : 0 ≤ scatterInto p xs old i g := sum_nonneg fun og hog =>
        mul_nonneg (ht.nonneg i hi g hg og (mem_range.mp hog)) (old0 i hi og (mem_range.mp hog))
      linarith) i hi g hg
    linarith
  have fpos : ∀ i < p.cells, ∀ g < p.groups, 0 < f i g := fun i hi g hg => (hu0 i hi g hg).trans_le (hfu i hi g hg)
  have hR1 : 1 ≤ R := by
    have h1 := hfu 0 hN 0 hG
    have h2 := hR 0 hN 0 hG
    have h3 := hu0 0 hN 0 hG
    by_contra hlt
    nlinarith
  have hRτ : τ ≤ R * τ := le_mul_of_one_le_left hτ0 hR1
  have hgap : 0 < 1 - R * τ := by linarith
  have hτ1 : 0 < 1 - τ := by linarith
  obtain ⟨i0, hi0, g0, hg0, hmax⟩ := max_ratio (a := phi) hN hG fpos
  obtain ⟨M, hM⟩ : ∃ M, M = phi i0 g0 / f i0 g0 / (1 - τ) := ⟨_, rfl⟩
  have e : M * (1 - τ) = phi i0 g0 / f i0 g0 := by rw [hM]; field_simp
  rw [← e] at hmax
  have hM0 : 0 ≤ M := by rw [hM]; exact div_nonneg (div_nonneg (hpos i0 hi0 g0 hg0) (f0 i0 hi0 g0 hg0)) hτ1.le
  have e0 : M * (1 - τ) * f i0 g0 = phi i0 g0 := by rw [e]; field_simp [(fpos i0 hi0 g0 hg0).ne']
  have h1 := absorbing_combo (M := M) ht.ok ht.fine ht.weights hE hus (solves_emitted hsol) (fun i hi n hn g hg => by
    rw [sourceAt_emitted p xs ext phi hn hg]
    have h1 := mul_le_mul_of_nonneg_left (hEl i hi n hn g hg) hM0
    have h2 : ∑ og ∈ range p.groups, xs (p.mm i) g og * phi i og ≤ M * scatterInto p xs old i g := by
      unfold scatterInto
      rw [mul_sum]
      refine sum_le_sum fun og hog => ?_
      have hog := mem_range.mp hog
      have a1 := hmax i hi og hog
      have a2 := mul_le_mul_of_nonneg_left (close i hi og hog) hM0
      have a3 := mul_le_mul_of_nonneg_left (a1.trans ((le_of_eq (by ring)).trans a2)) (ht.nonneg i hi g hg og hog)
      linarith
    linarith) i0 hi0 g0 hg0
  have hu1 := hu0 i0 hi0 g0 hg0
  have h2 : M * (1 - R * τ) ≤ 1 := by
    refine le_of_mul_le_mul_right ?_ hu1
    have := mul_le_mul_of_nonneg_left (hR i0 hi0 g0 hg0) (mul_nonneg hM0 hτ0)
    rw [← e0] at h1
    linarith
  intro i hi g hg
  rw [div_mul_eq_mul_div, le_div_iff₀ hgap]
  have h3 := mul_le_mul_of_nonneg_right (hmax i hi g hg) hgap.le
  have h4 := mul_le_mul_of_nonneg_right h2 (mul_nonneg hτ1.le (f0 i hi g hg))
  linarith

/-- C220: hence a run that its test stopped proves the problem well-posed: if the test of a run from the zero flux
stopped it at a flux that is at most `R` times the uncollided flux, with `R N tol < 1`, the discrete equations
(whatever the scattering ratio) have exactly one solution, it is not negative, and it lies between the returned flux
and `(1 - N tol)/(1 - R N tol)` times the returned flux. -/
theorem C220_stopping_proves_solvable (p : Problem K) (xsTotal : ℕ → ℕ → K) (xs : ℕ → ℕ → ℕ → K) (ext bnd : Arr3 K)
    (guess u : ℕ → ℕ → K) (tol R : K) (htol : 0 ≤ tol) (ht : Tame p xsTotal xs)
    (hN : 0 < p.cells) (hG : 0 < p.groups)
    (hconv : p.convOut = fluxConverged2 p.cells p.groups tol)
    (hext : ∀ i < p.cells, ∀ n < p.angles, ∀ g < p.groups, 0 ≤ sourceAt ext i n g)
    (hbnd : ∀ s < 2, ∀ n < p.angles, ∀ g < p.groups, 0 ≤ sourceAt bnd s n g)
    (hu : sourceIteration p xsTotal (.iso fun _ _ _ => 0) ext bnd guess = .ok u)
    (hu0 : ∀ i < p.cells, ∀ g < p.groups, 0 < u i g)
    (x : ℕ → ℕ → ℕ → K) (n : ℕ) (hrun : Run (oneSweepIso p xsTotal xs ext bnd) p.convOut 100 (fun _ _ => 0) x n)
    (hlt : n < 100) (hR : ∀ i < p.cells, ∀ g < p.groups, x n i g ≤ R * u i g) (hcost : R * (p.cells * tol) < 1) :
    sourceIteration p xsTotal (.iso xs) ext bnd (fun _ _ => 0) = .ok (x n) ∧
    ∃ phi psi, SolvesMultigroup p xsTotal xs ext bnd phi psi ∧
      (∀ phi' psi', SolvesMultigroup p xsTotal xs ext bnd phi' psi' →
        ∀ i < p.cells, ∀ g < p.groups, phi' i g = phi i g) ∧
      ∀ i < p.cells, ∀ g < p.groups, 0 ≤ phi i g ∧ x n i g ≤ phi i g ∧
        phi i g ≤ (1 - p.cells * tol) / (1 - R * (p.cells * tol)) * x n i g := by
  obtain ⟨u', pu, hu', hus⟩ := C22_downscatter_exact p xsTotal (fun _ _ _ => 0) ext bnd guess ht.ok fun _ _ _ _ => rfl
  obtain rfl : u = u' := by rw [hu] at hu'; exact Except.ok.inj hu'
  have subs : ∀ j ≤ n, ∀ g < p.groups, Sub p xsTotal xs ext bnd (x j) g := by
    intro j
    induction j with
    | zero => intro _; rw [hrun.start]; exact zero_sub p xsTotal xs ext bnd hext hbnd
    | succ j ih =>
      intro hj
      obtain ⟨new, h1, h2, h3⟩ := sweep_grow p xsTotal xs ext bnd ht.ok ht.fine ht.weights ht.nonneg (x j) (ih (by omega))
      rw [hrun.steps j (by omega)] at h1
      cases h1
      exact fun g hg => (h3 g hg).sub
  have steps : ∀ j < n, (∀ i < p.cells, ∀ g < p.groups, x j i g ≤ x (j + 1) i g) ∧
      ∀ g < p.groups, Fed p xsTotal xs ext bnd (x j) (x (j + 1)) g := by
    intro j hj
    obtain ⟨new, h1, h2, h3⟩ := sweep_grow p xsTotal xs ext bnd ht.ok ht.fine ht.weights ht.nonneg (x j)
      (subs j (by omega))
    rw [hrun.steps j hj] at h1
    cases h1
    exact ⟨h2, h3⟩
  have nonneg : ∀ j ≤ n, ∀ i < p.cells, ∀ g < p.groups, 0 ≤ x j i g := by
    intro j
    induction j with
    | zero => intro _ i _ g _; rw [hrun.start]
    | succ j ih => intro hj i hi g hg; exact (ih (by omega) i hi g hg).trans ((steps j (by omega)).1 i hi g hg)
  have solved : ∃ phi psi, SolvesMultigroup p xsTotal xs ext bnd phi psi ∧ (∀ i < p.cells, ∀ g < p.groups, 0 ≤ phi i g) ∧
      ∀ phi' psi', SolvesMultigroup p xsTotal xs ext bnd phi' psi' →
        ∀ i < p.cells, ∀ g < p.groups, phi' i g = phi i g := by
    obtain ⟨m, rfl⟩ : ∃ m, n = m + 1 := ⟨n - 1, by have := hrun.pos; omega⟩
    obtain ⟨f, hf⟩ : ∃ f, f = x (m + 1) := ⟨_, rfl⟩
    obtain ⟨old, hold⟩ : ∃ old, old = x m := ⟨_, rfl⟩
    obtain ⟨τ, hτ⟩ : ∃ τ, τ = (p.cells : K) * tol := ⟨_, rfl⟩
    have hτ0 : 0 ≤ τ := by rw [hτ]; positivity
    have hfed := (steps m (by omega)).2
    have stop := hrun.stopped hlt
    rw [hconv, show m + 1 - 1 = m from rfl] at stop
    have rel := converged2_rel htol stop
    have old0 := nonneg m (by omega)
    have f0 := nonneg (m + 1) le_rfl
    rw [← hτ] at rel hcost
    rw [← hf] at rel hfed f0 hR
    rw [← hold] at rel hfed old0
    have close : ∀ i < p.cells, ∀ g < p.groups, (1 - τ) * f i g ≤ old i g := by
      intro i hi g hg
      have h1 := rel i hi g hg
      rw [← mul_pow] at h1
      have h2 := abs_le_of_sq_le_sq h1 (mul_nonneg hτ0 (f0 i hi g hg))
      linarith [(abs_le.mp h2).1]
    obtain ⟨E, pf, hE, hEl⟩ := fed_solves hfed
    have hgap : 0 < 1 - R * τ := by linarith
    obtain ⟨M, hM⟩ : ∃ M, M = 1 / (1 - R * τ) := ⟨_, rfl⟩
    have hM0 : 0 ≤ M := by rw [hM]; positivity
    have hMR : M * (1 - R * τ) = 1 := by rw [hM]; field_simp
    have e1 : ∀ i, ∀ n < p.angles, ∀ g < p.groups, sourceAt (⟨p.angles, p.groups, fun i n g => M * sourceAt E i n g
        + (1 - M) * sourceAt ext i n g⟩ : Arr3 K) i n g = M * sourceAt E i n g + (1 - M) * sourceAt ext i n g := by
      intro i n hn g hg
      simp only [sourceAt, ← bidx.eq_1]
      rw [bidx_full _ _ hn, bidx_full _ _ hg]
    have mix := absorbing_mix M hE hus
    have hsc : ∀ i < p.cells, ∀ g < p.groups, 0 ≤ scatterInto p xs old i g := fun i hi g hg => sum_nonneg fun og hog =>
      mul_nonneg (ht.nonneg i hi g hg og (mem_range.mp hog)) (old0 i hi og (mem_range.mp hog))
    have hwu : ∀ i < p.cells, ∀ g < p.groups, u i g ≤ M * f i g + (1 - M) * u i g := fun i hi g hg => by
      refine absorbing_combo (M := M) ht.ok ht.fine ht.weights hE hus hus (fun i hi n hn g hg => ?_) i hi g hg
      have h1 := mul_le_mul_of_nonneg_left (hEl i hi n hn g hg) hM0
      have h2 := mul_nonneg hM0 (hsc i hi g hg)
      linarith
    refine solvable_of_super ht hN hG hus hu0 (fun i hi g hg => (hu0 i hi g hg).trans_le (hwu i hi g hg)) mix
      fun i hi n hn g hg => ?_
    rw [e1 i n hn g hg]
    have h1 := mul_le_mul_of_nonneg_left (hEl i hi n hn g hg) hM0
    have h2 : scatterInto p xs (fun i g => M * f i g + (1 - M) * u i g) i g ≤ M * scatterInto p xs old i g := by
      unfold scatterInto
      rw [mul_sum]
      refine sum_le_sum fun og hog => ?_
      have hog := mem_range.mp hog
      have a1 := mul_le_mul_of_nonneg_left (close i hi og hog) hM0
      have a2 := mul_le_mul_of_nonneg_left (hR i hi og hog) (mul_nonneg hM0 hτ0)
      have a3 : M * f i og + (1 - M) * u i og ≤ M * old i og := by
        have : M * R * τ = M - 1 := by linarith
        have : M * τ * (R * u i og) = (M - 1) * u i og := by rw [← this]; ring
        linarith
      have := mul_le_mul_of_nonneg_left a3 (ht.nonneg i hi g hg og hog)
      linarith
    linarith
  obtain ⟨phi, psi, hs, hp, hun⟩ := solved
  obtain ⟨x', n', hrun', he, -, hle, hcert⟩ := C220_certified_flux p xsTotal xs ext bnd guess u phi psi tol htol ht hN hG
    hconv hext hbnd hu hu0 hs hp
  obtain ⟨e1, e2⟩ := hrun.unique hrun'
  subst e1
  rw [← e2 n le_rfl] at he hle hcert
  exact ⟨he, phi, psi, hs, hun, fun i hi g hg => ⟨hp i hi g hg, hle i hi g hg, hcert hlt R hR hcost i hi g hg⟩⟩

/-- `exShot` with the stopping tests of the code, tolerance 1/5. -/
def exShotRun : Problem ℚ :=
  { exShot with convIn := fun _ _ => true, convOut := fluxConverged2 2 2 (1 / 5) }

theorem exShotRun_tame : Tame exShotRun (fun _ _ => 1) exShotXs where
  ok := fun g _ => ⟨rfl, (exFlat_ok g).nonzero, (exFlat_ok g).phys⟩
  fine := fun g _ n _ i _ => by
    show (1 : ℚ) * (1 / 10) ≤ 2 * |(exFlat ℚ).angleX n|
    rw [exFlat_abs]; norm_num
  weights := fun n _ => by show (0 : ℚ) ≤ 1 / 2; norm_num
  norm := by
    show ∑ n ∈ range 2, (1 / 2 : ℚ) = 1
    rw [sum_const, card_range]; norm_num
  nonneg := fun _ _ _ _ _ _ => by norm_num [exShotXs]

def exShotExt : Arr3 ℚ := ⟨1, 1, fun _ _ _ => 1 / 2⟩
def exShotBnd : Arr3 ℚ := ⟨1, 1, fun _ _ _ => 1⟩

theorem exShotRun_first : ∃ u, sourceIteration exShotRun (fun _ _ => 1) (.iso fun _ _ _ => 0) exShotExt exShotBnd
    (fun _ _ => 0) = .ok u ∧ ∀ i < exShotRun.cells, ∀ g < exShotRun.groups, u i g = 221 / 242 := by
  obtain ⟨u, psi, h, -⟩ := C22_downscatter_exact exShotRun (fun _ _ => 1) (fun _ _ _ => 0) exShotExt exShotBnd
    (fun _ _ => 0) exShotRun_tame.ok fun _ _ _ _ => rfl
  refine ⟨u, h, fun i hi g hg => ?_⟩
  have key : ∀ i < 2, ∀ g < 2, (match sourceIteration exShotRun (fun _ _ => 1) (.iso fun _ _ _ => 0) exShotExt exShotBnd
      (fun _ _ => 0) with | .ok u => u i g | .error _ => 0) = 221 / 242 := by decide +kernel
  have h2 := key i hi g hg
  rw [h] at h2
  exact h2

def small (b : ℕ → ℕ → ℚ) : Bool := (List.range 2).all fun i => (List.range 2).all fun g => decide (b i g ≤ 11 / 10 * (221 / 242))

/-- The second pass passes the test. -/
theorem exShotRun_second : (match oneSweepIso exShotRun (fun _ _ => 1) exShotXs exShotExt exShotBnd (fun _ _ => 0) with
    | .error _ => false
    | .ok a => match oneSweepIso exShotRun (fun _ _ => 1) exShotXs exShotExt exShotBnd a with
      | .error _ => false
      | .ok b => exShotRun.convOut b a && small b) = true := by
  decide +kernel

/-- The certificate holds for a run that does stop: the solution is `1`. -/
example : ∃ f, sourceIteration exShotRun (fun _ _ => 1) (.iso exShotXs) exShotExt exShotBnd (fun _ _ => 0) = .ok f ∧
    (∀ i < 2, ∀ g < 2, f i g ≤ 1 ∧ 1 ≤ (1 - 2 * (1 / 5)) / (1 - 11 / 10 * (2 * (1 / 5))) * f i g) ∧
    ∃ phi psi, SolvesMultigroup exShotRun (fun _ _ => 1) exShotXs exShotExt exShotBnd phi psi ∧
      ∀ i < exShotRun.cells, ∀ g < exShotRun.groups, f i g ≤ phi i g := by
  obtain ⟨u, hu, hv⟩ := exShotRun_first
  obtain ⟨x, n, hrun, he, -, hle, hcert⟩ := C220_certified_flux exShotRun (fun _ _ => 1) exShotXs exShotExt exShotBnd
    (fun _ _ => 0) u (fun _ _ => 1) (fun _ _ _ => 1) (1 / 5) (by norm_num) exShotRun_tame (by decide) (by decide) rfl
    (fun _ _ _ _ _ _ => by norm_num [sourceAt, exShotExt]) (fun _ _ _ _ _ _ => by norm_num [sourceAt, exShotBnd]) hu
    (fun i hi g hg => by rw [hv i hi g hg]; norm_num) ⟨(exShot_solves 1).scalar, (exShot_solves 1).balance,
      (exShot_solves 1).inflow⟩ (fun _ _ _ _ => by norm_num)
  have hn := hrun.pos
  have key := exShotRun_second
  have hn2 : 2 ≤ n := by
    by_contra h
    have h1 : n = 1 := by omega
    have := hrun.stopped (by omega)
    have s0 := hrun.steps 0 (by omega)
    rw [h1, hrun.start] at this
    rw [hrun.start] at s0
    have k1 : (match oneSweepIso exShotRun (fun _ _ => 1) exShotXs exShotExt exShotBnd (fun _ _ => 0) with
      | .error _ => true
      | .ok a => exShotRun.convOut a (fun _ _ => 0)) = false := by decide +kernel
    rw [s0] at k1
    simp only [zero_add] at k1
    rw [k1] at this
    cases this
  have s0 := hrun.steps 0 (by omega)
  have s1 := hrun.steps 1 (by omega)
  rw [hrun.start] at s0
  rw [s0] at key
  simp only at key
  rw [s1] at key
  simp only [small, Bool.and_eq_true, List.all_eq_true, List.mem_range, decide_eq_true_eq] at key
  have hn3 : n = 2 := by
    by_contra h
    have := hrun.notBefore 2 (by omega) (by omega)
    rw [show 2 - 1 = 1 from rfl, key.1] at this
    exact Bool.noConfusion this
  subst hn3
  have small2 : ∀ i < exShotRun.cells, ∀ g < exShotRun.groups, x 2 i g ≤ 11 / 10 * u i g := fun i hi g hg => by
    rw [hv i hi g hg]; exact key.2 i hi g hg
  have cost : (11 / 10 : ℚ) * (exShotRun.cells * (1 / 5)) < 1 := by norm_num [exShotRun, exShot, exFlat]
  refine ⟨x 2, he, fun i hi g hg => ⟨hle i hi g hg, hcert (by omega) (11 / 10) small2 cost i hi g hg⟩, ?_⟩
  obtain ⟨-, phi, psi, hs, -, hb⟩ := C220_stopping_proves_solvable exShotRun (fun _ _ => 1) exShotXs exShotExt exShotBnd
    (fun _ _ => 0) u (1 / 5) (11 / 10) (by norm_num) exShotRun_tame (by decide) (by decide) rfl
    (fun _ _ _ _ _ _ => by norm_num [sourceAt, exShotExt]) (fun _ _ _ _ _ _ => by norm_num [sourceAt, exShotBnd]) hu
    (fun i hi g hg => by rw [hv i hi g hg]; norm_num) x 2 hrun (by omega) small2 cost
  exact ⟨phi, psi, hs, fun i hi g hg => (hb i hi g hg).2.1⟩

end Discrete1.Props
