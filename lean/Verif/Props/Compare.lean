import Verif.Props.Drivers
import Verif.Props.HybridTime
import Verif.Props.Stability
import Verif.Props.Existence

/-!
# Comparison principles: C115, C116
-/

set_option linter.unusedSectionVars false
set_option linter.unusedSimpArgs false

namespace Discrete1.Props

open Finset Discrete1.Spec Discrete1.Slab Discrete1.Tools Discrete1.MultiGroup Discrete1.Drivers

variable {K : Type} [Field K] [LinearOrder K] [IsStrictOrderedRing K]

/-- On a fine mesh, the angular flux grows with the source and the incoming flux. -/
theorem swept_mono {N A : ℕ} {mu : ℕ → K} {dx sigma : ℕ → K} {q q' psi psi' : ℕ → ℕ → K}
    {bcL bcR : Bool} {bL bR bL' bR' : ℕ → K} (hne : ∀ n < A, mu n ≠ 0) (hphys : Physical N dx sigma)
    (hfine : ∀ n < A, FineFor N (mu n) dx sigma)
    (h : AllBalanced N A mu dx sigma q psi) (h' : AllBalanced N A mu dx sigma q' psi')
    (hin : SweptInflow N A mu bcL bcR bL bR psi) (hin' : SweptInflow N A mu bcL bcR bL' bR' psi')
    (hq : ∀ n < A, ∀ i < N, q n i ≤ q' n i) (hbL : ∀ n < A, 0 < mu n → bL n ≤ bL' n)
    (hbR : ∀ n < A, mu n < 0 → bR n ≤ bR' n) : ∀ n < A, ∀ i ≤ N, psi n i ≤ psi' n i := by
  intro n hn i hi
  have := swept_nonneg (psi := fun n i => psi' n i - psi n i) (q := fun n i => q' n i - q n i)
    (bL := fun n => bL' n - bL n) (bR := fun n => bR' n - bR n) (bcL := bcL) (bcR := bcR) hne hphys hfine
    (fun n hn i hi => by
      have a := h n hn i hi
      have b := h' n hn i hi
      simp only
      linear_combination b - a)
    (fun n hn => by
      have a := hin n hn
      have b := hin' n hn
      simp only [inflow, outflow] at a b ⊢
      split_ifs at a b ⊢ <;> linear_combination b - a)
    (fun n hn i hi => sub_nonneg.mpr (hq n hn i hi)) (fun n hn hp => sub_nonneg.mpr (hbL n hn hp))
    (fun n hn hp => sub_nonneg.mpr (hbR n hn hp)) n hn i hi
  exact sub_nonneg.mp this

/-- The scalar flux grows with the angular flux. -/
theorem scalarCenter_mono {A N : ℕ} {w : ℕ → K} {psi psi' : ℕ → ℕ → K} (hw : ∀ n < A, 0 ≤ w n)
    (h : ∀ n < A, ∀ i ≤ N, psi n i ≤ psi' n i) {i : ℕ} (hi : i < N) :
    scalarCenter A w psi i ≤ scalarCenter A w psi' i := by
  unfold scalarCenter
  refine sum_le_sum fun n hn => mul_le_mul_of_nonneg_left ?_ (hw n (mem_range.mp hn))
  have := h n (mem_range.mp hn) i hi.le
  have := h n (mem_range.mp hn) (i + 1) hi
  linarith

/-- The two directions of a comparison. -/
inductive Direction (K : Type) [LE K] : (K → K → Prop) → Prop
  | below : Direction K (fun a b => a ≤ b)
  | above : Direction K (fun a b => b ≤ a)

theorem Direction.add {R : K → K → Prop} (h : Direction K R) {a b c d : K} (h1 : R a b) (h2 : R c d) :
    R (a + c) (b + d) := by
  cases h
  · exact add_le_add h1 h2
  · exact add_le_add h1 h2

theorem Direction.refl {R : K → K → Prop} (h : Direction K R) (a : K) : R a a := by
  cases h <;> exact le_refl a

theorem Direction.sum {R : K → K → Prop} (h : Direction K R) {s : Finset ℕ} {f f' : ℕ → K}
    (hf : ∀ i ∈ s, R (f i) (f' i)) : R (∑ i ∈ s, f i) (∑ i ∈ s, f' i) := by
  cases h
  · exact sum_le_sum hf
  · exact sum_le_sum hf

theorem Direction.swept {R : K → K → Prop} (hR : Direction K R) {N A : ℕ} {mu : ℕ → K} {dx sigma w : ℕ → K}
    {q q' psi psi' : ℕ → ℕ → K}
    {bcL bcR : Bool} {bL bR bL' bR' : ℕ → K} (hne : ∀ n < A, mu n ≠ 0) (hphys : Physical N dx sigma)
    (hfine : ∀ n < A, FineFor N (mu n) dx sigma) (hw : ∀ n < A, 0 ≤ w n)
    (h : AllBalanced N A mu dx sigma q psi) (h' : AllBalanced N A mu dx sigma q' psi')
    (hin : SweptInflow N A mu bcL bcR bL bR psi) (hin' : SweptInflow N A mu bcL bcR bL' bR' psi')
    (hq : ∀ n < A, ∀ i < N, R (q n i) (q' n i)) (hbL : ∀ n < A, 0 < mu n → R (bL n) (bL' n))
    (hbR : ∀ n < A, mu n < 0 → R (bR n) (bR' n)) {i : ℕ} (hi : i < N) :
    R (scalarCenter A w psi i) (scalarCenter A w psi' i) := by
  cases hR
  · exact scalarCenter_mono hw (swept_mono hne hphys hfine h h' hin hin' hq hbL hbR) hi
  · exact scalarCenter_mono hw (swept_mono hne hphys hfine h' h hin' hin hq hbL hbR) hi

/-- One group of one outer sweep keeps the comparison with an exact solution. -/
theorem groupStep_cmp {R : K → K → Prop} (hR : Direction K R) (p : Problem K) (xsTotal : ℕ → ℕ → K)
    (xs xs' : ℕ → ℕ → ℕ → K) (ext ext' bnd bnd' : Arr3 K) (phi : ℕ → ℕ → K) (psi : ℕ → ℕ → ℕ → K)
    (hsol : SolvesMultigroup p xsTotal xs' ext' bnd' phi psi)
    (g : ℕ) (hg : g < p.groups) (hok : SlabOk p xsTotal g)
    (hfine : ∀ n < p.angles, FineFor p.cells (p.angleX n) p.dx (fun i => xsTotal (p.mm i) g))
    (hw : ∀ n < p.angles, 0 ≤ p.angleW n)
    (hxs : ∀ i < p.cells, ∀ g' < p.groups, ∀ v, R v (phi i g') →
      R (xs (p.mm i) g g' * v) (xs' (p.mm i) g g' * phi i g'))
    (hext : ∀ i < p.cells, ∀ n < p.angles, R (ext.val i (bidx ext.angles n) (bidx ext.groups g))
      (ext'.val i (bidx ext'.angles n) (bidx ext'.groups g)))
    (hbL : ∀ n < p.angles, 0 < p.angleX n → R (bnd.val 0 (bidx bnd.angles n) (bidx bnd.groups g))
      (bnd'.val 0 (bidx bnd'.angles n) (bidx bnd'.groups g)))
    (hbR : ∀ n < p.angles, p.angleX n < 0 → R (bnd.val 1 (bidx bnd.angles n) (bidx bnd.groups g))
      (bnd'.val 1 (bidx bnd'.angles n) (bidx bnd'.groups g)))
    (old flux : ℕ → ℕ → K) (hold : ∀ i < p.cells, ∀ g' < p.groups, R (old i g') (phi i g'))
    (hflux : ∀ i < p.cells, ∀ g' < g, R (flux i g') (phi i g')) :
    ∃ new, groupStepIso p xsTotal xs ext bnd old g flux = .ok new ∧
      (∀ i g', g' ≠ g → new i g' = flux i g') ∧ ∀ i < p.cells, R (new i g) (phi i g) := by
  obtain ⟨x, s, hs1, hs2, hx0, hstep, he, _, _⟩ := C18_within_group_stops (N := p.cells)
    (A := p.angles) p.convIn (fun m => xsTotal m g) (fun m => xs m g g)
    (offScatter p.groups flux old p.mm xs g) (ext.group (bidx ext.groups g))
    (bnd.group (bidx bnd.groups g)) p.mm p.dx p.angleX p.angleW p.bcL p.bcR false
    (fun i => old i g) hok.nonzero hok.phys
  have key : ∀ j ≤ s, ∀ i < p.cells, R (x j i) (phi i g) := by
    intro j
    induction j with
    | zero => intro _ i hi; rw [hx0]; exact hold i hi g hg
    | succ j ih =>
      intro hj i hi
      obtain ⟨f, e, h1, h2, h3, h4⟩ := isotropicSweep_spec (N := p.cells) (A := p.angles)
        (fun m => xsTotal m g) (fun m => xs m g g)
        (offScatter p.groups flux old p.mm xs g) (ext.group (bidx ext.groups g))
        (bnd.group (bidx bnd.groups g)) p.mm p.dx p.angleX p.angleW p.bcL p.bcR false
        (x j) hok.nonzero hok.phys
      have hf : f = x (j + 1) := by
        have := hstep j (by omega)
        rw [h1] at this
        exact Except.ok.inj this
      subst hf
      rw [h4 i]
      simp only [Bool.false_eq_true, if_false, if_pos hi]
      rw [hsol.scalar g hg i hi]
      refine hR.swept hok.nonzero hok.phys hfine hw h2 (hsol.balance g hg) h3 (hsol.inflow g hg)
        (fun n hn i hi => ?_) hbL hbR hi
      rw [offScatter_eq _ _ _ _ _ hg, ← add_sum_erase _ _ (mem_range.mpr hg), add_right_comm]
      refine hR.add (hR.add (hxs i hi g hg _ (ih (by omega) i hi)) (hR.sum fun og hog => ?_)) (hext i hi n hn)
      have hog' := mem_range.mp (mem_of_mem_erase hog)
      refine hxs i hi og hog' _ ?_
      split
      · next h => exact hflux i hi og h
      · exact hold i hi og hog'
  refine ⟨putCol flux g (x s), ?_, fun i g' hg' => by simp [putCol, hg'], fun i hi => ?_⟩
  · unfold groupStepIso
    simp only [hok.slab, if_true]
    rw [he]; rfl
  · have := key s le_rfl i hi
    simpa [putCol] using this

/-- A whole run keeps the comparison with an exact solution. -/
theorem sourceIteration_cmp {R : K → K → Prop} (hR : Direction K R) (p : Problem K) (xsTotal : ℕ → ℕ → K)
    (xs xs' : ℕ → ℕ → ℕ → K) (ext ext' bnd bnd' : Arr3 K) (phi : ℕ → ℕ → K) (psi : ℕ → ℕ → ℕ → K)
    (hsol : SolvesMultigroup p xsTotal xs' ext' bnd' phi psi)
    (hok : ∀ g < p.groups, SlabOk p xsTotal g)
    (hfine : ∀ g < p.groups, ∀ n < p.angles, FineFor p.cells (p.angleX n) p.dx (fun i => xsTotal (p.mm i) g))
    (hw : ∀ n < p.angles, 0 ≤ p.angleW n)
    (hxs : ∀ i < p.cells, ∀ g < p.groups, ∀ g' < p.groups, ∀ v, R v (phi i g') →
      R (xs (p.mm i) g g' * v) (xs' (p.mm i) g g' * phi i g'))
    (hext : ∀ i < p.cells, ∀ n < p.angles, ∀ g < p.groups,
      R (ext.val i (bidx ext.angles n) (bidx ext.groups g)) (ext'.val i (bidx ext'.angles n) (bidx ext'.groups g)))
    (hbL : ∀ n < p.angles, ∀ g < p.groups, 0 < p.angleX n →
      R (bnd.val 0 (bidx bnd.angles n) (bidx bnd.groups g)) (bnd'.val 0 (bidx bnd'.angles n) (bidx bnd'.groups g)))
    (hbR : ∀ n < p.angles, ∀ g < p.groups, p.angleX n < 0 →
      R (bnd.val 1 (bidx bnd.angles n) (bidx bnd.groups g)) (bnd'.val 1 (bidx bnd'.angles n) (bidx bnd'.groups g)))
    (guess : ℕ → ℕ → K) (hguess : ∀ i < p.cells, ∀ g < p.groups, R (guess i g) (phi i g)) :
    ∃ out, sourceIteration p xsTotal (.iso xs) ext bnd guess = .ok out ∧
      ∀ i < p.cells, ∀ g < p.groups, R (out i g) (phi i g) := by
  obtain ⟨x, k, _, _, _, hP, he, _⟩ := iterateE_spec (oneSweepIso p xsTotal xs ext bnd)
    p.convOut (fun f => ∀ i < p.cells, ∀ g < p.groups, R (f i g) (phi i g)) (fun old hold => by
      obtain ⟨f, h1, h2⟩ := loopE_inv (fun k (f : ℕ → ℕ → K) => ∀ i < p.cells, ∀ g < k, R (f i g) (phi i g))
        p.groups (groupStepIso p xsTotal xs ext bnd old) (fun _ _ => 0)
        (fun _ _ _ h => absurd h (Nat.not_lt_zero _)) (fun g hg f hf => by
          obtain ⟨new, k1, k2, k3⟩ := groupStep_cmp hR p xsTotal xs xs' ext ext' bnd bnd' phi psi hsol g hg
            (hok g hg) (hfine g hg) hw (fun i hi => hxs i hi g hg) (fun i hi n hn => hext i hi n hn g hg)
            (fun n hn => hbL n hn g hg) (fun n hn => hbR n hn g hg) old f hold hf
          refine ⟨new, k1, fun i hi g' hg' => ?_⟩
          by_cases h : g' = g
          · rw [h]; exact k3 i hi
          · rw [k2 i g' h]; exact hf i hi g' (by omega))
      exact ⟨f, h1, h2⟩) 99 guess hguess
  exact ⟨x (k + 1), he, hP _ (le_refl _)⟩

/-! ## C115 -/

/-- The first problem has no more scattering, source and incoming flux than the second, anywhere. -/
structure AtMost (p : Problem K) (xs xs' : ℕ → ℕ → ℕ → K) (ext ext' bnd bnd' : Arr3 K) : Prop where
  scatter : ∀ i < p.cells, ∀ g < p.groups, ∀ g' < p.groups, xs (p.mm i) g g' ≤ xs' (p.mm i) g g'
  source : ∀ i < p.cells, ∀ n < p.angles, ∀ g < p.groups, sourceAt ext i n g ≤ sourceAt ext' i n g
  left : ∀ n < p.angles, ∀ g < p.groups, 0 < p.angleX n → sourceAt bnd 0 n g ≤ sourceAt bnd' 0 n g
  right : ∀ n < p.angles, ∀ g < p.groups, p.angleX n < 0 → sourceAt bnd 1 n g ≤ sourceAt bnd' 1 n g

theorem AtMost.refl (p : Problem K) (xs : ℕ → ℕ → ℕ → K) (ext bnd : Arr3 K) : AtMost p xs xs ext ext bnd bnd :=
  ⟨fun _ _ _ _ _ _ => le_rfl, fun _ _ _ _ _ _ => le_rfl, fun _ _ _ _ _ => le_rfl, fun _ _ _ _ _ => le_rfl⟩

/-- C115: source iteration started below an exact solution `phi ≥ 0` of a problem with at least as much
scattering, source and incoming flux never returns more than `phi` - whatever the convergence tests do, i.e.
after any number of inner and outer iterations. -/
theorem C115_from_below (p : Problem K) (xsTotal : ℕ → ℕ → K) (xs xs' : ℕ → ℕ → ℕ → K)
    (ext ext' bnd bnd' : Arr3 K) (phi : ℕ → ℕ → K) (psi : ℕ → ℕ → ℕ → K) (guess : ℕ → ℕ → K)
    (ht : Tame p xsTotal xs) (hle : AtMost p xs xs' ext ext' bnd bnd')
    (hsol : SolvesMultigroup p xsTotal xs' ext' bnd' phi psi)
    (hpos : ∀ i < p.cells, ∀ g < p.groups, 0 ≤ phi i g)
    (hguess : ∀ i < p.cells, ∀ g < p.groups, guess i g ≤ phi i g) :
    ∃ out, sourceIteration p xsTotal (.iso xs) ext bnd guess = .ok out ∧
      ∀ i < p.cells, ∀ g < p.groups, out i g ≤ phi i g :=
  sourceIteration_cmp .below p xsTotal xs xs' ext ext' bnd bnd' phi psi hsol ht.ok ht.fine ht.weights
    (fun i hi g hg g' hg' v hv => (mul_le_mul_of_nonneg_left hv (ht.nonneg i hi g hg g' hg')).trans
      (mul_le_mul_of_nonneg_right (hle.scatter i hi g hg g' hg') (hpos i hi g' hg')))
    hle.source hle.left hle.right guess hguess

/-- C115: and started above an exact solution `phi ≥ 0` of a problem with at most as much of everything, it
never returns less than `phi`. -/
theorem C115_from_above (p : Problem K) (xsTotal : ℕ → ℕ → K) (xs xs' : ℕ → ℕ → ℕ → K)
    (ext ext' bnd bnd' : Arr3 K) (phi : ℕ → ℕ → K) (psi : ℕ → ℕ → ℕ → K) (guess : ℕ → ℕ → K)
    (ht : Tame p xsTotal xs) (hle : AtMost p xs' xs ext' ext bnd' bnd)
    (hsol : SolvesMultigroup p xsTotal xs' ext' bnd' phi psi)
    (hpos : ∀ i < p.cells, ∀ g < p.groups, 0 ≤ phi i g)
    (hguess : ∀ i < p.cells, ∀ g < p.groups, phi i g ≤ guess i g) :
    ∃ out, sourceIteration p xsTotal (.iso xs) ext bnd guess = .ok out ∧
      ∀ i < p.cells, ∀ g < p.groups, phi i g ≤ out i g :=
  sourceIteration_cmp .above p xsTotal xs xs' ext ext' bnd bnd' phi psi hsol ht.ok ht.fine ht.weights
    (fun i hi g hg g' hg' v hv =>
      (mul_le_mul_of_nonneg_right (hle.scatter i hi g hg g' hg') (hpos i hi g' hg')).trans
        (mul_le_mul_of_nonneg_left hv (ht.nonneg i hi g hg g' hg')))
    hle.source hle.left hle.right guess hguess

/-! ## C116 -/

/-- C116: on a contractive problem the exact solution is monotone in the data: more scattering (or fission),
more source, more incoming flux never lower the scalar flux in any cell and group, nor the angular flux at any
edge. -/
theorem C116_more_data_more_flux (p : Problem K) (xsTotal : ℕ → ℕ → K) (xs xs' : ℕ → ℕ → ℕ → K)
    (ext ext' bnd bnd' : Arr3 K) (c : K) (hc1 : c < 1) (phi phi' : ℕ → ℕ → K)
    (psi psi' : ℕ → ℕ → ℕ → K) (hcon : Contractive p xsTotal xs c) (hle : AtMost p xs xs' ext ext' bnd bnd')
    (hsol : SolvesMultigroup p xsTotal xs ext bnd phi psi)
    (hsol' : SolvesMultigroup p xsTotal xs' ext' bnd' phi' psi')
    (hpos : ∀ i < p.cells, ∀ g < p.groups, 0 ≤ phi' i g) :
    (∀ i < p.cells, ∀ g < p.groups, phi i g ≤ phi' i g) ∧
    ∀ g < p.groups, ∀ n < p.angles, ∀ i ≤ p.cells, psi g n i ≤ psi' g n i := by
  have hphi : ∀ i < p.cells, ∀ g < p.groups, phi i g ≤ phi' i g := by
    intro i hi g hg
    obtain ⟨m, hm, hmax⟩ := (range p.cells ×ˢ range p.groups).exists_max_image
      (fun a => phi a.1 a.2 - phi' a.1 a.2) ⟨(i, g), by simp [hi, hg]⟩
    set M := phi m.1 m.2 - phi' m.1 m.2 with hM
    have hb : ∀ i < p.cells, ∀ g < p.groups, phi i g - phi' i g ≤ M := fun i hi g hg =>
      hmax (i, g) (by simp [hi, hg])
    have hm' := mem_product.mp hm
    have hm1 := mem_range.mp hm'.1
    have hm2 := mem_range.mp hm'.2
    rcases le_or_gt M 0 with h0 | h0
    · exact sub_nonpos.mp ((hb i hi g hg).trans h0)
    exfalso
    -- the constant flux `c M` dominates the difference
    have hcomp : ∀ n < p.angles, ∀ i ≤ p.cells, psi m.2 n i - psi' m.2 n i ≤ max (c * M) 0 := by
      refine swept_mono (psi := fun n i => psi m.2 n i - psi' m.2 n i)
        (psi' := fun _ _ => max (c * M) 0)
        (q' := fun _ i => xsTotal (p.mm i) m.2 * max (c * M) 0)
        (bcL := p.bcL) (bcR := p.bcR)
        (bL' := fun n => max (c * M) 0 - (if p.angles - 1 - n < n ∧
          leavesReflecting p.bcL p.bcR (p.angleX (p.angles - 1 - n)) then max (c * M) 0 else 0))
        (bR' := fun n => max (c * M) 0 - (if p.angles - 1 - n < n ∧
          leavesReflecting p.bcL p.bcR (p.angleX (p.angles - 1 - n)) then max (c * M) 0 else 0))
        (hcon.ok m.2 hm2).nonzero (hcon.ok m.2 hm2).phys (hcon.fine m.2 hm2)
        (fun n hn i hi => ?_) (fun n hn i hi => ?_) (fun n hn => ?_) (fun n hn => ?_)
        (q := fun n i => ((∑ og ∈ range p.groups, xs (p.mm i) m.2 og * phi i og)
            + ext.val i (bidx ext.angles n) (bidx ext.groups m.2))
          - ((∑ og ∈ range p.groups, xs' (p.mm i) m.2 og * phi' i og)
            + ext'.val i (bidx ext'.angles n) (bidx ext'.groups m.2)))
        (bL := fun n => bnd.val 0 (bidx bnd.angles n) (bidx bnd.groups m.2)
          - bnd'.val 0 (bidx bnd'.angles n) (bidx bnd'.groups m.2))
        (bR := fun n => bnd.val 1 (bidx bnd.angles n) (bidx bnd.groups m.2)
          - bnd'.val 1 (bidx bnd'.angles n) (bidx bnd'.groups m.2))
        (fun n hn i hi => ?_) (fun n hn hp => ?_) (fun n hn hp => ?_)
      · have a := hsol.balance m.2 hm2 n hn i hi
        have b := hsol'.balance m.2 hm2 n hn i hi
        simp only at a b ⊢
        linear_combination a - b
      · simp only; ring
      · have a := hsol.inflow m.2 hm2 n hn
        have b := hsol'.inflow m.2 hm2 n hn
        simp only [inflow, outflow] at a b ⊢
        split_ifs at a b ⊢ <;> linear_combination a - b
      · simp only [inflow, outflow]
        split_ifs <;> ring
      · have h1 : ∑ og ∈ range p.groups, xs (p.mm i) m.2 og * phi i og
            - ∑ og ∈ range p.groups, xs' (p.mm i) m.2 og * phi' i og
            ≤ (∑ og ∈ range p.groups, xs (p.mm i) m.2 og) * M := by
          rw [← sum_sub_distrib, sum_mul]
          refine sum_le_sum fun og hog => ?_
          have hog := mem_range.mp hog
          have h2 := mul_le_mul_of_nonneg_left (hb i hi og hog) (hcon.nonneg i hi m.2 hm2 og hog)
          have h3 := mul_le_mul_of_nonneg_right (hle.scatter i hi m.2 hm2 og hog) (hpos i hi og hog)
          nlinarith
        have h2 := mul_le_mul_of_nonneg_right (hcon.rows i hi m.2 hm2) h0.le
        have h3 : ext.val i (bidx ext.angles n) (bidx ext.groups m.2)
            ≤ ext'.val i (bidx ext'.angles n) (bidx ext'.groups m.2) := hle.source i hi n hn m.2 hm2
        have h4 := mul_le_mul_of_nonneg_left (le_max_left (c * M) 0) ((hcon.ok m.2 hm2).phys i hi).2
        simp only at h4
        nlinarith
      · have h1 : bnd.val 0 (bidx bnd.angles n) (bidx bnd.groups m.2)
            ≤ bnd'.val 0 (bidx bnd'.angles n) (bidx bnd'.groups m.2) := hle.left n hn m.2 hm2 hp
        have h2 : 0 ≤ max (c * M) 0 := le_max_right _ _
        split_ifs <;> linarith
      · have h1 : bnd.val 1 (bidx bnd.angles n) (bidx bnd.groups m.2)
            ≤ bnd'.val 1 (bidx bnd'.angles n) (bidx bnd'.groups m.2) := hle.right n hn m.2 hm2 hp
        have h2 : 0 ≤ max (c * M) 0 := le_max_right _ _
        split_ifs <;> linarith
    have hfin : M ≤ max (c * M) 0 := by
      generalize max (c * M) 0 = B at hcomp ⊢
      rw [hM, hsol.scalar m.2 hm2 m.1 hm1, hsol'.scalar m.2 hm2 m.1 hm1]
      unfold scalarCenter
      rw [← sum_sub_distrib, ← one_mul B, ← hcon.norm, sum_mul]
      refine sum_le_sum fun n hn => ?_
      have hn := mem_range.mp hn
      rw [← mul_sub]
      refine mul_le_mul_of_nonneg_left ?_ (hcon.weights n hn)
      have a := hcomp n hn m.1 hm1.le
      have b := hcomp n hn (m.1 + 1) hm1
      linarith
    rcases le_max_iff.mp hfin with h | h
    · nlinarith
    · linarith
  refine ⟨hphi, fun g hg => ?_⟩
  refine swept_mono (hcon.ok g hg).nonzero (hcon.ok g hg).phys (hcon.fine g hg) (hsol.balance g hg)
    (hsol'.balance g hg) (hsol.inflow g hg) (hsol'.inflow g hg) (fun n hn i hi => ?_)
    (fun n hn => hle.left n hn g hg) (fun n hn => hle.right n hn g hg)
  refine add_le_add (sum_le_sum fun og hog => ?_) (hle.source i hi n hn g hg)
  have hog := mem_range.mp hog
  exact (mul_le_mul_of_nonneg_left (hphi i hi og hog) (hcon.nonneg i hi g hg og hog)).trans
    (mul_le_mul_of_nonneg_right (hle.scatter i hi g hg og hog) (hpos i hi og hog))

/-- C116: hence exact solutions of contractive problems with non-negative data are non-negative. -/
theorem C116_exact_nonneg (p : Problem K) (xsTotal : ℕ → ℕ → K) (xs : ℕ → ℕ → ℕ → K) (ext bnd : Arr3 K)
    (c : K) (hc1 : c < 1) (phi : ℕ → ℕ → K) (psi : ℕ → ℕ → ℕ → K) (hcon : Contractive p xsTotal xs c)
    (hext : ∀ i < p.cells, ∀ n < p.angles, ∀ g < p.groups, 0 ≤ sourceAt ext i n g)
    (hL : ∀ n < p.angles, ∀ g < p.groups, 0 < p.angleX n → 0 ≤ sourceAt bnd 0 n g)
    (hR : ∀ n < p.angles, ∀ g < p.groups, p.angleX n < 0 → 0 ≤ sourceAt bnd 1 n g)
    (hsol : SolvesMultigroup p xsTotal xs ext bnd phi psi) :
    (∀ i < p.cells, ∀ g < p.groups, 0 ≤ phi i g) ∧
    ∀ g < p.groups, ∀ n < p.angles, ∀ i ≤ p.cells, 0 ≤ psi g n i := by
  -- minus the solution solves the problem with minus the data, the zero flux the problem without data
  have hneg : SolvesMultigroup p xsTotal xs ⟨p.angles, p.groups, fun i n g => -sourceAt ext i n g⟩
      ⟨p.angles, p.groups, fun i n g => -sourceAt bnd i n g⟩ (fun i g => -phi i g)
      (fun g n i => -psi g n i) := by
    refine ⟨fun g hg i hi => ?_, fun g hg n hn i hi => ?_, fun g hg n hn => ?_⟩
    · rw [hsol.scalar g hg i hi]
      unfold scalarCenter
      rw [← sum_neg_distrib]
      exact sum_congr rfl fun n _ => by ring
    · have h := hsol.balance g hg n hn i hi
      simp only [mul_neg, sum_neg_distrib, bidx_full _ _ hn, bidx_full _ _ hg] at h ⊢
      have : ext.val i (bidx ext.angles n) (bidx ext.groups g) = sourceAt ext i n g := rfl
      rw [this] at h
      linear_combination -h
    · have h := hsol.inflow g hg n hn
      have e0 : bnd.val 0 (bidx bnd.angles n) (bidx bnd.groups g) = sourceAt bnd 0 n g := rfl
      have e1 : bnd.val 1 (bidx bnd.angles n) (bidx bnd.groups g) = sourceAt bnd 1 n g := rfl
      simp only [inflow, outflow, bidx_full _ _ hn, bidx_full _ _ hg, e0, e1] at h ⊢
      split_ifs at h ⊢ <;> linear_combination -h
  have hzero : SolvesMultigroup p xsTotal xs ⟨1, 1, fun _ _ _ => 0⟩ ⟨1, 1, fun _ _ _ => 0⟩ (fun _ _ => 0)
      (fun _ _ _ => 0) := by
    refine ⟨fun g hg i hi => by simp [scalarCenter], fun g hg n hn i hi => by simp, fun g hg n hn => ?_⟩
    simp [inflow, outflow]
  have := C116_more_data_more_flux p xsTotal xs xs _ _ _ _ c hc1 _ _ _ _ hcon
    ⟨fun _ _ _ _ _ _ => le_rfl, fun i hi n hn g hg => by
      rw [sourceAt_full _ hn hg]
      have := hext i hi n hn g hg
      simpa [sourceAt] using this, fun n hn g hg hp => by
      rw [sourceAt_full _ hn hg]
      have := hL n hn g hg hp
      simpa [sourceAt] using this, fun n hn g hg hp => by
      rw [sourceAt_full _ hn hg]
      have := hR n hn g hg hp
      simpa [sourceAt] using this⟩ hneg hzero (fun _ _ _ _ => le_rfl)
  exact ⟨fun i hi g hg => neg_nonpos.mp (this.1 i hi g hg), fun g hg n hn i hi =>
    neg_nonpos.mp (this.2 g hg n hn i hi)⟩

/-- C115 for `fixed1d.source_iteration`, which starts from zero: with non-negative data on a contractive
problem all four outputs lie between zero and the exact solution (`phi`, `psi`), however early the
iteration stops. -/
theorem C115_fixed_from_below (p : Problem K) (xsTotal : ℕ → ℕ → K) (scatter : ℕ → ℕ → ℕ → K)
    (fission : Fission K) (ext bnd : Arr3 K) (c : K) (hc1 : c < 1) (phi : ℕ → ℕ → K)
    (psi : ℕ → ℕ → ℕ → K) (hA : 1 < p.angles) (hG : 0 < p.groups)
    (hcon : Contractive p xsTotal (fun m g g' => scatter m g g' + fissionMatrix fission m g g') c)
    (hext : ∀ i < p.cells, ∀ n < p.angles, ∀ g < p.groups, 0 ≤ sourceAt ext i n g)
    (hL : ∀ n < p.angles, ∀ g < p.groups, 0 < p.angleX n → 0 ≤ sourceAt bnd 0 n g)
    (hR : ∀ n < p.angles, ∀ g < p.groups, p.angleX n < 0 → 0 ≤ sourceAt bnd 1 n g)
    (hsol : SolvesMultigroup p xsTotal (fun m g g' => scatter m g g' + fissionMatrix fission m g g') ext bnd
      phi psi) :
    ∃ (out outE : ℕ → ℕ → K) (ang angE : ℕ → ℕ → ℕ → K),
      fixedSourceIteration p xsTotal (.iso scatter) fission ext bnd false false = .ok (.scalar out) ∧
      fixedSourceIteration p xsTotal (.iso scatter) fission ext bnd false true = .ok (.scalar outE) ∧
      fixedSourceIteration p xsTotal (.iso scatter) fission ext bnd true false = .ok (.angular ang) ∧
      fixedSourceIteration p xsTotal (.iso scatter) fission ext bnd true true = .ok (.angular angE) ∧
      ∀ g < p.groups,
        (∀ i < p.cells, 0 ≤ out i g ∧ out i g ≤ phi i g) ∧
        (∀ i ≤ p.cells, 0 ≤ outE i g ∧ outE i g ≤ ∑ n ∈ range p.angles, p.angleW n * psi g n i) ∧
        (∀ n < p.angles, ∀ i < p.cells, 0 ≤ ang i n g ∧ ang i n g ≤ (psi g n i + psi g n (i + 1)) / 2) ∧
        ∀ n < p.angles, ∀ i ≤ p.cells, 0 ≤ angE i n g ∧ angE i n g ≤ psi g n i := by
  set xs : ℕ → ℕ → ℕ → K := fun m g g' => scatter m g g' + fissionMatrix fission m g g' with hxs
  obtain ⟨hphi0, _⟩ := C116_exact_nonneg p xsTotal xs ext bnd c hc1 phi psi hcon hext hL hR hsol
  obtain ⟨out, outE, ang, angE, e, h1, h2, h3, h4, he, h5, h6, h7, _⟩ := C94_outputs_agree p xsTotal scatter
    fission ext bnd hcon.ok hA hG
  have ht : Tame p xsTotal xs := ⟨hcon.ok, hcon.fine, hcon.weights, hcon.norm, hcon.nonneg⟩
  have hrun : ∀ o, sourceIteration p xsTotal (.iso xs) ext bnd (fun _ _ => 0) = .ok o → o = out := by
    intro o ho
    unfold fixedSourceIteration at h1
    rw [transfer_iso] at h1
    simp only [and_self, if_true] at h1
    rw [ho] at h1
    simp only at h1
    injection h1 with h1; injection h1
  obtain ⟨o, k1, k2⟩ := C115_from_below p xsTotal xs xs ext ext bnd bnd phi psi (fun _ _ => 0) ht
    (AtMost.refl p xs ext bnd) hsol hphi0 hphi0
  obtain ⟨o', k3, k4⟩ := C16_source_iteration_nonneg p xsTotal xs ext bnd (fun _ _ => 0) ht.ok
    (ht.ok 0 hG).slab ht.fine (fun g hg => ⟨ht.weights, fun n hn i hi => hext i hi n hn g hg,
      fun n hn hp => hL n hn g hg hp, fun n hn hp => hR n hn g hg hp⟩) ht.nonneg (fun _ _ _ _ => le_rfl)
  have ho := hrun o k1
  have ho' := hrun o' k3
  subst ho ho'
  have hedge : ∀ g < p.groups, ∀ n < p.angles, ∀ i ≤ p.cells, 0 ≤ e g n i ∧ e g n i ≤ psi g n i := by
    intro g hg n hn i hi
    constructor
    · refine swept_nonneg (ht.ok g hg).nonzero (ht.ok g hg).phys (ht.fine g hg) (he g hg).1 (he g hg).2
        (fun n hn i hi => add_nonneg (sum_nonneg fun g' hg' => ?_) (hext i hi n hn g hg))
        (fun n hn hp => hL n hn g hg hp) (fun n hn hp => hR n hn g hg hp) n hn i hi
      have hg' := mem_range.mp hg'
      exact mul_nonneg (ht.nonneg i hi g hg g' hg') (k4 i hi g' hg')
    · refine swept_mono (ht.ok g hg).nonzero (ht.ok g hg).phys (ht.fine g hg) (he g hg).1
        (hsol.balance g hg) (he g hg).2 (hsol.inflow g hg)
        (fun n hn i hi => add_le_add (sum_le_sum fun g' hg' => ?_) (le_refl (sourceAt ext i n g)))
        (fun n hn hp => le_refl (sourceAt bnd 0 n g)) (fun n hn hp => le_refl (sourceAt bnd 1 n g)) n hn i hi
      have hg' := mem_range.mp hg'
      exact mul_le_mul_of_nonneg_left (k2 i hi g' hg') (ht.nonneg i hi g hg g' hg')
  refine ⟨o', outE, ang, angE, h1, h2, h3, h4, fun g hg => ⟨fun i hi => ⟨k4 i hi g hg, k2 i hi g hg⟩,
    fun i hi => ?_, fun n hn i hi => ?_, fun n hn i hi => ?_⟩⟩
  · rw [h7 g hg i hi]
    constructor
    · refine sum_nonneg fun n hn => mul_nonneg (ht.weights n (mem_range.mp hn)) ?_
      rw [h5 g hg n (mem_range.mp hn) i hi]
      exact (hedge g hg n (mem_range.mp hn) i hi).1
    · refine sum_le_sum fun n hn => mul_le_mul_of_nonneg_left ?_ (ht.weights n (mem_range.mp hn))
      rw [h5 g hg n (mem_range.mp hn) i hi]
      exact (hedge g hg n (mem_range.mp hn) i hi).2
  · rw [h6 g hg n hn i hi, h5 g hg n hn i hi.le, h5 g hg n hn (i + 1) hi]
    have a := hedge g hg n hn i hi.le
    have b := hedge g hg n hn (i + 1) hi
    constructor <;> linarith [a.1, a.2, b.1, b.2]
  · rw [h5 g hg n hn i hi]
    exact hedge g hg n hn i hi

/-- C116 for runs: on down-scatter problems, where source iteration returns the exact solution (C22), two runs
compare like their data. -/
theorem C116_runs (p : Problem K) (xsTotal : ℕ → ℕ → K) (xs xs' : ℕ → ℕ → ℕ → K)
    (ext ext' bnd bnd' : Arr3 K) (guess guess' : ℕ → ℕ → K) (c : K) (hc1 : c < 1)
    (hcon : Contractive p xsTotal xs c) (hcon' : Contractive p xsTotal xs' c)
    (hle : AtMost p xs xs' ext ext' bnd bnd')
    (hext : ∀ i < p.cells, ∀ n < p.angles, ∀ g < p.groups, 0 ≤ sourceAt ext' i n g)
    (hL : ∀ n < p.angles, ∀ g < p.groups, 0 < p.angleX n → 0 ≤ sourceAt bnd' 0 n g)
    (hR : ∀ n < p.angles, ∀ g < p.groups, p.angleX n < 0 → 0 ≤ sourceAt bnd' 1 n g)
    (hdown : ∀ m g g', g ≤ g' → xs m g g' = 0) (hdown' : ∀ m g g', g ≤ g' → xs' m g g' = 0) :
    ∃ out out', sourceIteration p xsTotal (.iso xs) ext bnd guess = .ok out ∧
      sourceIteration p xsTotal (.iso xs') ext' bnd' guess' = .ok out' ∧
      ∀ i < p.cells, ∀ g < p.groups, out i g ≤ out' i g := by
  obtain ⟨out, psi, h1, h2⟩ := C22_downscatter_exact p xsTotal xs ext bnd guess hcon.ok hdown
  obtain ⟨out', psi', h3, h4⟩ := C22_downscatter_exact p xsTotal xs' ext' bnd' guess' hcon'.ok hdown'
  exact ⟨out, out', h1, h3, (C116_more_data_more_flux p xsTotal xs xs' ext ext' bnd bnd' c hc1 out out' psi psi'
    hcon hle h2 h4 (C116_exact_nonneg p xsTotal xs' ext' bnd' c hc1 out' psi' hcon' hext hL hR h4).1).1⟩

/-! ### Examples -/

theorem exContractive : Contractive exFine exTotal (fun m g _ => exTotal m g / 4) (1 / 2) where
  ok := fun g _ => exFineOk g
  fine := fun g hg n hn => exFineFor g hg n hn
  weights := fun n _ => by show (0 : ℚ) ≤ 1 / 4; norm_num
  norm := by show ∑ n ∈ range 4, (1 / 4 : ℚ) = 1; norm_num
  nonneg := fun i _ g _ g' _ => by
    have := ((exFineOk g).phys i (by assumption)).2
    positivity
  rows := fun i _ g _ => by
    show ∑ g' ∈ range 2, _ ≤ _
    rw [sum_range_succ, sum_range_one]
    linarith

/-- An exact solution exists and source iteration from zero stays below it, all four outputs. -/
example : ∃ phi psi out angE,
    SolvesMultigroup exFine exTotal (fun m g _ => exTotal m g / 4) ⟨1, 1, fun i _ _ => (i : ℚ)⟩
      ⟨1, 1, fun _ _ _ => 1⟩ phi psi ∧
    fixedSourceIteration exFine exTotal (.iso fun m g _ => exTotal m g / 4) (.matrix fun _ _ _ => 0)
      ⟨1, 1, fun i _ _ => (i : ℚ)⟩ ⟨1, 1, fun _ _ _ => 1⟩ false false = .ok (.scalar out) ∧
    fixedSourceIteration exFine exTotal (.iso fun m g _ => exTotal m g / 4) (.matrix fun _ _ _ => 0)
      ⟨1, 1, fun i _ _ => (i : ℚ)⟩ ⟨1, 1, fun _ _ _ => 1⟩ true true = .ok (.angular angE) ∧
    out 2 1 ≤ phi 2 1 ∧ angE 3 2 0 ≤ psi 0 2 3 := by
  have hx : (fun m g g' => (fun m g (_ : ℕ) => exTotal m g / 4) m g g'
      + fissionMatrix (.matrix fun _ _ _ => 0) m g g') = fun m g _ => exTotal m g / 4 := by
    funext m g g'; simp [fissionMatrix]
  obtain ⟨phi, psi, hsol⟩ := C74_exists exFine exTotal (fun m g _ => exTotal m g / 4)
    ⟨1, 1, fun i _ _ => (i : ℚ)⟩ ⟨1, 1, fun _ _ _ => 1⟩ (1 / 2) (by norm_num) (by norm_num) exContractive
  obtain ⟨out, _, _, angE, h1, _, _, h4, h5⟩ := C115_fixed_from_below exFine exTotal
    (fun m g _ => exTotal m g / 4) (.matrix fun _ _ _ => 0) ⟨1, 1, fun i _ _ => (i : ℚ)⟩
    ⟨1, 1, fun _ _ _ => 1⟩ (1 / 2) (by norm_num) phi psi (by show 1 < 4; omega) (by show 0 < 2; omega)
    (by rw [hx]; exact exContractive) (fun i _ n _ g _ => by simp [sourceAt])
    (fun n _ g _ _ => by simp [sourceAt]) (fun n _ g _ _ => by simp [sourceAt]) (by rw [hx]; exact hsol)
  exact ⟨phi, psi, out, angE, hsol, h1, h4, ((h5 1 (by show 1 < 2; omega)).1 2 (by show 2 < 3; omega)).2,
    ((h5 0 (by show 0 < 2; omega)).2.2.2 2 (by show 2 < 4; omega) 3 (by show 3 ≤ 3; omega)).2⟩

theorem exDownContractive (a : ℚ) (h0 : 0 ≤ a) (h1 : a ≤ 1 / 2) :
    Contractive exFine exTotal (fun m g g' => if g' < g then a * exTotal m g else 0) (1 / 2) where
  ok := fun g _ => exFineOk g
  fine := fun g hg n hn => exFineFor g hg n hn
  weights := exContractive.weights
  norm := exContractive.norm
  nonneg := fun i hi g _ g' _ => by
    have h := ((exFineOk g).phys i hi).2
    split
    · exact mul_nonneg h0 h
    · exact le_refl _
  rows := fun i hi g hg => by
    have h := ((exFineOk g).phys i hi).2
    have hg : g < 2 := hg
    show ∑ g' ∈ range 2, _ ≤ _
    rw [sum_range_succ, sum_range_one]
    have : a * exTotal (exFine.mm i) g ≤ 1 / 2 * exTotal (exFine.mm i) g :=
      mul_le_mul_of_nonneg_right h1 h
    have h2 : 0 ≤ 1 / 2 * exTotal (exFine.mm i) g := by positivity
    interval_cases g <;> simp at this h2 ⊢ <;> linarith

/-- More down-scattering, more source and more incoming flux give more flux, whatever the guesses are. -/
example : ∃ out out',
    sourceIteration exFine exTotal (.iso fun m g g' => if g' < g then 1 / 4 * exTotal m g else 0)
      ⟨1, 1, fun _ _ _ => 1⟩ ⟨1, 1, fun _ _ _ => 0⟩ (fun _ _ => 7) = .ok out ∧
    sourceIteration exFine exTotal (.iso fun m g g' => if g' < g then 1 / 2 * exTotal m g else 0)
      ⟨1, 1, fun i _ _ => 1 + (i : ℚ)⟩ ⟨1, 1, fun _ _ _ => 3⟩ (fun _ _ => 0) = .ok out' ∧
    out 2 1 ≤ out' 2 1 := by
  obtain ⟨out, out', h1, h2, h3⟩ := C116_runs exFine exTotal _ _ ⟨1, 1, fun _ _ _ => 1⟩
    ⟨1, 1, fun i _ _ => 1 + (i : ℚ)⟩ ⟨1, 1, fun _ _ _ => 0⟩ ⟨1, 1, fun _ _ _ => 3⟩ (fun _ _ => 7)
    (fun _ _ => 0) (1 / 2) (by norm_num) (exDownContractive (1 / 4) (by norm_num) (by norm_num))
    (exDownContractive (1 / 2) (by norm_num) (by norm_num))
    ⟨fun i hi g _ g' _ => by
      have h := ((exFineOk g).phys i hi).2
      split
      · exact mul_le_mul_of_nonneg_right (by norm_num) h
      · exact le_refl _, fun i _ n _ g _ => by simp [sourceAt], fun n _ g _ _ => by simp [sourceAt],
      fun n _ g _ _ => by simp [sourceAt]⟩
    (fun i _ n _ g _ => by simp only [sourceAt]; positivity) (fun n _ g _ _ => by simp [sourceAt])
    (fun n _ g _ _ => by simp [sourceAt]) (fun m g g' h => if_neg (by omega))
    (fun m g g' h => if_neg (by omega))
  exact ⟨out, out', h1, h2, h3 2 (by show 2 < 3; omega) 1 (by show 1 < 2; omega)⟩

/-- The hypotheses of `C115_from_above` are met by a guess above an existing exact solution. -/
example : ∃ phi out : ℕ → ℕ → ℚ,
    sourceIteration exFine exTotal (.iso fun m g _ => exTotal m g / 4) ⟨1, 1, fun _ _ _ => 1⟩
      ⟨1, 1, fun _ _ _ => 1⟩ (fun i g => phi i g + 1) = .ok out ∧ phi 2 1 ≤ out 2 1 := by
  obtain ⟨phi, psi, hsol⟩ := C74_exists exFine exTotal (fun m g _ => exTotal m g / 4)
    ⟨1, 1, fun _ _ _ => (1 : ℚ)⟩ ⟨1, 1, fun _ _ _ => 1⟩ (1 / 2) (by norm_num) (by norm_num) exContractive
  obtain ⟨out, h1, h2⟩ := C115_from_above exFine exTotal _ _ _ _ _ _ phi psi (fun i g => phi i g + 1)
    ⟨exContractive.ok, exContractive.fine, exContractive.weights, exContractive.norm, exContractive.nonneg⟩
    (AtMost.refl _ _ _ _) hsol
    (C116_exact_nonneg exFine exTotal _ _ _ (1 / 2) (by norm_num) phi psi exContractive
      (fun i _ n _ g _ => by simp [sourceAt]) (fun n _ g _ _ => by simp [sourceAt])
      (fun n _ g _ _ => by simp [sourceAt]) hsol).1
    (fun i _ g _ => by simp)
  exact ⟨phi, out, h1, h2 2 (by show 2 < 3; omega) 1 (by show 1 < 2; omega)⟩

end Discrete1.Props
