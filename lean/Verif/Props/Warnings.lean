import Verif.Model.Warnings
import Verif.Props.Converge
import Verif.Props.Broadcast

/-!
# C212: the result can depend on the warning filter of the process

The iterations treat a `RuntimeWarning` raised by numpy as convergence.  As long as the fluxes are positive the setting does
not matter.  If one entry is zero - a group nothing has been scattered into yet - the iterations stop at once, with a flux
that does not solve the equations.
-/

set_option linter.unusedSectionVars false
set_option linter.unusedSimpArgs false

namespace Discrete1.Props

open Finset Discrete1.Spec Discrete1.Slab Discrete1.Tools Discrete1.MultiGroup Discrete1.Drivers

variable {K : Type} [Field K] [LinearOrder K] [IsStrictOrderedRing K]

theorem iterateE_congr_inv {α ε : Type} {f f' : α → Except ε α} {conv conv' : α → α → Bool} (P Q : α → Prop)
    (hQ : ∀ a, Q a → P a) (hf : ∀ a, P a → f a = f' a) (hok : ∀ a b, P a → f a = .ok b → Q b)
    (hc : ∀ a b, Q b → conv b a = conv' b a) (n : ℕ) :
    ∀ a, P a → iterateE f conv n a = iterateE f' conv' n a := by
  induction n with
  | zero => intro a ha; exact hf a ha
  | succ n ih =>
    intro a ha
    unfold iterateE
    rw [← hf a ha]
    cases h : f a with
    | error e => rfl
    | ok b =>
      have hb := hok a b ha h
      simp only [hc a b hb]
      split_ifs
      · rfl
      · exact ih b (hQ b hb)

theorem iterateE_result_inv {α ε : Type} {f : α → Except ε α} {conv : α → α → Bool} (P Q : α → Prop)
    (hQ : ∀ a, Q a → P a) (hok : ∀ a b, P a → f a = .ok b → Q b) (n : ℕ) :
    ∀ a b, P a → iterateE f conv n a = .ok b → Q b := by
  induction n with
  | zero => intro a b ha h; exact hok a b ha h
  | succ n ih =>
    intro a b ha h
    unfold iterateE at h
    cases h' : f a with
    | error e => rw [h'] at h; simp at h
    | ok c =>
      rw [h'] at h
      have hc := hok a c ha h'
      simp only at h
      split_ifs at h
      · cases h; exact hc
      · exact ih c b (hQ c hc) h

theorem loopE_congr_inv {σ ε : Type} (P : ℕ → σ → Prop) (f f' : ℕ → σ → Except ε σ) (n : ℕ) (s : σ) (h0 : P 0 s)
    (hf : ∀ k < n, ∀ s, P k s → f k s = f' k s) (hok : ∀ k < n, ∀ s t, P k s → f k s = .ok t → P (k + 1) t) :
    loopE n f s = loopE n f' s ∧ ∀ t, loopE n f s = .ok t → P n t := by
  induction n with
  | zero => exact ⟨rfl, fun t ht => by cases ht; exact h0⟩
  | succ n ih =>
    obtain ⟨i1, i2⟩ := ih (fun k hk => hf k (by omega)) fun k hk => hok k (by omega)
    rw [loopE_succ, loopE_succ, ← i1]
    cases h : loopE n f s with
    | error e => exact ⟨rfl, fun t ht => by simp at ht⟩
    | ok v =>
      have hv := i2 v h
      exact ⟨hf n (by omega) v hv, fun t ht => hok n (by omega) v t hv ht⟩

/-- A cell with a positive source has a positive flux. -/
theorem sweep_positive {N A : ℕ} {xsTotal xsScatter off : ℕ → K} {external boundary : Arr2 K} {mm : ℕ → ℕ}
    {dx mu w : ℕ → K} {bcL bcR : Bool} {old new : ℕ → K} (hne : ∀ n < A, mu n ≠ 0)
    (hphys : Physical N dx (fun i => xsTotal (mm i))) (hfine : ∀ n < A, FineFor N (mu n) dx (fun i => xsTotal (mm i)))
    (hw : ∀ n < A, 0 ≤ w n) (hsum : ∑ n ∈ range A, w n = 1)
    (hxs : ∀ i < N, 0 ≤ xsScatter (mm i)) (hold : ∀ i < N, 0 ≤ old i) (hoff : ∀ i < N, 0 ≤ off i)
    (hext : ∀ n < A, ∀ i < N, 0 < external.val i (bidx external.angles n))
    (hL : ∀ n < A, 0 < mu n → 0 ≤ boundary.val 0 (bidx boundary.angles n))
    (hR : ∀ n < A, mu n < 0 → 0 ≤ boundary.val 1 (bidx boundary.angles n))
    (h : isotropicSweep N A xsTotal xsScatter off external boundary mm dx mu w bcL bcR false old = .ok new) :
    ∀ i < N, 0 < new i := by
  intro i hi
  obtain ⟨f, psi, h1, h2, h3, h4⟩ := isotropicSweep_spec (N := N) (A := A) xsTotal xsScatter off external boundary mm dx mu
    w bcL bcR false old hne hphys
  rw [h1] at h
  cases h
  have hq : ∀ n < A, ∀ i < N, 0 < xsScatter (mm i) * old i + external.val i (bidx external.angles n) + off i :=
    fun n hn i hi => by
      have := mul_nonneg (hxs i hi) (hold i hi)
      have := hext n hn i hi
      have := hoff i hi
      linarith
  have hpos := swept_nonneg hne hphys hfine h2 h3 (fun n hn i hi => (hq n hn i hi).le) hL hR
  rw [h4 i]
  simp only [Bool.false_eq_true, if_false, if_pos hi]
  have hcell : ∀ n < A, 0 < (psi n i + psi n (i + 1)) / 2 := by
    intro n hn
    have a := hpos n hn i hi.le
    have b := hpos n hn (i + 1) hi
    rcases (add_nonneg a b).eq_or_lt with h0 | h0
    · exfalso
      have a0 : psi n i = 0 := by linarith
      have b0 : psi n (i + 1) = 0 := by linarith
      have := h2 n hn i hi
      rw [a0, b0] at this
      simp only [sub_self, mul_zero, zero_div, add_zero] at this
      exact (hq n hn i hi).ne this
    · exact div_pos h0 two_pos
  -- some weight is positive
  obtain ⟨n, hn, hwn⟩ : ∃ n ∈ range A, 0 < w n := by
    by_contra hcon
    push Not at hcon
    have : ∑ n ∈ range A, w n ≤ 0 := sum_nonpos hcon
    linarith
  exact sum_pos' (fun m hm => mul_nonneg (hw m (mem_range.mp hm)) (hcell m (mem_range.mp hm)).le)
    ⟨n, hn, mul_pos hwn (hcell n (mem_range.mp hn))⟩

/-- C212: with a positive source in every cell and group, on a fine mesh, `source_iteration` returns the same whatever the
warning filter, from any non-negative guess, for all tolerances. -/
theorem C212_positive_sources (p : Problem K) (xsTotal : ℕ → ℕ → K) (xs : ℕ → ℕ → ℕ → K) (ext bnd : Arr3 K)
    (guess : ℕ → ℕ → K) (tolIn tolOut : K) (ht : Tame p xsTotal xs)
    (hext : ∀ i < p.cells, ∀ n < p.angles, ∀ g < p.groups, 0 < sourceAt ext i n g)
    (hL : ∀ n < p.angles, ∀ g < p.groups, 0 < p.angleX n → 0 ≤ sourceAt bnd 0 n g)
    (hR : ∀ n < p.angles, ∀ g < p.groups, p.angleX n < 0 → 0 ≤ sourceAt bnd 1 n g)
    (hguess : ∀ i < p.cells, ∀ g < p.groups, 0 ≤ guess i g) :
    sourceIteration (Warnings.setting true p tolIn tolOut) xsTotal (.iso xs) ext bnd guess
      = sourceIteration (Warnings.setting false p tolIn tolOut) xsTotal (.iso xs) ext bnd guess := by
  -- one group
  have hgroup : ∀ old : ℕ → ℕ → K, (∀ i < p.cells, ∀ g < p.groups, 0 ≤ old i g) → ∀ g < p.groups, ∀ s : ℕ → ℕ → K,
      (∀ i < p.cells, ∀ g' < g, 0 < s i g') →
      groupStepIso (Warnings.setting true p tolIn tolOut) xsTotal xs ext bnd old g s
        = groupStepIso (Warnings.setting false p tolIn tolOut) xsTotal xs ext bnd old g s ∧
      ∀ t, groupStepIso (Warnings.setting true p tolIn tolOut) xsTotal xs ext bnd old g s = .ok t →
        ∀ i < p.cells, ∀ g' < g + 1, 0 < t i g' := by
    intro old hold g hg s hs
    have hoff : ∀ i < p.cells, 0 ≤ offScatter p.groups s old p.mm xs g i := fun i hi => by
      rw [offScatter_eq _ _ _ _ _ hg]
      refine sum_nonneg fun og hog => ?_
      have hog := mem_range.mp (mem_of_mem_erase hog)
      refine mul_nonneg (ht.nonneg i hi g hg og hog) ?_
      split_ifs with h
      · exact (hs i hi og h).le
      · exact hold i hi og hog
    have hsweep : ∀ a b : ℕ → K, (∀ i < p.cells, 0 ≤ a i) →
        isotropicSweep p.cells p.angles (fun m => xsTotal m g) (fun m => xs m g g) (offScatter p.groups s old p.mm xs g)
          (ext.group (bidx ext.groups g)) (bnd.group (bidx bnd.groups g)) p.mm p.dx p.angleX p.angleW p.bcL p.bcR false a
          = .ok b → ∀ i < p.cells, 0 < b i := fun a b ha h =>
      sweep_positive (ht.ok g hg).nonzero (ht.ok g hg).phys (ht.fine g hg) ht.weights ht.norm
        (fun i hi => ht.nonneg i hi g hg g hg) ha hoff (fun n hn i hi => hext i hi n hn g hg)
        (fun n hn => hL n hn g hg) (fun n hn => hR n hn g hg) h
    have key : ∀ conv conv' : (ℕ → K) → (ℕ → K) → Bool, (∀ a b, (∀ i < p.cells, 0 < b i) → conv b a = conv' b a) →
        _ := fun conv conv' hc =>
      iterateE_congr_inv (f := isotropicSweep p.cells p.angles (fun m => xsTotal m g) (fun m => xs m g g)
          (offScatter p.groups s old p.mm xs g) (ext.group (bidx ext.groups g)) (bnd.group (bidx bnd.groups g)) p.mm p.dx
          p.angleX p.angleW p.bcL p.bcR false) (f' := _) (conv := conv) (conv' := conv')
        (fun a => ∀ i < p.cells, 0 ≤ a i) (fun b => ∀ i < p.cells, 0 < b i) (fun a ha i hi => (ha i hi).le)
        (fun a _ => rfl) hsweep hc 99 (fun i => old i g) fun i hi => hold i hi g hg
    have e := key (Warnings.fluxConverged p.cells tolIn) (Slab.fluxConverged p.cells tolIn) fun a b hb => by
      unfold Warnings.fluxConverged
      rw [if_neg]
      rintro ⟨i, hi, h0⟩
      exact (hb i hi).ne' h0
    have hslab := (ht.ok g hg).slab
    constructor
    · unfold groupStepIso isotropicSn
      simp only [Warnings.setting, hslab, if_true, Bool.false_eq_true, if_false]
      rw [e]
    · intro t hteq
      unfold groupStepIso isotropicSn at hteq
      simp only [Warnings.setting, hslab, if_true] at hteq
      cases hit : iterateE (isotropicSweep p.cells p.angles (fun m => xsTotal m g) (fun m => xs m g g)
          (offScatter p.groups s old p.mm xs g) (ext.group (bidx ext.groups g)) (bnd.group (bidx bnd.groups g)) p.mm p.dx
          p.angleX p.angleW p.bcL p.bcR false) (Warnings.fluxConverged p.cells tolIn) 99 (fun i => old i g) with
      | error e => rw [hit] at hteq; simp [Except.map] at hteq
      | ok b =>
        rw [hit] at hteq
        have hb := iterateE_result_inv (fun a => ∀ i < p.cells, 0 ≤ a i) (fun b => ∀ i < p.cells, 0 < b i)
          (fun a ha i hi => (ha i hi).le) hsweep 99 _ _ (fun i hi => hold i hi g hg) hit
        simp only [Except.map, Except.ok.injEq] at hteq
        subst hteq
        intro i hi g' hg'
        unfold putCol
        split_ifs with h
        · exact hb i hi
        · exact hs i hi g' (by omega)
  have hone : ∀ old : ℕ → ℕ → K, (∀ i < p.cells, ∀ g < p.groups, 0 ≤ old i g) → _ := fun old hold =>
    loopE_congr_inv (fun k (s : ℕ → ℕ → K) => ∀ i < p.cells, ∀ g' < k, 0 < s i g')
      (groupStepIso (Warnings.setting true p tolIn tolOut) xsTotal xs ext bnd old)
      (groupStepIso (Warnings.setting false p tolIn tolOut) xsTotal xs ext bnd old) p.groups (fun _ _ => 0)
      (fun i _ g' hg' => absurd hg' (Nat.not_lt_zero _)) (fun k hk s hs => (hgroup old hold k hk s hs).1)
      fun k hk s t hs h => (hgroup old hold k hk s hs).2 t h
  exact iterateE_congr_inv (fun a => ∀ i < p.cells, ∀ g < p.groups, 0 ≤ a i g)
    (fun b => ∀ i < p.cells, ∀ g < p.groups, 0 < b i g) (fun a ha i hi g hg => (ha i hi g hg).le)
    (fun a ha => (hone a ha).1) (fun a b ha h => (hone a ha).2 b h) (fun a b hb => by
      show Warnings.fluxConverged2 p.cells p.groups tolOut b a = _
      unfold Warnings.fluxConverged2
      rw [if_neg]
      · rfl
      · rintro ⟨i, hi, g, hg, h0⟩
        exact (hb i hi g hg).ne' h0) 99 guess hguess

/-! ## A zero entry stops the iteration -/

/-- A group without sources stays dark, whatever the criteria. -/
theorem dark_group (p : Problem K) (xsTotal : ℕ → ℕ → K) (xs : ℕ → ℕ → ℕ → K) (ext bnd : Arr3 K) (old s : ℕ → ℕ → K)
    {g : ℕ} (hok : SlabOk p xsTotal g) (hold : ∀ i < p.cells, old i g = 0)
    (hoff : ∀ i < p.cells, offScatter p.groups s old p.mm xs g i = 0)
    (hext : ∀ i < p.cells, ∀ n < p.angles, sourceAt ext i n g = 0)
    (hL : ∀ n < p.angles, 0 < p.angleX n → sourceAt bnd 0 n g = 0)
    (hR : ∀ n < p.angles, p.angleX n < 0 → sourceAt bnd 1 n g = 0) :
    ∃ t, groupStepIso p xsTotal xs ext bnd old g s = .ok t ∧ (∀ i g', g' ≠ g → t i g' = s i g') ∧
      ∀ i < p.cells, t i g = 0 := by
  have hsweep : ∀ a b : ℕ → K, (∀ i < p.cells, a i = 0) →
      isotropicSweep p.cells p.angles (fun m => xsTotal m g) (fun m => xs m g g) (offScatter p.groups s old p.mm xs g)
        (ext.group (bidx ext.groups g)) (bnd.group (bidx bnd.groups g)) p.mm p.dx p.angleX p.angleW p.bcL p.bcR false a
        = .ok b → ∀ i < p.cells, b i = 0 := by
    intro a b ha h i hi
    obtain ⟨f, psi, h1, h2, h3, h4⟩ := isotropicSweep_spec (N := p.cells) (A := p.angles) (fun m => xsTotal m g)
      (fun m => xs m g g) (offScatter p.groups s old p.mm xs g) (ext.group (bidx ext.groups g))
      (bnd.group (bidx bnd.groups g)) p.mm p.dx p.angleX p.angleW p.bcL p.bcR false a hok.nonzero hok.phys
    rw [h1] at h
    cases h
    have hzero := swept_unique (psi' := fun _ _ => 0) hok.nonzero hok.phys h2 (fun n hn i hi => by
      have he : (ext.group (bidx ext.groups g)).val i (bidx (ext.group (bidx ext.groups g)).angles n) = 0 := hext i hi n hn
      beta_reduce
      rw [ha i hi, hoff i hi, he]
      ring) h3 (fun n hn => by
      unfold inflow outflow
      rcases lt_or_gt_of_ne (hok.nonzero n hn) with h | h
      · have : (bnd.group (bidx bnd.groups g)).val 1 (bidx (bnd.group (bidx bnd.groups g)).angles n) = 0 := hR n hn h
        simp [not_lt.mpr h.le, this]
      · have : (bnd.group (bidx bnd.groups g)).val 0 (bidx (bnd.group (bidx bnd.groups g)).angles n) = 0 := hL n hn h
        simp [h, this])
    rw [h4 i]
    simp only [Bool.false_eq_true, if_false, if_pos hi]
    unfold scalarCenter
    refine sum_eq_zero fun n hn => ?_
    rw [hzero n (mem_range.mp hn) i hi.le, hzero n (mem_range.mp hn) (i + 1) hi]
    simp
  obtain ⟨x, k, h1, h2, h3, h4, h5, -, -⟩ := C18_within_group_stops (N := p.cells)
    (A := p.angles) p.convIn (fun m => xsTotal m g) (fun m => xs m g g)
    (offScatter p.groups s old p.mm xs g) (ext.group (bidx ext.groups g))
    (bnd.group (bidx bnd.groups g)) p.mm p.dx p.angleX p.angleW p.bcL p.bcR false
    (fun i => old i g) hok.nonzero hok.phys
  have hx : ∀ j ≤ k, ∀ i < p.cells, x j i = 0 := by
    intro j
    induction j with
    | zero => intro _ i hi; rw [h3]; exact hold i hi
    | succ j ih => intro hj; exact hsweep _ _ (ih (by omega)) (h4 j (by omega))
  refine ⟨putCol s g (x k), ?_, fun i g' hne => by simp [putCol, hne], fun i hi => by
    simp only [putCol, if_true]; exact hx k le_rfl i hi⟩
  unfold groupStepIso
  simp only [hok.slab, if_true]
  rw [h5]
  rfl

/-- One pass over the groups leaves a group dark that gets nothing from its sources, from the groups before it or from
the guess. -/
theorem dark_pass (p : Problem K) (xsTotal : ℕ → ℕ → K) (xs : ℕ → ℕ → ℕ → K) (ext bnd : Arr3 K) (old : ℕ → ℕ → K)
    {g : ℕ} (hg : g < p.groups) (hok : ∀ g < p.groups, SlabOk p xsTotal g) (hold : ∀ i < p.cells, old i g = 0)
    (hin : ∀ i < p.cells, ∀ g' < p.groups, g' ≠ g → xs (p.mm i) g g' = 0 ∨ (g < g' ∧ old i g' = 0))
    (hext : ∀ i < p.cells, ∀ n < p.angles, sourceAt ext i n g = 0)
    (hL : ∀ n < p.angles, 0 < p.angleX n → sourceAt bnd 0 n g = 0)
    (hR : ∀ n < p.angles, p.angleX n < 0 → sourceAt bnd 1 n g = 0) :
    ∃ new, oneSweepIso p xsTotal xs ext bnd old = .ok new ∧ ∀ i < p.cells, new i g = 0 := by
  obtain ⟨new, h1, h2⟩ := loopE_inv (fun k (f : ℕ → ℕ → K) => g < k → ∀ i < p.cells, f i g = 0)
    p.groups (groupStepIso p xsTotal xs ext bnd old) (fun _ _ => 0) (fun h => absurd h (Nat.not_lt_zero _))
    (fun k hk f hf => by
      by_cases hkg : k = g
      · subst hkg
        obtain ⟨t, t1, -, t3⟩ := dark_group p xsTotal xs ext bnd old f (hok k hg) hold (fun i hi => by
          rw [offScatter_eq _ _ _ _ _ hg]
          refine sum_eq_zero fun og hog => ?_
          rcases hin i hi og (mem_range.mp (mem_of_mem_erase hog)) (ne_of_mem_erase hog) with h | ⟨h, h'⟩
          · rw [h, zero_mul]
          · rw [if_neg (by omega), h', mul_zero]) hext hL hR
        exact ⟨t, t1, fun _ => t3⟩
      · obtain ⟨t, t1, t2, -⟩ := groupStepIso_spec p xsTotal xs ext bnd old f k hk (hok k hk)
        refine ⟨t, t1, fun h i hi => ?_⟩
        rw [t2 i g (Ne.symm hkg)]
        exact hf (by omega) i hi)
  exact ⟨new, h1, h2 hg⟩

/-- C212 (REFUTED with warnings raised): if a group gets nothing from its sources, from the groups before it and from the
guess, `source_iteration` returns after a single pass over the groups - its first iterate, in which that group is zero -
however strongly later groups scatter into it and however the other groups are coupled. -/
theorem C212_violation_one_pass (p : Problem K) (xsTotal : ℕ → ℕ → K) (xs : ℕ → ℕ → ℕ → K) (ext bnd : Arr3 K)
    (guess : ℕ → ℕ → K) (tolIn tolOut : K) (hN : 0 < p.cells) {g : ℕ} (hg : g < p.groups)
    (hok : ∀ g < p.groups, SlabOk p xsTotal g) (hguess : ∀ i < p.cells, guess i g = 0)
    (hin : ∀ i < p.cells, ∀ g' < p.groups, g' ≠ g → xs (p.mm i) g g' = 0 ∨ (g < g' ∧ guess i g' = 0))
    (hext : ∀ i < p.cells, ∀ n < p.angles, sourceAt ext i n g = 0)
    (hL : ∀ n < p.angles, 0 < p.angleX n → sourceAt bnd 0 n g = 0)
    (hR : ∀ n < p.angles, p.angleX n < 0 → sourceAt bnd 1 n g = 0) :
    ∃ flux, sourceIteration (Warnings.setting true p tolIn tolOut) xsTotal (.iso xs) ext bnd guess = .ok flux ∧
      oneSweepIso (Warnings.setting true p tolIn tolOut) xsTotal xs ext bnd guess = .ok flux ∧
      ∀ i < p.cells, flux i g = 0 := by
  have hok' : ∀ g < p.groups, SlabOk (Warnings.setting true p tolIn tolOut) xsTotal g := fun g hg =>
    ⟨(hok g hg).slab, (hok g hg).nonzero, (hok g hg).phys⟩
  obtain ⟨flux, h1, h2⟩ := dark_pass (Warnings.setting true p tolIn tolOut) xsTotal xs ext bnd guess hg hok' hguess hin
    hext hL hR
  refine ⟨flux, ?_, h1, h2⟩
  show sourceIterationIso _ _ _ _ _ _ = _
  unfold sourceIterationIso iterateE
  rw [h1]
  have hc : (Warnings.setting true p tolIn tolOut).convOut flux guess = true := by
    show Warnings.fluxConverged2 p.cells p.groups tolOut flux guess = true
    unfold Warnings.fluxConverged2
    rw [if_pos ⟨0, hN, g, hg, h2 0 hN⟩]
  simp only [hc, if_true]

/-- C212 (REFUTED with warnings raised): the returned flux is then wrong.  If every solution of the equations has
scattering into that group in some cell, what is returned solves the equations for no angular flux. -/
theorem C212_violation_wrong_flux (p : Problem K) (xsTotal : ℕ → ℕ → K) (xs : ℕ → ℕ → ℕ → K) (ext bnd : Arr3 K)
    (tolIn tolOut : K) (hN : 0 < p.cells) (hG : 0 < p.groups) (ht : Tame p xsTotal xs)
    (hext : ∀ i < p.cells, ∀ n < p.angles, sourceAt ext i n 0 = 0)
    (hL : ∀ n < p.angles, 0 < p.angleX n → sourceAt bnd 0 n 0 = 0)
    (hR : ∀ n < p.angles, p.angleX n < 0 → sourceAt bnd 1 n 0 = 0)
    (hext' : ∀ i < p.cells, ∀ n < p.angles, ∀ g < p.groups, 0 ≤ sourceAt ext i n g)
    (hL' : ∀ n < p.angles, ∀ g < p.groups, 0 < p.angleX n → 0 ≤ sourceAt bnd 0 n g)
    (hR' : ∀ n < p.angles, ∀ g < p.groups, p.angleX n < 0 → 0 ≤ sourceAt bnd 1 n g)
    {g : ℕ} (hg : g < p.groups) (hup : ∀ i < p.cells, 0 < xs (p.mm i) 0 g)
    (hsrc : ∀ i < p.cells, ∀ n < p.angles, 0 < sourceAt ext i n g) :
    ∃ flux, sourceIteration (Warnings.setting true p tolIn tolOut) xsTotal (.iso xs) ext bnd (fun _ _ => 0) = .ok flux ∧
      ∀ psi, ¬ SolvesMultigroup p xsTotal xs ext bnd flux psi := by
  obtain ⟨flux, h1, h2, h3⟩ := C212_violation_one_pass p xsTotal xs ext bnd (fun _ _ => 0) tolIn tolOut hN hG ht.ok
    (fun _ _ => rfl) (fun i hi g' hg' hne => Or.inr ⟨by omega, rfl⟩) hext hL hR
  -- all fluxes of the pass are non-negative
  obtain ⟨flux', h4, h5⟩ := C16_source_iteration_nonneg (Warnings.setting true p tolIn tolOut) xsTotal xs ext bnd
    (fun _ _ => 0) (fun g hg => ⟨(ht.ok g hg).slab, (ht.ok g hg).nonzero, (ht.ok g hg).phys⟩)
    (ht.ok 0 hG).slab ht.fine (fun g hg => ⟨ht.weights, fun n hn i hi => hext' i hi n hn g hg,
      fun n hn hp => hL' n hn g hg hp, fun n hn hp => hR' n hn g hg hp⟩) ht.nonneg (fun _ _ _ _ => le_rfl)
  obtain rfl : flux' = flux := by rw [h1] at h4; exact (Except.ok.inj h4).symm
  refine ⟨flux', h1, fun psi hsol => ?_⟩
  -- flux of group g positive
  have hpsi := fun g hg => swept_nonneg (ht.ok g hg).nonzero (ht.ok g hg).phys (ht.fine g hg) (hsol.balance g hg)
    (hsol.inflow g hg) (fun n hn i hi => add_nonneg (sum_nonneg fun g' hg' =>
      mul_nonneg (ht.nonneg i hi g hg g' (mem_range.mp hg')) (h5 i hi g' (mem_range.mp hg')))
      (hext' i hi n hn g hg)) (fun n hn hp => hL' n hn g hg hp) (fun n hn hp => hR' n hn g hg hp)
  have hpos : ∀ {g : ℕ}, g < p.groups → (∀ n < p.angles, ∀ i < p.cells,
      0 < ∑ og ∈ range p.groups, xs (p.mm i) g og * flux' i og + sourceAt ext i n g) → ∀ i < p.cells, 0 < flux' i g := by
    intro g hg hq i hi
    have hcell : ∀ n < p.angles, 0 < (psi g n i + psi g n (i + 1)) / 2 := by
      intro n hn
      have a := hpsi g hg n hn i hi.le
      have b := hpsi g hg n hn (i + 1) hi
      rcases (add_nonneg a b).eq_or_lt with h0 | h0
      · exfalso
        have a0 : psi g n i = 0 := by linarith
        have b0 : psi g n (i + 1) = 0 := by linarith
        have := hsol.balance g hg n hn i hi
        rw [a0, b0] at this
        simp only [sub_self, mul_zero, zero_div, add_zero] at this
        exact (hq n hn i hi).ne this
      · exact div_pos h0 two_pos
    obtain ⟨n, hn, hwn⟩ : ∃ n ∈ range p.angles, 0 < p.angleW n := by
      by_contra hcon
      push Not at hcon
      have : ∑ n ∈ range p.angles, p.angleW n ≤ 0 := sum_nonpos hcon
      have := ht.norm
      linarith
    rw [hsol.scalar g hg i hi]
    exact sum_pos' (fun m hm => mul_nonneg (ht.weights m (mem_range.mp hm)) (hcell m (mem_range.mp hm)).le)
      ⟨n, hn, mul_pos hwn (hcell n (mem_range.mp hn))⟩
  have hgpos := hpos hg fun n hn i hi => add_pos_of_nonneg_of_pos (sum_nonneg fun g' hg' =>
      mul_nonneg (ht.nonneg i hi g hg g' (mem_range.mp hg')) (h5 i hi g' (mem_range.mp hg'))) (hsrc i hi n hn)
  have h0pos := hpos hG fun n hn i hi => add_pos_of_pos_of_nonneg (sum_pos' (fun g' hg' =>
      mul_nonneg (ht.nonneg i hi 0 hG g' (mem_range.mp hg')) (h5 i hi g' (mem_range.mp hg')))
      ⟨g, mem_range.mpr hg, mul_pos (hup i hi) (hgpos i hi)⟩) (hext' i hi n hn 0 hG)
  exact (h0pos 0 hN).ne' (h3 0 hN)

/-- C212 (REFUTED with warnings raised): the iteration within a group stops after its first pass if that pass leaves any
cell at zero, whatever the other cells. -/
theorem C212_violation_inner (p : Problem K) (xsTotal : ℕ → ℕ → K) (xs : ℕ → ℕ → ℕ → K) (ext bnd : Arr3 K)
    (old s : ℕ → ℕ → K) (tolIn tolOut : K) {g i : ℕ} (hg : p.geometry = 1) (hi : i < p.cells) {b : ℕ → K}
    (h : isotropicSweep p.cells p.angles (fun m => xsTotal m g) (fun m => xs m g g)
      (offScatter p.groups s old p.mm xs g) (ext.group (bidx ext.groups g)) (bnd.group (bidx bnd.groups g)) p.mm p.dx
      p.angleX p.angleW p.bcL p.bcR false (fun i => old i g) = .ok b) (hb : b i = 0) :
    ∃ t, groupStepIso (Warnings.setting true p tolIn tolOut) xsTotal xs ext bnd old g s = .ok t ∧
      ∀ i, t i g = b i := by
  refine ⟨putCol s g b, ?_, fun i => by simp [putCol]⟩
  unfold groupStepIso isotropicSn
  simp only [Warnings.setting, hg, if_true]
  unfold iterateE
  rw [h]
  have hc : Warnings.fluxConverged p.cells tolIn b (fun i => old i g) = true := by
    unfold Warnings.fluxConverged
    rw [if_pos ⟨i, hi, hb⟩]
  simp only [hc, if_true]
  rfl

/-! ## Examples -/

/-- Both directions to the right, a source in the second cell only. -/
def exBeam : Problem ℚ := { exFlat ℚ with angleX := fun n => if n = 0 then 1 else 1 / 2 }

/-- With warnings raised the group is left after one pass, though half of each collision scatters within the second
cell. -/
example : ∃ (t : ℕ → ℕ → ℚ) (b : ℕ → ℚ), groupStepIso (Warnings.setting true exBeam (1 / 10 ^ 12) (1 / 10 ^ 8)) (fun _ _ => 1)
      (fun _ g g' => if g = g' then 1 / 2 else 0) ⟨1, 1, fun i _ _ => if i = 1 then 1 else 0⟩ ⟨1, 1, fun _ _ _ => 0⟩
      (fun _ _ => 0) 0 (fun _ _ => 0) = .ok t ∧ (∀ i, t i 0 = b i) ∧ b 0 = 0 ∧ b 1 ≠ 0 := by
  generalize h : isotropicSweep exBeam.cells exBeam.angles (fun m => (fun _ _ => (1 : ℚ)) m 0)
    (fun m => (fun _ g g' => if g = g' then (1 : ℚ) / 2 else 0) m 0 0)
    (offScatter exBeam.groups (fun _ _ => 0) (fun _ _ => 0) exBeam.mm (fun _ g g' => if g = g' then 1 / 2 else 0) 0)
    ((⟨1, 1, fun i _ _ => if i = 1 then 1 else 0⟩ : Arr3 ℚ).group (bidx 1 0))
    ((⟨1, 1, fun _ _ _ => 0⟩ : Arr3 ℚ).group (bidx 1 0)) exBeam.mm exBeam.dx exBeam.angleX exBeam.angleW exBeam.bcL
    exBeam.bcR false (fun _ => 0) = r
  have h' : (r.toOption.map fun f => decide (f 0 = 0 ∧ f 1 ≠ 0)) = some true := by rw [← h]; decide +kernel
  cases r with
  | error e => simp [Except.toOption] at h'
  | ok b =>
    have hb : b 0 = 0 ∧ b 1 ≠ 0 := by simpa [Except.toOption] using h'
    obtain ⟨t, h1, h2⟩ := C212_violation_inner exBeam (fun _ _ => 1) (fun _ g g' => if g = g' then 1 / 2 else 0)
      ⟨1, 1, fun i _ _ => if i = 1 then 1 else 0⟩ ⟨1, 1, fun _ _ _ => 0⟩ (fun _ _ => 0) (fun _ _ => 0) (1 / 10 ^ 12)
      (1 / 10 ^ 8) (g := 0) (i := 0) rfl (by show 0 < 2; omega) h hb.1
    exact ⟨t, b, h1, h2, hb.1, hb.2⟩

/-- Group 1 scatters into group 0, which has no source. -/
def exUp : ℕ → ℕ → ℕ → ℚ := fun _ g g' => if g = 0 ∧ g' = 1 then 1 / 2 else 0

theorem exUp_tame : Tame (exFlat ℚ) (fun _ _ => 1) exUp where
  ok := fun g _ => exFlat_ok g
  fine := fun g hg n hn i hi => by
    have hn : n < 2 := hn
    interval_cases n <;> norm_num [exFlat]
  weights := exFlat_tame.weights
  norm := exFlat_tame.norm
  nonneg := fun i _ g _ g' _ => by unfold exUp; split_ifs <;> norm_num

def exUpSource : Arr3 ℚ := ⟨1, 2, fun _ _ g => if g = 1 then 1 else 0⟩

/-- With warnings raised the flux of group 0 is lost. -/
example := C212_violation_wrong_flux (exFlat ℚ) (fun _ _ => 1) exUp exUpSource ⟨1, 1, fun _ _ _ => 0⟩ (1 / 10 ^ 12)
  (1 / 10 ^ 8) (by show 0 < 2; omega) (by show 0 < 2; omega) exUp_tame (fun _ _ _ _ => rfl) (fun _ _ _ => rfl)
  (fun _ _ _ => rfl) (fun i _ n _ g hg => by
    have hg : g < 2 := hg
    interval_cases g <;> norm_num [exUpSource, sourceAt, bidx]) (fun _ _ _ _ _ => le_rfl) (fun _ _ _ _ _ => le_rfl)
  (g := 1) (by show 1 < 2; omega) (fun i _ => by norm_num [exUp]) (fun i _ n _ => by
    norm_num [exUpSource, sourceAt, bidx])

/-- By default it is found in the second pass. -/
example : (sourceIteration (Warnings.setting false (exFlat ℚ) (1 / 10 ^ 12) (1 / 10 ^ 8)) (fun _ _ => 1) (.iso exUp)
    exUpSource ⟨1, 1, fun _ _ _ => 0⟩ (fun _ _ => 0)).toOption.map (fun f => decide (0 < f 0 0)) = some true := by
  decide +kernel

example : (sourceIteration (Warnings.setting true (exFlat ℚ) (1 / 10 ^ 12) (1 / 10 ^ 8)) (fun _ _ => 1) (.iso exUp)
    exUpSource ⟨1, 1, fun _ _ _ => 0⟩ (fun _ _ => 0)).toOption.map (fun f => decide (f 0 0 = 0)) = some true := by
  decide +kernel

example := C212_positive_sources (exFlat ℚ) (fun _ _ => 1) exUp ⟨1, 1, fun _ _ _ => 1⟩ ⟨1, 1, fun _ _ _ => 0⟩
  (fun _ _ => 0) (1 / 10 ^ 12) (1 / 10 ^ 8) exUp_tame (fun _ _ _ _ _ _ => one_pos) (fun _ _ _ _ _ => le_rfl)
  (fun _ _ _ _ _ => le_rfl) (fun _ _ _ _ => le_rfl)

end Discrete1.Props
