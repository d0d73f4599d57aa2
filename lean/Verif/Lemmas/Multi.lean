import Verif.Props.Within

/-! # Lemmas about the multigroup drivers -/

set_option linter.unusedSectionVars false
set_option linter.unusedSimpArgs false

namespace Discrete1.MultiGroup

open Finset Discrete1.Tools Discrete1.Spec Discrete1.Slab Discrete1.Props

variable {K : Type*} [Field K] [LinearOrder K] [IsStrictOrderedRing K]

theorem offScatter_eq (G : ℕ) (flux old : ℕ → ℕ → K) (mm : ℕ → ℕ) (xs : ℕ → ℕ → ℕ → K) {g : ℕ}
    (hg : g < G) (i : ℕ) :
    offScatter G flux old mm xs g i
      = ∑ og ∈ (range G).erase g, xs (mm i) g og * (if og < g then flux i og else old i og) := by
  unfold offScatter
  simp only
  rw [loop_add_eq_sum, loop_add_eq_sum, zero_add]
  have hsplit : (range G).erase g = range g ∪ Ico (g + 1) G := by
    ext x
    simp only [mem_erase, mem_range, mem_union, mem_Ico]
    omega
  rw [hsplit, sum_union (by
    rw [disjoint_left]
    intro x hx hy
    have := mem_range.mp hx
    have := mem_Ico.mp hy
    omega)]
  congr 1
  · refine sum_congr rfl fun x hx => ?_
    rw [if_pos (mem_range.mp hx)]
  · rw [sum_Ico_eq_sum_range]
    refine sum_congr rfl fun x _ => ?_
    rw [if_neg (by omega)]

/-- Group `g` of `new` is the result of the last within-group sweep, whose scattering source used the
within-group iterate `prev` for group `g`, `new` for lower groups and `old` for higher groups. -/
def GroupSolved (p : Problem K) (xsTotal : ℕ → ℕ → K) (xs : ℕ → ℕ → ℕ → K)
    (external boundary : Arr3 K) (old new : ℕ → ℕ → K) (g : ℕ) : Prop :=
  ∃ (prev : ℕ → K) (psi : ℕ → ℕ → K) (sweeps : ℕ), 1 ≤ sweeps ∧ sweeps ≤ 100 ∧
    (∀ i < p.cells, new i g = scalarCenter p.angles p.angleW psi i) ∧
    AllBalanced p.cells p.angles p.angleX p.dx (fun i => xsTotal (p.mm i) g)
      (fun n i => xs (p.mm i) g g * prev i
        + external.val i (bidx external.angles n) (bidx external.groups g)
        + ∑ og ∈ (range p.groups).erase g,
            xs (p.mm i) g og * (if og < g then new i og else old i og)) psi ∧
    SweptInflow p.cells p.angles p.angleX p.bcL p.bcR
      (fun n => boundary.val 0 (bidx boundary.angles n) (bidx boundary.groups g))
      (fun n => boundary.val 1 (bidx boundary.angles n) (bidx boundary.groups g)) psi ∧
    (sweeps < 100 → p.convIn (fun i => new i g) prev = true)

theorem groupSolved_congr {p : Problem K} {xsTotal : ℕ → ℕ → K} {xs : ℕ → ℕ → ℕ → K}
    {external boundary : Arr3 K} {old new new' : ℕ → ℕ → K} {g : ℕ}
    (h : GroupSolved p xsTotal xs external boundary old new g)
    (he : ∀ i, ∀ g' ≤ g, new' i g' = new i g') :
    GroupSolved p xsTotal xs external boundary old new' g := by
  obtain ⟨prev, psi, s, h1, h2, h3, h4, h5, h6⟩ := h
  refine ⟨prev, psi, s, h1, h2, fun i hi => by rw [he i g (le_refl _)]; exact h3 i hi, ?_, h5, ?_⟩
  · intro n hn i hi
    have := h4 n hn i hi
    simp only at this ⊢
    rw [this]
    congr 1
    refine sum_congr rfl fun og _ => ?_
    by_cases hlt : og < g
    · rw [if_pos hlt, if_pos hlt, he i og hlt.le]
    · rw [if_neg hlt, if_neg hlt]
  · intro hs
    have : (fun i => new' i g) = fun i => new i g := funext fun i => he i g (le_refl _)
    rw [this]; exact h6 hs

/-- One group step succeeds and solves its group. -/
theorem groupStepIso_spec (p : Problem K) (xsTotal : ℕ → ℕ → K) (xs : ℕ → ℕ → ℕ → K)
    (external boundary : Arr3 K) (old flux : ℕ → ℕ → K) (g : ℕ) (hg : g < p.groups)
    (hok : SlabOk p xsTotal g) :
    ∃ new, groupStepIso p xsTotal xs external boundary old g flux = .ok new ∧
      (∀ i g', g' ≠ g → new i g' = flux i g') ∧
      GroupSolved p xsTotal xs external boundary old new g := by
  obtain ⟨x, s, hs1, hs2, hx0, hstep, he, hconv, _⟩ := C18_within_group_stops (N := p.cells)
    (A := p.angles) p.convIn (fun m => xsTotal m g) (fun m => xs m g g)
    (offScatter p.groups flux old p.mm xs g) (external.group (bidx external.groups g))
    (boundary.group (bidx boundary.groups g)) p.mm p.dx p.angleX p.angleW p.bcL p.bcR false
    (fun i => old i g) hok.nonzero hok.phys
  obtain ⟨f, psi, h1, h2, h3, h4⟩ := isotropicSweep_spec (N := p.cells) (A := p.angles)
    (fun m => xsTotal m g) (fun m => xs m g g)
    (offScatter p.groups flux old p.mm xs g) (external.group (bidx external.groups g))
    (boundary.group (bidx boundary.groups g)) p.mm p.dx p.angleX p.angleW p.bcL p.bcR false
    (x (s - 1)) hok.nonzero hok.phys
  have hf : f = x s := by
    have := hstep (s - 1) (by omega)
    rw [h1, show s - 1 + 1 = s by omega] at this
    exact Except.ok.inj this
  refine ⟨putCol flux g (x s), ?_, ?_, x (s - 1), psi, s, hs1, hs2, ?_, ?_, h3, ?_⟩
  · unfold groupStepIso
    simp only [hok.slab, if_true]
    rw [he]; rfl
  · intro i g' hne; simp [putCol, hne]
  · intro i hi
    simp only [putCol, if_true]
    rw [← hf, h4 i]; simp [hi]
  · intro n hn i hi
    have := h2 n hn i hi
    simp only [Arr3.group] at this ⊢
    rw [this, offScatter_eq _ _ _ _ _ hg]
    congr 1
    refine sum_congr rfl fun og hog => ?_
    have hne := (mem_erase.mp hog).1
    simp [putCol, hne]
  · intro hs
    have : (fun i => putCol flux g (x s) i g) = x s := by funext i; simp [putCol]
    rw [this]
    exact hconv hs

/-- One Gauss-Seidel sweep succeeds and solves every group. -/
theorem oneSweepIso_spec (p : Problem K) (xsTotal : ℕ → ℕ → K) (xs : ℕ → ℕ → ℕ → K)
    (external boundary : Arr3 K) (old : ℕ → ℕ → K) (hok : ∀ g < p.groups, SlabOk p xsTotal g) :
    ∃ new, oneSweepIso p xsTotal xs external boundary old = .ok new ∧
      (∀ g < p.groups, GroupSolved p xsTotal xs external boundary old new g) ∧
      ∀ i g, p.groups ≤ g → new i g = 0 := by
  obtain ⟨new, h1, h2, h3⟩ := loopE_inv (fun k (f : ℕ → ℕ → K) =>
      (∀ g < k, GroupSolved p xsTotal xs external boundary old f g) ∧ ∀ i g, k ≤ g → f i g = 0)
    p.groups (groupStepIso p xsTotal xs external boundary old) (fun _ _ => 0)
    ⟨fun g hg => absurd hg (Nat.not_lt_zero _), fun _ _ _ => rfl⟩ (fun k hk f hf => by
      obtain ⟨new, h1, h2, h3⟩ := groupStepIso_spec p xsTotal xs external boundary old f k hk (hok k hk)
      refine ⟨new, h1, fun g hg => ?_, fun i g hg => ?_⟩
      · rcases Nat.lt_succ_iff_lt_or_eq.mp hg with h | h
        · exact groupSolved_congr (hf.1 g h) fun i g' hg' => h2 i g' (by omega)
        · subst h; exact h3
      · rw [h2 i g (by omega)]; exact hf.2 i g (by omega))
  exact ⟨new, h1, h2, h3⟩

/-- The within-group iteration of a group in a sweep that turned `old` into `new`, as a run. -/
theorem groupStepIso_run (p : Problem K) (xsTotal : ℕ → ℕ → K) (xs : ℕ → ℕ → ℕ → K)
    (external boundary : Arr3 K) (old flux : ℕ → ℕ → K) (g : ℕ) (hok : SlabOk p xsTotal g) :
    ∃ (new : ℕ → ℕ → K) (y : ℕ → ℕ → K) (n : ℕ), groupStepIso p xsTotal xs external boundary old g flux = .ok new ∧
      (∀ i g', g' ≠ g → new i g' = flux i g') ∧
      Spec.Run (Slab.isotropicSweep p.cells p.angles (fun m => xsTotal m g) (fun m => xs m g g)
        (offScatter p.groups flux old p.mm xs g) (external.group (bidx external.groups g))
        (boundary.group (bidx boundary.groups g)) p.mm p.dx p.angleX p.angleW p.bcL p.bcR false) p.convIn 100
        (fun i => old i g) y n ∧ y n = fun i => new i g := by
  obtain ⟨x, s, hs1, hs2, hx0, hstep, he, hconv, hno⟩ := C18_within_group_stops (N := p.cells)
    (A := p.angles) p.convIn (fun m => xsTotal m g) (fun m => xs m g g)
    (offScatter p.groups flux old p.mm xs g) (external.group (bidx external.groups g))
    (boundary.group (bidx boundary.groups g)) p.mm p.dx p.angleX p.angleW p.bcL p.bcR false
    (fun i => old i g) hok.nonzero hok.phys
  refine ⟨putCol flux g (x s), x, s, ?_, fun i g' h => by simp [putCol, h], ⟨hx0, hs1, hs2, hstep, hconv, hno⟩, ?_⟩
  · unfold groupStepIso
    simp only [hok.slab, if_true]
    rw [he]; rfl
  · funext i; simp [putCol]

/-- All groups. -/
theorem oneSweepIso_runs (p : Problem K) (xsTotal : ℕ → ℕ → K) (xs : ℕ → ℕ → ℕ → K)
    (external boundary : Arr3 K) (old : ℕ → ℕ → K) (hok : ∀ g < p.groups, SlabOk p xsTotal g) :
    ∃ (new : ℕ → ℕ → K) (y : ℕ → ℕ → ℕ → K) (n : ℕ → ℕ), oneSweepIso p xsTotal xs external boundary old = .ok new ∧ ∀ g < p.groups,
      Spec.Run (Slab.isotropicSweep p.cells p.angles (fun m => xsTotal m g) (fun m => xs m g g)
        (offScatter p.groups new old p.mm xs g) (external.group (bidx external.groups g))
        (boundary.group (bidx boundary.groups g)) p.mm p.dx p.angleX p.angleW p.bcL p.bcR false) p.convIn 100
        (fun i => old i g) (y g) (n g) ∧ y g (n g) = fun i => new i g := by
  obtain ⟨new, h1, y, n, h2⟩ := loopE_inv (fun k (f : ℕ → ℕ → K) => ∃ (y : ℕ → ℕ → ℕ → K) (n : ℕ → ℕ), ∀ g < k,
      Spec.Run (Slab.isotropicSweep p.cells p.angles (fun m => xsTotal m g) (fun m => xs m g g)
        (offScatter p.groups f old p.mm xs g) (external.group (bidx external.groups g))
        (boundary.group (bidx boundary.groups g)) p.mm p.dx p.angleX p.angleW p.bcL p.bcR false) p.convIn 100
        (fun i => old i g) (y g) (n g) ∧ y g (n g) = fun i => f i g)
    p.groups (groupStepIso p xsTotal xs external boundary old) (fun _ _ => 0)
    ⟨fun _ _ _ => 0, fun _ => 0, fun g hg => absurd hg (Nat.not_lt_zero _)⟩ (fun k hk f hf => by
      obtain ⟨y, n, hf⟩ := hf
      obtain ⟨new, y', n', e, hother, hr, hy⟩ := groupStepIso_run p xsTotal xs external boundary old f k (hok k hk)
      refine ⟨new, e, fun g => if g = k then y' else y g, fun g => if g = k then n' else n g, fun g hg => ?_⟩
      have hoff : offScatter p.groups new old p.mm xs g = offScatter p.groups f old p.mm xs g := by
        funext i
        rw [offScatter_eq _ _ _ _ _ (by omega), offScatter_eq _ _ _ _ _ (by omega)]
        refine sum_congr rfl fun og _ => ?_
        split
        · next h => rw [hother i og (by omega)]
        · rfl
      rw [hoff]
      rcases Nat.lt_succ_iff_lt_or_eq.mp hg with h | h
      · have hne : g ≠ k := by omega
        simp only [if_neg hne]
        rw [show (fun i => new i g) = fun i => f i g from funext fun i => hother i g hne]
        exact hf g h
      · subst h
        simp only [if_true]
        exact ⟨hr, hy⟩)
  exact ⟨new, y, n, h1, h2⟩

end Discrete1.MultiGroup
