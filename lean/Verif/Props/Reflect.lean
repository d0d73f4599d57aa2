import Verif.Props.Slab

/-!
# C14, C75: reflecting boundaries
-/

set_option linter.unusedSectionVars false
set_option linter.unusedSimpArgs false

namespace Discrete1.Props

open Finset Discrete1.Tools Discrete1.Spec Discrete1.Slab Discrete1.MultiGroup

variable {K : Type*} [Field K] [LinearOrder K] [IsStrictOrderedRing K]

/-! ## C14 -/

/-- C14 (equations): unfolding a half-slab solution with a reflecting left face gives the solution of
the mirrored slab of twice the length without reflection. -/
theorem C14_mirrored_solution {N A : ℕ} {mu dx sigma : ℕ → K} {q psi : ℕ → ℕ → K} {bR : ℕ → K}
    (hsym : Symmetric A mu) (hord : ∀ n < A, 0 < mu n → A - 1 - n < n)
    (hb : AllBalanced N A mu dx sigma q psi)
    (hin : SweptInflow N A mu true false (fun _ => 0) bR psi) :
    AllBalanced (2 * N) A mu (fun i => dx (mirrorCell N i)) (fun i => sigma (mirrorCell N i))
        (fun n i => q (mirrorDir N A n i) (mirrorCell N i))
        (fun n i => psi (mirrorDir N A n i) (mirrorEdge N i)) ∧
      SweptInflow (2 * N) A mu false false (fun n => bR (A - 1 - n)) bR
        (fun n i => psi (mirrorDir N A n i) (mirrorEdge N i)) := by
  have hbc := C08_left_reflection hsym hord hin
  have hrefl : ∀ n < A, psi n 0 = psi (A - 1 - n) 0 := by
    intro n hn
    rcases lt_or_gt_of_ne (hsym.nonzero n hn) with h | h
    · have hp : 0 < mu (A - 1 - n) := by rw [hsym.mirror n hn]; linarith
      have := (hbc (A - 1 - n) (by omega)).1 hp
      rw [show A - 1 - (A - 1 - n) = n by omega] at this
      simpa using this.symm
    · simpa using (hbc n hn).1 h
  have hright : ∀ n < A, mu n < 0 → psi n N = bR n := by
    intro n hn h
    simpa using (hbc n hn).2 h
  constructor
  · intro n hn i hi
    by_cases hiN : i < N
    · have hc := hb (A - 1 - n) (by omega) (N - 1 - i) (by omega)
      rw [hsym.mirror n hn] at hc
      have e1 : psi (mirrorDir N A n i) (mirrorEdge N i) = psi (A - 1 - n) (N - 1 - i + 1) := by
        simp only [mirrorDir, mirrorEdge, if_pos hiN]
        rw [show N - 1 - i + 1 = N - i by omega]
      have e2 : psi (mirrorDir N A n (i + 1)) (mirrorEdge N (i + 1)) = psi (A - 1 - n) (N - 1 - i) := by
        by_cases h2 : i + 1 < N
        · simp only [mirrorDir, mirrorEdge, if_pos h2]
          rw [show N - (i + 1) = N - 1 - i by omega]
        · simp only [mirrorDir, mirrorEdge, if_neg h2]
          rw [show i + 1 - N = 0 by omega, show N - 1 - i = 0 by omega]
          exact hrefl n hn
      simp only
      rw [e1, e2]
      simp only [mirrorCell, mirrorDir, if_pos hiN]
      rw [← hc]; ring
    · have hc := hb n hn (i - N) (by omega)
      have h2 : ¬ i + 1 < N := by omega
      simp only [mirrorCell, mirrorDir, mirrorEdge, if_neg hiN, if_neg h2]
      rw [show i + 1 - N = i - N + 1 by omega]
      exact hc
  · intro n hn
    have hz : ¬ (A - 1 - n < n ∧ leavesReflecting false false (mu (A - 1 - n))) := by
      simp [leavesReflecting]
    simp only [if_neg hz, add_zero, inflow]
    rcases lt_or_gt_of_ne (hsym.nonzero n hn) with h | h
    · simp only [if_neg (not_lt.mpr h.le)]
      have : ¬ 2 * N < N := by omega
      simp only [mirrorDir, mirrorEdge, if_neg this]
      rw [show 2 * N - N = N by omega]
      exact hright n hn h
    · simp only [if_pos h]
      have hm : mu (A - 1 - n) < 0 := by rw [hsym.mirror n hn]; linarith
      have hr := hright (A - 1 - n) (by omega) hm
      by_cases hN : 0 < N
      · simp only [mirrorDir, mirrorEdge, if_pos hN, Nat.sub_zero]
        exact hr
      · have : N = 0 := by omega
        subst this
        simp only [mirrorDir, mirrorEdge, lt_irrefl, if_false]
        rw [hrefl n hn]; exact hr

/-- The mirrored full slab: `2 N` cells, no reflection. -/
def mirrored (p : Problem K) : Problem K :=
  { p with
    cells := 2 * p.cells
    mm := fun i => p.mm (mirrorCell p.cells i)
    dx := fun i => p.dx (mirrorCell p.cells i)
    bcL := false
    bcR := false }

/-- Source of the mirrored slab: the reflected source to the left, the source itself to the right. -/
def mirroredSource (p : Problem K) (s : Arr3 K) : Arr3 K :=
  ⟨p.angles, s.groups, fun i n g =>
    s.val (mirrorCell p.cells i) (bidx s.angles (mirrorDir p.cells p.angles n i)) g⟩

/-- Boundary of the mirrored slab: the right boundary source at both ends. -/
def mirroredBoundary (p : Problem K) (b : Arr3 K) : Arr3 K :=
  ⟨p.angles, b.groups, fun side n g => b.val 1 (bidx b.angles (if side = 0 then p.angles - 1 - n else n)) g⟩

theorem symmetric_ne_one {A : ℕ} {mu : ℕ → K} (h : Symmetric A mu) : A ≠ 1 := by
  intro hA
  subst hA
  have h1 := h.mirror 0 (by omega)
  have h2 := h.nonzero 0 (by omega)
  simp only [Nat.sub_self] at h1
  exact h2 (by linarith)

theorem mirrored_known {p : Problem K} {xsTotal : ℕ → ℕ → K} {source boundary : Arr3 K} {g : ℕ}
    (hsym : Symmetric p.angles p.angleX)
    (hord : ∀ n < p.angles, 0 < p.angleX n → p.angles - 1 - n < n)
    (hL : p.bcL = true) (hR : p.bcR = false)
    (hb0 : ∀ n < p.angles, boundary.val 0 (bidx boundary.angles n) (bidx boundary.groups g) = 0)
    {psi : ℕ → ℕ → K} (h : KnownSolution p xsTotal source boundary g psi) :
    KnownSolution (mirrored p) xsTotal (mirroredSource p source) (mirroredBoundary p boundary) g
      (fun n i => psi (mirrorDir p.cells p.angles n i) (mirrorEdge p.cells i)) := by
  obtain ⟨h1, h2⟩ := h
  rw [hL, hR] at h2
  have h2' : SweptInflow p.cells p.angles p.angleX true false (fun _ => 0)
      (fun n => boundary.val 1 (bidx boundary.angles n) (bidx boundary.groups g)) psi := by
    intro n hn
    rw [h2 n hn]
    congr 1
    split
    · exact hb0 n hn
    · rfl
  obtain ⟨m1, m2⟩ := C14_mirrored_solution hsym hord h1 h2'
  have hA := symmetric_ne_one hsym
  have hbd : ∀ n, bidx p.angles n = n := fun n => by simp [bidx, hA]
  constructor
  · intro n hn i hi
    have := m1 n hn i hi
    simp only [mirrored, mirroredSource, hbd] at this ⊢
    exact this
  · intro n hn
    have := m2 n hn
    simp only [mirrored, mirroredBoundary, hbd, if_true, one_ne_zero, if_false] at this ⊢
    exact this

/-- C14 at the API: the known-source flux on the half slab with a reflecting left face equals, at every
cell center, the flux of the right half of the mirrored problem without reflection (and the mirror
image in the left half); same for every edge, and for the angular flux of every direction. -/
theorem C14_reflecting_equals_mirrored (p : Problem K) (xsTotal : ℕ → ℕ → K)
    (source boundary : Arr3 K) (g : ℕ) (hok : SlabOk p xsTotal g)
    (hsym : Symmetric p.angles p.angleX)
    (hord : ∀ n < p.angles, 0 < p.angleX n → p.angles - 1 - n < n)
    (hL : p.bcL = true) (hR : p.bcR = false)
    (hb0 : ∀ n < p.angles, boundary.val 0 (bidx boundary.angles n) (bidx boundary.groups g) = 0)
    (hw : ∀ n < p.angles, p.angleW (p.angles - 1 - n) = p.angleW n) :
    (∃ half full, knownSourceScalar p xsTotal source boundary false = .ok half ∧
      knownSourceScalar (mirrored p) xsTotal (mirroredSource p source) (mirroredBoundary p boundary)
        false = .ok full ∧
      ∀ i < p.cells, full (p.cells + i) g = half i g ∧ full (p.cells - 1 - i) g = half i g) ∧
    (∃ half full, knownSourceScalar p xsTotal source boundary true = .ok half ∧
      knownSourceScalar (mirrored p) xsTotal (mirroredSource p source) (mirroredBoundary p boundary)
        true = .ok full ∧ ∀ i ≤ p.cells, full (p.cells + i) g = half i g) ∧
    (0 < p.angles → source.angles = p.angles → ∃ half full,
      knownSourceAngular p xsTotal source boundary true = .ok half ∧
      knownSourceAngular (mirrored p) xsTotal (mirroredSource p source) (mirroredBoundary p boundary)
        true = .ok full ∧ ∀ n < p.angles, ∀ i ≤ p.cells, full (p.cells + i) n g = half i n g) := by
  obtain ⟨psi, hpsi⟩ := C08_known_source_exists p xsTotal source boundary g hok
  have hfull := mirrored_known hsym hord hL hR hb0 hpsi
  have hok' : SlabOk (mirrored p) xsTotal g := ⟨hok.slab, hok.nonzero, by
    intro i hi
    refine hok.phys (mirrorCell p.cells i) ?_
    have hi : i < 2 * p.cells := hi
    unfold mirrorCell; split <;> omega⟩
  obtain ⟨⟨c, hc, hc'⟩, ⟨e, he, he'⟩, ha⟩ := C08_known_source p _ _ _ g hok _ hpsi
  obtain ⟨⟨C, hC, hC'⟩, ⟨E, hE, hE'⟩, hA⟩ := C08_known_source (mirrored p) _ _ _ g hok' _ hfull
  have hcells : (mirrored p).cells = 2 * p.cells := rfl
  have edgeR : ∀ n i, psi (mirrorDir p.cells p.angles n (p.cells + i)) (mirrorEdge p.cells (p.cells + i))
      = psi n i := by
    intro n i
    have : ¬ p.cells + i < p.cells := by omega
    simp [mirrorDir, mirrorEdge]
  refine ⟨⟨c, C, hc, hC, fun i hi => ⟨?_, ?_⟩⟩, ⟨e, E, he, hE, fun i hi => ?_⟩, fun h0 hs => ?_⟩
  · rw [hC' _ (by rw [hcells]; omega), hc' i hi]
    unfold scalarCenter
    refine sum_congr rfl fun n _ => ?_
    beta_reduce
    rw [edgeR n i, show p.cells + i + 1 = p.cells + (i + 1) by omega, edgeR n (i + 1)]
    rfl
  · rw [hC' _ (by rw [hcells]; omega), hc' i hi]
    unfold scalarCenter
    show ∑ n ∈ range p.angles, _ = _
    rw [← sum_range_reflect]
    refine sum_congr rfl fun n hn => ?_
    have hn := mem_range.mp hn
    have e1 : psi (mirrorDir p.cells p.angles (p.angles - 1 - n) (p.cells - 1 - i))
        (mirrorEdge p.cells (p.cells - 1 - i)) = psi n (i + 1) := by
      have h1 : p.cells - 1 - i < p.cells := by omega
      simp only [mirrorDir, mirrorEdge, if_pos h1]
      rw [show p.angles - 1 - (p.angles - 1 - n) = n by omega,
        show p.cells - (p.cells - 1 - i) = i + 1 by omega]
    have e2 : psi (mirrorDir p.cells p.angles (p.angles - 1 - n) (p.cells - 1 - i + 1))
        (mirrorEdge p.cells (p.cells - 1 - i + 1)) = psi n i := by
      by_cases h1 : p.cells - 1 - i + 1 < p.cells
      · simp only [mirrorDir, mirrorEdge, if_pos h1]
        rw [show p.angles - 1 - (p.angles - 1 - n) = n by omega,
          show p.cells - (p.cells - 1 - i + 1) = i by omega]
      · simp only [mirrorDir, mirrorEdge, if_neg h1]
        rw [show p.cells - 1 - i + 1 - p.cells = 0 by omega, show i = 0 by omega]
        have h2' := hpsi.2
        rw [hL, hR] at h2'
        have hbc := C08_left_reflection hsym hord h2'
        rcases lt_or_gt_of_ne (hsym.nonzero n hn) with h | h
        · have hp : 0 < p.angleX (p.angles - 1 - n) := by rw [hsym.mirror n hn]; linarith
          have := (hbc (p.angles - 1 - n) (by omega)).1 hp
          beta_reduce at this
          rw [hb0 _ (by omega), show p.angles - 1 - (p.angles - 1 - n) = n by omega] at this
          simpa using this
        · have := (hbc n hn).1 h
          beta_reduce at this
          rw [hb0 n hn] at this
          simpa using this.symm
    simp only
    rw [e1, e2]
    show p.angleW (p.angles - 1 - n) * _ = _
    rw [hw n hn, add_comm (psi n (i + 1))]
  · rw [hE' _ (by rw [hcells]; omega), he' i hi]
    unfold scalarEdge
    refine sum_congr rfl fun n _ => ?_
    beta_reduce
    rw [edgeR n i]
    rfl
  · have hA1 : 1 < p.angles := by have := symmetric_ne_one hsym; omega
    obtain ⟨_, ⟨a, ha1, ha1'⟩⟩ := ha hA1 hs
    obtain ⟨_, ⟨A', hA1', hA1''⟩⟩ := hA hA1 rfl
    refine ⟨a, A', ha1, hA1', fun n hn i hi => ?_⟩
    rw [hA1'' n hn _ (by rw [hcells]; omega), ha1' n hn i hi, edgeR n i]

theorem exSym : Symmetric exProblem.angles exProblem.angleX where
  mirror := by
    intro n hn
    have hn : n < 4 := hn
    rcases n with _ | _ | _ | _ | n <;> simp [exProblem] <;> first | omega | norm_num
  nonzero := (exOk 0).nonzero

theorem exOrd : ∀ n < exProblem.angles, 0 < exProblem.angleX n → exProblem.angles - 1 - n < n := by
  intro n hn
  have hn : n < 4 := hn
  show _ → 4 - 1 - n < n
  rcases n with _ | _ | _ | _ | n <;> simp [exProblem] <;> first | omega | norm_num

-- the example problem (reflecting left face) with a nonzero source and right boundary
example : ∃ half full, knownSourceScalar exProblem exTotal ⟨1, 1, fun i _ _ => (i : ℚ)⟩
      ⟨1, 1, fun s _ _ => (s : ℚ)⟩ false = .ok half ∧
    knownSourceScalar (mirrored exProblem) exTotal
      (mirroredSource exProblem ⟨1, 1, fun i _ _ => (i : ℚ)⟩)
      (mirroredBoundary exProblem ⟨1, 1, fun s _ _ => (s : ℚ)⟩) false = .ok full ∧
    ∀ i < exProblem.cells, full (exProblem.cells + i) 0 = half i 0
      ∧ full (exProblem.cells - 1 - i) 0 = half i 0 :=
  (C14_reflecting_equals_mirrored exProblem exTotal _ _ 0 (exOk 0) exSym exOrd rfl rfl
    (fun _ _ => by simp) (fun _ _ => rfl)).1

/-- C14 for one sweep with scattering: the previous iterate is mirrored too. -/
theorem C14_sweep {N A : ℕ} (xsTotal xsScatter off : ℕ → K) (external boundary : Arr2 K)
    (mm : ℕ → ℕ) (dx mu w fluxOld : ℕ → K) (hsym : Symmetric A mu)
    (hord : ∀ n < A, 0 < mu n → A - 1 - n < n)
    (hphys : Physical N dx (fun i => xsTotal (mm i)))
    (hb0 : ∀ n < A, boundary.val 0 (bidx boundary.angles n) = 0) :
    ∃ half full,
      isotropicSweep N A xsTotal xsScatter off external boundary mm dx mu w true false false fluxOld
        = .ok half ∧
      isotropicSweep (2 * N) A xsTotal xsScatter (fun i => off (mirrorCell N i))
        ⟨A, fun i n => external.val (mirrorCell N i) (bidx external.angles (mirrorDir N A n i))⟩
        ⟨A, fun side n => boundary.val 1 (bidx boundary.angles (if side = 0 then A - 1 - n else n))⟩
        (fun i => mm (mirrorCell N i)) (fun i => dx (mirrorCell N i)) mu w false false false
        (fun i => fluxOld (mirrorCell N i)) = .ok full ∧
      ∀ i < N, full (N + i) = half i := by
  have hA := symmetric_ne_one hsym
  have hbd : ∀ n, bidx A n = n := fun n => by simp [bidx, hA]
  obtain ⟨half, psi, h1, h2, h3, h4⟩ := isotropicSweep_spec (N := N) xsTotal xsScatter off external
    boundary mm dx mu w true false false fluxOld hsym.nonzero hphys
  have hphys' : Physical (2 * N) (fun i => dx (mirrorCell N i))
      (fun i => xsTotal (mm (mirrorCell N i))) := by
    intro i hi
    refine hphys (mirrorCell N i) ?_
    unfold mirrorCell; split <;> omega
  obtain ⟨full, Psi, k1, k2, k3, k4⟩ := isotropicSweep_spec (N := 2 * N) xsTotal xsScatter
    (fun i => off (mirrorCell N i))
    ⟨A, fun i n => external.val (mirrorCell N i) (bidx external.angles (mirrorDir N A n i))⟩
    ⟨A, fun side n => boundary.val 1 (bidx boundary.angles (if side = 0 then A - 1 - n else n))⟩
    (fun i => mm (mirrorCell N i)) (fun i => dx (mirrorCell N i)) mu w false false false
    (fun i => fluxOld (mirrorCell N i)) hsym.nonzero hphys'
  have h3' : SweptInflow N A mu true false (fun _ => 0)
      (fun n => boundary.val 1 (bidx boundary.angles n)) psi := by
    intro n hn
    rw [h3 n hn]
    congr 1
    split
    · exact hb0 n hn
    · rfl
  obtain ⟨m1, m2⟩ := C14_mirrored_solution hsym hord h2 h3'
  have hu := swept_unique (bcL := false) (bcR := false) hsym.nonzero hphys' (psi := Psi) k2
    (psi' := fun n i => psi (mirrorDir N A n i) (mirrorEdge N i))
    (by
      intro n hn i hi
      have := m1 n hn i hi
      simp only [hbd]
      exact this) k3
    (by
      intro n hn
      have := m2 n hn
      simp only [hbd, if_true, one_ne_zero, if_false]
      exact this)
  refine ⟨half, full, h1, k1, fun i hi => ?_⟩
  rw [k4, h4]
  simp only [Bool.false_eq_true, if_false, if_pos hi, if_pos (show N + i < 2 * N by omega)]
  unfold scalarCenter
  refine sum_congr rfl fun n hn => ?_
  have hn := mem_range.mp hn
  rw [hu n hn _ (by omega), hu n hn _ (by omega)]
  have a1 : ¬ N + i < N := by omega
  have a2 : ¬ N + i + 1 < N := by omega
  simp only [mirrorDir, mirrorEdge, if_neg a1, if_neg a2]
  rw [show N + i - N = i by omega, show N + i + 1 - N = i + 1 by omega]

/-! ## C75: two reflecting faces -/

/-- C75 (violation): with both faces declared reflecting and the ascending ordering, the right
reflection is silently ignored: for every input the sweep returns exactly what it returns with the
right face transparent. -/
theorem C75_violation_right_reflection_ignored {N A : ℕ} (xsTotal xsScatter off : ℕ → K)
    (external boundary : Arr2 K) (mm : ℕ → ℕ) (dx mu w fluxOld : ℕ → K) (edges : Bool)
    (hsym : Symmetric A mu) (hord : ∀ n < A, 0 < mu n → A - 1 - n < n)
    (hphys : Physical N dx (fun i => xsTotal (mm i))) :
    isotropicSweep N A xsTotal xsScatter off external boundary mm dx mu w true true edges fluxOld =
    isotropicSweep N A xsTotal xsScatter off external boundary mm dx mu w true false edges fluxOld := by
  obtain ⟨f, psi, h1, h2, h3, h4⟩ := isotropicSweep_spec (N := N) xsTotal xsScatter off external
    boundary mm dx mu w true true edges fluxOld hsym.nonzero hphys
  obtain ⟨f', psi', k1, k2, k3, k4⟩ := isotropicSweep_spec (N := N) xsTotal xsScatter off external
    boundary mm dx mu w true false edges fluxOld hsym.nonzero hphys
  have h3' : SweptInflow N A mu true false (fun n => boundary.val 0 (bidx boundary.angles n))
      (fun n => boundary.val 1 (bidx boundary.angles n)) psi := by
    intro n hn
    rw [h3 n hn]
    congr 1
    by_cases hc : A - 1 - n < n
    · have hp : ¬ 0 < mu (A - 1 - n) := by
        intro hp
        have := hord (A - 1 - n) (by omega) hp
        omega
      simp [leavesReflecting, hp, hc]
    · simp [hc]
  have hu := swept_unique hsym.nonzero hphys h2 k2 h3' k3
  rw [h1, k1]
  congr 1
  funext i
  rw [h4 i, k4 i]
  cases edges
  · by_cases hi : i < N
    · simp only [hi, if_true, Bool.false_eq_true, if_false]
      exact sum_congr rfl fun n hn => by
        rw [hu n (mem_range.mp hn) i hi.le, hu n (mem_range.mp hn) (i + 1) hi]
    · simp [hi]
  · by_cases hi : i ≤ N
    · simp only [hi, if_true]
      exact sum_congr rfl fun n hn => by rw [hu n (mem_range.mp hn) i hi]
    · simp [hi]

/-- C75 (violation): consequently the reflecting condition at the right face fails; in the smallest
case (one cell, two directions, unit cross section and source) the flux entering at the right is `0`
although the flux leaving there is not. -/
theorem C75_violation_not_reflecting :
    ∃ psi : ℕ → ℕ → ℚ,
      AllBalanced 1 2 (fun n => if n = 0 then -1 / 2 else 1 / 2) (fun _ => 1) (fun _ => 1)
        (fun _ _ => 1) psi ∧
      SweptInflow 1 2 (fun n => if n = 0 then (-1 / 2 : ℚ) else 1 / 2) true true (fun _ => 0)
        (fun _ => 0) psi ∧
      ¬ BoundaryConditions 1 2 (fun n => if n = 0 then (-1 / 2 : ℚ) else 1 / 2) true true
        (fun _ => 0) (fun _ => 0) psi := by
  refine ⟨fun n i => if n = 0 then (if i = 0 then 1 else 0) else 1, ?_, ?_, ?_⟩
  · intro n hn i hi
    have hi : i = 0 := by omega
    subst hi
    rcases n with _ | _ | n
    · norm_num
    · norm_num
    · omega
  · intro n hn
    rcases n with _ | _ | n
    · norm_num [inflow, outflow, leavesReflecting]
    · norm_num [inflow, outflow, leavesReflecting]
    · omega
  · intro h
    have := (h 0 (by omega)).2 (by norm_num)
    norm_num at this

end Discrete1.Props
