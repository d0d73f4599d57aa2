import Verif.Props.Energy
import Verif.Props.Eigen
import Verif.Props.Existence

/-!
# C162-C164: reciprocity, adjoint eigenvalues and perturbation of keff
-/

set_option linter.unusedSectionVars false
set_option linter.unusedSimpArgs false

namespace Discrete1.Props

open Finset Discrete1.Spec Discrete1.Slab Discrete1.Tools Discrete1.MultiGroup Discrete1.Drivers Discrete1.Critical

variable {K : Type} [Field K] [LinearOrder K] [IsStrictOrderedRing K]

/-- The streaming operators of opposite directions are each other's transpose on every mesh. -/
theorem direction_duality {N : ℕ} {mu : K} {dx sigma q r e f : ℕ → K} (hdx : ∀ i < N, dx i ≠ 0)
    (h : CellBalance N mu dx sigma q e) (h' : CellBalance N (-mu) dx sigma r f) :
    ∑ i ∈ range N, dx i * (q i * ((f i + f (i + 1)) / 2)) - ∑ i ∈ range N, dx i * (r i * ((e i + e (i + 1)) / 2))
      = mu * (e N * f N) - mu * (e 0 * f 0) := by
  rw [← sum_sub_distrib, ← sum_range_sub (fun i => mu * (e i * f i))]
  refine sum_congr rfl fun i hi => ?_
  have hi := mem_range.mp hi
  rw [← h i hi, ← h' i hi]
  have := hdx i hi
  field_simp
  ring

/-- The quadrature is symmetric: opposite directions, equal weights. -/
structure Even (p : Problem K) : Prop where
  sym : Symmetric p.angles p.angleX
  weight : ∀ n < p.angles, p.angleW (p.angles - 1 - n) = p.angleW n

theorem mirror_lt {A n : ℕ} (hn : n < A) : A - 1 - n < A := by omega

theorem mirror_mirror {A n : ℕ} (hn : n < A) : A - 1 - (A - 1 - n) = n := by omega

/-- Sum over directions and over mirrored directions agree. -/
theorem sum_mirror (A : ℕ) (f : ℕ → K) : ∑ n ∈ range A, f (A - 1 - n) = ∑ n ∈ range A, f n :=
  sum_range_reflect f A

/-- Importance of the particles that a boundary source sends in: current times the outgoing flux of the dual problem. -/
def boundaryImportance (p : Problem K) (bL bR : ℕ → K) (chi : ℕ → ℕ → K) : K :=
  ∑ n ∈ range p.angles, p.angleW n * |p.angleX n| *
    (if 0 < p.angleX n then bL n * chi (p.angles - 1 - n) 0 else bR n * chi (p.angles - 1 - n) p.cells)

/-- The boundary terms of the duality: reflecting faces contribute nothing. -/
theorem boundary_duality (p : Problem K) (hE : Even p) {bL bR : ℕ → K} {psi chi : ℕ → ℕ → K}
    (h : BoundaryConditions p.cells p.angles p.angleX p.bcL p.bcR bL bR psi)
    (h' : BoundaryConditions p.cells p.angles p.angleX p.bcL p.bcR (fun _ => 0) (fun _ => 0) chi) :
    ∑ n ∈ range p.angles, p.angleW n * (p.angleX n * (psi n p.cells * chi (p.angles - 1 - n) p.cells)
      - p.angleX n * (psi n 0 * chi (p.angles - 1 - n) 0)) = - boundaryImportance p bL bR chi := by
  set A := p.angles with hA
  -- pair every direction with its mirror image
  set T : ℕ → K := fun n => p.angleW n * (p.angleX n * (psi n p.cells * chi (A - 1 - n) p.cells)
      - p.angleX n * (psi n 0 * chi (A - 1 - n) 0)) with hT
  set U : ℕ → K := fun n => p.angleW n * |p.angleX n| *
    (if 0 < p.angleX n then bL n * chi (A - 1 - n) 0 else bR n * chi (A - 1 - n) p.cells) with hU
  have key : ∀ n ∈ range A, T n + T (A - 1 - n) = - (U n + U (A - 1 - n)) := by
    have pos : ∀ n < A, 0 < p.angleX n → T n + T (A - 1 - n) = - (U n + U (A - 1 - n)) := by
      intro n hn hp
      have hm := mirror_lt hn
      have hmm := mirror_mirror hn
      have hx := hE.sym.mirror n hn
      have hw := hE.weight n hn
      rw [← hA] at hx hw
      have hneg : p.angleX (A - 1 - n) < 0 := by rw [hx]; linarith
      have e1 := (h n hn).1 hp
      have e2 := (h (A - 1 - n) hm).2 hneg
      have e3 := (h' n hn).1 hp
      have e4 := (h' (A - 1 - n) hm).2 hneg
      rw [hmm] at e2 e4
      simp only [zero_add] at e3 e4
      simp only [hT, hU]
      rw [hmm, if_pos hp, if_neg (not_lt.mpr hneg.le), abs_of_pos hp, abs_of_neg hneg, hx, hw, e1, e2]
      have l : p.angleX n * ((bL n + if p.bcL = true then psi (A - 1 - n) 0 else 0) * chi (A - 1 - n) 0)
          - p.angleX n * (psi (A - 1 - n) 0 * chi n 0) = p.angleX n * (bL n * chi (A - 1 - n) 0) := by
        cases hb : p.bcL
        · rw [hb] at e3
          simp only [Bool.false_eq_true, if_false] at e3
          simp [e3]
        · rw [hb] at e3
          simp only [if_true] at e3
          simp only [if_true]
          rw [e3]; ring
      have r : p.angleX n * ((bR (A - 1 - n) + if p.bcR = true then psi n p.cells else 0) * chi n p.cells)
          - p.angleX n * (psi n p.cells * chi (A - 1 - n) p.cells) = p.angleX n * (bR (A - 1 - n) * chi n p.cells) := by
        cases hb : p.bcR
        · rw [hb] at e4
          simp only [Bool.false_eq_true, if_false] at e4
          simp [e4]
        · rw [hb] at e4
          simp only [if_true] at e4
          simp only [if_true]
          rw [e4]; ring
      linear_combination (- p.angleW n) * l + (- p.angleW n) * r
    intro n hn
    have hn := mem_range.mp hn
    rcases lt_or_gt_of_ne (hE.sym.nonzero n hn) with hneg | hp
    · have hm := mirror_lt hn
      have hx := hE.sym.mirror n hn
      rw [← hA] at hx
      have := pos (A - 1 - n) hm (by rw [hx]; linarith)
      rw [mirror_mirror hn] at this
      linear_combination this
    · exact pos n hn hp
  have hsum := sum_congr rfl key
  rw [sum_add_distrib, sum_mirror A T, sum_neg_distrib, sum_add_distrib, sum_mirror A U] at hsum
  have h2 : (2 : K) ≠ 0 := two_ne_zero
  have : 2 * ∑ n ∈ range A, T n = 2 * (- ∑ n ∈ range A, U n) := by linear_combination hsum
  exact mul_left_cancel₀ h2 this

/-- One group: the source of one problem weighted with the solution of the dual one. -/
theorem group_duality (p : Problem K) (hE : Even p) (hdx : ∀ i < p.cells, p.dx i ≠ 0) {sigma : ℕ → K} {q r : ℕ → ℕ → K}
    {bL bR : ℕ → K} {psi chi : ℕ → ℕ → K} (h : AllBalanced p.cells p.angles p.angleX p.dx sigma q psi)
    (h' : AllBalanced p.cells p.angles p.angleX p.dx sigma r chi)
    (hb : BoundaryConditions p.cells p.angles p.angleX p.bcL p.bcR bL bR psi)
    (hb' : BoundaryConditions p.cells p.angles p.angleX p.bcL p.bcR (fun _ => 0) (fun _ => 0) chi) :
    ∑ n ∈ range p.angles, p.angleW n * ∑ i ∈ range p.cells,
        p.dx i * (q n i * ((chi (p.angles - 1 - n) i + chi (p.angles - 1 - n) (i + 1)) / 2))
      + boundaryImportance p bL bR chi
    = ∑ n ∈ range p.angles, p.angleW n * ∑ i ∈ range p.cells,
        p.dx i * (r (p.angles - 1 - n) i * ((psi n i + psi n (i + 1)) / 2)) := by
  have e : ∀ n ∈ range p.angles, p.angleW n * ∑ i ∈ range p.cells,
        p.dx i * (q n i * ((chi (p.angles - 1 - n) i + chi (p.angles - 1 - n) (i + 1)) / 2))
      - p.angleW n * ∑ i ∈ range p.cells, p.dx i * (r (p.angles - 1 - n) i * ((psi n i + psi n (i + 1)) / 2))
      = p.angleW n * (p.angleX n * (psi n p.cells * chi (p.angles - 1 - n) p.cells)
      - p.angleX n * (psi n 0 * chi (p.angles - 1 - n) 0)) := by
    intro n hn
    have hn := mem_range.mp hn
    rw [← mul_sub, direction_duality hdx (h n hn) (by rw [← hE.sym.mirror n hn]; exact h' _ (mirror_lt hn))]
  have := sum_congr rfl e
  rw [sum_sub_distrib, boundary_duality p hE hb hb'] at this
  linear_combination this

/-- Quadrature sum over mirrored directions. -/
theorem scalar_mirror (p : Problem K) (hE : Even p) (chi : ℕ → ℕ → K) (i : ℕ) :
    ∑ n ∈ range p.angles, p.angleW n * ((chi (p.angles - 1 - n) i + chi (p.angles - 1 - n) (i + 1)) / 2)
      = scalarCenter p.angles p.angleW chi i := by
  unfold scalarCenter
  rw [← sum_mirror p.angles fun n => p.angleW n * ((chi n i + chi n (i + 1)) / 2)]
  exact sum_congr rfl fun n hn => by rw [hE.weight n (mem_range.mp hn)]

/-- Isotropic sources: the work is that of the scalar flux. -/
theorem isotropic_pairing (p : Problem K) (hE : Even p) (q : ℕ → K) (chi : ℕ → ℕ → K) :
    ∑ n ∈ range p.angles, p.angleW n * ∑ i ∈ range p.cells,
        p.dx i * (q i * ((chi (p.angles - 1 - n) i + chi (p.angles - 1 - n) (i + 1)) / 2))
      = ∑ i ∈ range p.cells, p.dx i * (q i * scalarCenter p.angles p.angleW chi i) := by
  simp only [mul_sum]
  rw [sum_comm]
  refine sum_congr rfl fun i _ => ?_
  rw [← scalar_mirror p hE, mul_sum, mul_sum]
  exact sum_congr rfl fun n _ => by ring

theorem isotropic_pairing' (p : Problem K) (q : ℕ → K) (psi : ℕ → ℕ → K) :
    ∑ n ∈ range p.angles, p.angleW n * ∑ i ∈ range p.cells, p.dx i * (q i * ((psi n i + psi n (i + 1)) / 2))
      = ∑ i ∈ range p.cells, p.dx i * (q i * scalarCenter p.angles p.angleW psi i) := by
  simp only [mul_sum]
  rw [sum_comm]
  refine sum_congr rfl fun i _ => ?_
  unfold scalarCenter
  rw [mul_sum, mul_sum]
  exact sum_congr rfl fun n _ => by ring

/-- `sum_g sum_i dx_i f_i,g r_i,g`: the response of a detector `r` to the flux `f` (or of the flux to a source). -/
def pairing (p : Problem K) (f r : ℕ → ℕ → K) : K :=
  ∑ g ∈ range p.groups, ∑ i ∈ range p.cells, p.dx i * (f i g * r i g)

/-- Reflecting faces are honoured by the sweep order: the only faces the sweep can reflect at are those it meets in
the right order (at most one reflecting face, and the directions leaving it come first). -/
structure Ordered (p : Problem K) : Prop where
  left : p.bcL = true → p.bcR = false ∧ ∀ n < p.angles, 0 < p.angleX n → p.angles - 1 - n < n
  right : p.bcR = true → p.bcL = false ∧ ∀ n < p.angles, p.angleX n < 0 → p.angles - 1 - n < n

theorem Ordered.conditions {p : Problem K} (ho : Ordered p) (hE : Even p) {bL bR : ℕ → K} {psi : ℕ → ℕ → K}
    (h : SweptInflow p.cells p.angles p.angleX p.bcL p.bcR bL bR psi) :
    BoundaryConditions p.cells p.angles p.angleX p.bcL p.bcR bL bR psi := by
  cases hl : p.bcL with
  | true =>
    have := ho.left hl
    rw [hl, this.1] at h
    rw [this.1]
    exact C08_left_reflection hE.sym this.2 h
  | false =>
    cases hr : p.bcR with
    | true =>
      have := ho.right hr
      rw [hl, hr] at h
      exact C08_right_reflection hE.sym this.2 h
    | false =>
      rw [hl, hr] at h
      intro n hn
      have hh := h n hn
      have hno : ¬ (p.angles - 1 - n < n ∧ leavesReflecting false false (p.angleX (p.angles - 1 - n))) := by
        rintro ⟨_, hc | hc⟩ <;> exact absurd hc.2 (by simp)
      rw [if_neg hno, add_zero] at hh
      refine ⟨fun hp => ?_, fun hn' => ?_⟩
      · simp only [inflow, if_pos hp] at hh
        simp [hh]
      · simp only [inflow, if_neg (not_lt.mpr hn'.le)] at hh
        simp [hh]

/-- C162 (duality of solutions): `phi` solves the multigroup problem with scattering `xs`, source and boundary source;
`dual` solves the problem with transposed scattering, source `detector` and no boundary source.  The response of the
detector equals the importance of the source, on every mesh. -/
theorem C162_duality (p : Problem K) (hE : Even p) (ho : Ordered p) (xsTotal : ℕ → ℕ → K) (xs : ℕ → ℕ → ℕ → K)
    (hdx : ∀ i < p.cells, p.dx i ≠ 0) (source detector : ℕ → ℕ → K) (boundary : Arr3 K) (phi dual : ℕ → ℕ → K)
    (psi chi : ℕ → ℕ → ℕ → K)
    (h : SolvesMultigroup p xsTotal xs ⟨1, p.groups, fun i _ g => source i g⟩ boundary phi psi)
    (h' : SolvesMultigroup p xsTotal (fun m g g' => xs m g' g) ⟨1, p.groups, fun i _ g => detector i g⟩ zeroBoundary
      dual chi) :
    pairing p dual source + ∑ g ∈ range p.groups,
        boundaryImportance p (fun n => boundary.val 0 (bidx boundary.angles n) (bidx boundary.groups g))
          (fun n => boundary.val 1 (bidx boundary.angles n) (bidx boundary.groups g)) (chi g)
      = pairing p phi detector := by
  have e : ∀ g ∈ range p.groups, ∑ i ∈ range p.cells, p.dx i *
        (((∑ og ∈ range p.groups, xs (p.mm i) g og * phi i og) + source i g) * dual i g)
      + boundaryImportance p (fun n => boundary.val 0 (bidx boundary.angles n) (bidx boundary.groups g))
          (fun n => boundary.val 1 (bidx boundary.angles n) (bidx boundary.groups g)) (chi g)
      = ∑ i ∈ range p.cells, p.dx i *
        (((∑ og ∈ range p.groups, xs (p.mm i) og g * dual i og) + detector i g) * phi i g) := by
    intro g hg
    have hg := mem_range.mp hg
    have := group_duality p hE hdx (h.balance g hg) (h'.balance g hg) (ho.conditions hE (h.inflow g hg))
      (ho.conditions hE (h'.inflow g hg))
    simp only [bidx_full _ _ hg] at this
    rw [isotropic_pairing p hE (fun i => (∑ og ∈ range p.groups, xs (p.mm i) g og * phi i og) + source i g),
      isotropic_pairing' p (fun i => (∑ og ∈ range p.groups, xs (p.mm i) og g * dual i og) + detector i g)] at this
    rw [show ∑ i ∈ range p.cells, p.dx i *
        (((∑ og ∈ range p.groups, xs (p.mm i) g og * phi i og) + source i g) * dual i g)
        = ∑ i ∈ range p.cells, p.dx i * (((∑ og ∈ range p.groups, xs (p.mm i) g og * phi i og) + source i g)
          * scalarCenter p.angles p.angleW (chi g) i) from
        sum_congr rfl fun i hi => by rw [h'.scalar g hg i (mem_range.mp hi)],
      show ∑ i ∈ range p.cells, p.dx i *
        (((∑ og ∈ range p.groups, xs (p.mm i) og g * dual i og) + detector i g) * phi i g)
        = ∑ i ∈ range p.cells, p.dx i * (((∑ og ∈ range p.groups, xs (p.mm i) og g * dual i og) + detector i g)
          * scalarCenter p.angles p.angleW (psi g) i) from
        sum_congr rfl fun i hi => by rw [h.scalar g hg i (mem_range.mp hi)]]
    exact this
  have hsum := sum_congr rfl e
  rw [sum_add_distrib] at hsum
  have s1 : ∑ g ∈ range p.groups, ∑ i ∈ range p.cells, p.dx i *
        (((∑ og ∈ range p.groups, xs (p.mm i) g og * phi i og) + source i g) * dual i g)
      = (∑ i ∈ range p.cells, ∑ g ∈ range p.groups, ∑ og ∈ range p.groups,
          p.dx i * (xs (p.mm i) g og * phi i og * dual i g)) + pairing p dual source := by
    unfold pairing
    rw [sum_comm (s := range p.cells), ← sum_add_distrib]
    refine sum_congr rfl fun g _ => ?_
    rw [← sum_add_distrib]
    refine sum_congr rfl fun i _ => ?_
    rw [add_mul, sum_mul, mul_add, mul_sum]
    ring
  have s2 : ∑ g ∈ range p.groups, ∑ i ∈ range p.cells, p.dx i *
        (((∑ og ∈ range p.groups, xs (p.mm i) og g * dual i og) + detector i g) * phi i g)
      = (∑ i ∈ range p.cells, ∑ g ∈ range p.groups, ∑ og ∈ range p.groups,
          p.dx i * (xs (p.mm i) g og * phi i og * dual i g)) + pairing p phi detector := by
    have sw : ∀ i, ∑ g ∈ range p.groups, ∑ og ∈ range p.groups, p.dx i * (xs (p.mm i) g og * phi i og * dual i g)
        = ∑ g ∈ range p.groups, ∑ og ∈ range p.groups, p.dx i * (xs (p.mm i) og g * dual i og * phi i g) := by
      intro i
      rw [sum_comm]
      exact sum_congr rfl fun g _ => sum_congr rfl fun og _ => by ring
    rw [sum_congr rfl fun i _ => sw i]
    unfold pairing
    rw [sum_comm (s := range p.cells), ← sum_add_distrib]
    refine sum_congr rfl fun g _ => ?_
    rw [← sum_add_distrib]
    refine sum_congr rfl fun i _ => ?_
    rw [add_mul, sum_mul, mul_add, mul_sum]
    ring
  rw [s1, s2] at hsum
  linear_combination hsum


/-- Response of a detector to an error of the flux. -/
theorem pairing_error (p : Problem K) (hdx : ∀ i < p.cells, 0 ≤ p.dx i) (f f' r : ℕ → ℕ → K) (e : K)
    (h : ∀ i < p.cells, ∀ g < p.groups, |f i g - f' i g| ≤ e) :
    |pairing p f r - pairing p f' r| ≤ e * ∑ g ∈ range p.groups, ∑ i ∈ range p.cells, p.dx i * |r i g| := by
  unfold pairing
  rw [← sum_sub_distrib, mul_sum]
  refine (abs_sum_le_sum_abs _ _).trans (sum_le_sum fun g hg => ?_)
  rw [← sum_sub_distrib, mul_sum]
  refine (abs_sum_le_sum_abs _ _).trans (sum_le_sum fun i hi => ?_)
  have hi := mem_range.mp hi
  rw [show p.dx i * (f i g * r i g) - p.dx i * (f' i g * r i g) = (f i g - f' i g) * (p.dx i * r i g) by ring, abs_mul,
    abs_mul (p.dx i), abs_of_nonneg (hdx i hi)]
  exact mul_le_mul_of_nonneg_right (h i hi g (mem_range.mp hg)) (mul_nonneg (hdx i hi) (abs_nonneg _))

/-- C162: `source_iteration` finds the response of a detector that the dual problem predicts: there is one importance
function (the solution with transposed scattering and the detector as its source), and from every guess the response
computed from the returned flux is within `c^sweeps M` (times the size of the detector) of the importance of the
source and of the boundary source. -/
theorem C162_source_iteration (p : Problem K) (hE : Even p) (ho : Ordered p) (xsTotal : ℕ → ℕ → K)
    (xs : ℕ → ℕ → ℕ → K) (c c' : K) (hc : 0 ≤ c) (hc1 : c < 1) (hcon : Contractive p xsTotal xs c) (hc' : 0 ≤ c')
    (hc1' : c' < 1) (hcon' : Contractive p xsTotal (fun m g g' => xs m g' g) c') (hG : 0 < p.groups)
    (detector : ℕ → ℕ → K) :
    ∃ dual chi, SolvesMultigroup p xsTotal (fun m g g' => xs m g' g) ⟨1, p.groups, fun i _ g => detector i g⟩
        zeroBoundary dual chi ∧
      ∀ (source : ℕ → ℕ → K) (boundary : Arr3 K), ∃ phi psi,
        SolvesMultigroup p xsTotal xs ⟨1, p.groups, fun i _ g => source i g⟩ boundary phi psi ∧
        ∀ (guess : ℕ → ℕ → K) (M : K), 0 ≤ M → (∀ i < p.cells, ∀ g < p.groups, |guess i g - phi i g| ≤ M) →
          ∃ flux sweeps, 1 ≤ sweeps ∧ sweeps ≤ 100 ∧
            sourceIteration p xsTotal (.iso xs) ⟨1, p.groups, fun i _ g => source i g⟩ boundary guess = .ok flux ∧
            |pairing p flux detector - (pairing p dual source + ∑ g ∈ range p.groups,
              boundaryImportance p (fun n => boundary.val 0 (bidx boundary.angles n) (bidx boundary.groups g))
                (fun n => boundary.val 1 (bidx boundary.angles n) (bidx boundary.groups g)) (chi g))|
              ≤ c ^ sweeps * M * ∑ g ∈ range p.groups, ∑ i ∈ range p.cells, p.dx i * |detector i g| := by
  have hdx : ∀ i < p.cells, 0 < p.dx i := fun i hi => ((hcon.ok 0 hG).phys i hi).1
  obtain ⟨dual, chi, hd, _, _⟩ := C74_source_iteration_finds_solution p xsTotal _
    ⟨1, p.groups, fun i _ g => detector i g⟩ zeroBoundary c' hc' hc1' hcon'
  refine ⟨dual, chi, hd, fun source boundary => ?_⟩
  obtain ⟨phi, psi, hs, _, hrun⟩ := C74_source_iteration_finds_solution p xsTotal xs
    ⟨1, p.groups, fun i _ g => source i g⟩ boundary c hc hc1 hcon
  refine ⟨phi, psi, hs, fun guess M hM hg => ?_⟩
  obtain ⟨flux, sweeps, s1, s2, s3, s4, _⟩ := hrun guess M hM hg
  refine ⟨flux, sweeps, s1, s2, s3, ?_⟩
  rw [C162_duality p hE ho xsTotal xs (fun i hi => (hdx i hi).ne') source detector boundary phi dual psi chi hs hd]
  exact pairing_error p (fun i hi => (hdx i hi).le) flux phi detector _ s4

/-- C162 (reciprocity of `known_source_scalar`): exchanging source and detector does not change the response. -/
theorem C162_known_source (p : Problem K) (hE : Even p) (ho : Ordered p) (xsTotal : ℕ → ℕ → K)
    (hG : 0 < p.groups) (hok : ∀ g < p.groups, SlabOk p xsTotal g) (source detector : ℕ → ℕ → K) :
    ∃ f f', knownSourceScalar p xsTotal ⟨1, p.groups, fun i _ g => source i g⟩ zeroBoundary false = .ok f ∧
      knownSourceScalar p xsTotal ⟨1, p.groups, fun i _ g => detector i g⟩ zeroBoundary false = .ok f' ∧
      pairing p f detector = pairing p f' source := by
  have ex : ∀ s : ℕ → ℕ → K, ∃ f psi, knownSourceScalar p xsTotal ⟨1, p.groups, fun i _ g => s i g⟩ zeroBoundary false = .ok f ∧
      SolvesMultigroup p xsTotal (fun _ _ _ => 0) ⟨1, p.groups, fun i _ g => s i g⟩ zeroBoundary f psi := by
    intro s
    have hk : ∀ g, ∃ psi, g < p.groups → KnownSolution p xsTotal ⟨1, p.groups, fun i _ g => s i g⟩ zeroBoundary g psi := by
      intro g
      by_cases hg : g < p.groups
      · obtain ⟨psi, h⟩ := C08_known_source_exists p xsTotal ⟨1, p.groups, fun i _ g => s i g⟩ zeroBoundary g (hok g hg)
        exact ⟨psi, fun _ => h⟩
      · exact ⟨fun _ _ => 0, fun h => absurd h hg⟩
    choose psi hpsi using hk
    obtain ⟨f, hf, _⟩ := (C08_known_source p xsTotal _ _ 0 (hok 0 hG) (psi 0) (hpsi 0 hG)).1
    refine ⟨f, psi, hf, fun g hg i hi => ?_, fun g hg => ?_, fun g hg => (hpsi g hg).2⟩
    · obtain ⟨f2, hf2, h2⟩ := (C08_known_source p xsTotal _ _ g (hok g hg) (psi g) (hpsi g hg)).1
      rw [hf] at hf2
      rw [Except.ok.inj hf2]
      exact h2 i hi
    · intro n hn i hi
      rw [(hpsi g hg).1 n hn i hi]
      simp
  obtain ⟨f, psi, h1, h2⟩ := ex source
  obtain ⟨f', chi, h1', h2'⟩ := ex detector
  refine ⟨f, f', h1, h1', ?_⟩
  have hdx : ∀ i < p.cells, p.dx i ≠ 0 := fun i hi => ((hok 0 hG).phys i hi).1.ne'
  have := C162_duality p hE ho xsTotal (fun _ _ _ => 0) hdx source detector zeroBoundary f f' psi chi h2 h2'
  rw [← this]
  simp [boundaryImportance, zeroBoundary]

/-! ## C163: the adjoint eigenvalue -/

/-- `sum_i dx_i sum_g,g' F[g,g'] phi_g' dual_g`: importance of the neutrons that `F` makes from `phi`. -/
def importance (p : Problem K) (F : ℕ → ℕ → ℕ → K) (phi dual : ℕ → ℕ → K) : K :=
  ∑ i ∈ range p.cells, p.dx i * ∑ g ∈ range p.groups, ∑ g' ∈ range p.groups, F (p.mm i) g g' * phi i g' * dual i g

/-- `sum_g,n,i w_n dx_i D[g] psi_n,i chi_{-n},i`: importance of the neutrons that collisions `D` remove. -/
def removed (p : Problem K) (D : ℕ → ℕ → K) (psi chi : ℕ → ℕ → ℕ → K) : K :=
  ∑ g ∈ range p.groups, ∑ n ∈ range p.angles, p.angleW n * ∑ i ∈ range p.cells, p.dx i *
    (D (p.mm i) g * ((psi g n i + psi g n (i + 1)) / 2)
      * ((chi g (p.angles - 1 - n) i + chi g (p.angles - 1 - n) (i + 1)) / 2))

theorem importance_swap (p : Problem K) (F : ℕ → ℕ → ℕ → K) (phi dual : ℕ → ℕ → K) :
    ∑ g ∈ range p.groups, ∑ i ∈ range p.cells, p.dx i * ((∑ g' ∈ range p.groups, F (p.mm i) g g' * phi i g') * dual i g)
      = importance p F phi dual := by
  unfold importance
  rw [sum_comm]
  refine sum_congr rfl fun i _ => ?_
  rw [mul_sum]
  exact sum_congr rfl fun g _ => by rw [sum_mul]

theorem importance_swap' (p : Problem K) (F : ℕ → ℕ → ℕ → K) (phi dual : ℕ → ℕ → K) :
    ∑ g ∈ range p.groups, ∑ i ∈ range p.cells, p.dx i * ((∑ g' ∈ range p.groups, F (p.mm i) g' g * dual i g') * phi i g)
      = importance p F phi dual := by
  unfold importance
  rw [sum_comm]
  refine sum_congr rfl fun i _ => ?_
  rw [sum_comm (s := range p.groups) (t := range p.groups), mul_sum]
  refine sum_congr rfl fun g _ => ?_
  rw [sum_mul]
  congr 1
  exact sum_congr rfl fun g' _ => by ring

/-- C164 (exact perturbation formula): `phi'` is an eigenvector of the changed problem, `dual` one of the original
problem with transposed scattering and fission.  The change of `1/k`, weighted with the importance of the fission
neutrons, is exactly what the changes of the cross sections add and remove, measured with the importance. -/
theorem C164_perturbation (p : Problem K) (hE : Even p) (ho : Ordered p) (hdx : ∀ i < p.cells, p.dx i ≠ 0)
    (sigma sigma' : ℕ → ℕ → K) (xs xs' F F' : ℕ → ℕ → ℕ → K) (phi' dual : ℕ → ℕ → K) (k k' : K)
    (psi' chi : ℕ → ℕ → ℕ → K) (h' : KEigenpair p sigma' xs' F' phi' k' psi')
    (h : KEigenpair p sigma (fun m g g' => xs m g' g) (fun m g g' => F m g' g) dual k chi) :
    importance p F phi' dual / k - importance p F' phi' dual / k'
      = (importance p xs' phi' dual - importance p xs phi' dual)
        - removed p (fun m g => sigma' m g - sigma m g) psi' chi := by
  have e : ∀ g ∈ range p.groups,
      ∑ i ∈ range p.cells, p.dx i * ((∑ og ∈ range p.groups, xs' (p.mm i) g og * phi' i og) * dual i g)
      + (∑ i ∈ range p.cells, p.dx i * ((∑ og ∈ range p.groups, F' (p.mm i) g og * phi' i og) * dual i g)) / k'
      - ∑ n ∈ range p.angles, p.angleW n * ∑ i ∈ range p.cells, p.dx i *
        ((sigma' (p.mm i) g - sigma (p.mm i) g) * ((psi' g n i + psi' g n (i + 1)) / 2)
          * ((chi g (p.angles - 1 - n) i + chi g (p.angles - 1 - n) (i + 1)) / 2))
      = ∑ i ∈ range p.cells, p.dx i * ((∑ og ∈ range p.groups, xs (p.mm i) og g * dual i og) * phi' i g)
      + (∑ i ∈ range p.cells, p.dx i * ((∑ og ∈ range p.groups, F (p.mm i) og g * dual i og) * phi' i g)) / k := by
    intro g hg
    have hg := mem_range.mp hg
    have hb : AllBalanced p.cells p.angles p.angleX p.dx (fun i => sigma (p.mm i) g)
        (fun n i => ((∑ og ∈ range p.groups, xs' (p.mm i) g og * phi' i og)
          + (∑ og ∈ range p.groups, F' (p.mm i) g og * phi' i og) / k')
          - (sigma' (p.mm i) g - sigma (p.mm i) g) * ((psi' g n i + psi' g n (i + 1)) / 2)) (psi' g) := by
      intro n hn i hi
      linear_combination h'.balance g hg n hn i hi
    have := group_duality p hE hdx hb (fun n hn i hi => h.balance g hg n hn i hi) (ho.conditions hE (h'.inflow g hg))
      (ho.conditions hE (h.inflow g hg))
    have hz : boundaryImportance p (fun _ => 0) (fun _ => 0) (chi g) = 0 := by simp [boundaryImportance]
    rw [hz, add_zero, isotropic_pairing' p (fun i => (∑ og ∈ range p.groups, xs (p.mm i) og g * dual i og)
      + (∑ og ∈ range p.groups, F (p.mm i) og g * dual i og) / k)] at this
    have split : ∑ n ∈ range p.angles, p.angleW n * ∑ i ∈ range p.cells, p.dx i *
        ((((∑ og ∈ range p.groups, xs' (p.mm i) g og * phi' i og)
          + (∑ og ∈ range p.groups, F' (p.mm i) g og * phi' i og) / k')
          - (sigma' (p.mm i) g - sigma (p.mm i) g) * ((psi' g n i + psi' g n (i + 1)) / 2))
          * ((chi g (p.angles - 1 - n) i + chi g (p.angles - 1 - n) (i + 1)) / 2))
        = (∑ n ∈ range p.angles, p.angleW n * ∑ i ∈ range p.cells, p.dx i *
          (((∑ og ∈ range p.groups, xs' (p.mm i) g og * phi' i og)
          + (∑ og ∈ range p.groups, F' (p.mm i) g og * phi' i og) / k')
          * ((chi g (p.angles - 1 - n) i + chi g (p.angles - 1 - n) (i + 1)) / 2)))
        - ∑ n ∈ range p.angles, p.angleW n * ∑ i ∈ range p.cells, p.dx i *
        ((sigma' (p.mm i) g - sigma (p.mm i) g) * ((psi' g n i + psi' g n (i + 1)) / 2)
          * ((chi g (p.angles - 1 - n) i + chi g (p.angles - 1 - n) (i + 1)) / 2)) := by
      rw [← sum_sub_distrib]
      refine sum_congr rfl fun n _ => ?_
      rw [← mul_sub, ← sum_sub_distrib]
      congr 1
      exact sum_congr rfl fun i _ => by ring
    rw [split, isotropic_pairing p hE (fun i => (∑ og ∈ range p.groups, xs' (p.mm i) g og * phi' i og)
          + (∑ og ∈ range p.groups, F' (p.mm i) g og * phi' i og) / k')] at this
    have l : ∑ i ∈ range p.cells, p.dx i * (((∑ og ∈ range p.groups, xs' (p.mm i) g og * phi' i og)
          + (∑ og ∈ range p.groups, F' (p.mm i) g og * phi' i og) / k') * scalarCenter p.angles p.angleW (chi g) i)
        = ∑ i ∈ range p.cells, p.dx i * ((∑ og ∈ range p.groups, xs' (p.mm i) g og * phi' i og) * dual i g)
      + (∑ i ∈ range p.cells, p.dx i * ((∑ og ∈ range p.groups, F' (p.mm i) g og * phi' i og) * dual i g)) / k' := by
      rw [sum_div, ← sum_add_distrib]
      refine sum_congr rfl fun i hi => ?_
      rw [h.scalar g hg i (mem_range.mp hi)]
      unfold scalarCenter
      ring
    have r : ∑ i ∈ range p.cells, p.dx i * (((∑ og ∈ range p.groups, xs (p.mm i) og g * dual i og)
          + (∑ og ∈ range p.groups, F (p.mm i) og g * dual i og) / k) * scalarCenter p.angles p.angleW (psi' g) i)
        = ∑ i ∈ range p.cells, p.dx i * ((∑ og ∈ range p.groups, xs (p.mm i) og g * dual i og) * phi' i g)
      + (∑ i ∈ range p.cells, p.dx i * ((∑ og ∈ range p.groups, F (p.mm i) og g * dual i og) * phi' i g)) / k := by
      rw [sum_div, ← sum_add_distrib]
      refine sum_congr rfl fun i hi => ?_
      rw [h'.scalar g hg i (mem_range.mp hi)]
      unfold scalarCenter
      ring
    rw [l, r] at this
    exact this
  have hsum := sum_congr rfl e
  rw [sum_sub_distrib, sum_add_distrib, sum_add_distrib, ← sum_div, ← sum_div, importance_swap, importance_swap,
    importance_swap', importance_swap'] at hsum
  unfold removed
  linear_combination -hsum

/-- C163: the problem with transposed scattering and fission has the same multiplication factor: eigenpairs of both
whose fission importance does not vanish have the same `k`. -/
theorem C163_adjoint_keff (p : Problem K) (hE : Even p) (ho : Ordered p) (hdx : ∀ i < p.cells, p.dx i ≠ 0)
    (sigma : ℕ → ℕ → K) (xs F : ℕ → ℕ → ℕ → K) (phi dual : ℕ → ℕ → K) (k k' : K) (psi chi : ℕ → ℕ → ℕ → K)
    (h : KEigenpair p sigma xs F phi k psi)
    (h' : KEigenpair p sigma (fun m g g' => xs m g' g) (fun m g g' => F m g' g) dual k' chi)
    (hne : importance p F phi dual ≠ 0) : k = k' := by
  have := C164_perturbation p hE ho hdx sigma sigma xs xs F F phi dual k' k psi chi h h'
  rw [show removed p (fun m g => sigma m g - sigma m g) psi chi = 0 by simp [removed], sub_self, sub_zero,
    sub_eq_zero, div_eq_mul_inv, div_eq_mul_inv] at this
  exact (inv_injective (mul_left_cancel₀ hne this)).symm

/-- C163: different eigenvalues are orthogonal in the fission importance. -/
theorem C163_orthogonal (p : Problem K) (hE : Even p) (ho : Ordered p) (hdx : ∀ i < p.cells, p.dx i ≠ 0)
    (sigma : ℕ → ℕ → K) (xs F : ℕ → ℕ → ℕ → K) (phi dual : ℕ → ℕ → K) (k k' : K) (psi chi : ℕ → ℕ → ℕ → K)
    (h : KEigenpair p sigma xs F phi k psi)
    (h' : KEigenpair p sigma (fun m g g' => xs m g' g) (fun m g g' => F m g' g) dual k' chi)
    (hne : k ≠ k') : importance p F phi dual = 0 := by
  by_contra hi
  exact hne (C163_adjoint_keff p hE ho hdx sigma xs F phi dual k k' psi chi h h' hi)

/-! ### Examples -/

theorem exCritEven : Even exCrit where
  sym := ⟨fun n hn => by
      have hn : n < 2 := hn
      have h : n = 0 ∨ n = 1 := by omega
      rcases h with rfl | rfl <;> norm_num [exCrit], fun n hn => by simp only [exCrit]; split_ifs <;> norm_num⟩
  weight := fun _ _ => rfl

theorem exCritOrdered : Ordered exCrit := ⟨fun h => absurd h (by decide), fun h => absurd h (by decide)⟩

/-- The dual of the example problem: scattering from the slow to the fast group. -/
theorem exCritUpContractive : Contractive exCrit (fun _ _ => 1) (fun m g g' => exCritDown m g' g) (1 / 2) where
  ok := exCritContractive.ok
  fine := exCritContractive.fine
  weights := exCritContractive.weights
  norm := exCritContractive.norm
  nonneg := fun _ _ g _ g' _ => by simp only [exCritDown]; split_ifs <;> norm_num
  rows := fun _ _ g hg => by
    have hg : g < 2 := hg
    have h : g = 0 ∨ g = 1 := by omega
    rcases h with rfl | rfl <;> norm_num [exCrit, exCritDown, sum_range_succ]

-- C162: a detector in one group, a source in the other, and a reflecting face
example := C162_source_iteration exCrit exCritEven exCritOrdered (fun _ _ => 1) exCritDown (1 / 2) (1 / 2)
  (by norm_num) (by norm_num) exCritDownContractive (by norm_num) (by norm_num) exCritUpContractive
  (by norm_num [exCrit]) (fun _ g => if g = 1 then 1 else 0)

theorem exEvenProblem : Even exProblem := ⟨exSym, fun _ _ => rfl⟩

theorem exOrderedProblem : Ordered exProblem := ⟨fun _ => ⟨rfl, exOrd⟩, fun h => by cases h⟩

example := C162_known_source exProblem exEvenProblem exOrderedProblem exTotal (by decide) (fun g _ => exOk g)
  (fun i g => if i = 0 then 1 + g else 0) (fun i g => if i = 2 then 3 * g + 1 else 0)

/-- The importance function of the example. -/
theorem exCritDual : KEigenpair exCrit (fun _ _ => 1) (fun m g g' => exCritDown m g' g)
    (fun m g g' => exCritFission m g' g) (fun _ g => if g = 0 then 7 / 6 else 1) 1
    (fun g n i => (if g = 0 then 7 / 6 else 1) * if n = 0 then (if i = 0 then 2 else 0) else if i = 0 then 0 else 2) where
  scalar := fun g hg i hi => by
    have hi : i < 1 := hi
    have h : i = 0 := by omega
    subst h
    have hg : g < 2 := hg
    have h1 : g = 0 ∨ g = 1 := by omega
    rcases h1 with rfl | rfl <;> norm_num [exCrit, sum_range_succ]
  balance := fun g hg n hn i hi => by
    have hi : i < 1 := hi
    have h : i = 0 := by omega
    subst h
    have hg : g < 2 := hg
    have hn : n < 2 := hn
    have h1 : g = 0 ∨ g = 1 := by omega
    have h2 : n = 0 ∨ n = 1 := by omega
    rcases h1 with rfl | rfl <;> rcases h2 with rfl | rfl <;>
      norm_num [exCrit, exCritDown, exCritFission, sum_range_succ]
  inflow := fun g hg n hn => by
    have hn : n < 2 := hn
    have h2 : n = 0 ∨ n = 1 := by omega
    rcases h2 with rfl | rfl <;> simp [exCrit, inflow, leavesReflecting]

-- C163: the fission importance of the example does not vanish, so the factors must agree
example : (1 : ℚ) = 1 := C163_adjoint_keff exCrit exCritEven exCritOrdered (fun _ _ => by norm_num [exCrit]) _ _ _ _ _ 1 1 _ _
  exCritDownPair exCritDual (by norm_num [importance, exCrit, exCritFission, sum_range_succ])

example (phi : ℕ → ℕ → ℚ) (psi : ℕ → ℕ → ℕ → ℚ) (k : ℚ) (hk : k ≠ 1)
    (h : KEigenpair exCrit (fun _ _ => 1) exCritDown exCritFission phi k psi) :=
  C163_orthogonal exCrit exCritEven exCritOrdered (fun _ _ => by norm_num [exCrit]) _ _ _ _ _ k 1 _ _ h exCritDual hk

-- C164: any change of the data of the example
example (sigma' : ℕ → ℕ → ℚ) (xs' F' : ℕ → ℕ → ℕ → ℚ) (phi' : ℕ → ℕ → ℚ) (psi' : ℕ → ℕ → ℕ → ℚ) (k' : ℚ)
    (h : KEigenpair exCrit sigma' xs' F' phi' k' psi') :=
  C164_perturbation exCrit exCritEven exCritOrdered (fun _ _ => by norm_num [exCrit]) _ sigma' _ xs' _ F' _ _ 1 k' _ _
    h exCritDual

end Discrete1.Props
