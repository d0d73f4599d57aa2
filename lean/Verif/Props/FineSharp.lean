import Verif.Props.Within

/-!
# C16: the mesh condition is exactly what positivity needs
-/

set_option linter.unusedSectionVars false
set_option linter.unusedSimpArgs false

namespace Discrete1.Props

open Finset Discrete1.Spec Discrete1.Slab Discrete1.Tools Discrete1.MultiGroup

section General

variable {K : Type} [Field K] [LinearOrder K] [IsStrictOrderedRing K]

/-- A unit flux enters the empty-handed cell `i` and leaves it with the opposite sign when the cell is too thick. -/
theorem thick_forward {mu dx s a b : K} (hmu : 0 < mu) (hdx : 0 < dx) (hs : 0 ≤ s) (hthick : 2 * mu < s * dx)
    (h : mu * (b - a) / dx + s * ((a + b) / 2) = 0) (ha : 0 < a) : b < 0 := by
  have hd := fwd_den_pos hmu hdx hs
  have hb := (fwd_cell_iff hd.ne').mpr h
  rw [hb, zero_add]
  refine div_neg_of_neg_of_pos (mul_neg_of_pos_of_neg ha ?_) hd
  have : mu / dx - 1 / 2 * s = (2 * mu - s * dx) / (2 * dx) := by field_simp
  rw [this]
  exact div_neg_of_neg_of_pos (by linarith) (by linarith)

/-- C16 is sharp: where a cell is thicker than `2 |mu|` mean free paths, non-negative data exist (one entering flux, and
a source upstream of the cell) for which the edge flux returned by the known-source calculation is negative - whatever
the rest of the slab and its boundary conditions. -/
theorem C16_thick_cell_negative (p : Problem K) (xsTotal : ℕ → ℕ → K) (g : ℕ) (hok : SlabOk p xsTotal g)
    (hA : 1 < p.angles) (hw : ∀ n < p.angles, 0 ≤ p.angleW n) (n i : ℕ) (hn : n < p.angles) (hi : i < p.cells)
    (hthick : 2 * |p.angleX n| < xsTotal (p.mm i) g * p.dx i) :
    ∃ source boundary : Arr3 K, source.angles = p.angles ∧
      NonnegData p.cells p.angles p.angleX p.angleW (source.group (bidx source.groups g))
        (boundary.group (bidx boundary.groups g)) ∧
      ∃ f, knownSourceAngular p xsTotal source boundary true = .ok f ∧ ∃ j ≤ p.cells, f j n g < 0 := by
  obtain ⟨source, hsource⟩ : ∃ source : Arr3 K, source = ⟨p.angles, 1, fun j m _ =>
    if m = n ∧ ((0 < p.angleX n ∧ j < i) ∨ (p.angleX n < 0 ∧ i < j)) then xsTotal (p.mm j) g else 0⟩ := ⟨_, rfl⟩
  obtain ⟨boundary, hboundary⟩ : ∃ boundary : Arr3 K, boundary = ⟨p.angles, 1, fun _ m _ => if m = n then 1 else 0⟩ :=
    ⟨_, rfl⟩
  have hA1 : p.angles ≠ 1 := by omega
  have hsa : source.angles = p.angles := by rw [hsource]
  have hba : boundary.angles = p.angles := by rw [hboundary]
  have hbx : ∀ m, bidx p.angles m = m := fun m => by unfold bidx; rw [if_neg hA1]
  refine ⟨source, boundary, hsa, ⟨hw, ?_, ?_, ?_⟩, ?_⟩
  · intro m hm j hj
    show 0 ≤ source.val j (bidx source.angles m) _
    rw [hsource]
    dsimp only
    split
    · exact (hok.phys j hj).2
    · exact le_rfl
  · intro m hm _
    show 0 ≤ boundary.val 0 (bidx boundary.angles m) _
    rw [hboundary]
    dsimp only
    split <;> norm_num
  · intro m hm _
    show 0 ≤ boundary.val 1 (bidx boundary.angles m) _
    rw [hboundary]
    dsimp only
    split <;> norm_num
  obtain ⟨psi, hpsi⟩ := C08_known_source_exists p xsTotal source boundary g hok
  obtain ⟨f, hf, hval⟩ := ((C08_known_source p xsTotal source boundary g hok psi hpsi).2.2 hA hsa).2
  refine ⟨f, hf, ?_⟩
  obtain ⟨hbal, hin⟩ := hpsi
  -- nothing travels in the other directions
  have hin' : ∀ m < p.angles, inflow p.cells (p.angleX m) (psi m) = (if m = n then 1 else 0) +
      (if p.angles - 1 - m < m ∧ leavesReflecting p.bcL p.bcR (p.angleX (p.angles - 1 - m)) then
        outflow p.cells (p.angleX (p.angles - 1 - m)) (psi (p.angles - 1 - m)) else 0) := by
    intro m hm
    have := hin m hm
    rw [hboundary] at this
    simp only [hbx, ite_self] at this
    exact this
  have hq : ∀ m < p.angles, ∀ j < p.cells, p.angleX m * (psi m (j + 1) - psi m j) / p.dx j
      + xsTotal (p.mm j) g * ((psi m j + psi m (j + 1)) / 2)
      = if m = n ∧ ((0 < p.angleX n ∧ j < i) ∨ (p.angleX n < 0 ∧ i < j)) then xsTotal (p.mm j) g else 0 := by
    intro m hm j hj
    have := hbal m hm j hj
    rw [hsource] at this
    simp only [hbx] at this
    exact this
  have hmirror : p.angles - 1 - n < n → ∀ j ≤ p.cells, psi (p.angles - 1 - n) j = 0 := by
    intro hlt
    have hm : p.angles - 1 - n < p.angles := by omega
    refine balance_unique (psi' := fun _ => 0) hok.phys (hok.nonzero _ hm) (hbal _ hm) ?_ ?_
    · intro j hj
      rw [hsource]
      simp only [hbx]
      rw [if_neg (fun h => absurd h.1 (by omega))]
      simp
    · rw [hin' _ hm, if_neg (by omega), if_neg (fun h => absurd h.1 (by omega))]
      simp [inflow]
  have hone : inflow p.cells (p.angleX n) (psi n) = 1 := by
    rw [hin' n hn, if_pos rfl]
    split
    · next h =>
      have z := hmirror h.1
      have : outflow p.cells (p.angleX (p.angles - 1 - n)) (psi (p.angles - 1 - n)) = 0 := by
        unfold outflow
        split
        · exact z _ le_rfl
        · exact z _ (Nat.zero_le _)
      rw [this, add_zero]
    · rw [add_zero]
  rcases lt_or_gt_of_ne (hok.nonzero n hn) with hneg | hpos
  · have hnp := not_lt.mpr hneg.le
    unfold inflow at hone
    rw [if_neg hnp] at hone
    have key : ∀ k, k ≤ p.cells - (i + 1) → psi n (p.cells - k) = 1 := by
      intro k
      induction k with
      | zero => intro _; simpa using hone
      | succ k ih =>
        intro hk
        have hj : p.cells - (k + 1) < p.cells := by omega
        have hd := bwd_den_pos hneg (hok.phys _ hj).1 (hok.phys _ hj).2
        have e := hq n hn _ hj
        rw [if_pos ⟨rfl, Or.inr ⟨hneg, by omega⟩⟩, show p.cells - (k + 1) + 1 = p.cells - k by omega, ih (by omega)] at e
        rw [(bwd_cell_iff hd.ne').mpr e, div_eq_one_iff_eq hd.ne']
        ring
    have h1 : psi n (i + 1) = 1 := by
      have := key (p.cells - (i + 1)) le_rfl
      rwa [show p.cells - (p.cells - (i + 1)) = i + 1 by omega] at this
    refine ⟨i, hi.le, ?_⟩
    rw [hval n hn i hi.le]
    have e := hq n hn i hi
    rw [if_neg (fun h => by rcases h.2 with h | h <;> omega), h1] at e
    rw [abs_of_neg hneg] at hthick
    exact thick_forward (a := 1) (neg_pos.mpr hneg) (hok.phys i hi).1 (hok.phys i hi).2 hthick
      (by rw [← e]; ring) one_pos
  · unfold inflow at hone
    rw [if_pos hpos] at hone
    have h1 : psi n i = 1 := by
      refine balance_unique (N := i) (psi' := fun _ => 1) (q := fun j => xsTotal (p.mm j) g)
        (fun j hj => hok.phys j (by omega)) hpos.ne' ?_ ?_ ?_ i le_rfl
      · intro j hj
        have e := hq n hn j (by omega)
        rw [if_pos ⟨rfl, Or.inl ⟨hpos, hj⟩⟩] at e
        exact e
      · intro j hj
        simp
      · simp [inflow, hpos, hone]
    refine ⟨i + 1, hi, ?_⟩
    rw [hval n hn (i + 1) hi]
    have e := hq n hn i hi
    rw [if_neg (fun h => by rcases h.2 with h | h <;> [omega; exact absurd h.1 (not_lt.mpr hpos.le)]), h1] at e
    rw [abs_of_pos hpos] at hthick
    exact thick_forward hpos (hok.phys i hi).1 (hok.phys i hi).2 hthick e one_pos

/-- C16: the known-source calculation returns non-negative edge fluxes for all non-negative sources and boundary fluxes
if and only if `sigma dx ≤ 2 |mu|` in every cell for every ordinate. -/
theorem C16_nonneg_iff_fine (p : Problem K) (xsTotal : ℕ → ℕ → K) (g : ℕ) (hok : SlabOk p xsTotal g)
    (hA : 1 < p.angles) (hw : ∀ n < p.angles, 0 ≤ p.angleW n) :
    (∀ source boundary : Arr3 K, source.angles = p.angles →
      NonnegData p.cells p.angles p.angleX p.angleW (source.group (bidx source.groups g))
        (boundary.group (bidx boundary.groups g)) →
      ∃ f, knownSourceAngular p xsTotal source boundary true = .ok f ∧
        ∀ n < p.angles, ∀ i ≤ p.cells, 0 ≤ f i n g)
    ↔ ∀ n < p.angles, ∀ i < p.cells, xsTotal (p.mm i) g * p.dx i ≤ 2 * |p.angleX n| := by
  constructor
  · intro h n hn i hi
    by_contra hc
    obtain ⟨source, boundary, hs, hd, f, hf, j, hj, hneg⟩ :=
      C16_thick_cell_negative p xsTotal g hok hA hw n i hn hi (not_le.mp hc)
    obtain ⟨f', hf', hpos⟩ := h source boundary hs hd
    rw [hf] at hf'
    have := hpos n hn j hj
    rw [← Except.ok.inj hf'] at this
    exact absurd this (not_le.mpr hneg)
  · intro h source boundary hs hd
    obtain ⟨f, hf, hpos⟩ := (C16_known_source_nonneg p xsTotal source boundary g hok hA hs h hd true).1
    exact ⟨f, hf, fun n hn i hi => hpos n hn i (by simpa using Nat.lt_succ_of_le hi)⟩

end General

/-! ### Example -/

/-- The example slab of `Props/Slab.lean` is too thick. -/
example := C16_thick_cell_negative exProblem (fun _ _ => 1) 0 ⟨rfl, (exOk 0).nonzero,
  fun i hi => ⟨((exOk 0).phys i hi).1, by norm_num⟩⟩ (by decide) (fun _ _ => by norm_num [exProblem]) 1 2
  (by decide) (by decide) (by norm_num [exProblem, abs_of_neg])

example := C16_nonneg_iff_fine exFine exTotal 0 (exFineOk 0) (by decide) (fun _ _ => by norm_num [exFine, exProblem])

end Discrete1.Props
