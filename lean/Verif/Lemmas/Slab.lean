import Verif.Model.Slab
import Verif.Spec.Transport
import Verif.Lemmas.Basic

/-! Lemmas about the slab sweeps. -/

set_option linter.unusedSectionVars false
set_option linter.unusedSimpArgs false

namespace Discrete1.Slab

open Finset Discrete1.Tools Discrete1.Spec

variable {K : Type*} [Field K] [LinearOrder K] [IsStrictOrderedRing K]

/-! ### The explicit edge recursions -/

/-- Edge fluxes of a forward sweep. -/
def fwdSol (mu : K) (dx sigma q : ℕ → K) (e : K) : ℕ → K
  | 0 => e
  | i + 1 => (q i + fwdSol mu dx sigma q e i * (mu / dx i - 1 / 2 * sigma i))
      / (mu / dx i + 1 / 2 * sigma i)

/-- Edge fluxes of a backward sweep over `N` cells, counted from the right face:
`bwdSolR k` is the flux at edge `N - k`. -/
def bwdSolR (N : ℕ) (mu : K) (dx sigma q : ℕ → K) (e : K) : ℕ → K
  | 0 => e
  | k + 1 => (q (N - 1 - k) + bwdSolR N mu dx sigma q e k * (-mu / dx (N - 1 - k) - 1 / 2 * sigma (N - 1 - k)))
      / (-mu / dx (N - 1 - k) + 1 / 2 * sigma (N - 1 - k))

def bwdSol (N : ℕ) (mu : K) (dx sigma q : ℕ → K) (e : K) (i : ℕ) : K :=
  bwdSolR N mu dx sigma q e (N - i)

theorem bwdSol_top (N : ℕ) (mu : K) (dx sigma q : ℕ → K) (e : K) : bwdSol N mu dx sigma q e N = e := by
  simp [bwdSol, bwdSolR]

theorem bwdSol_step {N : ℕ} (mu : K) (dx sigma q : ℕ → K) (e : K) {i : ℕ} (hi : i < N) :
    bwdSol N mu dx sigma q e i = (q i + bwdSol N mu dx sigma q e (i + 1) *
      (-mu / dx i - 1 / 2 * sigma i)) / (-mu / dx i + 1 / 2 * sigma i) := by
  unfold bwdSol
  obtain ⟨k, hk⟩ : ∃ k, N - i = k + 1 := ⟨N - i - 1, by omega⟩
  have h2 : N - (i + 1) = k := by omega
  have h3 : N - 1 - k = i := by omega
  rw [hk, h2, bwdSolR, h3]

/-- One cell, forward: the update formula is equivalent to the balance equation. -/
theorem fwd_cell_iff {mu dx s q a b : K} (hden : mu / dx + 1 / 2 * s ≠ 0) :
    b = (q + a * (mu / dx - 1 / 2 * s)) / (mu / dx + 1 / 2 * s) ↔
      mu * (b - a) / dx + s * ((a + b) / 2) = q := by
  rw [eq_div_iff hden]
  have : mu * (b - a) / dx + s * ((a + b) / 2)
      = b * (mu / dx + 1 / 2 * s) - a * (mu / dx - 1 / 2 * s) := by ring
  rw [this]
  constructor
  · intro h; rw [h]; ring
  · intro h; rw [← h]; ring

/-- One cell, backward. -/
theorem bwd_cell_iff {mu dx s q a b : K} (hden : -mu / dx + 1 / 2 * s ≠ 0) :
    a = (q + b * (-mu / dx - 1 / 2 * s)) / (-mu / dx + 1 / 2 * s) ↔
      mu * (b - a) / dx + s * ((a + b) / 2) = q := by
  rw [eq_div_iff hden]
  have : mu * (b - a) / dx + s * ((a + b) / 2)
      = a * (-mu / dx + 1 / 2 * s) - b * (-mu / dx - 1 / 2 * s) := by ring
  rw [this]
  constructor
  · intro h; rw [h]; ring
  · intro h; rw [← h]; ring

theorem fwd_den_pos {mu dx s : K} (hmu : 0 < mu) (hdx : 0 < dx) (hs : 0 ≤ s) :
    0 < mu / dx + 1 / 2 * s := by
  have : 0 < mu / dx := div_pos hmu hdx
  linarith [mul_nonneg (by norm_num : (0 : K) ≤ 1 / 2) hs]

theorem bwd_den_pos {mu dx s : K} (hmu : mu < 0) (hdx : 0 < dx) (hs : 0 ≤ s) :
    0 < -mu / dx + 1 / 2 * s := fwd_den_pos (neg_pos.mpr hmu) hdx hs

/-- A balanced forward flux is the recursion started at its inflow. -/
theorem eq_fwdSol {N : ℕ} {mu : K} {dx sigma q psi : ℕ → K}
    (hden : ∀ i < N, mu / dx i + 1 / 2 * sigma i ≠ 0) (h : CellBalance N mu dx sigma q psi) :
    ∀ i ≤ N, psi i = fwdSol mu dx sigma q (psi 0) i := by
  intro i
  induction i with
  | zero => intro _; rfl
  | succ i ih =>
    intro hi
    rw [fwdSol, ← ih (by omega)]
    exact (fwd_cell_iff (hden i (by omega))).mpr (h i (by omega))

theorem eq_bwdSol {N : ℕ} {mu : K} {dx sigma q psi : ℕ → K}
    (hden : ∀ i < N, -mu / dx i + 1 / 2 * sigma i ≠ 0) (h : CellBalance N mu dx sigma q psi) :
    ∀ i ≤ N, psi i = bwdSol N mu dx sigma q (psi N) i := by
  have key : ∀ k ≤ N, psi (N - k) = bwdSol N mu dx sigma q (psi N) (N - k) := by
    intro k
    induction k with
    | zero => intro _; simp [bwdSol_top]
    | succ k ih =>
      intro hk
      rw [bwdSol_step _ _ _ _ _ (by omega), show N - (k + 1) + 1 = N - k by omega, ← ih (by omega)]
      have := h (N - (k + 1)) (by omega)
      rw [show N - (k + 1) + 1 = N - k by omega] at this
      exact (bwd_cell_iff (hden _ (by omega))).mpr this
  intro i hi
  have := key (N - i) (by omega)
  rwa [show N - (N - i) = i by omega] at this

theorem fwdSol_balance {N : ℕ} {mu : K} {dx sigma q : ℕ → K} (e : K)
    (hden : ∀ i < N, mu / dx i + 1 / 2 * sigma i ≠ 0) :
    CellBalance N mu dx sigma q (fwdSol mu dx sigma q e) := fun i hi =>
  (fwd_cell_iff (hden i hi)).mp (by rw [fwdSol])

theorem bwdSol_balance {N : ℕ} {mu : K} {dx sigma q : ℕ → K} (e : K)
    (hden : ∀ i < N, -mu / dx i + 1 / 2 * sigma i ≠ 0) :
    CellBalance N mu dx sigma q (bwdSol N mu dx sigma q e) := fun i hi =>
  (bwd_cell_iff (hden i hi)).mp (bwdSol_step _ _ _ _ _ hi)

/-- Two solutions of the same equations with the same inflow coincide. -/
theorem balance_unique {N : ℕ} {mu : K} {dx sigma q psi psi' : ℕ → K} (hphys : Physical N dx sigma)
    (hmu : mu ≠ 0) (h : CellBalance N mu dx sigma q psi) (h' : CellBalance N mu dx sigma q psi')
    (hin : inflow N mu psi = inflow N mu psi') : ∀ i ≤ N, psi i = psi' i := by
  intro i hi
  unfold inflow at hin
  rcases lt_or_gt_of_ne hmu with hneg | hpos
  · rw [if_neg (not_lt.mpr hneg.le), if_neg (not_lt.mpr hneg.le)] at hin
    have hden : ∀ i < N, -mu / dx i + 1 / 2 * sigma i ≠ 0 := fun i hi =>
      (bwd_den_pos hneg (hphys i hi).1 (hphys i hi).2).ne'
    rw [eq_bwdSol hden h i hi, eq_bwdSol hden h' i hi, hin]
  · rw [if_pos hpos, if_pos hpos] at hin
    have hden : ∀ i < N, mu / dx i + 1 / 2 * sigma i ≠ 0 := fun i hi =>
      (fwd_den_pos hpos (hphys i hi).1 (hphys i hi).2).ne'
    rw [eq_fwdSol hden h i hi, eq_fwdSol hden h' i hi, hin]

/-! ### Directional sweeps compute the recursion -/

theorem forwardIso_eq (cells : ℕ) (flux fluxOld xsTotal xsScatter offScatter external : ℕ → K)
    (e : K) (mm : ℕ → ℕ) (dx : ℕ → K) (mu w : K) (edges : Bool) :
    let sol := fwdSol mu dx (fun i => xsTotal (mm i))
      (fun i => xsScatter (mm i) * fluxOld i + external i + offScatter i) e
    (forwardIso cells flux fluxOld xsTotal xsScatter offScatter external e mm dx mu w edges).2 = sol cells ∧
    ∀ i, (forwardIso cells flux fluxOld xsTotal xsScatter offScatter external e mm dx mu w edges).1 i =
      if edges then (if i ≤ cells then flux i + w * sol i else flux i)
      else (if i < cells then flux i + w * ((sol i + sol (i + 1)) / 2) else flux i) := by
  intro sol
  unfold forwardIso
  simp only
  induction cells with
  | zero =>
    refine ⟨rfl, fun i => ?_⟩
    cases edges
    · simp
    · simp only [loop_zero, if_true, addAt_apply]
      by_cases h : i = 0
      · subst h; simp [sol, fwdSol]
      · simp [h]
  | succ n ih =>
    obtain ⟨ih2, ih1⟩ := ih
    rw [loop_succ]
    have he : ∀ a : K, a = sol n → (xsScatter (mm n) * fluxOld n + external n + offScatter n
        + a * (mu / dx n - 1 / 2 * xsTotal (mm n))) / (mu / dx n + 1 / 2 * xsTotal (mm n)) = sol (n + 1) := by
      intro a ha; rw [ha]; simp only [sol, fwdSol]
    refine ⟨he _ ih2, fun i => ?_⟩
    simp only [ih2]
    cases edges
    · simp only [Bool.false_eq_true, if_false] at ih1 ih2 ⊢
      rw [addAt_apply, he _ rfl, ih1]
      rcases Nat.lt_trichotomy i n with h | h | h
      · rw [if_neg (by omega), if_pos h, if_pos (by omega)]
      · subst h; rw [if_pos rfl, if_neg (by omega), if_pos (by omega)]; ring
      · rw [if_neg (by omega), if_neg (by omega), if_neg (by omega)]
    · simp only [if_true] at ih1 ih2 ⊢
      rw [addAt_apply, he _ rfl, ih1]
      rcases Nat.lt_trichotomy i (n + 1) with h | h | h
      · rw [if_neg (by omega), if_pos (by omega), if_pos (by omega)]
      · subst h; rw [if_pos rfl, if_neg (by omega), if_pos (by omega)]
      · rw [if_neg (by omega), if_neg (by omega), if_neg (by omega)]

theorem backwardIso_eq (cells : ℕ) (flux fluxOld xsTotal xsScatter offScatter external : ℕ → K)
    (e : K) (mm : ℕ → ℕ) (dx : ℕ → K) (mu w : K) (edges : Bool) :
    let sol := bwdSol cells mu dx (fun i => xsTotal (mm i))
      (fun i => xsScatter (mm i) * fluxOld i + external i + offScatter i) e
    (backwardIso cells flux fluxOld xsTotal xsScatter offScatter external e mm dx mu w edges).2 = sol 0 ∧
    ∀ i, (backwardIso cells flux fluxOld xsTotal xsScatter offScatter external e mm dx mu w edges).1 i =
      if edges then (if i ≤ cells then flux i + w * sol i else flux i)
      else (if i < cells then flux i + w * ((sol i + sol (i + 1)) / 2) else flux i) := by
  intro sol
  unfold backwardIso
  simp only
  have htop : sol cells = e := bwdSol_top _ _ _ _ _ _
  have key := loopDown_induction (σ := (ℕ → K) × K)
    (fun k s => s.2 = sol k ∧ ∀ i, s.1 i =
      if edges then (if k ≤ i ∧ i ≤ cells then flux i + w * sol i else flux i)
      else (if k ≤ i ∧ i < cells then flux i + w * ((sol i + sol (i + 1)) / 2) else flux i))
    cells
    (fun ii s =>
      (if edges = true then addAt s.1 ii (w * ((xsScatter (mm ii) * fluxOld ii + external ii + offScatter ii
          + s.2 * (-mu / dx ii - 1 / 2 * xsTotal (mm ii))) / (-mu / dx ii + 1 / 2 * xsTotal (mm ii))))
        else addAt s.1 ii (1 / 2 * w * (s.2 + (xsScatter (mm ii) * fluxOld ii + external ii + offScatter ii
          + s.2 * (-mu / dx ii - 1 / 2 * xsTotal (mm ii))) / (-mu / dx ii + 1 / 2 * xsTotal (mm ii)))),
      (xsScatter (mm ii) * fluxOld ii + external ii + offScatter ii
          + s.2 * (-mu / dx ii - 1 / 2 * xsTotal (mm ii))) / (-mu / dx ii + 1 / 2 * xsTotal (mm ii))))
    (if edges = true then addAt flux cells (w * e) else flux, e) ?_ ?_
  · obtain ⟨h2, h1⟩ := key
    refine ⟨h2, fun i => ?_⟩
    rw [h1]
    simp
  · refine ⟨htop.symm, fun i => ?_⟩
    cases edges
    · simp only [Bool.false_eq_true, if_false]
      rw [if_neg (by omega)]
    · simp only [if_true]
      rw [addAt_apply]
      by_cases h : i = cells
      · subst h; rw [if_pos rfl, if_pos (by omega), htop]
      · rw [if_neg h, if_neg (by omega)]
  · intro n hn s hs
    obtain ⟨hs2, hs1⟩ := hs
    have he : (xsScatter (mm n) * fluxOld n + external n + offScatter n
        + s.2 * (-mu / dx n - 1 / 2 * xsTotal (mm n))) / (-mu / dx n + 1 / 2 * xsTotal (mm n)) = sol n := by
      rw [hs2]; simp only [sol]; rw [bwdSol_step (i := n) _ _ _ _ _ hn]
    refine ⟨he, fun i => ?_⟩
    simp only [he]
    cases edges
    · simp only [Bool.false_eq_true, if_false] at hs1 ⊢
      rw [addAt_apply, hs1, hs2]
      rcases Nat.lt_trichotomy i n with h | h | h
      · rw [if_neg (by omega), if_neg (by omega), if_neg (by omega)]
      · subst h; rw [if_pos rfl, if_neg (by omega), if_pos (by omega)]; ring
      · by_cases h' : i < cells
        · rw [if_neg (by omega), if_pos (by omega), if_pos (by omega)]
        · rw [if_neg (by omega), if_neg (by omega), if_neg (by omega)]
    · simp only [if_true] at hs1 ⊢
      rw [addAt_apply, hs1]
      rcases Nat.lt_trichotomy i n with h | h | h
      · rw [if_neg (by omega), if_neg (by omega), if_neg (by omega)]
      · subst h; rw [if_pos rfl, if_neg (by omega), if_pos (by omega)]
      · by_cases h' : i ≤ cells
        · rw [if_neg (by omega), if_pos (by omega), if_pos (by omega)]
        · rw [if_neg (by omega), if_neg (by omega), if_neg (by omega)]

/-- The anisotropic directional sweep is the isotropic one with the anisotropic source in place of
within-group scattering, plus the record of cell averages. -/
theorem forwardAniso_eq (cells : ℕ) (flux xsTotal aniso offScatter external : ℕ → K)
    (e : K) (mm : ℕ → ℕ) (dx : ℕ → K) (mu w : K) (edges : Bool) :
    let r := forwardAniso cells flux xsTotal aniso offScatter external e mm dx mu w edges
    let t := forwardIso cells flux (fun _ => 0) xsTotal (fun _ => 0) offScatter
      (fun i => aniso i + external i) e mm dx mu w edges
    let sol := fwdSol mu dx (fun i => xsTotal (mm i)) (fun i => aniso i + external i + offScatter i) e
    r.flux = t.1 ∧ r.edge = t.2 ∧ ∀ i < cells, r.psi i = (sol i + sol (i + 1)) / 2 := by
  intro r t sol
  have hsol : ∀ n, (forwardIso n flux (fun _ => 0) xsTotal (fun _ => 0) offScatter
      (fun i => aniso i + external i) e mm dx mu w edges).2 = sol n := by
    intro n
    rw [(forwardIso_eq n flux (fun _ => 0) xsTotal (fun _ => 0) offScatter
      (fun i => aniso i + external i) e mm dx mu w edges).1]
    simp only [sol, zero_mul, zero_add]
  have key : ∀ n, (forwardAniso n flux xsTotal aniso offScatter external e mm dx mu w edges).flux =
      (forwardIso n flux (fun _ => 0) xsTotal (fun _ => 0) offScatter
        (fun i => aniso i + external i) e mm dx mu w edges).1 ∧
      (forwardAniso n flux xsTotal aniso offScatter external e mm dx mu w edges).edge =
      (forwardIso n flux (fun _ => 0) xsTotal (fun _ => 0) offScatter
        (fun i => aniso i + external i) e mm dx mu w edges).2 ∧
      ∀ i < n, (forwardAniso n flux xsTotal aniso offScatter external e mm dx mu w edges).psi i
        = (sol i + sol (i + 1)) / 2 := by
    intro n
    induction n with
    | zero => exact ⟨rfl, rfl, fun i hi => absurd hi (Nat.not_lt_zero _)⟩
    | succ n ih =>
      obtain ⟨h1, h2, h3⟩ := ih
      have hs := hsol n
      have hs' := hsol (n + 1)
      unfold forwardAniso forwardIso at *
      simp only [loop_succ] at *
      simp only [zero_mul, zero_add] at *
      refine ⟨?_, ?_, fun i hi => ?_⟩
      · rw [h1, h2]
      · rw [h2]
      · rw [setAt_apply]
        split
        · rename_i hin; subst hin
          rw [h2, hs', hs]; ring
        · exact h3 i (by omega)
  exact key cells

theorem backwardAniso_eq (cells : ℕ) (flux xsTotal aniso offScatter external : ℕ → K)
    (e : K) (mm : ℕ → ℕ) (dx : ℕ → K) (mu w : K) (edges : Bool) :
    let r := backwardAniso cells flux xsTotal aniso offScatter external e mm dx mu w edges
    let t := backwardIso cells flux (fun _ => 0) xsTotal (fun _ => 0) offScatter
      (fun i => aniso i + external i) e mm dx mu w edges
    let sol := bwdSol cells mu dx (fun i => xsTotal (mm i))
      (fun i => aniso i + external i + offScatter i) e
    r.flux = t.1 ∧ r.edge = t.2 ∧ ∀ i < cells, r.psi i = (sol i + sol (i + 1)) / 2 := by
  intro r t sol
  -- lockstep of the two loops with the recursion
  have gen : ∀ n ≤ cells, ∀ (s : AnisoState K) (u : (ℕ → K) × K), s.flux = u.1 → s.edge = u.2 →
      u.2 = sol n → (∀ i < cells, n ≤ i → s.psi i = (sol i + sol (i + 1)) / 2) →
      let s' := loopDown n (fun ii (s : AnisoState K) =>
        let mat := mm ii
        let edge2 := (aniso ii + external ii + offScatter ii
          + s.edge * (-mu / dx ii - 1 / 2 * xsTotal mat)) / (-mu / dx ii + 1 / 2 * xsTotal mat)
        ({ psi := setAt s.psi ii (1 / 2 * (s.edge + edge2))
           flux := if edges then addAt s.flux ii (w * edge2)
             else addAt s.flux ii (1 / 2 * w * (s.edge + edge2))
           edge := edge2 } : AnisoState K)) s
      let u' := loopDown n (fun ii (s : (ℕ → K) × K) =>
        let flux := s.1
        let edge1 := s.2
        let mat := mm ii
        let edge2 := ((0 : K) * 0 + (aniso ii + external ii) + offScatter ii
          + edge1 * (-mu / dx ii - 1 / 2 * xsTotal mat)) / (-mu / dx ii + 1 / 2 * xsTotal mat)
        let flux := if edges then addAt flux ii (w * edge2)
          else addAt flux ii (1 / 2 * w * (edge1 + edge2))
        (flux, edge2)) u
      s'.flux = u'.1 ∧ s'.edge = u'.2 ∧ ∀ i < cells, s'.psi i = (sol i + sol (i + 1)) / 2 := by
    intro n
    induction n with
    | zero =>
      intro _ s u h1 h2 _ h4
      exact ⟨h1, h2, fun i hi => h4 i hi (Nat.zero_le _)⟩
    | succ n ih =>
      intro hn s u h1 h2 h3 h4
      simp only [loopDown_succ]
      have hstep : (aniso n + external n + offScatter n
          + u.2 * (-mu / dx n - 1 / 2 * xsTotal (mm n))) / (-mu / dx n + 1 / 2 * xsTotal (mm n)) = sol n := by
        rw [h3]; simp only [sol]; rw [bwdSol_step (i := n) _ _ _ _ _ (by omega)]
      apply ih (by omega)
      · simp only [h1, h2, zero_mul, zero_add]
      · simp only [h2, zero_mul, zero_add]
      · simp only [zero_mul, zero_add]; exact hstep
      · intro i hi hni
        simp only
        rw [setAt_apply]
        split
        · rename_i hin; subst hin
          rw [h2, hstep, h3]; ring
        · exact h4 i hi (by omega)
  exact gen cells (le_refl _) _ _ rfl rfl (bwdSol_top _ _ _ _ _ _).symm
    (fun i hi h => absurd hi (by omega))

theorem forwardScatter_eq (cells : ℕ) (flux xsTotal scatterSource external : ℕ → K) (e : K)
    (mm : ℕ → ℕ) (dx : ℕ → K) (mu w : K) :
    forwardScatter cells flux xsTotal scatterSource external e mm dx mu w =
      forwardIso cells flux (fun _ => 0) xsTotal (fun _ => 0) (fun _ => 0)
        (fun i => scatterSource i + external i) e mm dx mu w false := by
  unfold forwardScatter forwardIso
  simp

theorem backwardScatter_eq (cells : ℕ) (flux xsTotal scatterSource external : ℕ → K) (e : K)
    (mm : ℕ → ℕ) (dx : ℕ → K) (mu w : K) :
    backwardScatter cells flux xsTotal scatterSource external e mm dx mu w =
      backwardIso cells flux (fun _ => 0) xsTotal (fun _ => 0) (fun _ => 0)
        (fun i => scatterSource i + external i) e mm dx mu w false := by
  unfold backwardScatter backwardIso
  simp

end Discrete1.Slab
