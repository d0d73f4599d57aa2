import Verif.Model.HybridCalls
import Verif.Props.Auto
import Verif.Props.Setup2
import Verif.Props.Converge
import Verif.Props.Similar
import Verif.Props.Eigen

/-!
# The calls of `vhybrid1d` and of `critical1d.hybrid_power_iteration`: C130 - C134
-/

set_option linter.unusedSectionVars false
set_option linter.unusedSimpArgs false

namespace Discrete1.Props

open Finset Discrete1.Spec Discrete1.Slab Discrete1.Tools Discrete1.MultiGroup Discrete1.Drivers
  Discrete1.Auto Discrete1.Setup Discrete1.Hybrid Discrete1.HybridCalls Discrete1.Critical

variable {K : Type} [Field K] [LinearOrder K] [IsStrictOrderedRing K]

/-- `groups_c` or `angles_c` asks for `n j` in time step `j`: an integer asks for the same number in every step,
an array with at least one entry per step for its entries. -/
def Requests (c : Count) (steps : ℕ) (n : ℕ → ℕ) : Prop :=
  match c with
  | .int k => ∀ j < steps, n j = k
  | .array len v => steps ≤ len ∧ ∀ j < steps, n j = v j
  | .other => False

/-- What the package ships: the grid exists, its bounds increase, its index arrays cut it. -/
structure StockOk (st : Stock K) (grid size : ℕ) : Prop where
  exists_ : st.size grid = some size
  increasing : Increasing size (st.edges grid)
  tables : ∀ k e, st.table grid k = some e → IsPartition k size e

theorem loopE_first_error {σ ε : Type} {n : ℕ} {f : ℕ → σ → Except ε σ} {s : σ} {e : ε} (hn : 0 < n)
    (h : f 0 s = .error e) : loopE n f s = .error e := by
  induction n with
  | zero => omega
  | succ n ih =>
    rw [loopE_succ]
    rcases Nat.eq_zero_or_pos n with rfl | hp
    · exact h
    · rw [ih hp]

/-- C130: an integer and an array full of that integer are the same request, for groups and for angles. -/
theorem C130_constant_counts (second : Bool) (p : Problem K) (bc : BcX) (gauss : ℕ → List (K × K))
    (convC : ℕ → (ℕ → ℕ → K) → (ℕ → ℕ → K) → Bool) (st : Stock K) (grid : ℕ) (groupsC anglesC : Count)
    (xsTotal : ℕ → ℕ → K) (scatter fission : ℕ → ℕ → ℕ → K) (velocity : ℕ → K)
    (external boundary : TimeArr K) (steps : ℕ) (dt : K) (init : ℕ → ℕ → ℕ → K) (n len : ℕ) (v : ℕ → ℕ)
    (hsteps : 0 < steps) (hlen : steps ≤ len) (hv : ∀ j < steps, v j = n) :
    vhybridCall second p bc gauss convC st grid (.array len v) anglesC xsTotal scatter fission velocity external
        boundary steps dt init
      = vhybridCall second p bc gauss convC st grid (.int n) anglesC xsTotal scatter fission velocity external
        boundary steps dt init ∧
    vhybridCall second p bc gauss convC st grid groupsC (.array len v) xsTotal scatter fission velocity external
        boundary steps dt init
      = vhybridCall second p bc gauss convC st grid groupsC (.int n) xsTotal scatter fission velocity external
        boundary steps dt init := by
  constructor
  · have h : ∀ i < steps, ∀ s, callStep second p bc gauss convC st grid (.array len v) anglesC xsTotal
        (fun m o i => scatter m o i + fission m o i) velocity external boundary dt i s
        = callStep second p bc gauss convC st grid (.int n) anglesC xsTotal
        (fun m o i => scatter m o i + fission m o i) velocity external boundary dt i s := by
      intro i hi s
      unfold callStep
      simp only [gridAt, if_pos (show i < len by omega), hv i hi]
    simp only [vhybridCall]
    rw [loopE_congr _ _ _ _ h]
    cases he : energyGridChange st grid p.groups n with
    | ok g => rfl
    | error e =>
      rw [loopE_first_error (e := e) hsteps (by
        simp only [callStep, gridAt, he, Except.map])]
      rfl
  · have h : ∀ i < steps, ∀ s, callStep second p bc gauss convC st grid groupsC (.array len v) xsTotal
        (fun m o i => scatter m o i + fission m o i) velocity external boundary dt i s
        = callStep second p bc gauss convC st grid groupsC (.int n) xsTotal
        (fun m o i => scatter m o i + fission m o i) velocity external boundary dt i s := by
      intro i hi s
      unfold callStep
      simp only [angleAt, if_pos (show i < len by omega), hv i hi]
    simp only [vhybridCall]
    rw [loopE_congr _ _ _ _ h]

/-! ## The collided grid of a step -/

/-- The collided grid with `C` groups of a problem on the whole stock grid. -/
theorem energyGridChange_ok {st : Stock K} {grid G C : ℕ} (hst : StockOk st grid G) (hC : 1 ≤ C) (hCG : C ≤ G) :
    ∃ e coarse factor, energyGridChange st grid G C = .ok ⟨C, coarse, factor, e, st.edges grid⟩ ∧
      IsPartition C G e ∧ (∀ g < G, coarse g < C ∧ InBlock e (coarse g) g) ∧
      ∀ g < G, factor g * (st.edges grid (e (coarse g + 1)) - st.edges grid (e (coarse g)))
        = st.edges grid (g + 1) - st.edges grid g := by
  obtain ⟨f, e, h1, h2, h3⟩ := C80_packaged_whole_grid_partial st.size st.table grid G C hst.exists_ hst.tables
    (by omega) hC hCG
  have hf := partition_full h2
  have hle : ∀ c ≤ C, e c ≤ G := fun c hc => by
    have := h3.mono hc le_rfl
    rwa [h3.last] at this
  refine ⟨e, collidedIndex C e, hybridFactor C (diff fun g => st.edges grid (f g))
    (diffIdx (fun g => st.edges grid (f g)) e) e, ?_, h3, fun g hg => (C02_collided_index h3 hg).1, fun g hg => ?_⟩
  · unfold energyGridChange
    simp only [h1]
    rw [if_neg]
    rw [List.any_eq_true]
    rintro ⟨c, hc, h⟩
    have := hle c (by have := List.mem_range.mp hc; omega)
    simp only [decide_eq_true_eq] at h
    omega
  · obtain ⟨k1, k2⟩ := (C02_collided_index h3 hg).1
    have h4 := hle _ k1.le
    have h5 := hle (collidedIndex C e g + 1) k1
    have h6 := C03_factor_value (N := G) (edges := st.edges grid) (gidxF := f) h3 k1 k2
    unfold indexing at h6
    dsimp only at h6
    rw [h6, hf _ hg.le, hf _ hg, hf _ h4, hf _ h5]
    refine div_mul_cancel₀ _ (ne_of_gt ?_)
    exact diffIdx_pos hst.increasing h3 k1

theorem gridAt_ok {st : Stock K} {grid G steps : ℕ} {groupsC : Count} {n : ℕ → ℕ}
    (hr : Requests groupsC steps n) {j : ℕ} (hj : j < steps) :
    gridAt st grid G groupsC j = (energyGridChange st grid G (n j)).map some := by
  cases groupsC with
  | int k => simp only [gridAt, hr j hj]
  | array len v =>
    obtain ⟨h1, h2⟩ := hr
    simp only [gridAt, if_pos (show j < len by omega), h2 j hj]
  | other => exact absurd hr (by simp [Requests])

theorem angleAt_ok {steps : ℕ} {anglesC : Count} {n : ℕ → ℕ} (hr : Requests anglesC steps n) {j : ℕ}
    (hj : j < steps) : angleAt anglesC j = .ok (some (n j)) := by
  cases anglesC with
  | int k => simp only [angleAt, hr j hj]
  | array len v =>
    obtain ⟨h1, h2⟩ := hr
    simp only [angleAt, if_pos (show j < len by omega), h2 j hj]
  | other => exact absurd hr (by simp [Requests])

theorem energyGridChange_groups {st : Stock K} {grid G C : ℕ} {g : GridChange K}
    (h : energyGridChange st grid G C = .ok g) : g.groups = C := by
  unfold energyGridChange at h
  split at h
  · cases h
  · cases h
  · split_ifs at h with hh
    cases h
    rfl

/-! ## C131, C132: what the calls refuse -/

/-- C131, violated: a list, a tuple or an `np.int64` as `groups_c` or `angles_c` raises UnboundLocalError in the
first step, whatever its entries (the other count being valid and the first external source present). -/
theorem C131_violation_other_counts (second : Bool) (p : Problem K) (bc : BcX) (gauss : ℕ → List (K × K))
    (convC : ℕ → (ℕ → ℕ → K) → (ℕ → ℕ → K) → Bool) (st : Stock K) (grid : ℕ) (groupsC anglesC : Count)
    (xsTotal : ℕ → ℕ → K) (scatter fission : ℕ → ℕ → ℕ → K) (velocity : ℕ → K)
    (external boundary : TimeArr K) (steps : ℕ) (dt : K) (init : ℕ → ℕ → ℕ → K) (n : ℕ → ℕ)
    (hsteps : 0 < steps) (hst : StockOk st grid p.groups) (hext : Covers external steps)
    (h : groupsC = .other ∧ (anglesC = .other ∨ Requests anglesC steps n) ∨
      anglesC = .other ∧ Requests groupsC steps n ∧ ∀ j < steps, 1 ≤ n j ∧ n j ≤ p.groups) :
    vhybridCall second p bc gauss convC st grid groupsC anglesC xsTotal scatter fission velocity external
        boundary steps dt init = .error .unboundLocal := by
  have hget := get_ok hext hsteps
  have hfirst : ∀ s, callStep second p bc gauss convC st grid groupsC anglesC xsTotal
      (fun m o i => scatter m o i + fission m o i) velocity external boundary dt 0 s = .error .unboundLocal := by
    intro s
    rcases h with ⟨rfl, rfl | ha⟩ | ⟨rfl, hg, hn⟩
    · simp only [callStep, gridAt, angleAt, hget]
    · simp only [callStep, gridAt, angleAt_ok ha hsteps, hget]
    · obtain ⟨e, coarse, factor, h1, _⟩ := energyGridChange_ok hst (hn 0 hsteps).1 (hn 0 hsteps).2
      simp only [callStep, gridAt_ok hg hsteps, h1, Except.map, angleAt, hget]
  have hrun := loopE_first_error (s := (⟨init, fun _ _ _ => 0, fun g => 1 / (velocity g * dt), fun _ _ _ => 0⟩ :
    VHybState K)) hsteps (hfirst _)
  unfold vhybridCall
  rw [hrun]
  cases groupsC with
  | int k =>
    rcases h with ⟨h, _⟩ | ⟨_, hg, hn⟩
    · cases h
    · obtain ⟨e, coarse, factor, h1, _⟩ := energyGridChange_ok hst (hn 0 hsteps).1 (hn 0 hsteps).2
      rw [hg 0 hsteps] at h1
      simp only [h1]
      rfl
  | array len v => rfl
  | other => rfl

/-- C131, violated: an array with fewer entries than time steps raises IndexError, after all the earlier steps
have been computed. -/
theorem C131_violation_short_array (second : Bool) (p : Problem K) (bc : BcX) (gauss : ℕ → List (K × K))
    (convC : ℕ → (ℕ → ℕ → K) → (ℕ → ℕ → K) → Bool) (st : Stock K) (grid : ℕ) (anglesC : Count)
    (xsTotal : ℕ → ℕ → K) (scatter fission : ℕ → ℕ → ℕ → K) (velocity : ℕ → K)
    (external boundary : TimeArr K) (steps : ℕ) (dt : K) (init : ℕ → ℕ → ℕ → K) (len : ℕ) (v : ℕ → ℕ)
    (hlen : len < steps) (out : ℕ → ℕ → ℕ → K)
    (hok : vhybridCall second p bc gauss convC st grid (.array len v) anglesC xsTotal scatter fission velocity
      external boundary len dt init = .ok out) :
    vhybridCall second p bc gauss convC st grid (.array len v) anglesC xsTotal scatter fission velocity external
        boundary steps dt init = .error .indexError := by
  unfold vhybridCall at hok ⊢
  simp only at hok ⊢
  obtain ⟨s, hs, -⟩ : ∃ s, loopE len (callStep second p bc gauss convC st grid (.array len v) anglesC xsTotal
      (fun m o i => scatter m o i + fission m o i) velocity external boundary dt)
      ⟨init, fun _ _ _ => 0, fun g => 1 / (velocity g * dt), fun _ _ _ => 0⟩ = .ok s ∧ True := by
    cases hl : loopE len (callStep second p bc gauss convC st grid (.array len v) anglesC xsTotal
      (fun m o i => scatter m o i + fission m o i) velocity external boundary dt)
      ⟨init, fun _ _ _ => 0, fun g => 1 / (velocity g * dt), fun _ _ _ => 0⟩ with
    | ok s => exact ⟨s, rfl, trivial⟩
    | error e => rw [hl] at hok; cases hok
  have : ∀ m, len < m → loopE m (callStep second p bc gauss convC st grid (.array len v) anglesC xsTotal
      (fun m o i => scatter m o i + fission m o i) velocity external boundary dt)
      ⟨init, fun _ _ _ => 0, fun g => 1 / (velocity g * dt), fun _ _ _ => 0⟩ = .error .indexError := by
    intro m
    induction m with
    | zero => omega
    | succ m ih =>
      intro hm
      rw [loopE_succ]
      rcases Nat.lt_succ_iff_lt_or_eq.mp hm with h | h
      · rw [ih h]
      · subst h
        rw [hs]
        simp only [callStep, gridAt, if_neg (lt_irrefl _)]
  rw [this _ hlen]
  rfl

/-- C132, violated: a problem with fewer (or more) groups than the stock grid it is cut from, but more than one.
No request for collided groups is answered; if everything else is in order the call raises ValueError. -/
theorem C132_violation_part_of_stock_grid (second : Bool) (p : Problem K) (bc : BcX) (gauss : ℕ → List (K × K))
    (convC : ℕ → (ℕ → ℕ → K) → (ℕ → ℕ → K) → Bool) (st : Stock K) (grid size : ℕ) (groupsC anglesC : Count)
    (xsTotal : ℕ → ℕ → K) (scatter fission : ℕ → ℕ → ℕ → K) (velocity : ℕ → K)
    (external boundary : TimeArr K) (steps : ℕ) (dt : K) (init : ℕ → ℕ → ℕ → K) (nG nA : ℕ → ℕ)
    (hsteps : 0 < steps) (hsize : st.size grid = some size) (hne : p.groups ≠ size) (hone : p.groups ≠ 1)
    (hg : Requests groupsC steps nG) (ha : Requests anglesC steps nA) (hnG : ∀ j < steps, 1 ≤ nG j) :
    (∃ e, vhybridCall second p bc gauss convC st grid groupsC anglesC xsTotal scatter fission velocity external
        boundary steps dt init = .error e) ∧
    (p.geometry = 1 → (∀ k, st.table grid k = none) → (∀ j < steps, nG j ≤ p.groups) → p.groups ≤ size →
      Covers external steps → Covers boundary steps → (∃ l, angularX (gauss (nA 0)) bc = .ok l) →
      vhybridCall second p bc gauss convC st grid groupsC anglesC xsTotal scatter fission velocity external
        boundary steps dt init = .error .valueError) := by
  have hbad : ∀ g : GridChange K, g.groups = nG 0 →
      ¬ (st.size grid = some p.groups ∨ p.groups = 1 ∨ g.groups = 0) := by
    rintro g hgr (h | h | h)
    · rw [hsize] at h; exact hne (Option.some.inj h).symm
    · exact hone h
    · have := hnG 0 hsteps; omega
  have hgen : ∀ s, ∃ e, callStep second p bc gauss convC st grid groupsC anglesC xsTotal
      (fun m o i => scatter m o i + fission m o i) velocity external boundary dt 0 s = .error e := by
    intro s
    unfold callStep
    rw [gridAt_ok hg hsteps, angleAt_ok ha hsteps]
    cases he : energyGridChange st grid p.groups (nG 0) with
    | error e => exact ⟨e, rfl⟩
    | ok g =>
      simp only [Except.map]
      split
      · exact ⟨_, rfl⟩
      · split
        · exact ⟨_, rfl⟩
        · split
          · exact ⟨_, rfl⟩
          · split
            · exact ⟨_, rfl⟩
            · rw [if_neg (hbad g (energyGridChange_groups he))]
              exact ⟨_, rfl⟩
  have hcall : ∀ e, (∀ s, callStep second p bc gauss convC st grid groupsC anglesC xsTotal
      (fun m o i => scatter m o i + fission m o i) velocity external boundary dt 0 s = .error e) →
      (∀ k, groupsC = .int k → ∃ g, energyGridChange st grid p.groups k = .ok g) →
      vhybridCall second p bc gauss convC st grid groupsC anglesC xsTotal scatter fission velocity external
        boundary steps dt init = .error e := by
    intro e h hk
    unfold vhybridCall
    rw [loopE_first_error hsteps (h _)]
    cases groupsC with
    | int k => obtain ⟨g, hg⟩ := hk k rfl; simp only [hg]; rfl
    | array len v => rfl
    | other => rfl
  constructor
  · obtain ⟨e, he⟩ := hgen ⟨init, fun _ _ _ => 0, fun g => 1 / (velocity g * dt), fun _ _ _ => 0⟩
    unfold vhybridCall
    rw [loopE_first_error hsteps he]
    cases groupsC with
    | int k =>
      simp only
      cases energyGridChange st grid p.groups k with
      | error e' => exact ⟨e', rfl⟩
      | ok g => exact ⟨e, rfl⟩
    | array len v => exact ⟨e, rfl⟩
    | other => exact ⟨e, rfl⟩
  · intro hslab htab hle hGs hext hbnd hl
    obtain ⟨l, hl⟩ := hl
    have hG : ∀ j < steps, ∃ g, energyGridChange st grid p.groups (nG j) = .ok g := by
      intro j hj
      obtain ⟨f, c, h1, _, h3⟩ := C80_computed_indices_partial st.size st.table grid size p.groups (nG j) true hsize
        (fun _ => ⟨htab _, htab _⟩) (by have := hnG j hj; have := hle j hj; omega) hGs (hnG j hj) (hle j hj)
      unfold energyGridChange
      simp only [h1]
      rw [if_neg]
      · exact ⟨_, rfl⟩
      · rw [List.any_eq_true]
        rintro ⟨k, hk, h⟩
        have := h3.1.mono (i := k) (j := nG j) (by have := List.mem_range.mp hk; omega) le_rfl
        rw [h3.1.last] at this
        simp only [decide_eq_true_eq] at h
        omega
    refine hcall _ (fun s => ?_) (fun k hk => ?_)
    · obtain ⟨g, hgc⟩ := hG 0 hsteps
      unfold callStep
      rw [gridAt_ok hg hsteps, angleAt_ok ha hsteps, hgc, get_ok hext hsteps, get_ok hbnd hsteps]
      simp only [Except.map, hl, knownSourceScalar, if_pos hslab,
        if_neg (hbad g (energyGridChange_groups hgc))]
    · subst hk
      have := hG 0 hsteps
      rwa [hg 0 hsteps] at this

/-! ## C133: every step of the call is a hybrid step on the grid requested for it -/

/-- What a caller must supply about the collided ordinates of a step: a number for which the Gauss rule has that
many nonzero ordinates. -/
def GaussFor (gauss : ℕ → List (K × K)) (n : ℕ) : Prop :=
  (gauss n).length = n ∧ ∀ x ∈ gauss n, x.1 ≠ 0

theorem angularX_ok {gauss : ℕ → List (K × K)} {n : ℕ} {bc : BcX}
    (hbc : bc = .list 0 0 ∨ bc = .list 1 0 ∨ bc = .list 0 1) (h : GaussFor gauss n) :
    ∃ l, angularX (gauss n) bc = .ok l ∧ ∀ k < n, (l.getD k (0, 0)).1 ≠ 0 := by
  have hm : ∀ l : List (K × K), l.Perm (normalisedPairs (gauss n)) →
      ∀ k < n, (l.getD k (0, 0)).1 ≠ 0 := by
    intro l hl k hk
    have hl' : k < l.length := by rw [hl.length_eq, normalisedPairs, List.length_map, h.1]; exact hk
    rw [List.getD_eq_getElem _ _ hl']
    have := hl.mem_iff.mp (List.getElem_mem hl')
    rw [normalisedPairs, List.mem_map] at this
    obtain ⟨q, hq, he⟩ := this
    rw [← he]; exact h.2 q hq
  rcases hbc with rfl | rfl | rfl
  · exact ⟨_, rfl, hm _ (List.Perm.refl _)⟩
  · exact ⟨_, rfl, hm _ (sortPairs_perm _)⟩
  · exact ⟨_, rfl, hm _ ((List.reverse_perm _).trans (sortPairs_perm _))⟩

/-- C133: a problem on the whole stock grid, any admissible sequence of collided group and angle numbers.  The
call succeeds; in step `j` the collided problem has `nG j` groups that cut the fine ones, `nA j` ordinates, namely
those of `angular_x`, on the same mesh; its data are collapsed from the fine data with the energy widths
(`Collapsed`); and the step is the hybrid step of C36 on these data. -/
theorem C133_vhybrid_steps (second : Bool) (p : Problem K) (bc : BcX) (gauss : ℕ → List (K × K))
    (convC : ℕ → (ℕ → ℕ → K) → (ℕ → ℕ → K) → Bool) (st : Stock K) (grid : ℕ) (groupsC anglesC : Count)
    (xsTotal : ℕ → ℕ → K) (scatter fission : ℕ → ℕ → ℕ → K) (velocity : ℕ → K)
    (external boundary : TimeArr K) (steps : ℕ) (dt : K) (init : ℕ → ℕ → ℕ → K) (nG nA : ℕ → ℕ)
    (hsteps : 0 < steps) (hok : TimedOk p xsTotal velocity dt) (hst : StockOk st grid p.groups)
    (hbc : bc = .list 0 0 ∨ bc = .list 1 0 ∨ bc = .list 0 1)
    (hg : Requests groupsC steps nG) (ha : Requests anglesC steps nA)
    (hnG : ∀ j < steps, 1 ≤ nG j ∧ nG j ≤ p.groups) (hnA : ∀ j < steps, GaussFor gauss (nA j))
    (hext : Covers external steps) (hbnd : Covers boundary steps) :
    ∃ (pC : ℕ → Problem K) (l : ℕ → List (K × K)) (e : ℕ → ℕ → ℕ) (xsTotalC : ℕ → ℕ → ℕ → K)
      (xsC : ℕ → ℕ → ℕ → ℕ → K) (velocityC : ℕ → ℕ → K) (coarse : ℕ → ℕ → ℕ) (factor : ℕ → ℕ → K)
      (out : ℕ → ℕ → ℕ → K) (psi u : ℕ → ℕ → ℕ → ℕ → K) (phiC guess : ℕ → ℕ → ℕ → K) (S : ℕ → Arr3 K),
      vhybridCall second p bc gauss convC st grid groupsC anglesC xsTotal scatter fission velocity external
        boundary steps dt init = .ok out ∧ psi 0 = init ∧
      ∀ j < steps,
        IsPartition (nG j) p.groups (e j) ∧ angularX (gauss (nA j)) bc = .ok (l j) ∧
        pC j = { p with groups := nG j, angles := nA j, angleX := fun n => ((l j).getD n (0, 0)).1,
                        angleW := fun n => ((l j).getD n (0, 0)).2, convOut := convC (nG j) } ∧
        (∀ c < nG j, SlabOk (pC j) (xsTotalC j) c) ∧ (∀ c < nG j, 0 < velocityC j c) ∧
        Collapsed p.groups ⟨st.edges grid, id, e j, nG j⟩ xsTotal (fun m g g' => scatter m g g' + fission m g g')
          velocity (xsTotalC j) (xsC j) (velocityC j) (coarse j) (factor j) ∧
        ImplicitStep p xsTotal (fun _ _ _ => 0) (fun _ _ => 0) (timeRate second j psi (u j) velocity dt)
          (entry external j) (entry boundary j) (u j) ∧
        CollidedSource p (pC j) (fun m g g' => scatter m g g' + fission m g g') (coarse j) (u j) (S j) ∧
        sourceIteration (pC j) (fun m c => xsTotalC j m c + timeCoef K second j / (velocityC j c * dt))
          (.iso (xsC j)) (S j) ⟨1, 1, fun _ _ _ => 0⟩ (guess j) = .ok (phiC j) ∧
        ImplicitStep p xsTotal (fun m g g' => scatter m g g' + fission m g g')
          (fun i g => quadrature p (u j) i g + phiC j i (coarse j g) * factor j g)
          (timeRate second j psi (psi (j + 1)) velocity dt) (entry external j) (entry boundary j)
          (psi (j + 1)) ∧
        (∀ i g, out j i g = quadrature p (psi (j + 1)) i g) ∧
        ∀ i < p.cells, ∀ c < nG j,
          guess j i c = ∑ g ∈ Ico (e j c) (e j (c + 1)), quadrature p (u j) i g := by
  have hG : 0 < p.groups := by have := hnG 0 hsteps; omega
  have h1 := fun j (hj : j < steps) => energyGridChange_ok hst (hnG j hj).1 (hnG j hj).2
  have h2 := fun j (hj : j < steps) => angularX_ok hbc (hnA j hj)
  choose! e coarse factor hchange hpart hblock hshare using h1
  choose! l hl hnz using h2
  set C : ℕ → Collided K := fun j => collided p convC ⟨nG j, coarse j, factor j, e j, st.edges grid⟩ (nA j) (l j)
    with hC
  have hwidth : ∀ j < steps, ∀ c < nG j, 0 < st.edges grid (e j (c + 1)) - st.edges grid (e j c) :=
    fun j hj c hc => diffIdx_pos hst.increasing (hpart j hj) hc
  have hin : ∀ j < steps, ∀ c < nG j, ∀ g ∈ Ico (e j c) (e j (c + 1)), g < p.groups :=
    fun j hj c hc g hg => lt_of_lt_of_le (mem_Ico.mp hg).2 (by
      have := (hpart j hj).mono (i := c + 1) (j := nG j) (by omega) le_rfl
      rwa [(hpart j hj).last] at this)
  have hslab : ∀ j < steps, ∀ c < (C j).pC.groups,
      SlabOk (C j).pC (xsVectorCoarsen xsTotal (C j).edges (C j).e) c := by
    intro j hj c hc
    refine ⟨(hok.ok 0 hG).slab, hnz j hj, fun i hi => ⟨((hok.ok 0 hG).phys i hi).1, ?_⟩⟩
    exact div_nonneg (sum_nonneg fun g hg => mul_nonneg ((hok.ok g (hin j hj c hc g hg)).phys i hi).2
      (sub_nonneg.mpr (hst.increasing g (hin j hj c hc g hg)).le)) (hwidth j hj c hc).le
  have hvC : ∀ j < steps, ∀ c < (C j).pC.groups, 0 < coarsenVelocity velocity (C j).e c := by
    intro j hj c hc
    have hs := (hpart j hj).strict c hc
    refine div_pos (sum_pos (fun g hg => hok.velocity g (hin j hj c hc g hg)) ⟨e j c, mem_Ico.mpr ⟨le_rfl, hs⟩⟩) ?_
    exact_mod_cast Nat.sub_pos_of_lt hs
  obtain ⟨out, psi, u, phiC, guess, S, m, k1, k2, k3⟩ := C36_vhybrid_steps second p C xsTotal scatter fission
    velocity external boundary steps dt init hok hG hslab hvC hext hbnd
  refine ⟨fun j => (C j).pC, l, e, fun j => xsVectorCoarsen xsTotal (C j).edges (C j).e, m,
    fun j => coarsenVelocity velocity (C j).e, coarse, factor, out, psi, u, phiC, guess, S, ?_, k2,
    fun j hj => ?_⟩
  · rw [← k1]
    have hstep : ∀ j < steps, ∀ s, callStep second p bc gauss convC st grid groupsC anglesC xsTotal
        (fun m o i => scatter m o i + fission m o i) velocity external boundary dt j s
        = vhybridStep second p C xsTotal (fun m o i => scatter m o i + fission m o i) velocity external boundary dt
          j s := by
      intro j hj s
      unfold callStep
      rw [gridAt_ok hg hj, angleAt_ok ha hj, hchange j hj, get_ok hext hj, get_ok hbnd hj]
      simp only [Except.map, hl j hj, knownSourceScalar, if_pos (hok.ok 0 hG).slab]
      rw [if_pos (Or.inl hst.exists_)]
      rfl
    unfold vhybridCall vhybridRun
    rw [loopE_congr _ _ _ _ hstep]
    cases groupsC with
    | int k =>
      have := hchange 0 hsteps
      rw [hg 0 hsteps] at this
      simp only [this]
    | array len v => rfl
    | other => rfl
  · obtain ⟨k4, k5, k6, k7, k8, k9, k10⟩ := k3 j hj
    refine ⟨hpart j hj, hl j hj, rfl, hslab j hj, hvC j hj, ⟨fun c hc m' => ?_, fun a ha b hb m' => ?_,
      fun c hc => ?_, hblock j hj, hshare j hj⟩, k4, k5, k7, k8, k9, fun i hi c hc => k10 i hi c hc (by
        have := (hpart j hj).mono (i := c + 1) (j := nG j) (by omega) le_rfl
        rwa [(hpart j hj).last] at this)⟩
    · exact div_mul_cancel₀ _ (hwidth j hj c hc).ne'
    · have : m j = fun mat a b => (∑ og ∈ Ico (e j a) (e j (a + 1)), ∑ ig ∈ Ico (e j b) (e j (b + 1)),
          (scatter mat og ig + fission mat og ig) * diff (st.edges grid) ig) / diffIdx (st.edges grid) (e j) b :=
        (Option.some.inj k6).symm
      rw [this]
      exact div_mul_cancel₀ _ (hwidth j hj b hb).ne'
    · have := (hpart j hj).strict c hc
      refine div_mul_cancel₀ _ ?_
      exact_mod_cast (by omega : e j (c + 1) - e j c ≠ 0)

/-! ## C134: the whole grid in every step -/

/-- `C22_downscatter_exact` with hypotheses on the groups of the problem only. -/
theorem downscatter_exact_local (p : Problem K) (xsTotal : ℕ → ℕ → K) (xs : ℕ → ℕ → ℕ → K)
    (external boundary : Arr3 K) (guess : ℕ → ℕ → K) (hok : ∀ g < p.groups, SlabOk p xsTotal g)
    (hdown : ∀ m, ∀ g < p.groups, ∀ g' < p.groups, g ≤ g' → xs m g g' = 0) :
    ∃ phi psi, sourceIteration p xsTotal (.iso xs) external boundary guess = .ok phi ∧
      SolvesMultigroup p xsTotal xs external boundary phi psi := by
  obtain ⟨x, k, hk, _, _, hstep, h, _⟩ := C21_source_iteration_stops p xsTotal xs external boundary guess hok
  obtain ⟨new, h1, h2, _⟩ := oneSweepIso_spec p xsTotal xs external boundary (x (k - 1)) hok
  have hnew : new = x k := by
    have := hstep (k - 1) (by omega)
    rw [h1, show k - 1 + 1 = k by omega] at this
    exact Except.ok.inj this
  subst hnew
  choose! prev psi s h2 using h2
  refine ⟨x k, psi, h, fun g hg => (h2 g hg).2.2.1, fun g hg n hn i hi => ?_, fun g hg => (h2 g hg).2.2.2.2.1⟩
  rw [(h2 g hg).2.2.2.1 n hn i hi]
  simp only
  rw [hdown _ g hg g hg le_rfl, ← add_sum_erase _ _ (mem_range.mpr hg), hdown _ g hg g hg le_rfl, zero_mul,
    zero_mul, zero_add, zero_add, add_comm]
  congr 1
  refine sum_congr rfl fun og ho => ?_
  by_cases hlt : og < g
  · rw [if_pos hlt]
  · rw [hdown _ g hg og (mem_range.mp (mem_of_mem_erase ho)) (by omega), zero_mul, zero_mul]

/-- The multigroup equations only see the data of the problem's own cells, groups and angles. -/
theorem solves_agree {p p' : Problem K} {sigma sigma' : ℕ → ℕ → K} {xs xs' : ℕ → ℕ → ℕ → K}
    {ext bnd : Arr3 K} {phi : ℕ → ℕ → K} {psi : ℕ → ℕ → ℕ → K}
    (hc : p'.cells = p.cells) (hg : p'.groups = p.groups) (ha : p'.angles = p.angles) (hm : p'.mm = p.mm)
    (hd : p'.dx = p.dx) (hx : ∀ n < p.angles, p'.angleX n = p.angleX n)
    (hw : ∀ n < p.angles, p'.angleW n = p.angleW n) (hl : p'.bcL = p.bcL) (hr : p'.bcR = p.bcR)
    (hs : ∀ m, ∀ g < p.groups, sigma' m g = sigma m g)
    (hxs : ∀ m, ∀ g < p.groups, ∀ g' < p.groups, xs' m g g' = xs m g g')
    (h : SolvesMultigroup p' sigma' xs' ext bnd phi psi) : SolvesMultigroup p sigma xs ext bnd phi psi := by
  refine ⟨fun g hg' i hi => ?_, fun g hg' n hn i hi => ?_, fun g hg' n hn => ?_⟩
  · have := h.scalar g (hg ▸ hg') i (hc ▸ hi)
    rw [this, ha]
    unfold scalarCenter
    exact sum_congr rfl fun n hn => by rw [hw n (mem_range.mp hn)]
  · have := h.balance g (hg ▸ hg') n (ha ▸ hn) i (hc ▸ hi)
    simp only [hm, hd, hg, hx n hn] at this
    simp only at this ⊢
    rw [hs _ g hg'] at this
    rw [this]
    congr 1
    exact sum_congr rfl fun og ho => by rw [hxs _ g hg' og (mem_range.mp ho)]
  · have := h.inflow g (hg ▸ hg') n (ha ▸ hn)
    rw [hc, ha, hl, hr, hx n hn, hx (p.angles - 1 - n) (by omega)] at this
    exact this

/-- C134: one collided group per fine group and the fine ordinates in every step.  If no group scatters into itself
or into a lower-numbered group, `vhybrid1d` returns exactly what `timed1d` returns. -/
theorem C134_full_grid_is_timed (second : Bool) (p : Problem K) (bc : BcX) (gauss : ℕ → List (K × K))
    (convC : ℕ → (ℕ → ℕ → K) → (ℕ → ℕ → K) → Bool) (st : Stock K) (grid : ℕ) (groupsC anglesC : Count)
    (xsTotal : ℕ → ℕ → K) (scatter fission : ℕ → ℕ → ℕ → K) (velocity : ℕ → K)
    (external boundary : TimeArr K) (steps : ℕ) (dt c : K) (hc : 0 ≤ c) (hc1 : c < 1) (init : ℕ → ℕ → ℕ → K)
    (hsteps : 0 < steps) (hok : TimedOk p xsTotal velocity dt) (hG : 0 < p.groups) (hst : StockOk st grid p.groups)
    (hbc : bc = .list 0 0 ∨ bc = .list 1 0 ∨ bc = .list 0 1)
    (hg : Requests groupsC steps fun _ => p.groups) (ha : Requests anglesC steps fun _ => p.angles)
    (hnA : GaussFor gauss p.angles)
    (hquad : ∀ l, angularX (gauss p.angles) bc = .ok l → ∀ n < p.angles,
      p.angleX n = (l.getD n (0, 0)).1 ∧ p.angleW n = (l.getD n (0, 0)).2)
    (hext : Covers external steps) (hbnd : Covers boundary steps)
    (hcon : ∀ j < steps, Contractive p
      (fun m g => xsTotal m g + timeCoef K second j / (velocity g * dt))
      (fun m g g' => scatter m g g' + fission m g g') c)
    (hdown : ∀ m g g', g ≤ g' → scatter m g g' + fission m g g' = 0) :
    ∃ outV outT : ℕ → ℕ → ℕ → K,
      vhybridCall second p bc gauss convC st grid groupsC anglesC xsTotal scatter fission velocity external
        boundary steps dt init = .ok outV ∧
      (if second then bdf2 p xsTotal (.iso scatter) (.matrix fission) velocity external boundary steps dt init
        else backwardEuler p xsTotal (.iso scatter) (.matrix fission) velocity external boundary steps dt init)
        = .ok outT ∧
      ∀ j < steps, ∀ i < p.cells, ∀ g < p.groups, outV j i g = outT j i g := by
  obtain ⟨pC, l, e, sC, xC, vC, coarse, factor, out, psi, u, phiC, guess, S, h1, h2, h3⟩ := C133_vhybrid_steps
    second p bc gauss convC st grid groupsC anglesC xsTotal scatter fission velocity external boundary steps dt init
    (fun _ => p.groups) (fun _ => p.angles) hsteps hok hst hbc hg ha (fun _ _ => ⟨hG, le_rfl⟩) (fun _ _ => hnA)
    hext hbnd
  obtain ⟨outT, psiT, t1, t2, t3, t4, t5⟩ := timed_steps second p xsTotal scatter (.matrix fission) velocity external
    boundary steps dt init hok hG hext hbnd
  have hokV : ∀ j, ∀ g < p.groups, SlabOk p
      (fun m c => xsTotal m c + timeCoef K second j / (velocity c * dt)) g :=
    fun j => xsStar_ok hok (timeCoef_nonneg (K := K) second j)
  have hT : ∀ j < steps, ∀ i < p.cells, ∀ g < p.groups, outT j i g = quadrature p (psiT (j + 1)) i g :=
    fun j hj => t5 j hj (downscatter_outputs (hokV j) hdown (t4 j hj))
  have fT : FullyImplicit second p xsTotal (fun m g g' => scatter m g g' + fission m g g') velocity external
      boundary dt steps psiT := fun j hj =>
    implicit_congr (t3 j hj) (fun i hi g hg => (hT j hj i hi g hg).symm) rfl
  have fV : FullyImplicit second p xsTotal (fun m g g' => scatter m g g' + fission m g g') velocity external
      boundary dt steps psi := by
    intro j hj
    obtain ⟨k0, kl, kp, ks, kv, kc, k1, k2, k3, k4, _⟩ := h3 j hj
    have he := partition_full k0
    have hwid : ∀ b < p.groups, st.edges grid (b + 1) - st.edges grid b ≠ 0 := fun b hb =>
      (sub_pos.mpr (hst.increasing b hb)).ne'
    have htot : ∀ m, ∀ g < p.groups, sC j m g = xsTotal m g := by
      intro m g hg'
      have := kc.total g hg' m
      simp only [id, he g hg'.le, he (g + 1) hg', Nat.Ico_succ_singleton, sum_singleton] at this
      exact mul_right_cancel₀ (hwid g hg') this
    have hxs : ∀ m, ∀ g < p.groups, ∀ g' < p.groups, xC j m g g' = scatter m g g' + fission m g g' := by
      intro m g hg' g' hg''
      have := kc.transfer g hg' g' hg'' m
      simp only [id, he g hg'.le, he (g + 1) hg', he g' hg''.le, he (g' + 1) hg'', Nat.Ico_succ_singleton,
        sum_singleton] at this
      exact mul_right_cancel₀ (hwid g' hg'') this
    have hvel : ∀ g < p.groups, vC j g = velocity g := by
      intro g hg'
      have := kc.speed g hg'
      simp only [he g hg'.le, he (g + 1) hg', Nat.Ico_succ_singleton, sum_singleton,
        show g + 1 - g = 1 by omega, Nat.cast_one, mul_one] at this
      exact this
    have hid : ∀ g < p.groups, coarse j g = g ∧ factor j g = 1 := by
      intro g hg'
      obtain ⟨b1, b2, b3⟩ := kc.block g hg'
      have b1 : coarse j g < p.groups := b1
      simp only [he _ b1.le, he _ b1] at b2 b3
      have hcg : coarse j g = g := by omega
      refine ⟨hcg, ?_⟩
      have := kc.share g hg'
      simp only [id, hcg, he g hg'.le, he (g + 1) hg'] at this
      exact mul_right_cancel₀ (hwid g hg') (this.trans (one_mul _).symm)
    have hslabC : ∀ c < (pC j).groups, SlabOk (pC j)
        (fun m c => sC j m c + timeCoef K second j / (vC j c * dt)) c := by
      intro c hc'
      rw [kp] at hc'
      have hs := ks c hc'
      exact ⟨hs.slab, hs.nonzero, fun i hi => ⟨(hs.phys i hi).1, add_nonneg (hs.phys i hi).2
        (div_nonneg (timeCoef_nonneg second j) (mul_pos (kv c hc') hok.dt).le)⟩⟩
    have hgC : (pC j).groups = p.groups := by rw [kp]
    obtain ⟨phi, eC, d1, d2⟩ := downscatter_exact_local (pC j) _ (xC j) (S j) ⟨1, 1, fun _ _ _ => 0⟩ (guess j) hslabC
      (fun m g hg' g' hg'' hle => by
        rw [hgC] at hg' hg''
        rw [hxs m g hg' g' hg'']; exact hdown m g g' hle)
    rw [k3] at d1
    obtain rfl := Except.ok.inj d1
    have hq := hquad (l j) kl
    have hsol : SolvesMultigroup p (fun m c => xsTotal m c + timeCoef K second j / (velocity c * dt))
        (fun m g g' => scatter m g g' + fission m g g') (S j) ⟨1, 1, fun _ _ _ => 0⟩ (phiC j) eC := by
      refine solves_agree (p' := pC j) (by rw [kp]) hgC (by rw [kp]) (by rw [kp]) (by rw [kp])
        (fun n hn => by rw [kp]; exact (hq n hn).1.symm) (fun n hn => by rw [kp]; exact (hq n hn).2.symm)
        (by rw [kp]) (by rw [kp]) (fun m g hg' => ?_) hxs d2
      simp only [htot m g hg', hvel g hg']
    -- as in C37
    set q := (if second = true ∧ j ≠ 0 then qStar2 (entry external j) velocity dt (psi j) (psi (j - 1))
      else qStar1 (entry external j) velocity dt (psi j)) with hqd
    have toStep : ∀ {ys : ℕ → ℕ → ℕ → K} {phi : ℕ → ℕ → K} {new : ℕ → ℕ → ℕ → K},
        ImplicitStep p xsTotal ys phi (timeRate second j psi new velocity dt) (entry external j)
          (entry boundary j) new →
        StepData p (xsStar xsTotal (timeCoef K second j) velocity dt) ys q (entry boundary j) phi new := by
      rintro ys phi new ⟨e, he⟩
      refine ⟨e, fun g hg => ⟨(he g hg).1, fun n hn i hi => ?_, (he g hg).2.2⟩⟩
      have h1 := (he g hg).2.1 n hn i hi
      have h2 := rate_identity (second := second) (j := j) hok (entry external j) psi (psi (j - 1)) new
        (fun _ => rfl) i hi n hn g hg
      rw [← hqd] at h2
      linear_combination h1 + h2
    obtain ⟨e', he'⟩ := superposition (toStep k1) (fun i hi n hn g hg' => by
      obtain ⟨a, b, c'⟩ := k2
      rw [a, b, hgC, bidx_full _ _ hg']
      have : bidx 1 n = 0 := by simp [bidx]
      rw [this, c' i hi g]
      have hf : (range p.groups).filter (fun g' => coarse j g' = g) = {g} := by
        ext x
        simp only [mem_filter, mem_range, mem_singleton]
        constructor
        · rintro ⟨hx, he⟩; rw [(hid x hx).1] at he; exact he
        · rintro rfl; exact ⟨hg', (hid x hg').1⟩
      rw [hf, sum_singleton]) hsol
    have hphi : ∀ i < p.cells, ∀ g < p.groups,
        quadrature p (u j) i g + phiC j i (coarse j g) * factor j g = quadrature p (u j) i g + phiC j i g :=
      fun i _ g hg' => by rw [(hid g hg').1, (hid g hg').2, mul_one]
    have hsd := toStep (implicit_congr k4 (phi' := fun i g => quadrature p (u j) i g + phiC j i g)
      (fun i hi g hg' => (hphi i hi g hg').symm) rfl)
    have hfin := hsd.scalar (hokV j) he'
    exact implicit_congr k4 (fun i hi g hg' => by rw [hphi i hi g hg']; exact (hfin i hi g hg').symm) rfl
  have huniq := C37_fully_implicit_unique second p xsTotal _ velocity external boundary dt c hc hc1 steps hok hcon
    psi psiT (fun i _ n _ g _ => by rw [h2, t2]) fV fT
  refine ⟨out, outT, h1, t1, fun j hj i hi g hg' => ?_⟩
  rw [(h3 j hj).2.2.2.2.2.2.2.2.2.2.1 i g, hT j hj i hi g hg']
  unfold quadrature
  exact sum_congr rfl fun n hn => by rw [huniq (j + 1) hj i hi n (mem_range.mp hn) g hg']

/-! ## C135: one pass of the hybrid power iteration -/

/-- `u` is the scalar flux of the neutrons that have not scattered since they were born in the fissions of `phi`
(production divided by `k`): transport with the fission source only. -/
def Uncollided (p : Problem K) (sigma : ℕ → ℕ → K) (F : ℕ → ℕ → ℕ → K) (phi : ℕ → ℕ → K) (k : K)
    (u : ℕ → ℕ → K) : Prop :=
  ∃ psi : ℕ → ℕ → ℕ → K, ∀ g < p.groups,
    (∀ i < p.cells, u i g = ∑ n ∈ range p.angles, p.angleW n * ((psi g n i + psi g n (i + 1)) / 2)) ∧
    (∀ n < p.angles, ∀ i < p.cells,
      p.angleX n * (psi g n (i + 1) - psi g n i) / p.dx i
          + sigma (p.mm i) g * ((psi g n i + psi g n (i + 1)) / 2)
        = (∑ g' ∈ range p.groups, F (p.mm i) g g' * phi i g') / k) ∧
    SweptInflow p.cells p.angles p.angleX p.bcL p.bcR (fun _ => 0) (fun _ => 0) (psi g)

theorem uncollided_of {p : Problem K} {xsTotal : ℕ → ℕ → K} {fission : ℕ → ℕ → ℕ → K} {phi : ℕ → ℕ → K} {k : K}
    {u : ℕ → ℕ → K} (hok : ∀ g < p.groups, SlabOk p xsTotal g) (hf : FissionNonneg p.groups (.matrix fission))
    (h : knownSourceScalar p xsTotal (fissionSource p.groups p.mm (.matrix fission) phi k) zeroBoundary false
      = .ok u) : Uncollided p xsTotal fission phi k u := by
  have hU := fun g (hg : g < p.groups) => C08_known_source_exists p xsTotal
    (fissionSource p.groups p.mm (.matrix fission) phi k) zeroBoundary g (hok g hg)
  choose! psi hpsi using hU
  refine ⟨psi, fun g hg => ⟨fun i hi => ?_, fun n hn i hi => ?_, ?_⟩⟩
  · obtain ⟨⟨u', hu', hu''⟩, _⟩ := C08_known_source p xsTotal _ zeroBoundary g (hok g hg) _ (hpsi g hg)
    rw [h] at hu'
    obtain rfl := Except.ok.inj hu'
    exact hu'' i hi
  · have a := (hpsi g hg).1 n hn i hi
    simp only at a
    rw [fissionSource_val p (.matrix fission) hf _ _ _ _ _ hg] at a
    exact a
  · simpa [zeroBoundary] using (hpsi g hg).2

/-- The collided problem of `hybrid_power_iteration`, whatever the grids. -/
theorem hybridPowerCall_eq (p : Problem K) (bc : BcX) (gauss : ℕ → List (K × K))
    (convC : (ℕ → ℕ → K) → (ℕ → ℕ → K) → Bool) (norm : (ℕ → ℕ → K) → K)
    (conv : (ℕ → ℕ → K) → (ℕ → ℕ → K) → Bool) (xsTotal : ℕ → ℕ → K) (scatter fission : ℕ → ℕ → ℕ → K)
    (anglesC groupsC : ℕ) (grid : EnergyGrid K) (random : ℕ → ℕ → K)
    (hok : ∀ g < p.groups, SlabOk p xsTotal g) (hG : 0 < p.groups) (hgrid : GridFor p.groups groupsC grid)
    (hang : AnglesFor p bc gauss anglesC) :
    ∃ (pC : Problem K) (xsTotalC : ℕ → ℕ → K) (xsC : ℕ → ℕ → ℕ → K) (coarse : ℕ → ℕ) (factor : ℕ → K),
      hybridPowerCall p bc gauss convC norm conv xsTotal scatter fission anglesC groupsC grid random
        = hybridPowerIteration p pC norm conv xsTotal xsTotalC scatter xsC fission coarse factor random ∧
      collidedAngles p bc gauss anglesC = .ok (pC.angleX, pC.angleW) ∧
      pC.groups = groupsC ∧ pC.angles = anglesC ∧ pC.cells = p.cells ∧ pC.dx = p.dx ∧ pC.mm = p.mm ∧
      pC.bcL = p.bcL ∧ pC.bcR = p.bcR ∧
      (∀ c < groupsC, SlabOk pC xsTotalC c) ∧
      Collapsed p.groups grid xsTotal scatter (fun _ => 1) xsTotalC xsC (fun _ => 1) coarse factor := by
  obtain ⟨x, w, hxw, hx⟩ := collidedAngles_ok hang (hok 0 hG).nonzero
  obtain ⟨N, hE, hF⟩ := hgrid.increasing
  have hC := hgrid.coarse
  have hinc := increasing_comp hE hF
  set idx := indexing grid.coarseGroups grid.edges grid.gidxU grid.gidxC with hidx
  have hblock : ∀ g < p.groups, idx.2.1 g < grid.coarseGroups ∧ InBlock grid.gidxC (idx.2.1 g) g :=
    fun g hg => (C02_collided_index hC hg).1
  have hshare : ∀ g < p.groups,
      idx.2.2 g * (grid.edges (grid.gidxU (grid.gidxC (idx.2.1 g + 1)))
        - grid.edges (grid.gidxU (grid.gidxC (idx.2.1 g))))
        = grid.edges (grid.gidxU (g + 1)) - grid.edges (grid.gidxU g) := fun g hg => by
    obtain ⟨h1, h2⟩ := hblock g hg
    rw [hidx, C03_factor_value (N := N) hC h1 h2]
    exact div_mul_cancel₀ _ (width_pos hgrid h1).ne'
  have hspeed : ∀ c < grid.coarseGroups, (1 : K) * ((grid.gidxC (c + 1) - grid.gidxC c : ℕ) : K)
      = ∑ g ∈ Ico (grid.gidxC c) (grid.gidxC (c + 1)), 1 := fun c _ => by simp
  suffices main : ∃ (xsTotalC : ℕ → ℕ → K) (sC : ℕ → ℕ → ℕ → K)
      (conv' : (ℕ → ℕ → K) → (ℕ → ℕ → K) → Bool),
      hybridPowerCall p bc gauss convC norm conv xsTotal scatter fission anglesC groupsC grid random =
        hybridPowerIteration p
          { p with groups := groupsC, angles := anglesC, angleX := x, angleW := w, convOut := conv' }
          norm conv xsTotal xsTotalC scatter sC fission idx.2.1 idx.2.2 random ∧
      Collapsed p.groups grid xsTotal scatter (fun _ => 1) xsTotalC sC (fun _ => 1) idx.2.1 idx.2.2 by
    obtain ⟨xsTotalC, sC, conv', hrun, hcol⟩ := main
    have hin : ∀ c < grid.coarseGroups, ∀ g ∈ Ico (grid.gidxC c) (grid.gidxC (c + 1)), g < p.groups :=
      fun c hc g hg => lt_of_lt_of_le (mem_Ico.mp hg).2 (by
        have := hC.mono (i := c + 1) (j := grid.coarseGroups) (by omega) le_rfl
        rwa [hC.last] at this)
    refine ⟨{ p with groups := groupsC, angles := anglesC, angleX := x, angleW := w, convOut := conv' },
      xsTotalC, sC, idx.2.1, idx.2.2, hrun, hxw, rfl, rfl, rfl, rfl, rfl, rfl, rfl, ?_, hcol⟩
    intro c hc
    rw [hgrid.number] at hc
    refine ⟨(hok 0 hG).slab, hx, fun i hi => ⟨((hok 0 hG).phys i hi).1, ?_⟩⟩
    have h1 := hcol.total c hc (p.mm i)
    have h2 : 0 ≤ ∑ g ∈ Ico (grid.gidxC c) (grid.gidxC (c + 1)),
        xsTotal (p.mm i) g * (grid.edges (grid.gidxU (g + 1)) - grid.edges (grid.gidxU g)) :=
      sum_nonneg fun g hg => mul_nonneg ((hok g (hin c hc g hg)).phys i hi).2
        (sub_nonneg.mpr (hinc g (hin c hc g hg)).le)
    rw [← h1] at h2
    exact nonneg_of_mul_nonneg_left h2 (width_pos hgrid hc)
  by_cases hgc : groupsC = p.groups
  · have hfull : grid.coarseGroups = p.groups := hgrid.number ▸ hgc
    have hid : ∀ c ≤ p.groups, grid.gidxC c = c := partition_full (hfull ▸ hC)
    refine ⟨xsTotal, scatter, p.convOut, ?_, ?_, ?_, hspeed, hblock, hshare⟩
    · simp only [hybridPowerCall, collidedTerms, if_pos hgc, hxw]
      rw [hgc]
    · intro c hc m
      rw [hfull] at hc
      rw [hid c hc.le, hid (c + 1) hc, Nat.Ico_succ_singleton, sum_singleton]
    · intro a ha b hb m
      rw [hfull] at ha hb
      rw [hid a ha.le, hid (a + 1) ha, hid b hb.le, hid (b + 1) hb, Nat.Ico_succ_singleton, sum_singleton,
        Nat.Ico_succ_singleton, sum_singleton]
  · refine ⟨_, _, convC, (by
      simp only [hybridPowerCall, collidedTerms, if_neg hgc, hxw, coarsenMaterials, xsMatrixCoarsen,
        Option.map_some, Option.getD_some]
      rw [hgrid.number]), ?_, ?_, hspeed, hblock, hshare⟩
    · intro c hc m
      exact div_mul_cancel₀ _ (width_pos hgrid hc).ne'
    · intro a ha b hb m
      exact div_mul_cancel₀ _ (width_pos hgrid hb).ne'

/-- C135: `hybrid_power_iteration` with any admissible coarse grid and coarse quadrature.  The call succeeds after
`n` passes, `1 <= n <= 100`; the collided problem has `groups_c` groups and `angles_c` ordinates on the same mesh
and with the same faces, its data collapsed from the fine data; and every pass computes the uncollided flux of the
fissions on the fine grid, the first-collision source of every coarse group, the collided flux from it, their sum,
the production ratio and the normalised flux. -/
theorem C135_hybrid_power_passes (p : Problem K) (bc : BcX) (gauss : ℕ → List (K × K))
    (convC : (ℕ → ℕ → K) → (ℕ → ℕ → K) → Bool) (norm : (ℕ → ℕ → K) → K)
    (conv : (ℕ → ℕ → K) → (ℕ → ℕ → K) → Bool) (xsTotal : ℕ → ℕ → K) (scatter fission : ℕ → ℕ → ℕ → K)
    (anglesC groupsC : ℕ) (grid : EnergyGrid K) (random : ℕ → ℕ → K)
    (hok : ∀ g < p.groups, SlabOk p xsTotal g) (hG : 0 < p.groups) (hgrid : GridFor p.groups groupsC grid)
    (hang : AnglesFor p bc gauss anglesC) (hf : FissionNonneg p.groups (.matrix fission)) :
    ∃ (pC : Problem K) (xsTotalC : ℕ → ℕ → K) (xsC : ℕ → ℕ → ℕ → K) (coarse : ℕ → ℕ) (factor : ℕ → K)
      (n : ℕ) (phi phiC : ℕ → ℕ → ℕ → K) (k : ℕ → K),
      hybridPowerCall p bc gauss convC norm conv xsTotal scatter fission anglesC groupsC grid random
        = .ok (⟨phi n, phiC n, k n⟩, n) ∧ 1 ≤ n ∧ n ≤ 100 ∧
      pC.groups = groupsC ∧ pC.angles = anglesC ∧ pC.cells = p.cells ∧ pC.dx = p.dx ∧ pC.mm = p.mm ∧
      pC.bcL = p.bcL ∧ pC.bcR = p.bcR ∧
      collidedAngles p bc gauss anglesC = .ok (pC.angleX, pC.angleW) ∧
      (∀ c < groupsC, SlabOk pC xsTotalC c) ∧
      Collapsed p.groups grid xsTotal scatter (fun _ => 1) xsTotalC xsC (fun _ => 1) coarse factor ∧
      phi 0 = (start norm random).flux ∧ k 0 = (start norm random).keff ∧ phiC 0 = (fun _ _ => 0) ∧
      (n < 100 → conv (phi n) (phi (n - 1)) = true) ∧
      (∀ j, 1 ≤ j → j < n → conv (phi j) (phi (j - 1)) = false) ∧
      ∀ j < n, ∃ u : ℕ → ℕ → K, ∃ S : ℕ → ℕ → K,
        Uncollided p xsTotal fission (phi j) (k j) u ∧
        (∀ i c, S i c = ∑ g ∈ (range p.groups).filter (fun g => coarse g = c),
          ∑ g' ∈ range p.groups, scatter (p.mm i) g g' * u i g') ∧
        sourceIteration pC xsTotalC (.iso xsC) ⟨1, groupsC, fun i _ c => S i c⟩ ⟨1, 1, fun _ _ _ => 0⟩ (phiC j)
          = .ok (phiC (j + 1)) ∧
        k (j + 1) = k j * totalProduction p fission (fun i g => u i g + phiC (j + 1) i (coarse g) * factor g)
          / totalProduction p fission (phi j) ∧
        ∀ i g, phi (j + 1) i g = (u i g + phiC (j + 1) i (coarse g) * factor g)
          / norm (fun i g => u i g + phiC (j + 1) i (coarse g) * factor g) := by
  obtain ⟨pC, xsTotalC, xsC, coarse, factor, hcall, hxw, hgr, han, hce, hdx, hmm, hl, hr, hslab, hcol⟩ :=
    hybridPowerCall_eq p bc gauss convC norm conv xsTotal scatter fission anglesC groupsC grid random hok hG hgrid hang
  have hslab' : ∀ c < pC.groups, SlabOk pC xsTotalC c := by rw [hgr]; exact hslab
  obtain ⟨x, n, hrun, he⟩ := C27_hybrid_stops p pC norm conv xsTotal xsTotalC scatter xsC fission coarse factor
    random hok hG hslab'
  refine ⟨pC, xsTotalC, xsC, coarse, factor, n, fun j => (x j).flux, fun j => (x j).fluxC, fun j => (x j).keff,
    hcall.trans he, hrun.pos, hrun.le, hgr, han, hce, hdx, hmm, hl, hr, hxw, hslab, hcol,
    congrArg HybK.flux hrun.start, congrArg HybK.keff hrun.start, congrArg HybK.fluxC hrun.start, hrun.stopped, hrun.notBefore, fun j hj => ?_⟩
  obtain ⟨u, fluxC, h1, h2, h3⟩ := hybridStep_ok p pC norm xsTotal xsTotalC scatter xsC fission coarse factor hok hG
    hslab' (x j)
  rw [hrun.steps j hj] at h3
  have h3 := Except.ok.inj h3
  refine ⟨u, fun i c => hybridSourceCollided p.groups u scatter p.mm coarse i c, uncollided_of hok hf h1,
    fun i c => C38_group p.groups u scatter p.mm coarse i c, ?_, ?_, fun i g => ?_⟩
  · beta_reduce
    rw [h3]
    rw [hgr] at h2
    exact h2
  · beta_reduce
    rw [h3]
    exact updateKeff_eq p (.matrix fission) hf _ _ _
  · beta_reduce
    rw [h3]
    rfl

/-! ## C136: the hybrid power iteration on the full grid -/

theorem hybridLoop_rel (R : HybK K → KState K → Prop) {f : HybK K → Except PyErr (HybK K)}
    {f' : KState K → Except PyErr (KState K)} {conv : (ℕ → ℕ → K) → (ℕ → ℕ → K) → Bool}
    (hf : ∀ a b, R a b → ∃ a' b', f a = .ok a' ∧ f' b = .ok b' ∧ R a' b')
    (hc : ∀ a b x y, R a b → R x y → conv b.flux y.flux = conv a.flux x.flux) (n count : ℕ) (a : HybK K)
    (b : KState K) (h : R a b) : ∃ a' b' k, hybridLoop f conv n count a = .ok (a', k) ∧
      powerLoop f' conv n count b = .ok (b', k) ∧ R a' b' := by
  induction n generalizing a b count with
  | zero =>
    obtain ⟨a', b', h1, h2, h3⟩ := hf a b h
    refine ⟨a', b', count + 1, ?_, ?_, h3⟩
    · unfold hybridLoop; rw [h1]
    · unfold powerLoop; rw [h2]
  | succ n ih =>
    obtain ⟨a', b', h1, h2, h3⟩ := hf a b h
    unfold hybridLoop powerLoop
    rw [h1, h2]
    simp only [hc a' b' a b h3 h]
    cases conv a'.flux a.flux with
    | true => exact ⟨a', b', count + 1, rfl, rfl, h3⟩
    | false => exact ih (count + 1) a' b' h3

/-- C136: one collided group per fine group and the fine ordinates.  If no group scatters into itself or into a
lower-numbered group, `hybrid_power_iteration` returns exactly what `power_iteration` returns from the same random
start: same flux, same `keff`, after the same number of passes.  `norm` and `conv` are any functions of the entries
of the arrays. -/
theorem C136_full_grid_is_power_iteration (p : Problem K) (bc : BcX) (gauss : ℕ → List (K × K))
    (convC : (ℕ → ℕ → K) → (ℕ → ℕ → K) → Bool) (norm : (ℕ → ℕ → K) → K)
    (conv : (ℕ → ℕ → K) → (ℕ → ℕ → K) → Bool) (xsTotal : ℕ → ℕ → K) (scatter fission : ℕ → ℕ → ℕ → K)
    (grid : EnergyGrid K) (random : ℕ → ℕ → K)
    (hok : ∀ g < p.groups, SlabOk p xsTotal g) (hG : 0 < p.groups) (hgrid : GridFor p.groups p.groups grid)
    (hf : FissionNonneg p.groups (.matrix fission)) (hdown : ∀ m g g', g ≤ g' → scatter m g g' = 0)
    (hnorm : ∀ a b, (∀ i < p.cells, ∀ g < p.groups, a i g = b i g) → norm a = norm b)
    (hconv : ∀ a b x y, (∀ i < p.cells, ∀ g < p.groups, a i g = b i g) →
      (∀ i < p.cells, ∀ g < p.groups, x i g = y i g) → conv a x = conv b y) :
    ∃ (h : HybK K) (s : KState K) (n : ℕ),
      hybridPowerCall p bc gauss convC norm conv xsTotal scatter fission p.angles p.groups grid random = .ok (h, n) ∧
      powerIteration p norm conv xsTotal (.iso scatter) (.matrix fission) random = .ok (s, n) ∧
      h.keff = s.keff ∧ ∀ i < p.cells, ∀ g < p.groups, h.flux i g = s.flux i g := by
  obtain ⟨pC, xsTotalC, xsC, coarse, factor, hcall, hxw, hgr, han, hce, hdx, hmm, hl, hr, hslab, hcol⟩ :=
    hybridPowerCall_eq p bc gauss convC norm conv xsTotal scatter fission p.angles p.groups grid random hok hG hgrid
      (Or.inl rfl)
  have hslab' : ∀ c < pC.groups, SlabOk pC xsTotalC c := by rw [hgr]; exact hslab
  have hfull : grid.coarseGroups = p.groups := hgrid.number.symm
  have he : ∀ c ≤ p.groups, grid.gidxC c = c := partition_full (hfull ▸ hgrid.coarse)
  have hwid : ∀ b < p.groups, grid.edges (grid.gidxU (b + 1)) - grid.edges (grid.gidxU b) ≠ 0 := fun b hb => by
    have := width_pos hgrid (c := b) (by omega)
    rw [he b hb.le, he (b + 1) hb] at this
    exact this.ne'
  have htot : ∀ m, ∀ g < p.groups, xsTotalC m g = xsTotal m g := by
    intro m g hg
    have := hcol.total g (by omega) m
    rw [he g hg.le, he (g + 1) hg, Nat.Ico_succ_singleton, sum_singleton] at this
    exact mul_right_cancel₀ (hwid g hg) this
  have hxs : ∀ m, ∀ g < p.groups, ∀ g' < p.groups, xsC m g g' = scatter m g g' := by
    intro m g hg g' hg'
    have := hcol.transfer g (by omega) g' (by omega) m
    rw [he g hg.le, he (g + 1) hg, he g' hg'.le, he (g' + 1) hg', Nat.Ico_succ_singleton, sum_singleton,
      Nat.Ico_succ_singleton, sum_singleton] at this
    exact mul_right_cancel₀ (hwid g' hg') this
  have hid : ∀ g < p.groups, coarse g = g ∧ factor g = 1 := by
    intro g hg
    obtain ⟨b1, b2, b3⟩ := hcol.block g hg
    have b1 : coarse g < p.groups := by omega
    rw [he _ b1.le] at b2
    rw [he _ b1] at b3
    have hcg : coarse g = g := by omega
    refine ⟨hcg, ?_⟩
    have := hcol.share g hg
    rw [hcg, he g hg.le, he (g + 1) hg] at this
    exact mul_right_cancel₀ (hwid g hg) (this.trans (one_mul _).symm)
  have hang : pC.angleX = p.angleX ∧ pC.angleW = p.angleW := by
    unfold collidedAngles at hxw
    rw [if_pos rfl] at hxw
    have := Except.ok.inj hxw
    exact ⟨(congrArg Prod.fst this).symm, (congrArg Prod.snd this).symm⟩
  rw [hcall]
  unfold hybridPowerIteration powerIteration
  obtain ⟨a, b, n, h1, h2, h3, h4⟩ := hybridLoop_rel
    (fun a b => a.keff = b.keff ∧ ∀ i < p.cells, ∀ g < p.groups, a.flux i g = b.flux i g)
    (f := Critical.hybridStep p pC norm xsTotal xsTotalC scatter xsC fission coarse factor)
    (f' := powerStep p norm xsTotal (.iso scatter) (.matrix fission)) (conv := conv)
    (fun a b hab => by
      obtain ⟨u, fluxC, k1, k2, k3⟩ := hybridStep_ok p pC norm xsTotal xsTotalC scatter xsC fission coarse factor
        hok hG hslab' a
      obtain ⟨flux, m1, m2⟩ := powerStep_ok p norm xsTotal (.iso scatter) (.matrix fission) hok b
      -- the flux of the power iteration
      obtain ⟨phi, psi, e1, e2⟩ := downscatter_exact_local p xsTotal scatter
        (fissionSource p.groups p.mm (.matrix fission) b.flux b.keff) zeroBoundary b.flux hok
        (fun m g _ g' _ hle => hdown m g g' hle)
      rw [m1] at e1
      obtain rfl := Except.ok.inj e1
      -- the collided flux
      obtain ⟨phiC, psiC, d1, d2⟩ := downscatter_exact_local pC xsTotalC xsC
        ⟨1, pC.groups, fun i _ c => hybridSourceCollided p.groups u scatter p.mm coarse i c⟩ zeroBoundary a.fluxC
        hslab' (fun m g hg g' hg' hle => by
          rw [hgr] at hg hg'
          rw [hxs m g hg g' hg']; exact hdown m g g' hle)
      rw [k2] at d1
      obtain rfl := Except.ok.inj d1
      have hC := solves_agree (p := p) (p' := pC) (sigma := xsTotal) (xs := scatter) hce hgr han hmm hdx
        (fun n _ => by rw [hang.1]) (fun n _ => by rw [hang.2]) hl hr htot hxs d2
      obtain ⟨psiU, hU⟩ := uncollided_of hok hf k1
      have hsol : SolvesMultigroup p xsTotal scatter
          (fissionSource p.groups p.mm (.matrix fission) b.flux b.keff) zeroBoundary
          (fun i g => u i g + fluxC i g) (fun g n i => psiU g n i + psiC g n i) := by
        refine ⟨fun g hg i hi => ?_, fun g hg n hn i hi => ?_, fun g hg => ?_⟩
        · show u i g + fluxC i g = _
          rw [(hU g hg).1 i hi, hC.scalar g hg i hi]
          unfold scalarCenter
          rw [← sum_add_distrib]
          exact sum_congr rfl fun n _ => by ring
        · have x1 := (hU g hg).2.1 n hn i hi
          have x2 := hC.balance g hg n hn i hi
          simp only at x2 ⊢
          rw [fissionSource_val p (.matrix fission) hf _ _ _ _ _ hg]
          rw [hgr, bidx_full _ _ hg, C38_group] at x2
          have hfil : (range p.groups).filter (fun g' => coarse g' = g) = {g} := by
            ext x
            simp only [mem_filter, mem_range, mem_singleton]
            constructor
            · rintro ⟨hx, he⟩; rw [(hid x hx).1] at he; exact he
            · rintro rfl; exact ⟨hg, (hid x hg).1⟩
          rw [hfil, sum_singleton] at x2
          have x3 : (∑ g' ∈ range p.groups, fission (p.mm i) g g' * a.flux i g') / a.keff
              = (∑ g' ∈ range p.groups, fission (p.mm i) g g' * b.flux i g') / b.keff := by
            rw [hab.1]
            congr 1
            exact sum_congr rfl fun g' hg' => by rw [hab.2 i hi g' (mem_range.mp hg')]
          have x4 : ∑ g' ∈ range p.groups, scatter (p.mm i) g g' * (u i g' + fluxC i g')
              = ∑ g' ∈ range p.groups, scatter (p.mm i) g g' * u i g'
                + ∑ g' ∈ range p.groups, scatter (p.mm i) g g' * fluxC i g' := by
            rw [← sum_add_distrib]
            exact sum_congr rfl fun _ _ => by ring
          simp only [fissionMatrix]
          rw [x4, ← x3]
          linear_combination x1 + x2
        · have := sweptInflow_add (hU g hg).2.2 (hC.inflow g hg)
          simpa [zeroBoundary] using this
      have hsame := downscatter_unique p xsTotal scatter _ _ hok hdown hsol e2
      have hfl : ∀ i < p.cells, ∀ g < p.groups, u i g + fluxC i (coarse g) * factor g = flux i g := by
        intro i hi g hg
        rw [(hid g hg).1, (hid g hg).2, mul_one]
        exact hsame g hg i hi
      refine ⟨_, _, k3, m2, ?_, fun i hi g hg => ?_⟩
      · show updateKeff p.cells p.groups p.mm (.matrix fission) _ _ _ = _
        rw [updateKeff_eq p (.matrix fission) hf, updateKeff_eq p (.matrix fission) hf, hab.1,
          totalProduction_congr p _ _ _ hfl, totalProduction_congr p _ _ _ hab.2]
      · simp only [normalise]
        rw [hfl i hi g hg, hnorm _ _ hfl])
    (fun a b x y hab hxy => (hconv _ _ _ _ hab.2 hxy.2).symm) 99 0
    ⟨(start norm random).flux, fun _ _ => 0, (start norm random).keff⟩ (start norm random)
    ⟨rfl, fun _ _ _ _ => rfl⟩
  exact ⟨a, b, n, h1, h2, h3, h4⟩

/-! ### Examples -/

/-- A stock with one grid of two groups, bounds `0 < 1 < 3`. -/
def exStock : Stock ℚ :=
  ⟨fun g => if g = 87 then some 2 else none, fun _ g => if g = 0 then 0 else if g = 1 then 1 else 3, fun _ _ => none⟩

theorem exStockOk : StockOk exStock 87 2 := ⟨rfl, exAutoEdges, fun k e h => by cases h⟩

def exRule (n : ℕ) : List (ℚ × ℚ) :=
  if n = 2 then [(-1 / 2, 1), (1 / 2, 1)] else if n = 1 then [(1 / 3, 2)] else []

example (second : Bool) := C130_constant_counts second exProblem (.list 0 0) exRule (fun _ _ _ => false) exStock 87
  (.int 1) (.int 2) exTotal (fun m g g' => (m + g + g' : ℕ) / 10) (fun _ g _ => if g = 0 then 1 else 0)
  (fun g => (g : ℚ) + 1) exExternal exBoundary 3 (1 / 10) (fun i n g => (i + n + g : ℕ)) 1 4
  (fun j => if j < 3 then 1 else 7) (by omega) (by omega) (fun j hj => if_pos hj)

example (second : Bool) := C131_violation_other_counts second exProblem (.list 0 0) exRule (fun _ _ _ => false)
  exStock 87 (.array 3 fun j => if j = 0 then 2 else 1) .other exTotal (fun m g g' => (m + g + g' : ℕ) / 10)
  (fun _ g _ => if g = 0 then 1 else 0) (fun g => (g : ℚ) + 1) exExternal exBoundary 3 (1 / 10)
  (fun i n g => (i + n + g : ℕ)) (fun j => if j = 0 then 2 else 1) (by omega) exStockOk (Or.inr (le_refl _))
  (Or.inr ⟨rfl, ⟨le_refl _, fun _ _ => rfl⟩, fun j _ => by
    show 1 ≤ (if j = 0 then 2 else 1) ∧ (if j = 0 then 2 else 1) ≤ 2
    split <;> omega⟩)

/-- Coarsening in the second step: two groups and two angles first, one group and one angle afterwards. -/
example (second : Bool) := C133_vhybrid_steps second exProblem (.list 1 0) exRule (fun _ _ _ => false) exStock 87
  (.array 3 fun j => if j = 0 then 2 else 1) (.array 3 fun j => if j = 0 then 2 else 1) exTotal
  (fun m g g' => (m + g + g' : ℕ) / 10) (fun _ g _ => if g = 0 then 1 else 0) (fun g => (g : ℚ) + 1) exExternal
  exBoundary 3 (1 / 10) (fun i n g => (i + n + g : ℕ)) (fun j => if j = 0 then 2 else 1)
  (fun j => if j = 0 then 2 else 1) (by omega) exTimed exStockOk (Or.inr (Or.inl rfl)) ⟨le_refl _, fun _ _ => rfl⟩
  ⟨le_refl _, fun _ _ => rfl⟩ (fun j _ => by
    show 1 ≤ (if j = 0 then 2 else 1) ∧ (if j = 0 then 2 else 1) ≤ 2
    split <;> omega) (fun j _ => by
    unfold GaussFor
    by_cases h : j = 0 <;> simp [exRule, h]) (Or.inr (le_refl _)) (Or.inl rfl)

/-- The hypothesis of `C131_violation_short_array` is met: the call with one step and one entry succeeds. -/
example (second : Bool) : ∃ out : ℕ → ℕ → ℕ → ℚ, vhybridCall second exProblem (.list 1 0) exRule (fun _ _ _ => false)
    exStock 87 (.array 1 fun _ => 1) (.int 2) exTotal (fun m g g' => (m + g + g' : ℕ) / 10)
    (fun _ g _ => if g = 0 then 1 else 0) (fun g => (g : ℚ) + 1) exExternal exBoundary 3 (1 / 10)
    (fun i n g => (i + n + g : ℕ)) = .error .indexError ∧
    vhybridCall second exProblem (.list 1 0) exRule (fun _ _ _ => false)
    exStock 87 (.array 1 fun _ => 1) (.int 2) exTotal (fun m g g' => (m + g + g' : ℕ) / 10)
    (fun _ g _ => if g = 0 then 1 else 0) (fun g => (g : ℚ) + 1) exExternal exBoundary 1 (1 / 10)
    (fun i n g => (i + n + g : ℕ)) = .ok out := by
  obtain ⟨_, _, _, _, _, _, _, _, out, _, _, _, _, _, h, _⟩ := C133_vhybrid_steps second exProblem (.list 1 0) exRule
    (fun _ _ _ => false) exStock 87 (.array 1 fun _ => 1) (.int 2) exTotal
    (fun m g g' => (m + g + g' : ℕ) / 10) (fun _ g _ => if g = 0 then 1 else 0) (fun g => (g : ℚ) + 1) exExternal
    exBoundary 1 (1 / 10) (fun i n g => (i + n + g : ℕ)) (fun _ => 1) (fun _ => 2) (by omega) exTimed exStockOk
    (Or.inr (Or.inl rfl)) ⟨le_refl _, fun _ _ => rfl⟩ (fun _ _ => rfl) (fun j _ => ⟨le_refl _, by show 1 ≤ 2; omega⟩)
    (fun j _ => by unfold GaussFor; simp [exRule]) (Or.inr (by show 1 ≤ 3; omega)) (Or.inl rfl)
  exact ⟨out, C131_violation_short_array second exProblem _ _ _ _ _ _ _ _ _ _ _ _ 3 _ _ 1 _ (by omega) out h, h⟩

/-- Two groups cut from a stock grid of three. -/
example (second : Bool) := (C132_violation_part_of_stock_grid second exProblem (.list 0 0) exRule
  (fun _ _ _ => false) ⟨fun g => if g = 87 then some 3 else none, fun _ g => (g : ℚ), fun _ _ => none⟩ 87 3 (.int 1)
  (.int 2) exTotal (fun m g g' => (m + g + g' : ℕ) / 10) (fun _ g _ => if g = 0 then 1 else 0)
  (fun g => (g : ℚ) + 1) exExternal exBoundary 3 (1 / 10) (fun i n g => (i + n + g : ℕ)) (fun _ => 1) (fun _ => 2)
  (by omega) rfl (by show 2 ≠ 3; omega) (by show 2 ≠ 1; omega) (fun _ _ => rfl) (fun _ _ => rfl)
  (fun _ _ => le_refl _)).2 rfl (fun _ => rfl) (fun _ _ => by show 1 ≤ 2; omega) (by show 2 ≤ 3; omega)
  (Or.inr (le_refl _)) (Or.inl rfl) ⟨_, rfl⟩

/-- The fine ordinates of `exFine` as a Gauss rule. -/
def exRule4 (n : ℕ) : List (ℚ × ℚ) :=
  if n = 4 then [(-3 / 4, 1), (-1 / 4, 1), (1 / 4, 1), (3 / 4, 1)] else []

example (second : Bool) := C134_full_grid_is_timed second exFine (.list 0 0) exRule4 (fun _ _ _ => false) exStock 87
  (.int 2) (.int 4) exTotal (fun _ g g' => if g' < g then (1 / 4 : ℚ) else 0)
  (fissionMatrix (.vector (fun _ g => if g = 1 then 1 else 0) (fun _ g => if g = 0 then 1 / 4 else 0))) _
  exExternal exBoundary 3 _ (1 / 2) (by norm_num)
  (by norm_num) (fun i n g => (i + n + g : ℕ)) (by omega) exTimedFast (by show 0 < 2; omega) exStockOk (Or.inl rfl)
  (fun _ _ => rfl) (fun _ _ => rfl) ⟨rfl, by intro x hx; simp [exRule4, exFine, exProblem] at hx; rcases hx with rfl | rfl | rfl | rfl <;> norm_num⟩
  (fun l hl n hn => by
    have hl : l = normalisedPairs (exRule4 4) := (Except.ok.inj hl).symm
    subst hl
    have hn : n < 4 := hn
    interval_cases n <;> constructor <;> norm_num [exFine, exProblem, normalisedPairs, exRule4])
  (Or.inr (le_refl _)) (Or.inl rfl) (fun j _ => by
    have h := exDownscatter second j
    exact h)
  (fun m g g' h => by
    simp only [fissionMatrix, if_neg (show ¬ g' < g by omega)]
    by_cases h1 : g = 1
    · subst h1; simp [show g' ≠ 0 by omega]
    · simp [h1])

example := C135_hybrid_power_passes exProblem (.list 1 0) exRule (fun _ _ => false) (fun f => f 0 0)
  (fun _ _ => false) exTotal (fun m g g' => (m + g + g' : ℕ) / 10) (fun _ g _ => if g = 0 then 1 else 0) 2 1 exAutoGrid
  (fun i g => (i + g + 1 : ℕ)) (fun g _ => exOk g) (by show 0 < 2; omega) exAutoGridFor
  (Or.inr ⟨Or.inr (Or.inl rfl), rfl, by simp [exRule]⟩)
  (fun m o _ i _ => by show (0 : ℚ) ≤ if o = 0 then 1 else 0; split <;> norm_num)

example := C136_full_grid_is_power_iteration exProblem (.list 1 0) exRule (fun _ _ => false) (fun f => |f 0 0| + |f 2 1|)
  (fun a b => decide (|a 1 1 - b 1 1| < 1 / 10 ^ 6)) exTotal (fun m g g' => if g' < g then (m + 1 : ℕ) / 4 else 0)
  (fun _ g _ => if g = 0 then 1 else 0) exAutoFull
  (fun i g => (i + g + 1 : ℕ)) (fun g _ => exOk g) (by show 0 < 2; omega) exAutoFullFor
  (fun m o _ i _ => by show (0 : ℚ) ≤ if o = 0 then 1 else 0; split <;> norm_num)
  (fun m g g' h => if_neg (by omega))
  (fun a b h => by
    simp only [h 0 (by show 0 < 3; omega) 0 (by show 0 < 2; omega), h 2 (by show 2 < 3; omega) 1 (by show 1 < 2; omega)])
  (fun a b x y h h' => by
    simp only [h 1 (by show 1 < 3; omega) 1 (by show 1 < 2; omega), h' 1 (by show 1 < 3; omega) 1 (by show 1 < 2; omega)])

end Discrete1.Props
