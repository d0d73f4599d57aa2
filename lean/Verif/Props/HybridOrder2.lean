import Verif.Props.HybridOrder
import Mathlib.Tactic.IntervalCases

/-!
# C174: on a coarse collided grid `hybrid1d.bdf2` is first order, not second order
-/

set_option linter.unusedSectionVars false
set_option linter.unusedSimpArgs false

namespace Discrete1.Props

open Finset Discrete1.Spec Discrete1.Slab Discrete1.Tools Discrete1.MultiGroup Discrete1.Drivers

variable {K : Type} [Field K] [LinearOrder K] [IsStrictOrderedRing K]

/-! ## The problem: one cell, directions -1 and 1, a cascade of groups -/

/-- One cell of width 1, two directions, `G` groups. -/
def cascade (K : Type) [Field K] (G : ℕ) : Problem K where
  cells := 1
  groups := G
  angles := 2
  mm := fun _ => 0
  dx := fun _ => 1
  angleX := fun n => if n = 0 then -1 else 1
  angleW := fun _ => 1 / 2
  bcL := false
  bcR := false
  geometry := 1
  pi := 3
  convIn := fun _ _ => false
  convOut := fun _ _ => false

/-- Group 0 scatters into group 1, group 1 into group 3. -/
def cascadeXs (K : Type) [Field K] (_ g g' : ℕ) : K :=
  if (g = 1 ∧ g' = 0) ∨ (g = 3 ∧ g' = 1) then 1 else 0

/-- The coarse groups are {0}, {1, 2}, {3}. -/
def cascadeXsC (K : Type) [Field K] (_ c c' : ℕ) : K :=
  if c = 1 ∧ c' = 0 then 1 else if c = 2 ∧ c' = 1 then 1 / 2 else 0

def cascadeCoarse (g : ℕ) : ℕ := if g = 0 then 0 else if g = 3 then 2 else 1

def cascadeFactor (K : Type) [Field K] (g : ℕ) : K := if g = 0 ∨ g = 3 then 1 else 1 / 2

/-- The steady state: groups 0, 1 and 3 carry a flux of one. -/
def cascadeField (K : Type) [Field K] (_ _ g : ℕ) : K := if g = 2 then 0 else 1

def cascadeExt (K : Type) [Field K] : TimeArr K := ⟨1, fun _ => ⟨1, 4, fun _ _ g => if g = 0 then 1 else 0⟩⟩

def cascadeBnd (K : Type) [Field K] : TimeArr K := ⟨1, fun _ => ⟨1, 4, fun _ _ g => if g = 2 then 0 else 1⟩⟩

theorem cascade_ok (G : ℕ) (sigma : ℕ → ℕ → K) (g : ℕ) (h : 0 ≤ sigma 0 g) : SlabOk (cascade K G) sigma g where
  slab := rfl
  nonzero := by
    intro n _
    show (if n = 0 then (-1 : K) else 1) ≠ 0
    split <;> norm_num
  phys := fun i _ => ⟨one_pos, h⟩

theorem cascade_timed {dt : K} (hdt : 0 < dt) : TimedOk (cascade K 4) (fun _ _ => 1) (fun _ => 1) dt :=
  ⟨fun g _ => cascade_ok 4 _ g zero_le_one, by show 1 < 2; omega, fun _ _ => one_pos, hdt⟩

/-- A swept cell: `2 (psi - b) + sigma psi = q`. -/
theorem cascade_cell {G : ℕ} {sigma : ℕ → K} {q e : ℕ → ℕ → K} {b : K}
    (h : AllBalanced 1 2 (cascade K G).angleX (fun _ => (1 : K)) sigma q e)
    (hin : SweptInflow 1 2 (cascade K G).angleX false false (fun _ => b) (fun _ => b) e) {n : ℕ} (hn : n < 2) :
    2 * ((e n 0 + e n 1) / 2 - b) + sigma 0 * ((e n 0 + e n 1) / 2) = q n 0 := by
  have h1 := h n hn 0 one_pos
  have h2 := hin n hn
  have hr : ¬ (2 - 1 - n < n ∧ leavesReflecting false false ((cascade K G).angleX (2 - 1 - n))) := by
    rintro ⟨_, h | h⟩ <;> exact absurd h.2 (by simp)
  rw [if_neg hr, add_zero] at h2
  have hcase : n = 0 ∨ n = 1 := by omega
  rcases hcase with rfl | rfl
  · have hx : (cascade K G).angleX 0 = -1 := rfl
    rw [hx] at h1 h2
    have hneg : ¬ (0 : K) < -1 := by norm_num
    simp only [inflow, if_neg hneg] at h2
    rw [← h2]
    linear_combination h1
  · have hx : (cascade K G).angleX 1 = 1 := rfl
    rw [hx] at h1 h2
    simp only [inflow, if_pos (one_pos (α := K))] at h2
    rw [← h2]
    linear_combination h1

/-- An implicit step in the cell. -/
theorem cascade_step {sigma : ℕ → ℕ → K} {xs : ℕ → ℕ → ℕ → K} {phi : ℕ → ℕ → K} {rate psi : ℕ → ℕ → ℕ → K}
    {j : ℕ} (h : ImplicitStep (cascade K 4) sigma xs phi rate (entry (cascadeExt K) j) (entry (cascadeBnd K) j) psi)
    {g : ℕ} (hg : g < 4) {n : ℕ} (hn : n < 2) :
    rate 0 n g + 2 * (psi 0 n g - if g = 2 then 0 else 1) + sigma 0 g * psi 0 n g
      = xs 0 g 0 * phi 0 0 + xs 0 g 1 * phi 0 1 + xs 0 g 2 * phi 0 2 + xs 0 g 3 * phi 0 3
        + if g = 0 then 1 else 0 := by
  obtain ⟨e, he⟩ := h
  obtain ⟨h1, h2, h3⟩ := he g hg
  have key := cascade_cell (G := 4) (sigma := fun i => sigma 0 g) (b := if g = 2 then 0 else 1)
    (q := fun n i => ∑ g' ∈ range 4, xs 0 g g' * phi i g' + (if g = 0 then 1 else 0) - rate i n g) (e := e g)
    (fun n hn i hi => by
      have a := h2 n hn i hi
      rw [h1 n hn i hi] at a
      have hs : sourceAt (entry (cascadeExt K) j) i n g = if g = 0 then 1 else 0 := rfl
      rw [hs] at a
      have b : rate i n g + (cascade K 4).angleX n * (e g n (i + 1) - e g n i) / 1
          + sigma 0 g * ((e g n i + e g n (i + 1)) / 2)
          = ∑ g' ∈ range 4, xs 0 g g' * phi i g' + if g = 0 then 1 else 0 := a
      show (cascade K 4).angleX n * (e g n (i + 1) - e g n i) / 1
          + sigma 0 g * ((e g n i + e g n (i + 1)) / 2) = _
      linear_combination b) h3 hn
  rw [h1 n hn 0 (by show 0 < 1; omega)]
  simp only [sum_range_succ, sum_range_zero, zero_add] at key
  linear_combination key

/-- The collided flux: exact, because the coarse cascade goes downwards. -/
theorem cascade_collided {sigma : ℕ → ℕ → K} (hs : ∀ m c, 0 ≤ sigma m c) {S : Arr3 K} {phi : ℕ → ℕ → K}
    (hS1 : S.angles = 1) (hS2 : S.groups = 3)
    (h : sourceIteration (cascade K 3) sigma (.iso (cascadeXsC K)) S ⟨1, 1, fun _ _ _ => 0⟩ (fun _ _ => 0) = .ok phi) :
    (2 + sigma 0 0) * phi 0 0 = S.val 0 0 0 ∧ (2 + sigma 0 1) * phi 0 1 = phi 0 0 + S.val 0 0 1 := by
  obtain ⟨phi', psi, h1, h2⟩ := C22_downscatter_exact (cascade K 3) sigma (cascadeXsC K) S ⟨1, 1, fun _ _ _ => 0⟩
    (fun _ _ => 0) (fun g _ => cascade_ok 3 sigma g (hs 0 g)) (fun m g g' hgg => by
      unfold cascadeXsC
      rw [if_neg (by omega), if_neg (by omega)])
  rw [h] at h1
  obtain rfl := Except.ok.inj h1
  have key : ∀ c < 3, (2 + sigma 0 c) * phi 0 c
      = cascadeXsC K 0 c 0 * phi 0 0 + cascadeXsC K 0 c 1 * phi 0 1 + cascadeXsC K 0 c 2 * phi 0 2 + S.val 0 0 c := by
    intro c hc
    have hb : bidx S.groups c = c := by rw [hS2]; exact bidx_full 3 _ hc
    have ha : ∀ n, bidx S.angles n = 0 := fun n => by rw [hS1]; rfl
    have e1 : ∀ n < 2, 2 * ((psi c n 0 + psi c n 1) / 2 - 0) + sigma 0 c * ((psi c n 0 + psi c n 1) / 2)
        = ∑ og ∈ range 3, cascadeXsC K 0 c og * phi 0 og + S.val 0 0 c := fun n hn => by
      have k := cascade_cell (G := 3) (sigma := fun i => sigma 0 c) (b := 0)
        (q := fun n i => ∑ og ∈ range 3, cascadeXsC K 0 c og * phi i og + S.val i 0 c) (e := psi c)
        (fun n hn i hi => by
          have a := h2.balance c hc n hn i hi
          simp only [hb, ha] at a
          exact a) (h2.inflow c hc) hn
      exact k
    have e2 : phi 0 c = ∑ n ∈ range 2, (1 / 2 : K) * ((psi c n 0 + psi c n 1) / 2) := h2.scalar c hc 0 (by show 0 < 1; omega)
    simp only [sum_range_succ, sum_range_zero, zero_add] at e1 e2
    have a0 := e1 0 (by omega)
    have a1 := e1 1 (by omega)
    rw [e2]
    linear_combination 1 / 2 * a0 + 1 / 2 * a1
  constructor
  · have := key 0 (by omega)
    simp only [cascadeXsC] at this
    norm_num at this
    exact this
  · have := key 1 (by omega)
    simp only [cascadeXsC] at this
    norm_num at this
    exact this

/-- The deviation of the last group: `x_1 = a_0^2 / 2`, then a BDF2 recursion with a source of order `dt`. -/
theorem cascade_growth {dt : K} (hdt : 0 < dt) {steps : ℕ} (hT : (steps : K) * dt ≤ 1 / 12) {x : ℕ → K} (h0 : x 0 = 0)
    (h1 : 0 < steps → (x 1 - x 0) / dt + 3 * x 1 = dt / (1 + 3 * dt) / 2)
    (h2 : ∀ j < steps, j ≠ 0 → (3 / 2 * x (j + 1) - 2 * x j + 1 / 2 * x (j - 1)) / dt + 3 * x (j + 1)
      = 2 * dt / (3 + 6 * dt) / 2) :
    ∀ j < steps, ((j : K) + 1) * dt * dt / 7 ≤ x (j + 1) := by
  obtain ⟨d, hd⟩ : ∃ d, d = dt * dt / (3 + 6 * dt) := ⟨_, rfl⟩
  obtain ⟨d0, hd0⟩ : ∃ d, d = dt * dt / (2 + 6 * dt) := ⟨_, rfl⟩
  have hd' : d * (3 + 6 * dt) = dt * dt := by rw [hd]; field_simp
  have hd0' : d0 * (2 + 6 * dt) = dt * dt := by rw [hd0]; field_simp
  have hdp : 0 < d := by rw [hd]; positivity
  have hd0p : 0 < d0 := by rw [hd0]; positivity
  have hle : d ≤ d0 := by
    rw [hd, hd0]
    exact div_le_div_of_nonneg_left (by positivity) (by positivity) (by linarith)
  have hle2 : d0 ≤ 2 * d := by
    have : 2 * d = dt * dt / ((3 + 6 * dt) / 2) := by rw [hd]; field_simp
    rw [this, hd0]
    exact div_le_div_of_nonneg_left (by positivity) (by positivity) (by linarith)
  have inv : ∀ j < steps, d / 2 ≤ x (j + 1) - x j ∧ x (j + 1) - x j ≤ d0 ∧ x (j + 1) ≤ ((j : K) + 1) * d0
      ∧ ((j : K) + 1) * (d / 2) ≤ x (j + 1) := by
    intro j
    induction j with
    | zero =>
      intro hj
      have hdt1 : dt ≤ 1 / 12 := by
        have : (1 : K) ≤ steps := by exact_mod_cast hj
        nlinarith
      have e := h1 hj
      rw [h0] at e ⊢
      have e1 : x 1 = dt * dt / (2 * (1 + 3 * dt) ^ 2) := by
        field_simp at e ⊢
        linear_combination e
      have l1 : x 1 ≤ d0 := by
        rw [e1, hd0]
        refine div_le_div_of_nonneg_left (by positivity) (by positivity) ?_
        nlinarith [sq_nonneg dt]
      have l2 : d / 2 ≤ x 1 := by
        have : d / 2 = dt * dt / (2 * (3 + 6 * dt)) := by rw [hd]; field_simp
        rw [e1, this]
        refine div_le_div_of_nonneg_left (by positivity) (by positivity) ?_
        nlinarith [sq_nonneg dt]
      refine ⟨?_, ?_, ?_, ?_⟩ <;> simp only [Nat.cast_zero, zero_add, one_mul, sub_zero] <;> assumption
    | succ j ih =>
      intro hj
      obtain ⟨i1, i2, i3, i4⟩ := ih (by omega)
      have e := h2 (j + 1) hj (by omega)
      simp only [Nat.add_sub_cancel] at e
      have e1 : 3 / 2 * (x (j + 1 + 1) - x (j + 1)) = 1 / 2 * (x (j + 1) - x j) + d - 3 * dt * x (j + 1 + 1) := by
        have : d = dt * (2 * dt / (3 + 6 * dt) / 2) := by rw [hd]; field_simp
        rw [this, ← e]
        field_simp
        ring
      have hjk : ((j : K) + 1 + 1) * dt ≤ 1 / 12 := by
        have : (j : K) + 1 + 1 ≤ steps := by exact_mod_cast hj
        nlinarith
      have hj0 : (0 : K) ≤ j := Nat.cast_nonneg j
      have u2 : x (j + 1 + 1) - x (j + 1) ≤ d0 := by
        by_contra hc
        push Not at hc
        have : 0 ≤ x (j + 1 + 1) := by
          have : 0 ≤ ((j : K) + 1) * (d / 2) := by positivity
          linarith
        nlinarith [mul_nonneg hdt.le this]
      have u3 : x (j + 1 + 1) ≤ ((j : K) + 1 + 1) * d0 := by linarith
      have u1 : d / 2 ≤ x (j + 1 + 1) - x (j + 1) := by
        have k1 : 3 * dt * x (j + 1 + 1) ≤ 3 * (((j : K) + 1 + 1) * dt) * d0 := by
          have := mul_le_mul_of_nonneg_left u3 hdt.le
          linarith
        have k2 := mul_le_mul_of_nonneg_right hjk hd0p.le
        linarith
      refine ⟨u1, u2, ?_, ?_⟩ <;> push_cast <;> linarith
  intro j hj
  have hdt1 : dt ≤ 1 / 12 := by
    have : (1 : K) ≤ steps := by exact_mod_cast (by omega : 1 ≤ steps)
    nlinarith
  refine le_trans ?_ (inv j hj).2.2.2
  have : dt * dt / 7 ≤ d / 2 := by
    have : d / 2 = dt * dt / (2 * (3 + 6 * dt)) := by rw [hd]; field_simp
    rw [this]
    exact div_le_div_of_nonneg_left (by positivity) (by positivity) (by linarith)
  have hj0 : (0 : K) ≤ (j : K) + 1 := by positivity
  have := mul_le_mul_of_nonneg_left this hj0
  linarith

/-- C174: `hybrid1d.bdf2` started in a steady state leaves it by `t dt / 7` in one group, however small the time
step: with the coarse groups {0}, {1, 2}, {3} the collided flux of group 1 is shared with the empty group 2. -/
theorem C174_violation_bdf2_first_order {dt : K} (hdt : 0 < dt) {steps : ℕ} (hT : (steps : K) * dt ≤ 1 / 12) :
    ∃ out : ℕ → ℕ → ℕ → K,
      hybridRun true (cascade K 4) (cascade K 3) (fun _ _ => 1) (fun _ _ => 1) (.iso (cascadeXs K))
        (.iso (cascadeXsC K)) (.matrix fun _ _ _ => 0) (.matrix fun _ _ _ => 0) (fun _ => 1) (fun _ => 1)
        (cascadeExt K) (cascadeBnd K) cascadeCoarse (cascadeFactor K) steps dt (cascadeField K) = .ok out ∧
      ∀ j < steps, ((j : K) + 1) * dt * dt / 7 ≤ quadrature (cascade K 4) (cascadeField K) 0 3 - out j 0 3 := by
  obtain ⟨out, psi, u, phiC, S, h1, h2, h3⟩ := C36_hybrid_steps true (cascade K 4) (cascade K 3) (fun _ _ => 1)
    (fun _ _ => 1) (cascadeXs K) (cascadeXsC K) (.matrix fun _ _ _ => 0) (.matrix fun _ _ _ => 0) (fun _ => 1)
    (fun _ => 1) (cascadeExt K) (cascadeBnd K) cascadeCoarse (cascadeFactor K) steps dt (cascadeField K)
    (cascade_timed hdt) (by show 0 < 4; omega) (fun c _ => cascade_ok 3 _ c zero_le_one) (fun _ _ => one_pos)
    (Or.inl rfl) (Or.inl rfl)
  refine ⟨out, h1, ?_⟩
  -- the equations of one step, with the coefficient and the flux before
  have hxs : ∀ g g' : ℕ, cascadeXs K 0 g g' + fissionMatrix (.matrix fun _ _ _ => (0 : K)) 0 g g' = cascadeXs K 0 g g' :=
    fun g g' => add_zero _
  have hq : ∀ (f : ℕ → ℕ → ℕ → K) (g : ℕ), quadrature (cascade K 4) f 0 g = 1 / 2 * f 0 0 g + 1 / 2 * f 0 1 g := by
    intro f g
    show ∑ n ∈ range 2, (1 / 2 : K) * f 0 n g = _
    simp only [sum_range_succ, sum_range_zero, zero_add]
  have hk0 : ∀ j, (0 : K) < timeCoef K true j := by
    intro j; unfold timeCoef; split <;> norm_num
  have hrate : ∀ (j : ℕ) (new : ℕ → ℕ → ℕ → K) (n g : ℕ) (c : K), psi j 0 n g = c → (j ≠ 0 → psi (j - 1) 0 n g = c) →
      timeRate true j psi new (fun _ => 1) dt 0 n g = timeCoef K true j * (new 0 n g - c) / dt := by
    intro j new n g c a b
    unfold timeRate timeCoef
    by_cases hj : j = 0
    · simp only [hj, ne_eq, not_true_eq_false, and_false, if_false, one_mul] at a ⊢
      rw [a]
    · simp only [hj, ne_eq, not_false_eq_true, and_true, if_true, one_mul]
      rw [a, b hj]
      ring
  have step : ∀ j < steps, (∀ n < 2, psi j 0 n 0 = 1 ∧ psi j 0 n 1 = 1) →
      (j ≠ 0 → ∀ n < 2, psi (j - 1) 0 n 0 = 1 ∧ psi (j - 1) 0 n 1 = 1) →
      ∀ n < 2, psi (j + 1) 0 n 0 = 1 ∧ psi (j + 1) 0 n 1 = 1 ∧
        timeRate true j psi (psi (j + 1)) (fun _ => 1) dt 0 n 3 + 3 * (psi (j + 1) 0 n 3 - 1)
          = - (1 / (3 + timeCoef K true j / dt) / 2) := by
    intro j hj c0 c1
    obtain ⟨k1, k2, k3, k4, _⟩ := h3 j hj
    obtain ⟨kap, hkap⟩ : ∃ kap, kap = timeCoef K true j / dt := ⟨_, rfl⟩
    have hkp : 0 < kap := by rw [hkap]; exact div_pos (hk0 j) hdt
    rw [← hkap]
    obtain ⟨a, ha⟩ : ∃ a, a = 1 / (3 + kap) := ⟨_, rfl⟩
    have ha' : (3 + kap) * a = 1 := by rw [ha]; field_simp
    have hne : (3 + kap) ≠ 0 := by positivity
    have r0 : ∀ (new : ℕ → ℕ → ℕ → K) (n : ℕ), n < 2 →
        timeRate true j psi new (fun _ => 1) dt 0 n 0 = kap * (new 0 n 0 - 1) := fun new n hn => by
      rw [hrate j new n 0 1 (c0 n hn).1 fun h => (c1 h n hn).1, hkap]; ring
    have r1 : ∀ (new : ℕ → ℕ → ℕ → K) (n : ℕ), n < 2 →
        timeRate true j psi new (fun _ => 1) dt 0 n 1 = kap * (new 0 n 1 - 1) := fun new n hn => by
      rw [hrate j new n 1 1 (c0 n hn).2 fun h => (c1 h n hn).2, hkap]; ring
    have u0 : ∀ n < 2, u j 0 n 0 = 1 := fun n hn => by
      have e := cascade_step k1 (g := 0) (by omega) hn
      rw [r0 _ n hn] at e
      norm_num at e
      refine mul_left_cancel₀ hne ?_
      linear_combination e
    have u1 : ∀ n < 2, u j 0 n 1 = 1 - a := fun n hn => by
      have e := cascade_step k1 (g := 1) (by omega) hn
      rw [r1 _ n hn] at e
      norm_num at e
      refine mul_left_cancel₀ hne ?_
      linear_combination e + ha'
    have q0 : quadrature (cascade K 4) (u j) 0 0 = 1 := by
      rw [hq, u0 0 (by omega), u0 1 (by omega)]; ring
    have q1 : quadrature (cascade K 4) (u j) 0 1 = 1 - a := by
      rw [hq, u1 0 (by omega), u1 1 (by omega)]; ring
    obtain ⟨s1, s2, s3⟩ := k2
    have S0 : (S j).val 0 0 0 = 0 := by
      rw [s3 0 (by show 0 < 1; omega)]
      have hf : (range (cascade K 4).groups).filter (fun g => cascadeCoarse g = 0) = {0} :=
        (by decide : (range 4).filter (fun g => cascadeCoarse g = 0) = {0})
      rw [hf, sum_singleton]
      refine sum_eq_zero fun g' _ => ?_
      have : (fun m g g' => cascadeXs K m g g' + fissionMatrix (.matrix fun _ _ _ => (0 : K)) m g g')
          ((cascade K 4).mm 0) 0 g' = 0 := by
        show cascadeXs K 0 0 g' + 0 = 0
        simp [cascadeXs]
      rw [this, zero_mul]
    have S1 : (S j).val 0 0 1 = 1 := by
      rw [s3 0 (by show 0 < 1; omega)]
      have hf : (range (cascade K 4).groups).filter (fun g => cascadeCoarse g = 1) = {1, 2} :=
        (by decide : (range 4).filter (fun g => cascadeCoarse g = 1) = {1, 2})
      rw [hf, sum_pair (by omega)]
      show ∑ g' ∈ range 4, (cascadeXs K 0 1 g' + 0) * quadrature (cascade K 4) (u j) 0 g'
        + ∑ g' ∈ range 4, (cascadeXs K 0 2 g' + 0) * quadrature (cascade K 4) (u j) 0 g' = 1
      simp [sum_range_succ, cascadeXs, q0]
    have k3' : sourceIteration (cascade K 3) (fun m c => 1 + timeCoef K true j / (1 * dt)) (.iso (cascadeXsC K)) (S j)
        ⟨1, 1, fun _ _ _ => 0⟩ (fun _ _ => 0) = .ok (phiC j) := by
      have : (fun m g g' => cascadeXsC K m g g' + fissionMatrix (.matrix fun _ _ _ => (0 : K)) m g g')
          = cascadeXsC K := by
        funext m g g'; exact add_zero _
      rw [this] at k3
      exact k3
    obtain ⟨p0, p1⟩ := cascade_collided (fun _ _ => by
      have := hkp
      rw [hkap] at this
      rw [one_mul]
      linarith) s1 s2 k3'
    beta_reduce at p0 p1
    rw [one_mul, ← hkap] at p0 p1
    rw [S0] at p0
    rw [S1] at p1
    have f0 : phiC j 0 0 = 0 := by
      refine mul_left_cancel₀ hne ?_
      linear_combination p0
    rw [f0] at p1
    have f1 : phiC j 0 1 = a := by
      refine mul_left_cancel₀ hne ?_
      linear_combination p1 - ha'
    have t0 : quadrature (cascade K 4) (u j) 0 0 + phiC j 0 (cascadeCoarse 0) * cascadeFactor K 0 = 1 := by
      show quadrature (cascade K 4) (u j) 0 0 + phiC j 0 0 * cascadeFactor K 0 = 1
      rw [q0, f0]; ring
    have t1 : quadrature (cascade K 4) (u j) 0 1 + phiC j 0 (cascadeCoarse 1) * cascadeFactor K 1 = 1 - a / 2 := by
      show quadrature (cascade K 4) (u j) 0 1 + phiC j 0 1 * cascadeFactor K 1 = 1 - a / 2
      rw [q1, f1]
      simp only [cascadeFactor]
      norm_num
      ring
    intro n hn
    refine ⟨?_, ?_, ?_⟩
    · have e := cascade_step k4 (g := 0) (by omega) hn
      rw [r0 _ n hn] at e
      simp only [cascadeXs, fissionMatrix, t0, t1] at e
      norm_num at e
      refine mul_left_cancel₀ hne ?_
      linear_combination e
    · have e := cascade_step k4 (g := 1) (by omega) hn
      rw [r1 _ n hn] at e
      simp only [cascadeXs, fissionMatrix, t0, t1] at e
      norm_num at e
      refine mul_left_cancel₀ hne ?_
      linear_combination e
    · have e := cascade_step k4 (g := 3) (by omega) hn
      rw [← ha]
      simp only [cascadeXs, fissionMatrix, t0, t1] at e
      norm_num at e
      linear_combination e
  -- groups 0 and 1 stay where they are
  have stay : ∀ j ≤ steps, ∀ n < 2, psi j 0 n 0 = 1 ∧ psi j 0 n 1 = 1 := by
    intro j
    induction j using Nat.strong_induction_on with
    | _ j ih =>
      intro hj n hn
      rcases j with _ | j
      · rw [h2]
        simp [cascadeField]
      · have := step j (by omega) (ih j (by omega) (by omega)) (fun h => ih (j - 1) (by omega) (by omega)) n hn
        exact ⟨this.1, this.2.1⟩
  have grow : ∀ n < 2, ∀ j < steps, ((j : K) + 1) * dt * dt / 7 ≤ 1 - psi (j + 1) 0 n 3 := by
    intro n hn
    have hst := fun j (hj : j < steps) => (step j hj (stay j hj.le) (fun _ => stay (j - 1) (by omega)) n hn).2.2
    refine cascade_growth hdt hT (x := fun j => 1 - psi j 0 n 3) ?_ ?_ ?_
    · simp [h2, cascadeField]
    · intro h
      have e := hst 0 h
      simp only [timeRate, timeCoef, ne_eq, not_true_eq_false, and_false, if_false, one_mul, zero_add] at e ⊢
      have : 1 / (3 + 1 / dt) = dt / (1 + 3 * dt) := by field_simp; ring
      rw [this] at e
      linear_combination -e
    · intro j hj h
      have e := hst j hj
      simp only [timeRate, timeCoef, ne_eq, h, not_false_eq_true, and_true, if_true, one_mul] at e ⊢
      have : 1 / (3 + 3 / 2 / dt) = 2 * dt / (3 + 6 * dt) := by field_simp; ring
      rw [this] at e
      linear_combination -e
  intro j hj
  rw [(h3 j hj).2.2.2.2 0 3, hq, hq]
  have g0 := grow 0 (by omega) j hj
  have g1 := grow 1 (by omega) j hj
  have : ∀ n, cascadeField K 0 n 3 = 1 := fun n => by simp [cascadeField]
  rw [this, this]
  linarith

/-- The data of the example are what the package itself produces for the energy edges 0, 1, 2, 3, 4 and the coarse
edges 0, 1, 3, 4. -/
def cascadeEdges (c : ℕ) : ℕ := if c = 0 then 0 else if c = 1 then 1 else if c = 2 then 3 else 4

theorem C174_data_collapsed :
    (∀ c < 3, Hybrid.xsVectorCoarsen (fun _ _ => (1 : ℚ)) (fun k => k) cascadeEdges 0 c = 1) ∧
    (∀ c < 3, ∀ c' < 3, (Hybrid.xsMatrixCoarsen (some (cascadeXs ℚ)) (fun k => k) cascadeEdges).map (fun m => m 0 c c')
      = some (cascadeXsC ℚ 0 c c')) ∧
    (∀ c < 3, Hybrid.coarsenVelocity (fun _ => (1 : ℚ)) cascadeEdges c = 1) ∧
    (∀ g < 4, Hybrid.collidedIndex 3 cascadeEdges g = cascadeCoarse g) ∧
    (∀ g < 4, Hybrid.hybridFactor 3 (fun _ => (1 : ℚ)) (fun c => if c = 1 then 2 else 1) cascadeEdges g
      = cascadeFactor ℚ g) := by
  refine ⟨?_, ?_, ?_, ?_, ?_⟩ <;> decide +kernel

/-- The field is a steady state of the transport equation. -/
theorem cascade_steady (j : ℕ) :
    TransportAt (cascade K 4) (fun _ _ => 1) (fun m g g' => cascadeXs K m g g'
      + fissionMatrix (.matrix fun _ _ _ => (0 : K)) m g g') (fun _ => 1) (entry (cascadeExt K) j)
      (entry (cascadeBnd K) j) (cascadeField K) (fun _ _ _ => 0) := by
  refine ⟨fun g _ _ => if g = 2 then 0 else 1, fun g hg => ⟨fun n _ i _ => ?_, fun n _ i _ => ?_, fun n hn => ?_⟩⟩
  · show (if g = 2 then (0 : K) else 1) = ((if g = 2 then (0 : K) else 1) + if g = 2 then (0 : K) else 1) / 2
    ring
  · have hq : ∀ g', quadrature (cascade K 4) (cascadeField K) i g' = if g' = 2 then 0 else 1 := by
      intro g'
      show ∑ n ∈ range 2, (1 / 2 : K) * (if g' = 2 then 0 else 1) = _
      simp only [sum_range_succ, sum_range_zero, zero_add]
      split <;> norm_num
    have hs : sourceAt (entry (cascadeExt K) j) i n g = if g = 0 then 1 else 0 := rfl
    have hg' : g < 4 := hg
    simp only [hs, hq, fissionMatrix]
    show _ = ∑ g' ∈ range 4, (cascadeXs K 0 g g' + 0) * (if g' = 2 then 0 else 1) + _
    simp only [sum_range_succ, sum_range_zero, zero_add, cascadeXs, cascadeField]
    interval_cases g <;> norm_num
  · have hr : ¬ ((cascade K 4).angles - 1 - n < n ∧
        leavesReflecting (cascade K 4).bcL (cascade K 4).bcR ((cascade K 4).angleX ((cascade K 4).angles - 1 - n))) := by
      rintro ⟨_, h | h⟩ <;> exact absurd h.2 (by simp [cascade])
    rw [if_neg hr, add_zero]
    unfold inflow
    split <;> rfl

/-- `timed1d.bdf2` keeps the same steady state exactly. -/
theorem C174_fine_bdf2_exact {dt : K} (hdt : 0 < dt) (steps : ℕ) :
    ∃ out : ℕ → ℕ → ℕ → K,
      bdf2 (cascade K 4) (fun _ _ => 1) (.iso (cascadeXs K)) (.matrix fun _ _ _ => 0) (fun _ => 1) (cascadeExt K)
        (cascadeBnd K) steps dt (cascadeField K) = .ok out ∧
      ∀ j < steps, ∀ g < 4, out j 0 g = quadrature (cascade K 4) (cascadeField K) 0 g := by
  obtain ⟨out, h1, h2⟩ := C125_downscatter true (cascade K 4) (fun _ _ => 1) (cascadeXs K) (.matrix fun _ _ _ => 0)
    (fun _ => 1) (cascadeExt K) (cascadeBnd K) steps dt (cascade_timed hdt) (by show 0 < 4; omega) (Or.inl rfl)
    (Or.inl rfl) (fun m g g' h => by
      show cascadeXs K m g g' + 0 = 0
      unfold cascadeXs
      rw [if_neg (by omega), add_zero]) (cascadeField K) (fun _ _ _ => 0) (fun j _ => by
      have := cascade_steady (K := K) j
      simpa using this)
  refine ⟨out, by simpa using h1, fun j hj g hg => ?_⟩
  rw [h2 j hj 0 (by show 0 < 1; omega) g hg]
  simp

/-- C174: no constant bounds the error of `hybrid1d.bdf2` by `C dt^2`, not even on this problem, whose exact
solution is constant in time, and for final times up to 1/12. -/
theorem C174_violation_no_second_order_bound :
    ¬ ∃ C : ℝ, ∀ (steps : ℕ) (dt : ℝ), 0 < dt → (steps : ℝ) * dt ≤ 1 / 12 → ∀ out : ℕ → ℕ → ℕ → ℝ,
      hybridRun true (cascade ℝ 4) (cascade ℝ 3) (fun _ _ => 1) (fun _ _ => 1) (.iso (cascadeXs ℝ))
        (.iso (cascadeXsC ℝ)) (.matrix fun _ _ _ => 0) (.matrix fun _ _ _ => 0) (fun _ => 1) (fun _ => 1)
        (cascadeExt ℝ) (cascadeBnd ℝ) cascadeCoarse (cascadeFactor ℝ) steps dt (cascadeField ℝ) = .ok out →
      ∀ j < steps, |quadrature (cascade ℝ 4) (cascadeField ℝ) 0 3 - out j 0 3| ≤ C * dt ^ 2 := by
  rintro ⟨C, hC⟩
  obtain ⟨N, hN⟩ := exists_nat_gt (7 * C)
  have hN1 : (0 : ℝ) < (N + 1 : ℕ) := by positivity
  have hdt : (0 : ℝ) < 1 / (12 * (N + 1 : ℕ)) := by positivity
  have hT : ((N + 1 : ℕ) : ℝ) * (1 / (12 * (N + 1 : ℕ))) ≤ 1 / 12 := by
    apply le_of_eq
    field_simp
  obtain ⟨out, h1, h2⟩ := C174_violation_bdf2_first_order hdt hT
  have a := h2 N (by omega)
  have b := hC (N + 1) _ hdt hT out h1 N (by omega)
  obtain ⟨d, hd⟩ : ∃ d : ℝ, d = 1 / (12 * (N + 1 : ℕ)) := ⟨_, rfl⟩
  rw [← hd] at a b hdt
  have k := (le_abs_self _).trans b
  have h3 : ((N : ℝ) + 1) * d * d / 7 ≤ C * d ^ 2 := a.trans k
  have h4 : (0 : ℝ) < d * d := by positivity
  nlinarith

/-! ## C173 applies to it: the error is of first order -/

theorem cascade_bounds {dt : K} (hdt : 0 < dt) (h6 : dt ≤ 1 / 6) :
    HybridBounds (cascade K 4) (cascade K 3) (fun _ _ => 1) (fun _ _ => 1)
      (fun m g g' => cascadeXs K m g g' + fissionMatrix (.matrix fun _ _ _ => (0 : K)) m g g')
      (fun m g g' => cascadeXsC K m g g' + fissionMatrix (.matrix fun _ _ _ => (0 : K)) m g g')
      (fun _ => 1) (fun _ => 1) cascadeCoarse (cascadeFactor K) dt 1 1 1 1 1 := by
  have hnorm : ∑ n ∈ range 2, (1 / 2 : K) = 1 := by norm_num
  have heven : EvenReflection 2 (cascade K 4).angleX (cascade K 4).angleW false false :=
    EvenReflection.vacuum _ _ _
  refine ⟨cascade_timed hdt, by show 0 < 4; omega, fun _ _ => by show (0 : K) ≤ 1 / 2; norm_num, hnorm, heven, ?_,
    zero_le_one, fun _ _ => le_rfl, fun _ _ => by norm_num, zero_le_one,
    ⟨fun c _ => cascade_ok 3 _ c zero_le_one, fun _ _ => by show (0 : K) ≤ 1 / 2; norm_num, hnorm, heven,
      fun _ _ => one_pos, fun _ _ => le_rfl, ?_, zero_le_one, one_pos, hdt, ?_⟩, rfl, fun _ _ => rfl, ?_, ?_⟩
  · intro i _ g _ g' _
    show |cascadeXs K 0 g g' + 0| ≤ 1
    unfold cascadeXs
    split <;> simp
  · intro i _ c _ c' _
    show |cascadeXsC K 0 c c' + 0| ≤ 1
    unfold cascadeXsC
    split
    · simp
    · split
      · rw [add_zero, abs_of_pos] <;> norm_num
      · simp
  · show dt * (1 * 1 * ((3 : ℕ) : K)) ≤ 1 / 2
    push_cast
    linarith
  · intro g hg
    show cascadeCoarse g < 3
    unfold cascadeCoarse
    split
    · omega
    · split <;> omega
  · intro g _
    unfold cascadeFactor
    split
    · simp
    · rw [abs_of_pos] <;> norm_num

example (steps : ℕ) {dt : ℝ} (hdt : 0 < dt) (h6 : dt ≤ 1 / 6) := C173_first_order true (cascade ℝ 4) (cascade ℝ 3)
  (fun _ _ => 1) (fun _ _ => 1) (cascadeXs ℝ) (cascadeXsC ℝ) (.matrix fun _ _ _ => 0) (.matrix fun _ _ _ => 0)
  (fun _ => 1) (fun _ => 1) (cascadeExt ℝ) (cascadeBnd ℝ) cascadeCoarse (cascadeFactor ℝ) steps dt
  (cascade_bounds hdt h6) (Or.inl rfl) (Or.inl rfl) (fun _ => cascadeField ℝ) (fun _ _ _ _ => 0) 0 1 le_rfl zero_le_one
  (fun t _ _ i n g => hasDerivAt_const t _) (fun _ _ _ _ _ _ _ _ => by simp)
  (fun _ _ _ _ _ _ => by unfold cascadeField; split <;> simp) (fun j _ => cascade_steady j) rfl rfl rfl rfl rfl

end Discrete1.Props
