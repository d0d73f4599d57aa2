import Verif.Props.RoundedDrivers

/-!
# C183: what the tolerance says about `keff` when the computer rounds
-/

set_option linter.unusedSectionVars false
set_option linter.unusedSimpArgs false

namespace Discrete1.Props

open Finset Discrete1.Spec Discrete1.Slab Discrete1.Tools Discrete1.MultiGroup Discrete1.Drivers Discrete1.Critical

variable {K : Type} [Field K] [LinearOrder K] [IsStrictOrderedRing K]

/-! ## Sums -/

section Sums

variable {rnd : K → K} {r : K}

theorem within_zero_iff {c x y : K} (hc : 0 < c) (h : WithinFactor c x y) : y = 0 ↔ x = 0 := by
  have hx := h.left_nonneg hc
  constructor
  · intro hy
    have := h.2.2
    rw [hy, mul_zero] at this
    exact le_antisymm this hx
  · intro hx0
    have := h.2.1
    rw [hx0, mul_zero] at this
    exact le_antisymm this h.1

theorem within_pos {c x y : K} (hc : 0 < c) (h : WithinFactor c x y) (hx : 0 < x) : 0 < y :=
  lt_of_le_of_ne h.1 fun h0 => hx.ne' ((within_zero_iff hc h).mp h0.symm)

/-- A rounded running sum: each addition costs one factor `r`. -/
theorem sumR_near (hr : RoundsWithin r rnd) (hr1 : 1 ≤ r) {s n : ℕ} {f f' : ℕ → K} {a b : K}
    (hab : WithinFactor (r ^ s) a b) (hf : ∀ i < n, WithinFactor (r ^ s) (f i) (f' i)) :
    WithinFactor (r ^ (s + n)) (a + ∑ i ∈ range n, f i) (loop n (fun i acc => rnd (acc + f' i)) b) := by
  have hr0 : 0 < r := by linarith
  have := loop_rel2 (fun k (x y : K) => WithinFactor (r ^ (s + k)) x y) n (fun i acc => acc + f i)
    (fun i acc => rnd (acc + f' i)) a b hab (fun i hi x y hxy => by
      have h1 := (hf i hi).mono (by positivity) (pow_le_pow_right₀ hr1 (Nat.le_add_right s i))
      have h2 := (hxy.add h1).round hr (by positivity) hr0
      rwa [← pow_succ] at h2)
  rwa [loop_add_eq_sum] at this

theorem accumR_near (hr : RoundsWithin r rnd) (hr1 : 1 ≤ r) {s n : ℕ} {f f' : ℕ → K}
    (hf : ∀ i < n, WithinFactor (r ^ s) (f i) (f' i)) :
    WithinFactor (r ^ (s + n)) (∑ i ∈ range n, f i) (Rounded.accumR rnd n f') := by
  have := sumR_near hr hr1 (a := 0) (b := 0) (WithinFactor.refl (one_le_pow₀ hr1) le_rfl) hf
  rwa [zero_add] at this

/-- Two nested running sums. -/
theorem sumR2_near (hr : RoundsWithin r rnd) (hr1 : 1 ≤ r) {t s n m : ℕ} (hts : t ≤ s) {f f' : ℕ → ℕ → K} {a b : K}
    (hab : WithinFactor (r ^ s) a b) (hf : ∀ i < n, ∀ j < m, WithinFactor (r ^ t) (f i j) (f' i j)) :
    WithinFactor (r ^ (s + n * m)) (a + ∑ i ∈ range n, ∑ j ∈ range m, f i j)
      (loop n (fun i acc => loop m (fun j acc => rnd (acc + f' i j)) acc) b) := by
  have hr0 : 0 < r := by linarith
  have := loop_rel2 (fun k (x y : K) => WithinFactor (r ^ (s + k * m)) x y) n
    (fun i acc => acc + ∑ j ∈ range m, f i j)
    (fun i acc => loop m (fun j acc => rnd (acc + f' i j)) acc) a b (by simpa using hab) (fun i hi x y hxy => by
      have h1 := sumR_near hr hr1 hxy fun j hj => (hf i hi j hj).mono (by positivity)
        (pow_le_pow_right₀ hr1 (by omega : t ≤ s + i * m))
      rwa [show s + (i + 1) * m = s + i * m + m by ring])
  rwa [loop_add_eq_sum] at this

theorem matSum_near (hr : RoundsWithin r rnd) (hr1 : 1 ≤ r) {G : ℕ} {xs : ℕ → ℕ → K}
    (hxs : ∀ o < G, ∀ i < G, 0 ≤ xs o i) :
    WithinFactor (r ^ (G * G)) (∑ o ∈ range G, ∑ i ∈ range G, xs o i) (Rounded.matSum rnd G xs) := by
  have := sumR2_near hr hr1 (t := 0) (s := 0) le_rfl (n := G) (m := G) (f := xs) (f' := xs) (a := 0) (b := 0)
    (WithinFactor.refl (by simp) le_rfl) fun o ho i hi => WithinFactor.refl (by simp) (hxs o ho i hi)
  rw [zero_add, zero_add] at this
  exact this

end Sums

/-! ## The fission source and the update of `keff` -/

/-- Non-negative fission data. -/
def FissionData (G : ℕ) : Fission K → Prop
  | .matrix f => ∀ m, ∀ o < G, ∀ i < G, 0 ≤ f m o i
  | .vector chi nu => (∀ m, ∀ o < G, 0 ≤ chi m o) ∧ ∀ m, ∀ i < G, 0 ≤ nu m i

theorem FissionData.matrix_nonneg {G : ℕ} {fission : Fission K} (h : FissionData G fission) :
    ∀ m, ∀ o < G, ∀ i < G, 0 ≤ fissionMatrix fission m o i := by
  cases fission with
  | matrix f => exact h
  | vector chi nu => exact fun m o ho i hi => mul_nonneg (h.1 m o ho) (h.2 m i hi)

section Kernels

variable {rnd : K → K} {r : K}

theorem term_mat_near (hr : RoundsWithin r rnd) (hr1 : 1 ≤ r) {x y : K} (hx : 0 ≤ x) (hy : 0 ≤ y) :
    WithinFactor (r ^ 2) (y * x) (rnd (x * y)) := by
  have := (hr (x * y) (mul_nonneg hx hy)).mono (by linarith) (show r ≤ r ^ 2 by nlinarith)
  rwa [mul_comm x y] at this ⊢

theorem term_vec_near (hr : RoundsWithin r rnd) (hr1 : 1 ≤ r) {x c v : K} (hx : 0 ≤ x) (hc : 0 ≤ c) (hv : 0 ≤ v) :
    WithinFactor (r ^ 2) (c * v * x) (rnd (rnd (x * c) * v)) := by
  have hr0 : 0 < r := by linarith
  have h1 := (hr (x * c) (mul_nonneg hx hc)).mul hr0 one_pos (WithinFactor.refl le_rfl hv)
  have h2 := h1.round hr (by positivity) hr0
  rw [mul_one, ← sq] at h2
  rwa [show c * v * x = x * c * v by ring]

/-- The rounded fission source is within `G + 3` roundings of `emission / keff`. -/
theorem fissionSource_near (hr : RoundsWithin r rnd) (hr1 : 1 ≤ r) (p : Problem K) (fission : Fission K)
    (hf : FissionData p.groups fission) (flux : ℕ → ℕ → K) (keff : K) (hk : 0 < keff) {i g : ℕ}
    (hflux : ∀ g < p.groups, 0 ≤ flux i g) (hg : g < p.groups) (n : ℕ) :
    WithinFactor (r ^ (p.groups + 3)) (emission p (fissionMatrix fission) flux i g / keff)
      ((Rounded.fissionSource rnd p.groups p.mm fission flux keff).val i n g) := by
  have hr0 : 0 < r := by linarith
  have fin : ∀ x y : K, WithinFactor (r ^ (2 + p.groups)) x y → WithinFactor (r ^ (p.groups + 3)) (x / keff) (rnd (y / keff)) := by
    intro x y h
    have h1 := (h.div (by positivity) one_pos hk (WithinFactor.refl le_rfl hk.le)).round hr (by positivity) hr0
    rw [mul_one, ← pow_succ] at h1
    rwa [show p.groups + 3 = 2 + p.groups + 1 by omega]
  have zero : WithinFactor (r ^ (p.groups + 3)) (0 : K) 0 := WithinFactor.refl (one_le_pow₀ hr1) le_rfl
  cases fission with
  | matrix xs =>
    show WithinFactor _ _ (Rounded.fissionMatProd rnd p.groups flux xs p.mm keff i g)
    unfold Rounded.fissionMatProd
    have hm := matSum_near hr hr1 (G := p.groups) (xs := xs (p.mm i)) (hf (p.mm i))
    split_ifs with h
    · rw [within_zero_iff (by positivity) hm] at h
      have h0 := (sum_eq_zero_iff_of_nonneg fun o ho => sum_nonneg fun i' hi =>
          hf (p.mm i) o (mem_range.mp ho) i' (mem_range.mp hi)).mp h g (mem_range.mpr hg)
      have h1 := (sum_eq_zero_iff_of_nonneg fun i' hi => hf (p.mm i) g hg i' (mem_range.mp hi)).mp h0
      have : emission p (fissionMatrix (.matrix xs)) flux i g = 0 :=
        sum_eq_zero fun g' hg' => by
          show xs (p.mm i) g g' * _ = 0
          rw [h1 g' hg', zero_mul]
      rw [this, zero_div]
      exact zero
    · exact fin _ _ (accumR_near hr hr1 fun g' hg' => term_mat_near hr hr1 (hflux g' hg') (hf (p.mm i) g hg g' hg'))
  | vector chi nu =>
    show WithinFactor _ _ (Rounded.fissionVecProd rnd p.groups flux chi nu p.mm keff i g)
    unfold Rounded.fissionVecProd
    have hm := accumR_near hr hr1 (s := 0) (n := p.groups) (f := chi (p.mm i)) (f' := chi (p.mm i))
      fun g hg => WithinFactor.refl (by simp) (hf.1 (p.mm i) g hg)
    split_ifs with h
    · rw [within_zero_iff (by positivity) hm] at h
      have h0 := (sum_eq_zero_iff_of_nonneg fun o ho => hf.1 (p.mm i) o (mem_range.mp ho)).mp h g (mem_range.mpr hg)
      have : emission p (fissionMatrix (.vector chi nu)) flux i g = 0 :=
        sum_eq_zero fun g' hg' => by
          show chi (p.mm i) g * nu (p.mm i) g' * _ = 0
          rw [h0, zero_mul, zero_mul]
      rw [this, zero_div]
      exact zero
    · exact fin _ _ (accumR_near hr hr1 fun g' hg' => term_vec_near hr hr1 (hflux g' hg') (hf.1 (p.mm i) g hg)
        (hf.2 (p.mm i) g' hg'))

/-- A rounded sum over the cells in which cells without fission are skipped. -/
theorem rate_near (hr : RoundsWithin r rnd) (hr1 : 1 ≤ r) {N G : ℕ} (skip : ℕ → Prop) [DecidablePred skip]
    {f f' : ℕ → ℕ → ℕ → K} (hs : ∀ i < N, skip i → ∑ o ∈ range G, ∑ j ∈ range G, f i o j = 0)
    (hf : ∀ i < N, ∀ o < G, ∀ j < G, WithinFactor (r ^ 2) (f i o j) (f' i o j)) :
    WithinFactor (r ^ (2 + N * (G * G))) (∑ i ∈ range N, ∑ o ∈ range G, ∑ j ∈ range G, f i o j)
      (loop N (fun i rate => if skip i then rate else
        loop G (fun o rate => loop G (fun j rate => rnd (rate + f' i o j)) rate) rate) 0) := by
  have hr0 : 0 < r := by linarith
  have := loop_rel2 (fun k (x y : K) => WithinFactor (r ^ (2 + k * (G * G))) x y) N
    (fun i acc => acc + ∑ o ∈ range G, ∑ j ∈ range G, f i o j)
    (fun i rate => if skip i then rate else
        loop G (fun o rate => loop G (fun j rate => rnd (rate + f' i o j)) rate) rate) 0 0
    (WithinFactor.refl (one_le_pow₀ hr1) le_rfl) (fun i hi x y hxy => by
      beta_reduce
      have e : 2 + (i + 1) * (G * G) = 2 + i * (G * G) + G * G := by ring
      split_ifs with h
      · rw [hs i hi h, add_zero]
        exact hxy.mono (by positivity) (pow_le_pow_right₀ hr1 (by omega))
      · rw [e]
        exact sumR2_near hr hr1 (by omega) hxy (hf i hi))
  rwa [loop_add_eq_sum, zero_add] at this

theorem updateKeff_near (hr : RoundsWithin r rnd) (hr1 : 1 ≤ r) (p : Problem K) (fission : Fission K)
    (hf : FissionData p.groups fission) (flux old : ℕ → ℕ → K) (keff : K) (hk : 0 ≤ keff)
    (hflux : ∀ i < p.cells, ∀ g < p.groups, 0 ≤ flux i g) (hold : ∀ i < p.cells, ∀ g < p.groups, 0 ≤ old i g)
    (hP : 0 < totalProduction p (fissionMatrix fission) old) :
    WithinFactor (r ^ (2 * p.cells * p.groups ^ 2 + 6))
      (totalProduction p (fissionMatrix fission) flux * keff / totalProduction p (fissionMatrix fission) old)
      (Rounded.updateKeff rnd p.cells p.groups p.mm fission flux old keff) := by
  have hr0 : 0 < r := by linarith
  have fin : ∀ x y x' y' : K, WithinFactor (r ^ (2 + p.cells * (p.groups * p.groups))) x y →
      WithinFactor (r ^ (2 + p.cells * (p.groups * p.groups))) x' y' → 0 < x' →
      WithinFactor (r ^ (2 * p.cells * p.groups ^ 2 + 6)) (x * keff / x') (rnd (rnd (y * keff) / y')) := by
    intro x y x' y' h h' hx'
    have h1 := (h.mul (by positivity) one_pos (WithinFactor.refl le_rfl hk)).round hr (by positivity) hr0
    have h2 := (h1.div (by positivity) (by positivity) hx' h').round hr (by positivity) hr0
    rw [mul_one, ← pow_succ, ← pow_add, ← pow_succ] at h2
    rwa [show 2 * p.cells * p.groups ^ 2 + 6 = 2 + p.cells * (p.groups * p.groups) + 1
      + (2 + p.cells * (p.groups * p.groups)) + 1 by ring]
  cases fission with
  | matrix xs =>
    show WithinFactor _ _ (rnd (rnd (Rounded.rateMat rnd p.cells p.groups flux xs p.mm * keff)
      / Rounded.rateMat rnd p.cells p.groups old xs p.mm))
    have key : ∀ f : ℕ → ℕ → K, (∀ i < p.cells, ∀ g < p.groups, 0 ≤ f i g) →
        WithinFactor (r ^ (2 + p.cells * (p.groups * p.groups))) (totalProduction p (fissionMatrix (.matrix xs)) f)
          (Rounded.rateMat rnd p.cells p.groups f xs p.mm) := by
      intro f hfn
      refine rate_near hr hr1 (fun i => Rounded.matSum rnd p.groups (xs (p.mm i)) = 0) (fun i hi h => ?_)
        fun i hi o ho j hj => term_mat_near hr hr1 (hfn i hi j hj) (hf (p.mm i) o ho j hj)
      rw [within_zero_iff (by positivity) (matSum_near hr hr1 (hf (p.mm i)))] at h
      refine sum_eq_zero fun o ho => sum_eq_zero fun j hj => ?_
      have h0 := (sum_eq_zero_iff_of_nonneg fun o ho => sum_nonneg fun i' hi =>
          hf (p.mm i) o (mem_range.mp ho) i' (mem_range.mp hi)).mp h o ho
      have h1 := (sum_eq_zero_iff_of_nonneg fun i' hi => hf (p.mm i) o (mem_range.mp ho) i' (mem_range.mp hi)).mp h0 j hj
      show xs (p.mm i) o j * _ = 0
      rw [h1, zero_mul]
    exact fin _ _ _ _ (key flux hflux) (key old hold) hP
  | vector chi nu =>
    show WithinFactor _ _ (rnd (rnd (Rounded.rateVec rnd p.cells p.groups flux chi nu p.mm * keff)
      / Rounded.rateVec rnd p.cells p.groups old chi nu p.mm))
    have key : ∀ f : ℕ → ℕ → K, (∀ i < p.cells, ∀ g < p.groups, 0 ≤ f i g) →
        WithinFactor (r ^ (2 + p.cells * (p.groups * p.groups))) (totalProduction p (fissionMatrix (.vector chi nu)) f)
          (Rounded.rateVec rnd p.cells p.groups f chi nu p.mm) := by
      intro f hfn
      refine rate_near hr hr1 (fun i => Rounded.accumR rnd p.groups (fun g => chi (p.mm i) g) = 0) (fun i hi h => ?_)
        fun i hi o ho j hj => term_vec_near hr hr1 (hfn i hi j hj) (hf.1 (p.mm i) o ho) (hf.2 (p.mm i) j hj)
      have hm := accumR_near hr hr1 (s := 0) (n := p.groups) (f := chi (p.mm i)) (f' := chi (p.mm i))
        fun g hg => WithinFactor.refl (by simp) (hf.1 (p.mm i) g hg)
      rw [within_zero_iff (by positivity) hm] at h
      refine sum_eq_zero fun o ho => sum_eq_zero fun j hj => ?_
      have h0 := (sum_eq_zero_iff_of_nonneg fun o ho => hf.1 (p.mm i) o (mem_range.mp ho)).mp h o ho
      show chi (p.mm i) o * nu (p.mm i) j * _ = 0
      rw [h0, zero_mul, zero_mul]
    exact fin _ _ _ _ (key flux hflux) (key old hold) hP

end Kernels

/-! ## One pass of the power iteration -/

/-- The inner iterations, computed with rounding, agree with the exact flux of the source up to the factor `e`. -/
def InnerRounded (rnd : K → K) (p : Problem K) (xsTotal : ℕ → ℕ → K) (xs : ℕ → ℕ → ℕ → K) (e : K) : Prop :=
  ∀ (source : Arr3 K) (guess : ℕ → ℕ → K), source.angles = 1 → source.groups = p.groups →
    (∀ i < p.cells, ∀ g < p.groups, 0 ≤ source.val i 0 g) → (∀ i < p.cells, ∀ g < p.groups, 0 ≤ guess i g) →
    ∃ o, Rounded.sourceIterationIso rnd p xsTotal xs source zeroBoundary guess = .ok o ∧
      ∀ exact, Answers p xsTotal xs (fun i g => source.val i 0 g) exact →
        ∀ i < p.cells, ∀ g < p.groups, WithinFactor e (exact i g) (o i g)

theorem rounded_power_pass {rnd : K → K} {r e c : K} (hr : RoundsWithin r rnd) (hr1 : 1 ≤ r) (he : 1 ≤ e) (p : Problem K)
    (norm : (ℕ → ℕ → K) → K) (xsTotal : ℕ → ℕ → K) (xs : ℕ → ℕ → ℕ → K) (fission : Fission K) (hc : 0 ≤ c)
    (hc1 : c < 1) (hcon : Contractive p xsTotal xs c) (hf : FissionData p.groups fission)
    (hin : InnerRounded rnd p xsTotal xs e) (s : KState K)
    (hflux : ∀ i < p.cells, ∀ g < p.groups, 0 ≤ s.flux i g) (hk : 0 < s.keff)
    (hP : 0 < totalProduction p (fissionMatrix fission) s.flux) :
    ∃ o x1 s', Rounded.powerStep rnd p norm xsTotal xs fission s = .ok s' ∧
      Answers p xsTotal xs (emission p (fissionMatrix fission) s.flux) x1 ∧
      (∀ i < p.cells, ∀ g < p.groups, WithinFactor (e * r ^ (p.groups + 3)) (x1 i g / s.keff) (o i g)) ∧
      s'.flux = (fun i g => rnd (o i g / norm o)) ∧
      WithinFactor (r ^ (2 * p.cells * p.groups ^ 2 + 6))
        (totalProduction p (fissionMatrix fission) o * s.keff / totalProduction p (fissionMatrix fission) s.flux) s'.keff := by
  have hr0 : 0 < r := by linarith
  obtain ⟨S, hS⟩ : ∃ S, S = Rounded.fissionSource rnd p.groups p.mm fission s.flux s.keff := ⟨_, rfl⟩
  have hSA : S.angles = 1 := by rw [hS]; cases fission <;> rfl
  have hSG : S.groups = p.groups := by rw [hS]; cases fission <;> rfl
  have hSn : ∀ i < p.cells, ∀ g < p.groups, WithinFactor (r ^ (p.groups + 3))
      (emission p (fissionMatrix fission) s.flux i g / s.keff) (S.val i 0 g) := fun i hi g hg => by
    rw [hS]; exact fissionSource_near hr hr1 p fission hf s.flux s.keff hk (hflux i hi) hg 0
  obtain ⟨o, ho1, ho2⟩ := hin S s.flux hSA hSG (fun i hi g hg => (hSn i hi g hg).1) hflux
  obtain ⟨x1, hx1⟩ := answers_exists hc hc1 hcon (emission p (fissionMatrix fission) s.flux)
  obtain ⟨y, hy⟩ := answers_exists hc hc1 hcon fun i g => S.val i 0 g
  have hscaled : Answers p xsTotal xs (fun i g => emission p (fissionMatrix fission) s.flux i g / s.keff)
      fun i g => x1 i g / s.keff :=
    answers_congr (answers_linear (1 / s.keff) 0 hx1 hx1) (fun i _ g _ => by ring) fun i _ g _ => by ring
  have hxy : ∀ i < p.cells, ∀ g < p.groups, WithinFactor (r ^ (p.groups + 3)) (x1 i g / s.keff) (y i g) := by
    intro i hi g hg
    refine ⟨answers_nonneg hc1 hcon hy (fun i hi g hg => (hSn i hi g hg).1) i hi g hg, ?_, ?_⟩
    · have := answers_mono hc1 hcon hy (answers_linear (r ^ (p.groups + 3)) 0 hscaled hscaled)
        (fun i hi g hg => by rw [zero_mul, add_zero]; exact (hSn i hi g hg).2.1) i hi g hg
      rwa [zero_mul, add_zero] at this
    · have := answers_mono hc1 hcon hscaled (answers_linear (r ^ (p.groups + 3)) 0 hy hy)
        (fun i hi g hg => by rw [zero_mul, add_zero]; exact (hSn i hi g hg).2.2) i hi g hg
      rwa [zero_mul, add_zero] at this
  have hoxy : ∀ i < p.cells, ∀ g < p.groups, WithinFactor (e * r ^ (p.groups + 3)) (x1 i g / s.keff) (o i g) := by
    intro i hi g hg
    have a := hxy i hi g hg
    have b := ho2 y hy i hi g hg
    have hR : 0 < r ^ (p.groups + 3) := by positivity
    refine ⟨b.1, ?_, ?_⟩
    · calc o i g ≤ e * y i g := b.2.1
        _ ≤ e * (r ^ (p.groups + 3) * (x1 i g / s.keff)) := mul_le_mul_of_nonneg_left a.2.1 (by linarith)
        _ = _ := by ring
    · calc x1 i g / s.keff ≤ r ^ (p.groups + 3) * y i g := a.2.2
        _ ≤ r ^ (p.groups + 3) * (e * o i g) := mul_le_mul_of_nonneg_left b.2.2 hR.le
        _ = _ := by ring
  refine ⟨o, x1, ⟨Rounded.normalise rnd norm o, Rounded.updateKeff rnd p.cells p.groups p.mm fission o s.flux s.keff⟩,
    ?_, hx1, hoxy, rfl, ?_⟩
  · unfold Rounded.powerStep
    rw [← hS, ho1]
  · exact updateKeff_near hr hr1 p fission hf o s.flux s.keff hk.le (fun i hi g hg => (hoxy i hi g hg).1) hflux hP

/-! ## The run -/

/-- A positive flux produces neutrons, when the positive mode does. -/
theorem production_pos_of {p : Problem K} {F : ℕ → ℕ → ℕ → K} (hF : EmissionNonneg p F) (hN : 0 < p.cells)
    (hG : 0 < p.groups) {phi : ℕ → ℕ → K} (hpos : ∀ i < p.cells, ∀ g < p.groups, 0 < phi i g)
    (hprod : 0 < totalProduction p F phi) (f : ℕ → ℕ → K) (hfp : ∀ i < p.cells, ∀ g < p.groups, 0 < f i g) :
    0 < totalProduction p F f := by
  obtain ⟨b, hb, hmin⟩ := exists_min_image (range p.cells ×ˢ range p.groups)
    (fun a : ℕ × ℕ => f a.1 a.2 / phi a.1 a.2) ⟨(0, 0), by simp [hN, hG]⟩
  have hb' : b.1 < p.cells ∧ b.2 < p.groups := by simpa using hb
  refine lt_of_lt_of_le (mul_pos (div_pos (hfp _ hb'.1 _ hb'.2) (hpos _ hb'.1 _ hb'.2)) hprod) ?_
  rw [← totalProduction_smul]
  exact totalProduction_mono hF fun i hi g hg =>
    (le_div_iff₀ (hpos i hi g hg)).mp (hmin (i, g) (by simp [hi, hg]))

/-- The answer to the emission of a positive flux is positive. -/
theorem answer_pos_of {p : Problem K} {xsTotal : ℕ → ℕ → K} {xs F : ℕ → ℕ → ℕ → K} {c : K} (hc1 : c < 1)
    (hcon : Contractive p xsTotal xs c) (hF : EmissionNonneg p F) (hN : 0 < p.cells) (hG : 0 < p.groups)
    {phi : ℕ → ℕ → K} {k : K} {psi : ℕ → ℕ → ℕ → K} (hk : 0 < k) (hpair : KEigenpair p xsTotal xs F phi k psi)
    (hpos : ∀ i < p.cells, ∀ g < p.groups, 0 < phi i g) {f x1 : ℕ → ℕ → K}
    (hfl : ∀ i < p.cells, ∀ g < p.groups, 0 < f i g) (hx1 : Answers p xsTotal xs (emission p F f) x1) :
    ∀ i < p.cells, ∀ g < p.groups, 0 < x1 i g := by
  obtain ⟨b, hb, hmin⟩ := exists_min_image (range p.cells ×ˢ range p.groups)
    (fun a : ℕ × ℕ => f a.1 a.2 / phi a.1 a.2) ⟨(0, 0), by simp [hN, hG]⟩
  have hb' : b.1 < p.cells ∧ b.2 < p.groups := by simpa using hb
  obtain ⟨s, hs⟩ : ∃ s, s = f b.1 b.2 / phi b.1 b.2 := ⟨_, rfl⟩
  have hspos : 0 < s := hs ▸ div_pos (hfl _ hb'.1 _ hb'.2) (hpos _ hb'.1 _ hb'.2)
  have hsle : ∀ i < p.cells, ∀ g < p.groups, s * phi i g ≤ f i g := fun i hi g hg =>
    (le_div_iff₀ (hpos i hi g hg)).mp (hs ▸ hmin (i, g) (by simp [hi, hg]))
  intro i hi g hg
  have := answers_mono hc1 hcon (answers_linear s 0 (eigen_answers hk.ne' hpair) hx1) hx1 (fun i hi g hg => by
    rw [← emission_linear]
    exact sum_le_sum fun g' hg' => mul_le_mul_of_nonneg_left
      (by beta_reduce; rw [zero_mul, add_zero]; exact hsle i hi g' (mem_range.mp hg'))
      (hF i hi g hg g' (mem_range.mp hg'))) i hi g hg
  rw [zero_mul, add_zero] at this
  exact lt_of_lt_of_le (mul_pos hspos (mul_pos hk (hpos i hi g hg))) this

/-- If `lam v` is within the factor `a` of the answer `x1` to the emission of `u`, and `u` is within `1 ± tau` of `v`,
then `lam` is within these factors of the eigenvalue. -/
theorem eigenvalue_bracket {p : Problem K} {xsTotal : ℕ → ℕ → K} {xs F : ℕ → ℕ → ℕ → K} {c : K} (hc1 : c < 1)
    (hcon : Contractive p xsTotal xs c) (hF : EmissionNonneg p F) (hN : 0 < p.cells) (hG : 0 < p.groups)
    {phi : ℕ → ℕ → K} {k : K} {psi : ℕ → ℕ → ℕ → K} (hk : 0 < k) (hpair : KEigenpair p xsTotal xs F phi k psi)
    (hpos : ∀ i < p.cells, ∀ g < p.groups, 0 < phi i g) {u v x1 : ℕ → ℕ → K} {lam a tau : K} (ha : 0 < a)
    (hu : ∀ i < p.cells, ∀ g < p.groups, 0 < u i g) (hv : ∀ i < p.cells, ∀ g < p.groups, 0 < v i g)
    (huv : ∀ i < p.cells, ∀ g < p.groups, (1 - tau) * v i g ≤ u i g ∧ u i g ≤ (1 + tau) * v i g)
    (hx1 : Answers p xsTotal xs (emission p F u) x1)
    (hTu : ∀ i < p.cells, ∀ g < p.groups, WithinFactor a (x1 i g) (lam * v i g)) :
    lam ≤ k * (a * (1 + tau)) ∧ k * (1 - tau) ≤ a * lam := by
  have hcells : (range p.cells ×ˢ range p.groups).Nonempty := ⟨(0, 0), by simp [hN, hG]⟩
  constructor
  · obtain ⟨b, hb, hmin⟩ := exists_min_image _ (fun a : ℕ × ℕ => phi a.1 a.2 / u a.1 a.2) hcells
    have hb' : b.1 < p.cells ∧ b.2 < p.groups := by simpa using hb
    have hub := hu _ hb'.1 _ hb'.2
    obtain ⟨t, ht⟩ : ∃ t, t = phi b.1 b.2 / u b.1 b.2 := ⟨_, rfl⟩
    have htpos : 0 < t := ht ▸ div_pos (hpos _ hb'.1 _ hb'.2) hub
    have htle : ∀ i < p.cells, ∀ g < p.groups, t * u i g ≤ phi i g := fun i hi g hg =>
      (le_div_iff₀ (hu i hi g hg)).mp (ht ▸ hmin (i, g) (by simp [hi, hg]))
    have := answers_mono hc1 hcon (answers_linear t 0 hx1 hx1) (eigen_answers hk.ne' hpair) (fun i hi g hg => by
      rw [← emission_linear]
      exact sum_le_sum fun g' hg' => mul_le_mul_of_nonneg_left
        (by beta_reduce; rw [zero_mul, add_zero]; exact htle i hi g' (mem_range.mp hg'))
        (hF i hi g hg g' (mem_range.mp hg'))) b.1 hb'.1 b.2 hb'.2
    rw [zero_mul, add_zero] at this
    have e : phi b.1 b.2 = t * u b.1 b.2 := by rw [ht, div_mul_cancel₀ _ hub.ne']
    have h2 : x1 b.1 b.2 ≤ k * u b.1 b.2 := le_of_mul_le_mul_left (by rw [e] at this; linarith) htpos
    refine le_of_mul_le_mul_right ?_ (hv _ hb'.1 _ hb'.2)
    calc lam * v b.1 b.2 ≤ a * x1 b.1 b.2 := (hTu _ hb'.1 _ hb'.2).2.1
      _ ≤ a * (k * u b.1 b.2) := mul_le_mul_of_nonneg_left h2 ha.le
      _ ≤ a * (k * ((1 + tau) * v b.1 b.2)) := mul_le_mul_of_nonneg_left
          (mul_le_mul_of_nonneg_left (huv _ hb'.1 _ hb'.2).2 hk.le) ha.le
      _ = _ := by ring
  · obtain ⟨b, hb, hmax⟩ := exists_max_image _ (fun a : ℕ × ℕ => phi a.1 a.2 / u a.1 a.2) hcells
    have hb' : b.1 < p.cells ∧ b.2 < p.groups := by simpa using hb
    have hub := hu _ hb'.1 _ hb'.2
    obtain ⟨t, ht⟩ : ∃ t, t = phi b.1 b.2 / u b.1 b.2 := ⟨_, rfl⟩
    have htpos : 0 < t := ht ▸ div_pos (hpos _ hb'.1 _ hb'.2) hub
    have htle : ∀ i < p.cells, ∀ g < p.groups, phi i g ≤ t * u i g := fun i hi g hg =>
      (div_le_iff₀ (hu i hi g hg)).mp (ht ▸ hmax (i, g) (by simp [hi, hg]))
    have := answers_mono hc1 hcon (eigen_answers hk.ne' hpair) (answers_linear t 0 hx1 hx1) (fun i hi g hg => by
      rw [← emission_linear]
      exact sum_le_sum fun g' hg' => mul_le_mul_of_nonneg_left
        (by beta_reduce; rw [zero_mul, add_zero]; exact htle i hi g' (mem_range.mp hg'))
        (hF i hi g hg g' (mem_range.mp hg'))) b.1 hb'.1 b.2 hb'.2
    rw [zero_mul, add_zero] at this
    have e : phi b.1 b.2 = t * u b.1 b.2 := by rw [ht, div_mul_cancel₀ _ hub.ne']
    have h2 : k * u b.1 b.2 ≤ x1 b.1 b.2 := le_of_mul_le_mul_left (by rw [e] at this; linarith) htpos
    refine le_of_mul_le_mul_right ?_ (hv _ hb'.1 _ hb'.2)
    calc k * (1 - tau) * v b.1 b.2 = k * ((1 - tau) * v b.1 b.2) := by ring
      _ ≤ k * u b.1 b.2 := mul_le_mul_of_nonneg_left (huv _ hb'.1 _ hb'.2).1 hk.le
      _ ≤ x1 b.1 b.2 := h2
      _ ≤ a * (lam * v b.1 b.2) := (hTu _ hb'.1 _ hb'.2).2.2
      _ = _ := by ring

/-- C183: what it means, in floating point, that `power_iteration` stopped by its tolerance.  Let each operation round
with relative error at most `u` (`r = 1/(1 - u)`), let the inner iterations be accurate to the factor `e`, and let the
convergence test guarantee that two successive fluxes agree to `tau`.  Then a run from a positive start raises no
exception, and if it stops before the 100th pass, the returned `keff` agrees with the eigenvalue `k` of the positive
mode up to the factor `e r^(2 N G^2 + G + 11) (1 + tau)/(1 - tau)`: the roundings of all earlier passes are
forgotten. -/
theorem C183_rounded_keff {rnd : K → K} {u r e c : K} (hu0 : 0 ≤ u) (hu1 : u < 1) (herr : RelativeError u rnd)
    (hrr : r = 1 / (1 - u)) (he : 1 ≤ e) (p : Problem K) (norm : (ℕ → ℕ → K) → K)
    (conv : (ℕ → ℕ → K) → (ℕ → ℕ → K) → Bool) (tau : K) (htau0 : 0 ≤ tau) (htau1 : tau < 1)
    (htest : ∀ new old, conv new old = true → ∀ i < p.cells, ∀ g < p.groups, |old i g - new i g| ≤ tau * |new i g|)
    (xsTotal : ℕ → ℕ → K) (xs : ℕ → ℕ → ℕ → K) (fission : Fission K) (hc : 0 ≤ c)
    (hc1 : c < 1) (hcon : Contractive p xsTotal xs c) (hf : FissionData p.groups fission)
    (hin : InnerRounded rnd p xsTotal xs e) (hN : 0 < p.cells) (hG : 0 < p.groups)
    (phi : ℕ → ℕ → K) (k : K) (psi : ℕ → ℕ → ℕ → K) (hk : 0 < k)
    (hpair : KEigenpair p xsTotal xs (fissionMatrix fission) phi k psi)
    (hpos : ∀ i < p.cells, ∀ g < p.groups, 0 < phi i g)
    (hprod : 0 < totalProduction p (fissionMatrix fission) phi)
    (hnorm : ∀ f, (∀ i < p.cells, ∀ g < p.groups, 0 < f i g) → 0 < norm f) (random : ℕ → ℕ → K)
    (hrand : ∀ i < p.cells, ∀ g < p.groups, 0 < random i g) :
    ∃ s n, Rounded.powerIteration rnd p norm conv xsTotal xs fission random = .ok (s, n) ∧
      (∀ i < p.cells, ∀ g < p.groups, 0 < s.flux i g) ∧ 0 < s.keff ∧
      (n < 100 → WithinFactor (e * r ^ (2 * p.cells * p.groups ^ 2 + p.groups + 11) * ((1 + tau) / (1 - tau))) k s.keff) := by
  have hp1 : 0 < 1 - u := by linarith
  have hr := herr.within hu0 hu1
  rw [← hrr] at hr
  have hr1 : 1 ≤ r := by rw [hrr, le_div_iff₀ hp1]; linarith
  have hr0 : 0 < r := by linarith
  have he0 : 0 < e := by linarith
  have hF : EmissionNonneg p (fissionMatrix fission) := fun i _ g hg g' hg' => hf.matrix_nonneg _ g hg g' hg'
  obtain ⟨P, hP⟩ : ∃ P, P = totalProduction p (fissionMatrix fission) := ⟨_, rfl⟩
  have hPpos : ∀ f : ℕ → ℕ → K, (∀ i < p.cells, ∀ g < p.groups, 0 < f i g) → 0 < P f := fun f hfp => by
    rw [hP]; exact production_pos_of hF hN hG hpos hprod f hfp
  -- one pass from a positive state
  have pass : ∀ s : KState K, ((∀ i < p.cells, ∀ g < p.groups, 0 < s.flux i g) ∧ 0 < s.keff) →
      ∃ o x1 s', Rounded.powerStep rnd p norm xsTotal xs fission s = .ok s' ∧
        Answers p xsTotal xs (emission p (fissionMatrix fission) s.flux) x1 ∧
        (∀ i < p.cells, ∀ g < p.groups, WithinFactor (e * r ^ (p.groups + 3)) (x1 i g / s.keff) (o i g)) ∧
        s'.flux = (fun i g => rnd (o i g / norm o)) ∧
        WithinFactor (r ^ (2 * p.cells * p.groups ^ 2 + 6)) (P o * s.keff / P s.flux) s'.keff ∧
        (∀ i < p.cells, ∀ g < p.groups, 0 < o i g) ∧
        (∀ i < p.cells, ∀ g < p.groups, 0 < s'.flux i g) ∧ 0 < s'.keff := by
    intro s hs
    obtain ⟨o, x1, s', a1, a2, a3, a4, a5⟩ := rounded_power_pass hr hr1 he p norm xsTotal xs fission hc hc1 hcon hf hin s
      (fun i hi g hg => (hs.1 i hi g hg).le) hs.2 (hP ▸ hPpos _ hs.1)
    rw [← hP] at a5
    have hx1pos := answer_pos_of hc1 hcon hF hN hG hk hpair hpos hs.1 a2
    have hopos : ∀ i < p.cells, ∀ g < p.groups, 0 < o i g := fun i hi g hg =>
      within_pos (by positivity) (a3 i hi g hg) (div_pos (hx1pos i hi g hg) hs.2)
    refine ⟨o, x1, s', a1, a2, a3, a4, a5, hopos, fun i hi g hg => ?_, ?_⟩
    · rw [a4]
      have := div_pos (hopos i hi g hg) (hnorm o hopos)
      exact within_pos hr0 (hr _ this.le) this
    · exact within_pos (by positivity) a5 (div_pos (mul_pos (hPpos o hopos) hs.2) (hPpos _ hs.1))
  obtain ⟨x, n, hrun, hok⟩ := powerLoop_spec (Rounded.powerStep rnd p norm xsTotal xs fission) conv
    (fun s => (∀ i < p.cells, ∀ g < p.groups, 0 < s.flux i g) ∧ 0 < s.keff)
    (fun s hs => by
      obtain ⟨_, _, s', a1, _, _, _, _, _, a6⟩ := pass s hs
      exact ⟨s', a1, a6⟩) 99 0 (Rounded.start rnd norm random)
    ⟨fun i hi g hg => by
      have := div_pos (hrand i hi g hg) (abs_pos.mpr (hnorm random hrand).ne')
      exact within_pos hr0 (hr _ this.le) this, hnorm random hrand⟩
  have hall : ∀ j ≤ n, (∀ i < p.cells, ∀ g < p.groups, 0 < (x j).flux i g) ∧ 0 < (x j).keff := by
    intro j
    induction j with
    | zero =>
      intro _
      rw [hrun.start]
      exact ⟨fun i hi g hg => by
        have := div_pos (hrand i hi g hg) (abs_pos.mpr (hnorm random hrand).ne')
        exact within_pos hr0 (hr _ this.le) this, hnorm random hrand⟩
    | succ j ih =>
      intro hj
      obtain ⟨_, _, s', a1, _, _, _, _, _, a6⟩ := pass (x j) (ih (by omega))
      rw [hrun.steps j (by omega)] at a1
      rw [Except.ok.inj a1]
      exact a6
  rw [zero_add] at hok
  refine ⟨x n, n, hok, (hall n le_rfl).1, (hall n le_rfl).2, fun hlt => ?_⟩
  have hn := hrun.pos
  obtain ⟨j, rfl⟩ : ∃ j, n = j + 1 := ⟨n - 1, by omega⟩
  obtain ⟨hfl, hke⟩ := hall j (by omega)
  obtain ⟨hfl', hke'⟩ := hall (j + 1) le_rfl
  have hstop := htest _ _ (hrun.stopped hlt)
  simp only [Nat.add_sub_cancel] at hstop
  obtain ⟨o, x1, s', a1, hx1, hox, hs1, hs2, hopos, _, _⟩ := pass (x j) ⟨hfl, hke⟩
  rw [hrun.steps j (by omega)] at a1
  have a1 := Except.ok.inj a1
  rw [← a1] at hs1 hs2
  obtain ⟨w, hw⟩ : ∃ w, w = (x j).flux := ⟨_, rfl⟩
  obtain ⟨v, hv⟩ : ∃ v, v = (x (j + 1)).flux := ⟨_, rfl⟩
  rw [← hw] at hstop hfl hx1 hs2
  rw [← hv] at hstop hfl' hs1
  have h1t : 0 < 1 - tau := by linarith
  have h1t' : 0 < 1 + tau := by linarith
  have hwv : ∀ i < p.cells, ∀ g < p.groups, (1 - tau) * v i g ≤ w i g ∧ w i g ≤ (1 + tau) * v i g := by
    intro i hi g hg
    have h3 := hstop i hi g hg
    rw [abs_of_pos (hfl' i hi g hg)] at h3
    have h3 := abs_le.mp h3
    constructor <;> linarith [h3.1, h3.2]
  have hno := hnorm o hopos
  obtain ⟨lam, hlam⟩ : ∃ lam, lam = (x j).keff * norm o := ⟨_, rfl⟩
  have hlam0 : 0 < lam := by rw [hlam]; exact mul_pos hke hno
  -- `lam v` is `keff o` up to one rounding
  have hov : ∀ i < p.cells, ∀ g < p.groups, WithinFactor r ((x j).keff * o i g) (lam * v i g) := fun i hi g hg => by
    have := (WithinFactor.refl (c := (1 : K)) le_rfl hlam0.le).mul one_pos hr0 (hr _ (div_pos (hopos i hi g hg) hno).le)
    rw [one_mul] at this
    rw [hs1]
    rwa [show lam * (o i g / norm o) = (x j).keff * o i g by rw [hlam]; field_simp] at this
  obtain ⟨a, ha⟩ : ∃ a, a = e * r ^ (p.groups + 3) * r := ⟨_, rfl⟩
  have ha0 : 0 < a := by rw [ha]; positivity
  have hTu : ∀ i < p.cells, ∀ g < p.groups, WithinFactor a (x1 i g) (lam * v i g) := by
    intro i hi g hg
    have h1 := hox i hi g hg
    have h2 := hov i hi g hg
    have h3 : WithinFactor (e * r ^ (p.groups + 3)) (x1 i g) ((x j).keff * o i g) := by
      have := (WithinFactor.refl (c := (1 : K)) le_rfl hke.le).mul one_pos (by positivity) h1
      rwa [one_mul, mul_div_cancel₀ _ hke.ne'] at this
    have hA : 0 < e * r ^ (p.groups + 3) := by positivity
    rw [ha]
    refine ⟨h2.1, ?_, ?_⟩
    · calc lam * v i g ≤ r * ((x j).keff * o i g) := h2.2.1
        _ ≤ r * (e * r ^ (p.groups + 3) * x1 i g) := mul_le_mul_of_nonneg_left h3.2.1 hr0.le
        _ = _ := by ring
    · calc x1 i g ≤ e * r ^ (p.groups + 3) * ((x j).keff * o i g) := h3.2.2
        _ ≤ e * r ^ (p.groups + 3) * (r * (lam * v i g)) := mul_le_mul_of_nonneg_left h2.2.2 hA.le
        _ = _ := by ring
  obtain ⟨hl1, hl2⟩ := eigenvalue_bracket hc1 hcon hF hN hG hk hpair hpos ha0 hfl hfl' hwv hx1 hTu
  -- the new factor
  have hP1 : ∀ (z : K) (f f' : ℕ → ℕ → K), (∀ i < p.cells, ∀ g < p.groups, z * f i g ≤ f' i g) → z * P f ≤ P f' :=
    fun z f f' hz => by rw [hP, ← totalProduction_smul]; exact totalProduction_mono hF hz
  have hP2 : ∀ (z : K) (f f' : ℕ → ℕ → K), (∀ i < p.cells, ∀ g < p.groups, f' i g ≤ z * f i g) → P f' ≤ z * P f :=
    fun z f f' hz => by rw [hP, ← totalProduction_smul]; exact totalProduction_mono hF hz
  have hPw := hPpos w hfl
  have hPv := hPpos v hfl'
  have hPo := hPpos o hopos
  have hPwv : (1 - tau) * P v ≤ P w ∧ P w ≤ (1 + tau) * P v :=
    ⟨hP1 _ _ _ fun i hi g hg => (hwv i hi g hg).1, hP2 _ _ _ fun i hi g hg => (hwv i hi g hg).2⟩
  have hPov1 : (x j).keff * P o ≤ r * (lam * P v) := by
    have : (x j).keff * P o ≤ (r * lam) * P v := by
      have h2 : (x j).keff / (r * lam) * P o ≤ P v := hP1 _ _ _ fun i hi g hg => by
        rw [div_mul_eq_mul_div, div_le_iff₀ (by positivity)]
        have := (hov i hi g hg).2.2
        linarith
      rw [div_mul_eq_mul_div, div_le_iff₀ (by positivity)] at h2
      linarith
    linarith
  have hPov2 : lam * P v ≤ r * ((x j).keff * P o) := by
    have h2 : lam / (r * (x j).keff) * P v ≤ P o := hP1 _ _ _ fun i hi g hg => by
      rw [div_mul_eq_mul_div, div_le_iff₀ (by positivity)]
      have := (hov i hi g hg).2.1
      linarith
    rw [div_mul_eq_mul_div, div_le_iff₀ (by positivity)] at h2
    linarith
  obtain ⟨b, hb⟩ : ∃ b, b = r ^ (2 * p.cells * p.groups ^ 2 + 6) := ⟨_, rfl⟩
  have hb0 : 0 < b := by rw [hb]; positivity
  rw [← hb] at hs2
  obtain ⟨kk, hkk⟩ : ∃ kk, kk = (x (j + 1)).keff := ⟨_, rfl⟩
  rw [← hkk] at hs2 hke' ⊢
  have e1 : kk * P w ≤ b * (P o * (x j).keff) := by
    have := hs2.2.1
    rwa [← mul_div_assoc, le_div_iff₀ hPw] at this
  have e2 : P o * (x j).keff ≤ b * kk * P w := by
    have := hs2.2.2
    rwa [div_le_iff₀ hPw] at this
  -- `kk (1 - tau) <= b r lam` and `lam <= b r (1 + tau) kk`
  have f1 : kk * (1 - tau) ≤ b * r * lam := by
    refine le_of_mul_le_mul_right ?_ hPv
    calc kk * (1 - tau) * P v = kk * ((1 - tau) * P v) := by ring
      _ ≤ kk * P w := mul_le_mul_of_nonneg_left hPwv.1 hke'.le
      _ ≤ b * (P o * (x j).keff) := e1
      _ = b * ((x j).keff * P o) := by ring
      _ ≤ b * (r * (lam * P v)) := mul_le_mul_of_nonneg_left hPov1 hb0.le
      _ = _ := by ring
  have f2 : lam ≤ b * r * ((1 + tau) * kk) := by
    refine le_of_mul_le_mul_right ?_ hPv
    calc lam * P v ≤ r * ((x j).keff * P o) := hPov2
      _ = r * (P o * (x j).keff) := by ring
      _ ≤ r * (b * kk * P w) := mul_le_mul_of_nonneg_left e2 hr0.le
      _ ≤ r * (b * kk * ((1 + tau) * P v)) := mul_le_mul_of_nonneg_left
          (mul_le_mul_of_nonneg_left hPwv.2 (mul_nonneg hb0.le hke'.le)) hr0.le
      _ = _ := by ring
  have hD : e * r ^ (2 * p.cells * p.groups ^ 2 + p.groups + 11) = a * (b * r) := by
    rw [ha, hb]; ring
  rw [hD]
  refine ⟨hke'.le, ?_, ?_⟩
  · rw [show a * (b * r) * ((1 + tau) / (1 - tau)) * k = a * (b * r) * (1 + tau) * k / (1 - tau) by ring,
      le_div_iff₀ h1t]
    calc kk * (1 - tau) ≤ b * r * lam := f1
      _ ≤ b * r * (k * (a * (1 + tau))) := mul_le_mul_of_nonneg_left hl1 (by positivity)
      _ = _ := by ring
  · rw [show a * (b * r) * ((1 + tau) / (1 - tau)) * kk = a * (b * r) * (1 + tau) * kk / (1 - tau) by ring,
      le_div_iff₀ h1t]
    calc k * (1 - tau) ≤ a * lam := hl2
      _ ≤ a * (b * r * ((1 + tau) * kk)) := mul_le_mul_of_nonneg_left f2 ha0.le
      _ = _ := by ring

/-! ## Down-scatter problems -/

/-- Comparison of two sweeps up to a factor. -/
theorem swept_scaled_le {N A : ℕ} {mu : ℕ → K} {dx sigma : ℕ → K} {q q' psi psi' : ℕ → ℕ → K}
    {bcL bcR : Bool} {bL bR : ℕ → K} (hne : ∀ n < A, mu n ≠ 0) (hphys : Physical N dx sigma)
    (hfine : ∀ n < A, FineFor N (mu n) dx sigma) {E : K} (hE : 1 ≤ E)
    (h : AllBalanced N A mu dx sigma q psi) (h' : AllBalanced N A mu dx sigma q' psi')
    (hin : SweptInflow N A mu bcL bcR bL bR psi) (hin' : SweptInflow N A mu bcL bcR bL bR psi')
    (hbL : ∀ n < A, 0 < mu n → 0 ≤ bL n) (hbR : ∀ n < A, mu n < 0 → 0 ≤ bR n)
    (hq : ∀ n < A, ∀ i < N, q' n i ≤ E * q n i) :
    ∀ n < A, ∀ i ≤ N, psi' n i ≤ E * psi n i := by
  intro n hn i hi
  have hbal : AllBalanced N A mu dx sigma (fun n i => E * q n i + -1 * q' n i) (fun n i => E * psi n i + -1 * psi' n i) :=
    fun n hn i hi => by linear_combination E * h n hn i hi - h' n hn i hi
  have := swept_nonneg hne hphys hfine hbal (sweptInflow_add (sweptInflow_smul E hin) (sweptInflow_smul (-1) hin'))
    (fun n hn i hi => by have := hq n hn i hi; linarith)
    (fun n hn hp => by nlinarith [hbL n hn hp]) (fun n hn hp => by nlinarith [hbR n hn hp]) n hn i hi
  beta_reduce at this
  linarith

theorem scalarCenter_scaled_le {A : ℕ} {w : ℕ → K} {psi psi' : ℕ → ℕ → K} {i : ℕ} {E : K} (hw : ∀ n < A, 0 ≤ w n)
    (h0 : ∀ n < A, psi' n i ≤ E * psi n i) (h1 : ∀ n < A, psi' n (i + 1) ≤ E * psi n (i + 1)) :
    scalarCenter A w psi' i ≤ E * scalarCenter A w psi i := by
  unfold scalarCenter
  rw [mul_sum]
  refine sum_le_sum fun n hn => ?_
  have hn := mem_range.mp hn
  have := mul_le_mul_of_nonneg_left (by linarith [h0 n hn, h1 n hn] :
    (psi' n i + psi' n (i + 1)) / 2 ≤ E * ((psi n i + psi n (i + 1)) / 2)) (hw n hn)
  linarith

/-- In a down-scatter problem, an exact pass of group `k` with fluxes of the higher groups that are within the factor
`E` of the solution gives the flux of group `k` within the factor `E`, whatever the old fluxes. -/
theorem downscatter_pass_factor (p : Problem K) (xsTotal : ℕ → ℕ → K) (xs : ℕ → ℕ → ℕ → K) (external boundary : Arr3 K)
    (E : K) (hE : 1 ≤ E) (hok : ∀ g < p.groups, SlabOk p xsTotal g)
    (hfine : ∀ g < p.groups, ∀ n < p.angles, FineFor p.cells (p.angleX n) p.dx (fun i => xsTotal (p.mm i) g))
    (hxs : ∀ i < p.cells, ∀ g < p.groups, ∀ g' < p.groups, 0 ≤ xs (p.mm i) g g')
    (hdata : ∀ g < p.groups, NonnegData p.cells p.angles p.angleX p.angleW
      (external.group (bidx external.groups g)) (boundary.group (bidx boundary.groups g)))
    (hdown : ∀ m g g', g ≤ g' → xs m g g' = 0) (phi : ℕ → ℕ → K) (psi : ℕ → ℕ → ℕ → K)
    (hsol : SolvesMultigroup p xsTotal xs external boundary phi psi)
    (f old : ℕ → ℕ → K) (a b : ℕ → K)
    (k : ℕ) (hk : k < p.groups)
    (hf : ∀ i < p.cells, ∀ g < k, WithinFactor E (phi i g) (f i g))
    (hb : isotropicSweep p.cells p.angles (fun m => xsTotal m k) (fun m => xs m k k)
      (offScatter p.groups f old p.mm xs k) (external.group (bidx external.groups k))
      (boundary.group (bidx boundary.groups k)) p.mm p.dx p.angleX p.angleW p.bcL p.bcR false a
      = .ok b) : ∀ i < p.cells, b i ≤ E * phi i k ∧ phi i k ≤ E * b i := by
  obtain ⟨b', psi', k1, k2, k3, k4⟩ := isotropicSweep_spec (N := p.cells) (A := p.angles)
    (fun m => xsTotal m k) (fun m => xs m k k) (offScatter p.groups f old p.mm xs k)
    (external.group (bidx external.groups k)) (boundary.group (bidx boundary.groups k)) p.mm p.dx
    p.angleX p.angleW p.bcL p.bcR false a (hok k hk).nonzero (hok k hk).phys
  rw [hb] at k1
  have hbb : b = b' := Except.ok.inj k1
  subst hbb
  have hd := hdata k hk
  -- the two sources
  have src : ∀ i, offScatter p.groups f old p.mm xs k i = ∑ og ∈ range k, xs (p.mm i) k og * f i og := by
    intro i
    rw [offScatter_eq _ _ _ _ _ hk]
    have : range k ⊆ (range p.groups).erase k := fun og hog => by
      have := mem_range.mp hog
      exact mem_erase.mpr ⟨by omega, mem_range.mpr (by omega)⟩
    rw [← sum_subset this fun og hog hn => by
      have h1 := mem_erase.mp hog
      have h2 : ¬ og < k := fun h => hn (mem_range.mpr h)
      rw [hdown _ _ _ (by omega), zero_mul]]
    exact sum_congr rfl fun og hog => by rw [if_pos (mem_range.mp hog)]
  have src' : ∀ i, ∑ og ∈ range p.groups, xs (p.mm i) k og * phi i og = ∑ og ∈ range k, xs (p.mm i) k og * phi i og := by
    intro i
    have : range k ⊆ range p.groups := fun og hog => mem_range.mpr (by have := mem_range.mp hog; omega)
    rw [← sum_subset this fun og hog hn => by
      have h2 : ¬ og < k := fun h => hn (mem_range.mpr h)
      rw [hdown _ _ _ (by omega), zero_mul]]
  have scale : ∀ (s s' : ℕ → K), (∀ g < k, s' g ≤ E * s g) → ∀ i < p.cells, ∀ (x : K), 0 ≤ x →
      (∑ og ∈ range k, xs (p.mm i) k og * s' og) + x ≤ E * ((∑ og ∈ range k, xs (p.mm i) k og * s og) + x) := by
    intro s s' h i hi x hx
    rw [mul_add, mul_sum]
    refine add_le_add (sum_le_sum fun og hog => ?_) (by nlinarith)
    have hog := mem_range.mp hog
    have := mul_le_mul_of_nonneg_left (h og hog) (hxs i hi k hk og (by omega))
    linarith
  have q0 : ∀ m, xs m k k = 0 := fun m => hdown m k k le_rfl
  intro i hi
  rw [k4 i, hsol.scalar k hk i hi]
  simp only [Bool.false_eq_true, if_false, if_pos hi]
  have up := swept_scaled_le (hok k hk).nonzero (hok k hk).phys (hfine k hk) hE (hsol.balance k hk) k2
    (hsol.inflow k hk) k3 hd.left hd.right (fun n hn i hi => by
      beta_reduce
      rw [q0, zero_mul, zero_add, src, src', add_comm]
      exact scale (phi i) (f i) (fun g hg => (hf i hi g hg).2.1) i hi _ (hd.ext n hn i hi))
  have down := swept_scaled_le (hok k hk).nonzero (hok k hk).phys (hfine k hk) hE k2 (hsol.balance k hk)
    k3 (hsol.inflow k hk) hd.left hd.right (fun n hn i hi => by
      beta_reduce
      rw [q0, zero_mul, zero_add, src, src', add_comm _ (∑ og ∈ range k, xs (p.mm i) k og * f i og)]
      exact scale (f i) (phi i) (fun g hg => (hf i hi g hg).2.2) i hi _ (hd.ext n hn i hi))
  exact ⟨scalarCenter_scaled_le hd.weights (fun n hn => up n hn i hi.le) (fun n hn => up n hn (i + 1) hi),
    scalarCenter_scaled_le hd.weights (fun n hn => down n hn i hi.le) (fun n hn => down n hn (i + 1) hi)⟩

/-- C184: the source iteration of a down-scatter problem, run in floating point, is accurate in the relative sense, in
every cell and group, however small the flux there is: whatever the guess and the convergence tests, the flux of group
`g` agrees with the exact solution up to the factor `(1/(1 - C u))^(g+1)`, `C` the cost of a pass (C176). -/
theorem C184_rounded_downscatter {rnd : K → K} {u th : K} {p : Problem K} {xsTotal : ℕ → ℕ → K}
    {xs : ℕ → ℕ → ℕ → K} {external boundary : Arr3 K}
    (h : RoundedProblem rnd u th p xsTotal xs external boundary)
    (hfine : ∀ g < p.groups, ∀ n < p.angles, FineFor p.cells (p.angleX n) p.dx (fun i => xsTotal (p.mm i) g))
    (hdown : ∀ m g g', g ≤ g' → xs m g g' = 0) {rho : K}
    (hrho : rho = 1 / (1 - sweepCost th p.groups p.cells p.angles * u))
    (phi : ℕ → ℕ → K) (psi : ℕ → ℕ → ℕ → K) (hsol : SolvesMultigroup p xsTotal xs external boundary phi psi)
    (guess : ℕ → ℕ → K) (hguess : ∀ i < p.cells, ∀ g < p.groups, 0 ≤ guess i g) :
    ∃ o, Rounded.sourceIterationIso rnd p xsTotal xs external boundary guess = .ok o ∧
      ∀ i < p.cells, ∀ g < p.groups, WithinFactor (rho ^ (g + 1)) (phi i g) (o i g) := by
  have hcost := h.cost
  have hC0 := mul_nonneg (sweepCost_nonneg h.fraction1 p.groups p.cells p.angles) h.unit
  have hrho1 : 1 ≤ rho := by rw [hrho, le_div_iff₀ (by linarith)]; linarith
  have hrho0 : 0 < rho := by linarith
  have sweep : ∀ old : ℕ → ℕ → K, (∀ i < p.cells, ∀ g < p.groups, 0 ≤ old i g) →
      ∃ new, Rounded.oneSweepIso rnd p xsTotal xs external boundary old = .ok new ∧
        ∀ i < p.cells, ∀ g < p.groups, WithinFactor (rho ^ (g + 1)) (phi i g) (new i g) := by
    intro old hold
    obtain ⟨new, h1, h2⟩ := loopE_inv (fun n (f : ℕ → ℕ → K) => ∀ i < p.cells, ∀ g < p.groups,
        0 ≤ f i g ∧ (g < n → WithinFactor (rho ^ (g + 1)) (phi i g) (f i g)))
      p.groups (Rounded.groupStepIso rnd p xsTotal xs external boundary old) (fun _ _ => 0)
      (fun i _ g _ => ⟨le_refl _, fun hg => absurd hg (Nat.not_lt_zero _)⟩) (fun n hn f hf => by
        have pass : ∀ a : ℕ → K, (∀ i < p.cells, 0 ≤ a i) →
            ∃ b, Rounded.isotropicSweep rnd p.cells p.angles (fun m => xsTotal m n) (fun m => xs m n n)
              (Rounded.offScatter rnd p.groups f old p.mm xs n) (external.group (bidx external.groups n))
              (boundary.group (bidx boundary.groups n)) p.mm p.dx p.angleX p.angleW p.bcL p.bcR a
              = .ok b ∧ ∀ i < p.cells, WithinFactor (rho ^ (n + 1)) (phi i n) (b i) := by
          intro a ha
          obtain ⟨b, b', e1, e2, e3⟩ := rounded_pass_near h hn f old a (fun i hi g hg => (hf i hi g hg).1) hold ha
          rw [← hrho] at e3
          have hx := downscatter_pass_factor p xsTotal xs external boundary (rho ^ n) (one_le_pow₀ hrho1) h.ok hfine
            h.xs h.data hdown phi psi hsol f old a b n hn (fun i hi g hg => ((hf i hi g (by omega)).2 hg).mono
              (by positivity) (pow_le_pow_right₀ hrho1 (by omega))) e1
          refine ⟨b', e2, fun i hi => ⟨(e3 i).1, ?_, ?_⟩⟩
          · calc b' i ≤ rho * b i := (e3 i).2.1
              _ ≤ rho * (rho ^ n * phi i n) := mul_le_mul_of_nonneg_left (hx i hi).1 hrho0.le
              _ = _ := by ring
          · calc phi i n ≤ rho ^ n * b i := (hx i hi).2
              _ ≤ rho ^ n * (rho * b' i) := mul_le_mul_of_nonneg_left (e3 i).2.2 (by positivity)
              _ = _ := by ring
        obtain ⟨x, j, _, _, hstep, hP, he, _⟩ := iterateE_spec (Rounded.isotropicSweep rnd p.cells p.angles
          (fun m => xsTotal m n) (fun m => xs m n n)
          (Rounded.offScatter rnd p.groups f old p.mm xs n) (external.group (bidx external.groups n))
          (boundary.group (bidx boundary.groups n)) p.mm p.dx p.angleX p.angleW p.bcL p.bcR) p.convIn
          (fun a => ∀ i < p.cells, 0 ≤ a i) (fun a ha => by
            obtain ⟨b, hb1, hb2⟩ := pass a ha
            exact ⟨b, hb1, fun i hi => (hb2 i hi).1⟩) 99 (fun i => old i n) (fun i hi => hold i hi n hn)
        obtain ⟨b, hb1, hb2⟩ := pass (x j) (hP j (by omega))
        have hbx : b = x (j + 1) := by
          have := hstep j (le_refl _)
          rw [hb1] at this; exact Except.ok.inj this
        refine ⟨putCol f n (x (j + 1)), ?_, fun i hi g hg => ?_⟩
        · unfold Rounded.groupStepIso Rounded.isotropicSn
          rw [he]; rfl
        · unfold putCol
          by_cases hgn : g = n
          · subst hgn; rw [if_pos rfl, ← hbx]; exact ⟨(hb2 i hi).1, fun _ => hb2 i hi⟩
          · rw [if_neg hgn]; exact ⟨(hf i hi g hg).1, fun hlt => (hf i hi g hg).2 (by omega)⟩)
    exact ⟨new, h1, fun i hi g hg => (h2 i hi g hg).2 hg⟩
  obtain ⟨x, j, _, _, hstep, hP, he, _⟩ := iterateE_spec (Rounded.oneSweepIso rnd p xsTotal xs external boundary)
    p.convOut (fun f => ∀ i < p.cells, ∀ g < p.groups, 0 ≤ f i g) (fun old hold => by
      obtain ⟨b, hb1, hb2⟩ := sweep old hold
      exact ⟨b, hb1, fun i hi g hg => (hb2 i hi g hg).1⟩) 99 guess hguess
  obtain ⟨b, hb1, hb2⟩ := sweep (x j) (hP j (by omega))
  have hbx : b = x (j + 1) := by
    have := hstep j (le_refl _)
    rw [hb1] at this; exact Except.ok.inj this
  exact ⟨x (j + 1), he, by rw [← hbx]; exact hb2⟩

/-- The circumstances of the down-scatter form of C183: unit roundoff `u`, a slab on a mesh with
`sigma dx ≤ th * 2 |mu|`, non-negative data, scattering to lower energies (higher group numbers) only. -/
structure RoundedDownscatter (rnd : K → K) (u th : K) (p : Problem K) (xsTotal : ℕ → ℕ → K)
    (xs : ℕ → ℕ → ℕ → K) : Prop where
  unit : 0 ≤ u
  error : RelativeError u rnd
  cells : 0 < p.cells
  fraction0 : 0 ≤ th
  fraction1 : th < 1
  fine : ∀ g < p.groups, ∀ n < p.angles, FineBy th p.cells (p.angleX n) p.dx (fun i => xsTotal (p.mm i) g)
  down : ∀ m g g', g ≤ g' → xs m g g' = 0

theorem downscatter_inner {rnd : K → K} {u th c : K} {p : Problem K} {xsTotal : ℕ → ℕ → K}
    {xs : ℕ → ℕ → ℕ → K} (h : RoundedDownscatter rnd u th p xsTotal xs) (hc1 : c < 1) (hcon : Contractive p xsTotal xs c)
    (hcost : sweepCost th p.groups p.cells p.angles * u < 1) :
    InnerRounded rnd p xsTotal xs ((1 / (1 - sweepCost th p.groups p.cells p.angles * u)) ^ p.groups) := by
  intro source guess hA hG hs hg
  have hC0 := mul_nonneg (sweepCost_nonneg h.fraction1 p.groups p.cells p.angles) h.unit
  have hrho1 : 1 ≤ 1 / (1 - sweepCost th p.groups p.cells p.angles * u) := by
    rw [le_div_iff₀ (by linarith)]; linarith
  have hprob : RoundedProblem rnd u th p xsTotal xs source zeroBoundary :=
    { unit := h.unit, error := h.error, cells := h.cells, fraction0 := h.fraction0, fraction1 := h.fraction1,
      ok := hcon.ok, fine := h.fine, xs := hcon.nonneg, cost := hcost,
      data := fun g hg => ⟨hcon.weights, fun n hn i hi => by
          have e1 : (if source.angles = 1 then 0 else n) = 0 := if_pos hA
          have e2 : (if source.groups = 1 then 0 else g) = g := by rw [hG]; exact bidx_full _ _ hg
          show 0 ≤ source.val i (if source.angles = 1 then 0 else n) (if source.groups = 1 then 0 else g)
          rw [e1, e2]
          exact hs i hi g hg,
        fun _ _ _ => le_refl (0 : K), fun _ _ _ => le_refl (0 : K)⟩ }
  obtain ⟨phi, psi, _, hsol⟩ := C22_downscatter_exact p xsTotal xs source zeroBoundary guess hcon.ok h.down
  obtain ⟨o, ho1, ho2⟩ := C184_rounded_downscatter hprob hcon.fine h.down rfl phi psi hsol guess hg
  refine ⟨o, ho1, fun exact hexact i hi g hg => ?_⟩
  have : Answers p xsTotal xs (fun i g => source.val i 0 g) phi := ⟨psi, solves_congr hsol fun i hi n hn g hg => by
    have e1 : (if source.angles = 1 then 0 else n) = 0 := if_pos hA
    have e2 : (if source.groups = 1 then 0 else g) = g := by rw [hG]; exact bidx_full _ _ hg
    have e3 : (if p.groups = 1 then 0 else g) = g := bidx_full _ _ hg
    show source.val i (if source.angles = 1 then 0 else n) (if source.groups = 1 then 0 else g)
      = source.val i 0 (if p.groups = 1 then 0 else g)
    rw [e1, e2, e3]⟩
  rw [answers_unique hc1 hcon hexact this i hi g hg]
  exact (ho2 i hi g hg).mono (by positivity) (pow_le_pow_right₀ hrho1 (by omega))

/-- The number of roundings that reach `keff`: one pass per group, the fission source, the normalisation and the two
sums of the update. -/
def keffCost (th : K) (G N A : ℕ) : K := G * sweepCost th G N A + (2 * N * G ^ 2 + G + 11)

/-- C183 for down-scatter problems, where no hypothesis on the inner iterations is left: if `power_iteration`, run in
an arithmetic of unit roundoff `u`, stops before the 100th pass because two successive fluxes agree to `tau`, then
`keff` agrees with the eigenvalue `k` up to the factor `(1 + tau)/(1 - tau)/(1 - D u)`, with
`D = G C + 2 N G^2 + G + 11` and `C = A + 5 + 2 N (G + 7 + 2/(1 - th))`. -/
theorem C183_rounded_keff_downscatter {rnd : K → K} {u th c : K} (p : Problem K) (norm : (ℕ → ℕ → K) → K)
    (conv : (ℕ → ℕ → K) → (ℕ → ℕ → K) → Bool) (tau : K) (htau0 : 0 ≤ tau) (htau1 : tau < 1)
    (htest : ∀ new old, conv new old = true → ∀ i < p.cells, ∀ g < p.groups, |old i g - new i g| ≤ tau * |new i g|)
    (xsTotal : ℕ → ℕ → K) (xs : ℕ → ℕ → ℕ → K) (fission : Fission K)
    (h : RoundedDownscatter rnd u th p xsTotal xs) (hc : 0 ≤ c)
    (hc1 : c < 1) (hcon : Contractive p xsTotal xs c) (hf : FissionData p.groups fission) (hG : 0 < p.groups)
    (hcost : keffCost th p.groups p.cells p.angles * u < 1)
    (phi : ℕ → ℕ → K) (k : K) (psi : ℕ → ℕ → ℕ → K) (hk : 0 < k)
    (hpair : KEigenpair p xsTotal xs (fissionMatrix fission) phi k psi)
    (hpos : ∀ i < p.cells, ∀ g < p.groups, 0 < phi i g)
    (hprod : 0 < totalProduction p (fissionMatrix fission) phi)
    (hnorm : ∀ f, (∀ i < p.cells, ∀ g < p.groups, 0 < f i g) → 0 < norm f) (random : ℕ → ℕ → K)
    (hrand : ∀ i < p.cells, ∀ g < p.groups, 0 < random i g) :
    ∃ s n, Rounded.powerIteration rnd p norm conv xsTotal xs fission random = .ok (s, n) ∧
      (∀ i < p.cells, ∀ g < p.groups, 0 < s.flux i g) ∧ 0 < s.keff ∧
      (n < 100 → WithinFactor ((1 + tau) / (1 - tau) / (1 - keffCost th p.groups p.cells p.angles * u)) k s.keff) := by
  obtain ⟨C, hC⟩ : ∃ C, C = sweepCost th p.groups p.cells p.angles := ⟨_, rfl⟩
  have hC0 : 0 ≤ C := hC ▸ sweepCost_nonneg h.fraction1 _ _ _
  obtain ⟨D, hD⟩ : ∃ D, D = keffCost th p.groups p.cells p.angles := ⟨_, rfl⟩
  have hDC : D = p.groups * C + (2 * p.cells * p.groups ^ 2 + p.groups + 11 : ℕ) := by
    rw [hD, keffCost, hC]; push_cast; ring
  have hu0 := h.unit
  rw [← hD] at hcost ⊢
  have hG1 : (1 : K) ≤ p.groups := by exact_mod_cast hG
  have hE0 : (11 : K) ≤ (2 * p.cells * p.groups ^ 2 + p.groups + 11 : ℕ) := by
    exact_mod_cast Nat.le_add_left 11 _
  have hCD : C ≤ D := by
    rw [hDC]
    have := mul_le_mul_of_nonneg_right hG1 hC0
    linarith
  have h11 : 11 ≤ D := by
    rw [hDC]
    have : 0 ≤ (p.groups : K) * C := mul_nonneg (Nat.cast_nonneg _) hC0
    linarith
  have hCu : C * u < 1 := lt_of_le_of_lt (mul_le_mul_of_nonneg_right hCD hu0) hcost
  have hu1 : u < 1 := by
    have := mul_le_mul_of_nonneg_right h11 hu0
    linarith
  have hpC : 0 < 1 - C * u := by linarith
  have hpu : 0 < 1 - u := by linarith
  obtain ⟨rho, hrho⟩ : ∃ rho, rho = 1 / (1 - C * u) := ⟨_, rfl⟩
  obtain ⟨r, hr⟩ : ∃ r, r = 1 / (1 - u) := ⟨_, rfl⟩
  have hrho1 : 1 ≤ rho := by rw [hrho, le_div_iff₀ hpC]; linarith [mul_nonneg hC0 hu0]
  have hr1 : 1 ≤ r := by rw [hr, le_div_iff₀ hpu]; linarith
  have hrho0 : 0 ≤ rho := by linarith
  have hr0 : 0 ≤ r := by linarith
  have hin := downscatter_inner h hc1 hcon (hC ▸ hCu)
  rw [← hC, ← hrho] at hin
  obtain ⟨s, n, h1, h2, h3, h4⟩ := C183_rounded_keff hu0 hu1 h.error hr (one_le_pow₀ hrho1) p norm conv tau htau0 htau1
    htest xsTotal xs fission hc hc1 hcon hf hin h.cells hG phi k psi hk hpair hpos hprod hnorm random hrand
  refine ⟨s, n, h1, h2, h3, fun hlt => (h4 hlt).mono ?_ ?_⟩
  · have : 0 < (1 + tau) / (1 - tau) := div_pos (by linarith) (by linarith)
    have : 0 < rho := by linarith
    have : 0 < r := by linarith
    positivity
  · have b1 := bound_pow hrho0 (mul_nonneg hC0 hu0) (le_of_eq (by rw [hrho]; field_simp)) p.groups
    have b2 := bound_pow hr0 hu0 (le_of_eq (by rw [hr]; field_simp)) (2 * p.cells * p.groups ^ 2 + p.groups + 11)
    have b3 := bound_mul (pow_nonneg hrho0 _) (pow_nonneg hr0 _) (mul_nonneg (Nat.cast_nonneg _) (mul_nonneg hC0 hu0))
      (mul_nonneg (Nat.cast_nonneg _) hu0) b1 b2
    rw [show (p.groups : K) * (C * u) + ((2 * p.cells * p.groups ^ 2 + p.groups + 11 : ℕ) : K) * u = D * u by
      rw [hDC]; ring] at b3
    obtain ⟨t, ht⟩ : ∃ t, t = (1 + tau) / (1 - tau) := ⟨_, rfl⟩
    have ht0 : 0 ≤ t := ht ▸ div_nonneg (by linarith) (by linarith)
    rw [← ht, le_div_iff₀ (by linarith)]
    have := mul_le_mul_of_nonneg_left b3 ht0
    linarith

/-! ### Examples -/

theorem exCritRounded : RoundedDownscatter (toNearest 53) (1 / 2 ^ 53) (1 / 2) exCrit (fun _ _ => 1) exCritDown where
  unit := by positivity
  error := toNearest_error 53
  cells := by show 0 < 1; omega
  fraction0 := by norm_num
  fraction1 := by norm_num
  fine := fun g _ n _ i _ => by simp only [exCrit]; split_ifs <;> norm_num
  down := fun _ g g' h => by simp only [exCritDown]; rw [if_neg (by omega)]

-- C183: in arithmetic with 53 bits, a run of the example of C120 that stops by the tolerance 1/100 returns a keff
-- within 2.1% of the eigenvalue 1
example : ∃ s n, Rounded.powerIteration (toNearest 53) exCrit (fun f => |f 0 0|) (fluxConverged2 1 2 (1 / 100))
      (fun _ _ => 1) exCritDown (.matrix exCritFission) (fun i g => i + g + 1) = .ok (s, n) ∧
    (n < 100 → 979 / 1000 ≤ s.keff ∧ s.keff ≤ 1021 / 1000) := by
  obtain ⟨s, n, h1, _, _, h2⟩ := C183_rounded_keff_downscatter exCrit (fun f => |f 0 0|) (fluxConverged2 1 2 (1 / 100))
    (1 / 100) (by norm_num) (by norm_num) (fun new old h i hi g hg => by
      have := converged2_rel (by norm_num) h i hi g hg
      rw [← mul_pow] at this
      have := sq_le_sq.mp this
      rwa [abs_mul, show |((1 : ℕ) : ℚ) * (1 / 100)| = 1 / 100 by norm_num] at this)
    (fun _ _ => 1) exCritDown (.matrix exCritFission) exCritRounded (by norm_num) (by norm_num)
    exCritDownContractive (fun _ g _ _ _ => by simp only [exCritFission]; split_ifs <;> norm_num)
    (by norm_num [exCrit]) (by norm_num [exCrit, keffCost, sweepCost])
    (fun _ _ => 1) 1 _ (by norm_num) exCritDownPair (fun _ _ _ _ => by norm_num)
    (by norm_num [totalProduction, exCrit, fissionMatrix, exCritFission, sum_range_succ])
    (fun f hf => abs_pos.mpr (hf 0 (by norm_num [exCrit]) 0 (by norm_num [exCrit])).ne') (fun i g => i + g + 1)
    (fun i _ g _ => by positivity)
  refine ⟨s, n, h1, fun hlt => ?_⟩
  have h3 := h2 hlt
  have h4 := h3.2.1
  have h5 := h3.2.2
  norm_num [exCrit, keffCost, sweepCost] at h4 h5
  constructor <;> linarith

-- with 10 groups, 100 cells and 8 directions the roundings cost less than 7e-12 in keff
example : keffCost (1 / 2 : ℚ) 10 100 8 * (1 / 2 ^ 53) < 7 / 10 ^ 12 := by norm_num [keffCost, sweepCost]

-- C184: the inner iterations of that problem
example : ∃ phi o : ℕ → ℕ → ℚ, (∃ psi, SolvesMultigroup exCrit (fun _ _ => 1) exCritDown
      ⟨1, 2, fun _ _ g => (g + 1 : ℕ)⟩ zeroBoundary phi psi) ∧ Rounded.sourceIterationIso (toNearest 53) exCrit (fun _ _ => 1) exCritDown
      ⟨1, 2, fun _ _ g => (g + 1 : ℕ)⟩ zeroBoundary (fun _ _ => 1) = .ok o ∧
    ∀ i < 1, ∀ g < 2, WithinFactor ((1 / (1 - sweepCost (1 / 2) 2 1 2 * (1 / 2 ^ 53))) ^ (g + 1)) (phi i g) (o i g) := by
  obtain ⟨phi, psi, _, hsol⟩ := C22_downscatter_exact exCrit (fun _ _ => 1) exCritDown
    ⟨1, 2, fun _ _ g => (g + 1 : ℕ)⟩ zeroBoundary (fun _ _ => 1) exCritDownContractive.ok exCritRounded.down
  obtain ⟨o, h1, h2⟩ := C184_rounded_downscatter (rnd := toNearest 53) (u := 1 / 2 ^ 53) (th := 1 / 2) (p := exCrit) (external := ⟨1, 2, fun _ _ g => (g + 1 : ℕ)⟩) (boundary := zeroBoundary)
    { unit := exCritRounded.unit, error := exCritRounded.error, cells := exCritRounded.cells,
      fraction0 := exCritRounded.fraction0, fraction1 := exCritRounded.fraction1, ok := exCritDownContractive.ok,
      fine := exCritRounded.fine, xs := exCritDownContractive.nonneg,
      cost := by norm_num [exCrit, sweepCost],
      data := fun g _ => ⟨exCritDownContractive.weights, fun n _ i _ => by simp only [Arr3.group]; positivity,
        fun _ _ _ => le_refl (0 : ℚ), fun _ _ _ => le_refl (0 : ℚ)⟩ }
    exCritDownContractive.fine exCritRounded.down rfl phi psi hsol (fun _ _ => 1) (fun _ _ _ _ => zero_le_one)
  exact ⟨phi, o, ⟨psi, hsol⟩, h1, h2⟩

end Discrete1.Props
