import Verif.Model.Sphere
import Verif.Spec.Sphere
import Verif.Lemmas.Basic
import Verif.Props.Timed
import Mathlib.Tactic.LinearCombination
import Mathlib.Tactic.Positivity
import Mathlib.Tactic.IntervalCases

/-!
# C41, C42, C43, C44, C76: the spherical sweeps
-/

set_option linter.unusedSectionVars false
set_option linter.unusedSimpArgs false

namespace Discrete1.Props

open Finset Discrete1.Tools Discrete1.Spec

variable {K : Type*} [Field K] [LinearOrder K] [IsStrictOrderedRing K]

/-! ## C41: geometry -/

theorem radius_uniform (dx : ℕ → K) (h : K) (N i : ℕ) (hu : ∀ j < N, dx j = h) (hi : i ≤ N) :
    radius dx i = i * h := by
  unfold radius
  rw [sum_congr rfl fun j hj => hu j (lt_of_lt_of_le (mem_range.mp hj) hi)]
  simp

/-- C41 (uniform meshes): the areas and volumes of the sweeps are those of the nested shells whose
face radii are the accumulated cell widths; outer and inner areas of neighbours agree, the volumes are
positive and add up to the volume of the ball. -/
theorem C41_uniform_partial (pi : K) (dx : ℕ → K) (h : K) (N : ℕ) (hpi : 0 < pi) (hh : 0 < h)
    (hu : ∀ j < N, dx j = h) :
    (∀ i < N, Sphere.area1 pi dx i = sphereArea pi (radius dx i) ∧
      Sphere.area2 pi dx i = sphereArea pi (radius dx (i + 1)) ∧
      Sphere.volume pi dx i = ballVolume pi (radius dx (i + 1)) - ballVolume pi (radius dx i) ∧
      0 < Sphere.volume pi dx i) ∧
    (∀ i, i + 1 < N → Sphere.area2 pi dx i = Sphere.area1 pi dx (i + 1)) ∧
    ∑ i ∈ range N, Sphere.volume pi dx i = ballVolume pi (radius dx N) := by
  have hcell : ∀ i < N, Sphere.area1 pi dx i = sphereArea pi (radius dx i) ∧
      Sphere.area2 pi dx i = sphereArea pi (radius dx (i + 1)) ∧
      Sphere.volume pi dx i = ballVolume pi (radius dx (i + 1)) - ballVolume pi (radius dx i) ∧
      0 < Sphere.volume pi dx i := by
    intro i hi
    have h1 := radius_uniform dx h N i hu hi.le
    have h2 := radius_uniform dx h N (i + 1) hu hi
    push_cast at h2
    refine ⟨?_, ?_, ?_, ?_⟩
    · rw [Sphere.area1, sphereArea, h1, hu i hi]
    · rw [Sphere.area2, sphereArea, h2, hu i hi]
    · rw [Sphere.volume, ballVolume, ballVolume, h1, h2, hu i hi]; ring
    · rw [Sphere.volume, hu i hi]
      have hi0 : (0 : K) ≤ i := Nat.cast_nonneg i
      have : ((i : K) + 1) * h * (((i : K) + 1) * h) * (((i : K) + 1) * h) - i * h * (i * h) * (i * h)
          = (3 * i ^ 2 + 3 * i + 1) * h ^ 3 := by ring
      have h3 : (((i : K) + 1) * h) ^ 3 - (i * h) ^ 3 = (3 * i ^ 2 + 3 * i + 1) * h ^ 3 := by ring
      rw [h3]
      positivity
  refine ⟨hcell, fun i hi => ?_, ?_⟩
  · rw [(hcell i (by omega)).2.1, (hcell (i + 1) hi).1]
  · rw [sum_congr rfl fun i hi => (hcell i (mem_range.mp hi)).2.2.1,
      sum_range_sub (fun i => ballVolume pi (radius dx i))]
    simp [radius, ballVolume]

/-- C41 is only true for uniform meshes: with positive widths, the outer area of every cell equals the
inner area of the next one exactly when all widths are equal. -/
theorem C41_consistent_iff_uniform (pi : K) (dx : ℕ → K) (N : ℕ) (hpi : 0 < pi)
    (hdx : ∀ j < N, 0 < dx j) :
    (∀ i, i + 1 < N → Sphere.area2 pi dx i = Sphere.area1 pi dx (i + 1)) ↔
      ∀ i < N, dx i = dx 0 := by
  constructor
  · intro h i
    induction i with
    | zero => intro _; rfl
    | succ i ih =>
      intro hi
      have h1 := h i hi
      rw [Sphere.area2, Sphere.area1] at h1
      have h2 : (((i : K) + 1) * dx i) ^ 2 = (((i + 1 : ℕ) : K) * dx (i + 1)) ^ 2 :=
        mul_left_cancel₀ (by positivity) h1
      have hi0 : (0 : K) < i + 1 := by positivity
      have h3 := hdx i (by omega)
      have h4 := hdx (i + 1) hi
      push_cast at h2
      rw [sq_eq_sq₀ (by positivity) (by positivity)] at h2
      rw [← ih (by omega), mul_left_cancel₀ (ne_of_gt hi0) h2]
  · intro h i hi
    rw [Sphere.area2, Sphere.area1, h i (by omega), h (i + 1) hi]
    push_cast; ring

/-- C41 is refuted on non-uniform meshes: with two cells of widths 1 and 2 the volumes used are 4/3 and
224/3 times pi, not the 4/3 and 104/3 of the shells, and the areas of the common face are 4 and 16. -/
theorem C41_violation : ∃ dx : ℕ → ℚ, (∀ i, 0 < dx i) ∧
    Sphere.area2 1 dx 0 ≠ Sphere.area1 1 dx 1 ∧
    ∑ i ∈ range 2, Sphere.volume 1 dx i ≠ ballVolume 1 (radius dx 2) := by
  refine ⟨fun i => if i = 0 then 1 else 2, fun i => ?_, ?_, ?_⟩
  · dsimp only; split_ifs <;> norm_num
  · norm_num [Sphere.area2, Sphere.area1]
  · norm_num [Sphere.volume, ballVolume, radius, sum_range_succ]

/-- Non-vacuity of `C41_uniform_partial`. -/
example : (∀ j < 3, (fun _ => (1 / 2 : ℚ)) j = 1 / 2) := fun _ _ => rfl

/-! ## C42: angular coefficients -/

theorem muw_sum_zero {A : ℕ} {mu w : ℕ → K} (hq : AscendingQuadrature A mu w) :
    ∑ n ∈ range A, mu n * w n = 0 := by
  have h := sum_range_reflect (fun n => mu n * w n) A
  have h2 : ∑ j ∈ range A, mu (A - 1 - j) * w (A - 1 - j) = -∑ j ∈ range A, mu j * w j := by
    rw [← sum_neg_distrib]
    refine sum_congr rfl fun j hj => ?_
    rw [hq.sym.mirror j (mem_range.mp hj), hq.weightSym j (mem_range.mp hj)]; ring
  linarith [h2.symm.trans h]

theorem alpha_zero (mu w : ℕ → K) : alpha mu w 0 = 0 := by simp [alpha]

theorem alpha_succ (mu w : ℕ → K) (n : ℕ) : alpha mu w (n + 1) = alpha mu w n - mu n * w n := by
  simp only [alpha, sum_range_succ]; ring

theorem alpha_last {A : ℕ} {mu w : ℕ → K} (hq : AscendingQuadrature A mu w) : alpha mu w A = 0 := by
  rw [alpha, muw_sum_zero hq, neg_zero]

theorem alpha_pos {A : ℕ} {mu w : ℕ → K} (hq : AscendingQuadrature A mu w) (n : ℕ) (h0 : 0 < n)
    (hn : n < A) : 0 < alpha mu w n := by
  unfold alpha
  by_cases hmu : mu (n - 1) < 0
  · rw [neg_pos]
    refine sum_neg (fun m hm => ?_) ⟨0, mem_range.mpr h0⟩
    have hm' := mem_range.mp hm
    exact mul_neg_of_neg_of_pos (lt_of_le_of_lt (hq.ascending m (n - 1) (by omega) (by omega)) hmu)
      (hq.weightPos m (by omega))
  · have hpos : 0 < mu (n - 1) :=
      lt_of_le_of_ne (not_lt.mp hmu) (Ne.symm (hq.sym.nonzero (n - 1) (by omega)))
    have h := sum_range_add_sum_Ico (fun m => mu m * w m) hn.le
    rw [muw_sum_zero hq] at h
    have h2 : 0 < ∑ m ∈ Ico n A, mu m * w m := by
      refine sum_pos (fun m hm => ?_) ⟨n, by simp [hn]⟩
      have hm' := mem_Ico.mp hm
      exact mul_pos (lt_of_lt_of_le hpos (hq.ascending (n - 1) m (by omega) hm'.2))
        (hq.weightPos m hm'.2)
    linarith

theorem alpha_nonneg {A : ℕ} {mu w : ℕ → K} (hq : AscendingQuadrature A mu w) (n : ℕ) (hn : n ≤ A) :
    0 ≤ alpha mu w n := by
  by_cases h0 : n = 0
  · rw [h0, alpha_zero]
  · by_cases hA : n = A
    · rw [hA, alpha_last hq]
    · exact (alpha_pos hq n (by omega) (by omega)).le

/-- The corrector computes the next coefficient, also for the last ordinate where it returns 0. -/
theorem corrector_eq {A : ℕ} {mu w : ℕ → K} (hq : AscendingQuadrature A mu w) (n : ℕ) (hn : n < A) :
    Sphere.angleCoefCorrector (alpha mu w n) (mu n) (w n) n A = alpha mu w (n + 1) := by
  unfold Sphere.angleCoefCorrector
  by_cases h : n = A - 1
  · rw [if_neg (by simpa using h)]
    have : n + 1 = A := by omega
    rw [this, alpha_last hq]
  · rw [if_pos h, alpha_succ]

/-! ## One ordinate -/

/-- Hypotheses on mesh and cross sections. -/
structure SphereMesh (N : ℕ) (pi : K) (sigma dx : ℕ → K) : Prop where
  pi_pos : 0 < pi
  dx_pos : ∀ i < N, 0 < dx i
  sigma_nonneg : ∀ i < N, 0 ≤ sigma i

theorem area_diff_pos {N : ℕ} {pi : K} {sigma dx : ℕ → K} (hm : SphereMesh N pi sigma dx) (i : ℕ)
    (hi : i < N) : 0 ≤ Sphere.area1 pi dx i ∧ Sphere.area1 pi dx i < Sphere.area2 pi dx i ∧
      0 < Sphere.volume pi dx i := by
  have h1 := hm.pi_pos
  have h2 := hm.dx_pos i hi
  have hi0 : (0 : K) ≤ i := Nat.cast_nonneg i
  refine ⟨by unfold Sphere.area1; positivity, ?_, ?_⟩
  · rw [← sub_pos]
    have : Sphere.area2 pi dx i - Sphere.area1 pi dx i = 4 * pi * (2 * i + 1) * dx i ^ 2 := by
      unfold Sphere.area1 Sphere.area2; ring
    rw [this]; positivity
  · have : Sphere.volume pi dx i = 4 / 3 * pi * (3 * i ^ 2 + 3 * i + 1) * dx i ^ 3 := by
      unfold Sphere.volume; ring
    rw [this]; positivity

/-- What one directional sweep leaves behind (cell-centre version): the edges `psi`, the centres `c`,
the accumulated flux and the new half-angle array. -/
structure Directed (N : ℕ) (p : Sphere.DirInput K) (flux half : ℕ → K) (s : Sphere.DirState K)
    (psi c : ℕ → K) : Prop where
  diamond : ∀ i < N, psi i + psi (i + 1) = 2 * c i
  flux : ∀ j, s.flux j = flux j + if j < N then p.weight * c j else 0
  half : ∀ j, s.half j =
    if j < N ∧ j ≠ 0 then 1 / p.tau * (c j - (1 - p.tau) * half j) else half j
  psi : ∀ j < N, s.psi j = c j

theorem forward_spec (N : ℕ) (p : Sphere.DirInput K) (flux half : ℕ → K) :
    ∃ psi c : ℕ → K, Directed N p flux half (Sphere.forward N false p flux half) psi c ∧
      psi 0 = half 0 ∧ ∀ i < N, c i = Sphere.centerForward p i (psi i) (half i) := by
  have key : ∀ n, ∃ psi c : ℕ → K, Directed n p flux half
      (loop n (fun ii s => Sphere.cellUpdate p false ii
        (Sphere.centerForward p ii s.edge (s.half ii)) s) ⟨flux, half, fun _ => 0, half 0⟩) psi c ∧
      psi 0 = half 0 ∧ (∀ i < n, c i = Sphere.centerForward p i (psi i) (half i)) ∧
      (loop n (fun ii s => Sphere.cellUpdate p false ii
        (Sphere.centerForward p ii s.edge (s.half ii)) s)
        ⟨flux, half, fun _ => 0, half 0⟩ : Sphere.DirState K).edge = psi n := by
    intro n
    induction n with
    | zero =>
      refine ⟨fun _ => half 0, fun _ => 0, ⟨?_, ?_, ?_, ?_⟩, rfl, ?_, rfl⟩ <;> simp
    | succ n ih =>
      obtain ⟨psi, c, hd, h0, hc, he⟩ := ih
      rw [loop_succ]
      set s := loop n (fun ii s => Sphere.cellUpdate p false ii
        (Sphere.centerForward p ii s.edge (s.half ii)) s)
        (⟨flux, half, fun _ => 0, half 0⟩ : Sphere.DirState K) with hs
      have hhn : s.half n = half n := by rw [hd.half]; simp
      set cn := Sphere.centerForward p n s.edge (s.half n) with hcn
      refine ⟨Function.update psi (n + 1) (2 * cn - psi n), Function.update c n cn,
        ⟨?_, ?_, ?_, ?_⟩, ?_, ?_, ?_⟩
      · intro i hi
        by_cases hin : i = n
        · subst hin
          rw [Function.update_of_ne (by omega), Function.update_self, Function.update_self]; ring
        · rw [Function.update_of_ne (by omega), Function.update_of_ne (by omega),
            Function.update_of_ne hin, hd.diamond i (by omega)]
      · intro j
        simp only [Sphere.cellUpdate, Bool.false_eq_true, if_false]
        rw [addAt_apply, hd.flux]
        by_cases hj : j = n
        · subst hj; simp
        · rw [if_neg hj, Function.update_of_ne hj]
          have : j < n + 1 ↔ j < n := by omega
          simp [this]
      · intro j
        simp only [Sphere.cellUpdate]
        by_cases hj : j = n
        · subst hj
          by_cases hj0 : j = 0
          · subst hj0; simp [hhn]
          · simp [hj0, setAt_self, hhn]
        · have : j < n + 1 ↔ j < n := by omega
          have h1 : (if n ≠ 0 then setAt s.half n (1 / p.tau * (cn - (1 - p.tau) * s.half n))
              else s.half) j = s.half j := by
            split_ifs
            · rw [setAt_of_ne _ _ hj]
            · rfl
          rw [Function.update_of_ne hj, h1, hd.half]
          simp only [this]
      · intro j hj
        simp only [Sphere.cellUpdate, setAt_apply]
        by_cases hjn : j = n
        · subst hjn; simp
        · rw [if_neg hjn, Function.update_of_ne hjn, hd.psi j (by omega)]
      · rw [Function.update_of_ne (by omega), h0]
      · intro i hi
        by_cases hin : i = n
        · subst hin
          rw [Function.update_self, Function.update_of_ne (by omega), hcn, he, hhn]
        · rw [Function.update_of_ne hin, Function.update_of_ne (by omega), hc i (by omega)]
      · simp only [Sphere.cellUpdate, Function.update_self]
        rw [he]
  obtain ⟨psi, c, h1, h2, h3, _⟩ := key N
  exact ⟨psi, c, by simpa [Sphere.forward] using h1, h2, h3⟩

theorem backward_spec (N : ℕ) (p : Sphere.DirInput K) (boundary : K) (flux half : ℕ → K) :
    ∃ psi c : ℕ → K, Directed N p flux half (Sphere.backward N false p boundary flux half) psi c ∧
      psi N = boundary ∧ ∀ i < N, c i = Sphere.centerBackward p i (psi (i + 1)) (half i) := by
  have key : ∀ n (s : Sphere.DirState K), ∃ psi c : ℕ → K, Directed n p s.flux s.half
      (loopDown n (fun ii s => Sphere.cellUpdate p false ii
        (Sphere.centerBackward p ii s.edge (s.half ii)) s) s) psi c ∧
      psi n = s.edge ∧ (∀ i < n, c i = Sphere.centerBackward p i (psi (i + 1)) (s.half i)) ∧
      (∀ j, n ≤ j → (loopDown n (fun ii s => Sphere.cellUpdate p false ii
        (Sphere.centerBackward p ii s.edge (s.half ii)) s) s).psi j = s.psi j) := by
    intro n
    induction n with
    | zero =>
      intro s
      refine ⟨fun _ => s.edge, fun _ => 0, ⟨?_, ?_, ?_, ?_⟩, rfl, ?_, ?_⟩ <;> simp
    | succ n ih =>
      intro s
      rw [loopDown_succ]
      set cn := Sphere.centerBackward p n s.edge (s.half n) with hcn
      set s' := Sphere.cellUpdate p false n cn s with hs'
      obtain ⟨psi, c, hd, h0, hc, hpsi⟩ := ih s'
      have hhalf : ∀ j, j ≠ n → s'.half j = s.half j := by
        intro j hj
        simp only [hs', Sphere.cellUpdate]
        split_ifs
        · rw [setAt_of_ne _ _ hj]
        · rfl
      refine ⟨Function.update psi (n + 1) s.edge, Function.update c n cn,
        ⟨?_, ?_, ?_, ?_⟩, by rw [Function.update_self], ?_, ?_⟩
      · intro i hi
        by_cases hin : i = n
        · subst hin
          rw [Function.update_of_ne (by omega), Function.update_self, Function.update_self, h0]
          simp only [hs', Sphere.cellUpdate]; ring
        · rw [Function.update_of_ne (by omega), Function.update_of_ne (by omega),
            Function.update_of_ne hin, hd.diamond i (by omega)]
      · intro j
        rw [hd.flux]
        simp only [hs', Sphere.cellUpdate, Bool.false_eq_true, if_false]
        rw [addAt_apply]
        by_cases hj : j = n
        · subst hj; simp
        · rw [if_neg hj, Function.update_of_ne hj]
          have : j < n + 1 ↔ j < n := by omega
          simp [this]
      · intro j
        rw [hd.half]
        by_cases hj : j = n
        · subst hj
          by_cases hj0 : j = 0
          · subst hj0; simp [hs', Sphere.cellUpdate]
          · simp [hs', Sphere.cellUpdate, hj0, setAt_self]
        · have : j < n + 1 ↔ j < n := by omega
          rw [Function.update_of_ne hj, hhalf j hj]
          simp only [this]
      · intro j hj
        by_cases hjn : j = n
        · subst hjn
          rw [hpsi j (le_refl _), Function.update_self]
          simp only [hs', Sphere.cellUpdate, setAt_self]
        · rw [Function.update_of_ne hjn, hd.psi j (by omega)]
      · intro i hi
        by_cases hin : i = n
        · subst hin
          rw [Function.update_self, Function.update_self]
        · rw [Function.update_of_ne hin, Function.update_of_ne (by omega), hc i (by omega),
            hhalf i hin]
      · intro j hj
        rw [hpsi j (by omega)]
        simp only [hs', Sphere.cellUpdate]
        rw [setAt_of_ne _ _ (by omega)]
  obtain ⟨psi, c, h1, h2, h3, _⟩ := key N ⟨flux, half, fun _ => 0, boundary⟩
  exact ⟨psi, c, by simpa [Sphere.backward] using h1, h2, h3⟩

/-! ## C44: the cell equation -/

/-- C44 (outward ordinates): the centre flux satisfies the conservation equation of its cell, with the
diamond relations in space and in angle, whatever the edge and half-angle values entering the cell. -/
theorem C44_forward_cell (p : Sphere.DirInput K) (i : ℕ) (e h : K) (hw : p.w ≠ 0)
    (hden : 2 * p.mu * Sphere.area2 p.pi p.dx i
      + 2 / p.w * (Sphere.area2 p.pi p.dx i - Sphere.area1 p.pi p.dx i) * p.alphaPlus
      + p.xsTotal (p.mm i) * Sphere.volume p.pi p.dx i ≠ 0) :
    ∀ c, c = Sphere.centerForward p i e h ↔
    SphereBalance (Sphere.area1 p.pi p.dx i) (Sphere.area2 p.pi p.dx i) (Sphere.volume p.pi p.dx i)
      p.mu p.w p.alphaMinus p.alphaPlus (p.xsTotal (p.mm i)) (p.q i) e (2 * c - e) h (2 * c - h) c := by
  intro c
  unfold SphereBalance Sphere.centerForward
  rw [eq_div_iff hden]
  constructor
  · intro hc
    field_simp at hc ⊢
    linear_combination hc
  · intro hc
    field_simp at hc ⊢
    linear_combination hc

/-- C44 (inward ordinates). -/
theorem C44_backward_cell (p : Sphere.DirInput K) (i : ℕ) (e h : K) (hw : p.w ≠ 0)
    (hden : 2 * -p.mu * Sphere.area1 p.pi p.dx i
      + 2 / p.w * (Sphere.area2 p.pi p.dx i - Sphere.area1 p.pi p.dx i) * p.alphaPlus
      + p.xsTotal (p.mm i) * Sphere.volume p.pi p.dx i ≠ 0) :
    ∀ c, c = Sphere.centerBackward p i e h ↔
    SphereBalance (Sphere.area1 p.pi p.dx i) (Sphere.area2 p.pi p.dx i) (Sphere.volume p.pi p.dx i)
      p.mu p.w p.alphaMinus p.alphaPlus (p.xsTotal (p.mm i)) (p.q i) (2 * c - e) e h (2 * c - h) c := by
  intro c
  unfold SphereBalance Sphere.centerBackward
  rw [eq_div_iff hden]
  constructor
  · intro hc
    field_simp at hc ⊢
    linear_combination hc
  · intro hc
    field_simp at hc ⊢
    linear_combination hc

/-! ## The whole pass -/

theorem halfAngle_spec (N : ℕ) (xsTotal q : ℕ → K) (mm : ℕ → ℕ) (dx : ℕ → K) (b : K)
    (hdx : ∀ i < N, 0 < dx i) (hs : ∀ i < N, 0 ≤ xsTotal (mm i)) :
    ∃ e : ℕ → K, CellBalance N (-1) dx (fun i => xsTotal (mm i)) q e ∧ e N = b ∧
      ∀ i < N, Sphere.halfAngle N xsTotal q mm dx b i = (e i + e (i + 1)) / 2 := by
  have key : ∀ n ≤ N, ∀ (f : ℕ → K) (b : K), ∃ e : ℕ → K,
      CellBalance n (-1) dx (fun i => xsTotal (mm i)) q e ∧ e n = b ∧
      (∀ i < n, (loopDown n (fun ii (s : (ℕ → K) × K) =>
        (setAt s.1 ii ((2 * s.2 + dx ii * q ii) / (2 + xsTotal (mm ii) * dx ii)),
          2 * ((2 * s.2 + dx ii * q ii) / (2 + xsTotal (mm ii) * dx ii)) - s.2)) (f, b)).1 i
        = (e i + e (i + 1)) / 2) ∧
      (∀ i, n ≤ i → (loopDown n (fun ii (s : (ℕ → K) × K) =>
        (setAt s.1 ii ((2 * s.2 + dx ii * q ii) / (2 + xsTotal (mm ii) * dx ii)),
          2 * ((2 * s.2 + dx ii * q ii) / (2 + xsTotal (mm ii) * dx ii)) - s.2)) (f, b)).1 i
        = f i) := by
    intro n
    induction n with
    | zero => intro _ f b; exact ⟨fun _ => b, fun i hi => absurd hi (Nat.not_lt_zero _), rfl,
        fun i hi => absurd hi (Nat.not_lt_zero _), fun i _ => rfl⟩
    | succ n ih =>
      intro hn f b
      rw [loopDown_succ]
      set hv := (2 * b + dx n * q n) / (2 + xsTotal (mm n) * dx n) with hhv
      obtain ⟨e, he, hen, hl, hr⟩ := ih (by omega) (setAt f n hv) (2 * hv - b)
      have hd := hdx n (by omega)
      have hsg := hs n (by omega)
      have hden : 2 + xsTotal (mm n) * dx n ≠ 0 := by positivity
      refine ⟨Function.update e (n + 1) b, fun i hi => ?_, by rw [Function.update_self], fun i hi => ?_,
        fun i hi => ?_⟩
      · by_cases hin : i = n
        · subst hin
          rw [Function.update_self, Function.update_of_ne (by omega), hen]
          have hv2 : hv * (2 + xsTotal (mm i) * dx i) = 2 * b + dx i * q i := by
            rw [hhv]; exact div_mul_cancel₀ _ hden
          field_simp
          linear_combination 2 * hv2
        · rw [Function.update_of_ne (by omega), Function.update_of_ne (by omega)]
          exact he i (by omega)
      · by_cases hin : i = n
        · subst hin
          simp only
          rw [hr i (le_refl _), setAt_self, Function.update_self, Function.update_of_ne (by omega), hen]
          ring
        · rw [Function.update_of_ne (by omega), Function.update_of_ne (by omega)]
          exact hl i (by omega)
      · simp only
        rw [hr i (by omega), setAt_of_ne _ _ (by omega)]
  obtain ⟨e, h1, h2, h3, _⟩ := key N (le_refl _) (fun _ => 0) b
  exact ⟨e, h1, h2, h3⟩

theorem forward_den_pos {N A : ℕ} {pi : K} {sigma dx mu w : ℕ → K} (hm : SphereMesh N pi sigma dx)
    (hq : AscendingQuadrature A mu w) (n : ℕ) (hn : n < A) (hmu : 0 < mu n) (i : ℕ) (hi : i < N) :
    0 < 2 * mu n * Sphere.area2 pi dx i
      + 2 / w n * (Sphere.area2 pi dx i - Sphere.area1 pi dx i) * alpha mu w (n + 1)
      + sigma i * Sphere.volume pi dx i := by
  obtain ⟨h1, h2, h3⟩ := area_diff_pos hm i hi
  have h4 := alpha_nonneg hq (n + 1) hn
  have h5 := hq.weightPos n hn
  have h6 := hm.sigma_nonneg i hi
  have h7 : 0 < Sphere.area2 pi dx i := lt_of_le_of_lt h1 h2
  have h8 : 0 < Sphere.area2 pi dx i - Sphere.area1 pi dx i := sub_pos.mpr h2
  positivity

theorem backward_den_pos {N A : ℕ} {pi : K} {sigma dx mu w : ℕ → K} (hm : SphereMesh N pi sigma dx)
    (hq : AscendingQuadrature A mu w) (n : ℕ) (hn : n < A) (hmu : mu n < 0) (i : ℕ) (hi : i < N) :
    0 < 2 * -mu n * Sphere.area1 pi dx i
      + 2 / w n * (Sphere.area2 pi dx i - Sphere.area1 pi dx i) * alpha mu w (n + 1)
      + sigma i * Sphere.volume pi dx i := by
  obtain ⟨h1, h2, h3⟩ := area_diff_pos hm i hi
  have hne : n + 1 ≠ A := by
    intro h
    have h' := hq.sym.mirror n hn
    have : mu 0 ≤ mu n := hq.ascending 0 n (by omega) hn
    have h0 : A - 1 - n = 0 := by omega
    rw [h0] at h'
    linarith
  have h4 := alpha_pos hq (n + 1) (by omega) (by omega)
  have h5 := hq.weightPos n hn
  have h6 := hm.sigma_nonneg i hi
  have h8 : 0 < Sphere.area2 pi dx i - Sphere.area1 pi dx i := sub_pos.mpr h2
  have h9 : 0 < -mu n := neg_pos.mpr hmu
  positivity

/-- Invariant of the loop over the ordinates. -/
def SphereInv (N : ℕ) (pi : K) (xsTotal : ℕ → K) (q : ℕ → ℕ → K) (inR : ℕ → K)
    (mm : ℕ → ℕ) (dx mu w : ℕ → K) (PW : ℕ → ℕ → K) (half0 : ℕ → K) (k : ℕ)
    (s : Sphere.AngleState K) : Prop :=
    ∃ psi c h : ℕ → ℕ → K,
      (∀ n < k, ∀ i < N, SphereBalance (Sphere.area1 pi dx i) (Sphere.area2 pi dx i)
        (Sphere.volume pi dx i) (mu n) (w n) (alpha mu w n) (alpha mu w (n + 1)) (xsTotal (mm i)) (q n i)
        (psi n i) (psi n (i + 1)) (h n i) (2 * c n i - h n i) (c n i)) ∧
      (∀ n < k, ∀ i < N, psi n i + psi n (i + 1) = 2 * c n i) ∧
      (∀ n < k, mu n < 0 → psi n N = inR n) ∧
      (∀ n < k, 0 < mu n → psi n 0 = h n 0) ∧
      (∀ n < k, ∀ i < N, h (n + 1) i = if i = 0 then h n i else
        (c n i - (1 - (mu n - muEdge w n) / (2 * w n)) * h n i) / ((mu n - muEdge w n) / (2 * w n))) ∧
      h 0 = half0 ∧ h k = s.half ∧ s.angleMinus = muEdge w k ∧ s.alphaMinus = alpha mu w k ∧
      (∀ i < N, s.flux i = ∑ n ∈ range k, w n * c n i) ∧
      (∀ i < N, ∀ l, s.moments i l = ∑ n ∈ range k, c n i * PW l n)

/-- The loop over the ordinates computes a solution of the scheme. -/
theorem angleLoop_scheme (N A : ℕ) (pi : K) (xsTotal : ℕ → K) (q : ℕ → ℕ → K) (inR : ℕ → K)
    (mm : ℕ → ℕ) (dx mu w : ℕ → K) (PW : ℕ → ℕ → K) (q0 : ℕ → K) (b0 : K)
    (hm : SphereMesh N pi (fun i => xsTotal (mm i)) dx) (hq : AscendingQuadrature A mu w) :
    ∃ (s : Sphere.AngleState K) (psi c h : ℕ → ℕ → K) (e0 : ℕ → K),
      Sphere.angleLoop N A pi xsTotal q inR mm dx mu w false PW
        (fun p b f h => Sphere.backward N false p b f h)
        (Sphere.halfAngle N xsTotal q0 mm dx b0) = .ok s ∧
      SphereScheme N A (Sphere.area1 pi dx) (Sphere.area2 pi dx) (Sphere.volume pi dx) mu w
        (fun i => xsTotal (mm i)) dx q q0 b0 inR psi c h e0 ∧
      (∀ i < N, s.flux i = ∑ n ∈ range A, w n * c n i) ∧
      (∀ i < N, ∀ l, s.moments i l = ∑ n ∈ range A, c n i * PW l n) := by
  obtain ⟨e0, he1, he2, he3⟩ := halfAngle_spec N xsTotal q0 mm dx b0 hm.dx_pos hm.sigma_nonneg
  set half0 := Sphere.halfAngle N xsTotal q0 mm dx b0
  have H : ∃ s, Sphere.angleLoop N A pi xsTotal q inR mm dx mu w false PW
        (fun p b f h => Sphere.backward N false p b f h) half0 = .ok s ∧
      SphereInv N pi xsTotal q inR mm dx mu w PW half0 A s := by
    unfold Sphere.angleLoop
    refine loopE_inv (SphereInv N pi xsTotal q inR mm dx mu w PW half0) A _ _
      ⟨fun _ _ => 0, fun _ _ => 0, fun _ => half0, by simp, by simp, by simp, by simp, by simp, rfl, rfl,
        by simp [muEdge], by simp [alpha], by simp, by simp⟩
      (fun k hk s hP => ?_)
    · skip
      obtain ⟨psi, c, h, hbal, hdia, hinw, houtw, hang, hh0, hhk, ha1, ha2, hfl, hmom⟩ := hP
      beta_reduce
      have hcor := corrector_eq hq k hk
      have hwp := hq.weightPos k hk
      have htau : (mu k - s.angleMinus) / (s.angleMinus + 2 * w k - s.angleMinus)
          = (mu k - muEdge w k) / (2 * w k) := by rw [ha1]; ring
      have hedge : s.angleMinus + 2 * w k = muEdge w (k + 1) := by
        rw [ha1]; simp only [muEdge, sum_range_succ]; ring
      simp only [ha2, hcor, htau]
      simp only [hedge]
      set p : Sphere.DirInput K := ⟨pi, xsTotal, q k, mm, dx, mu k, w k, w k,
        (mu k - muEdge w k) / (2 * w k), alpha mu w (k + 1), alpha mu w k⟩ with hp
      -- common packaging
      have pack : ∀ (r : Sphere.DirState K) (ps cs : ℕ → K),
          Directed N p s.flux s.half r ps cs →
          (mu k < 0 → ps N = inR k) → (0 < mu k → ps 0 = s.half 0) →
          (∀ i < N, SphereBalance (Sphere.area1 pi dx i) (Sphere.area2 pi dx i)
            (Sphere.volume pi dx i) (mu k) (w k) (alpha mu w k) (alpha mu w (k + 1)) (xsTotal (mm i))
            (q k i) (ps i) (ps (i + 1)) (s.half i) (2 * cs i - s.half i) (cs i)) →
          ∃ psi c h : ℕ → ℕ → K,
          (∀ n < k + 1, ∀ i < N, SphereBalance (Sphere.area1 pi dx i) (Sphere.area2 pi dx i)
            (Sphere.volume pi dx i) (mu n) (w n) (alpha mu w n) (alpha mu w (n + 1)) (xsTotal (mm i))
            (q n i) (psi n i) (psi n (i + 1)) (h n i) (2 * c n i - h n i) (c n i)) ∧
          (∀ n < k + 1, ∀ i < N, psi n i + psi n (i + 1) = 2 * c n i) ∧
          (∀ n < k + 1, mu n < 0 → psi n N = inR n) ∧
          (∀ n < k + 1, 0 < mu n → psi n 0 = h n 0) ∧
          (∀ n < k + 1, ∀ i < N, h (n + 1) i = if i = 0 then h n i else
            (c n i - (1 - (mu n - muEdge w n) / (2 * w n)) * h n i)
              / ((mu n - muEdge w n) / (2 * w n))) ∧
          h 0 = half0 ∧ h (k + 1) = r.half ∧ muEdge w (k + 1) = muEdge w (k + 1) ∧
          alpha mu w (k + 1) = alpha mu w (k + 1) ∧
          (∀ i < N, r.flux i = ∑ n ∈ range (k + 1), w n * c n i) ∧
          (∀ i < N, ∀ l, s.moments i l + r.psi i * PW l k = ∑ n ∈ range (k + 1), c n i * PW l n) := by
        intro r ps cs hd hin hout hbk
        refine ⟨Function.update psi k ps, Function.update c k cs, Function.update h (k + 1) r.half,
          ?_, ?_, ?_, ?_, ?_, ?_, ?_, rfl, rfl, ?_, ?_⟩
        · intro n hn i hi
          by_cases hnk : n = k
          · subst hnk
            rw [Function.update_self, Function.update_self, Function.update_of_ne (by omega), hhk]
            exact hbk i hi
          · rw [Function.update_of_ne hnk, Function.update_of_ne hnk, Function.update_of_ne (by omega)]
            exact hbal n (by omega) i hi
        · intro n hn i hi
          by_cases hnk : n = k
          · subst hnk
            rw [Function.update_self, Function.update_self]
            exact hd.diamond i hi
          · rw [Function.update_of_ne hnk, Function.update_of_ne hnk]
            exact hdia n (by omega) i hi
        · intro n hn hmn
          by_cases hnk : n = k
          · subst hnk
            rw [Function.update_self]; exact hin hmn
          · rw [Function.update_of_ne hnk]; exact hinw n (by omega) hmn
        · intro n hn hmn
          by_cases hnk : n = k
          · subst hnk
            rw [Function.update_self, Function.update_of_ne (by omega), hhk]; exact hout hmn
          · rw [Function.update_of_ne hnk, Function.update_of_ne (by omega)]
            exact houtw n (by omega) hmn
        · intro n hn i hi
          by_cases hnk : n = k
          · subst hnk
            rw [Function.update_self, Function.update_self, Function.update_of_ne (by omega), hd.half,
              hhk]
            by_cases hi0 : i = 0
            · simp [hi0]
            · rw [if_pos ⟨hi, hi0⟩, if_neg hi0]
              simp only [hp]
              rw [one_div, inv_mul_eq_div]
          · rw [Function.update_of_ne (by omega : n + 1 ≠ k + 1), Function.update_of_ne hnk,
              Function.update_of_ne (by omega : n ≠ k + 1)]
            exact hang n (by omega) i hi
        · rw [Function.update_of_ne (by omega)]; exact hh0
        · rw [Function.update_self]
        · intro i hi
          rw [hd.flux, if_pos hi, sum_range_succ, Function.update_self, hfl i hi]
          congr 1
          refine sum_congr rfl fun n hn => ?_
          rw [Function.update_of_ne (by have := mem_range.mp hn; omega)]
        · intro i hi l
          rw [hd.psi i hi, sum_range_succ, Function.update_self, hmom i hi l]
          congr 1
          refine sum_congr rfl fun n hn => ?_
          rw [Function.update_of_ne (by have := mem_range.mp hn; omega)]
      by_cases hmu : 0 < mu k
      · rw [if_pos hmu]
        obtain ⟨ps, cs, hd, h1, h2⟩ := forward_spec N p s.flux s.half
        refine ⟨_, rfl, ?_⟩
        refine pack _ ps cs hd (fun h => absurd h (not_lt.mpr hmu.le)) (fun _ => h1) fun i hi => ?_
        have h3 := (C44_forward_cell p i (ps i) (s.half i) hwp.ne'
          (forward_den_pos hm hq k hk hmu i hi).ne' (cs i)).mp (h2 i hi)
        have h4 : 2 * cs i - ps i = ps (i + 1) := by rw [← hd.diamond i hi]; ring
        rw [h4] at h3
        exact h3
      · have hmu' : mu k < 0 := lt_of_le_of_ne (not_lt.mp hmu) (hq.sym.nonzero k hk)
        rw [if_neg hmu, if_pos hmu']
        obtain ⟨ps, cs, hd, h1, h2⟩ := backward_spec N p (inR k) s.flux s.half
        refine ⟨_, rfl, ?_⟩
        refine pack _ ps cs hd (fun _ => h1) (fun h => absurd h hmu) fun i hi => ?_
        have h3 := (C44_backward_cell p i (ps (i + 1)) (s.half i) hwp.ne'
          (backward_den_pos hm hq k hk hmu' i hi).ne' (cs i)).mp (h2 i hi)
        have h4 : 2 * cs i - ps (i + 1) = ps i := by rw [← hd.diamond i hi]; ring
        rw [h4] at h3
        exact h3
  obtain ⟨s, hs1, psi, c, h, hbal, hdia, hinw, houtw, hang, hh0, hhA, ha1, ha2, hfl, hmom⟩ := H
  refine ⟨s, psi, c, h, e0, hs1, ⟨he1, he2, fun i hi => ?_, hbal, hdia, hinw, houtw, hang⟩, hfl, hmom⟩
  rw [hh0]; exact he3 i hi

/-- C44: one pass of the spherical isotropic solver succeeds and its flux is the quadrature sum of the
cell averages of a solution of the complete spherical scheme (cell balances of every ordinate, diamond
relations, boundary and starting conditions). -/
theorem C44_sweep (N A : ℕ) (pi : K) (xsTotal xsScatter off : ℕ → K) (external boundary : Arr2 K)
    (mm : ℕ → ℕ) (dx mu w : ℕ → K) (fluxOld : ℕ → K)
    (hm : SphereMesh N pi (fun i => xsTotal (mm i)) dx) (hq : AscendingQuadrature A mu w) :
    ∃ (flux : ℕ → K) (psi c h : ℕ → ℕ → K) (e0 : ℕ → K),
      Sphere.isotropicSweep N A pi xsTotal xsScatter off external boundary mm dx mu w false fluxOld
        = .ok flux ∧
      SphereScheme N A (Sphere.area1 pi dx) (Sphere.area2 pi dx) (Sphere.volume pi dx) mu w
        (fun i => xsTotal (mm i)) dx
        (fun n i => external.val i (if external.angles = 1 then 0 else n) + off i
          + fluxOld i * xsScatter (mm i))
        (fun i => external.val i 0 + off i + xsScatter (mm i) * fluxOld i) (boundary.val 1 0)
        (fun n => boundary.val 1 (if boundary.angles = 1 then 0 else n)) psi c h e0 ∧
      ∀ i < N, flux i = ∑ n ∈ range A, w n * c n i := by
  obtain ⟨s, psi, c, h, e0, h1, h2, h3, _⟩ := angleLoop_scheme N A pi xsTotal
    (fun n i => external.val i (if external.angles = 1 then 0 else n) + off i
          + fluxOld i * xsScatter (mm i))
    (fun n => boundary.val 1 (if boundary.angles = 1 then 0 else n)) mm dx mu w (fun _ _ => 0)
    (fun i => external.val i 0 + off i + xsScatter (mm i) * fluxOld i) (boundary.val 1 0) hm hq
  refine ⟨s.flux, psi, c, h, e0, ?_, h2, h3⟩
  unfold Sphere.isotropicSweep
  simp only [bidx]
  rw [h1]; rfl

/-! ## C42: closure, and the flat flux -/

/-- The angular coefficients as the code produces them: start at 0, one call of the corrector per
ordinate. -/
def codeAlpha (mu w : ℕ → K) (A : ℕ) (n : ℕ) : K :=
  loop n (fun k a => Sphere.angleCoefCorrector a (mu k) (w k) k A) 0

/-- C42: for every symmetric ascending quadrature the coefficients produced by the corrector are
`- sum mu w`: they start at 0, are positive strictly inside, and end at 0, so the redistribution terms
`(alpha_{n+1} x_{n+1} - alpha_n x_n)` telescope to nothing over the ordinates. -/
theorem C42_coefficients {A : ℕ} {mu w : ℕ → K} (hq : AscendingQuadrature A mu w) :
    (∀ n ≤ A, codeAlpha mu w A n = -∑ m ∈ range n, mu m * w m) ∧
    codeAlpha mu w A 0 = 0 ∧ codeAlpha mu w A A = 0 ∧
    (∀ n, 0 < n → n < A → 0 < codeAlpha mu w A n) ∧
    ∀ x : ℕ → K, ∑ n ∈ range A,
      (codeAlpha mu w A (n + 1) * x (n + 1) - codeAlpha mu w A n * x n) = 0 := by
  have h1 : ∀ n ≤ A, codeAlpha mu w A n = alpha mu w n := by
    intro n
    induction n with
    | zero => intro _; rw [alpha_zero]; rfl
    | succ n ih =>
      intro hn
      have := ih (by omega)
      unfold codeAlpha at this ⊢
      rw [loop_succ, this, corrector_eq hq n (by omega)]
  refine ⟨h1, rfl, by rw [h1 A (le_refl _), alpha_last hq],
    fun n h0 hn => by rw [h1 n hn.le]; exact alpha_pos hq n h0 hn, fun x => ?_⟩
  rw [sum_range_sub (fun n => codeAlpha mu w A n * x n), h1 A (le_refl _), alpha_last hq,
    h1 0 (Nat.zero_le _), alpha_zero]
  ring

/-- C42: a constant isotropic flux is reproduced exactly by a pass of the spherical solver on every
mesh (uniform or not): if the total source of each cell is `sigma * k` for every ordinate and the
entering flux is `k`, the returned flux is `k` times the sum of the weights in every cell. -/
theorem C42_flat_flux (N A : ℕ) (pi : K) (xsTotal xsScatter off : ℕ → K) (external boundary : Arr2 K)
    (mm : ℕ → ℕ) (dx mu w : ℕ → K) (fluxOld : ℕ → K) (k : K)
    (hm : SphereMesh N pi (fun i => xsTotal (mm i)) dx) (hq : AscendingQuadrature A mu w)
    (htau : ∀ n < A, mu n ≠ muEdge w n)
    (hsrc : ∀ n < A, ∀ i < N, external.val i (if external.angles = 1 then 0 else n) + off i
      + fluxOld i * xsScatter (mm i) = xsTotal (mm i) * k)
    (hbnd : ∀ n < A, boundary.val 1 (if boundary.angles = 1 then 0 else n) = k)
    (hA : 0 < A) :
    ∃ flux, Sphere.isotropicSweep N A pi xsTotal xsScatter off external boundary mm dx mu w false fluxOld
        = .ok flux ∧ ∀ i < N, flux i = k * ∑ n ∈ range A, w n := by
  obtain ⟨flux, psi, c, h, e0, hrun, hs, hfl⟩ := C44_sweep N A pi xsTotal xsScatter off external
    boundary mm dx mu w fluxOld hm hq
  refine ⟨flux, hrun, fun i hi => ?_⟩
  -- starting direction
  have hb0 : boundary.val 1 0 = k := by
    have := hbnd 0 hA
    simpa using this
  have he0 : ∀ j ≤ N, e0 (N - j) = k := by
    intro j
    induction j with
    | zero => intro _; rw [Nat.sub_zero, hs.startIn, hb0]
    | succ j ih =>
      intro hj
      have h1 := hs.start (N - (j + 1)) (by omega)
      have h2 : N - (j + 1) + 1 = N - j := by omega
      have h3 := hsrc 0 hA (N - (j + 1)) (by omega)
      simp only [ite_self] at h3
      rw [mul_comm] at h3
      rw [h2, ih (by omega)] at h1
      have h4 : external.val (N - (j + 1)) 0 + off (N - (j + 1))
          + xsScatter (mm (N - (j + 1))) * fluxOld (N - (j + 1)) = xsTotal (mm (N - (j + 1))) * k := by
        linear_combination h3
      simp only [h4] at h1
      have hd := hm.dx_pos (N - (j + 1)) (by omega)
      have hsg : 0 ≤ xsTotal (mm (N - (j + 1))) := hm.sigma_nonneg (N - (j + 1)) (by omega)
      set x := e0 (N - (j + 1))
      set sg := xsTotal (mm (N - (j + 1)))
      set d := dx (N - (j + 1))
      field_simp at h1
      have h5 : (x - k) * (2 + sg * d) = 0 := by linear_combination h1
      have h6 : 2 + sg * d ≠ 0 := by positivity
      exact sub_eq_zero.mp ((mul_eq_zero.mp h5).resolve_right h6)
  have hh0 : ∀ i < N, h 0 i = k := by
    intro i hi
    have h1 := he0 (N - i) (by omega)
    have h2 := he0 (N - (i + 1)) (by omega)
    rw [show N - (N - i) = i by omega] at h1
    rw [show N - (N - (i + 1)) = i + 1 by omega] at h2
    rw [hs.startHalf i hi, h1, h2]; ring
  -- one ordinate with flat half angle
  have hone : ∀ n < A, (∀ i < N, h n i = k) → ∀ i < N, c n i = k := by
    intro n hn hh
    have hwp := hq.weightPos n hn
    set p : Sphere.DirInput K := ⟨pi, xsTotal, fun i => external.val i (if external.angles = 1 then 0
      else n) + off i + fluxOld i * xsScatter (mm i), mm, dx, mu n, w n, w n, 0, alpha mu w (n + 1),
      alpha mu w n⟩ with hp
    have hflat : ∀ i < N, SphereBalance (Sphere.area1 pi dx i) (Sphere.area2 pi dx i)
        (Sphere.volume pi dx i) (mu n) (w n) (alpha mu w n) (alpha mu w (n + 1)) (xsTotal (mm i))
        (p.q i) k (2 * k - k) k (2 * k - k) k := by
      intro i hi
      unfold SphereBalance
      simp only [hp]
      rw [hsrc n hn i hi, alpha_succ]
      field_simp
      ring
    have hflat' : ∀ i < N, SphereBalance (Sphere.area1 pi dx i) (Sphere.area2 pi dx i)
        (Sphere.volume pi dx i) (mu n) (w n) (alpha mu w n) (alpha mu w (n + 1)) (xsTotal (mm i))
        (p.q i) (2 * k - k) k k (2 * k - k) k := by
      intro i hi
      have h1 := hflat i hi
      rw [show (2 * k - k : K) = k by ring] at h1 ⊢
      exact h1
    rcases lt_or_gt_of_ne (hq.sym.nonzero n hn) with hmu | hmu
    · have key : ∀ j ≤ N, psi n (N - j) = k ∧ ∀ i < N, N - j ≤ i → c n i = k := by
        intro j
        induction j with
        | zero =>
          intro _
          rw [Nat.sub_zero]
          exact ⟨by rw [hs.inward n hn hmu]; exact hbnd n hn, fun i hi h => absurd hi (by omega)⟩
        | succ j ih =>
          intro hj
          obtain ⟨h1, h2⟩ := ih (by omega)
          set i := N - (j + 1) with hi'
          have hi : i < N := by omega
          have hi1 : N - j = i + 1 := by omega
          rw [hi1] at h1
          have hbal := hs.balance n hn i hi
          have hdia := hs.diamond n hn i hi
          have e1 : psi n i = 2 * c n i - k := by rw [← hdia, h1]; ring
          rw [e1, h1, hh i hi] at hbal
          have h3 := (C44_backward_cell p i k k hwp.ne'
            (backward_den_pos hm hq n hn hmu i hi).ne' (c n i)).mpr hbal
          have h4 := (C44_backward_cell p i k k hwp.ne'
            (backward_den_pos hm hq n hn hmu i hi).ne' k).mpr (hflat' i hi)
          have h5 : c n i = k := h3.trans h4.symm
          refine ⟨by rw [e1, h5]; ring, fun i' hi' hle => ?_⟩
          by_cases hieq : i' = i
          · rw [hieq, h5]
          · exact h2 i' hi' (by omega)
      intro i hi
      exact (key N (le_refl _)).2 i hi (by omega)
    · have key : ∀ i ≤ N, 0 < N → psi n i = k ∧ ∀ j < i, c n j = k := by
        intro i
        induction i with
        | zero =>
          intro _ hN
          exact ⟨by rw [hs.outward n hn hmu, hh 0 hN], fun j hj => absurd hj (Nat.not_lt_zero _)⟩
        | succ i ih =>
          intro hi hN
          obtain ⟨h1, h2⟩ := ih (by omega) hN
          have hbal := hs.balance n hn i (by omega)
          have hdia := hs.diamond n hn i (by omega)
          have e1 : psi n (i + 1) = 2 * c n i - k := by rw [← hdia, h1]; ring
          rw [e1, h1, hh i (by omega)] at hbal
          have h3 := (C44_forward_cell p i k k hwp.ne'
            (forward_den_pos hm hq n hn hmu i (by omega)).ne' (c n i)).mpr hbal
          have h4 := (C44_forward_cell p i k k hwp.ne'
            (forward_den_pos hm hq n hn hmu i (by omega)).ne' k).mpr (hflat i (by omega))
          have h5 : c n i = k := h3.trans h4.symm
          refine ⟨by rw [e1, h5]; ring, fun j hj => ?_⟩
          by_cases hij : j = i
          · rw [hij, h5]
          · exact h2 j (by omega)
      intro i hi
      exact (key N (le_refl _) (by omega)).2 i hi
  have hall : ∀ n ≤ A, ∀ i < N, h n i = k := by
    intro n
    induction n with
    | zero => intro _ i hi; exact hh0 i hi
    | succ n ih =>
      intro hn i hi
      have h1 := ih (by omega)
      have h2 := hone n (by omega) h1 i hi
      rw [hs.angular n (by omega) i hi]
      split_ifs with hi0
      · exact h1 i hi
      · rw [h2, h1 i hi]
        have hw := hq.weightPos n (by omega)
        have ht : (mu n - muEdge w n) / (2 * w n) ≠ 0 :=
          div_ne_zero (sub_ne_zero.mpr (htau n (by omega))) (by positivity)
        rw [div_eq_iff ht]; ring
  rw [hfl i hi, mul_comm k, sum_mul]
  exact sum_congr rfl fun n hn => by
    rw [hone n (mem_range.mp hn) (hall n (mem_range.mp hn).le) i hi]

/-- The symmetric two-point quadrature and a two-cell mesh used in the examples. -/
theorem exSphereQuad : AscendingQuadrature 2 (fun n => if n = 0 then (-1 / 2 : ℚ) else 1 / 2)
    (fun _ => 1 / 2) where
  sym := ⟨fun n hn => by interval_cases n <;> norm_num, fun n hn => by interval_cases n <;> norm_num⟩
  weightSym := fun n hn => rfl
  weightPos := fun n hn => by norm_num
  ascending := fun m n hmn hn => by
    interval_cases n
    · interval_cases m; norm_num
    · interval_cases m <;> norm_num

theorem exSphereMesh (N : ℕ) : SphereMesh N (3 : ℚ) (fun _ => 1) (fun _ => 1) :=
  ⟨by norm_num, fun _ _ => by norm_num, fun _ _ => by norm_num⟩

/-- Non-vacuity of C42/C44: three cells, flat flux 7. -/
example : ∃ flux, Sphere.isotropicSweep 3 2 (3 : ℚ) (fun _ => 1) (fun _ => 1 / 2) (fun _ => 0)
    ⟨1, fun _ _ => 7 / 2⟩ ⟨1, fun _ _ => 7⟩ (fun _ => 0) (fun _ => 1)
    (fun n => if n = 0 then -1 / 2 else 1 / 2) (fun _ => 1 / 2) false (fun _ => 7) = .ok flux ∧
    ∀ i < 3, flux i = 7 * ∑ n ∈ range 2, (1 / 2 : ℚ) :=
  C42_flat_flux 3 2 3 _ _ _ _ _ _ _ _ _ _ 7 (exSphereMesh 3) exSphereQuad
    (fun n hn => by interval_cases n <;> norm_num [muEdge])
    (fun n _ i _ => by norm_num) (fun n _ => rfl) (by norm_num)

/-! ## C76: particle balance of the whole sphere -/

/-- C76: the exact particle balance of a pass of the spherical solver on a uniform mesh.  Leakage through
the outer surface plus collisions equals the source *plus* a defect: the mismatch, weighted by the angular
coefficients, between the angular edge flux `h n` handed to ordinate `n` and the edge flux
`2 c - h` with which ordinate `n - 1` was balanced. -/
theorem C76_balance_with_defect {N A : ℕ} {pi : K} {sigma dx mu w : ℕ → K} {q : ℕ → ℕ → K} {q0 : ℕ → K}
    {b0 : K} {inR : ℕ → K} {psi c h : ℕ → ℕ → K} {e0 : ℕ → K} (hN : 0 < N)
    (hu : ∀ i < N, dx i = dx 0) (hq : AscendingQuadrature A mu w)
    (hs : SphereScheme N A (Sphere.area1 pi dx) (Sphere.area2 pi dx) (Sphere.volume pi dx) mu w
      sigma dx q q0 b0 inR psi c h e0) :
    sphereArea pi (radius dx N) * ∑ n ∈ range A, w n * mu n * psi n N
      + ∑ i ∈ range N, Sphere.volume pi dx i * (sigma i * ∑ n ∈ range A, w n * c n i)
    = ∑ i ∈ range N, Sphere.volume pi dx i * ∑ n ∈ range A, w n * q n i
      + ∑ i ∈ range N, (Sphere.area2 pi dx i - Sphere.area1 pi dx i) *
        ∑ n ∈ range (A - 1), alpha mu w (n + 1) * (h (n + 1) i - (2 * c n i - h n i)) := by
  -- areas on the uniform mesh
  set area : ℕ → K := fun i => 4 * pi * ((i : K) * dx 0) ^ 2 with harea
  have ha1 : ∀ i < N, Sphere.area1 pi dx i = area i := fun i hi => by
    simp only [harea, Sphere.area1]; rw [hu i hi]
  have ha2 : ∀ i < N, Sphere.area2 pi dx i = area (i + 1) := fun i hi => by
    simp only [harea, Sphere.area2]; rw [hu i hi]; push_cast; rfl
  have hrad : sphereArea pi (radius dx N) = area N := by
    rw [radius_uniform dx (dx 0) N N hu (le_refl _)]; rfl
  -- angular telescoping
  have htel : ∀ i, ∑ n ∈ range A, (alpha mu w (n + 1) * (2 * c n i - h n i) - alpha mu w n * h n i)
      = -∑ n ∈ range (A - 1), alpha mu w (n + 1) * (h (n + 1) i - (2 * c n i - h n i)) := by
    intro i
    cases A with
    | zero => simp
    | succ A =>
      have e1 : ∑ n ∈ range (A + 1), alpha mu w (n + 1) * (2 * c n i - h n i)
          = ∑ n ∈ range A, alpha mu w (n + 1) * (2 * c n i - h n i) := by
        rw [sum_range_succ, alpha_last hq, zero_mul, add_zero]
      have e2 : ∑ n ∈ range (A + 1), alpha mu w n * h n i
          = ∑ n ∈ range A, alpha mu w (n + 1) * h (n + 1) i := by
        rw [sum_range_succ', alpha_zero, zero_mul, add_zero]
      rw [sum_sub_distrib, e1, e2, Nat.add_sub_cancel, ← sum_sub_distrib, ← sum_neg_distrib]
      exact sum_congr rfl fun n _ => by ring
  -- one cell, all ordinates
  have hcell : ∀ i < N,
      (∑ n ∈ range A, w n * mu n * (area (i + 1) * psi n (i + 1) - area i * psi n i))
        + (Sphere.area2 pi dx i - Sphere.area1 pi dx i) * ∑ n ∈ range A,
          (alpha mu w (n + 1) * (2 * c n i - h n i) - alpha mu w n * h n i)
        + Sphere.volume pi dx i * (sigma i * ∑ n ∈ range A, w n * c n i)
      = Sphere.volume pi dx i * ∑ n ∈ range A, w n * q n i := by
    intro i hi
    simp only [mul_sum]
    rw [← sum_add_distrib, ← sum_add_distrib]
    refine sum_congr rfl fun n hn => ?_
    have hb := hs.balance n (mem_range.mp hn) i hi
    have hw := hq.weightPos n (mem_range.mp hn)
    unfold SphereBalance at hb
    rw [ha1 i hi, ha2 i hi] at hb ⊢
    field_simp at hb
    linear_combination hb
  have hsum := sum_congr (rfl : range N = range N) fun i hi => hcell i (mem_range.mp hi)
  simp only [sum_add_distrib] at hsum
  have hstream : ∑ i ∈ range N, ∑ n ∈ range A,
      w n * mu n * (area (i + 1) * psi n (i + 1) - area i * psi n i)
      = area N * ∑ n ∈ range A, w n * mu n * psi n N := by
    rw [sum_comm, mul_sum]
    refine sum_congr rfl fun n _ => ?_
    rw [← mul_sum, sum_range_sub (fun i => area i * psi n i)]
    simp only [harea, Nat.cast_zero]; ring
  rw [hstream] at hsum
  rw [hrad, ← hsum]
  simp only [htel]
  simp only [mul_neg, sum_neg_distrib]
  ring


/-- C76 (conditional): the balance is exact when every ordinate is handed the angular edge flux its
predecessor was balanced with. -/
theorem C76_balance_if_diamond_partial {N A : ℕ} {pi : K} {sigma dx mu w : ℕ → K} {q : ℕ → ℕ → K}
    {q0 : ℕ → K} {b0 : K} {inR : ℕ → K} {psi c h : ℕ → ℕ → K} {e0 : ℕ → K} (hN : 0 < N)
    (hu : ∀ i < N, dx i = dx 0) (hq : AscendingQuadrature A mu w)
    (hs : SphereScheme N A (Sphere.area1 pi dx) (Sphere.area2 pi dx) (Sphere.volume pi dx) mu w
      sigma dx q q0 b0 inR psi c h e0)
    (hh : ∀ n, n + 1 < A → ∀ i < N, h (n + 1) i = 2 * c n i - h n i) :
    sphereArea pi (radius dx N) * ∑ n ∈ range A, w n * mu n * psi n N
      + ∑ i ∈ range N, Sphere.volume pi dx i * (sigma i * ∑ n ∈ range A, w n * c n i)
    = ∑ i ∈ range N, Sphere.volume pi dx i * ∑ n ∈ range A, w n * q n i := by
  rw [C76_balance_with_defect hN hu hq hs]
  have : ∑ i ∈ range N, (Sphere.area2 pi dx i - Sphere.area1 pi dx i) *
        ∑ n ∈ range (A - 1), alpha mu w (n + 1) * (h (n + 1) i - (2 * c n i - h n i)) = 0 := by
    refine sum_eq_zero fun i hi => ?_
    rw [sum_eq_zero, mul_zero]
    intro n hn
    rw [hh n (by have := mem_range.mp hn; omega) i (mem_range.mp hi), sub_self, mul_zero]
  rw [this, add_zero]

/-- C44/C76: away from the central cell the stored angular edge flux is the diamond one of the cell
equation exactly when the ordinate is the midpoint of its angular interval or the flux is flat there. -/
theorem C44_stored_edge_iff {N A : ℕ} {A1 A2 V mu w sigma dx : ℕ → K} {q : ℕ → ℕ → K} {q0 : ℕ → K}
    {b0 : K} {inR : ℕ → K} {psi c h : ℕ → ℕ → K} {e0 : ℕ → K}
    (hs : SphereScheme N A A1 A2 V mu w sigma dx q q0 b0 inR psi c h e0) (n : ℕ) (hn : n < A)
    (hw : 0 < w n) (htau : mu n ≠ muEdge w n) (i : ℕ) (hi : i < N) :
    h (n + 1) i = 2 * c n i - h n i ↔
      (i ≠ 0 ∧ mu n = (muEdge w n + muEdge w (n + 1)) / 2) ∨ c n i = h n i := by
  have hM : muEdge w (n + 1) = muEdge w n + 2 * w n := by
    simp only [muEdge, sum_range_succ]; ring
  rw [hs.angular n hn i hi, hM]
  have ht : mu n - muEdge w n ≠ 0 := sub_ne_zero.mpr htau
  split_ifs with h0
  · subst h0
    constructor
    · intro hc; right; linarith
    · rintro (⟨h1, _⟩ | h1)
      · exact absurd rfl h1
      · rw [h1]; ring
  · rw [div_eq_iff (div_ne_zero ht (by positivity))]
    have key : (c n i - (1 - (mu n - muEdge w n) / (2 * w n)) * h n i
        = (2 * c n i - h n i) * ((mu n - muEdge w n) / (2 * w n))) ↔
        (c n i - h n i) * (w n - (mu n - muEdge w n)) = 0 := by
      constructor
      · intro hc
        field_simp at hc
        linear_combination hc / 2
      · intro hc
        field_simp
        linear_combination 2 * hc
    rw [key, mul_eq_zero]
    constructor
    · rintro (h1 | h1)
      · right; linarith
      · left; exact ⟨h0, by linarith⟩
    · rintro (⟨_, h1⟩ | h1)
      · right; linarith
      · left; linarith

/-- C44/C76 (violation): a bare sphere with one cell, two ordinates, `pi = 1`, unit total cross section
and unit source.  The pass returns the flux 7/16; for *every* choice of edge values completing it to a
solution of the scheme, leakage plus collisions (5/4) differs from the source (4/3). -/
theorem C76_violation :
    ∃ (flux : ℕ → ℚ) (psi c h : ℕ → ℕ → ℚ) (e0 : ℕ → ℚ),
      Sphere.isotropicSweep 1 2 1 (fun _ => 1) (fun _ => 0) (fun _ => 0) ⟨1, fun _ _ => 1⟩
        ⟨1, fun _ _ => 0⟩ (fun _ => 0) (fun _ => 1) (fun n => if n = 0 then -1 / 2 else 1 / 2)
        (fun _ => 1 / 2) false (fun _ => 0) = .ok flux ∧ flux 0 = 7 / 16 ∧
      SphereScheme 1 2 (Sphere.area1 1 fun _ => 1) (Sphere.area2 1 fun _ => 1)
        (Sphere.volume 1 fun _ => 1) (fun n => if n = 0 then -1 / 2 else 1 / 2) (fun _ => 1 / 2)
        (fun _ => 1) (fun _ => 1) (fun _ _ => 1) (fun _ => 1) 0 (fun _ => 0) psi c h e0 ∧
      sphereArea 1 (radius (fun _ => (1 : ℚ)) 1)
          * ∑ n ∈ range 2, 1 / 2 * (if n = 0 then -1 / 2 else 1 / 2) * psi n 1
        + ∑ i ∈ range 1, Sphere.volume 1 (fun _ => 1) i * (1 * ∑ n ∈ range 2, 1 / 2 * c n i) = 5 / 4 ∧
      ∑ i ∈ range 1, Sphere.volume 1 (fun _ => (1 : ℚ)) i * ∑ n ∈ range 2, 1 / 2 * (1 : ℚ) = 4 / 3 := by
  obtain ⟨flux, psi, c, h, e0, hrun, hs, hfl⟩ := C44_sweep 1 2 (1 : ℚ) (fun _ => 1) (fun _ => 0)
    (fun _ => 0) ⟨1, fun _ _ => 1⟩ ⟨1, fun _ _ => 0⟩ (fun _ => 0) (fun _ => 1)
    (fun n => if n = 0 then -1 / 2 else 1 / 2) (fun _ => 1 / 2) (fun _ => 0)
    ⟨by norm_num, fun _ _ => by norm_num, fun _ _ => by norm_num⟩ exSphereQuad
  have hs' : SphereScheme 1 2 (Sphere.area1 1 fun _ => 1) (Sphere.area2 1 fun _ => 1)
        (Sphere.volume 1 fun _ => 1) (fun n => if n = 0 then -1 / 2 else 1 / 2) (fun _ => 1 / 2)
        (fun _ => 1) (fun _ => 1) (fun _ _ => 1) (fun _ => 1) (0 : ℚ) (fun _ => 0) psi c h e0 := by
    simpa using hs
  have h0 : e0 1 = 0 := hs'.startIn
  have h1 := hs'.start 0 (by norm_num)
  have h2 := hs'.startHalf 0 (by norm_num)
  have h3 := hs'.inward 0 (by norm_num) (by norm_num)
  have h4 := hs'.outward 1 (by norm_num) (by norm_num)
  have h5 := hs'.angular 0 (by norm_num) 0 (by norm_num)
  have h6 := hs'.diamond 0 (by norm_num) 0 (by norm_num)
  have h7 := hs'.diamond 1 (by norm_num) 0 (by norm_num)
  have h8 := hs'.balance 0 (by norm_num) 0 (by norm_num)
  have h9 := hs'.balance 1 (by norm_num) 0 (by norm_num)
  norm_num [h0] at h1
  norm_num [h0] at h2
  norm_num at h4
  norm_num at h5
  norm_num at h6 h7
  norm_num [SphereBalance, Sphere.area1, Sphere.area2, Sphere.volume, alpha, sum_range_succ, h3] at h8
  norm_num [SphereBalance, Sphere.area1, Sphere.area2, Sphere.volume, alpha, sum_range_succ] at h9
  have k0 : e0 0 = 2 / 3 := by linarith
  have k1 : h 0 0 = 1 / 3 := by rw [h2, k0]; norm_num
  have k2 : c 0 0 = 3 / 8 := by rw [k1] at h8; linarith
  have k3 : psi 1 0 = 1 / 3 := by rw [h4, h5, k1]
  have k5 : psi 1 1 = 2 * c 1 0 - 1 / 3 := by linarith
  have k6 : c 1 0 = 1 / 2 := by
    rw [h5, k1, k5] at h9; linarith
  have k4 : psi 1 1 = 2 / 3 := by rw [k5, k6]; norm_num
  refine ⟨flux, psi, c, h, e0, hrun, ?_, hs', ?_, ?_⟩
  · rw [hfl 0 (by norm_num)]
    norm_num [sum_range_succ, k2, k6]
  · norm_num [sum_range_succ, k2, k6, k4, h3, sphereArea, radius, Sphere.volume]
  · norm_num [sum_range_succ, Sphere.volume]

/-! ## C43: known-source problems in a sphere -/

open Discrete1.MultiGroup Discrete1.Drivers

theorem sphere_known_error (A : ℕ) (mu : ℕ → K) (n : ℕ) (hn : n < A) (h0 : mu n ≠ 0) :
    Sphere.knownSourceSn A mu = .error .indexError := by
  have key : loopE A (fun nn (_ : Unit) =>
    if 0 < mu nn then Sphere.indexAxes Sphere.knownSourceFluxNdim 2
    else if mu nn < 0 then Sphere.indexAxes Sphere.knownSourceFluxNdim 2
    else .ok ()) () = .error .indexError := by
    apply Slab.loopE_error _ _ _ _ _ n hn
    · intro s
      rcases lt_or_gt_of_ne h0 with h | h
      · rw [if_neg (not_lt.mpr h.le), if_pos h]; rfl
      · rw [if_pos h]; rfl
    · intro i _ s e' h
      split at h
      · cases h; rfl
      · split at h
        · cases h; rfl
        · cases h
  unfold Sphere.knownSourceSn
  rw [key]; rfl

/-- C43 (violation): with `geometry=2`, `known_source_angular` and `known_source_scalar` raise
IndexError for every problem that has a group and a nonzero ordinate, with or without edges. -/
theorem C43_violation_known_source (p : Problem K) (xsTotal : ℕ → ℕ → K) (source boundary : Arr3 K)
    (edges : Bool) (hgeo : p.geometry = 2) (hG : 0 < source.groups)
    (n : ℕ) (hn : n < p.angles) (h0 : p.angleX n ≠ 0) :
    knownSourceAngular p xsTotal source boundary edges = .error .indexError ∧
    knownSourceScalar p xsTotal source boundary edges = .error .indexError := by
  have hl : loopE source.groups (fun _ (_ : ℕ → K) => Sphere.knownSourceSn p.angles p.angleX)
      (fun _ => 0) = .error .indexError :=
    groupLoop_error _ hG _ _ _ fun _ _ => sphere_known_error _ _ n hn h0
  unfold knownSourceAngular knownSourceScalar
  rw [hgeo, if_neg (by norm_num), if_pos rfl, if_neg (by norm_num), if_pos rfl, hl]
  exact ⟨rfl, rfl⟩

theorem timedSolve_sphere_fails (p : Problem K) (xsV : ℕ → ℕ → K) (xs : Scatter K)
    (q : ℕ → ℕ → ℕ → K) (bnd : Arr3 K) (fluxOld : ℕ → ℕ → K) (hgeo : p.geometry = 2)
    (hG : 0 < p.groups) (n : ℕ) (hn : n < p.angles) (h0 : p.angleX n ≠ 0) :
    ∃ e, timedSolve p xsV xs q bnd fluxOld = .error e := by
  unfold timedSolve
  cases hsi : sourceIteration p xsV xs (fullArr p q) bnd fluxOld with
  | error e => exact ⟨e, rfl⟩
  | ok flux =>
    cases xs with
    | aniso L xs => exact ⟨_, rfl⟩
    | iso xs =>
      refine ⟨.indexError, ?_⟩
      simp only
      rw [(C43_violation_known_source p xsV (fullArr p (timeRightSide p.groups q flux xs p.mm)) bnd
        false hgeo hG n hn h0).1]

theorem loopE_first_fails {σ ε : Type*} (n : ℕ) (hn : 0 < n) (f : ℕ → σ → Except ε σ) (s : σ)
    (h : ∃ e, f 0 s = .error e) : ∃ e, loopE n f s = .error e := by
  induction n with
  | zero => omega
  | succ n ih =>
    rw [loopE_succ]
    cases n with
    | zero => simpa using h
    | succ n =>
      obtain ⟨e, he⟩ := ih (by omega)
      rw [he]; exact ⟨e, rfl⟩

/-- C43 (violation): consequently no spherical time-dependent calculation of at least one step returns
(`timed1d.backward_euler` and `timed1d.bdf2`), and `fixed1d.source_iteration` never returns an angular
flux or edge values for a sphere. -/
theorem C43_violation_drivers (p : Problem K) (xsTotal : ℕ → ℕ → K) (scatter : Scatter K)
    (fission : Fission K) (velocity : ℕ → K) (external boundary : TimeArr K) (ext bnd : Arr3 K)
    (steps : ℕ) (dt : K) (init : ℕ → ℕ → ℕ → K) (angular edges : Bool) (hgeo : p.geometry = 2)
    (hG : 0 < p.groups) (n : ℕ) (hn : n < p.angles) (h0 : p.angleX n ≠ 0) (hsteps : 0 < steps)
    (hout : angular = true ∨ edges = true) :
    (∃ e, backwardEuler p xsTotal scatter fission velocity external boundary steps dt init = .error e) ∧
    (∃ e, bdf2 p xsTotal scatter fission velocity external boundary steps dt init = .error e) ∧
    (∃ e, fixedSourceIteration p xsTotal scatter fission ext bnd angular edges = .error e) := by
  refine ⟨?_, ?_, ?_⟩
  · unfold backwardEuler
    obtain ⟨e, he⟩ := loopE_first_fails steps hsteps
      (beStep p xsTotal (transferMatrix scatter fission) velocity external boundary dt)
      ⟨scalarFlux p init, init, fun _ _ _ => 0⟩ (by
        unfold beStep
        cases external.get 0 with
        | error e => exact ⟨e, rfl⟩
        | ok x =>
          cases boundary.get 0 with
          | error e => exact ⟨e, rfl⟩
          | ok y =>
            obtain ⟨e, he⟩ := timedSolve_sphere_fails p (xsStar xsTotal 1 velocity dt)
              (transferMatrix scatter fission) (qStar1 x velocity dt init) y (scalarFlux p init)
              hgeo hG n hn h0
            exact ⟨e, by simp only; rw [he]⟩)
    rw [he]; exact ⟨e, rfl⟩
  · unfold bdf2
    obtain ⟨e, he⟩ := loopE_first_fails steps hsteps
      (bdfStep p xsTotal (transferMatrix scatter fission) velocity external boundary dt)
      ⟨scalarFlux p init, init, fun _ _ _ => 0, xsStar xsTotal 1 velocity dt, fun _ _ _ => 0⟩ (by
        unfold bdfStep
        cases external.get 0 with
        | error e => exact ⟨e, rfl⟩
        | ok x =>
          cases boundary.get 0 with
          | error e => exact ⟨e, rfl⟩
          | ok y =>
            obtain ⟨e, he⟩ := timedSolve_sphere_fails p (xsStar xsTotal 1 velocity dt)
              (transferMatrix scatter fission) (qStar1 x velocity dt init) y (scalarFlux p init)
              hgeo hG n hn h0
            exact ⟨e, by simp only [if_true]; rw [he]⟩)
    rw [he]; exact ⟨e, rfl⟩
  · unfold fixedSourceIteration
    simp only
    cases sourceIteration p xsTotal (transferMatrix scatter fission) ext bnd fun _ _ => 0 with
    | error e => exact ⟨e, rfl⟩
    | ok flux =>
      have hne : ¬ (angular = false ∧ edges = false) := by
        rcases hout with h | h <;> simp [h]
      simp only [hne, if_false]
      unfold knownSourceCalculation
      cases transferMatrix scatter fission with
      | aniso L xs => exact ⟨_, rfl⟩
      | iso xs =>
        simp only
        obtain ⟨h1, h2⟩ := C43_violation_known_source p xsTotal
          (⟨p.angles, p.groups, sourceTotal p.groups flux xs p.mm ext⟩ : Arr3 K) bnd edges hgeo hG n hn h0
        rw [h1, h2]
        split_ifs
        · exact ⟨_, rfl⟩
        · exact ⟨_, rfl⟩

/-- Non-vacuity of C43: a one-group sphere with two ordinates. -/
example : ({ exProblem with geometry := 2 } : Problem ℚ).geometry = 2 ∧
    0 < exProblem.groups ∧ 0 < exProblem.angles ∧ exProblem.angleX 0 ≠ 0 := by
  refine ⟨rfl, by decide, by decide, by norm_num [exProblem]⟩

end Discrete1.Props
