import Verif.Props.Sphere
import Verif.Props.Geometry

/-!
# C188: non-negative fluxes in spheres
-/

set_option linter.unusedSectionVars false
set_option linter.unusedSimpArgs false

namespace Discrete1.Props

open Finset Discrete1.Spec Discrete1.Tools Discrete1.MultiGroup Discrete1.Drivers

section General

variable {K : Type} [Field K] [LinearOrder K] [IsStrictOrderedRing K]

/-- Four equally weighted ordinates. -/
def fourMu (K : Type) [Field K] (n : ℕ) : K :=
  if n = 0 then -3 / 4 else if n = 1 then -1 / 4 else if n = 2 then 1 / 4 else 3 / 4

theorem fourQuad : AscendingQuadrature 4 (fourMu K) (fun _ => (1 / 4 : K)) where
  sym := ⟨fun n hn => by
    have : n = 0 ∨ n = 1 ∨ n = 2 ∨ n = 3 := by omega
    rcases this with rfl | rfl | rfl | rfl <;> norm_num [fourMu], fun n hn => by
    have : n = 0 ∨ n = 1 ∨ n = 2 ∨ n = 3 := by omega
    rcases this with rfl | rfl | rfl | rfl <;> norm_num [fourMu]⟩
  weightSym := fun _ _ => rfl
  weightPos := fun _ _ => by norm_num
  ascending := fun m n hmn hn => by
    have h1 : n = 0 ∨ n = 1 ∨ n = 2 ∨ n = 3 := by omega
    have h2 : m = 0 ∨ m = 1 ∨ m = 2 ∨ m = 3 := by omega
    rcases h1 with rfl | rfl | rfl | rfl <;> rcases h2 with rfl | rfl | rfl | rfl <;>
      first | omega | norm_num [fourMu]

/-- One pass over an empty sphere of two shells of width `d`; one unit enters along the second inward ordinate. -/
theorem void_sphere_sweep (pi d : K) (hpi : 0 < pi) (hd : 0 < d) (old : ℕ → K) :
    ∃ flux : ℕ → K, Sphere.isotropicSweep 2 4 pi (fun _ => 0) (fun _ => 0) (fun _ => 0) ⟨1, fun _ _ => 0⟩
        ⟨4, fun _ n => if n = 1 then 1 else 0⟩ (fun _ => 0) (fun _ => d) (fourMu K) (fun _ => 1 / 4) false old
        = .ok flux ∧ flux 0 = -1 / 52 := by
  obtain ⟨flux, psi, c, h, e0, hrun, hs, hfl⟩ := C44_sweep 2 4 pi (fun _ => 0) (fun _ => 0)
    (fun _ => 0) ⟨1, fun _ _ => 0⟩ ⟨4, fun _ n => if n = 1 then 1 else 0⟩ (fun _ => 0) (fun _ => d)
    (fourMu K) (fun _ => 1 / 4) old ⟨hpi, fun _ _ => hd, fun _ _ => le_rfl⟩ fourQuad
  refine ⟨flux, hrun, ?_⟩
  have hd' := hd.ne'
  have hne : pi * d ^ 2 ≠ 0 := (mul_pos hpi (pow_pos hd 2)).ne'
  have cancel : ∀ x : K, pi * d ^ 2 * x = 0 → x = 0 := fun x hx => (mul_eq_zero.mp hx).resolve_left hne
  have a : e0 2 = 0 := by have := hs.startIn; simpa using this
  have b1 : e0 1 = 0 := by
    have := hs.start 1 (by norm_num)
    simp [a] at this
    exact this.resolve_right hd'
  have b0 : e0 0 = 0 := by
    have := hs.start 0 (by norm_num)
    simp [b1] at this
    exact this.resolve_right hd'
  have h00 : h 0 0 = 0 := by rw [hs.startHalf 0 (by norm_num), b0, b1]; norm_num
  have h01 : h 0 1 = 0 := by rw [hs.startHalf 1 (by norm_num), b1, a]; norm_num
  have m0 : fourMu K 0 = -3 / 4 := by norm_num [fourMu]
  have m1 : fourMu K 1 = -1 / 4 := by norm_num [fourMu]
  have m2 : fourMu K 2 = 1 / 4 := by norm_num [fourMu]
  have m3 : fourMu K 3 = 3 / 4 := by norm_num [fourMu]
  have al : ∀ n, alpha (fourMu K) (fun _ => 1 / 4) n = -∑ m ∈ range n, fourMu K m * (1 / 4) := fun _ => rfl
  have cell : ∀ n : ℕ, n < 4 → ∀ i : ℕ, i < 2 → fourMu K n * (((i : K) + 1) ^ 2 * psi n (i + 1) - (i : K) ^ 2 * psi n i)
      + (((i : K) + 1) ^ 2 - (i : K) ^ 2) * 4 * (alpha (fourMu K) (fun _ => 1 / 4) (n + 1) * (2 * c n i - h n i)
        - alpha (fourMu K) (fun _ => 1 / 4) n * h n i) = 0 := by
    intro n hn i hi
    have := hs.balance n hn i hi
    unfold SphereBalance Sphere.area1 Sphere.area2 at this
    refine cancel _ ?_
    simp only [zero_mul, add_zero, mul_zero, ite_self] at this
    linear_combination this / 4
  have dia : ∀ n : ℕ, n < 4 → ∀ i : ℕ, i < 2 → psi n i = 2 * c n i - psi n (i + 1) := fun n hn i hi => by
    linear_combination hs.diamond n hn i hi
  -- the first ordinate
  have p02 : psi 0 2 = 0 := by
    have := hs.inward 0 (by norm_num) (by rw [m0]; norm_num); simpa using this
  have c01 : c 0 1 = 0 := by
    have := cell 0 (by norm_num) 1 (by norm_num)
    rw [dia 0 (by norm_num) 1 (by norm_num), p02, h01, al, al, m0] at this
    simp only [zero_add, sum_range_succ, sum_range_zero, m0] at this
    norm_num at this
    linarith
  have h11 : h 1 1 = 0 := by
    have := hs.angular 0 (by norm_num) 1 (by norm_num)
    rw [if_neg one_ne_zero, c01, h01] at this
    simpa using this
  have h10 : h 1 0 = 0 := by
    have := hs.angular 0 (by norm_num) 0 (by norm_num)
    rw [if_pos rfl, h00] at this
    exact this
  have p01 : psi 0 1 = 0 := by
    have := dia 0 (by norm_num) 1 (by norm_num)
    rw [c01, p02] at this
    simpa using this
  have c00 : c 0 0 = 0 := by
    have := cell 0 (by norm_num) 0 (by norm_num)
    rw [show (0 + 1 : ℕ) = 1 from rfl, p01, h00, al, al, m0] at this
    simp only [sum_range_succ, sum_range_zero, m0] at this
    norm_num at this
    exact this
  -- the second one
  have p12 : psi 1 2 = 1 := by
    have := hs.inward 1 (by norm_num) (by rw [m1]; norm_num); simpa using this
  have c11 : c 1 1 = 5 / 26 := by
    have := cell 1 (by norm_num) 1 (by norm_num)
    rw [dia 1 (by norm_num) 1 (by norm_num), p12, h11, al, al, m1] at this
    simp only [sum_range_succ, sum_range_zero, m0, m1] at this
    norm_num at this
    linarith
  have p11 : psi 1 1 = -8 / 13 := by
    have := dia 1 (by norm_num) 1 (by norm_num)
    rw [c11, p12] at this
    rw [this]; norm_num
  have c10 : c 1 0 = -1 / 13 := by
    have := cell 1 (by norm_num) 0 (by norm_num)
    rw [show (0 + 1 : ℕ) = 1 from rfl, p11, h10, al, al, m1] at this
    simp only [sum_range_succ, sum_range_zero, m0, m1] at this
    norm_num at this
    linarith
  -- the outward ones start from the centre, where nothing arrives
  have h20 : h 2 0 = 0 := by
    have := hs.angular 1 (by norm_num) 0 (by norm_num)
    rw [if_pos rfl, h10] at this
    exact this
  have h30 : h 3 0 = 0 := by
    have := hs.angular 2 (by norm_num) 0 (by norm_num)
    rw [if_pos rfl, h20] at this
    exact this
  have c20 : c 2 0 = 0 := by
    have q := hs.outward 2 (by norm_num) (by rw [m2]; norm_num)
    have r := dia 2 (by norm_num) 0 (by norm_num)
    have := cell 2 (by norm_num) 0 (by norm_num)
    rw [h20, al, al, m2] at this
    simp only [sum_range_succ, sum_range_zero, m0, m1, m2] at this
    rw [q, h20] at r
    norm_num at this r
    linarith
  have c30 : c 3 0 = 0 := by
    have q := hs.outward 3 (by norm_num) (by rw [m3]; norm_num)
    have r := dia 3 (by norm_num) 0 (by norm_num)
    have := cell 3 (by norm_num) 0 (by norm_num)
    rw [h30, al, al, m3] at this
    simp only [sum_range_succ, sum_range_zero, m0, m1, m2, m3] at this
    rw [q, h30] at r
    norm_num at this r
    linarith
  rw [hfl 0 (by norm_num)]
  simp only [sum_range_succ, sum_range_zero, c00, c10, c20, c30]
  norm_num

/-- C188 is violated: no mesh is fine enough.  In an empty sphere of two shells of any width `d` (so `sigma dx = 0`),
with no source and a non-negative flux entering from outside, `source_iteration` returns a negative flux in the centre,
whatever the guess and the convergence tests. -/
theorem C188_violation (p : Problem K) (d : K) (hd : 0 < d) (hpi : 0 < p.pi) (hgeo : p.geometry = 2)
    (hcells : p.cells = 2) (hgroups : p.groups = 1) (hangles : p.angles = 4) (hmm : p.mm = fun _ => 0)
    (hdx : p.dx = fun _ => d) (hmu : p.angleX = fourMu K) (hw : p.angleW = fun _ => 1 / 4) (guess : ℕ → ℕ → K) :
    ∃ flux, sourceIteration p (fun _ _ => 0) (.iso fun _ _ _ => 0) ⟨1, 1, fun _ _ _ => 0⟩
        ⟨4, 1, fun _ n _ => if n = 1 then 1 else 0⟩ guess = .ok flux ∧ flux 0 0 = -1 / 52 := by
  obtain ⟨f0, hf0, hneg⟩ := void_sphere_sweep p.pi d hpi hd (fun _ => 0)
  have hsweep : ∀ old : ℕ → K, Sphere.isotropicSweep 2 4 p.pi (fun _ => 0) (fun _ => 0) (fun _ => 0) ⟨1, fun _ _ => 0⟩
      ⟨4, fun _ n => if n = 1 then 1 else 0⟩ (fun _ => 0) (fun _ => d) (fourMu K) (fun _ => 1 / 4) false old
      = .ok f0 := by
    intro old
    rw [← hf0]
    unfold Sphere.isotropicSweep
    simp
  refine ⟨putCol (fun _ _ => 0) 0 f0, ?_, by simpa [putCol] using hneg⟩
  refine iterateE_const _ _ _ _ _ fun a => ?_
  have hoff : offScatter 1 (fun _ _ => (0 : K)) a (fun _ => 0) (fun _ _ _ => 0) 0 = fun _ => 0 := by
    funext i
    rw [offScatter_eq _ _ _ _ _ zero_lt_one]
    simp
  have inner : ∀ old : ℕ → K, Sphere.isotropicSn 2 4 p.convIn p.pi (fun _ => 0) (fun _ => 0) (fun _ => 0)
      ⟨1, fun _ _ => 0⟩ ⟨4, fun _ n => if n = 1 then 1 else 0⟩ (fun _ => 0) (fun _ => d) (fourMu K) (fun _ => 1 / 4)
      false old = .ok f0 := fun old => iterateE_const _ _ _ _ _ hsweep
  have step : groupStepIso p (fun _ _ => 0) (fun _ _ _ => 0) ⟨1, 1, fun _ _ _ => 0⟩
      ⟨4, 1, fun _ n _ => if n = 1 then 1 else 0⟩ a 0 (fun _ _ => 0) = .ok (putCol (fun _ _ => 0) 0 f0) := by
    have := inner (fun i => a i 0)
    unfold groupStepIso
    rw [hgeo, if_neg (by norm_num), if_pos rfl]
    rw [hcells, hgroups, hangles, hmm, hdx, hmu, hw, hoff]
    exact congrArg (fun z => Except.map (putCol (fun _ _ => 0) 0) z) this
  unfold oneSweepIso
  rw [hgroups, loopE_succ, loopE_zero]
  exact step

end General

/-! ### Example -/

/-- An empty sphere of two shells. -/
def exVoidSphere (d : ℚ) : Problem ℚ where
  cells := 2
  groups := 1
  angles := 4
  mm := fun _ => 0
  dx := fun _ => d
  angleX := fourMu ℚ
  angleW := fun _ => 1 / 4
  bcL := false
  bcR := false
  geometry := 2
  pi := 22 / 7
  convIn := fun _ _ => false
  convOut := fun _ _ => false

example := C188_violation (exVoidSphere (1 / 1000)) (1 / 1000) (by norm_num) (by norm_num [exVoidSphere]) rfl rfl rfl rfl
  rfl rfl rfl rfl (fun _ _ => 1)

end Discrete1.Props
