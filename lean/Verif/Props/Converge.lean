import Verif.Props.DmdDriver
import Verif.Props.Stability
import Mathlib.Analysis.Calculus.Deriv.MeanValue
import Mathlib.Analysis.Calculus.Deriv.Pow

/-!
# C125, C126: accuracy of the time integrators

C125: solutions linear in time are reproduced exactly by `backward_euler` and `bdf2`; C126: first-order
convergence of `backward_euler`, uniformly over all steps.
-/

set_option linter.unusedSectionVars false
set_option linter.unusedSimpArgs false

namespace Discrete1.Props

open Finset Discrete1.Spec Discrete1.Slab Discrete1.Tools Discrete1.MultiGroup Discrete1.Drivers

variable {K : Type} [Field K] [LinearOrder K] [IsStrictOrderedRing K]

/-- At one instant, the angular fluxes `E` with time derivatives `D` solve the transport equation
`D/v + mu dE/dx + sigma E = sum xs phi + ext`, discretised in space, angle and energy but not in time. -/
def TransportAt (p : Problem K) (sigma : ℕ → ℕ → K) (xs : ℕ → ℕ → ℕ → K) (velocity : ℕ → K)
    (ext bnd : Arr3 K) (E D : ℕ → ℕ → ℕ → K) : Prop :=
  ImplicitStep p sigma xs (quadrature p E) (fun i n g => D i n g / velocity g) ext bnd E

/-! ## C126 -/

/-- A swept field whose source grows with the field itself, more slowly than the collisions. -/
theorem max_error {p : Problem K} {sigma : ℕ → ℕ → K} {xs : ℕ → ℕ → ℕ → K} (ht : Tame p sigma xs)
    {c B : K} (hc : 0 ≤ c) (hc1 : c < 1) (hB : 0 ≤ B)
    (hrows : ∀ i < p.cells, ∀ g < p.groups, ∑ g' ∈ range p.groups, xs (p.mm i) g g' ≤ c * sigma (p.mm i) g)
    {d q : ℕ → ℕ → ℕ → K} {r : ℕ → ℕ → K}
    (hbal : ∀ g < p.groups, AllBalanced p.cells p.angles p.angleX p.dx (fun i => sigma (p.mm i) g) (q g) (d g))
    (hin : ∀ g < p.groups, SweptInflow p.cells p.angles p.angleX p.bcL p.bcR (fun _ => 0) (fun _ => 0) (d g))
    (hq : ∀ M, (∀ g < p.groups, ∀ n < p.angles, ∀ i ≤ p.cells, |d g n i| ≤ M) →
      ∀ g < p.groups, ∀ n < p.angles, ∀ i < p.cells,
        |q g n i| ≤ (∑ g' ∈ range p.groups, xs (p.mm i) g g') * M + r i g)
    (hr : ∀ i < p.cells, ∀ g < p.groups,
      (∑ g' ∈ range p.groups, xs (p.mm i) g g') * B + r i g ≤ sigma (p.mm i) g * B) :
    ∀ g < p.groups, ∀ n < p.angles, ∀ i ≤ p.cells, |d g n i| ≤ B := by
  intro g hg n hn i hi
  obtain ⟨m, hm, hmax⟩ := (range p.groups ×ˢ range p.angles ×ˢ range (p.cells + 1)).exists_max_image
    (fun a => |d a.1 a.2.1 a.2.2|) ⟨(g, n, i), by simp [hg, hn]; omega⟩
  set M := |d m.1 m.2.1 m.2.2| with hM
  have hb : ∀ g < p.groups, ∀ n < p.angles, ∀ i ≤ p.cells, |d g n i| ≤ M := fun g hg n hn i hi =>
    hmax (g, n, i) (by simp [hg, hn]; omega)
  refine (hb g hg n hn i hi).trans ?_
  by_contra hlt
  push Not at hlt
  simp only [mem_product, mem_range] at hm
  have hX : 0 ≤ B + c * (M - B) := add_nonneg hB (mul_nonneg hc (by linarith))
  have := swept_abs_le hX (ht.ok _ hm.1).nonzero (ht.ok _ hm.1).phys (ht.fine _ hm.1) (hbal _ hm.1) (hin _ hm.1)
    (fun n hn i hi => by
      refine (hq M hb _ hm.1 n hn i hi).trans ?_
      have h1 := hr i hi _ hm.1
      have h2 := mul_le_mul_of_nonneg_right (hrows i hi _ hm.1) (by linarith : 0 ≤ M - B)
      nlinarith)
    (fun n hn => by
      simp only [ite_self, abs_zero]
      split
      · exact le_refl _
      · exact hX) _ hm.2.1 _ (by omega : m.2.2 ≤ p.cells)
  rw [← hM] at this
  nlinarith

theorem quadrature_sub_le {p : Problem K} {x y : ℕ → ℕ → ℕ → K} {M : K} {i g : ℕ}
    (hw : ∀ n < p.angles, 0 ≤ p.angleW n) (hsum : ∑ n ∈ range p.angles, p.angleW n = 1)
    (h : ∀ n < p.angles, |x i n g - y i n g| ≤ M) : |quadrature p x i g - quadrature p y i g| ≤ M := by
  unfold quadrature
  rw [← sum_sub_distrib]
  refine (abs_sum_le_sum_abs _ _).trans ?_
  calc ∑ n ∈ range p.angles, |p.angleW n * x i n g - p.angleW n * y i n g|
      ≤ ∑ n ∈ range p.angles, p.angleW n * M := sum_le_sum fun n hn => by
        have hn := mem_range.mp hn
        rw [← mul_sub, abs_mul, abs_of_nonneg (hw n hn)]
        exact mul_le_mul_of_nonneg_left (h n hn) (hw n hn)
    _ = M := by rw [← sum_mul, hsum, one_mul]

/-- One step of implicit Euler against a field that solves the equation at the end of the step. -/
theorem euler_step_error {p : Problem K} {sigma : ℕ → ℕ → K} {xs : ℕ → ℕ → ℕ → K} {velocity : ℕ → K} {dt : K}
    (hv : ∀ g < p.groups, 0 < velocity g) (hdt : 0 < dt)
    (ht : Tame p (fun m g => sigma m g + 1 / (velocity g * dt)) xs)
    (hsub : ∀ i < p.cells, ∀ g < p.groups, ∑ g' ∈ range p.groups, xs (p.mm i) g g' ≤ sigma (p.mm i) g)
    {S V : K} (hS : ∀ i < p.cells, ∀ g < p.groups, ∑ g' ∈ range p.groups, xs (p.mm i) g g' ≤ S) (hS0 : 0 ≤ S)
    (hV : ∀ g < p.groups, velocity g ≤ V)
    {ext bnd : Arr3 K} {old new E0 E D : ℕ → ℕ → ℕ → K} {phi : ℕ → ℕ → K} {kappa delta eps : K}
    (hk0 : 0 ≤ kappa) (hd0 : 0 ≤ delta) (he0 : 0 ≤ eps)
    (h : ImplicitStep p sigma xs phi (fun i n g => (new i n g - old i n g) / (velocity g * dt)) ext bnd new)
    (hE : TransportAt p sigma xs velocity ext bnd E D)
    (hkap : ∀ i < p.cells, ∀ n < p.angles, ∀ g < p.groups, |D i n g - (E i n g - E0 i n g) / dt| ≤ kappa)
    (hdel : ∀ i < p.cells, ∀ g < p.groups, |phi i g - quadrature p new i g| ≤ delta)
    (heps : ∀ i < p.cells, ∀ n < p.angles, ∀ g < p.groups, |old i n g - E0 i n g| ≤ eps) :
    ∀ i < p.cells, ∀ n < p.angles, ∀ g < p.groups,
      |new i n g - E i n g| ≤ eps + dt * (kappa + V * S * delta) := by
  obtain ⟨e, he⟩ := h
  obtain ⟨f, hf⟩ := hE
  by_cases hG : p.groups = 0
  · intro i _ n _ g hg; omega
  have hV0 : 0 < V := (hv 0 (by omega)).trans_le (hV 0 (by omega))
  set B := eps + dt * (kappa + V * S * delta) with hBdef
  have hVS : 0 ≤ V * S * delta := mul_nonneg (mul_nonneg hV0.le hS0) hd0
  have hB : 0 ≤ B := add_nonneg he0 (mul_nonneg hdt.le (add_nonneg hk0 hVS))
  have hden : 0 < 1 + S * V * dt := by positivity
  set c := S * V * dt / (1 + S * V * dt) with hcdef
  have hc0 : 0 ≤ c := div_nonneg (by positivity) hden.le
  have hc1 : c < 1 := by rw [hcdef, div_lt_one hden]; linarith
  have hrnn : ∀ i < p.cells, ∀ g < p.groups, 0 ≤ ∑ g' ∈ range p.groups, xs (p.mm i) g g' := fun i hi g hg =>
    sum_nonneg fun g' hg' => ht.nonneg i hi g hg g' (mem_range.mp hg')
  have key := max_error (p := p) (sigma := fun m g => sigma m g + 1 / (velocity g * dt)) (xs := xs) ht hc0 hc1 hB
    (d := fun g n i => e g n i - f g n i)
    (q := fun g n i => ∑ g' ∈ range p.groups, xs (p.mm i) g g' * (phi i g' - quadrature p E i g')
      + (old i n g - E0 i n g) / (velocity g * dt) + (D i n g - (E i n g - E0 i n g) / dt) / velocity g)
    (r := fun i g => (∑ g' ∈ range p.groups, xs (p.mm i) g g') * delta + eps / (velocity g * dt)
      + kappa / velocity g)
    (fun i hi g hg => ?_) (fun g hg n hn i hi => ?_) (fun g hg => ?_) (fun M hM g hg n hn i hi => ?_)
    (fun i hi g hg => ?_)
  · intro i hi n hn g hg
    rw [(he g hg).1 n hn i hi, (hf g hg).1 n hn i hi]
    have a := abs_le.mp (key g hg n hn i hi.le)
    have b := abs_le.mp (key g hg n hn (i + 1) hi)
    rw [abs_le]
    constructor <;> linarith [a.1, a.2, b.1, b.2]
  · -- rows
    have h1 := hsub i hi g hg
    have h2 := hS i hi g hg
    have h3 := hrnn i hi g hg
    have hvg := hv g hg
    have h4 : 1 / (V * dt) ≤ 1 / (velocity g * dt) :=
      one_div_le_one_div_of_le (mul_pos hvg hdt) (mul_le_mul_of_nonneg_right (hV g hg) hdt.le)
    have h5 : 1 - c = 1 / (1 + S * V * dt) := by rw [hcdef]; field_simp; ring
    have h6 : c * (1 / (V * dt)) = S * (1 - c) := by rw [h5, hcdef]; field_simp
    have h7 : (∑ g' ∈ range p.groups, xs (p.mm i) g g') * (1 - c) ≤ S * (1 - c) :=
      mul_le_mul_of_nonneg_right h2 (by linarith)
    have h8 := mul_le_mul_of_nonneg_left h4 hc0
    have h9 := mul_le_mul_of_nonneg_left h1 hc0
    nlinarith
  · -- balance
    have h1 := (he g hg).2.1 n hn i hi
    have h2 := (hf g hg).2.1 n hn i hi
    have hvg := (hv g hg).ne'
    have hdt' := hdt.ne'
    simp only
    have m1 := (he g hg).1 n hn i hi
    have m2 := (hf g hg).1 n hn i hi
    have hs : ∑ g' ∈ range p.groups, xs (p.mm i) g g' * (phi i g' - quadrature p E i g')
        = ∑ g' ∈ range p.groups, xs (p.mm i) g g' * phi i g'
          - ∑ g' ∈ range p.groups, xs (p.mm i) g g' * quadrature p E i g' := by
      rw [← sum_sub_distrib]; exact sum_congr rfl fun _ _ => by ring
    rw [hs]
    have e1 : (e g n i - f g n i + (e g n (i + 1) - f g n (i + 1))) / 2 = new i n g - E i n g := by
      rw [m1, m2]; ring
    rw [e1]
    have e2 : (new i n g - old i n g) / (velocity g * dt)
        = new i n g * (1 / (velocity g * dt)) - old i n g / (velocity g * dt) := by field_simp
    have e3 : (D i n g - (E i n g - E0 i n g) / dt) / velocity g
        = D i n g / velocity g - E i n g * (1 / (velocity g * dt)) + E0 i n g / (velocity g * dt) := by
      field_simp
      ring
    beta_reduce at h1 h2
    rw [e2] at h1
    rw [e3, sub_div]
    linear_combination h1 - h2
  · -- inflow
    intro n hn
    have a := (he g hg).2.2 n hn
    have b := (hf g hg).2.2 n hn
    have e1 : inflow p.cells (p.angleX n) (fun i => e g n i - f g n i)
        = inflow p.cells (p.angleX n) (e g n) - inflow p.cells (p.angleX n) (f g n) := by
      unfold inflow; split <;> rfl
    have e2 : outflow p.cells (p.angleX (p.angles - 1 - n))
          (fun i => e g (p.angles - 1 - n) i - f g (p.angles - 1 - n) i)
        = outflow p.cells (p.angleX (p.angles - 1 - n)) (e g (p.angles - 1 - n))
          - outflow p.cells (p.angleX (p.angles - 1 - n)) (f g (p.angles - 1 - n)) := by
      unfold outflow; split <;> rfl
    rw [e1, e2, a, b]
    split <;> split <;> ring
  · -- size of the source
    have hvg := hv g hg
    have hphi : ∀ g' < p.groups, |phi i g' - quadrature p E i g'| ≤ delta + M := by
      intro g' hg'
      have h1 := hdel i hi g' hg'
      have h2 := quadrature_sub_le (x := new) (y := E) (i := i) (g := g') (M := M) ht.weights ht.norm
        (fun n hn => by
          rw [(he g' hg').1 n hn i hi, (hf g' hg').1 n hn i hi]
          have a := abs_le.mp (hM g' hg' n hn i hi.le)
          have b := abs_le.mp (hM g' hg' n hn (i + 1) hi)
          rw [abs_le]
          constructor <;> linarith [a.1, a.2, b.1, b.2])
      have h3 := abs_add_le (phi i g' - quadrature p new i g') (quadrature p new i g' - quadrature p E i g')
      rw [sub_add_sub_cancel] at h3
      linarith
    have h1 : |∑ g' ∈ range p.groups, xs (p.mm i) g g' * (phi i g' - quadrature p E i g')|
        ≤ (∑ g' ∈ range p.groups, xs (p.mm i) g g') * (delta + M) := by
      refine (abs_sum_le_sum_abs _ _).trans ?_
      rw [sum_mul]
      refine sum_le_sum fun g' hg' => ?_
      have hg' := mem_range.mp hg'
      rw [abs_mul, abs_of_nonneg (ht.nonneg i hi g hg g' hg')]
      exact mul_le_mul_of_nonneg_left (hphi g' hg') (ht.nonneg i hi g hg g' hg')
    have h2 : |(old i n g - E0 i n g) / (velocity g * dt)| ≤ eps / (velocity g * dt) := by
      rw [abs_div, abs_of_pos (mul_pos hvg hdt)]
      exact div_le_div_of_nonneg_right (heps i hi n hn g hg) (mul_pos hvg hdt).le
    have h3 : |(D i n g - (E i n g - E0 i n g) / dt) / velocity g| ≤ kappa / velocity g := by
      rw [abs_div, abs_of_pos hvg]
      exact div_le_div_of_nonneg_right (hkap i hi n hn g hg) hvg.le
    refine (abs_add_three _ _ _).trans ?_
    rw [mul_add] at h1
    linarith
  · -- the bound absorbs the source
    have hvg := hv g hg
    have h1 := mul_le_mul_of_nonneg_right (hsub i hi g hg) hB
    have h2 := mul_le_mul_of_nonneg_right (hS i hi g hg) hd0
    have h3 : S * delta ≤ V * S * delta / velocity g := by
      rw [le_div_iff₀ hvg]
      have := mul_le_mul_of_nonneg_right (hV g hg) (mul_nonneg hS0 hd0)
      linarith
    have h4 : 1 / (velocity g * dt) * B
        = eps / (velocity g * dt) + kappa / velocity g + V * S * delta / velocity g := by
      rw [hBdef]
      have := hvg.ne'
      have := hdt.ne'
      field_simp
      ring
    rw [add_mul, h4]
    linarith


/-- C126: error bound for `backward_euler`.  Let `E j` be any sequence of angular fluxes that solves the
transport equation (not discretised in time) at the end of every step, with time derivatives `D j` that
difference quotients match to within `kappa`, and let the start be within `eps` of `E 0`.  In a medium whose
transfer cross sections do not exceed the total one, on a mesh fine enough for the time step, the flux
returned after `j + 1` steps is within `eps + (j + 1) dt kappa` of the exact one, up to the accuracy `delta`
to which the inner iterations were solved. -/
theorem C126_error_bound (p : Problem K) (xsTotal : ℕ → ℕ → K) (scatter : ℕ → ℕ → ℕ → K)
    (fission : Fission K) (velocity : ℕ → K) (external boundary : TimeArr K) (steps : ℕ) (dt : K)
    (init : ℕ → ℕ → ℕ → K) (hok : TimedOk p xsTotal velocity dt) (hG : 0 < p.groups)
    (hext : Covers external steps) (hbnd : Covers boundary steps)
    (ht : Tame p (fun m g => xsTotal m g + 1 / (velocity g * dt))
      (fun m g g' => scatter m g g' + fissionMatrix fission m g g'))
    (hsub : ∀ i < p.cells, ∀ g < p.groups,
      ∑ g' ∈ range p.groups, (scatter (p.mm i) g g' + fissionMatrix fission (p.mm i) g g')
        ≤ xsTotal (p.mm i) g)
    (S V : K) (hS : ∀ i < p.cells, ∀ g < p.groups, xsTotal (p.mm i) g ≤ S)
    (hV : ∀ g < p.groups, velocity g ≤ V)
    (E D : ℕ → ℕ → ℕ → ℕ → K)
    (hE : ∀ j < steps, TransportAt p xsTotal (fun m g g' => scatter m g g' + fissionMatrix fission m g g')
      velocity (entry external j) (entry boundary j) (E (j + 1)) (D (j + 1)))
    (kappa eps : K) (hk0 : 0 ≤ kappa) (he0 : 0 ≤ eps)
    (hkap : ∀ j < steps, ∀ i < p.cells, ∀ n < p.angles, ∀ g < p.groups,
      |D (j + 1) i n g - (E (j + 1) i n g - E j i n g) / dt| ≤ kappa)
    (heps : ∀ i < p.cells, ∀ n < p.angles, ∀ g < p.groups, |init i n g - E 0 i n g| ≤ eps) :
    ∃ (out : ℕ → ℕ → ℕ → K) (psi : ℕ → ℕ → ℕ → ℕ → K),
      backwardEuler p xsTotal (.iso scatter) fission velocity external boundary steps dt init
        = .ok out ∧ psi 0 = init ∧
      (∀ j < steps, ImplicitStep p xsTotal
        (fun m g g' => scatter m g g' + fissionMatrix fission m g g') (out j)
        (fun i n g => (psi (j + 1) i n g - psi j i n g) / (velocity g * dt))
        (entry external j) (entry boundary j) (psi (j + 1))) ∧
      ∀ delta, 0 ≤ delta →
        (∀ j < steps, ∀ i < p.cells, ∀ g < p.groups, |out j i g - quadrature p (psi (j + 1)) i g| ≤ delta) →
        ∀ j < steps, ∀ i < p.cells, ∀ g < p.groups,
          |out j i g - quadrature p (E (j + 1)) i g|
            ≤ eps + ((j : K) + 1) * dt * (kappa + V * S * delta) + delta := by
  obtain ⟨out, psi, hrun, hpsi0, hstep, _, _⟩ := C32_backward_euler p xsTotal scatter fission velocity
    external boundary steps dt init hok hG hext hbnd
  refine ⟨out, psi, hrun, hpsi0, hstep, fun delta hd0 hdel => ?_⟩
  by_cases hN : p.cells = 0
  · intro j _ i hi; omega
  have hS' : ∀ i < p.cells, ∀ g < p.groups, ∑ g' ∈ range p.groups,
      (scatter (p.mm i) g g' + fissionMatrix fission (p.mm i) g g') ≤ S := fun i hi g hg =>
    (hsub i hi g hg).trans (hS i hi g hg)
  have hS0 : 0 ≤ S := (((hok.ok 0 hG).phys 0 (by omega)).2).trans (hS 0 (by omega) 0 hG)
  have hV0 : 0 ≤ V := (hok.velocity 0 hG).le.trans (hV 0 hG)
  have hinc : 0 ≤ dt * (kappa + V * S * delta) :=
    mul_nonneg hok.dt.le (add_nonneg hk0 (mul_nonneg (mul_nonneg hV0 hS0) hd0))
  have key : ∀ j ≤ steps, ∀ i < p.cells, ∀ n < p.angles, ∀ g < p.groups,
      |psi j i n g - E j i n g| ≤ eps + (j : K) * (dt * (kappa + V * S * delta)) := by
    intro j
    induction j with
    | zero => intro _ i hi n hn g hg; rw [hpsi0]; simpa using heps i hi n hn g hg
    | succ j ih =>
      intro hj i hi n hn g hg
      have := euler_step_error hok.velocity hok.dt ht hsub hS' hS0 hV hk0 hd0
        (add_nonneg he0 (mul_nonneg (Nat.cast_nonneg j) hinc)) (hstep j hj) (hE j hj) (hkap j hj) (hdel j hj)
        (ih (by omega)) i hi n hn g hg
      refine this.trans (le_of_eq ?_)
      push_cast
      ring
  intro j hj i hi g hg
  have h1 := hdel j hj i hi g hg
  have h2 := quadrature_sub_le (x := psi (j + 1)) (y := E (j + 1)) ht.weights ht.norm
    (fun n hn => key (j + 1) hj i hi n hn g hg)
  have h3 := abs_add_le (out j i g - quadrature p (psi (j + 1)) i g)
    (quadrature p (psi (j + 1)) i g - quadrature p (E (j + 1)) i g)
  rw [sub_add_sub_cancel] at h3
  push_cast at h2
  have h4 : ((j : K) + 1) * dt * (kappa + V * S * delta) = ((j : K) + 1) * (dt * (kappa + V * S * delta)) := by
    ring
  rw [h4]
  linarith

/-- Source iteration on a down-scatter problem solves every time step exactly. -/
theorem downscatter_outputs {p : Problem K} {sigma : ℕ → ℕ → K} {xs : ℕ → ℕ → ℕ → K} {ext bnd : Arr3 K}
    {guess phi : ℕ → ℕ → K} (hok : ∀ g < p.groups, SlabOk p sigma g) (hdown : ∀ m g g', g ≤ g' → xs m g g' = 0)
    (h : sourceIteration p sigma (.iso xs) ext bnd guess = .ok phi) :
    ∃ e, SolvesMultigroup p sigma xs ext bnd phi e := by
  obtain ⟨phi', e, h1, h2⟩ := C22_downscatter_exact p sigma xs ext bnd guess hok hdown
  rw [h] at h1
  obtain rfl := Except.ok.inj h1
  exact ⟨e, h2⟩

/-- C126 without inner-iteration error: problems without self- and up-scatter. -/
theorem C126_downscatter (p : Problem K) (xsTotal : ℕ → ℕ → K) (scatter : ℕ → ℕ → ℕ → K)
    (fission : Fission K) (velocity : ℕ → K) (external boundary : TimeArr K) (steps : ℕ) (dt : K)
    (init : ℕ → ℕ → ℕ → K) (hok : TimedOk p xsTotal velocity dt) (hG : 0 < p.groups)
    (hext : Covers external steps) (hbnd : Covers boundary steps)
    (ht : Tame p (fun m g => xsTotal m g + 1 / (velocity g * dt))
      (fun m g g' => scatter m g g' + fissionMatrix fission m g g'))
    (hsub : ∀ i < p.cells, ∀ g < p.groups,
      ∑ g' ∈ range p.groups, (scatter (p.mm i) g g' + fissionMatrix fission (p.mm i) g g')
        ≤ xsTotal (p.mm i) g)
    (hdown : ∀ m g g', g ≤ g' → scatter m g g' + fissionMatrix fission m g g' = 0)
    (E D : ℕ → ℕ → ℕ → ℕ → K)
    (hE : ∀ j < steps, TransportAt p xsTotal (fun m g g' => scatter m g g' + fissionMatrix fission m g g')
      velocity (entry external j) (entry boundary j) (E (j + 1)) (D (j + 1)))
    (kappa eps : K) (hk0 : 0 ≤ kappa) (he0 : 0 ≤ eps)
    (hkap : ∀ j < steps, ∀ i < p.cells, ∀ n < p.angles, ∀ g < p.groups,
      |D (j + 1) i n g - (E (j + 1) i n g - E j i n g) / dt| ≤ kappa)
    (heps : ∀ i < p.cells, ∀ n < p.angles, ∀ g < p.groups, |init i n g - E 0 i n g| ≤ eps) :
    ∃ out : ℕ → ℕ → ℕ → K,
      backwardEuler p xsTotal (.iso scatter) fission velocity external boundary steps dt init = .ok out ∧
      ∀ j < steps, ∀ i < p.cells, ∀ g < p.groups,
        |out j i g - quadrature p (E (j + 1)) i g| ≤ eps + ((j : K) + 1) * dt * kappa := by
  obtain ⟨out, psi, hrun, hpsi0, hstep, hsi, hquad⟩ := C32_backward_euler p xsTotal scatter fission velocity
    external boundary steps dt init hok hG hext hbnd
  refine ⟨out, hrun, fun j hj i hi g hg => ?_⟩
  have hokV := xsStar_ok hok (zero_le_one (α := K))
  have hq : ∀ j < steps, ∀ i < p.cells, ∀ g < p.groups, out j i g = quadrature p (psi (j + 1)) i g := fun j hj =>
    hquad j hj (downscatter_outputs hokV hdown (hsi j hj))
  -- bounds of the finitely many cross sections and velocities
  have hS : ∃ S, 0 ≤ S ∧ ∀ i < p.cells, ∀ g < p.groups, ∑ g' ∈ range p.groups,
      (scatter (p.mm i) g g' + fissionMatrix fission (p.mm i) g g') ≤ S := by
    refine ⟨∑ i ∈ range p.cells, ∑ g ∈ range p.groups, xsTotal (p.mm i) g, ?_, fun i hi g hg => ?_⟩
    · exact sum_nonneg fun i hi => sum_nonneg fun g hg =>
        ((hok.ok g (mem_range.mp hg)).phys i (mem_range.mp hi)).2
    · refine (hsub i hi g hg).trans ?_
      refine (single_le_sum (f := fun g => xsTotal (p.mm i) g) (fun g hg =>
        ((hok.ok g (mem_range.mp hg)).phys i hi).2) (mem_range.mpr hg)).trans ?_
      exact single_le_sum (f := fun i => ∑ g ∈ range p.groups, xsTotal (p.mm i) g) (fun i hi => sum_nonneg
        fun g hg => ((hok.ok g (mem_range.mp hg)).phys i (mem_range.mp hi)).2) (mem_range.mpr hi)
  obtain ⟨S, hS0, hS⟩ := hS
  have hV : ∀ g < p.groups, velocity g ≤ ∑ g ∈ range p.groups, velocity g := fun g hg =>
    single_le_sum (fun g hg => (hok.velocity g (mem_range.mp hg)).le) (mem_range.mpr hg)
  have key : ∀ j ≤ steps, ∀ i < p.cells, ∀ n < p.angles, ∀ g < p.groups,
      |psi j i n g - E j i n g| ≤ eps + (j : K) * dt * kappa := by
    intro j
    induction j with
    | zero => intro _ i hi n hn g hg; rw [hpsi0]; simpa using heps i hi n hn g hg
    | succ j ih =>
      intro hj i hi n hn g hg
      have := euler_step_error hok.velocity hok.dt ht hsub hS hS0 hV hk0 le_rfl
        (add_nonneg he0 (mul_nonneg (mul_nonneg (Nat.cast_nonneg j) hok.dt.le) hk0)) (hstep j hj) (hE j hj)
        (hkap j hj) (fun i hi g hg => by rw [hq j hj i hi g hg, sub_self, abs_zero])
        (ih (by omega)) i hi n hn g hg
      refine this.trans (le_of_eq ?_)
      push_cast
      ring
  rw [hq j hj i hi g hg]
  have := quadrature_sub_le (x := psi (j + 1)) (y := E (j + 1)) ht.weights ht.norm
    (fun n hn => key (j + 1) hj i hi n hn g hg)
  push_cast at this
  exact this

/-- C126 in terms of the time step: if the exact angular fluxes `F t` have time derivatives `F' t` that
change at the rate `L` at most, `backward_euler` is first-order accurate: at time `t = (j + 1) dt` the returned
flux is within `L t dt` of the exact one (exact start, down-scatter problem). -/
theorem C126_first_order (p : Problem ℝ) (xsTotal : ℕ → ℕ → ℝ) (scatter : ℕ → ℕ → ℕ → ℝ)
    (fission : Fission ℝ) (velocity : ℕ → ℝ) (external boundary : TimeArr ℝ) (steps : ℕ) (dt : ℝ)
    (hok : TimedOk p xsTotal velocity dt) (hG : 0 < p.groups)
    (hext : Covers external steps) (hbnd : Covers boundary steps)
    (ht : Tame p (fun m g => xsTotal m g + 1 / (velocity g * dt))
      (fun m g g' => scatter m g g' + fissionMatrix fission m g g'))
    (hsub : ∀ i < p.cells, ∀ g < p.groups,
      ∑ g' ∈ range p.groups, (scatter (p.mm i) g g' + fissionMatrix fission (p.mm i) g g')
        ≤ xsTotal (p.mm i) g)
    (hdown : ∀ m g g', g ≤ g' → scatter m g g' + fissionMatrix fission m g g' = 0)
    (F F' : ℝ → ℕ → ℕ → ℕ → ℝ) (L : ℝ) (hL : 0 ≤ L)
    (hF : ∀ t, 0 ≤ t → t ≤ (steps : ℝ) * dt → ∀ i n g, HasDerivAt (fun s => F s i n g) (F' t i n g) t)
    (hF' : ∀ s t, 0 ≤ s → s ≤ t → t ≤ (steps : ℝ) * dt → ∀ i n g, |F' t i n g - F' s i n g| ≤ L * (t - s))
    (hE : ∀ j < steps, TransportAt p xsTotal (fun m g g' => scatter m g g' + fissionMatrix fission m g g')
      velocity (entry external j) (entry boundary j) (F (((j : ℝ) + 1) * dt)) (F' (((j : ℝ) + 1) * dt))) :
    ∃ out : ℕ → ℕ → ℕ → ℝ,
      backwardEuler p xsTotal (.iso scatter) fission velocity external boundary steps dt (F 0) = .ok out ∧
      ∀ j < steps, ∀ i < p.cells, ∀ g < p.groups,
        |out j i g - quadrature p (F (((j : ℝ) + 1) * dt)) i g| ≤ L * (((j : ℝ) + 1) * dt) * dt := by
  have hdt := hok.dt
  obtain ⟨out, h1, h2⟩ := C126_downscatter p xsTotal scatter fission velocity external boundary steps dt (F 0)
    hok hG hext hbnd ht hsub hdown (fun j => F ((j : ℝ) * dt)) (fun j => F' ((j : ℝ) * dt))
    (fun j hj => by simpa using hE j hj) (L * dt) 0 (mul_nonneg hL hdt.le) le_rfl
    (fun j hj i hi n hn g hg => by
      have hj' : (j : ℝ) + 1 ≤ steps := by exact_mod_cast hj
      have hlt : (j : ℝ) * dt < ((j + 1 : ℕ) : ℝ) * dt := by push_cast; nlinarith
      have hj0 : (0 : ℝ) ≤ j := Nat.cast_nonneg j
      have htop : ((j + 1 : ℕ) : ℝ) * dt ≤ (steps : ℝ) * dt := by
        push_cast; exact mul_le_mul_of_nonneg_right hj' hdt.le
      have hpos : (0 : ℝ) ≤ (j : ℝ) * dt := mul_nonneg hj0 hdt.le
      obtain ⟨xi, hxi, hslope⟩ := exists_hasDerivAt_eq_slope (fun s => F s i n g) (fun s => F' s i n g) hlt
        (fun s hs => (hF s (hpos.trans hs.1) (hs.2.trans htop) i n g).continuousAt.continuousWithinAt)
        (fun s hs => hF s (hpos.trans hs.1.le) (hs.2.le.trans htop) i n g)
      have hw : ((j + 1 : ℕ) : ℝ) * dt - (j : ℝ) * dt = dt := by push_cast; ring
      rw [hw] at hslope
      rw [← hslope]
      have := hF' xi (((j + 1 : ℕ) : ℝ) * dt) (hpos.trans hxi.1.le) hxi.2.le htop i n g
      refine this.trans (mul_le_mul_of_nonneg_left ?_ hL)
      have := hxi.1
      linarith)
    (fun i hi n hn g hg => by simp)
  refine ⟨out, h1, fun j hj i hi g hg => ?_⟩
  have := h2 j hj i hi g hg
  push_cast at this
  refine this.trans (le_of_eq ?_)
  ring


/-! ## C125 -/

/-- The facts of C32 and C33 in one form. -/
theorem timed_steps (second : Bool) (p : Problem K) (xsTotal : ℕ → ℕ → K)
    (scatter : ℕ → ℕ → ℕ → K) (fission : Fission K) (velocity : ℕ → K)
    (external boundary : TimeArr K) (steps : ℕ) (dt : K)
    (init : ℕ → ℕ → ℕ → K) (hok : TimedOk p xsTotal velocity dt) (hG : 0 < p.groups)
    (hext : Covers external steps) (hbnd : Covers boundary steps) :
    ∃ (outT : ℕ → ℕ → ℕ → K) (psiT : ℕ → ℕ → ℕ → ℕ → K),
      (if second then bdf2 p xsTotal (.iso scatter) fission velocity external boundary steps dt init
        else backwardEuler p xsTotal (.iso scatter) fission velocity external boundary steps dt init)
        = .ok outT ∧ psiT 0 = init ∧
      (∀ j < steps, ImplicitStep p xsTotal
        (fun m g g' => scatter m g g' + fissionMatrix fission m g g') (outT j)
        (timeRate second j psiT (psiT (j + 1)) velocity dt)
        (entry external j) (entry boundary j) (psiT (j + 1))) ∧
      (∀ j < steps, sourceIteration p (fun m c => xsTotal m c + timeCoef K second j / (velocity c * dt))
          (.iso fun m g g' => scatter m g g' + fissionMatrix fission m g g')
          ⟨p.angles, p.groups, fun i n g => sourceAt (entry external j) i n g
            + (if second = true ∧ j ≠ 0 then 2 * psiT j i n g - 1 / 2 * psiT (j - 1) i n g
              else psiT j i n g) / (velocity g * dt)⟩ (entry boundary j)
          (if j = 0 then quadrature p init else outT (j - 1)) = .ok (outT j)) ∧
      (∀ j < steps, (∃ e, SolvesMultigroup p
            (fun m c => xsTotal m c + timeCoef K second j / (velocity c * dt))
            (fun m g g' => scatter m g g' + fissionMatrix fission m g g')
            ⟨p.angles, p.groups, fun i n g => sourceAt (entry external j) i n g
              + (if second = true ∧ j ≠ 0 then 2 * psiT j i n g - 1 / 2 * psiT (j - 1) i n g
                else psiT j i n g) / (velocity g * dt)⟩ (entry boundary j) (outT j) e) →
        ∀ i < p.cells, ∀ g < p.groups, outT j i g = quadrature p (psiT (j + 1)) i g) := by
  cases second with
  | false =>
    obtain ⟨o, ps, a, b, d, r, f⟩ := C32_backward_euler p xsTotal scatter fission velocity external boundary
      steps dt init hok hG hext hbnd
    refine ⟨o, ps, by simpa using a, b, fun j hj => implicit_congr (d j hj) (fun _ _ _ _ => rfl) ?_,
      fun j hj => by simpa [timeCoef] using r j hj, fun j hj he => f j hj ?_⟩
    · funext i n g; simp [timeRate]
    · simpa [timeCoef] using he
  | true =>
    obtain ⟨o, ps, a, b, d, r, f⟩ := C33_bdf2 p xsTotal scatter fission velocity external boundary
      steps dt init hok hG hext hbnd
    refine ⟨o, ps, by simpa using a, b, fun j hj => implicit_congr (d j hj) (fun _ _ _ _ => rfl) ?_,
      fun j hj => ?_, fun j hj he => f j hj ?_⟩
    · funext i n g
      by_cases hj0 : j = 0
      · subst hj0; simp [timeRate]
      · simp [timeRate, hj0]
    · by_cases hj0 : j = 0
      · subst hj0; simpa [timeCoef] using r 0 hj
      · simpa [timeCoef, hj0] using r j hj
    · by_cases hj0 : j = 0
      · subst hj0; simpa [timeCoef] using he
      · simpa [timeCoef, hj0] using he

/-- A field that is linear in time and solves the transport equation at the end of every step is a fully
implicit sequence of either integrator. -/
theorem linear_fully_implicit (second : Bool) {p : Problem K} {xsTotal : ℕ → ℕ → K} {xs : ℕ → ℕ → ℕ → K}
    {velocity : ℕ → K} {external boundary : TimeArr K} {steps : ℕ} {dt : K} (hdt : 0 < dt)
    (a b : ℕ → ℕ → ℕ → K)
    (hE : ∀ j < steps, TransportAt p xsTotal xs velocity (entry external j) (entry boundary j)
      (fun i n g => a i n g + ((j : K) + 1) * dt * b i n g) b) :
    FullyImplicit second p xsTotal xs velocity external boundary dt steps
      (fun j i n g => a i n g + (j : K) * dt * b i n g) := by
  intro j hj
  have h := hE j hj
  unfold TransportAt at h
  have e1 : (fun (i n g : ℕ) => a i n g + ((j + 1 : ℕ) : K) * dt * b i n g)
      = fun i n g => a i n g + ((j : K) + 1) * dt * b i n g := by funext i n g; push_cast; rfl
  simp only [e1]
  refine implicit_congr h (fun _ _ _ _ => rfl) ?_
  funext i n g
  unfold timeRate
  have hr : (dt * b i n g) / (velocity g * dt) = b i n g / velocity g := by
    rw [mul_comm dt, mul_div_mul_right _ _ hdt.ne']
  rw [← hr]
  congr 1
  by_cases hc : second = true ∧ j ≠ 0
  · rw [if_pos hc]
    obtain ⟨k, rfl⟩ : ∃ k, j = k + 1 := ⟨j - 1, by omega⟩
    simp only [Nat.add_sub_cancel]
    push_cast
    ring
  · rw [if_neg hc]
    ring

/-- Fully implicit sequences with the same start agree as soon as single steps have unique solutions. -/
theorem fully_implicit_unique_of (second : Bool) {p : Problem K} {xsTotal : ℕ → ℕ → K}
    {xs : ℕ → ℕ → ℕ → K} {velocity : ℕ → K} {external boundary : TimeArr K} {dt : K}
    {steps : ℕ} (hok : TimedOk p xsTotal velocity dt)
    (huniq : ∀ j < steps, ∀ (ext : Arr3 K) (phi phi' : ℕ → ℕ → K) (e e' : ℕ → ℕ → ℕ → K),
      SolvesMultigroup p (xsStar xsTotal (timeCoef K second j) velocity dt) xs ext (entry boundary j) phi e →
      SolvesMultigroup p (xsStar xsTotal (timeCoef K second j) velocity dt) xs ext (entry boundary j) phi' e' →
      ∀ g < p.groups, ∀ n < p.angles, ∀ i ≤ p.cells, e g n i = e' g n i)
    (psi psi' : ℕ → ℕ → ℕ → ℕ → K)
    (h0 : ∀ i < p.cells, ∀ n < p.angles, ∀ g < p.groups, psi 0 i n g = psi' 0 i n g)
    (h : FullyImplicit second p xsTotal xs velocity external boundary dt steps psi)
    (h' : FullyImplicit second p xsTotal xs velocity external boundary dt steps psi') :
    ∀ j ≤ steps, ∀ i < p.cells, ∀ n < p.angles, ∀ g < p.groups, psi j i n g = psi' j i n g := by
  intro j
  induction j using Nat.strong_induction_on with
  | _ j ih =>
    intro hj i hi n hn g hg
    rcases Nat.eq_zero_or_pos j with rfl | hpos
    · exact h0 i hi n hn g hg
    · obtain ⟨j, rfl⟩ : ∃ k, j = k + 1 := ⟨j - 1, by omega⟩
      obtain ⟨e, he, hm⟩ := implicit_solves hok (fun _ _ _ _ => rfl) (h j (by omega))
      obtain ⟨e', he', hm'⟩ := implicit_solves hok (fun _ _ _ _ => rfl) (h' j (by omega))
      have hq := solves_congr (ext' := fullArr p (if second = true ∧ j ≠ 0 then
          qStar2 (entry external j) velocity dt (psi j) (psi (j - 1))
            else qStar1 (entry external j) velocity dt (psi j))) he' (fun i hi n hn g hg => by
        simp only [fullArr, bidx_full _ _ hn, bidx_full _ _ hg]
        by_cases hs : second = true ∧ j ≠ 0
        · simp only [if_pos hs, qStar2]
          rw [ih j (by omega) (by omega) i hi n hn g hg, ih (j - 1) (by omega) (by omega) i hi n hn g hg]
        · simp only [if_neg hs, qStar1]
          rw [ih j (by omega) (by omega) i hi n hn g hg])
      have hu := huniq j (by omega) _ _ _ _ _ he hq g hg n hn
      rw [hm g hg n hn i hi, hm' g hg n hn i hi, hu i hi.le, hu (i + 1) hi]

/-- Edges of a down-scatter problem are unique, on any mesh. -/
theorem downscatter_edges_unique {p : Problem K} {sigma : ℕ → ℕ → K} {xs : ℕ → ℕ → ℕ → K} {ext bnd : Arr3 K}
    (hok : ∀ g < p.groups, SlabOk p sigma g) (hdown : ∀ m g g', g ≤ g' → xs m g g' = 0)
    {phi phi' : ℕ → ℕ → K} {e e' : ℕ → ℕ → ℕ → K} (h : SolvesMultigroup p sigma xs ext bnd phi e)
    (h' : SolvesMultigroup p sigma xs ext bnd phi' e') :
    ∀ g < p.groups, ∀ n < p.angles, ∀ i ≤ p.cells, e g n i = e' g n i := by
  have hphi := downscatter_unique p sigma xs ext bnd hok hdown h h'
  intro g hg
  exact swept_unique (hok g hg).nonzero (hok g hg).phys (h.balance g hg)
    ((solves_congr_flux h' (fun i hi g hg => hphi g hg i hi)).balance g hg) (h.inflow g hg) (h'.inflow g hg)

/-- C125: `backward_euler` (`second = false`) and `bdf2` (`second = true`) are exact for solutions that are
linear in time: if `a + t b` solves the transport equation (not discretised in time) at `t = dt, 2 dt, ...`
with the data of the respective step and the run starts from `a`, then the flux returned for step `j` is the
quadrature sum of `a + (j + 1) dt b`, for any number of steps of any length - provided the inner iterations
of the steps are solved, and the problem is contractive. -/
theorem C125_linear_in_time (second : Bool) (p : Problem K) (xsTotal : ℕ → ℕ → K)
    (scatter : ℕ → ℕ → ℕ → K) (fission : Fission K) (velocity : ℕ → K)
    (external boundary : TimeArr K) (steps : ℕ) (dt c : K) (hc : 0 ≤ c) (hc1 : c < 1)
    (hok : TimedOk p xsTotal velocity dt) (hG : 0 < p.groups)
    (hext : Covers external steps) (hbnd : Covers boundary steps)
    (hcon : ∀ j < steps, Contractive p
      (fun m g => xsTotal m g + timeCoef K second j / (velocity g * dt))
      (fun m g g' => scatter m g g' + fissionMatrix fission m g g') c)
    (a b : ℕ → ℕ → ℕ → K)
    (hE : ∀ j < steps, TransportAt p xsTotal (fun m g g' => scatter m g g' + fissionMatrix fission m g g')
      velocity (entry external j) (entry boundary j) (fun i n g => a i n g + ((j : K) + 1) * dt * b i n g) b) :
    ∃ (out : ℕ → ℕ → ℕ → K) (psi : ℕ → ℕ → ℕ → ℕ → K),
      (if second then bdf2 p xsTotal (.iso scatter) fission velocity external boundary steps dt a
        else backwardEuler p xsTotal (.iso scatter) fission velocity external boundary steps dt a)
        = .ok out ∧ psi 0 = a ∧
      (∀ j < steps, sourceIteration p (fun m c => xsTotal m c + timeCoef K second j / (velocity c * dt))
          (.iso fun m g g' => scatter m g g' + fissionMatrix fission m g g')
          ⟨p.angles, p.groups, fun i n g => sourceAt (entry external j) i n g
            + (if second = true ∧ j ≠ 0 then 2 * psi j i n g - 1 / 2 * psi (j - 1) i n g
              else psi j i n g) / (velocity g * dt)⟩ (entry boundary j)
          (if j = 0 then quadrature p a else out (j - 1)) = .ok (out j)) ∧
      ((∀ j < steps, ∃ e, SolvesMultigroup p
            (fun m c => xsTotal m c + timeCoef K second j / (velocity c * dt))
            (fun m g g' => scatter m g g' + fissionMatrix fission m g g')
            ⟨p.angles, p.groups, fun i n g => sourceAt (entry external j) i n g
              + (if second = true ∧ j ≠ 0 then 2 * psi j i n g - 1 / 2 * psi (j - 1) i n g
                else psi j i n g) / (velocity g * dt)⟩ (entry boundary j) (out j) e) →
        ∀ j < steps, ∀ i < p.cells, ∀ g < p.groups,
          out j i g = quadrature p (fun i n g => a i n g + ((j : K) + 1) * dt * b i n g) i g) := by
  obtain ⟨out, psi, h1, h2, h3, h4, h5⟩ := timed_steps second p xsTotal scatter fission velocity external boundary
    steps dt a hok hG hext hbnd
  refine ⟨out, psi, h1, h2, h4, fun hsol j hj i hi g hg => ?_⟩
  have hu := C37_fully_implicit_unique second p xsTotal _ velocity external boundary dt c hc hc1 steps hok hcon psi
    _ (fun i _ n _ g _ => by rw [h2]; simp)
    (fun j hj => implicit_congr (h3 j hj) (fun i hi g hg => (h5 j hj (hsol j hj) i hi g hg).symm) rfl)
    (linear_fully_implicit second hok.dt a b hE) (j + 1) hj i hi
  rw [h5 j hj (hsol j hj) i hi g hg]
  unfold quadrature
  refine sum_congr rfl fun n hn => ?_
  rw [hu n (mem_range.mp hn) g hg]
  push_cast
  rfl

/-- C125 without conditions on the mesh or the inner iterations: down-scatter problems. -/
theorem C125_downscatter (second : Bool) (p : Problem K) (xsTotal : ℕ → ℕ → K)
    (scatter : ℕ → ℕ → ℕ → K) (fission : Fission K) (velocity : ℕ → K)
    (external boundary : TimeArr K) (steps : ℕ) (dt : K)
    (hok : TimedOk p xsTotal velocity dt) (hG : 0 < p.groups)
    (hext : Covers external steps) (hbnd : Covers boundary steps)
    (hdown : ∀ m g g', g ≤ g' → scatter m g g' + fissionMatrix fission m g g' = 0)
    (a b : ℕ → ℕ → ℕ → K)
    (hE : ∀ j < steps, TransportAt p xsTotal (fun m g g' => scatter m g g' + fissionMatrix fission m g g')
      velocity (entry external j) (entry boundary j) (fun i n g => a i n g + ((j : K) + 1) * dt * b i n g) b) :
    ∃ out : ℕ → ℕ → ℕ → K,
      (if second then bdf2 p xsTotal (.iso scatter) fission velocity external boundary steps dt a
        else backwardEuler p xsTotal (.iso scatter) fission velocity external boundary steps dt a)
        = .ok out ∧
      ∀ j < steps, ∀ i < p.cells, ∀ g < p.groups,
        out j i g = quadrature p (fun i n g => a i n g + ((j : K) + 1) * dt * b i n g) i g := by
  obtain ⟨out, psi, h1, h2, h3, h4, h5⟩ := timed_steps second p xsTotal scatter fission velocity external boundary
    steps dt a hok hG hext hbnd
  have hokV := fun j => xsStar_ok hok (timeCoef_nonneg (K := K) second j)
  have hsol := fun j (hj : j < steps) => h5 j hj (downscatter_outputs (hokV j) hdown (h4 j hj))
  refine ⟨out, h1, fun j hj i hi g hg => ?_⟩
  have hu := fully_implicit_unique_of second hok
    (fun j _ _ _ _ _ _ h h' => downscatter_edges_unique (hokV j) hdown h h') psi _
    (fun i _ n _ g _ => by rw [h2]; simp)
    (fun j hj => implicit_congr (h3 j hj) (fun i hi g hg => (hsol j hj i hi g hg).symm) rfl)
    (linear_fully_implicit second hok.dt a b hE) (j + 1) hj i hi
  rw [hsol j hj i hi g hg]
  unfold quadrature
  refine sum_congr rfl fun n hn => ?_
  rw [hu n (mem_range.mp hn) g hg]
  push_cast
  rfl

/-- C125 for the hybrid integrators on equal grids, down-scatter problems. -/
theorem C125_hybrid_downscatter (second : Bool) (p : Problem K) (xsTotal : ℕ → ℕ → K)
    (scatter : ℕ → ℕ → ℕ → K) (fission : Fission K) (velocity : ℕ → K)
    (external boundary : TimeArr K) (coarse : ℕ → ℕ) (factor : ℕ → K) (steps : ℕ) (dt : K)
    (hok : TimedOk p xsTotal velocity dt) (hG : 0 < p.groups)
    (hid : ∀ g < p.groups, coarse g = g ∧ factor g = 1)
    (hext : Covers external steps) (hbnd : Covers boundary steps)
    (hdown : ∀ m g g', g ≤ g' → scatter m g g' + fissionMatrix fission m g g' = 0)
    (a b : ℕ → ℕ → ℕ → K)
    (hE : ∀ j < steps, TransportAt p xsTotal (fun m g g' => scatter m g g' + fissionMatrix fission m g g')
      velocity (entry external j) (entry boundary j) (fun i n g => a i n g + ((j : K) + 1) * dt * b i n g) b) :
    ∃ out : ℕ → ℕ → ℕ → K,
      hybridRun second p p xsTotal xsTotal (.iso scatter) (.iso scatter) fission fission velocity
        velocity external boundary coarse factor steps dt a = .ok out ∧
      ∀ j < steps, ∀ i < p.cells, ∀ g < p.groups,
        out j i g = quadrature p (fun i n g => a i n g + ((j : K) + 1) * dt * b i n g) i g := by
  obtain ⟨out, psi, phiC, S, h1, h2, h3, h4, h5⟩ := C37_hybrid_fully_implicit second p xsTotal scatter fission
    velocity external boundary coarse factor steps dt a hok hG hid hext hbnd
  have hokV := fun j => xsStar_ok hok (timeCoef_nonneg (K := K) second j)
  have hF := h5 fun j hj => downscatter_outputs (hokV j) hdown (h4 j hj)
  refine ⟨out, h1, fun j hj i hi g hg => ?_⟩
  have hu := fully_implicit_unique_of second hok
    (fun j _ _ _ _ _ _ h h' => downscatter_edges_unique (hokV j) hdown h h') psi _
    (fun i _ n _ g _ => by rw [h2]; simp) hF
    (linear_fully_implicit second hok.dt a b hE) (j + 1) hj i hi
  rw [h3 j hj i g]
  unfold quadrature
  refine sum_congr rfl fun n hn => ?_
  rw [hu n (mem_range.mp hn) g hg]
  push_cast
  rfl

/-! ## Examples: two cells, two groups, group 0 scatters into group 1 -/

/-- Two cells, two groups, two directions, vacuum boundaries. -/
def exFlat (K : Type) [Field K] : Problem K where
  cells := 2
  groups := 2
  angles := 2
  mm := fun _ => 0
  dx := fun _ => 1 / 10
  angleX := fun n => if n = 0 then -1 / 2 else 1 / 2
  angleW := fun _ => 1 / 2
  bcL := false
  bcR := false
  geometry := 1
  pi := 3
  convIn := fun _ _ => false
  convOut := fun _ _ => false

def exFlatXs (K : Type) [Field K] : ℕ → ℕ → ℕ → K := fun _ g g' => if g = 1 ∧ g' = 0 then 1 / 2 else 0

theorem exFlat_ok (g : ℕ) : SlabOk (exFlat K) (fun _ _ => 1) g where
  slab := rfl
  nonzero := fun n _ => by
    show (if n = 0 then (-1 / 2 : K) else 1 / 2) ≠ 0
    split <;> norm_num
  phys := fun i _ => ⟨by show (0 : K) < 1 / 10; norm_num, zero_le_one⟩

theorem exFlat_timed : TimedOk (exFlat K) (fun _ _ => 1) (fun _ => 1) (1 / 2) :=
  ⟨fun g _ => exFlat_ok g, by show 1 < 2; omega, fun _ _ => one_pos, by norm_num⟩

theorem exFlat_tame : Tame (exFlat K) (fun m g => (fun _ _ => 1) m g + 1 / ((fun _ => 1) g * (1 / 2)))
    (fun m g g' => exFlatXs K m g g' + fissionMatrix (.matrix fun _ _ _ => 0) m g g') where
  ok := xsStar_ok exFlat_timed zero_le_one
  fine := fun g _ n _ i _ => by
    have h : |(exFlat K).angleX n| = 1 / 2 := by
      show |if n = 0 then (-1 / 2 : K) else 1 / 2| = 1 / 2
      split
      · rw [show (-1 / 2 : K) = -(1 / 2) by ring, abs_neg, abs_of_pos (by norm_num)]
      · exact abs_of_pos (by norm_num)
    rw [h]
    show ((1 : K) + 1 / (1 * (1 / 2))) * (1 / 10) ≤ _
    norm_num
  weights := fun n _ => by show (0 : K) ≤ 1 / 2; norm_num
  norm := by
    show ∑ n ∈ range 2, (1 / 2 : K) = 1
    rw [sum_const, card_range]; norm_num
  nonneg := fun i _ g _ g' _ => by
    simp only [exFlatXs, fissionMatrix, add_zero]
    split <;> norm_num

theorem exFlat_sub : ∀ i < (exFlat K).cells, ∀ g < (exFlat K).groups, ∑ g' ∈ range (exFlat K).groups,
    (exFlatXs K ((exFlat K).mm i) g g' + fissionMatrix (.matrix fun _ _ _ => 0) ((exFlat K).mm i) g g')
      ≤ (fun _ _ => 1 : ℕ → ℕ → K) ((exFlat K).mm i) g := by
  intro i _ g hg
  have hg : g < 2 := hg
  show ∑ g' ∈ range 2, _ ≤ (1 : K)
  simp only [exFlatXs, fissionMatrix, add_zero, sum_range_succ, sum_range_zero]
  rcases g with _ | _ | g
  · norm_num
  · norm_num
  · omega

theorem exFlat_down : ∀ m g g', g ≤ g' →
    exFlatXs K m g g' + fissionMatrix (.matrix fun _ _ _ => 0) m g g' = 0 := by
  intro m g g' h
  simp only [exFlatXs, fissionMatrix, add_zero]
  rw [if_neg (by omega)]

/-- The flat flux `f` with derivative `d` and the source it needs. -/
theorem exFlat_transport (f d : K) :
    TransportAt (exFlat K) (fun _ _ => 1)
      (fun m g g' => exFlatXs K m g g' + fissionMatrix (.matrix fun _ _ _ => 0) m g g') (fun _ => 1)
      ⟨1, 2, fun _ _ g => d + f - (if g = 1 then f / 2 else 0)⟩ ⟨1, 1, fun _ _ _ => f⟩
      (fun _ _ _ => f) (fun _ _ _ => d) := by
  refine ⟨fun _ _ _ => f, fun g hg => ⟨fun _ _ _ _ => by ring, fun n _ i _ => ?_, fun n hn => ?_⟩⟩
  · have hg : g < 2 := hg
    have hq : ∀ i g, quadrature (exFlat K) (fun _ _ _ => f) i g = f := by
      intro i g
      show ∑ n ∈ range 2, (1 / 2 : K) * f = f
      rw [sum_const, card_range]; ring
    simp only [hq]
    show d / 1 + _ * (f - f) / _ + 1 * f = ∑ g' ∈ range 2, _ + _
    simp only [exFlatXs, fissionMatrix, add_zero, sum_range_succ, sum_range_zero, sourceAt]
    rcases g with _ | _ | g
    · simp
    · simp; ring
    · omega
  · have hr : ∀ x : K, ¬ leavesReflecting (exFlat K).bcL (exFlat K).bcR x := by
      intro x; simp [leavesReflecting, exFlat]
    have h2 : ¬ ((exFlat K).angles - 1 - n < n ∧ leavesReflecting (exFlat K).bcL (exFlat K).bcR
      ((exFlat K).angleX ((exFlat K).angles - 1 - n))) := fun h => hr _ h.2
    rw [if_neg h2, add_zero]
    simp [inflow, sourceAt]

/-- Sources for the field `1 + t`, three steps of length `1/2`. -/
example (second : Bool) := C125_downscatter second (exFlat ℚ) (fun _ _ => 1) (exFlatXs ℚ) (.matrix fun _ _ _ => 0)
  (fun _ => 1) ⟨3, fun j => ⟨1, 2, fun _ _ g => 1 + (1 + ((j : ℚ) + 1) * (1 / 2) * 1)
    - (if g = 1 then (1 + ((j : ℚ) + 1) * (1 / 2) * 1) / 2 else 0)⟩⟩
  ⟨3, fun j => ⟨1, 1, fun _ _ _ => 1 + ((j : ℚ) + 1) * (1 / 2) * 1⟩⟩ 3 (1 / 2) exFlat_timed (by show 0 < 2; omega)
  (Or.inr le_rfl) (Or.inr le_rfl) exFlat_down (fun _ _ _ => 1) (fun _ _ _ => 1)
  (fun j _ => exFlat_transport _ _)

example (second : Bool) := C125_hybrid_downscatter second (exFlat ℚ) (fun _ _ => 1) (exFlatXs ℚ)
  (.matrix fun _ _ _ => 0)
  (fun _ => 1) ⟨3, fun j => ⟨1, 2, fun _ _ g => 1 + (1 + ((j : ℚ) + 1) * (1 / 2) * 1)
    - (if g = 1 then (1 + ((j : ℚ) + 1) * (1 / 2) * 1) / 2 else 0)⟩⟩
  ⟨3, fun j => ⟨1, 1, fun _ _ _ => 1 + ((j : ℚ) + 1) * (1 / 2) * 1⟩⟩ id (fun _ => 1) 3 (1 / 2) exFlat_timed
  (by show 0 < 2; omega) (fun _ _ => ⟨rfl, rfl⟩)
  (Or.inr le_rfl) (Or.inr le_rfl) exFlat_down (fun _ _ _ => 1) (fun _ _ _ => 1)
  (fun j _ => exFlat_transport _ _)

/-- Contractive hypothesis of C125, backward Euler. -/
theorem exFlat_contractive (j : ℕ) : Contractive (exFlat ℚ)
    (fun m g => (fun _ _ => 1) m g + timeCoef ℚ false j / ((fun _ => 1) g * (1 / 2)))
    (fun m g g' => exFlatXs ℚ m g g' + fissionMatrix (.matrix fun _ _ _ => 0) m g g') (1 / 2) where
  ok := by simpa [timeCoef] using (exFlat_tame (K := ℚ)).ok
  fine := by simpa [timeCoef] using (exFlat_tame (K := ℚ)).fine
  weights := exFlat_tame.weights
  norm := exFlat_tame.norm
  nonneg := exFlat_tame.nonneg
  rows := fun i hi g hg => by
    refine (exFlat_sub i hi g hg).trans ?_
    norm_num [timeCoef]

example := C125_linear_in_time false (exFlat ℚ) (fun _ _ => 1) (exFlatXs ℚ) (.matrix fun _ _ _ => 0)
  (fun _ => 1) ⟨3, fun j => ⟨1, 2, fun _ _ g => 1 + (1 + ((j : ℚ) + 1) * (1 / 2) * 1)
    - (if g = 1 then (1 + ((j : ℚ) + 1) * (1 / 2) * 1) / 2 else 0)⟩⟩
  ⟨3, fun j => ⟨1, 1, fun _ _ _ => 1 + ((j : ℚ) + 1) * (1 / 2) * 1⟩⟩ 3 (1 / 2) (1 / 2) (by norm_num) (by norm_num)
  exFlat_timed (by show 0 < 2; omega)
  (Or.inr le_rfl) (Or.inr le_rfl) (fun j _ => exFlat_contractive j) (fun _ _ _ => 1) (fun _ _ _ => 1)
  (fun j _ => exFlat_transport _ _)

/-- The field `1 + t^2`, three steps of length `1/2`, rate of change of the derivative 2. -/
example := C126_first_order (exFlat ℝ) (fun _ _ => 1) (exFlatXs ℝ) (.matrix fun _ _ _ => 0)
  (fun _ => 1) ⟨3, fun j => ⟨1, 2, fun _ _ g => 2 * (((j : ℝ) + 1) * (1 / 2)) + (1 + (((j : ℝ) + 1) * (1 / 2)) ^ 2)
    - (if g = 1 then (1 + (((j : ℝ) + 1) * (1 / 2)) ^ 2) / 2 else 0)⟩⟩
  ⟨3, fun j => ⟨1, 1, fun _ _ _ => 1 + (((j : ℝ) + 1) * (1 / 2)) ^ 2⟩⟩ 3 (1 / 2) exFlat_timed
  (by show 0 < 2; omega) (Or.inr le_rfl) (Or.inr le_rfl) exFlat_tame exFlat_sub exFlat_down
  (fun t _ _ _ => 1 + t ^ 2) (fun t _ _ _ => 2 * t) 2 (by norm_num)
  (fun t _ _ _ _ _ => by simpa using ((hasDerivAt_id t).pow 2).const_add 1)
  (fun s t _ h _ _ _ _ => by rw [← mul_sub, abs_mul, abs_of_pos (by norm_num : (0 : ℝ) < 2),
    abs_of_nonneg (by linarith)])
  (fun j _ => exFlat_transport _ _)

example := C126_error_bound (exFlat ℚ) (fun _ _ => 1) (exFlatXs ℚ) (.matrix fun _ _ _ => 0)
  (fun _ => 1) ⟨3, fun j => ⟨1, 2, fun _ _ g => 1 + (1 + ((j : ℚ) + 1) * (1 / 2) * 1)
    - (if g = 1 then (1 + ((j : ℚ) + 1) * (1 / 2) * 1) / 2 else 0)⟩⟩
  ⟨3, fun j => ⟨1, 1, fun _ _ _ => 1 + ((j : ℚ) + 1) * (1 / 2) * 1⟩⟩ 3 (1 / 2) (fun _ _ _ => 11 / 10) exFlat_timed
  (by show 0 < 2; omega) (Or.inr le_rfl) (Or.inr le_rfl) exFlat_tame exFlat_sub 1 1 (fun _ _ _ _ => le_rfl)
  (fun _ _ => le_rfl) (fun j _ _ _ => 1 + (j : ℚ) * (1 / 2) * 1) (fun _ _ _ _ => 1)
  (fun j _ => by push_cast; exact exFlat_transport (1 + ((j : ℚ) + 1) * (1 / 2) * 1) 1) 0 (1 / 10) le_rfl
  (by norm_num) (fun j _ i _ n _ g _ => by push_cast; ring_nf; norm_num)
  (fun i _ n _ g _ => by norm_num)

example := C126_downscatter (exFlat ℚ) (fun _ _ => 1) (exFlatXs ℚ) (.matrix fun _ _ _ => 0)
  (fun _ => 1) ⟨3, fun j => ⟨1, 2, fun _ _ g => 1 + (1 + ((j : ℚ) + 1) * (1 / 2) * 1)
    - (if g = 1 then (1 + ((j : ℚ) + 1) * (1 / 2) * 1) / 2 else 0)⟩⟩
  ⟨3, fun j => ⟨1, 1, fun _ _ _ => 1 + ((j : ℚ) + 1) * (1 / 2) * 1⟩⟩ 3 (1 / 2) (fun _ _ _ => 11 / 10) exFlat_timed
  (by show 0 < 2; omega) (Or.inr le_rfl) (Or.inr le_rfl) exFlat_tame exFlat_sub exFlat_down
  (fun j _ _ _ => 1 + (j : ℚ) * (1 / 2) * 1) (fun _ _ _ _ => 1)
  (fun j _ => by push_cast; exact exFlat_transport (1 + ((j : ℚ) + 1) * (1 / 2) * 1) 1) 0 (1 / 10) le_rfl
  (by norm_num) (fun j _ i _ n _ g _ => by push_cast; ring_nf; norm_num)
  (fun i _ n _ g _ => by norm_num)

end Discrete1.Props
