import Verif.Spec.Time
import Verif.Model.Timed
import Verif.Props.MultiGroup
import Verif.Props.Broadcast
import Verif.Props.Tools
import Mathlib.Tactic.LinearCombination
import Mathlib.Tactic.FieldSimp

/-!
# C32 - C36 (time integration)
-/

set_option linter.unusedSectionVars false
set_option linter.unusedSimpArgs false

namespace Discrete1.Props

open Finset Discrete1.Tools Discrete1.Spec Discrete1.Slab Discrete1.MultiGroup Discrete1.Drivers

variable {K : Type*} [Field K] [LinearOrder K] [IsStrictOrderedRing K]

/-- An exception-raising loop whose body always succeeds on states satisfying `P` has a trace. -/
theorem loopE_trace {σ ε : Type*} (P : ℕ → σ → Prop) (n : ℕ) (f : ℕ → σ → Except ε σ) (s : σ)
    (h0 : P 0 s) (h : ∀ i < n, ∀ s, P i s → ∃ s', f i s = .ok s' ∧ P (i + 1) s') :
    ∃ x : ℕ → σ, x 0 = s ∧ (∀ i < n, f i (x i) = .ok (x (i + 1))) ∧ (∀ i ≤ n, P i (x i)) ∧
      loopE n f s = .ok (x n) := by
  induction n with
  | zero =>
    exact ⟨fun _ => s, rfl, fun i hi => absurd hi (Nat.not_lt_zero _),
      fun i hi => by rw [Nat.le_zero.mp hi]; exact h0, rfl⟩
  | succ n ih =>
    obtain ⟨x, hx0, hx1, hxP, hx2⟩ := ih fun i hi => h i (Nat.lt_succ_of_lt hi)
    obtain ⟨s', h3, h4⟩ := h n (Nat.lt_succ_self n) (x n) (hxP n (le_refl _))
    refine ⟨Function.update x (n + 1) s', ?_, fun i hi => ?_, fun i hi => ?_, ?_⟩
    · rw [Function.update_of_ne (by omega), hx0]
    · rcases Nat.lt_succ_iff_lt_or_eq.mp hi with hi' | rfl
      · rw [Function.update_of_ne (by omega), Function.update_of_ne (by omega)]; exact hx1 i hi'
      · rw [Function.update_of_ne (by omega), Function.update_self]; exact h3
    · rcases Nat.le_succ_iff.mp hi with hi' | rfl
      · rw [Function.update_of_ne (by omega)]; exact hxP i hi'
      · rw [Function.update_self]; exact h4
    · rw [loopE_succ, hx2, Function.update_self]; exact h3

/-- If every step writes only its own entry of `out`, entry `j` is the one written by step `j`. -/
theorem trace_out {σ β : Type*} (out : σ → ℕ → β) (val : ℕ → β) (x : ℕ → σ) (n : ℕ)
    (h : ∀ i < n, out (x (i + 1)) = Function.update (out (x i)) i (val i)) :
    ∀ j < n, out (x n) j = val j := by
  induction n with
  | zero => intro j hj; omega
  | succ n ih =>
    intro j hj
    rw [h n (Nat.lt_succ_self n)]
    by_cases hjn : j = n
    · subst hjn; rw [Function.update_self]
    · rw [Function.update_of_ne hjn]
      exact ih (fun i hi => h i (Nat.lt_succ_of_lt hi)) j (by omega)

/-- Entry of a time dependent array used at step `j`: length-one time axes are constant. -/
def entry (a : TimeArr K) (j : ℕ) : Arr3 K := a.at_ (if a.steps = 1 then 0 else j)

/-- Enough data for `steps` steps. -/
def Covers (a : TimeArr K) (steps : ℕ) : Prop := a.steps = 1 ∨ steps ≤ a.steps

theorem get_ok {a : TimeArr K} {steps j : ℕ} (h : Covers a steps) (hj : j < steps) :
    a.get j = .ok (entry a j) := by
  unfold TimeArr.get entry bidx
  rcases h with h | h
  · simp [h]
  · by_cases h1 : a.steps = 1
    · simp [h1]
    · rw [if_neg h1, if_pos (by omega)]

/-- Standing assumptions of a time dependent slab calculation. -/
structure TimedOk (p : Problem K) (xsTotal : ℕ → ℕ → K) (velocity : ℕ → K) (dt : K) : Prop where
  ok : ∀ g < p.groups, SlabOk p xsTotal g
  angles : 1 < p.angles
  velocity : ∀ g < p.groups, 0 < velocity g
  dt : 0 < dt

theorem xsStar_ok {p : Problem K} {xsTotal : ℕ → ℕ → K} {velocity : ℕ → K} {dt : K}
    (h : TimedOk p xsTotal velocity dt) {c : K} (hc : 0 ≤ c) :
    ∀ g < p.groups, SlabOk p (xsStar xsTotal c velocity dt) g := fun g hg =>
  ⟨(h.ok g hg).slab, (h.ok g hg).nonzero, fun i hi => ⟨((h.ok g hg).phys i hi).1,
    add_nonneg ((h.ok g hg).phys i hi).2 (div_nonneg hc (mul_pos (h.velocity g hg) h.dt).le)⟩⟩

theorem bidx_full (A n : ℕ) (h : n < A) : bidx A n = n := by
  unfold bidx; split <;> omega

/-- A known-source solve with the full-shape source `q` solves streaming + collision = `q`. -/
theorem knownAngular_spec (p : Problem K) (xsV : ℕ → ℕ → K) (q : ℕ → ℕ → ℕ → K) (bnd : Arr3 K)
    (hok : ∀ g < p.groups, SlabOk p xsV g) (hA : 1 < p.angles) (hG : 0 < p.groups) :
    ∃ (psi e : ℕ → ℕ → ℕ → K), knownSourceAngular p xsV (fullArr p q) bnd false = .ok psi ∧
      (∀ g < p.groups, KnownSolution p xsV (fullArr p q) bnd g (e g)) ∧
      (∀ g < p.groups, ∀ n < p.angles, ∀ i < p.cells, psi i n g = (e g n i + e g n (i + 1)) / 2) := by
  have h := fun g (hg : g < p.groups) => C08_known_source_exists p xsV (fullArr p q) bnd g (hok g hg)
  choose e he using h
  have hk := fun g (hg : g < p.groups) => ((C08_known_source p xsV (fullArr p q) bnd g (hok g hg) _ (he g hg)).2.2
    hA rfl).1
  obtain ⟨f, hf, _⟩ := hk 0 hG
  refine ⟨f, fun g => if hg : g < p.groups then e g hg else fun _ _ => 0, hf, fun g hg => ?_,
    fun g hg n hn i hi => ?_⟩
  · simp only [hg, dif_pos]; exact he g hg
  · obtain ⟨f', hf', h'⟩ := hk g hg
    rw [hf] at hf'
    have : f = f' := Except.ok.inj hf'
    subst this
    simp only [hg, dif_pos]
    exact h' n hn i hi

theorem knownScalar_spec (p : Problem K) (xsV : ℕ → ℕ → K) (q : ℕ → ℕ → ℕ → K) (bnd : Arr3 K)
    (hok : ∀ g < p.groups, SlabOk p xsV g) (hG : 0 < p.groups) :
    ∃ (phi : ℕ → ℕ → K) (e : ℕ → ℕ → ℕ → K), knownSourceScalar p xsV (fullArr p q) bnd false = .ok phi ∧
      (∀ g < p.groups, KnownSolution p xsV (fullArr p q) bnd g (e g)) ∧
      (∀ g < p.groups, ∀ i < p.cells, phi i g = scalarCenter p.angles p.angleW (e g) i) := by
  have h := fun g (hg : g < p.groups) => C08_known_source_exists p xsV (fullArr p q) bnd g (hok g hg)
  choose e he using h
  have hk := fun g (hg : g < p.groups) => (C08_known_source p xsV (fullArr p q) bnd g (hok g hg) _ (he g hg)).1
  obtain ⟨f, hf, _⟩ := hk 0 hG
  refine ⟨f, fun g => if hg : g < p.groups then e g hg else fun _ _ => 0, hf, fun g hg => ?_,
    fun g hg i hi => ?_⟩
  · simp only [hg, dif_pos]; exact he g hg
  · obtain ⟨f', hf', h'⟩ := hk g hg
    rw [hf] at hf'
    have : f = f' := Except.ok.inj hf'
    subst this
    simp only [hg, dif_pos]
    exact h' i hi

/-- `psi` solves streaming + `xsV` collision = `q` + scattering of `flux`, entering with `bnd`. -/
def StepData (p : Problem K) (xsV : ℕ → ℕ → K) (xs : ℕ → ℕ → ℕ → K) (q : ℕ → ℕ → ℕ → K) (bnd : Arr3 K)
    (flux : ℕ → ℕ → K) (psi : ℕ → ℕ → ℕ → K) : Prop :=
  ∃ e : ℕ → ℕ → ℕ → K, ∀ g < p.groups,
    (∀ n < p.angles, ∀ i < p.cells, psi i n g = (e g n i + e g n (i + 1)) / 2) ∧
    (∀ n < p.angles, ∀ i < p.cells,
      p.angleX n * (e g n (i + 1) - e g n i) / p.dx i + xsV (p.mm i) g * psi i n g
        = q i n g + ∑ g' ∈ range p.groups, xs (p.mm i) g g' * flux i g') ∧
    SweptInflow p.cells p.angles p.angleX p.bcL p.bcR (fun n => sourceAt bnd 0 n g)
      (fun n => sourceAt bnd 1 n g) (e g)

theorem StepData.implicit {p : Problem K} {xsV sigma : ℕ → ℕ → K} {xs : ℕ → ℕ → ℕ → K}
    {q rate psi : ℕ → ℕ → ℕ → K} {ext bnd : Arr3 K} {flux : ℕ → ℕ → K}
    (h : StepData p xsV xs q bnd flux psi)
    (hr : ∀ i < p.cells, ∀ n < p.angles, ∀ g < p.groups,
      xsV (p.mm i) g * psi i n g - q i n g
        = rate i n g + sigma (p.mm i) g * psi i n g - sourceAt ext i n g) :
    ImplicitStep p sigma xs flux rate ext bnd psi := by
  obtain ⟨e, he⟩ := h
  refine ⟨e, fun g hg => ⟨(he g hg).1, fun n hn i hi => ?_, (he g hg).2.2⟩⟩
  have h1 := (he g hg).2.1 n hn i hi
  have h2 := hr i hi n hn g hg
  linear_combination h1 - h2

/-- A step whose scalar flux solves the multigroup equations: the angular flux is that solution. -/
theorem StepData.solved {p : Problem K} {xsV : ℕ → ℕ → K} {xs : ℕ → ℕ → ℕ → K}
    {q psi e' : ℕ → ℕ → ℕ → K} {bnd : Arr3 K} {flux : ℕ → ℕ → K}
    (h : StepData p xsV xs q bnd flux psi) (hok : ∀ g < p.groups, SlabOk p xsV g)
    (hs : SolvesMultigroup p xsV xs (fullArr p q) bnd flux e') :
    ∀ g < p.groups, ∀ n < p.angles, ∀ i < p.cells, psi i n g = (e' g n i + e' g n (i + 1)) / 2 := by
  intro g hg n hn i hi
  obtain ⟨e, he⟩ := h
  obtain ⟨h3, h4, h5⟩ := he g hg
  have hu := swept_unique (hok g hg).nonzero (hok g hg).phys (q := fun n i => q i n g +
        (∑ og ∈ range p.groups, xs (p.mm i) g og * flux i og)) (psi := e' g) (psi' := e g)
      (fun n hn i hi => by
        have := hs.balance g hg n hn i hi
        simp only [fullArr, bidx_full _ _ hn, bidx_full _ _ hg] at this
        rw [this, add_comm])
      (fun n hn i hi => by
        have := h4 n hn i hi
        rw [h3 n hn i hi] at this
        exact this) (hs.inflow g hg) h5
  rw [h3 n hn i hi, hu n hn i hi.le, hu n hn (i + 1) hi]

theorem StepData.scalar {p : Problem K} {xsV : ℕ → ℕ → K} {xs : ℕ → ℕ → ℕ → K}
    {q psi e' : ℕ → ℕ → ℕ → K} {bnd : Arr3 K} {flux : ℕ → ℕ → K}
    (h : StepData p xsV xs q bnd flux psi) (hok : ∀ g < p.groups, SlabOk p xsV g)
    (hs : SolvesMultigroup p xsV xs (fullArr p q) bnd flux e') :
    ∀ i < p.cells, ∀ g < p.groups, flux i g = quadrature p psi i g := by
  intro i hi g hg
  rw [hs.scalar g hg i hi]
  unfold scalarCenter quadrature
  refine sum_congr rfl fun n hn => ?_
  rw [h.solved hok hs g hg n (mem_range.mp hn) i hi]

theorem solves_congr {p : Problem K} {xsV : ℕ → ℕ → K} {xs : ℕ → ℕ → ℕ → K} {ext ext' bnd : Arr3 K}
    {flux : ℕ → ℕ → K} {e : ℕ → ℕ → ℕ → K} (h : SolvesMultigroup p xsV xs ext bnd flux e)
    (he : ∀ i < p.cells, ∀ n < p.angles, ∀ g < p.groups,
      ext.val i (bidx ext.angles n) (bidx ext.groups g)
        = ext'.val i (bidx ext'.angles n) (bidx ext'.groups g)) :
    SolvesMultigroup p xsV xs ext' bnd flux e :=
  ⟨h.scalar, fun g hg n hn i hi => by rw [h.balance g hg n hn i hi]; simp only; rw [he i hi n hn g hg],
    h.inflow⟩

/-- The shared part of a `timed1d` step: succeeds; its flux is source iteration's; its angular flux
solves streaming + `xsV` collision = `q` + scattering of that flux. -/
theorem timedSolve_spec (p : Problem K) (xsV : ℕ → ℕ → K) (xs : ℕ → ℕ → ℕ → K) (q : ℕ → ℕ → ℕ → K)
    (bnd : Arr3 K) (guess : ℕ → ℕ → K) (hok : ∀ g < p.groups, SlabOk p xsV g) (hA : 1 < p.angles)
    (hG : 0 < p.groups) :
    ∃ (flux : ℕ → ℕ → K) (psi : ℕ → ℕ → ℕ → K), timedSolve p xsV (.iso xs) q bnd guess = .ok (flux, psi) ∧
      sourceIteration p xsV (.iso xs) (fullArr p q) bnd guess = .ok flux ∧
      StepData p xsV xs q bnd flux psi := by
  obtain ⟨x, s, _, _, _, _, he, _⟩ := C21_source_iteration_stops p xsV xs (fullArr p q) bnd guess hok
  obtain ⟨psi, e, h1, h2, h3⟩ := knownAngular_spec p xsV (timeRightSide p.groups q (x s) xs p.mm) bnd
    hok hA hG
  refine ⟨x s, psi, ?_, he, e, fun g hg => ⟨h3 g hg, fun n hn i hi => ?_, (h2 g hg).2⟩⟩
  · unfold timedSolve
    rw [he]; simp only; rw [h1]
  · have hb := (h2 g hg).1 n hn i hi
    simp only [fullArr, timeRightSide, bidx_full _ _ hn, bidx_full _ _ hg, accum_eq_sum] at hb
    rw [h3 g hg n hn i hi, hb]
    congr 1
    exact sum_congr rfl fun _ _ => mul_comm _ _

/-! ## C32 -/

theorem scalarFlux_eq (p : Problem K) (psi : ℕ → ℕ → ℕ → K) (i g : ℕ) :
    scalarFlux p psi i g = quadrature p psi i g := by
  unfold scalarFlux quadrature
  rw [accum_eq_sum]
  exact sum_congr rfl fun _ _ => mul_comm _ _


theorem transfer_iso (xs : ℕ → ℕ → ℕ → K) (f : Fission K) :
    transferMatrix (.iso xs) f = .iso fun m g g' => xs m g g' + fissionMatrix f m g g' := by
  cases f <;> rfl

/-- C32: `timed1d.backward_euler` succeeds and its angular fluxes `psi 0 = initial, psi 1, ...` satisfy
the implicit Euler equation of every step, with that step's source and boundary data and the returned
scalar flux of that step in the scattering/fission source.  The returned scalar flux of step `j` is what
`source_iteration` returns on the step's effective problem (total plus `1/(v dt)`, source plus
`psi_j/(v dt)`), started from the previous step's flux.  Whenever the returned scalar flux of a step
is an exact solution of the step's multigroup equations (the inner iteration has converged), it is the
quadrature sum of the step's angular flux. -/
theorem C32_backward_euler (p : Problem K) (xsTotal : ℕ → ℕ → K) (scatter : ℕ → ℕ → ℕ → K)
    (fission : Fission K) (velocity : ℕ → K) (external boundary : TimeArr K) (steps : ℕ) (dt : K)
    (init : ℕ → ℕ → ℕ → K) (hok : TimedOk p xsTotal velocity dt) (hG : 0 < p.groups)
    (hext : Covers external steps) (hbnd : Covers boundary steps) :
    ∃ (out : ℕ → ℕ → ℕ → K) (psi : ℕ → ℕ → ℕ → ℕ → K),
      backwardEuler p xsTotal (.iso scatter) fission velocity external boundary steps dt init
        = .ok out ∧ psi 0 = init ∧
      (∀ j < steps, ImplicitStep p xsTotal
        (fun m g g' => scatter m g g' + fissionMatrix fission m g g') (out j)
        (fun i n g => (psi (j + 1) i n g - psi j i n g) / (velocity g * dt))
        (entry external j) (entry boundary j) (psi (j + 1))) ∧
      (∀ j < steps, sourceIteration p (fun m g => xsTotal m g + 1 / (velocity g * dt))
          (.iso fun m g g' => scatter m g g' + fissionMatrix fission m g g')
          ⟨p.angles, p.groups, fun i n g => sourceAt (entry external j) i n g
            + psi j i n g / (velocity g * dt)⟩ (entry boundary j)
          (if j = 0 then quadrature p init else out (j - 1)) = .ok (out j)) ∧
      (∀ j < steps, (∃ e, SolvesMultigroup p (fun m g => xsTotal m g + 1 / (velocity g * dt))
          (fun m g g' => scatter m g g' + fissionMatrix fission m g g')
          ⟨p.angles, p.groups, fun i n g => sourceAt (entry external j) i n g
            + psi j i n g / (velocity g * dt)⟩ (entry boundary j) (out j) e) →
        ∀ i < p.cells, ∀ g < p.groups, out j i g = quadrature p (psi (j + 1)) i g) := by
  set xs : ℕ → ℕ → ℕ → K := fun m g g' => scatter m g g' + fissionMatrix fission m g g' with hxs
  have hokV := xsStar_ok hok (zero_le_one (α := K))
  obtain ⟨x, hx0, hstep, _, hrun⟩ := loopE_trace (fun _ _ => True) steps
    (beStep p xsTotal (.iso xs) velocity external boundary dt)
    ⟨scalarFlux p init, init, fun _ _ _ => 0⟩ trivial (fun j hj s _ => by
      obtain ⟨flux, psi, h1, _⟩ := timedSolve_spec p (xsStar xsTotal 1 velocity dt) xs
        (qStar1 (entry external j) velocity dt s.psi) (entry boundary j) s.fluxOld hokV hok.angles hG
      refine ⟨⟨flux, psi, Function.update s.out j flux⟩, ?_, trivial⟩
      unfold beStep
      rw [get_ok hext hj, get_ok hbnd hj]; simp only; rw [h1])
  have hspec : ∀ j < steps,
      (x (j + 1)).out = Function.update (x j).out j (x (j + 1)).fluxOld ∧
      sourceIteration p (xsStar xsTotal 1 velocity dt) (.iso xs)
        (fullArr p (qStar1 (entry external j) velocity dt (x j).psi)) (entry boundary j) (x j).fluxOld
        = .ok (x (j + 1)).fluxOld ∧
      StepData p (xsStar xsTotal 1 velocity dt) xs (qStar1 (entry external j) velocity dt (x j).psi)
        (entry boundary j) (x (j + 1)).fluxOld (x (j + 1)).psi := by
    intro j hj
    obtain ⟨flux, psi, h1, h2, h3⟩ := timedSolve_spec p (xsStar xsTotal 1 velocity dt) xs
        (qStar1 (entry external j) velocity dt (x j).psi) (entry boundary j) (x j).fluxOld hokV hok.angles hG
    have hs := hstep j hj
    unfold beStep at hs
    rw [get_ok hext hj, get_ok hbnd hj] at hs
    simp only at hs
    rw [h1] at hs
    rw [← Except.ok.inj hs]
    exact ⟨rfl, h2, h3⟩
  have hout := trace_out BEState.out (fun j => (x (j + 1)).fluxOld) x steps fun j hj => (hspec j hj).1
  refine ⟨(x steps).out, fun j => (x j).psi, ?_, by simp only [hx0], fun j hj => ?_, fun j hj => ?_,
    fun j hj => ?_⟩
  · unfold backwardEuler
    rw [transfer_iso, hrun]; rfl
  · rw [hout j hj]
    refine (hspec j hj).2.2.implicit fun i hi n hn g hg => ?_
    simp only [xsStar, qStar1, sourceAt, bidx]
    ring
  · have hguess : (if j = 0 then quadrature p init else (x steps).out (j - 1)) = (x j).fluxOld := by
      by_cases hj0 : j = 0
      · subst hj0
        rw [if_pos rfl, hx0]
        funext i g
        exact (scalarFlux_eq p init i g).symm
      · rw [if_neg hj0, hout (j - 1) (by omega), show j - 1 + 1 = j by omega]
    rw [hguess, hout j hj, ← (hspec j hj).2.1]
    congr 1
    unfold fullArr
    congr 1
    funext i n g
    simp only [qStar1, sourceAt, bidx]
    ring
  · rintro ⟨e', he'⟩
    rw [hout j hj] at he' ⊢
    refine (hspec j hj).2.2.scalar hokV (e' := e') (solves_congr he' fun i hi n hn g hg => ?_)
    simp only [fullArr, bidx_full _ _ hn, bidx_full _ _ hg]
    simp only [qStar1, sourceAt, bidx]
    ring

/-! ## C33 -/

/-- C33: `timed1d.bdf2` succeeds; its first step is backward Euler and every later step satisfies the
second-order equation. -/
theorem C33_bdf2 (p : Problem K) (xsTotal : ℕ → ℕ → K) (scatter : ℕ → ℕ → ℕ → K)
    (fission : Fission K) (velocity : ℕ → K) (external boundary : TimeArr K) (steps : ℕ) (dt : K)
    (init : ℕ → ℕ → ℕ → K) (hok : TimedOk p xsTotal velocity dt) (hG : 0 < p.groups)
    (hext : Covers external steps) (hbnd : Covers boundary steps) :
    ∃ (out : ℕ → ℕ → ℕ → K) (psi : ℕ → ℕ → ℕ → ℕ → K),
      bdf2 p xsTotal (.iso scatter) fission velocity external boundary steps dt init
        = .ok out ∧ psi 0 = init ∧
      (∀ j < steps, ImplicitStep p xsTotal
        (fun m g g' => scatter m g g' + fissionMatrix fission m g g') (out j)
        (fun i n g => (if j = 0 then psi 1 i n g - psi 0 i n g
          else 3 / 2 * psi (j + 1) i n g - 2 * psi j i n g + 1 / 2 * psi (j - 1) i n g)
            / (velocity g * dt))
        (entry external j) (entry boundary j) (psi (j + 1))) ∧
      (∀ j < steps, sourceIteration p
          (fun m g => xsTotal m g + (if j = 0 then 1 else 3 / 2) / (velocity g * dt))
          (.iso fun m g g' => scatter m g g' + fissionMatrix fission m g g')
          ⟨p.angles, p.groups, fun i n g => sourceAt (entry external j) i n g
            + (if j = 0 then psi 0 i n g else 2 * psi j i n g - 1 / 2 * psi (j - 1) i n g)
              / (velocity g * dt)⟩ (entry boundary j)
          (if j = 0 then quadrature p init else out (j - 1)) = .ok (out j)) ∧
      (∀ j < steps, (∃ e, SolvesMultigroup p
          (fun m g => xsTotal m g + (if j = 0 then 1 else 3 / 2) / (velocity g * dt))
          (fun m g g' => scatter m g g' + fissionMatrix fission m g g')
          ⟨p.angles, p.groups, fun i n g => sourceAt (entry external j) i n g
            + (if j = 0 then psi 0 i n g else 2 * psi j i n g - 1 / 2 * psi (j - 1) i n g)
              / (velocity g * dt)⟩ (entry boundary j) (out j) e) →
        ∀ i < p.cells, ∀ g < p.groups, out j i g = quadrature p (psi (j + 1)) i g) := by
  set xs : ℕ → ℕ → ℕ → K := fun m g g' => scatter m g g' + fissionMatrix fission m g g' with hxs
  let num : ℕ → K := fun j => if j = 0 then 1 else 3 / 2
  have hnum : ∀ j, (0 : K) ≤ num j := fun j => by
    show (0 : K) ≤ if j = 0 then 1 else 3 / 2
    split <;> norm_num
  have hokV := fun j => xsStar_ok hok (hnum j)
  let qs : ℕ → BDFState K → ℕ → ℕ → ℕ → K := fun j s =>
    if j = 0 then qStar1 (entry external j) velocity dt s.psi1
    else qStar2 (entry external j) velocity dt s.psi1 s.psi2
  obtain ⟨x, hx0, hstep, hP, hrun⟩ := loopE_trace
    (fun j (s : BDFState K) => s.xsV = xsStar xsTotal (num j) velocity dt) steps
    (bdfStep p xsTotal (.iso xs) velocity external boundary dt)
    ⟨scalarFlux p init, init, fun _ _ _ => 0, xsStar xsTotal 1 velocity dt, fun _ _ _ => 0⟩
    rfl (fun j hj s hs => by
      obtain ⟨flux, psi, h1, _⟩ := timedSolve_spec p (xsStar xsTotal (num j) velocity dt) xs
        (qs j s) (entry boundary j) s.fluxOld (hokV j) hok.angles hG
      refine ⟨⟨flux, psi, s.psi1, if j = 0 then xsStar xsTotal (3 / 2) velocity dt else s.xsV,
        Function.update s.out j flux⟩, ?_, ?_⟩
      · unfold bdfStep
        rw [get_ok hext hj, get_ok hbnd hj]; simp only; rw [hs, h1]
      · by_cases hj0 : j = 0
        · simp only [hj0, if_true]; rfl
        · simp only [hj0, if_false]
          rw [hs]
          have : num j = num (j + 1) := by
            show (if j = 0 then (1 : K) else 3 / 2) = if j + 1 = 0 then 1 else 3 / 2
            rw [if_neg hj0, if_neg (by omega)]
          rw [this])
  have hspec : ∀ j < steps,
      (x (j + 1)).out = Function.update (x j).out j (x (j + 1)).fluxOld ∧
      (x (j + 1)).psi2 = (x j).psi1 ∧
      sourceIteration p (xsStar xsTotal (num j) velocity dt) (.iso xs) (fullArr p (qs j (x j)))
        (entry boundary j) (x j).fluxOld = .ok (x (j + 1)).fluxOld ∧
      StepData p (xsStar xsTotal (num j) velocity dt) xs (qs j (x j))
        (entry boundary j) (x (j + 1)).fluxOld (x (j + 1)).psi1 := by
    intro j hj
    obtain ⟨flux, psi, h1, h2, h3⟩ := timedSolve_spec p (xsStar xsTotal (num j) velocity dt) xs
        (qs j (x j)) (entry boundary j) (x j).fluxOld (hokV j) hok.angles hG
    have hs := hstep j hj
    unfold bdfStep at hs
    rw [get_ok hext hj, get_ok hbnd hj] at hs
    simp only at hs
    rw [hP j hj.le, h1] at hs
    rw [← Except.ok.inj hs]
    exact ⟨rfl, rfl, h2, h3⟩
  have hout := trace_out BDFState.out (fun j => (x (j + 1)).fluxOld) x steps fun j hj => (hspec j hj).1
  have hpsi2 : ∀ j < steps, j ≠ 0 → (x j).psi2 = (x (j - 1)).psi1 := fun j hj hj0 => by
    have := (hspec (j - 1) (by omega)).2.1
    rwa [show j - 1 + 1 = j by omega] at this
  refine ⟨(x steps).out, fun j => (x j).psi1, ?_, by simp only [hx0], fun j hj => ?_, fun j hj => ?_,
    fun j hj => ?_⟩
  · unfold bdf2
    rw [transfer_iso, hrun]; rfl
  · rw [hout j hj]
    refine (hspec j hj).2.2.2.implicit fun i hi n hn g hg => ?_
    by_cases hj0 : j = 0
    · subst hj0
      simp only [xsStar, qs, num, if_true, qStar1, sourceAt, bidx]
      ring
    · simp only [xsStar, qs, num, hj0, if_false, qStar2, sourceAt, bidx, hpsi2 j hj hj0]
      have hne : velocity g * dt ≠ 0 := (mul_pos (hok.velocity g hg) hok.dt).ne'
      have h1 := (hok.velocity g hg).ne'
      have h2 := hok.dt.ne'
      field_simp
      ring
  · have hguess : (if j = 0 then quadrature p init else (x steps).out (j - 1)) = (x j).fluxOld := by
      by_cases hj0 : j = 0
      · subst hj0
        rw [if_pos rfl, hx0]
        funext i g
        exact (scalarFlux_eq p init i g).symm
      · rw [if_neg hj0, hout (j - 1) (by omega), show j - 1 + 1 = j by omega]
    rw [hguess, hout j hj, ← (hspec j hj).2.2.1]
    congr 1
    unfold fullArr
    congr 1
    funext i n g
    by_cases hj0 : j = 0
    · subst hj0
      simp only [qs, if_true, qStar1, sourceAt, bidx]
      ring
    · simp only [qs, hj0, if_false, qStar2, sourceAt, bidx, hpsi2 j hj hj0]
      ring
  · rintro ⟨e', he'⟩
    rw [hout j hj] at he' ⊢
    refine (hspec j hj).2.2.2.scalar (hokV j) (e' := e') (solves_congr he' fun i hi n hn g hg => ?_)
    simp only [fullArr, bidx_full _ _ hn, bidx_full _ _ hg, qs]
    by_cases hj0 : j = 0
    · subst hj0
      simp only [if_true, qStar1, sourceAt, bidx]
      ring
    · simp only [hj0, if_false, qStar2, sourceAt, bidx, hpsi2 j hj hj0]
      have h1 := (hok.velocity g hg).ne'
      have h2 := hok.dt.ne'
      field_simp
      ring

/-- C33: both difference quotients are exact: BDF2's for quadratics, Euler's for affine functions of
time; and BDF2's is not exact for cubics (the order is exactly two). -/
theorem C33_exact_on_quadratics (a b c t dt : K) (hdt : dt ≠ 0) :
    (3 / 2 * (a + b * (t + dt) + c * (t + dt) ^ 2) - 2 * (a + b * t + c * t ^ 2)
      + 1 / 2 * (a + b * (t - dt) + c * (t - dt) ^ 2)) / dt = b + 2 * c * (t + dt) ∧
    ((a + b * (t + dt)) - (a + b * t)) / dt = b ∧
    (3 / 2 * (t + dt) ^ 3 - 2 * t ^ 3 + 1 / 2 * (t - dt) ^ 3) / dt ≠ 3 * (t + dt) ^ 2 := by
  refine ⟨by field_simp; ring, by field_simp; ring, fun h => ?_⟩
  have : dt ^ 2 = 0 := by
    have h' : (3 / 2 * (t + dt) ^ 3 - 2 * t ^ 3 + 1 / 2 * (t - dt) ^ 3) = 3 * (t + dt) ^ 2 * dt :=
      (div_eq_iff hdt).mp h
    have : dt ^ 2 * dt = 0 := by linear_combination -(1 / 2 : K) * h'
    rcases mul_eq_zero.mp this with h | h
    · exact h
    · exact absurd h hdt
  exact hdt (pow_eq_zero_iff (two_ne_zero) |>.mp this)

/-! ## C34 -/

/-- One outer sweep started from the solution returns the solution. -/
theorem oneSweep_steady (p : Problem K) (xsTotal : ℕ → ℕ → K) (xs : ℕ → ℕ → ℕ → K)
    (external boundary : Arr3 K) (hok : ∀ g < p.groups, SlabOk p xsTotal g) (phi : ℕ → ℕ → K)
    (psi : ℕ → ℕ → ℕ → K) (hsol : SolvesMultigroup p xsTotal xs external boundary phi psi)
    (old : ℕ → ℕ → K) (hold : ∀ i < p.cells, ∀ g < p.groups, old i g = phi i g) :
    ∃ new, oneSweepIso p xsTotal xs external boundary old = .ok new ∧
      ∀ i < p.cells, ∀ g < p.groups, new i g = phi i g := by
  obtain ⟨new, h1, h2⟩ := loopE_inv (fun k (f : ℕ → ℕ → K) =>
      ∀ i < p.cells, ∀ g < k, f i g = phi i g)
    p.groups (groupStepIso p xsTotal xs external boundary old) (fun _ _ => 0)
    (fun i _ g hg => absurd hg (Nat.not_lt_zero _)) (fun k hk f hf => by
      have sweepFix : ∀ a : ℕ → K, (∀ i < p.cells, a i = phi i k) →
          ∃ b, isotropicSweep p.cells p.angles (fun m => xsTotal m k) (fun m => xs m k k)
            (offScatter p.groups f old p.mm xs k) (external.group (bidx external.groups k))
            (boundary.group (bidx boundary.groups k)) p.mm p.dx p.angleX p.angleW p.bcL p.bcR false a
            = .ok b ∧ ∀ i < p.cells, b i = phi i k := by
        intro a ha
        obtain ⟨b, psi', k1, k2, k3, k4⟩ := isotropicSweep_spec (N := p.cells) (A := p.angles)
          (fun m => xsTotal m k) (fun m => xs m k k) (offScatter p.groups f old p.mm xs k)
          (external.group (bidx external.groups k)) (boundary.group (bidx boundary.groups k)) p.mm p.dx
          p.angleX p.angleW p.bcL p.bcR false a (hok k hk).nonzero (hok k hk).phys
        refine ⟨b, k1, fun i hi => ?_⟩
        have hu := swept_unique (hok k hk).nonzero (hok k hk).phys k2 (psi' := psi k)
          (fun n hn i hi => by
            rw [hsol.balance k hk n hn i hi]
            simp only [Arr3.group]
            rw [offScatter_eq _ _ _ _ _ hk, ← add_sum_erase (range p.groups) _ (mem_range.mpr hk), ha i hi]
            have : ∑ og ∈ (range p.groups).erase k, xs (p.mm i) k og * (if og < k then f i og else old i og)
                = ∑ og ∈ (range p.groups).erase k, xs (p.mm i) k og * phi i og := by
              refine sum_congr rfl fun og hog => ?_
              have hog := mem_range.mp (mem_erase.mp hog).2
              split
              · rw [hf i hi og (by assumption)]
              · rw [hold i hi og hog]
            rw [this]; ring) k3 (hsol.inflow k hk)
        rw [k4 i, hsol.scalar k hk i hi]
        simp only [Bool.false_eq_true, if_false, if_pos hi]
        unfold scalarCenter
        refine sum_congr rfl fun n hn => ?_
        rw [hu n (mem_range.mp hn) i hi.le, hu n (mem_range.mp hn) (i + 1) hi]
      obtain ⟨x, j, _, _, hstep, hP, he, _⟩ := iterateE_spec (isotropicSweep p.cells p.angles
        (fun m => xsTotal m k) (fun m => xs m k k)
        (offScatter p.groups f old p.mm xs k) (external.group (bidx external.groups k))
        (boundary.group (bidx boundary.groups k)) p.mm p.dx p.angleX p.angleW p.bcL p.bcR false) p.convIn
        (fun a => ∀ i < p.cells, a i = phi i k) sweepFix 99 (fun i => old i k)
        (fun i hi => hold i hi k hk)
      refine ⟨putCol f k (x (j + 1)), ?_, fun i hi g hg => ?_⟩
      · unfold groupStepIso
        simp only [(hok k hk).slab, if_true]
        unfold isotropicSn
        rw [he]; rfl
      · unfold putCol
        by_cases hgk : g = k
        · subst hgk; rw [if_pos rfl]; exact hP (j + 1) (le_refl _) i hi
        · rw [if_neg hgk]; exact hf i hi g (by omega))
  exact ⟨new, h1, fun i hi g hg => h2 i hi g hg⟩

/-- Source iteration started from a solution returns it, whatever the convergence criteria do. -/
theorem sourceIteration_steady (p : Problem K) (xsTotal : ℕ → ℕ → K) (xs : ℕ → ℕ → ℕ → K)
    (external boundary : Arr3 K) (hok : ∀ g < p.groups, SlabOk p xsTotal g) (phi : ℕ → ℕ → K)
    (psi : ℕ → ℕ → ℕ → K) (hsol : SolvesMultigroup p xsTotal xs external boundary phi psi)
    (guess : ℕ → ℕ → K) (hguess : ∀ i < p.cells, ∀ g < p.groups, guess i g = phi i g) :
    ∃ flux, sourceIteration p xsTotal (.iso xs) external boundary guess = .ok flux ∧
      ∀ i < p.cells, ∀ g < p.groups, flux i g = phi i g := by
  obtain ⟨x, k, _, _, _, hP, he, _⟩ := iterateE_spec
    (oneSweepIso p xsTotal xs external boundary) p.convOut
    (fun a => ∀ i < p.cells, ∀ g < p.groups, a i g = phi i g)
    (fun a ha => oneSweep_steady p xsTotal xs external boundary hok phi psi hsol a ha) 99 guess hguess
  exact ⟨x (k + 1), he, hP (k + 1) (le_refl _)⟩

theorem solves_congr_flux {p : Problem K} {xsV : ℕ → ℕ → K} {xs : ℕ → ℕ → ℕ → K} {ext bnd : Arr3 K}
    {flux flux' : ℕ → ℕ → K} {e : ℕ → ℕ → ℕ → K} (h : SolvesMultigroup p xsV xs ext bnd flux e)
    (he : ∀ i < p.cells, ∀ g < p.groups, flux' i g = flux i g) :
    SolvesMultigroup p xsV xs ext bnd flux' e :=
  ⟨fun g hg i hi => by rw [he i hi g hg]; exact h.scalar g hg i hi, fun g hg n hn i hi => by
    rw [h.balance g hg n hn i hi]
    simp only
    congr 1
    exact sum_congr rfl fun og hog => by rw [he i hi og (mem_range.mp hog)], h.inflow⟩

/-- A `timed1d` step whose `xsV`, `q` describe a solution `(phi, e)` and whose guess is `phi` reproduces
the solution. -/
theorem timedSolve_steady {p : Problem K} {xsV : ℕ → ℕ → K} {xs : ℕ → ℕ → ℕ → K} {q : ℕ → ℕ → ℕ → K}
    {bnd : Arr3 K} {guess phi : ℕ → ℕ → K} {e : ℕ → ℕ → ℕ → K}
    (hok : ∀ g < p.groups, SlabOk p xsV g) (hA : 1 < p.angles) (hG : 0 < p.groups)
    (hsol : SolvesMultigroup p xsV xs (fullArr p q) bnd phi e)
    (hguess : ∀ i < p.cells, ∀ g < p.groups, guess i g = phi i g) :
    ∃ (flux : ℕ → ℕ → K) (psi : ℕ → ℕ → ℕ → K), timedSolve p xsV (.iso xs) q bnd guess = .ok (flux, psi) ∧
      (∀ i < p.cells, ∀ g < p.groups, flux i g = phi i g) ∧
      (∀ g < p.groups, ∀ n < p.angles, ∀ i < p.cells, psi i n g = (e g n i + e g n (i + 1)) / 2) := by
  obtain ⟨flux, psi, h1, h2, h3⟩ := timedSolve_spec p xsV xs q bnd guess hok hA hG
  obtain ⟨flux', k1, k2⟩ := sourceIteration_steady p xsV xs (fullArr p q) bnd hok phi e hsol guess hguess
  rw [h2] at k1
  have : flux = flux' := Except.ok.inj k1
  subst this
  exact ⟨flux, psi, h1, k2, h3.solved hok (solves_congr_flux hsol k2)⟩

/-- Adding the same multiple of the solution to collision and source keeps the solution. -/
theorem solves_shift {p : Problem K} {xsTotal : ℕ → ℕ → K} {xs : ℕ → ℕ → ℕ → K} {ext bnd : Arr3 K}
    {phi : ℕ → ℕ → K} {e : ℕ → ℕ → ℕ → K} (h : SolvesMultigroup p xsTotal xs ext bnd phi e)
    (a : ℕ → K) (xsV : ℕ → ℕ → K) (q : ℕ → ℕ → ℕ → K)
    (hV : ∀ m g, xsV m g = xsTotal m g + a g)
    (hq : ∀ i < p.cells, ∀ n < p.angles, ∀ g < p.groups,
      q i n g = sourceAt ext i n g + a g * ((e g n i + e g n (i + 1)) / 2)) :
    SolvesMultigroup p xsV xs (fullArr p q) bnd phi e :=
  ⟨h.scalar, fun g hg n hn i hi => by
    have := h.balance g hg n hn i hi
    simp only [fullArr, bidx_full _ _ hn, bidx_full _ _ hg] at this ⊢
    rw [hV, hq i hi n hn g hg]
    unfold sourceAt
    simp only [bidx] at this
    linear_combination this, h.inflow⟩

/-- C34 for `timed1d.backward_euler`: started from a steady solution of the discrete transport equation
with constant data, every step returns exactly that solution, for every time step and every
convergence behaviour of the inner iterations. -/
theorem C34_backward_euler_steady (p : Problem K) (xsTotal : ℕ → ℕ → K) (scatter : ℕ → ℕ → ℕ → K)
    (fission : Fission K) (velocity : ℕ → K) (external boundary : TimeArr K) (steps : ℕ) (dt : K)
    (init : ℕ → ℕ → ℕ → K) (hok : TimedOk p xsTotal velocity dt) (hG : 0 < p.groups)
    (hext : Covers external steps) (hbnd : Covers boundary steps) (ext bnd : Arr3 K)
    (hce : ∀ j < steps, entry external j = ext) (hcb : ∀ j < steps, entry boundary j = bnd)
    (phi : ℕ → ℕ → K) (e : ℕ → ℕ → ℕ → K)
    (hsol : SolvesMultigroup p xsTotal (fun m g g' => scatter m g g' + fissionMatrix fission m g g')
      ext bnd phi e)
    (hinit : ∀ g < p.groups, ∀ n < p.angles, ∀ i < p.cells, init i n g = (e g n i + e g n (i + 1)) / 2) :
    ∃ out, backwardEuler p xsTotal (.iso scatter) fission velocity external boundary steps dt init
        = .ok out ∧ ∀ j < steps, ∀ i < p.cells, ∀ g < p.groups, out j i g = phi i g := by
  have hokV := xsStar_ok hok (zero_le_one (α := K))
  obtain ⟨s, h1, h2, h3, h4⟩ := loopE_inv (fun j (s : BEState K) =>
      (∀ i < p.cells, ∀ g < p.groups, s.fluxOld i g = phi i g) ∧
      (∀ g < p.groups, ∀ n < p.angles, ∀ i < p.cells, s.psi i n g = (e g n i + e g n (i + 1)) / 2) ∧
      ∀ k < j, ∀ i < p.cells, ∀ g < p.groups, s.out k i g = phi i g) steps
    (beStep p xsTotal (.iso fun m g g' => scatter m g g' + fissionMatrix fission m g g') velocity
      external boundary dt)
    ⟨scalarFlux p init, init, fun _ _ _ => 0⟩ ⟨fun i hi g hg => by
        rw [hsol.scalar g hg i hi]
        show accum _ _ = _
        rw [accum_eq_sum]
        exact sum_congr rfl fun n hn => by rw [hinit g hg n (mem_range.mp hn) i hi, mul_comm],
      hinit, fun k hk => absurd hk (Nat.not_lt_zero _)⟩ (fun j hj s hs => by
      obtain ⟨k1, k2, k3⟩ := hs
      obtain ⟨flux, psi, t1, t2, t3⟩ := timedSolve_steady (q := qStar1 ext velocity dt s.psi) hokV
        hok.angles hG (solves_shift hsol (fun g => 1 / (velocity g * dt)) _ _ (fun m g => rfl)
          (fun i hi n hn g hg => by rw [← k2 g hg n hn i hi]; rfl)) k1
      refine ⟨⟨flux, psi, Function.update s.out j flux⟩, ?_, t2, t3, fun k hk i hi g hg => ?_⟩
      · unfold beStep
        rw [get_ok hext hj, get_ok hbnd hj, hce j hj, hcb j hj]; simp only; rw [t1]
      · by_cases hkj : k = j
        · subst hkj; simp only [Function.update_self]; exact t2 i hi g hg
        · simp only [Function.update_of_ne hkj]; exact k3 k (by omega) i hi g hg)
  refine ⟨s.out, ?_, h4⟩
  unfold backwardEuler
  rw [transfer_iso, h1]; rfl

/-- C34 for `timed1d.bdf2`. -/
theorem C34_bdf2_steady (p : Problem K) (xsTotal : ℕ → ℕ → K) (scatter : ℕ → ℕ → ℕ → K)
    (fission : Fission K) (velocity : ℕ → K) (external boundary : TimeArr K) (steps : ℕ) (dt : K)
    (init : ℕ → ℕ → ℕ → K) (hok : TimedOk p xsTotal velocity dt) (hG : 0 < p.groups)
    (hext : Covers external steps) (hbnd : Covers boundary steps) (ext bnd : Arr3 K)
    (hce : ∀ j < steps, entry external j = ext) (hcb : ∀ j < steps, entry boundary j = bnd)
    (phi : ℕ → ℕ → K) (e : ℕ → ℕ → ℕ → K)
    (hsol : SolvesMultigroup p xsTotal (fun m g g' => scatter m g g' + fissionMatrix fission m g g')
      ext bnd phi e)
    (hinit : ∀ g < p.groups, ∀ n < p.angles, ∀ i < p.cells, init i n g = (e g n i + e g n (i + 1)) / 2) :
    ∃ out, bdf2 p xsTotal (.iso scatter) fission velocity external boundary steps dt init
        = .ok out ∧ ∀ j < steps, ∀ i < p.cells, ∀ g < p.groups, out j i g = phi i g := by
  let num : ℕ → K := fun j => if j = 0 then 1 else 3 / 2
  have hnum : ∀ j, (0 : K) ≤ num j := fun j => by
    show (0 : K) ≤ if j = 0 then 1 else 3 / 2
    split <;> norm_num
  obtain ⟨s, h1, h2, h3, h4, h5, h6⟩ := loopE_inv (fun j (s : BDFState K) =>
      (∀ i < p.cells, ∀ g < p.groups, s.fluxOld i g = phi i g) ∧
      (∀ g < p.groups, ∀ n < p.angles, ∀ i < p.cells, s.psi1 i n g = (e g n i + e g n (i + 1)) / 2) ∧
      (j ≠ 0 → ∀ g < p.groups, ∀ n < p.angles, ∀ i < p.cells,
        s.psi2 i n g = (e g n i + e g n (i + 1)) / 2) ∧
      s.xsV = xsStar xsTotal (num j) velocity dt ∧
      ∀ k < j, ∀ i < p.cells, ∀ g < p.groups, s.out k i g = phi i g) steps
    (bdfStep p xsTotal (.iso fun m g g' => scatter m g g' + fissionMatrix fission m g g') velocity
      external boundary dt)
    ⟨scalarFlux p init, init, fun _ _ _ => 0, xsStar xsTotal 1 velocity dt, fun _ _ _ => 0⟩
    ⟨fun i hi g hg => by
        rw [hsol.scalar g hg i hi]
        show accum _ _ = _
        rw [accum_eq_sum]
        exact sum_congr rfl fun n hn => by rw [hinit g hg n (mem_range.mp hn) i hi, mul_comm],
      hinit, fun h => absurd rfl h, rfl, fun k hk => absurd hk (Nat.not_lt_zero _)⟩ (fun j hj s hs => by
      obtain ⟨k1, k2, k3, k4, k5⟩ := hs
      obtain ⟨flux, psi, t1, t2, t3⟩ := timedSolve_steady
        (q := if j = 0 then qStar1 ext velocity dt s.psi1 else qStar2 ext velocity dt s.psi1 s.psi2)
        (xsStar_ok hok (hnum j))
        hok.angles hG (solves_shift hsol (fun g => num j / (velocity g * dt)) _ _ (fun m g => rfl)
          (fun i hi n hn g hg => by
            have hv := (hok.velocity g hg).ne'
            have hd := hok.dt.ne'
            by_cases hj0 : j = 0
            · simp only [hj0, num, if_true]
              rw [← k2 g hg n hn i hi]; rfl
            · simp only [hj0, num, if_false]
              unfold qStar2
              rw [k2 g hg n hn i hi, k3 hj0 g hg n hn i hi]
              simp only [sourceAt, bidx]
              field_simp
              ring)) k1
      refine ⟨⟨flux, psi, s.psi1, if j = 0 then xsStar xsTotal (3 / 2) velocity dt else s.xsV,
        Function.update s.out j flux⟩, ?_, t2, t3, fun _ => k2, ?_, fun k hk i hi g hg => ?_⟩
      · unfold bdfStep
        rw [get_ok hext hj, get_ok hbnd hj, hce j hj, hcb j hj]; simp only; rw [k4, t1]
      · by_cases hj0 : j = 0
        · simp only [hj0, if_true]; rfl
        · simp only [hj0, if_false]
          rw [k4]
          have : num j = num (j + 1) := by
            show (if j = 0 then (1 : K) else 3 / 2) = if j + 1 = 0 then 1 else 3 / 2
            rw [if_neg hj0, if_neg (by omega)]
          rw [this]
      · by_cases hkj : k = j
        · subst hkj; simp only [Function.update_self]; exact t2 i hi g hg
        · simp only [Function.update_of_ne hkj]; exact k5 k (by omega) i hi g hg)
  refine ⟨s.out, ?_, h6⟩
  unfold bdf2
  rw [transfer_iso, h1]; rfl

/-! ## C35 -/

/-- The first entry of `a` repeated `T` times along the time axis. -/
def repeatTime (T : ℕ) (a : TimeArr K) : TimeArr K := ⟨T, fun _ => a.at_ 0⟩

theorem get_repeatTime {a : TimeArr K} (ha : a.steps = 1) {T steps j : ℕ} (hT : steps ≤ T) (hj : j < steps) :
    (repeatTime T a).get j = a.get j := by
  rw [get_ok (a := repeatTime T a) (Or.inr hT) hj, get_ok (Or.inl ha) hj]
  unfold entry repeatTime
  simp [ha]

/-- C35: for all time integrators (`timed1d`, `hybrid1d`, `vhybrid1d`; first and second order), sources
and boundaries with a time axis of length 1 give exactly the results of the same data repeated for
every step. -/
theorem C35_constant_data (external boundary : TimeArr K) (he : external.steps = 1)
    (hb : boundary.steps = 1) (steps T T' : ℕ) (hT : steps ≤ T) (hT' : steps ≤ T') (dt : K)
    (init : ℕ → ℕ → ℕ → K) (p pC : Problem K) (xsTotal xsTotalC : ℕ → ℕ → K) (scatter scatterC : Scatter K)
    (fission fissionC : Fission K) (velocity velocityC : ℕ → K) (coarse : ℕ → ℕ) (factor : ℕ → K)
    (second : Bool) (grid : ℕ → Collided K) (vs vf : ℕ → ℕ → ℕ → K) :
    backwardEuler p xsTotal scatter fission velocity (repeatTime T external) (repeatTime T' boundary) steps
        dt init = backwardEuler p xsTotal scatter fission velocity external boundary steps dt init ∧
    bdf2 p xsTotal scatter fission velocity (repeatTime T external) (repeatTime T' boundary) steps dt init
      = bdf2 p xsTotal scatter fission velocity external boundary steps dt init ∧
    hybridRun second p pC xsTotal xsTotalC scatter scatterC fission fissionC velocity velocityC
        (repeatTime T external) (repeatTime T' boundary) coarse factor steps dt init
      = hybridRun second p pC xsTotal xsTotalC scatter scatterC fission fissionC velocity velocityC
        external boundary coarse factor steps dt init ∧
    vhybridRun second p grid xsTotal vs vf velocity (repeatTime T external) (repeatTime T' boundary) steps
        dt init = vhybridRun second p grid xsTotal vs vf velocity external boundary steps dt init := by
  refine ⟨?_, ?_, ?_, ?_⟩
  · unfold backwardEuler
    rw [loopE_congr steps _ (beStep p xsTotal (transferMatrix scatter fission) velocity external boundary dt)]
    intro j hj s
    unfold beStep
    rw [get_repeatTime he hT hj, get_repeatTime hb hT' hj]
  · unfold bdf2
    rw [loopE_congr steps _ (bdfStep p xsTotal (transferMatrix scatter fission) velocity external boundary dt)]
    intro j hj s
    unfold bdfStep
    rw [get_repeatTime he hT hj, get_repeatTime hb hT' hj]
  · unfold hybridRun
    rw [loopE_congr steps _ (hybridStep second p pC xsTotal xsTotalC (transferMatrix scatter fission)
      (transferMatrix scatterC fissionC) velocity velocityC external boundary coarse factor dt)]
    intro j hj s
    unfold hybridStep
    rw [get_repeatTime he hT hj, get_repeatTime hb hT' hj]
  · unfold vhybridRun
    rw [loopE_congr steps _ (vhybridStep second p grid xsTotal (fun m o i => vs m o i + vf m o i) velocity
      external boundary dt)]
    intro j hj s
    unfold vhybridStep
    rw [get_repeatTime he hT hj, get_repeatTime hb hT' hj]

/-- A loop that writes only its own entry: the first `k` entries are known after `k` steps. -/
theorem loopE_prefix {σ β ε : Type*} (out : σ → ℕ → β) (f : ℕ → σ → Except ε σ)
    (hw : ∀ i s s', f i s = .ok s' → ∀ j, j ≠ i → out s' j = out s j) (s0 : σ) (k : ℕ) :
    ∀ n, k ≤ n → ∀ r, loopE n f s0 = .ok r → ∃ m, loopE k f s0 = .ok m ∧ ∀ j < k, out r j = out m j := by
  intro n
  induction n with
  | zero =>
    intro hk r hr
    have : k = 0 := by omega
    subst this; exact ⟨r, hr, fun _ _ => rfl⟩
  | succ n ih =>
    intro hk r hr
    rcases Nat.lt_or_ge k (n + 1) with hlt | hge
    · rw [loopE_succ] at hr
      cases hm : loopE n f s0 with
      | error e => rw [hm] at hr; exact absurd hr (by simp)
      | ok m =>
        rw [hm] at hr
        obtain ⟨m', h1, h2⟩ := ih (by omega) m hm
        exact ⟨m', h1, fun j hj => by rw [hw n m r hr j (by omega), h2 j hj]⟩
    · have : k = n + 1 := by omega
      subst this; exact ⟨r, hr, fun _ _ => rfl⟩

theorem loopE_causal {σ β ε : Type*} (out : σ → ℕ → β) (f f' : ℕ → σ → Except ε σ)
    (hw : ∀ i s s', f i s = .ok s' → ∀ j, j ≠ i → out s' j = out s j)
    (hw' : ∀ i s s', f' i s = .ok s' → ∀ j, j ≠ i → out s' j = out s j) (s0 : σ) (k n n' : ℕ)
    (hk : k ≤ n) (hk' : k ≤ n') (hagree : ∀ i < k, ∀ s, f i s = f' i s) (o o' : ℕ → β)
    (hr : (loopE n f s0).map out = .ok o) (hr' : (loopE n' f' s0).map out = .ok o') :
    ∀ j < k, o j = o' j := by
  cases h : loopE n f s0 with
  | error e => rw [h] at hr; exact absurd hr (by simp [Except.map])
  | ok r =>
    cases h' : loopE n' f' s0 with
    | error e => rw [h'] at hr'; exact absurd hr' (by simp [Except.map])
    | ok r' =>
      rw [h] at hr; rw [h'] at hr'
      have e1 : out r = o := Except.ok.inj hr
      have e2 : out r' = o' := Except.ok.inj hr'
      obtain ⟨m, h1, h2⟩ := loopE_prefix out f hw s0 k n hk r h
      obtain ⟨m', h3, h4⟩ := loopE_prefix out f' hw' s0 k n' hk' r' h'
      rw [loopE_congr k f f' s0 hagree, h3] at h1
      have : m' = m := Except.ok.inj h1
      subst this
      intro j hj
      rw [← e1, ← e2, h2 j hj, h4 j hj]

/-- Two time dependent arrays hold the same data for the first `k` steps. -/
def AgreeBefore (k : ℕ) (a b : TimeArr K) : Prop := ∀ j < k, a.get j = b.get j

theorem beStep_writes {p : Problem K} {xsTotal : ℕ → ℕ → K} {xs : Scatter K} {velocity : ℕ → K}
    {external boundary : TimeArr K} {dt : K} (i : ℕ) (s s' : BEState K)
    (h : beStep p xsTotal xs velocity external boundary dt i s = .ok s') (j : ℕ) (hj : j ≠ i) :
    s'.out j = s.out j := by
  unfold beStep at h
  split at h
  · cases h
  · cases h
  split at h
  · cases h
  rw [← Except.ok.inj h]
  simp only [Function.update_of_ne hj]

theorem bdfStep_writes {p : Problem K} {xsTotal : ℕ → ℕ → K} {xs : Scatter K} {velocity : ℕ → K}
    {external boundary : TimeArr K} {dt : K} (i : ℕ) (s s' : BDFState K)
    (h : bdfStep p xsTotal xs velocity external boundary dt i s = .ok s') (j : ℕ) (hj : j ≠ i) :
    s'.out j = s.out j := by
  unfold bdfStep at h
  split at h
  · cases h
  · cases h
  simp only at h
  split at h
  · cases h
  rw [← Except.ok.inj h]
  simp only [Function.update_of_ne hj]

theorem hybridStep_writes {second : Bool} {p pC : Problem K} {xsTotal xsTotalC : ℕ → ℕ → K}
    {xs xsC : Scatter K} {velocity velocityC : ℕ → K} {external boundary : TimeArr K}
    {coarse : ℕ → ℕ} {factor : ℕ → K} {dt : K} (i : ℕ) (s s' : HybState K)
    (h : hybridStep second p pC xsTotal xsTotalC xs xsC velocity velocityC external boundary coarse factor
      dt i s = .ok s') (j : ℕ) (hj : j ≠ i) : s'.out j = s.out j := by
  unfold hybridStep at h
  split at h
  · cases h
  · cases h
  simp only at h
  split at h
  · cases h
  split at h
  · cases h
  rw [← Except.ok.inj h]
  simp only [Function.update_of_ne hj]

theorem vhybridStep_writes {second : Bool} {p : Problem K} {grid : ℕ → Collided K}
    {xsTotal : ℕ → ℕ → K} {xs : ℕ → ℕ → ℕ → K} {velocity : ℕ → K} {external boundary : TimeArr K} {dt : K}
    (i : ℕ) (s s' : VHybState K)
    (h : vhybridStep second p grid xsTotal xs velocity external boundary dt i s = .ok s') (j : ℕ)
    (hj : j ≠ i) : s'.out j = s.out j := by
  unfold vhybridStep at h
  split at h
  · cases h
  · cases h
  simp only at h
  split at h
  · cases h
  split at h
  · cases h
  rw [← Except.ok.inj h]
  simp only [Function.update_of_ne hj]

/-- C35 (causality), for all six integrators: the results of the first `k` steps do not depend on the
data of later steps nor on how many steps are taken in total. -/
theorem C35_causal (external boundary external' boundary' : TimeArr K) (k steps steps' : ℕ)
    (hk : k ≤ steps) (hk' : k ≤ steps') (he : AgreeBefore k external external')
    (hb : AgreeBefore k boundary boundary') (dt : K)
    (init : ℕ → ℕ → ℕ → K) (p pC : Problem K) (xsTotal xsTotalC : ℕ → ℕ → K) (scatter scatterC : Scatter K)
    (fission fissionC : Fission K) (velocity velocityC : ℕ → K) (coarse : ℕ → ℕ) (factor : ℕ → K)
    (second : Bool) (grid grid' : ℕ → Collided K) (hgrid : ∀ j < k, grid j = grid' j)
    (vs vf : ℕ → ℕ → ℕ → K) (o o' : ℕ → ℕ → ℕ → K) :
    (backwardEuler p xsTotal scatter fission velocity external boundary steps dt init = .ok o →
      backwardEuler p xsTotal scatter fission velocity external' boundary' steps' dt init = .ok o' →
      ∀ j < k, o j = o' j) ∧
    (bdf2 p xsTotal scatter fission velocity external boundary steps dt init = .ok o →
      bdf2 p xsTotal scatter fission velocity external' boundary' steps' dt init = .ok o' →
      ∀ j < k, o j = o' j) ∧
    (hybridRun second p pC xsTotal xsTotalC scatter scatterC fission fissionC velocity velocityC
        external boundary coarse factor steps dt init = .ok o →
      hybridRun second p pC xsTotal xsTotalC scatter scatterC fission fissionC velocity velocityC
        external' boundary' coarse factor steps' dt init = .ok o' →
      ∀ j < k, o j = o' j) ∧
    (vhybridRun second p grid xsTotal vs vf velocity external boundary steps dt init = .ok o →
      vhybridRun second p grid' xsTotal vs vf velocity external' boundary' steps' dt init = .ok o' →
      ∀ j < k, o j = o' j) := by
  refine ⟨fun h h' => ?_, fun h h' => ?_, fun h h' => ?_, fun h h' => ?_⟩
  · exact loopE_causal BEState.out _ _ beStep_writes beStep_writes _ k steps steps' hk hk'
      (fun i hi s => by unfold beStep; rw [he i hi, hb i hi]) o o' h h'
  · exact loopE_causal BDFState.out _ _ bdfStep_writes bdfStep_writes _ k steps steps' hk hk'
      (fun i hi s => by unfold bdfStep; rw [he i hi, hb i hi]) o o' h h'
  · exact loopE_causal HybState.out _ _ hybridStep_writes hybridStep_writes _ k steps steps' hk hk'
      (fun i hi s => by unfold hybridStep; rw [he i hi, hb i hi]) o o' h h'
  · exact loopE_causal VHybState.out _ _ vhybridStep_writes vhybridStep_writes _ k steps steps' hk hk'
      (fun i hi s => by unfold vhybridStep; rw [he i hi, hb i hi, hgrid i hi]) o o' h h'

/-- C35: data for fewer steps than asked (and not length one) is an IndexError at the first missing step,
never silently re-used or padded. -/
theorem C35_short_data_raises (p : Problem K) (xsTotal : ℕ → ℕ → K) (scatter : Scatter K)
    (fission : Fission K) (velocity : ℕ → K) (external boundary : TimeArr K) (steps : ℕ) (dt : K)
    (init : ℕ → ℕ → ℕ → K) (h1 : external.steps ≠ 1) (h2 : external.steps < steps) :
    (∀ o, backwardEuler p xsTotal scatter fission velocity external boundary steps dt init ≠ .ok o) ∧
    (∀ o, bdf2 p xsTotal scatter fission velocity external boundary steps dt init ≠ .ok o) := by
  have hget : external.get external.steps = .error .indexError := by
    unfold TimeArr.get bidx
    rw [if_neg h1, if_neg (lt_irrefl _)]
  have main : ∀ {σ : Type _} (f : ℕ → σ → Except PyErr σ) (s0 : σ),
      (∀ s, f external.steps s = .error .indexError) → ∀ n, external.steps < n → ∀ r, loopE n f s0 ≠ .ok r := by
    intro σ f s0 hf n
    induction n with
    | zero => intro h; omega
    | succ n ih =>
      intro hn r hr
      rw [loopE_succ] at hr
      cases hm : loopE n f s0 with
      | error e => rw [hm] at hr; exact absurd hr (by simp)
      | ok m =>
        rw [hm] at hr
        by_cases hlt : external.steps < n
        · exact ih hlt m hm
        · have : n = external.steps := by omega
          subst this
          simp only at hr
          rw [hf] at hr
          exact absurd hr (by simp)
  constructor
  · intro o h
    unfold backwardEuler at h
    cases hr : loopE steps (beStep p xsTotal (transferMatrix scatter fission) velocity external boundary dt)
        ⟨scalarFlux p init, init, fun _ _ _ => 0⟩ with
    | error e => rw [hr] at h; exact absurd h (by simp [Except.map])
    | ok r => exact main _ _ (fun s => by unfold beStep; rw [hget]) steps h2 r hr
  · intro o h
    unfold bdf2 at h
    cases hr : loopE steps (bdfStep p xsTotal (transferMatrix scatter fission) velocity external boundary dt)
        ⟨scalarFlux p init, init, fun _ _ _ => 0, xsStar xsTotal 1 velocity dt, fun _ _ _ => 0⟩ with
    | error e => rw [hr] at h; exact absurd h (by simp [Except.map])
    | ok r => exact main _ _ (fun s => by unfold bdfStep; rw [hget]) steps h2 r hr

/-! Examples: the two-group, two-material slab of `Props/Slab.lean` in time. -/

theorem exTimed : TimedOk exProblem exTotal (fun g => (g : ℚ) + 1) (1 / 10) :=
  ⟨fun g _ => exOk g, by show 1 < 4; omega, fun g _ => by positivity, by norm_num⟩

def exExternal : TimeArr ℚ := ⟨3, fun t => ⟨1, 2, fun i _ g => t + i + g⟩⟩
def exBoundary : TimeArr ℚ := ⟨1, fun _ => ⟨4, 1, fun s n _ => s + n⟩⟩

example := C32_backward_euler exProblem exTotal (fun m g g' => (m + g + g' : ℕ) / 10)
  (.vector (fun _ g => if g = 0 then 1 else 0) (fun m g => (m + g : ℕ))) _ exExternal exBoundary 3 _
  (fun i n g => (i + n + g : ℕ)) exTimed (by show 0 < 2; omega) (Or.inr (le_refl _)) (Or.inl rfl)

example := C33_bdf2 exProblem exTotal (fun m g g' => (m + g + g' : ℕ) / 10)
  (.matrix fun _ g _ => if g = 0 then 1 else 0) _ exExternal exBoundary 3 _
  (fun i n g => (i + n + g : ℕ)) exTimed (by show 0 < 2; omega) (Or.inr (le_refl _)) (Or.inl rfl)

/-- A steady state with scattering, sources and inflow: the infinite-medium flux `1` in both groups. -/
theorem exSteady : SolvesMultigroup { exProblem with bcL := false } exTotal (fun _ _ _ => 1 / 4)
    ⟨1, 2, fun i _ g => exTotal (exProblem.mm i) g - 1 / 2⟩ ⟨1, 1, fun _ _ _ => 1⟩ (fun _ _ => 1)
    (fun _ _ _ => 1) := by
  refine ⟨fun g _ i _ => ?_, fun g hg n _ i _ => ?_, fun g _ n _ => ?_⟩
  · show (1 : ℚ) = ∑ n ∈ range 4, (1 / 4) * ((1 + 1) / 2)
    norm_num
  · show exProblem.angleX n * (1 - 1) / _ + exTotal (exProblem.mm i) g * ((1 + 1) / 2)
      = ∑ og ∈ range 2, (1 / 4 : ℚ) * 1 + (exTotal (exProblem.mm i) (bidx 2 g) - 1 / 2)
    rw [bidx_of_lt (show g < 2 from hg)]
    norm_num
  · simp [inflow, leavesReflecting, exProblem]

example := C34_bdf2_steady { exProblem with bcL := false } exTotal (fun _ _ _ => 1 / 8)
  (.matrix fun _ _ _ => 1 / 8) (fun g => (g : ℚ) + 1)
  ⟨1, fun _ => ⟨1, 2, fun i _ g => exTotal (exProblem.mm i) g - 1 / 2⟩⟩
  ⟨1, fun _ => ⟨1, 1, fun _ _ _ => 1⟩⟩ 7 (1 / 10) (fun _ _ _ => 1)
  ⟨fun g _ => ⟨rfl, (exOk g).nonzero, (exOk g).phys⟩, by show 1 < 4; omega, fun g _ => by positivity, by norm_num⟩
  (by show 0 < 2; omega) (Or.inl rfl) (Or.inl rfl) _ _ (fun _ _ => rfl) (fun _ _ => rfl) (fun _ _ => 1)
  (fun _ _ _ => 1) (by
    have : (fun m g g' => (fun _ _ _ => 1 / 8) m g g' + fissionMatrix (.matrix fun _ _ _ => (1 / 8 : ℚ)) m g g')
        = fun (_ _ _ : ℕ) => (1 / 4 : ℚ) := by
      funext m g g'; simp only [fissionMatrix]; norm_num
    rw [this]
    exact exSteady) (fun g _ n _ i _ => by norm_num)

end Discrete1.Props
