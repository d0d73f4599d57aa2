import Verif.Props.RoundedKeff
import Verif.Props.Converge

/-!
# C214: backward Euler in floating point
-/

set_option linter.unusedSectionVars false
set_option linter.unusedSimpArgs false

namespace Discrete1.Props

open Finset Discrete1.Spec Discrete1.Slab Discrete1.Tools Discrete1.MultiGroup Discrete1.Drivers

variable {K : Type} [Field K] [LinearOrder K] [IsStrictOrderedRing K]

/-! ## The sweep with a known source -/

theorem rounded_knownSource_near {rnd : K → K} {r th : K} (hr : RoundsWithin r rnd) (hr1 : 1 ≤ r)
    (hth0 : 0 ≤ th) (hth1 : th * r ^ 2 < 1) {s : K} (hs : s = r * (1 - th) / (1 - th * r ^ 2))
    {S Q : K} (p : Problem K) (hS : S = s * 1 * r ^ 7) (hQ : Q = r * S ^ p.cells)
    (xsTotal : ℕ → ℕ → K) (source boundary : Arr3 K) {g : ℕ} (hok : SlabOk p xsTotal g)
    (hfine : ∀ n < p.angles, FineBy th p.cells (p.angleX n) p.dx (fun i => xsTotal (p.mm i) g))
    (hq : ∀ n < p.angles, ∀ i < p.cells, 0 ≤ sourceAt source i n g)
    (hb : ∀ n < p.angles, ∀ s < 2, 0 ≤ sourceAt boundary s n g) :
    ∀ i, ∀ n < p.angles, WithinFactor (r ^ 4 * Q ^ 2)
      (Rounded.knownSourceAngular id p xsTotal source boundary i n g)
      (Rounded.knownSourceAngular rnd p xsTotal source boundary i n g) := by
  obtain ⟨A, hA⟩ : ∃ A, A = p.angles := ⟨_, rfl⟩
  obtain ⟨N, hN⟩ : ∃ N, N = p.cells := ⟨_, rfl⟩
  have hs1 : 1 ≤ s := by rw [hs]; exact one_le_subFactor hr1 hth0 hth1
  have hr0 : 0 < r := by linarith
  have hS1 : 1 ≤ S := by
    have h7 : 1 ≤ r ^ 7 := one_le_pow₀ hr1
    rw [hS]; nlinarith
  rw [← hN] at hQ
  have hSN : 1 ≤ S ^ N := one_le_pow₀ hS1
  have hQ1 : 1 ≤ Q := by rw [hQ]; nlinarith
  have hQ0 : 0 < Q := by linarith
  have hP1 : 1 ≤ r ^ 3 * Q ^ 2 := by nlinarith [one_le_pow₀ (n := 3) hr1, one_le_pow₀ (n := 2) hQ1]
  have refl : ∀ (n : ℕ) (R R' : ℕ → K) (o o' : K), n < A →
      (∀ m, n ≤ m → m < A → (n ≤ A - 1 - m → R m = 0 ∧ R' m = 0) ∧ WithinFactor Q (R m) (R' m)) →
      (n ≤ A - 1 - n → WithinFactor Q o o') →
      ∀ m, n + 1 ≤ m → m < A →
        (n + 1 ≤ A - 1 - m → reflectorCorrector A R p.angleX o n p.bcL p.bcR m = 0 ∧
          reflectorCorrector A R' p.angleX o' n p.bcL p.bcR m = 0) ∧
        WithinFactor Q (reflectorCorrector A R p.angleX o n p.bcL p.bcR m)
          (reflectorCorrector A R' p.angleX o' n p.bcL p.bcR m) := by
    intro n R R' o o' hn h1 h2 m hm hmA
    obtain ⟨k1, k2⟩ := h1 m (by omega) hmA
    unfold reflectorCorrector
    by_cases hc : (0 < p.angleX n ∧ p.bcR = true) ∨ (p.angleX n < 0 ∧ p.bcL = true)
    · rw [if_pos hc, if_pos hc, setAt_apply, setAt_apply]
      by_cases hmn : m = A - n - 1
      · rw [if_pos hmn, if_pos hmn]
        exact ⟨fun h => absurd h (by omega), h2 (by omega)⟩
      · rw [if_neg hmn, if_neg hmn]
        exact ⟨fun h => k1 (by omega), k2⟩
    · rw [if_neg hc, if_neg hc]
      exact ⟨fun h => k1 (by omega), k2⟩
  have inflowN : ∀ (n : ℕ) (R R' b : K), 0 ≤ b → (n ≤ A - 1 - n → R = 0 ∧ R' = 0) →
      WithinFactor Q R R' →
      ∃ c, 1 ≤ c ∧ c ≤ Q * r ∧ (n ≤ A - 1 - n → c = r) ∧ WithinFactor c (R + b) (rnd (R' + b)) := by
    intro n R R' b hb h1 h2
    by_cases hc : n ≤ A - 1 - n
    · obtain ⟨e1, e2⟩ := h1 hc
      refine ⟨r, hr1, le_mul_of_one_le_left hr0.le hQ1, fun _ => rfl, ?_⟩
      rw [e1, e2, zero_add]
      exact hr b hb
    · exact ⟨Q * r, by nlinarith, le_refl _, fun h => absurd h hc,
        (h2.add (WithinFactor.refl hQ1 hb)).round hr hQ0 hr0⟩
  have hfac : ∀ (c : K), 1 ≤ c → c ≤ Q * r → r ^ 3 * (c * S ^ N) ≤ r ^ 3 * Q ^ 2 := by
    intro c hc1 hcQ
    have h1 : c * S ^ N ≤ Q ^ 2 := by
      calc c * S ^ N ≤ Q * r * S ^ N := mul_le_mul_of_nonneg_right hcQ (by linarith)
        _ = Q ^ 2 := by rw [pow_two, mul_assoc]; congr 1; exact hQ.symm
    exact mul_le_mul_of_nonneg_left h1 (by positivity)
  have hz : ∀ i < p.cells, (0 : K) ≤ (fun _ : ℕ => (0 : K)) (p.mm i) * (fun _ : ℕ => (0 : K)) i := fun i _ => by simp
  have main := loop_rel2 (fun n (s t : AngleState K (ℕ → ℕ → K)) =>
      (∀ j k, k < n → WithinFactor (r ^ 3 * Q ^ 2 * r) (s.acc j k) (t.acc j k)) ∧
      (∀ j k, n ≤ k → s.acc j k = 0 ∧ t.acc j k = 0) ∧
      (∀ m, n ≤ m → m < A → (n ≤ A - 1 - m → s.reflector m = 0 ∧ t.reflector m = 0) ∧
        WithinFactor Q (s.reflector m) (t.reflector m))) p.angles
    (Rounded.knownStep id p.cells p.angles (fun m => xsTotal m g)
      (source.group (bidx source.groups g)) (boundary.group (bidx boundary.groups g)) p.mm p.dx p.angleX p.bcL p.bcR)
    (Rounded.knownStep rnd p.cells p.angles (fun m => xsTotal m g)
      (source.group (bidx source.groups g)) (boundary.group (bidx boundary.groups g)) p.mm p.dx p.angleX p.bcL p.bcR)
    ⟨fun _ _ => 0, fun _ => 0, 0⟩ ⟨fun _ _ => 0, fun _ => 0, 0⟩
    ⟨fun j k hk => absurd hk (Nat.not_lt_zero _), fun _ _ _ => ⟨rfl, rfl⟩,
      fun m _ _ => ⟨fun _ => ⟨rfl, rfl⟩, WithinFactor.refl hQ1 (le_refl _)⟩⟩
    (fun n hn st tt hst => by
      obtain ⟨a1, a2, a3⟩ := hst
      obtain ⟨r1, r2⟩ := a3 n (le_refl _) (hA ▸ hn)
      have hcol : ∀ j, WithinFactor (r ^ 3 * Q ^ 2) (st.acc j n) (tt.acc j n) := fun j => by
        obtain ⟨z1, z2⟩ := a2 j n (le_refl _)
        rw [z1, z2]
        exact WithinFactor.refl hP1 (le_refl _)
      have fin : ∀ (f f' : ℕ → K) (e e' : K), (∀ j, WithinFactor (r ^ 3 * Q ^ 2 * r) (f j) (f' j)) →
          (n ≤ A - 1 - n → WithinFactor Q e e') →
          (∀ j k, k < n + 1 → WithinFactor (r ^ 3 * Q ^ 2 * r) (if k = n then f j else st.acc j k)
            (if k = n then f' j else tt.acc j k)) ∧
          (∀ j k, n + 1 ≤ k → (if k = n then f j else st.acc j k) = 0 ∧ (if k = n then f' j else tt.acc j k) = 0) ∧
          (∀ m, n + 1 ≤ m → m < A →
            (n + 1 ≤ A - 1 - m → reflectorCorrector A st.reflector p.angleX e n p.bcL p.bcR m = 0 ∧
              reflectorCorrector A tt.reflector p.angleX e' n p.bcL p.bcR m = 0) ∧
            WithinFactor Q (reflectorCorrector A st.reflector p.angleX e n p.bcL p.bcR m)
              (reflectorCorrector A tt.reflector p.angleX e' n p.bcL p.bcR m)) := by
        intro f f' e e' h1 h2
        refine ⟨fun j k hk => ?_, fun j k hk => ?_, refl n _ _ _ _ (hA ▸ hn) a3 h2⟩
        · split_ifs with h
          · exact h1 j
          · exact a1 j k (by omega)
        · rw [if_neg (by omega), if_neg (by omega)]
          exact a2 j k (by omega)
      unfold Rounded.knownStep
      rcases lt_or_gt_of_ne (hok.nonzero n hn) with hneg | hpos
      · obtain ⟨c, c1, c2, c3, c4⟩ := inflowN n _ _ ((boundary.group (bidx boundary.groups g)).val 1
          (bidx (boundary.group (bidx boundary.groups g)).angles n)) (hb n hn 1 (by omega)) r1 r2
        obtain ⟨d1, d2⟩ := (rounded_dir_near (w := 1) (d := 1) (flux := fun ii => st.acc ii n)
          (flux' := fun ii => tt.acc ii n) (fluxOld := fun _ => 0) (xsTotal := fun m => xsTotal m g)
          (xsScatter := fun _ => 0) (off := fun _ => 0) (off' := fun _ => 0)
          (ext := fun ii => (source.group (bidx source.groups g)).val ii
            (bidx (source.group (bidx source.groups g)).angles n))
          hr hr1 hth0 hth1 hs hS hok.phys (hfine n hn) hz (fun i hi => hq n hn i hi)
          (fun _ _ => WithinFactor.refl le_rfl le_rfl) zero_le_one c1 le_rfl (hN ▸ hfac c c1 c2) hcol c4).2 hneg
        simp only [if_neg (not_lt.mpr hneg.le), if_pos hneg]
        rw [← hA]
        exact fin _ _ _ _ d2 fun h => by
          have e : c * S ^ p.cells = Q := by rw [c3 h, ← hN, ← hQ]
          rw [e] at d1
          exact d1
      · obtain ⟨c, c1, c2, c3, c4⟩ := inflowN n _ _ ((boundary.group (bidx boundary.groups g)).val 0
          (bidx (boundary.group (bidx boundary.groups g)).angles n)) (hb n hn 0 (by omega)) r1 r2
        obtain ⟨d1, d2⟩ := (rounded_dir_near (w := 1) (d := 1) (flux := fun ii => st.acc ii n)
          (flux' := fun ii => tt.acc ii n) (fluxOld := fun _ => 0) (xsTotal := fun m => xsTotal m g)
          (xsScatter := fun _ => 0) (off := fun _ => 0) (off' := fun _ => 0)
          (ext := fun ii => (source.group (bidx source.groups g)).val ii
            (bidx (source.group (bidx source.groups g)).angles n))
          hr hr1 hth0 hth1 hs hS hok.phys (hfine n hn) hz (fun i hi => hq n hn i hi)
          (fun _ _ => WithinFactor.refl le_rfl le_rfl) zero_le_one c1 le_rfl (hN ▸ hfac c c1 c2) hcol c4).1 hpos
        simp only [if_pos hpos]
        rw [← hA]
        exact fin _ _ _ _ d2 fun h => by
          have e : c * S ^ p.cells = Q := by rw [c3 h, ← hN, ← hQ]
          rw [e] at d1
          exact d1)
  intro i n hn
  have := main.1 i n hn
  rw [show r ^ 4 * Q ^ 2 = r ^ 3 * Q ^ 2 * r by ring]
  exact this

/-- A rounded running sum of terms known up to a factor. -/
theorem accumR_near_factor {rnd : K → K} {r c : K} (hr : RoundsWithin r rnd) (hr1 : 1 ≤ r) (hc : 1 ≤ c) {n : ℕ}
    {f f' : ℕ → K} (hf : ∀ i < n, WithinFactor c (f i) (f' i)) :
    WithinFactor (c * r ^ n) (∑ i ∈ range n, f i) (Rounded.accumR rnd n f') := by
  have hr0 : 0 < r := by linarith
  have hc0 : 0 < c := by linarith
  have := loop_rel2 (fun k (x y : K) => WithinFactor (c * r ^ k) x y) n (fun i acc => acc + f i)
    (fun i acc => rnd (acc + f' i)) 0 0 (WithinFactor.refl (by simpa using hc) le_rfl) (fun i hi x y hxy => by
      have h1 := (hf i hi).mono hc0 (le_mul_of_one_le_right hc0.le (one_le_pow₀ hr1 : 1 ≤ r ^ i))
      have h2 := (hxy.add h1).round hr (by positivity) hr0
      rwa [mul_assoc, ← pow_succ] at h2)
  rw [loop_add_eq_sum, zero_add] at this
  exact this

/-! ## A source known up to a factor -/

/-- In a down-scatter problem a source that is known up to a factor gives the flux up to the same factor. -/
theorem downscatter_source_factor (p : Problem K) (xsTotal : ℕ → ℕ → K) (xs : ℕ → ℕ → ℕ → K) (q q' boundary : Arr3 K)
    (F : K) (hF : 1 ≤ F) (hok : ∀ g < p.groups, SlabOk p xsTotal g)
    (hfine : ∀ g < p.groups, ∀ n < p.angles, FineFor p.cells (p.angleX n) p.dx (fun i => xsTotal (p.mm i) g))
    (hxs : ∀ i < p.cells, ∀ g < p.groups, ∀ g' < p.groups, 0 ≤ xs (p.mm i) g g')
    (hw : ∀ n < p.angles, 0 ≤ p.angleW n) (hdown : ∀ m g g', g ≤ g' → xs m g g' = 0)
    (hb : ∀ g < p.groups, ∀ n < p.angles, ∀ s < 2, 0 ≤ sourceAt boundary s n g)
    (hq : ∀ g < p.groups, ∀ n < p.angles, ∀ i < p.cells, sourceAt q' i n g ≤ F * sourceAt q i n g)
    (phi phi' : ℕ → ℕ → K) (psi psi' : ℕ → ℕ → ℕ → K) (hsol : SolvesMultigroup p xsTotal xs q boundary phi psi)
    (hsol' : SolvesMultigroup p xsTotal xs q' boundary phi' psi') :
    ∀ g < p.groups, ∀ i < p.cells, phi' i g ≤ F * phi i g := by
  intro g
  induction g using Nat.strong_induction_on with
  | _ g ih =>
    intro hg i hi
    have h := swept_scaled_le (hok g hg).nonzero (hok g hg).phys (hfine g hg) hF (hsol.balance g hg) (hsol'.balance g hg)
      (hsol.inflow g hg) (hsol'.inflow g hg) (fun n hn _ => hb g hg n hn 0 (by omega))
      (fun n hn _ => hb g hg n hn 1 (by omega)) (fun n hn i hi => by
        have h1 : ∑ g' ∈ range p.groups, xs (p.mm i) g g' * phi' i g'
            ≤ F * ∑ g' ∈ range p.groups, xs (p.mm i) g g' * phi i g' := by
          rw [mul_sum]
          refine sum_le_sum fun g' hg' => ?_
          have hg' := mem_range.mp hg'
          by_cases hlt : g' < g
          · have := mul_le_mul_of_nonneg_left (ih g' hlt hg' i hi) (hxs i hi g hg g' hg')
            linarith
          · rw [hdown _ _ _ (by omega), zero_mul, zero_mul, mul_zero]
        have h2 : sourceAt q' i n g ≤ F * sourceAt q i n g := hq g hg n hn i hi
        have := add_le_add h1 h2
        rw [← mul_add] at this
        exact this)
    rw [hsol'.scalar g hg i hi, hsol.scalar g hg i hi]
    exact scalarCenter_scaled_le hw (fun n hn => h n hn i hi.le) (fun n hn => h n hn (i + 1) hi)

theorem sourceAt_fullArr (p : Problem K) (q : ℕ → ℕ → ℕ → K) {i n g : ℕ} (hn : n < p.angles) (hg : g < p.groups) :
    sourceAt (fullArr p q) i n g = q i n g := by
  have e1 : (if p.angles = 1 then 0 else n) = n := bidx_full _ _ hn
  have e2 : (if p.groups = 1 then 0 else g) = g := bidx_full _ _ hg
  unfold sourceAt fullArr
  simp only [e1, e2]

/-! ## One time step -/

theorem rounded_time_step {rnd : K → K} {u th r rho F : K} {p : Problem K} {sigma : ℕ → ℕ → K}
    {X : ℕ → ℕ → ℕ → K} {q q' : ℕ → ℕ → ℕ → K} {bnd : Arr3 K} (hr : r = 1 / (1 - u))
    (hrho : rho = 1 / (1 - sweepCost th p.groups p.cells p.angles * u)) (hF : 1 ≤ F)
    (hA : 1 < p.angles) (hu : 0 ≤ u) (herr : RelativeError u rnd) (hN : 0 < p.cells) (hth0 : 0 ≤ th) (hth1 : th < 1)
    (hcost : sweepCost th p.groups p.cells p.angles * u < 1) (hok : ∀ g < p.groups, SlabOk p sigma g)
    (hfine : ∀ g < p.groups, ∀ n < p.angles, FineBy th p.cells (p.angleX n) p.dx (fun i => sigma (p.mm i) g))
    (hw : ∀ n < p.angles, 0 ≤ p.angleW n)
    (hX : ∀ i < p.cells, ∀ g < p.groups, ∀ g' < p.groups, 0 ≤ X (p.mm i) g g')
    (hdown : ∀ m g g', g ≤ g' → X m g g' = 0)
    (hb : ∀ g < p.groups, ∀ n < p.angles, ∀ s < 2, 0 ≤ sourceAt bnd s n g)
    (hq : ∀ g < p.groups, ∀ n < p.angles, ∀ i < p.cells, WithinFactor F (q i n g) (q' i n g))
    (phi : ℕ → ℕ → K) (e : ℕ → ℕ → ℕ → K) (hsol : SolvesMultigroup p sigma X (fullArr p q) bnd phi e)
    (guess : ℕ → ℕ → K) (hguess : ∀ i < p.cells, ∀ g < p.groups, 0 ≤ guess i g) :
    ∃ flux, Rounded.sourceIterationIso rnd p sigma X (fullArr p q') bnd guess = .ok flux ∧
      (∀ i < p.cells, ∀ g < p.groups, WithinFactor (F * rho ^ (g + 1)) (phi i g) (flux i g)) ∧
      ∀ i < p.cells, ∀ n < p.angles, ∀ g < p.groups,
        WithinFactor (F * (rho ^ (p.groups + 1) * r ^ (p.groups + 2))) ((e g n i + e g n (i + 1)) / 2)
          (Rounded.knownSourceAngular rnd p sigma (fullArr p (Rounded.timeRightSide rnd p.groups q' flux X p.mm)) bnd
            i n g) := by
  obtain ⟨k1, k2, k3⟩ := sweepFactor_le (G := p.groups) (A := p.angles) hN hu hth0 hth1 hcost hr
  have hw' := herr.within hu k2
  rw [← hr] at hw'
  have hp : 0 < 1 - u := by linarith
  have hr1 : 1 ≤ r := by rw [hr, le_div_iff₀ hp]; linarith
  have hr0 : 0 < r := by linarith
  have hC0 := mul_nonneg (sweepCost_nonneg hth1 p.groups p.cells p.angles) hu
  have hrho1 : 1 ≤ rho := by rw [hrho, le_div_iff₀ (by linarith)]; linarith
  have hrho0 : 0 < rho := by linarith
  have hF0 : 0 < F := by linarith
  have hfine' : ∀ g < p.groups, ∀ n < p.angles, FineFor p.cells (p.angleX n) p.dx (fun i => sigma (p.mm i) g) :=
    fun g hg n hn i hi => (hfine g hg n hn i hi).trans (by nlinarith [abs_nonneg (p.angleX n)])
  have hq0 : ∀ g < p.groups, ∀ n < p.angles, ∀ i < p.cells, 0 ≤ q' i n g := fun g hg n hn i hi => (hq g hg n hn i hi).1
  have hqe : ∀ g < p.groups, ∀ n < p.angles, ∀ i < p.cells, 0 ≤ q i n g := fun g hg n hn i hi =>
    (hq g hg n hn i hi).left_nonneg hF0
  have hdata : ∀ f : ℕ → ℕ → ℕ → K, (∀ g < p.groups, ∀ n < p.angles, ∀ i < p.cells, 0 ≤ f i n g) → ∀ g < p.groups,
      NonnegData p.cells p.angles p.angleX p.angleW ((fullArr p f).group (bidx (fullArr p f).groups g))
        (bnd.group (bidx bnd.groups g)) := fun f hf g hg => ⟨hw, fun n hn i hi => by
      have := sourceAt_fullArr p f (i := i) hn hg
      show 0 ≤ sourceAt (fullArr p f) i n g
      rw [this]; exact hf g hg n hn i hi, fun n hn _ => hb g hg n hn 0 (by omega), fun n hn _ => hb g hg n hn 1 (by omega)⟩
  -- the flux
  obtain ⟨phi', e', -, hsol'⟩ := C22_downscatter_exact p sigma X (fullArr p q') bnd guess hok hdown
  obtain ⟨flux, f1, f2⟩ := C184_rounded_downscatter (rnd := rnd) (u := u) (th := th) (p := p) (xsTotal := sigma) (xs := X)
    (external := fullArr p q') (boundary := bnd) ⟨hu, herr, hN, hth0, hth1, hok, hfine, hdata q' hq0, hX, hcost⟩ hfine'
    hdown hrho phi' e' hsol' guess hguess
  have c1 := downscatter_source_factor p sigma X (fullArr p q) (fullArr p q') bnd F hF hok hfine' hX hw hdown hb
    (fun g hg n hn i hi => by
      rw [sourceAt_fullArr p q hn hg, sourceAt_fullArr p q' hn hg]; exact (hq g hg n hn i hi).2.1) phi phi' e e' hsol hsol'
  have c2 := downscatter_source_factor p sigma X (fullArr p q') (fullArr p q) bnd F hF hok hfine' hX hw hdown hb
    (fun g hg n hn i hi => by
      rw [sourceAt_fullArr p q hn hg, sourceAt_fullArr p q' hn hg]; exact (hq g hg n hn i hi).2.2) phi' phi e' e hsol' hsol
  have hflux : ∀ i < p.cells, ∀ g < p.groups, WithinFactor (F * rho ^ (g + 1)) (phi i g) (flux i g) := fun i hi g hg => by
    obtain ⟨a1, a2, a3⟩ := f2 i hi g hg
    have hp0 : 0 ≤ rho ^ (g + 1) := by positivity
    refine ⟨a1, ?_, ?_⟩
    · calc flux i g ≤ rho ^ (g + 1) * phi' i g := a2
        _ ≤ rho ^ (g + 1) * (F * phi i g) := mul_le_mul_of_nonneg_left (c1 g hg i hi) hp0
        _ = _ := by ring
    · calc phi i g ≤ F * phi' i g := c2 g hg i hi
        _ ≤ F * (rho ^ (g + 1) * flux i g) := mul_le_mul_of_nonneg_left a3 hF0.le
        _ = _ := by ring
  refine ⟨flux, f1, hflux, ?_⟩
  -- the right-hand side
  obtain ⟨M, hM⟩ : ∃ M, M = F * rho ^ p.groups := ⟨_, rfl⟩
  have hM1 : 1 ≤ M := by rw [hM]; nlinarith [one_le_pow₀ (n := p.groups) hrho1]
  have hM0 : 0 < M := by linarith
  have hFM : F ≤ M := by rw [hM]; exact le_mul_of_one_le_right hF0.le (one_le_pow₀ hrho1)
  obtain ⟨T, hT⟩ : ∃ T, T = M * r ^ (p.groups + 2) := ⟨_, rfl⟩
  have hT1 : 1 ≤ T := by rw [hT]; nlinarith [one_le_pow₀ (n := p.groups + 2) hr1]
  have hT0 : 0 < T := by linarith
  have hrhs : ∀ g < p.groups, ∀ n < p.angles, ∀ i < p.cells, WithinFactor T
      ((∑ g' ∈ range p.groups, X (p.mm i) g g' * phi i g') + q i n g)
      (Rounded.timeRightSide rnd p.groups q' flux X p.mm i n g) := by
    intro g hg n hn i hi
    have h1 : WithinFactor (M * r * r ^ p.groups) (∑ g' ∈ range p.groups, X (p.mm i) g g' * phi i g')
        (Rounded.accumR rnd p.groups fun g' => rnd (flux i g' * X (p.mm i) g g')) := by
      refine accumR_near_factor hw' hr1 (by nlinarith) fun g' hg' => ?_
      have h2 : WithinFactor M (phi i g') (flux i g') := (hflux i hi g' hg').mono (by positivity) (by
        rw [hM]
        exact mul_le_mul_of_nonneg_left (pow_le_pow_right₀ hrho1 (by omega)) hF0.le)
      have h3 := (h2.mul hM0 one_pos (WithinFactor.refl le_rfl (hX i hi g hg g' hg'))).round hw' (by positivity) hr0
      rw [mul_one, mul_comm (phi i g')] at h3
      exact h3
    have h4 : WithinFactor (M * r * r ^ p.groups) (q i n g) (q' i n g) := (hq g hg n hn i hi).mono hF0 (by
      have : 1 ≤ r * r ^ p.groups := by nlinarith [one_le_pow₀ (n := p.groups) hr1]
      rw [mul_assoc]
      exact hFM.trans (le_mul_of_one_le_right hM0.le this))
    have h5 := (h4.add h1).round hw' (by positivity) hr0
    rw [add_comm (q i n g), show M * r * r ^ p.groups * r = T by rw [hT, pow_add]; ring] at h5
    exact h5
  obtain ⟨t, ht⟩ : ∃ t, t = Rounded.timeRightSide rnd p.groups q' flux X p.mm := ⟨_, rfl⟩
  rw [← ht] at hrhs ⊢
  -- the sweep
  intro i hi n hn g hg
  have hs1 := one_le_subFactor hr1 hth0 k1
  obtain ⟨s, hs⟩ : ∃ s, s = r * (1 - th) / (1 - th * r ^ 2) := ⟨_, rfl⟩
  rw [← hs] at hs1 k3
  have near := rounded_knownSource_near hw' hr1 hth0 k1 hs (S := s * 1 * r ^ 7) (Q := r * (s * 1 * r ^ 7) ^ p.cells) p rfl
    rfl sigma (fullArr p t) bnd (hok g hg) (hfine g hg) (fun n hn i hi => by
      rw [sourceAt_fullArr p t hn hg]; exact (hrhs g hg n hn i hi).1) (hb g hg) i n hn
  have hD : r ^ 4 * (r * (s * 1 * r ^ 7) ^ p.cells) ^ 2 ≤ rho := by
    rw [hrho]
    refine le_trans ?_ k3
    have h1 : s * 1 * r ^ 7 ≤ s * r ^ p.groups * r ^ 7 := by
      refine mul_le_mul_of_nonneg_right ?_ (by positivity)
      exact mul_le_mul_of_nonneg_left (one_le_pow₀ hr1) (by linarith)
    have h2 : (s * 1 * r ^ 7) ^ p.cells ≤ (s * r ^ p.groups * r ^ 7) ^ p.cells :=
      pow_le_pow_left₀ (by positivity) h1 _
    have h3 : (r * (s * 1 * r ^ 7) ^ p.cells) ^ 2 ≤ (r * (s * r ^ p.groups * r ^ 7) ^ p.cells) ^ 2 :=
      pow_le_pow_left₀ (by positivity) (mul_le_mul_of_nonneg_left h2 hr0.le) _
    exact mul_le_mul (pow_le_pow_right₀ hr1 (by omega)) h3 (by positivity) (by positivity)
  have near := near.mono (by positivity) hD
  have hid := rounded_knownSourceAngular_id p sigma t bnd (hok g hg).slab hA
  unfold knownSourceAngular at hid
  rw [if_pos (hok g hg).slab] at hid
  have hid := congrFun (congrFun (congrFun (Except.ok.inj hid) i) n) g
  obtain ⟨ps, p1, p2, p3⟩ := knownSourceSn_angular (N := p.cells) hA (fun m => sigma m g)
    ((fullArr p t).group (bidx (fullArr p t).groups g)) (bnd.group (bidx bnd.groups g)) p.mm p.dx p.angleX p.angleW
    p.bcL p.bcR false (hok g hg).nonzero (hok g hg).phys
  have hval : Rounded.knownSourceAngular id p sigma (fullArr p t) bnd i n g = (ps n i + ps n (i + 1)) / 2 := by
    have := p3 n hn i
    rw [if_neg (by simp), if_pos hi] at this
    rw [← this]
    exact hid.symm
  rw [hval] at near
  have src : ∀ n < p.angles, ∀ i < p.cells, ((fullArr p t).group (bidx (fullArr p t).groups g)).val i
      (bidx ((fullArr p t).group (bidx (fullArr p t).groups g)).angles n) = t i n g := fun n hn i hi =>
    sourceAt_fullArr p t hn hg
  have srcq : ∀ n < p.angles, ∀ i < p.cells, (fullArr p q).val i (bidx (fullArr p q).angles n)
      (bidx (fullArr p q).groups g) = q i n g := fun n hn i hi => sourceAt_fullArr p q hn hg
  have up := swept_scaled_le (hok g hg).nonzero (hok g hg).phys (hfine' g hg) hT1 (hsol.balance g hg) p1
    (hsol.inflow g hg) p2 (fun n hn _ => hb g hg n hn 0 (by omega)) (fun n hn _ => hb g hg n hn 1 (by omega))
    (fun n hn i hi => by rw [src n hn i hi, srcq n hn i hi]; exact (hrhs g hg n hn i hi).2.1)
  have down := swept_scaled_le (hok g hg).nonzero (hok g hg).phys (hfine' g hg) hT1 p1 (hsol.balance g hg)
    p2 (hsol.inflow g hg) (fun n hn _ => hb g hg n hn 0 (by omega)) (fun n hn _ => hb g hg n hn 1 (by omega))
    (fun n hn i hi => by rw [src n hn i hi, srcq n hn i hi]; exact (hrhs g hg n hn i hi).2.2)
  have hTr : F * (rho ^ (p.groups + 1) * r ^ (p.groups + 2)) = T * rho := by rw [hT, hM]; ring
  rw [hTr]
  obtain ⟨n1, n2, n3⟩ := near
  refine ⟨n1, n2.trans ?_, ?_⟩
  · calc rho * ((ps n i + ps n (i + 1)) / 2) ≤ rho * (T * ((e g n i + e g n (i + 1)) / 2)) := by
          refine mul_le_mul_of_nonneg_left ?_ hrho0.le
          have := up n hn i hi.le
          have := up n hn (i + 1) hi
          linarith
      _ = _ := by ring
  · have h1 : (e g n i + e g n (i + 1)) / 2 ≤ T * ((ps n i + ps n (i + 1)) / 2) := by
      have := down n hn i hi.le
      have := down n hn (i + 1) hi
      linarith
    refine h1.trans ?_
    rw [mul_assoc]
    exact mul_le_mul_of_nonneg_left n3 hT0.le

/-! ## C214 -/

/-- The rates `1 / (velocity dt)` as the computer rounds them. -/
def floatRate (rnd : K → K) (velocity : ℕ → K) (dt : K) (g : ℕ) : K := rnd (1 / rnd (velocity g * dt))

/-- The sum of the scattering and fission matrices as the computer rounds it. -/
def floatTransfer (rnd : K → K) (xs : ℕ → ℕ → ℕ → K) : Fission K → ℕ → ℕ → ℕ → K
  | .matrix f => fun m g g' => rnd (xs m g g' + f m g g')
  | .vector chi nu => fun m g g' => rnd (xs m g g' + rnd (chi m g * nu m g'))

/-- Exact implicit steps with the rounded coefficients: `ref 0` is the initial flux and `ref (j + 1)` solves
`mu dpsi/dx + sigma* psi = sum X phi + external + rate ref_j` in every cell, direction and group, where
`phi j` is the scalar flux of `ref (j + 1)`; no rounding anywhere but in the coefficients `sigma*`, `X` and `rate`. -/
structure FloatReference (rnd : K → K) (p : Problem K) (xsTotal : ℕ → ℕ → K) (xs : ℕ → ℕ → ℕ → K) (fission : Fission K)
    (velocity : ℕ → K) (external boundary : TimeArr K) (steps : ℕ) (dt : K) (init : ℕ → ℕ → ℕ → K)
    (ref : ℕ → ℕ → ℕ → ℕ → K) : Prop where
  start : ∀ i < p.cells, ∀ n < p.angles, ∀ g < p.groups, ref 0 i n g = init i n g
  step : ∀ j < steps, ImplicitStep p (fun m g => rnd (xsTotal m g + floatRate rnd velocity dt g))
    (floatTransfer rnd xs fission) (quadrature p (ref (j + 1)))
    (fun i n g => -(floatRate rnd velocity dt g * ref j i n g)) (entry external j) (entry boundary j) (ref (j + 1))

/-- The number of roundings that one time step adds. -/
def timeCost (th : K) (G N A : ℕ) : K := (G + 1) * sweepCost th G N A + (G + 4)

/-- C214: the reference exists. -/
theorem C214_reference_exists (rnd : K → K) (p : Problem K) (xsTotal : ℕ → ℕ → K) (xs : ℕ → ℕ → ℕ → K)
    (fission : Fission K) (velocity : ℕ → K) (external boundary : TimeArr K) (steps : ℕ) (dt : K) (init : ℕ → ℕ → ℕ → K)
    (hok : ∀ g < p.groups, SlabOk p (fun m g => rnd (xsTotal m g + floatRate rnd velocity dt g)) g)
    (hdown : ∀ m g g', g ≤ g' → floatTransfer rnd xs fission m g g' = 0) :
    ∃ ref, FloatReference rnd p xsTotal xs fission velocity external boundary steps dt init ref := by
  have one : ∀ (j : ℕ) (psi : ℕ → ℕ → ℕ → K), ∃ new,
      ImplicitStep p (fun m g => rnd (xsTotal m g + floatRate rnd velocity dt g))
        (floatTransfer rnd xs fission) (quadrature p new)
        (fun i n g => -(floatRate rnd velocity dt g * psi i n g)) (entry external j) (entry boundary j) new := by
    intro j psi
    obtain ⟨phi, e, -, hs⟩ := C22_downscatter_exact p (fun m g => rnd (xsTotal m g + floatRate rnd velocity dt g))
      (floatTransfer rnd xs fission) (fullArr p fun i n g => sourceAt (entry external j) i n g
        + floatRate rnd velocity dt g * psi i n g) (entry boundary j) (fun _ _ => 0) hok hdown
    refine ⟨fun i n g => (e g n i + e g n (i + 1)) / 2, e, fun g hg => ⟨fun n hn i hi => rfl, fun n hn i hi => ?_,
      hs.inflow g hg⟩⟩
    have h1 := hs.balance g hg n hn i hi
    beta_reduce at h1 ⊢
    rw [show (fullArr p fun i n g => sourceAt (entry external j) i n g + floatRate rnd velocity dt g * psi i n g).val i
        (bidx (fullArr p fun i n g => sourceAt (entry external j) i n g + floatRate rnd velocity dt g * psi i n g).angles n)
        (bidx (fullArr p fun i n g => sourceAt (entry external j) i n g + floatRate rnd velocity dt g * psi i n g).groups g)
        = sourceAt (entry external j) i n g + floatRate rnd velocity dt g * psi i n g from sourceAt_fullArr p _ hn hg] at h1
    have h2 : ∑ g' ∈ range p.groups, floatTransfer rnd xs fission (p.mm i) g g'
        * quadrature p (fun i n g => (e g n i + e g n (i + 1)) / 2) i g'
        = ∑ g' ∈ range p.groups, floatTransfer rnd xs fission (p.mm i) g g' * phi i g' :=
      sum_congr rfl fun g' hg' => by rw [hs.scalar g' (mem_range.mp hg') i hi]; rfl
    rw [h2]
    linear_combination h1
  choose next hnext using one
  refine ⟨fun j => Nat.rec init (fun k psi => next k psi) j, fun _ _ _ _ _ _ => rfl, fun j hj => ?_⟩
  exact hnext j _

/-- C214: the coefficients of the reference are those of the problem up to a few roundings. -/
theorem C214_coefficients {rnd : K → K} {u r : K} (hu0 : 0 ≤ u) (hu1 : u < 1) (herr : RelativeError u rnd)
    (hr : r = 1 / (1 - u)) (xsTotal : ℕ → ℕ → K) (xs : ℕ → ℕ → ℕ → K) (fission : Fission K) (velocity : ℕ → K) (dt : K)
    {m g g' : ℕ} (hv : 0 < velocity g) (hdt : 0 < dt) (hT : 0 ≤ xsTotal m g) (hxs : 0 ≤ xs m g g')
    (hf : 0 ≤ fissionMatrix fission m g g') :
    WithinFactor (r ^ 2) (1 / (velocity g * dt)) (floatRate rnd velocity dt g) ∧
    WithinFactor (r ^ 3) (xsTotal m g + 1 / (velocity g * dt)) (rnd (xsTotal m g + floatRate rnd velocity dt g)) ∧
    WithinFactor (r ^ 2) (xs m g g' + fissionMatrix fission m g g') (floatTransfer rnd xs fission m g g') := by
  have hw := herr.within hu0 hu1
  rw [← hr] at hw
  have hp : 0 < 1 - u := by linarith
  have hr1 : 1 ≤ r := by rw [hr, le_div_iff₀ hp]; linarith
  have hr0 : 0 < r := by linarith
  have hr2 : r ≤ r ^ 2 := by nlinarith
  have h1 : WithinFactor (r ^ 2) (1 / (velocity g * dt)) (floatRate rnd velocity dt g) := by
    have := ((WithinFactor.refl le_rfl zero_le_one).div one_pos hr0 (mul_pos hv hdt)
      (hw _ (mul_pos hv hdt).le)).round hw (by positivity) hr0
    rw [one_mul, ← sq] at this
    exact this
  refine ⟨h1, ?_, ?_⟩
  · have := ((WithinFactor.refl (c := r ^ 2) (by nlinarith) hT).add h1).round hw (by positivity) hr0
    rw [← pow_succ] at this
    exact this
  · cases fission with
    | matrix f => exact (hw _ (add_nonneg hxs hf)).mono hr0 hr2
    | vector chi nu =>
      have h2 := hw _ hf
      have := ((WithinFactor.refl hr1 hxs).add h2).round hw hr0 hr0
      rw [← sq] at this
      exact this

/-- C214: backward Euler on a down-scatter problem, run in floating point, is accurate in the relative sense in every
cell, group and step, whatever the convergence tests: the flux of step `j` agrees with the scalar flux of the exact
implicit steps with the rounded coefficients up to the factor `1/(1 - (j + 1) L u)` with
`L = (G + 1) C + G + 4`, `C` the cost of a pass (C176).  The error grows at most in proportion to the number of steps. -/
theorem C214_rounded_backward_euler {rnd : K → K} {u th : K} (p : Problem K) (xsTotal : ℕ → ℕ → K)
    (xs : ℕ → ℕ → ℕ → K) (fission : Fission K) (velocity : ℕ → K) (external boundary : TimeArr K) (steps : ℕ) (dt : K)
    (init : ℕ → ℕ → ℕ → K) (hu : 0 ≤ u) (herr : RelativeError u rnd) (hth0 : 0 ≤ th) (hth1 : th < 1)
    (hok : TimedOk p xsTotal velocity dt) (hN : 0 < p.cells)
    (hext : Covers external steps) (hbnd : Covers boundary steps)
    (hfine : ∀ g < p.groups, ∀ n < p.angles, FineBy th p.cells (p.angleX n) p.dx
      (fun i => rnd (xsTotal (p.mm i) g + floatRate rnd velocity dt g)))
    (hw : ∀ n < p.angles, 0 ≤ p.angleW n)
    (hxs : ∀ i < p.cells, ∀ g < p.groups, ∀ g' < p.groups, 0 ≤ xs (p.mm i) g g' ∧ 0 ≤ fissionMatrix fission (p.mm i) g g')
    (hdown : ∀ m g g', g ≤ g' → floatTransfer rnd xs fission m g g' = 0)
    (hqe : ∀ j < steps, ∀ i < p.cells, ∀ n < p.angles, ∀ g < p.groups, 0 ≤ sourceAt (entry external j) i n g)
    (hbe : ∀ j < steps, ∀ s < 2, ∀ n < p.angles, ∀ g < p.groups, 0 ≤ sourceAt (entry boundary j) s n g)
    (hinit : ∀ i < p.cells, ∀ n < p.angles, ∀ g < p.groups, 0 ≤ init i n g)
    (hcost : sweepCost th p.groups p.cells p.angles * u < 1) (ref : ℕ → ℕ → ℕ → ℕ → K)
    (href : FloatReference rnd p xsTotal xs fission velocity external boundary steps dt init ref) :
    ∃ out, Rounded.backwardEuler rnd p xsTotal xs fission velocity external boundary steps dt init = .ok out ∧
      ∀ j < steps, ((j : K) + 1) * timeCost th p.groups p.cells p.angles * u < 1 →
        ∀ i < p.cells, ∀ g < p.groups,
          WithinFactor (1 / (1 - ((j : K) + 1) * timeCost th p.groups p.cells p.angles * u))
            (quadrature p (ref (j + 1)) i g) (out j i g) := by
  obtain ⟨r, hr⟩ : ∃ r : K, r = 1 / (1 - u) := ⟨_, rfl⟩
  obtain ⟨C, hC⟩ : ∃ C, C = sweepCost th p.groups p.cells p.angles := ⟨_, rfl⟩
  obtain ⟨rho, hrho⟩ : ∃ rho : K, rho = 1 / (1 - sweepCost th p.groups p.cells p.angles * u) := ⟨_, rfl⟩
  obtain ⟨-, hu1, -⟩ := sweepFactor_le (G := p.groups) (A := p.angles) hN hu hth0 hth1 hcost hr
  have hw' := herr.within hu hu1
  rw [← hr] at hw'
  have hp : 0 < 1 - u := by linarith
  have hr1 : 1 ≤ r := by rw [hr, le_div_iff₀ hp]; linarith
  have hr0 : 0 < r := by linarith
  have hC0 : 0 ≤ C := hC ▸ sweepCost_nonneg hth1 p.groups p.cells p.angles
  have hrho1 : 1 ≤ rho := by
    have := mul_nonneg hC0 hu
    rw [hC] at this
    rw [hrho, le_div_iff₀ (by linarith)]; linarith
  have hrho0 : 0 < rho := by linarith
  obtain ⟨L, hL⟩ : ∃ L, L = rho ^ (p.groups + 1) * r ^ (p.groups + 4) := ⟨_, rfl⟩
  have hL1 : 1 ≤ L := by
    rw [hL]; nlinarith [one_le_pow₀ (n := p.groups + 1) hrho1, one_le_pow₀ (n := p.groups + 4) hr1]
  have hL0 : 0 < L := by linarith
  have hrate : ∀ g < p.groups, 0 ≤ floatRate rnd velocity dt g := fun g hg =>
    (hw' _ (div_nonneg zero_le_one (hw' _ (mul_pos (hok.velocity g hg) hok.dt).le).1)).1
  obtain ⟨sigma, hsig⟩ : ∃ s : ℕ → ℕ → K, s = fun m g => rnd (xsTotal m g + floatRate rnd velocity dt g) := ⟨_, rfl⟩
  obtain ⟨X, hX⟩ : ∃ X, X = floatTransfer rnd xs fission := ⟨_, rfl⟩
  have hsig' : Rounded.xsStar rnd xsTotal velocity dt = sigma := by rw [hsig]; rfl
  have hX' : Rounded.transferMatrix rnd xs fission = X := by rw [hX]; cases fission <;> rfl
  have hokV : ∀ g < p.groups, SlabOk p sigma g := fun g hg =>
    ⟨(hok.ok g hg).slab, (hok.ok g hg).nonzero, fun i hi => ⟨((hok.ok g hg).phys i hi).1, by
      rw [hsig]; exact (hw' _ (add_nonneg ((hok.ok g hg).phys i hi).2 (hrate g hg))).1⟩⟩
  have hXn : ∀ i < p.cells, ∀ g < p.groups, ∀ g' < p.groups, 0 ≤ X (p.mm i) g g' := by
    intro i hi g hg g' hg'
    obtain ⟨h1, h2⟩ := hxs i hi g hg g' hg'
    rw [hX]
    cases fission with
    | matrix f => exact (hw' _ (add_nonneg h1 h2)).1
    | vector chi nu => exact (hw' _ (add_nonneg h1 (hw' _ h2).1)).1
  obtain ⟨s, h1, -, -, h4⟩ := loopE_inv (fun k (s : BEState K) =>
      (∀ i < p.cells, ∀ g < p.groups, 0 ≤ s.fluxOld i g) ∧
      (∀ i < p.cells, ∀ n < p.angles, ∀ g < p.groups, WithinFactor (L ^ k) (ref k i n g) (s.psi i n g)) ∧
      ∀ j < k, ∀ i < p.cells, ∀ g < p.groups, WithinFactor (L ^ (j + 1)) (quadrature p (ref (j + 1)) i g) (s.out j i g))
    steps
    (Rounded.beStep rnd p xsTotal (Rounded.transferMatrix rnd xs fission) velocity external boundary dt)
    ⟨Rounded.scalarFlux rnd p init, init, fun _ _ _ => 0⟩
    ⟨fun i hi g hg => loop_induction (fun _ (a : K) => 0 ≤ a) _ _ _ (le_refl _) fun n hn _ ha =>
        (hw' _ (add_nonneg ha (hw' _ (mul_nonneg (hinit i hi n hn g hg) (hw n hn))).1)).1,
      fun i hi n hn g hg => by
        rw [href.start i hi n hn g hg, pow_zero]
        exact WithinFactor.refl le_rfl (hinit i hi n hn g hg),
      fun j hj => absurd hj (Nat.not_lt_zero _)⟩ (fun j hj s hs => by
      obtain ⟨a1, a2, a3⟩ := hs
      have hLj : 0 < L ^ j := by positivity
      have hLj1 : 1 ≤ L ^ j := one_le_pow₀ hL1
      obtain ⟨e, he⟩ := href.step j hj
      rw [← hsig, ← hX] at he
      obtain ⟨q, hq⟩ : ∃ q : ℕ → ℕ → ℕ → K, q = fun i n g => sourceAt (entry external j) i n g
        + floatRate rnd velocity dt g * ref j i n g := ⟨_, rfl⟩
      have hsol : SolvesMultigroup p sigma X (fullArr p q) (entry boundary j) (quadrature p (ref (j + 1))) e :=
        ⟨fun g hg i hi => by
          unfold quadrature scalarCenter
          exact sum_congr rfl fun n hn => by rw [(he g hg).1 n (mem_range.mp hn) i hi],
        fun g hg n hn i hi => by
          have h1 := (he g hg).2.1 n hn i hi
          have h2 : (fullArr p q).val i (bidx (fullArr p q).angles n) (bidx (fullArr p q).groups g) = q i n g :=
            sourceAt_fullArr p q hn hg
          rw [(he g hg).1 n hn i hi] at h1
          beta_reduce
          rw [h2, hq]
          linear_combination h1,
        fun g hg => (he g hg).2.2⟩
      have hqn : ∀ g < p.groups, ∀ n < p.angles, ∀ i < p.cells, WithinFactor (L ^ j * r ^ 2) (q i n g)
          (Rounded.qStar1 rnd (entry external j) velocity dt s.psi i n g) := fun g hg n hn i hi => by
        have h1 := ((WithinFactor.refl (c := 1) le_rfl (hrate g hg)).mul one_pos hLj (a2 i hi n hn g hg)).round hw'
          (by positivity) hr0
        rw [one_mul] at h1
        have h2 := ((WithinFactor.refl (c := L ^ j * r) (by nlinarith) (hqe j hj i hi n hn g hg)).add h1).round hw'
          (by positivity) hr0
        rw [mul_assoc, ← sq] at h2
        rw [hq]
        exact h2
      obtain ⟨flux, f1, f2, f3⟩ := rounded_time_step hr hrho (by nlinarith [one_le_pow₀ (n := 2) hr1]) hok.angles hu herr hN
        hth0 hth1 hcost hokV (by rw [hsig]; exact hfine) hw hXn (by rw [hX]; exact hdown)
        (fun g hg n hn s hs => hbe j hj s hs n hn g hg) hqn (quadrature p (ref (j + 1))) e hsol s.fluxOld a1
      refine ⟨⟨flux, Rounded.knownSourceAngular rnd p sigma
        (fullArr p (Rounded.timeRightSide rnd p.groups (Rounded.qStar1 rnd (entry external j) velocity dt s.psi) flux
          X p.mm)) (entry boundary j), Function.update s.out j flux⟩, ?_, fun i hi g hg => (f2 i hi g hg).1,
          fun i hi n hn g hg => ?_, ?_⟩
      · unfold Rounded.beStep
        rw [get_ok hext hj, get_ok hbnd hj, hsig', hX']
        simp only [f1]
      · have h := f3 i hi n hn g hg
        rw [← (he g hg).1 n hn i hi] at h
        rw [show L ^ (j + 1) = L ^ j * r ^ 2 * (rho ^ (p.groups + 1) * r ^ (p.groups + 2)) by
          rw [pow_succ, hL]; ring]
        exact h
      · intro k hk i hi g hg
        by_cases hkj : k = j
        · subst hkj
          simp only [Function.update_self]
          refine (f2 i hi g hg).mono (by positivity) ?_
          rw [pow_succ L, mul_assoc]
          refine mul_le_mul_of_nonneg_left ?_ hLj.le
          rw [hL, mul_comm]
          exact mul_le_mul (pow_le_pow_right₀ hrho1 (by omega)) (pow_le_pow_right₀ hr1 (by omega)) (by positivity)
            (by positivity)
        · simp only [Function.update_of_ne hkj]; exact a3 k (by omega) i hi g hg)
  refine ⟨s.out, ?_, fun j hj hc i hi g hg => (h4 j hj i hi g hg).mono (by positivity) ?_⟩
  · unfold Rounded.backwardEuler
    rw [h1]
    rfl
  · have hD : timeCost th p.groups p.cells p.angles = ((p.groups + 1 : ℕ) : K) * C + ((p.groups + 4 : ℕ) : K) := by
      rw [timeCost, hC]; push_cast; ring
    have hCu : C * u < 1 := hC ▸ hcost
    have b1 := bound_pow hrho0.le (mul_nonneg hC0 hu) (le_of_eq (by rw [hrho, ← hC]; field_simp)) (p.groups + 1)
    have b2 := bound_pow hr0.le hu (le_of_eq (by rw [hr]; field_simp)) (p.groups + 4)
    have b3 := bound_mul (pow_nonneg hrho0.le _) (pow_nonneg hr0.le _)
      (mul_nonneg (Nat.cast_nonneg _) (mul_nonneg hC0 hu)) (mul_nonneg (Nat.cast_nonneg _) hu) b1 b2
    rw [← hL, show ((p.groups + 1 : ℕ) : K) * (C * u) + ((p.groups + 4 : ℕ) : K) * u
      = timeCost th p.groups p.cells p.angles * u by rw [hD]; ring] at b3
    have hT0 : 0 ≤ timeCost th p.groups p.cells p.angles * u := by rw [hD]; positivity
    have b4 := bound_pow hL0.le hT0 b3 (j + 1)
    rw [le_div_iff₀ (by linarith)]
    push_cast at b4
    rw [← mul_assoc] at b4
    exact b4

/-! ### Examples -/

theorem exFlat_rate (g : ℕ) : toNearest 53 (1 + floatRate (toNearest 53) (fun _ => (1 : ℚ)) (1 / 2) g) ≤ 31 / 10 := by
  unfold floatRate
  have e1 := abs_le.mp (toNearest_error 53 (1 * (1 / 2)))
  rw [abs_of_nonneg (by norm_num : (0 : ℚ) ≤ 1 * (1 / 2))] at e1
  obtain ⟨a, ha⟩ : ∃ a, a = toNearest 53 (1 * (1 / 2)) := ⟨_, rfl⟩
  rw [← ha] at e1 ⊢
  have h1 : 49 / 100 ≤ a := by have := e1.1; norm_num at this; linarith
  have h2 : 1 / a ≤ 100 / 49 := by
    rw [div_le_div_iff₀ (by linarith) (by norm_num)]; linarith
  have h2' : 0 ≤ 1 / a := by positivity
  have e2 := abs_le.mp (toNearest_error 53 (1 / a))
  rw [abs_of_nonneg h2'] at e2
  obtain ⟨b, hb⟩ : ∃ b, b = toNearest 53 (1 / a) := ⟨_, rfl⟩
  rw [← hb] at e2 ⊢
  have h3 : b ≤ 205 / 100 := by
    have := e2.2
    have h4 : 1 / 2 ^ 53 * (1 / a) ≤ 1 / 2 ^ 53 * (100 / 49) := mul_le_mul_of_nonneg_left h2 (by positivity)
    norm_num at this h4 h2
    linarith
  have h4 : 0 ≤ b := by rw [hb]; exact (toNearest_rounding (b := 53) (by norm_num)).nonneg h2'
  have e3 := (abs_le.mp (toNearest_error 53 (1 + b))).2
  rw [abs_of_nonneg (by linarith)] at e3
  have h5 : 1 / 2 ^ 53 * (1 + b) ≤ 1 / 2 ^ 53 * 4 := mul_le_mul_of_nonneg_left (by linarith) (by positivity)
  norm_num at e3 h5
  linarith

theorem exFlat_rate_nonneg (g : ℕ) : 0 ≤ toNearest 53 (1 + floatRate (toNearest 53) (fun _ => (1 : ℚ)) (1 / 2) g) := by
  have hr := toNearest_rounding (b := 53) (by norm_num)
  exact hr.nonneg (add_nonneg zero_le_one (hr.nonneg (div_nonneg zero_le_one (hr.nonneg (by norm_num)))))

theorem exFlat_float_down : ∀ m g g', g ≤ g' →
    floatTransfer (toNearest 53) (exFlatXs ℚ) (.matrix fun _ _ _ => 0) m g g' = 0 := by
  intro m g g' h
  show toNearest 53 (exFlatXs ℚ m g g' + 0) = 0
  rw [exFlatXs, if_neg (by omega), add_zero]
  exact (toNearest_rounding (b := 53) (by norm_num)).zero

-- C214: three steps from the flux 1 with a source that grows in time, in arithmetic with 53 bits: the three fluxes
-- agree with the reference to twelve digits
example : ∃ ref out, FloatReference (toNearest 53) (exFlat ℚ) (fun _ _ => 1) (exFlatXs ℚ) (.matrix fun _ _ _ => 0)
      (fun _ => 1) ⟨3, fun j => ⟨1, 2, fun _ _ g => (j + g : ℕ)⟩⟩ ⟨1, fun _ => ⟨1, 1, fun _ _ _ => 1⟩⟩ 3 (1 / 2)
      (fun _ _ _ => 1) ref ∧
    Rounded.backwardEuler (toNearest 53) (exFlat ℚ) (fun _ _ => 1) (exFlatXs ℚ) (.matrix fun _ _ _ => 0)
      (fun _ => 1) ⟨3, fun j => ⟨1, 2, fun _ _ g => (j + g : ℕ)⟩⟩ ⟨1, fun _ => ⟨1, 1, fun _ _ _ => 1⟩⟩ 3 (1 / 2)
      (fun _ _ _ => 1) = .ok out ∧
    ∀ j < 3, ∀ i < 2, ∀ g < 2, WithinFactor (1 + 1 / 10 ^ 12) (quadrature (exFlat ℚ) (ref (j + 1)) i g) (out j i g) := by
  have hphys : ∀ g < 2, SlabOk (exFlat ℚ)
      (fun m g => toNearest 53 ((fun _ _ => 1 : ℕ → ℕ → ℚ) m g + floatRate (toNearest 53) (fun _ => 1) (1 / 2) g)) g :=
    fun g _ => ⟨(exFlat_ok g).slab, (exFlat_ok (K := ℚ) g).nonzero, fun i hi =>
      ⟨((exFlat_ok g).phys i hi).1, exFlat_rate_nonneg g⟩⟩
  obtain ⟨ref, href⟩ := C214_reference_exists (toNearest 53) (exFlat ℚ) (fun _ _ => 1) (exFlatXs ℚ)
    (.matrix fun _ _ _ => 0) (fun _ => 1) ⟨3, fun j => ⟨1, 2, fun _ _ g => (j + g : ℕ)⟩⟩
    ⟨1, fun _ => ⟨1, 1, fun _ _ _ => 1⟩⟩ 3 (1 / 2) (fun _ _ _ => 1) hphys exFlat_float_down
  obtain ⟨out, h1, h2⟩ := C214_rounded_backward_euler (u := 1 / 2 ^ 53) (th := 1 / 2) (exFlat ℚ) (fun _ _ => 1)
    (exFlatXs ℚ) (.matrix fun _ _ _ => 0) (fun _ => 1) ⟨3, fun j => ⟨1, 2, fun _ _ g => (j + g : ℕ)⟩⟩
    ⟨1, fun _ => ⟨1, 1, fun _ _ _ => 1⟩⟩ 3 (1 / 2) (fun _ _ _ => 1) (by positivity) (toNearest_error 53) (by norm_num)
    (by norm_num) exFlat_timed (by show 0 < 2; omega) (Or.inr le_rfl) (Or.inl rfl)
    (fun g _ n _ i _ => by
      have h : |(exFlat ℚ).angleX n| = 1 / 2 := by
        show |if n = 0 then (-1 / 2 : ℚ) else 1 / 2| = 1 / 2
        split <;> norm_num [abs_of_pos, abs_of_neg]
      rw [h]
      have := exFlat_rate g
      show toNearest 53 (1 + floatRate (toNearest 53) (fun _ => (1 : ℚ)) (1 / 2) g) * (1 / 10) ≤ _
      norm_num at this ⊢
      linarith)
    exFlat_tame.weights
    (fun _ _ g _ g' _ => ⟨by simp only [exFlatXs]; split <;> norm_num, le_refl (0 : ℚ)⟩)
    exFlat_float_down (fun j _ i _ n _ g _ => by simp only [sourceAt, entry]; split <;> positivity)
    (fun j _ s _ n _ g _ => zero_le_one) (fun _ _ _ _ _ _ => zero_le_one) (by norm_num [exFlat, sweepCost]) ref href
  refine ⟨ref, out, href, h1, fun j hj i hi g hg => ?_⟩
  have hj' : ((j : ℕ) : ℚ) ≤ 2 := by exact_mod_cast (by omega : j ≤ 2)
  have hj0 : (0 : ℚ) ≤ j := Nat.cast_nonneg j
  have hc : ((j : ℚ) + 1) * timeCost (1 / 2) (exFlat ℚ).groups (exFlat ℚ).cells (exFlat ℚ).angles * (1 / 2 ^ 53)
      ≤ 1 / 10 ^ 13 := by
    calc _ ≤ (2 + 1) * timeCost (1 / 2 : ℚ) (exFlat ℚ).groups (exFlat ℚ).cells (exFlat ℚ).angles * (1 / 2 ^ 53) := by
          refine mul_le_mul_of_nonneg_right (mul_le_mul_of_nonneg_right (by linarith) ?_) (by positivity)
          norm_num [exFlat, timeCost, sweepCost]
      _ ≤ _ := by norm_num [exFlat, timeCost, sweepCost]
  have h3 : (0 : ℚ) < 1 / 10 ^ 13 := by positivity
  refine (h2 j hj (hc.trans_lt (by norm_num)) i hi g hg).mono (by
    refine div_pos one_pos ?_
    linarith [hc.trans_lt (by norm_num : (1 : ℚ) / 10 ^ 13 < 1)]) ?_
  rw [div_le_iff₀ (by linarith [hc.trans_lt (by norm_num : (1 : ℚ) / 10 ^ 13 < 1)])]
  obtain ⟨y, hy⟩ : ∃ y, y = ((j : ℚ) + 1) * timeCost (1 / 2) (exFlat ℚ).groups (exFlat ℚ).cells (exFlat ℚ).angles
    * (1 / 2 ^ 53) := ⟨_, rfl⟩
  rw [← hy] at hc ⊢
  norm_num at hc ⊢
  linarith

example := C214_coefficients (rnd := toNearest 53) (u := 1 / 2 ^ 53) (by positivity) (by norm_num) (toNearest_error 53)
  rfl (fun _ _ => 1) (exFlatXs ℚ) (.vector (fun _ g => g) fun _ g => g) (fun g => g + 1) (1 / 3) (m := 0) (g := 1)
  (g' := 0) (by positivity) (by norm_num) zero_le_one (by norm_num [exFlatXs]) (by norm_num [fissionMatrix])

-- a thousand steps with ten groups, a hundred cells and eight directions in double precision
example : 1000 * timeCost (1 / 2 : ℚ) 10 100 8 * (1 / 2 ^ 53) < 1 / 10 ^ 8 := by norm_num [timeCost, sweepCost]

end Discrete1.Props
